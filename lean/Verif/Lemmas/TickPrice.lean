import Verif.Math
import Verif.Lemmas.Amounts

/-!
# Prices of ticks: the product over the binary digits, monotonicity
-/

namespace OraiV3

/-- The constants of `calculate_sqrt_price`, lowest digit first. -/
def spConsts : List Nat :=
  [1000049998750, 1000100000000, 1000200010000, 1000400060004, 1000800280056, 1001601200560, 1003204964963,
   1006420201726, 1012881622442, 1025929181080, 1052530684591, 1107820842005, 1227267017980, 1506184333421,
   2268591246242, 5146506242525, 26486526504348, 701536086265529]

/-- The product over the digits of `t`. -/
def spFold : List Nat → Nat → Nat → Nat
  | [], _, a => a
  | c :: cs, t, a => spFold cs (t / 2) (if t % 2 = 1 then a * c / FIX else a)

theorem spRaw_eq (t : Nat) : spRaw t = spFold spConsts t FIX := by
  unfold spRaw spConsts
  simp only [spFold, spFactor, Nat.div_div_eq_div_mul, Nat.div_one]

/-- `b` exceeds `a` by the factor `1 + 1/25000`, with room for `n` roundings. -/
def Above (n a b : Nat) : Prop := a * 25001 + n * 25000 ≤ b * 25000

theorem Above.mul {n a b c : Nat} (hc : FIX ≤ c) (h : Above (n + 1) a b) :
    Above n (a * c / FIX) (b * c / FIX) := by
  unfold Above at *
  have ha := floor_spec (a * c) FIX (by norm_num)
  have hb := floor_spec (b * c) FIX (by norm_num)
  generalize a * c / FIX = a' at *
  generalize b * c / FIX = b' at *
  have hF : 0 < FIX := by norm_num
  generalize FIX = F at *
  have h1 : (a * 25001 + (n + 1) * 25000) * c ≤ b * 25000 * c := Nat.mul_le_mul_right c h
  have h2 : (n + 1) * 25000 * F ≤ (n + 1) * 25000 * c := Nat.mul_le_mul_left _ hc
  have h3 : (a' * 25001 + n * 25000) * F ≤ b' * 25000 * F := by nlinarith
  exact Nat.le_of_mul_le_mul_right h3 hF

theorem Above.mono {n m a b : Nat} (hm : m ≤ n) (h : Above n a b) : Above m a b := by
  unfold Above at *
  have : m * 25000 ≤ n * 25000 := Nat.mul_le_mul_right _ hm
  linarith

theorem Above.fold {cs : List Nat} (hc : ∀ c ∈ cs, FIX ≤ c) {a b : Nat} (h : Above cs.length a b) (t : Nat) :
    Above 0 (spFold cs t a) (spFold cs t b) := by
  induction cs generalizing a b t with
  | nil => rw [List.length_nil] at h; simpa only [spFold] using h
  | cons c cs ih =>
    simp only [spFold]
    rw [List.length_cons] at h
    apply ih (fun x hx => hc x (List.mem_cons_of_mem _ hx))
    by_cases h1 : t % 2 = 1
    · rw [if_pos h1, if_pos h1]
      exact h.mul (hc c (by simp))
    · rw [if_neg h1, if_neg h1]
      exact h.mono (Nat.le_succ _)

/-- Each constant exceeds the product of the smaller ones. -/
def chainOk : List Nat → Nat → Prop
  | [], _ => True
  | c :: cs, a => Above cs.length a (FIX * c / FIX) ∧ chainOk cs (a * c / FIX)

instance : ∀ (cs : List Nat) (a : Nat), Decidable (chainOk cs a)
  | [], _ => isTrue trivial
  | c :: cs, a => by
    have : Decidable (chainOk cs (a * c / FIX)) := instDecidableChainOk cs _
    unfold chainOk Above
    infer_instance

theorem chain_above : ∀ {cs : List Nat} (_ : ∀ c ∈ cs, FIX ≤ c) {a : Nat} (_ : chainOk cs a) (t : Nat),
    t + 1 < 2 ^ cs.length → Above 0 (spFold cs t a) (spFold cs (t + 1) FIX)
  | [], _, a, _, t, ht => by simp at ht
  | c :: cs, hc, a, h, t, ht => by
    have hc' : ∀ x ∈ cs, FIX ≤ x := fun x hx => hc x (List.mem_cons_of_mem _ hx)
    unfold spFold
    rcases Nat.mod_two_eq_zero_or_one t with h0 | h1
    · have e1 : (t + 1) % 2 = 1 := by omega
      have e2 : (t + 1) / 2 = t / 2 := by omega
      rw [e2, if_pos e1, if_neg (by omega)]
      exact Above.fold hc' h.1 _
    · have e1 : ¬ (t + 1) % 2 = 1 := by omega
      have e2 : (t + 1) / 2 = t / 2 + 1 := by omega
      rw [e2, if_neg e1, if_pos h1]
      apply chain_above hc' h.2
      simp only [List.length_cons, Nat.pow_succ] at ht
      omega

/-- Consecutive prices differ by the factor `1 + 1/25000` at least. -/
theorem spRaw_succ {t : Nat} (h : t < 2 ^ 18 - 1) : spRaw t * 25001 ≤ spRaw (t + 1) * 25000 := by
  rw [spRaw_eq, spRaw_eq]
  have h1 : ∀ c ∈ spConsts, FIX ≤ c := by decide
  have h2 : chainOk spConsts FIX := by decide +kernel
  have := chain_above h1 h2 t (by show t + 1 < 2 ^ 18; omega)
  unfold Above at this
  linarith

theorem spRaw_zero : spRaw 0 = FIX := by decide

theorem spRaw_lt {t : Nat} (h : t < 2 ^ 18 - 1) : spRaw t < spRaw (t + 1) := by
  have h1 := spRaw_succ h
  have h0 : 0 < spRaw t := by
    clear h1
    induction t with
    | zero => rw [spRaw_zero]; norm_num
    | succ n ih =>
      have := spRaw_succ (t := n) (by omega)
      have := ih (by omega)
      omega
  omega

theorem spRaw_strict : ∀ {d t : Nat}, t + d < 2 ^ 18 → 0 < d → spRaw t < spRaw (t + d)
  | 0, t, _, h => by omega
  | 1, t, h, _ => spRaw_lt (by omega)
  | d + 2, t, h, _ => Nat.lt_trans (spRaw_strict (d := d + 1) (by omega) (by omega)) (spRaw_lt (t := t + (d + 1)) (by omega))

theorem spRaw_mono {t u : Nat} (h : t ≤ u) (hu : u < 2 ^ 18) : spRaw t ≤ spRaw u := by
  rcases Nat.lt_or_ge t u with h1 | h1
  · have := spRaw_strict (t := t) (d := u - t) (by omega) (by omega)
    rw [show t + (u - t) = u by omega] at this
    omega
  · have : t = u := by omega
    rw [this]

theorem spRaw_max : spRaw 221818 = 65535383934512647 := by decide +kernel

theorem spRaw_range {t : Nat} (h : t ≤ 221818) : FIX ≤ spRaw t ∧ spRaw t ≤ 65535383934512647 := by
  have h1 := spRaw_mono (Nat.zero_le t) (by omega)
  have h2 := spRaw_mono h (by norm_num)
  rw [spRaw_zero] at h1
  rw [spRaw_max] at h2
  exact ⟨h1, h2⟩

theorem inv_gap {N a b : Nat} (hN : N = 1000000000000000000000000) (hs : a * 25001 ≤ b * 25000) (ha : 0 < a)
    (hb : b ≤ 65535383934512647) : N / b < N / a := by
  apply (Nat.le_div_iff_mul_le ha).2
  have hq := floor_spec N b (by omega)
  generalize N / b = q at *
  have hq2 : 25000 ≤ q := by
    by_contra hc
    have : q * b ≤ 25000 * b := Nat.mul_le_mul_right _ (by omega)
    omega
  have h4 : q * (a * 25001) ≤ q * (b * 25000) := Nat.mul_le_mul_left _ hs
  have h5 : 25000 * a ≤ q * a := Nat.mul_le_mul_right _ hq2
  rw [Nat.succ_mul]
  nlinarith

/-- The price of a tick in units of `10^12`. -/
theorem sqrtPriceAt_succ {t : Int} (h1 : -MAX_TICK ≤ t) (h2 : t < MAX_TICK) : sqrtPriceAt t < sqrtPriceAt (t + 1) := by
  have hM : MAX_TICK = 221818 := rfl
  unfold sqrtPriceAt
  by_cases h0 : 0 ≤ t
  · rw [if_pos h0, if_pos (by omega)]
    have : (t + 1).natAbs = t.natAbs + 1 := by omega
    rw [this]
    exact Nat.mul_lt_mul_of_pos_right (spRaw_lt (by omega)) (by norm_num)
  · have hn : t.natAbs = (t + 1).natAbs + 1 := by omega
    have hr := spRaw_range (t := t.natAbs) (by omega)
    have hr' := spRaw_range (t := (t + 1).natAbs) (by omega)
    have hs := spRaw_succ (t := (t + 1).natAbs) (by omega)
    rw [← hn] at hs
    have key : FIX * FIX / spRaw t.natAbs < FIX * FIX / spRaw (t + 1).natAbs := by
      have hF : FIX = 1000000000000 := by norm_num
      exact inv_gap (by norm_num) hs (by omega) hr.2
    rw [if_neg h0]
    by_cases h3 : 0 ≤ t + 1
    · have : t = -1 := by omega
      subst this
      decide +kernel
    · rw [if_neg h3]
      exact Nat.mul_lt_mul_of_pos_right key (by norm_num)

theorem sqrtPriceAt_lt_add : ∀ (d : Nat) {t : Int}, -MAX_TICK ≤ t → t + (d + 1 : Nat) ≤ MAX_TICK →
    sqrtPriceAt t < sqrtPriceAt (t + (d + 1 : Nat))
  | 0, t, h1, h2 => sqrtPriceAt_succ h1 (by omega)
  | d + 1, t, h1, h2 => by
    have a := sqrtPriceAt_lt_add d h1 (by omega)
    have b := sqrtPriceAt_succ (t := t + (d + 1 : Nat)) (by omega) (by omega)
    have e : t + ((d + 1 : Nat) : Int) + 1 = t + ((d + 1 + 1 : Nat) : Int) := by omega
    rw [e] at b
    omega

/-- Prices are strictly increasing. -/
theorem sqrtPriceAt_lt {t u : Int} (h1 : -MAX_TICK ≤ t) (h2 : u ≤ MAX_TICK) (h : t < u) :
    sqrtPriceAt t < sqrtPriceAt u := by
  have := sqrtPriceAt_lt_add (u - t - 1).toNat (t := t) h1 (by omega)
  have e : t + (((u - t - 1).toNat + 1 : Nat) : Int) = u := by omega
  rw [e] at this
  exact this

theorem sqrtPriceAt_le {t u : Int} (h1 : -MAX_TICK ≤ t) (h2 : u ≤ MAX_TICK) (h : t ≤ u) :
    sqrtPriceAt t ≤ sqrtPriceAt u := by
  rcases lt_or_ge t u with h3 | h3
  · exact Nat.le_of_lt (sqrtPriceAt_lt h1 h2 h3)
  · have : t = u := by omega
    rw [this]

theorem sqrtPriceAt_lt_iff {t u : Int} (h1 : -MAX_TICK ≤ t) (h1' : t ≤ MAX_TICK) (h2 : -MAX_TICK ≤ u)
    (h2' : u ≤ MAX_TICK) : sqrtPriceAt t < sqrtPriceAt u ↔ t < u := by
  constructor
  · intro h
    by_contra hc
    have := sqrtPriceAt_le h2 h1' (show u ≤ t by omega)
    omega
  · exact sqrtPriceAt_lt h1 h2'

theorem sqrtPriceAt_le_iff {t u : Int} (h1 : -MAX_TICK ≤ t) (h1' : t ≤ MAX_TICK) (h2 : -MAX_TICK ≤ u)
    (h2' : u ≤ MAX_TICK) : sqrtPriceAt t ≤ sqrtPriceAt u ↔ t ≤ u := by
  have := sqrtPriceAt_lt_iff h2 h2' h1 h1'
  omega

theorem sqrtPriceAt_max : sqrtPriceAt MAX_TICK = MAX_SQRT_PRICE := by decide +kernel
theorem sqrtPriceAt_min : sqrtPriceAt (-MAX_TICK) = MIN_SQRT_PRICE := by decide +kernel

theorem sqrtPriceAt_range {t : Int} (h1 : -MAX_TICK ≤ t) (h2 : t ≤ MAX_TICK) :
    MIN_SQRT_PRICE ≤ sqrtPriceAt t ∧ sqrtPriceAt t ≤ MAX_SQRT_PRICE := by
  rw [← sqrtPriceAt_max, ← sqrtPriceAt_min]
  exact ⟨sqrtPriceAt_le (by omega) h2 h1, sqrtPriceAt_le h1 (by omega) h2⟩

/-- Prices of ticks have 12 decimals. -/
theorem sqrtPriceAt_dvd (t : Int) : 10 ^ 12 ∣ sqrtPriceAt t := by
  unfold sqrtPriceAt
  split <;> exact Nat.dvd_mul_left _ _

/-- The tick of a price: the greatest one whose price does not exceed it. -/
theorem exists_tick {p : Nat} (h1 : MIN_SQRT_PRICE ≤ p) :
    ∃ t : Int, -MAX_TICK ≤ t ∧ t ≤ MAX_TICK ∧ sqrtPriceAt t ≤ p ∧ (t < MAX_TICK → p < sqrtPriceAt (t + 1)) := by
  rw [← sqrtPriceAt_min] at h1
  have hM : MAX_TICK = 221818 := rfl
  -- search upwards from the minimum
  have : ∀ n : Nat, ∀ u : Int, -MAX_TICK ≤ u → u + n = MAX_TICK → sqrtPriceAt u ≤ p →
      ∃ t : Int, -MAX_TICK ≤ t ∧ t ≤ MAX_TICK ∧ sqrtPriceAt t ≤ p ∧ (t < MAX_TICK → p < sqrtPriceAt (t + 1)) := by
    intro n
    induction n with
    | zero => intro u h3 h4 h5; exact ⟨u, h3, by omega, h5, by omega⟩
    | succ n ih =>
      intro u h3 h4 h5
      by_cases h6 : p < sqrtPriceAt (u + 1)
      · exact ⟨u, h3, by omega, h5, fun _ => h6⟩
      · exact ih (u + 1) (by omega) (by omega) (by omega)
  exact this (2 * 221818) (-MAX_TICK) (by omega) (by omega) h1

end OraiV3
