import Verif.Lemmas.TickPrice
import Mathlib.Analysis.SpecialFunctions.Log.Deriv
import Mathlib.Analysis.Complex.ExponentialBounds

/-!
# Logarithms of the tick prices

Bounds on `2^32 · log2` of the price of a tick: it lies between `309800.75` and `309801` times the tick.
-/

namespace OraiV3

/-- Binary logarithm scaled by `2^32`. -/
noncomputable def lg (x : ℝ) : ℝ := Real.log x / Real.log 2 * 2 ^ 32

theorem log_two_pos : 0 < Real.log 2 := Real.log_pos (by norm_num)

theorem lg_mul {x y : ℝ} (hx : 0 < x) (hy : 0 < y) : lg (x * y) = lg x + lg y := by
  unfold lg; rw [Real.log_mul hx.ne' hy.ne']; ring

theorem lg_div {x y : ℝ} (hx : 0 < x) (hy : 0 < y) : lg (x / y) = lg x - lg y := by
  unfold lg; rw [Real.log_div hx.ne' hy.ne']; ring

theorem lg_pow (x : ℝ) (n : Nat) : lg (x ^ n) = n * lg x := by
  unfold lg; rw [Real.log_pow]; ring

theorem lg_two : lg 2 = 2 ^ 32 := by
  unfold lg; rw [div_self log_two_pos.ne', one_mul]

theorem lg_one : lg 1 = 0 := by unfold lg; simp

theorem lg_le {x y : ℝ} (hx : 0 < x) (h : x ≤ y) : lg x ≤ lg y := by
  unfold lg
  have := Real.log_le_log hx h
  have := log_two_pos
  gcongr

theorem lg_lt {x y : ℝ} (hx : 0 < x) (h : x < y) : lg x < lg y := by
  unfold lg
  have := Real.log_lt_log hx h
  have := log_two_pos
  gcongr

/-- `log (1 + x)` to second order. -/
theorem log_bounds {x : ℝ} (h0 : 0 < x) (h1 : x ≤ 1 / 1000) :
    x - x ^ 2 / 2 - 2 * x ^ 3 ≤ Real.log (1 + x) ∧ Real.log (1 + x) ≤ x - x ^ 2 / 2 + 2 * x ^ 3 := by
  have h := Real.abs_log_sub_add_sum_range_le (x := -x) (by rw [abs_neg, abs_of_pos h0]; linarith) 2
  rw [abs_neg, abs_of_pos h0] at h
  simp only [Finset.sum_range_succ, Finset.sum_range_zero, sub_neg_eq_add] at h
  norm_num at h
  have h2 := abs_le.1 h
  have h3 : x ^ 3 / (1 - x) ≤ x ^ 3 * 2 := by
    rw [div_le_iff₀ (by linarith)]
    have : 0 < x ^ 3 := by positivity
    nlinarith
  constructor <;> linarith

/-- Every constant is at most `2^(309801·w/2^32)`, where the weight `w` doubles with each digit. -/
def UpOk : List Nat → ℝ → Prop
  | [], _ => True
  | c :: cs, w => lg c ≤ lg FIX + 309801 * w ∧ UpOk cs (2 * w)

/-- Every constant is at least `2^(309800.75·w/2^32)`. -/
def LowOk : List Nat → ℝ → Prop
  | [], _ => True
  | c :: cs, w => lg FIX + 309800.75 * w ≤ lg c ∧ LowOk cs (2 * w)

theorem lg_fix_mul {a c q : Nat} (ha : 0 < a) (hc : 0 < c) (h : q * FIX ≤ a * c) (hq : 0 < q) :
    lg q + lg FIX ≤ lg a + lg c := by
  have hF : (0 : ℝ) < (FIX : Nat) := by norm_num
  have ha' : (0 : ℝ) < a := by exact_mod_cast ha
  have hc' : (0 : ℝ) < c := by exact_mod_cast hc
  have hq' : (0 : ℝ) < q := by exact_mod_cast hq
  rw [← lg_mul hq' hF, ← lg_mul ha' hc']
  apply lg_le (by positivity)
  exact_mod_cast h

theorem fold_up : ∀ {cs : List Nat} (_ : ∀ c ∈ cs, FIX ≤ c) {w : ℝ} (_ : UpOk cs w) (t a : Nat),
    t < 2 ^ cs.length → FIX ≤ a → lg (spFold cs t a) ≤ lg a + 309801 * w * t
  | [], _, w, _, t, a, ht, ha => by
    have : t = 0 := by simpa using ht
    subst this
    simp [spFold]
  | c :: cs, hc, w, h, t, a, ht, ha => by
    have hc0 : FIX ≤ c := hc c (by simp)
    have hF : 0 < FIX := by norm_num
    have ht' : t / 2 < 2 ^ cs.length := by
      simp only [List.length_cons, Nat.pow_succ] at ht; omega
    unfold spFold
    have hcs : ∀ x ∈ cs, FIX ≤ x := fun x hx => hc x (List.mem_cons_of_mem _ hx)
    have hd : (t : ℝ) = 2 * ((t / 2 : Nat) : ℝ) + ((t % 2 : Nat) : ℝ) := by
      have := Nat.div_add_mod t 2
      exact_mod_cast this.symm
    by_cases h1 : t % 2 = 1
    · rw [if_pos h1]
      have hq : FIX ≤ a * c / FIX := by
        rw [Nat.le_div_iff_mul_le hF]
        exact Nat.mul_le_mul ha hc0
      have ih := fold_up hcs h.2 (t / 2) (a * c / FIX) ht' hq
      have := lg_fix_mul (a := a) (c := c) (q := a * c / FIX) (by omega) (by omega)
        (Nat.div_mul_le_self _ _) (by omega)
      have h2 := h.1
      rw [h1, Nat.cast_one] at hd
      rw [hd]
      generalize lg (FIX : Nat) = F at *
      linarith
    · rw [if_neg h1]
      have ih := fold_up hcs h.2 (t / 2) a ht' ha
      have h0 : t % 2 = 0 := by omega
      rw [h0] at hd
      push_cast at hd
      rw [hd]
      linarith

/-- Each floored product loses at most one part in `10^12`. -/
theorem lg_floor_mul {a c q : Nat} (ha : FIX ≤ a) (hc : FIX ≤ c) (hq : q = a * c / FIX) :
    lg a + lg c - lg FIX - 1 / 100 ≤ lg q := by
  have hF0 : 0 < FIX := by norm_num
  have hf := floor_spec (a * c) FIX hF0
  have hqF : FIX ≤ q := by
    rw [hq, Nat.le_div_iff_mul_le hF0]; exact Nat.mul_le_mul ha hc
  rw [← hq] at hf
  have hF : (0 : ℝ) < (FIX : Nat) := by norm_num
  have ha' : (0 : ℝ) < a := by exact_mod_cast (by omega : 0 < a)
  have hc' : (0 : ℝ) < c := by exact_mod_cast (by omega : 0 < c)
  have hq' : (0 : ℝ) < q := by exact_mod_cast (by omega : 0 < q)
  have key : (a : ℝ) * c ≤ q * (FIX : Nat) * (1 + 1 / 10 ^ 12) := by
    have h1 : ((a * c : Nat) : ℝ) < ((q * FIX + FIX : Nat) : ℝ) := by exact_mod_cast hf.2
    have h2 : ((FIX : Nat) : ℝ) ≤ q := by exact_mod_cast hqF
    push_cast at h1 h2 ⊢
    nlinarith
  have h1 := lg_le (by positivity) key
  rw [lg_mul ha' hc', lg_mul (by positivity) (by norm_num), lg_mul hq' hF] at h1
  have h2 : lg (1 + 1 / 10 ^ 12) ≤ 1 / 100 := by
    unfold lg
    have h3 := Real.log_le_sub_one_of_pos (x := 1 + 1 / 10 ^ 12) (by norm_num)
    have h4 := Real.log_two_gt_d9
    have h5 : Real.log (1 + 1 / 10 ^ 12) / Real.log 2 ≤ 1 / 100 / 2 ^ 32 := by
      rw [div_le_iff₀ log_two_pos]
      norm_num at h3 h4 ⊢
      linarith
    have : (0 : ℝ) < 2 ^ 32 := by norm_num
    calc _ ≤ 1 / 100 / 2 ^ 32 * (2 : ℝ) ^ 32 := by gcongr
      _ = 1 / 100 := by norm_num
  linarith

theorem fold_low : ∀ {cs : List Nat} (_ : ∀ c ∈ cs, FIX ≤ c) {w : ℝ} (_ : LowOk cs w) (t a : Nat),
    t < 2 ^ cs.length → FIX ≤ a → lg a + 309800.75 * w * t - cs.length / 100 ≤ lg (spFold cs t a)
  | [], _, w, _, t, a, ht, ha => by
    have : t = 0 := by simpa using ht
    subst this
    simp [spFold]
  | c :: cs, hc, w, h, t, a, ht, ha => by
    have hc0 : FIX ≤ c := hc c (by simp)
    have hF : 0 < FIX := by norm_num
    have ht' : t / 2 < 2 ^ cs.length := by
      simp only [List.length_cons, Nat.pow_succ] at ht; omega
    unfold spFold
    have hcs : ∀ x ∈ cs, FIX ≤ x := fun x hx => hc x (List.mem_cons_of_mem _ hx)
    have hd : (t : ℝ) = 2 * ((t / 2 : Nat) : ℝ) + ((t % 2 : Nat) : ℝ) := by
      have := Nat.div_add_mod t 2
      exact_mod_cast this.symm
    rw [List.length_cons]
    push_cast
    by_cases h1 : t % 2 = 1
    · rw [if_pos h1]
      have hq : FIX ≤ a * c / FIX := by
        rw [Nat.le_div_iff_mul_le hF]
        exact Nat.mul_le_mul ha hc0
      have ih := fold_low hcs h.2 (t / 2) (a * c / FIX) ht' hq
      have := lg_floor_mul ha hc0 rfl
      have h2 := h.1
      rw [h1, Nat.cast_one] at hd
      rw [hd]
      generalize lg (FIX : Nat) = F at *
      linarith
    · rw [if_neg h1]
      have ih := fold_low hcs h.2 (t / 2) a ht' ha
      have h0 : t % 2 = 0 := by omega
      rw [h0] at hd
      push_cast at hd
      rw [hd]
      linarith

/-- Every constant is at most the square of the previous one. -/
def sqUp : Nat → List Nat → Prop
  | _, [] => True
  | c, d :: ds => d * FIX ≤ c * c ∧ 0 < d ∧ sqUp d ds

/-- Every constant is at least the square root of the next one; the last one is `z`. -/
def sqLow : Nat → List Nat → Nat → Prop
  | c, [], z => c = z
  | c, d :: ds, z => d * FIX ≤ c * c ∧ 0 < d ∧ sqLow d ds z

instance : ∀ c ds, Decidable (sqUp c ds)
  | _, [] => isTrue trivial
  | c, d :: ds => by
    have := instDecidableSqUp d ds
    unfold sqUp
    infer_instance

theorem sqUp_ok : ∀ {ds : List Nat} {c : Nat} {w : ℝ}, 0 < c → sqUp c ds → lg c ≤ lg FIX + 309801 * w →
    UpOk ds (2 * w)
  | [], _, _, _, _, _ => trivial
  | d :: ds, c, w, hc, h, h1 => by
    have := lg_fix_mul hc hc h.1 h.2.1
    have h2 : lg d ≤ lg FIX + 309801 * (2 * w) := by linarith
    exact ⟨h2, sqUp_ok h.2.1 h.2.2 h2⟩

theorem sqLow_ok : ∀ {ds : List Nat} {c : Nat} {w : ℝ} {z : Nat}, 0 < c → sqUp c ds →
    (c :: ds).getLast? = some z → lg FIX + 309800.75 * (w * 2 ^ ds.length) ≤ lg z →
    LowOk (c :: ds) w
  | [], c, w, z, hc, h, hz, h1 => by
    simp only [List.getLast?_singleton, Option.some.injEq] at hz
    subst hz
    simp only [List.length_nil, pow_zero, mul_one] at h1
    exact ⟨h1, trivial⟩
  | d :: ds, c, w, z, hc, h, hz, h1 => by
    rw [List.getLast?_cons_cons] at hz
    have ih := sqLow_ok (w := 2 * w) h.2.1 h.2.2 hz (by
      rw [List.length_cons, pow_succ] at h1
      have : 2 * w * 2 ^ ds.length = w * (2 ^ ds.length * 2) := by ring
      rw [this]; exact h1)
    refine ⟨?_, ih⟩
    have h2 := lg_fix_mul hc hc h.1 h.2.1
    have h3 := ih.1
    generalize lg (FIX : Nat) = F at *
    linarith

theorem lg_ratio_up {c : Nat} {x w : ℝ} (hc : (c : ℝ) = (FIX : Nat) * (1 + x)) (h0 : 0 < x) (h1 : x ≤ 1 / 1000)
    (h : (x - x ^ 2 / 2 + 2 * x ^ 3) * 2 ^ 32 ≤ 309801 * w * 0.6931471803) (hw : 0 < w) :
    lg c ≤ lg FIX + 309801 * w := by
  rw [hc, lg_mul (by norm_num) (by linarith)]
  have h2 := (log_bounds h0 h1).2
  have h3 := Real.log_two_gt_d9
  unfold lg
  have : Real.log (1 + x) / Real.log 2 * 2 ^ 32 ≤ 309801 * w := by
    rw [div_mul_eq_mul_div, div_le_iff₀ log_two_pos]
    nlinarith
  linarith

theorem lg_ratio_low {c : Nat} {x w : ℝ} (hc : (c : ℝ) = (FIX : Nat) * (1 + x)) (h0 : 0 < x) (h1 : x ≤ 1 / 1000)
    (h : 309800.75 * w * 0.6931471808 ≤ (x - x ^ 2 / 2 - 2 * x ^ 3) * 2 ^ 32) (hw : 0 < w) :
    lg FIX + 309800.75 * w ≤ lg c := by
  rw [hc, lg_mul (by norm_num) (by linarith)]
  have h2 := (log_bounds h0 h1).1
  have h3 := Real.log_two_lt_d9
  unfold lg
  have : 309800.75 * w ≤ Real.log (1 + x) / Real.log 2 * 2 ^ 32 := by
    rw [div_mul_eq_mul_div, le_div_iff₀ log_two_pos]
    nlinarith
  linarith

theorem upOk_consts : UpOk spConsts 1 := by
  have h1 : lg (1000100000000 : Nat) ≤ lg FIX + 309801 * 2 :=
    lg_ratio_up (x := 1 / 10 ^ 4) (by norm_num) (by norm_num) (by norm_num) (by norm_num) (by norm_num)
  refine ⟨lg_ratio_up (x := 49998750 / 10 ^ 12) (by norm_num) (by norm_num) (by norm_num) (by norm_num)
    (by norm_num), ?_⟩
  rw [mul_one]
  exact ⟨h1, sqUp_ok (by norm_num) (by decide +kernel) h1⟩

theorem top_pow : 2 ^ 1239203 * FIX ^ 131072 ≤ 701536086265529 ^ 131072 := by decide +kernel

theorem lg_of_pow {m n a c : Nat} (ha : 0 < a) (h : 2 ^ m * a ^ n ≤ c ^ n) :
    m * 2 ^ 32 + n * lg a ≤ n * lg c := by
  have ha' : (0 : ℝ) < a := by exact_mod_cast ha
  have h1 : ((2 : ℝ) ^ m * (a : ℝ) ^ n) ≤ (c : ℝ) ^ n := by exact_mod_cast h
  have h2 := lg_le (by positivity) h1
  rw [lg_mul (by positivity) (by positivity), lg_pow, lg_pow, lg_pow, lg_two] at h2
  exact h2

theorem lg_top : lg FIX + 309800.75 * (2 * 2 ^ 16) ≤ lg (701536086265529 : Nat) := by
  have h := lg_of_pow (by norm_num) top_pow
  generalize lg (FIX : Nat) = F at *
  generalize lg (701536086265529 : Nat) = G at *
  norm_num at h ⊢
  linarith

theorem lowOk_consts : LowOk spConsts 1 := by
  refine ⟨lg_ratio_low (x := 49998750 / 10 ^ 12) (by norm_num) (by norm_num) (by norm_num) (by norm_num)
    (by norm_num), ?_⟩
  rw [mul_one]
  exact sqLow_ok (z := 701536086265529) (by norm_num) (by decide +kernel) (by decide) lg_top

/-- The logarithm of the price factor of `t` ticks. -/
theorem lg_spRaw {t : Nat} (h : t < 2 ^ 18) :
    lg FIX + 309800.75 * t - 0.18 ≤ lg (spRaw t) ∧ lg (spRaw t) ≤ lg FIX + 309801 * t := by
  have hc : ∀ c ∈ spConsts, FIX ≤ c := by decide
  have h1 := fold_up hc upOk_consts t FIX h (Nat.le_refl _)
  have h2 := fold_low hc lowOk_consts t FIX h (Nat.le_refl _)
  rw [← spRaw_eq] at h1 h2
  have : (spConsts.length : ℝ) = 18 := by norm_num [spConsts]
  rw [this] at h2
  generalize lg (FIX : Nat) = F at *
  constructor <;> linarith

end OraiV3
