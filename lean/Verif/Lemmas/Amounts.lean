import Verif.Math
import Verif.Lemmas.Monad
import Mathlib.Tactic.NormNum
import Mathlib.Tactic.Linarith
import Mathlib.Tactic.Ring

/-!
# Bounds on the token amounts, in integers
-/

namespace OraiV3

theorem floor_spec (a b : Nat) (hb : 0 < b) : a / b * b ≤ a ∧ a < a / b * b + b := by
  refine ⟨Nat.div_mul_le_self a b, ?_⟩
  have := Nat.div_add_mod a b
  have := Nat.mod_lt a hb
  rw [Nat.mul_comm]; omega

theorem ceil_spec (a b : Nat) (hb : 0 < b) :
    a ≤ (a + (b - 1)) / b * b ∧ (a + (b - 1)) / b * b < a + b := by
  have := floor_spec (a + (b - 1)) b hb
  omega

theorem absDiff_comm (a b : Nat) : absDiff a b = absDiff b a := by unfold absDiff; split <;> split <;> omega

theorem absDiff_le {a b : Nat} (h : a ≤ b) : absDiff a b = b - a := by unfold absDiff; split <;> omega
theorem absDiff_ge {a b : Nat} (h : b ≤ a) : absDiff a b = a - b := by unfold absDiff; split <;> omega

theorem divToToken_inv {nom den x : Nat} (h : divToToken nom den = .ok x) :
    0 < den ∧ x < U128 ∧ x * den ≤ nom ∧ nom < (x + 1) * den := by
  unfold divToToken at h
  by_cases hd : den = 0
  · simp [hd] at h
  · rw [if_neg hd] at h
    dsimp only at h
    rw [ite_error_ok, cast128_ok] at h
    obtain ⟨-, hx, rfl⟩ := h
    have hd : 0 < den := Nat.pos_of_ne_zero hd
    refine ⟨hd, hx, ?_⟩
    have h1 := floor_spec (nom * SPR) den hd
    generalize nom * SPR / den = q at *
    have h2 := floor_spec q SPR (by norm_num)
    generalize q / SPR = x at *
    have hs : 0 < SPR := by norm_num
    generalize SPR = S at *
    constructor
    · have : x * den * S ≤ nom * S := by nlinarith
      exact Nat.le_of_mul_le_mul_right this hs
    · have h3 : (q + 1) * den ≤ (x * S + S) * den := Nat.mul_le_mul_right _ (by omega)
      have : nom * S < (x + 1) * den * S := by nlinarith
      exact Nat.lt_of_mul_lt_mul_right this

theorem divToTokenUp_inv {nom den x : Nat} (h : divToTokenUp nom den = .ok x) :
    0 < den ∧ x < U128 ∧ nom ≤ x * den ∧ x * den < nom + den := by
  unfold divToTokenUp at h
  by_cases hd : den = 0
  · simp [hd] at h
  · rw [if_neg hd] at h
    dsimp only at h
    rw [ite_error_ok, ite_error_ok, cast128_ok] at h
    obtain ⟨-, -, hx, rfl⟩ := h
    have hd : 0 < den := Nat.pos_of_ne_zero hd
    refine ⟨hd, hx, ?_⟩
    have h1 := ceil_spec (nom * SPR) den hd
    generalize (nom * SPR + (den - 1)) / den = q at *
    have h2 := ceil_spec q SPR (by norm_num)
    generalize (q + (SPR - 1)) / SPR = x at *
    have hs : 0 < SPR := by norm_num
    generalize SPR = S at *
    constructor
    · have : nom * S ≤ x * den * S := by nlinarith
      exact Nat.le_of_mul_le_mul_right this hs
    · by_contra hcon
      have h3 : nom + den ≤ x * den := by omega
      -- q < nom*S/den + 1, so if (x-1)*den ≥ nom then q ≤ (x-1)*S
      rcases x with _ | x
      · omega
      · have h4 : nom ≤ x * den := by nlinarith
        have h5 : x * S + 1 ≤ q := by nlinarith
        have h6 : (x * S + 1) * den ≤ q * den := Nat.mul_le_mul_right _ h5
        have h7 : nom * S ≤ x * den * S := Nat.mul_le_mul_right _ h4
        nlinarith

/-- Success range of the rounded-down division. -/
theorem divToToken_ok {nom den : Nat} (h1 : 0 < den) (h2 : nom * SPR / den < U256) (h3 : nom / den < U128) :
    divToToken nom den = .ok (nom / den) := by
  unfold divToToken
  rw [if_neg (by omega)]
  dsimp only
  rw [if_neg (by omega)]
  have : nom * SPR / den / SPR = nom / den := by
    rw [Nat.div_div_eq_div_mul, Nat.mul_div_mul_right _ _ (by norm_num)]
  rw [this, cast128_ok]
  exact ⟨h3, rfl⟩

/-! ## `get_delta_x`, `get_delta_y` -/

theorem spr_eq : SPR = LIQ * 10 ^ 18 := by norm_num

theorem getDeltaX_down {a b L x : Nat} (h : getDeltaX a b L false = .ok x) :
    x < U128 ∧ 0 < a ∧ 0 < b ∧ x * (a * b) ≤ absDiff a b * L * 10 ^ 18 ∧
      (absDiff a b * L) * 10 ^ 18 < ((x + 1) * (a * b + SPR) + SPR) := by
  unfold getDeltaX at h
  simp only [Bool.false_eq_true, if_false] at h
  obtain ⟨h0, h1, h2, h3⟩ := divToToken_inv h
  have c1 := floor_spec (absDiff a b * L) LIQ (by norm_num)
  have c2 := ceil_spec (a * b) SPR (by norm_num)
  generalize absDiff a b * L / LIQ = nom at *
  generalize (a * b + (SPR - 1)) / SPR = den at *
  have hab : 0 < a * b := by
    by_contra hc
    have : a * b = 0 := by omega
    rw [this] at c2
    have : den * SPR < 1 * SPR := by omega
    have := Nat.lt_of_mul_lt_mul_right this
    omega
  refine ⟨h1, Nat.pos_of_mul_pos_right hab, Nat.pos_of_mul_pos_left hab, ?_⟩
  rw [spr_eq] at *
  have hq : 0 < LIQ := by norm_num
  have ht : 0 < 10 ^ 18 := by norm_num
  generalize absDiff a b * L = z at *
  generalize a * b = w at *
  generalize LIQ = Q at *
  generalize 10 ^ 18 = T at *
  constructor
  · have e1 : x * w ≤ x * (den * (Q * T)) := Nat.mul_le_mul_left _ c2.1
    have e2 : x * den * (Q * T) ≤ nom * (Q * T) := Nat.mul_le_mul_right _ h2
    have e3 : nom * Q * T ≤ z * T := Nat.mul_le_mul_right _ c1.1
    linarith
  · have e1 : (x + 1) * (den * (Q * T)) ≤ (x + 1) * (w + (Q * T)) := Nat.mul_le_mul_left _ (by omega)
    have e2 : nom * (Q * T) < (x + 1) * den * (Q * T) :=
      Nat.mul_lt_mul_of_pos_right h3 (Nat.mul_pos hq ht)
    have e3 : z * T < (nom * Q + Q) * T := Nat.mul_lt_mul_of_pos_right c1.2 ht
    linarith

theorem getDeltaX_up {a b L x : Nat} (h : getDeltaX a b L true = .ok x) :
    x < U128 ∧ 0 < a ∧ 0 < b ∧ absDiff a b * L * 10 ^ 18 + 10 ^ 18 ≤ x * (a * b) + SPR ∧
      x * (a * b) ≤ absDiff a b * L * 10 ^ 18 + a * b + x * SPR := by
  unfold getDeltaX at h
  simp only [if_true] at h
  obtain ⟨h0, h1, h2, h3⟩ := divToTokenUp_inv h
  have c1 := floor_spec (absDiff a b * L) LIQ (by norm_num)
  have c2 := floor_spec (a * b) SPR (by norm_num)
  generalize absDiff a b * L / LIQ = nom at *
  generalize hden : a * b / SPR = den at *
  have hab : 0 < a * b := by
    by_contra hc
    have : a * b = 0 := by omega
    rw [this] at hden
    simp at hden
    omega
  refine ⟨h1, Nat.pos_of_mul_pos_right hab, Nat.pos_of_mul_pos_left hab, ?_⟩
  clear hden h
  rw [spr_eq] at *
  have hq : 0 < LIQ := by norm_num
  have ht : 0 < 10 ^ 18 := by norm_num
  generalize absDiff a b * L = z at *
  generalize a * b = w at *
  generalize LIQ = Q at *
  generalize 10 ^ 18 = T at *
  constructor
  · have e1 : x * (den * (Q * T)) ≤ x * w := Nat.mul_le_mul_left _ c2.1
    have e2 : nom * (Q * T) ≤ x * den * (Q * T) := Nat.mul_le_mul_right _ h2
    have e3 : (z + 1) * T ≤ (nom * Q + Q) * T := Nat.mul_le_mul_right _ (by omega)
    linarith
  · have e1 : x * w ≤ x * (den * (Q * T) + Q * T) := Nat.mul_le_mul_left _ (by omega)
    have e2 : x * den * (Q * T) ≤ (nom + den) * (Q * T) := Nat.mul_le_mul_right _ (by omega)
    have e3 : nom * Q * T ≤ z * T := Nat.mul_le_mul_right _ c1.1
    linarith

/-- With the same arguments the rounded-down amount is at most the rounded-up amount. -/
theorem getDeltaX_down_le_up {a b L x y : Nat} (h : getDeltaX a b L false = .ok x)
    (h' : getDeltaX a b L true = .ok y) : x ≤ y := by
  unfold getDeltaX at h h'
  simp only [Bool.false_eq_true, if_false] at h
  simp only [if_true] at h'
  obtain ⟨h0, h1, h2, h3⟩ := divToToken_inv h
  obtain ⟨g0, g1, g2, g3⟩ := divToTokenUp_inv h'
  have c2 := ceil_spec (a * b) SPR (by norm_num)
  have c3 := floor_spec (a * b) SPR (by norm_num)
  generalize absDiff a b * L / LIQ = nom at *
  generalize (a * b + (SPR - 1)) / SPR = den at *
  generalize a * b / SPR = den' at *
  have hd : den' ≤ den := by
    have : den' * SPR ≤ den * SPR := by omega
    exact Nat.le_of_mul_le_mul_right this (by norm_num)
  have : x * den ≤ y * den := Nat.le_trans h2 (Nat.le_trans g2 (Nat.mul_le_mul_left _ hd))
  exact Nat.le_of_mul_le_mul_right this h0

theorem getDeltaY_down {a b L y : Nat} (h : getDeltaY a b L false = .ok y) :
    y < U128 ∧ y * 10 ^ 30 ≤ absDiff a b * L ∧ absDiff a b * L < (y + 1) * 10 ^ 30 := by
  unfold getDeltaY at h
  simp only [Bool.false_eq_true, if_false, cast128_ok] at h
  obtain ⟨h1, rfl⟩ := h
  refine ⟨h1, ?_⟩
  rw [Nat.div_div_eq_div_mul]
  have := floor_spec (absDiff a b * L) (10 ^ 30) (by norm_num)
  rw [Nat.add_mul]
  exact this

theorem getDeltaY_up {a b L y : Nat} (h : getDeltaY a b L true = .ok y) :
    y < U128 ∧ absDiff a b * L ≤ y * 10 ^ 30 ∧ y * 10 ^ 30 < absDiff a b * L + 10 ^ 30 := by
  unfold getDeltaY at h
  simp only [if_true, cast128_ok] at h
  obtain ⟨h1, rfl⟩ := h
  refine ⟨h1, ?_⟩
  have c1 := ceil_spec (absDiff a b * L) LIQ (by norm_num)
  generalize (absDiff a b * L + (LIQ - 1)) / LIQ = q at *
  have c2 := ceil_spec q SPR (by norm_num)
  generalize (q + (SPR - 1)) / SPR = y at *
  have h30 : (10 : Nat) ^ 30 = SPR * LIQ := by norm_num
  rw [h30]
  have hq : 0 < LIQ := by norm_num
  generalize absDiff a b * L = z at *
  generalize SPR = S at *
  generalize LIQ = Q at *
  constructor
  · have : q * Q ≤ y * S * Q := Nat.mul_le_mul_right _ c2.1
    linarith
  · have : (y * S + 1) * Q ≤ (q + S) * Q := Nat.mul_le_mul_right _ c2.2
    linarith

theorem getDeltaY_down_le_up {a b L x y : Nat} (h : getDeltaY a b L false = .ok x)
    (h' : getDeltaY a b L true = .ok y) : x ≤ y := by
  have h1 := getDeltaY_down h
  have h2 := getDeltaY_up h'
  have : x * 10 ^ 30 ≤ y * 10 ^ 30 := by omega
  exact Nat.le_of_mul_le_mul_right this (by norm_num)

theorem getDeltaX_comm (a b L : Nat) (u : Bool) : getDeltaX a b L u = getDeltaX b a L u := by
  unfold getDeltaX; rw [absDiff_comm a b, Nat.mul_comm a b]

theorem getDeltaY_comm (a b L : Nat) (u : Bool) : getDeltaY a b L u = getDeltaY b a L u := by
  unfold getDeltaY; rw [absDiff_comm a b]

/-- The two amounts of adding and removing the same liquidity. -/
theorem amountDelta_down_le_up {t : Int} {p L : Nat} {u l : Int} {r r' : Nat × Nat × Bool}
    (h : calculateAmountDelta t p L true u l = .ok r) (h' : calculateAmountDelta t p L false u l = .ok r') :
    r'.1 ≤ r.1 ∧ r'.2.1 ≤ r.2.1 ∧ r'.2.2 = r.2.2 := by
  unfold calculateAmountDelta at h h'
  by_cases h0 : u < l
  · simp [h0] at h
  · simp only [if_neg h0] at h h'
    by_cases h1 : t < l
    · simp only [if_pos h1, bind_ok, pure_ok] at h h'
      obtain ⟨pl, e1, pu, e2, x, e3, rfl⟩ := h
      obtain ⟨pl', e1', pu', e2', x', e3', rfl⟩ := h'
      rw [e1, ok_inj] at e1'; rw [e2, ok_inj] at e2'; subst e1' e2'
      exact ⟨getDeltaX_down_le_up e3' e3, Nat.le_refl _, rfl⟩
    · simp only [if_neg h1] at h h'
      by_cases h2 : t < u
      · simp only [if_pos h2, bind_ok, pure_ok] at h h'
        obtain ⟨pu, e2, x, e3, pl, e1, y, e4, rfl⟩ := h
        obtain ⟨pu', e2', x', e3', pl', e1', y', e4', rfl⟩ := h'
        rw [e1, ok_inj] at e1'; rw [e2, ok_inj] at e2'; subst e1' e2'
        exact ⟨getDeltaX_down_le_up e3' e3, getDeltaY_down_le_up e4' e4, rfl⟩
      · simp only [if_neg h2, bind_ok, pure_ok] at h h'
        obtain ⟨pl, e1, pu, e2, x, e3, rfl⟩ := h
        obtain ⟨pl', e1', pu', e2', x', e3', rfl⟩ := h'
        rw [e1, ok_inj] at e1'; rw [e2, ok_inj] at e2'; subst e1' e2'
        exact ⟨Nat.le_refl _, getDeltaY_down_le_up e3' e3, rfl⟩

end OraiV3
