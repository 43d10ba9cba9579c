import Verif.Exact
import Verif.Lemmas.Amounts
import Mathlib.Tactic.FieldSimp
import Mathlib.Tactic.Positivity
import Mathlib.Algebra.Order.Field.Basic
import Mathlib.Data.Nat.Cast.Order.Ring

/-!
# The integer bounds as statements about the exact amounts
-/

namespace OraiV3

theorem absDiff_cast (a b : Nat) : ((absDiff a b : Nat) : ℚ) = |(b : ℚ) - a| := by
  rcases Nat.le_total a b with h | h
  · rw [absDiff_le h, Nat.cast_sub h, abs_of_nonneg]
    have : (a : ℚ) ≤ b := by exact_mod_cast h
    linarith
  · rw [absDiff_ge h, Nat.cast_sub h, abs_of_nonpos]
    · ring
    · have : (b : ℚ) ≤ a := by exact_mod_cast h
      linarith

theorem exactY_eq (L a b : Nat) : exactY L a b = (absDiff a b * L : ℚ) / 10 ^ 30 := by
  unfold exactY liqVal priceVal
  rw [absDiff_cast, ← sub_div, abs_div, abs_of_pos (show (0 : ℚ) < 10 ^ 24 by positivity)]
  field_simp

theorem exactX_eq {L a b : Nat} (ha : 0 < a) (hb : 0 < b) :
    exactX L a b = (absDiff a b * L * 10 ^ 18 : ℚ) / (a * b) := by
  unfold exactX liqVal priceVal
  have ha' : (0 : ℚ) < a := by exact_mod_cast ha
  have hb' : (0 : ℚ) < b := by exact_mod_cast hb
  have e : 1 / ((a : ℚ) / 10 ^ 24) - 1 / ((b : ℚ) / 10 ^ 24) = 10 ^ 24 * ((b : ℚ) - a) / (a * b) := by
    field_simp
  rw [e, abs_div, abs_mul, abs_of_pos (show (0 : ℚ) < 10 ^ 24 by positivity),
    abs_of_pos (mul_pos ha' hb'), ← absDiff_cast]
  field_simp

theorem dustX_eq {a b : Nat} (ha : 0 < a) (hb : 0 < b) : dustX a b = 10 ^ 24 / ((a : ℚ) * b) := by
  unfold dustX priceVal
  have ha' : (0 : ℚ) < a := by exact_mod_cast ha
  have hb' : (0 : ℚ) < b := by exact_mod_cast hb
  field_simp

theorem exactX_nonneg (L a b : Nat) : 0 ≤ exactX L a b := by unfold exactX liqVal; positivity
theorem exactY_nonneg (L a b : Nat) : 0 ≤ exactY L a b := by unfold exactY liqVal; positivity

theorem deltaY_up_exact {a b L y : Nat} (h : getDeltaY a b L true = .ok y) :
    exactY L a b ≤ y ∧ (y : ℚ) < exactY L a b + 1 := by
  obtain ⟨_, h1, h2⟩ := getDeltaY_up h
  rw [exactY_eq]
  have h1' : ((absDiff a b * L : Nat) : ℚ) ≤ ((y * 10 ^ 30 : Nat) : ℚ) := by exact_mod_cast h1
  have h2' : ((y * 10 ^ 30 : Nat) : ℚ) < ((absDiff a b * L + 10 ^ 30 : Nat) : ℚ) := by exact_mod_cast h2
  push_cast at h1' h2'
  constructor
  · rw [div_le_iff₀ (by positivity)]; linarith
  · rw [← sub_lt_iff_lt_add, lt_div_iff₀ (by positivity)]; linarith

theorem deltaY_down_exact {a b L y : Nat} (h : getDeltaY a b L false = .ok y) :
    (y : ℚ) ≤ exactY L a b ∧ exactY L a b < y + 1 := by
  obtain ⟨_, h1, h2⟩ := getDeltaY_down h
  rw [exactY_eq]
  have h1' : ((y * 10 ^ 30 : Nat) : ℚ) ≤ ((absDiff a b * L : Nat) : ℚ) := by exact_mod_cast h1
  have h2' : ((absDiff a b * L : Nat) : ℚ) < (((y + 1) * 10 ^ 30 : Nat) : ℚ) := by exact_mod_cast h2
  push_cast at h1' h2'
  constructor
  · rw [le_div_iff₀ (by positivity)]; linarith
  · rw [div_lt_iff₀ (by positivity)]; linarith

theorem deltaX_down_exact {a b L x : Nat} (h : getDeltaX a b L false = .ok x) :
    0 < a ∧ 0 < b ∧ (x : ℚ) ≤ exactX L a b ∧ exactX L a b < (x + 1) * (1 + dustX a b) + dustX a b := by
  obtain ⟨_, ha, hb, h1, h2⟩ := getDeltaX_down h
  refine ⟨ha, hb, ?_⟩
  rw [exactX_eq ha hb, dustX_eq ha hb]
  have hab : (0 : ℚ) < (a : ℚ) * b := by
    have ha' : (0 : ℚ) < a := by exact_mod_cast ha
    have hb' : (0 : ℚ) < b := by exact_mod_cast hb
    exact mul_pos ha' hb'
  have h1' : ((x * (a * b) : Nat) : ℚ) ≤ ((absDiff a b * L * 10 ^ 18 : Nat) : ℚ) := by exact_mod_cast h1
  have h2' : ((absDiff a b * L * 10 ^ 18 : Nat) : ℚ) < (((x + 1) * (a * b + SPR) + SPR : Nat) : ℚ) := by
    exact_mod_cast h2
  push_cast at h1' h2'
  constructor
  · rw [le_div_iff₀ hab]; linarith
  · have e : ((x : ℚ) + 1) * (1 + 10 ^ 24 / (a * b)) + 10 ^ 24 / (a * b) =
        ((x + 1) * (a * b + 10 ^ 24) + 10 ^ 24) / (a * b) := by field_simp
    rw [e]
    exact div_lt_div_of_pos_right h2' hab

theorem deltaX_up_exact {a b L x : Nat} (h : getDeltaX a b L true = .ok x) :
    0 < a ∧ 0 < b ∧ exactX L a b < x + dustX a b ∧ (x : ℚ) * (1 - dustX a b) ≤ exactX L a b + 1 := by
  obtain ⟨_, ha, hb, h1, h2⟩ := getDeltaX_up h
  refine ⟨ha, hb, ?_⟩
  rw [exactX_eq ha hb, dustX_eq ha hb]
  have hab : (0 : ℚ) < (a : ℚ) * b := by
    have ha' : (0 : ℚ) < a := by exact_mod_cast ha
    have hb' : (0 : ℚ) < b := by exact_mod_cast hb
    exact mul_pos ha' hb'
  have h1' : ((absDiff a b * L * 10 ^ 18 + 10 ^ 18 : Nat) : ℚ) ≤ ((x * (a * b) + SPR : Nat) : ℚ) := by
    exact_mod_cast h1
  have h2' : ((x * (a * b) : Nat) : ℚ) ≤ ((absDiff a b * L * 10 ^ 18 + a * b + x * SPR : Nat) : ℚ) := by
    exact_mod_cast h2
  push_cast at h1' h2'
  constructor
  · have e : (x : ℚ) + 10 ^ 24 / (a * b) = (x * (a * b) + 10 ^ 24) / (a * b) := by field_simp
    rw [e]
    apply div_lt_div_of_pos_right _ hab
    linarith
  · have e1 : (x : ℚ) * (1 - 10 ^ 24 / (a * b)) = (x * (a * b) - x * 10 ^ 24) / (a * b) := by field_simp
    have e2 : (absDiff a b * L * 10 ^ 18 : ℚ) / (a * b) + 1 = (absDiff a b * L * 10 ^ 18 + a * b) / (a * b) := by
      field_simp
    rw [e1, e2]
    apply div_le_div_of_nonneg_right _ hab.le
    linarith

/-- For prices the contract can reach the error is below `10^-14` of a unit. -/
theorem dustX_small {a b : Nat} (ha : MIN_SQRT_PRICE ≤ a) (hb : MIN_SQRT_PRICE ≤ b) : dustX a b < 1 / 10 ^ 14 := by
  have h0 : 0 < MIN_SQRT_PRICE := by norm_num
  rw [dustX_eq (by omega) (by omega)]
  have ha' : (MIN_SQRT_PRICE : ℚ) ≤ a := by exact_mod_cast ha
  have hb' : (MIN_SQRT_PRICE : ℚ) ≤ b := by exact_mod_cast hb
  have hm : (MIN_SQRT_PRICE : ℚ) * MIN_SQRT_PRICE ≤ a * b :=
    mul_le_mul ha' hb' (by positivity) (by linarith [show (0 : ℚ) ≤ MIN_SQRT_PRICE by positivity])
  have hp : (0 : ℚ) < (MIN_SQRT_PRICE : ℚ) * MIN_SQRT_PRICE := by norm_num
  rw [div_lt_div_iff₀ (by linarith) (by positivity)]
  have : (10 : ℚ) ^ 24 * 10 ^ 14 < (MIN_SQRT_PRICE : ℚ) * MIN_SQRT_PRICE := by norm_num
  linarith

end OraiV3
