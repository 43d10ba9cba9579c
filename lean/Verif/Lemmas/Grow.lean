import Verif.Lemmas.Split

/-!
# Lemmas/Grow: amounts of X grow with the liquidity
-/

namespace OraiV3

theorem cast128_inv {e : Err} {n m : Nat} (h : cast128 e n = .ok m) : m = n := by
  unfold cast128 at h
  split at h
  · cases h; rfl
  · cases h

theorem divToTokenUp_mono {n n' d x x' : Nat} (h : divToTokenUp n d = .ok x) (h' : divToTokenUp n' d = .ok x') (hn : n ≤ n') :
    x ≤ x' := by
  unfold divToTokenUp at h h'
  split at h
  · cases h
  rw [if_neg (by assumption)] at h'
  simp only at h h'
  split at h
  · cases h
  split at h
  · cases h
  split at h'
  · cases h'
  split at h'
  · cases h'
  rw [cast128_inv h, cast128_inv h']
  exact Nat.div_le_div_right (Nat.add_le_add_right
    (Nat.div_le_div_right (Nat.add_le_add_right (Nat.mul_le_mul_right _ hn) _)) _)

theorem divToToken_mono {n n' d x x' : Nat} (h : divToToken n d = .ok x) (h' : divToToken n' d = .ok x') (hn : n ≤ n') : x ≤ x' := by
  unfold divToToken at h h'
  split at h
  · cases h
  rw [if_neg (by assumption)] at h'
  simp only at h h'
  split at h
  · cases h
  split at h'
  · cases h'
  rw [cast128_inv h, cast128_inv h']
  exact Nat.div_le_div_right (Nat.div_le_div_right (Nat.mul_le_mul_right _ hn))

theorem deltaX_more {a b L L' x x' : Nat} {up : Bool} (h : getDeltaX a b L up = .ok x) (h' : getDeltaX a b L' up = .ok x')
    (hL : L ≤ L') : x ≤ x' := by
  have hn : absDiff a b * L / LIQ ≤ absDiff a b * L' / LIQ := Nat.div_le_div_right (Nat.mul_le_mul_left _ hL)
  unfold getDeltaX at h h'
  cases up
  · simp only [Bool.false_eq_true, if_false] at h h'
    exact divToToken_mono h h' hn
  · simp only [if_true] at h h'
    exact divToTokenUp_mono h h' hn

end OraiV3
