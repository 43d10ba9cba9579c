import Verif.Lemmas.Amounts

/-!
# Amounts of liquidity in one piece and in two
-/

namespace OraiV3

/-- Rounding up: two pieces cost at most one unit more. -/
theorem ceil_split {n1 n2 n x1 x2 x D : Nat} (hn : n1 + n2 ≤ n) (hn' : n ≤ n1 + n2 + 1) (hD : 0 < D)
    (a1 : n1 ≤ x1 * D) (b1 : x1 * D < n1 + D) (a2 : n2 ≤ x2 * D) (b2 : x2 * D < n2 + D)
    (a : n ≤ x * D) (b : x * D < n + D) : x ≤ x1 + x2 + 1 ∧ x1 + x2 ≤ x + 1 := by
  constructor
  · have : x * D < (x1 + x2 + 2) * D := by nlinarith
    have := Nat.lt_of_mul_lt_mul_right this
    omega
  · have : (x1 + x2) * D < (x + 2) * D := by nlinarith
    have := Nat.lt_of_mul_lt_mul_right this
    omega

/-- Rounding down: two pieces yield at most one unit less, and not more. -/
theorem floor_split {n1 n2 n x1 x2 x D : Nat} (hn : n1 + n2 ≤ n) (hn' : n ≤ n1 + n2 + 1)
    (a1 : x1 * D ≤ n1) (b1 : n1 < (x1 + 1) * D) (a2 : x2 * D ≤ n2) (b2 : n2 < (x2 + 1) * D)
    (a : x * D ≤ n) (b : n < (x + 1) * D) : x1 + x2 ≤ x ∧ x ≤ x1 + x2 + 1 := by
  constructor
  · have : (x1 + x2) * D < (x + 1) * D := by nlinarith
    have := Nat.lt_of_mul_lt_mul_right this
    omega
  · have : x * D < (x1 + x2 + 2) * D := by nlinarith
    have := Nat.lt_of_mul_lt_mul_right this
    omega

theorem nom_split (d L1 L2 : Nat) : d * L1 / LIQ + d * L2 / LIQ ≤ d * (L1 + L2) / LIQ ∧
    d * (L1 + L2) / LIQ ≤ d * L1 / LIQ + d * L2 / LIQ + 1 := by
  rw [Nat.mul_add]
  generalize d * L1 = a
  generalize d * L2 = b
  have h1 := floor_spec a LIQ (by norm_num)
  have h2 := floor_spec b LIQ (by norm_num)
  have h3 := floor_spec (a + b) LIQ (by norm_num)
  constructor
  · have : (a / LIQ + b / LIQ) * LIQ < ((a + b) / LIQ + 1) * LIQ := by nlinarith
    have := Nat.lt_of_mul_lt_mul_right this
    omega
  · have : (a + b) / LIQ * LIQ < (a / LIQ + b / LIQ + 2) * LIQ := by nlinarith
    have := Nat.lt_of_mul_lt_mul_right this
    omega

theorem deltaX_up_split {a b L1 L2 x1 x2 x : Nat} (h1 : getDeltaX a b L1 true = .ok x1) (h2 : getDeltaX a b L2 true = .ok x2)
    (h : getDeltaX a b (L1 + L2) true = .ok x) : x ≤ x1 + x2 + 1 ∧ x1 + x2 ≤ x + 1 := by
  unfold getDeltaX at h1 h2 h
  simp only [if_true] at h1 h2 h
  obtain ⟨hD, -, a1, b1⟩ := divToTokenUp_inv h1
  obtain ⟨-, -, a2, b2⟩ := divToTokenUp_inv h2
  obtain ⟨-, -, a3, b3⟩ := divToTokenUp_inv h
  obtain ⟨n1, n2⟩ := nom_split (absDiff a b) L1 L2
  exact ceil_split n1 n2 hD a1 b1 a2 b2 a3 b3

theorem deltaX_down_split {a b L1 L2 x1 x2 x : Nat} (h1 : getDeltaX a b L1 false = .ok x1) (h2 : getDeltaX a b L2 false = .ok x2)
    (h : getDeltaX a b (L1 + L2) false = .ok x) : x1 + x2 ≤ x ∧ x ≤ x1 + x2 + 1 := by
  unfold getDeltaX at h1 h2 h
  simp only [Bool.false_eq_true, if_false] at h1 h2 h
  obtain ⟨-, -, a1, b1⟩ := divToToken_inv h1
  obtain ⟨-, -, a2, b2⟩ := divToToken_inv h2
  obtain ⟨-, -, a3, b3⟩ := divToToken_inv h
  obtain ⟨n1, n2⟩ := nom_split (absDiff a b) L1 L2
  exact floor_split n1 n2 a1 b1 a2 b2 a3 b3

theorem deltaY_up_split {a b L1 L2 y1 y2 y : Nat} (h1 : getDeltaY a b L1 true = .ok y1) (h2 : getDeltaY a b L2 true = .ok y2)
    (h : getDeltaY a b (L1 + L2) true = .ok y) : y ≤ y1 + y2 ∧ y1 + y2 ≤ y + 1 := by
  obtain ⟨-, a1, b1⟩ := getDeltaY_up h1
  obtain ⟨-, a2, b2⟩ := getDeltaY_up h2
  obtain ⟨-, a3, b3⟩ := getDeltaY_up h
  rw [Nat.mul_add] at a3 b3
  constructor
  · have : y * 10 ^ 30 < (y1 + y2 + 1) * 10 ^ 30 := by linarith
    have := Nat.lt_of_mul_lt_mul_right this
    omega
  · have : (y1 + y2) * 10 ^ 30 < (y + 2) * 10 ^ 30 := by linarith
    have := Nat.lt_of_mul_lt_mul_right this
    omega

theorem deltaY_down_split {a b L1 L2 y1 y2 y : Nat} (h1 : getDeltaY a b L1 false = .ok y1) (h2 : getDeltaY a b L2 false = .ok y2)
    (h : getDeltaY a b (L1 + L2) false = .ok y) : y1 + y2 ≤ y ∧ y ≤ y1 + y2 + 1 := by
  obtain ⟨-, a1, b1⟩ := getDeltaY_down h1
  obtain ⟨-, a2, b2⟩ := getDeltaY_down h2
  obtain ⟨-, a3, b3⟩ := getDeltaY_down h
  rw [Nat.mul_add] at a3 b3
  exact floor_split (Nat.le_refl _) (Nat.le_succ _) a1 b1 a2 b2 a3 b3

end OraiV3
