import Verif.Props.Bounds
import Verif.Props.RangeOrder

/-!
# C104: What a position loses against holding the tokens
-/

namespace OraiV3

/-- The price at which the position exchanges one token for the other between two prices of the pool (as square roots): the product of the
two, each moved to the nearer end of the range when it is outside. -/
def exchangeRate (l u : Int) (P Q : Nat) : ℚ :=
  priceVal (clampPrice (sqrtPriceAt l) (sqrtPriceAt u) P) * priceVal (clampPrice (sqrtPriceAt l) (sqrtPriceAt u) Q)

/-- What amounts of the two tokens are worth in Y at a price of the pool. -/
def tokenValue (P : Nat) (x y : ℚ) : ℚ := x * priceVal P ^ 2 + y

private theorem exactPosition_nonneg (L a b P : Nat) : 0 ≤ exactPositionX L a b P ∧ 0 ≤ exactPositionY L a b P :=
  ⟨exactX_nonneg _ _ _, exactY_nonneg _ _ _⟩

private theorem loss_up {x0 y0 x1 y1 m v : ℚ} (hy0 : 0 ≤ y0) (hx1 : 0 ≤ x1) (hv : 0 ≤ v)
    (e : y1 - y0 = (x0 - x1) * m) (h : m ≤ v) : (x0 * v + y0) * m ≤ (x1 * v + y1) * v := by
  have : (x1 * v + y1) * v - (x0 * v + y0) * m = (v - m) * (x1 * v + y0) := by
    rw [show y1 = y0 + (x0 - x1) * m by linarith]; ring
  have h2 : 0 ≤ (v - m) * (x1 * v + y0) := mul_nonneg (by linarith) (add_nonneg (mul_nonneg hx1 hv) hy0)
  linarith

private theorem loss_down {x0 y0 x1 y1 m v : ℚ} (hx0 : 0 ≤ x0) (hy1 : 0 ≤ y1) (hv : 0 ≤ v)
    (e : y1 - y0 = (x0 - x1) * m) (h : v ≤ m) : (x0 * v + y0) * v ≤ (x1 * v + y1) * m := by
  have : (x1 * v + y1) * m - (x0 * v + y0) * v = (m - v) * (x0 * v + y1) := by
    rw [show y0 = y1 - (x0 - x1) * m by linarith]; ring
  have h2 : 0 ≤ (m - v) * (x0 * v + y1) := mul_nonneg (by linarith) (add_nonneg (mul_nonneg hx0 hv) hy1)
  linarith

/-- In exact amounts: what the position is worth at the second price, and what its contents at the first price are worth there. -/
private theorem exact_loss {L a b P Q : Nat} (h0 : 0 < a) (h1 : a ≤ b) {m v : ℚ}
    (hm : m = priceVal (clampPrice a b P) * priceVal (clampPrice a b Q)) (hv : v = priceVal Q ^ 2) :
    (exactPositionX L a b P * v + exactPositionY L a b P) * min m v ≤
      (exactPositionX L a b Q * v + exactPositionY L a b Q) * max m v := by
  have e := position_rate (L := L) (p0 := P) (p1 := Q) h0 h1
  rw [← hm] at e
  obtain ⟨x0, y0⟩ := exactPosition_nonneg L a b P
  obtain ⟨x1, y1⟩ := exactPosition_nonneg L a b Q
  have v0 : 0 ≤ v := by rw [hv]; positivity
  rcases le_total m v with h | h
  · rw [min_eq_left h, max_eq_right h]
    exact loss_up y0 x1 v0 e h
  · rw [min_eq_right h, max_eq_left h]
    exact loss_down x0 y1 v0 e h

/-! ## Against holding -/

/-- **C104, no better than holding.**  At the price at which it is closed a position is, without its fees, worth no more than the tokens
that were put in (and `10^-14` units of X for rounding), whatever has happened in between. -/
theorem C104_holding {c : Chain} {k : PoolKey} {l u : Int} {P Q L x y x' y' : Nat}
    (h : Opening c k l u P L x y) (h' : Closing c k l u Q L x' y') :
    tokenValue Q x' y' ≤ tokenValue Q (x + 1 / 10 ^ 14) y := by
  obtain ⟨⟨p0, p1⟩, a1, a2, a3, a4⟩ := opening_exact h
  obtain ⟨-, b1, b2, b3, b4⟩ := closing_exact h'
  have t := exactPosition_tangent (L := L) (P := Q) (Q := P) p0 p1
  have v0 : 0 ≤ priceVal Q ^ 2 := by positivity
  have m1 := mul_le_mul_of_nonneg_right b1 v0
  have m2 := mul_le_mul_of_nonneg_right a1.le v0
  unfold tokenValue
  linarith

/-- **C104, the loss is bounded.**  And it is worth no less than the tokens that were put in times the ratio of the rate at which the
position has exchanged them and the price at the end (the smaller by the larger), up to one unit of each token on both sides and one
part in 10^14 of the amounts of X. -/
theorem C104_loss {c : Chain} {k : PoolKey} {l u : Int} {P Q L x y x' y' : Nat}
    (h : Opening c k l u P L x y) (h' : Closing c k l u Q L x' y') :
    tokenValue Q (x * (1 - 1 / 10 ^ 14) - 1) (y - 1) * min (exchangeRate l u P Q) (priceVal Q ^ 2) ≤
      tokenValue Q ((x' + 1) * (1 + 1 / 10 ^ 14) + 1 / 10 ^ 14) (y' + 1) * max (exchangeRate l u P Q) (priceVal Q ^ 2) := by
  obtain ⟨⟨p0, p1⟩, a1, a2, a3, a4⟩ := opening_exact h
  obtain ⟨-, b1, b2, b3, b4⟩ := closing_exact h'
  have t := exact_loss (L := L) (P := P) (Q := Q) p0 p1 rfl rfl
  have v0 : 0 ≤ priceVal Q ^ 2 := by positivity
  have r0 : 0 ≤ exchangeRate l u P Q := by unfold exchangeRate priceVal; positivity
  have m1 := mul_le_mul_of_nonneg_right a2 v0
  have m2 := mul_le_mul_of_nonneg_right b2.le v0
  refine le_trans (mul_le_mul_of_nonneg_right ?_ (le_min r0 v0)) (le_trans t (mul_le_mul_of_nonneg_right ?_ (le_max_of_le_left r0)))
  · unfold tokenValue; linarith
  · unfold tokenValue; linarith

/-- **C104, within the range.**  If both prices are within the range, the ratio is the square root of the ratio of the two prices: a position
whose price has doubled or halved is worth at least 70 % of the tokens that were put in. -/
theorem C104_square_root {c : Chain} {k : PoolKey} {l u : Int} {P Q L x y x' y' : Nat}
    (h : Opening c k l u P L x y) (h' : Closing c k l u Q L x' y')
    (hP : sqrtPriceAt l ≤ P ∧ P ≤ sqrtPriceAt u) (hQ : sqrtPriceAt l ≤ Q ∧ Q ≤ sqrtPriceAt u) :
    tokenValue Q (x * (1 - 1 / 10 ^ 14) - 1) (y - 1) * min P Q ≤
      tokenValue Q ((x' + 1) * (1 + 1 / 10 ^ 14) + 1 / 10 ^ 14) (y' + 1) * max P Q := by
  have t := C104_loss h h'
  obtain ⟨⟨p0, p1⟩, -⟩ := opening_exact h
  have e1 : clampPrice (sqrtPriceAt l) (sqrtPriceAt u) P = P := by unfold clampPrice; omega
  have e2 : clampPrice (sqrtPriceAt l) (sqrtPriceAt u) Q = Q := by unfold clampPrice; omega
  have q0 : 0 < priceVal Q := priceVal_pos (by omega)
  unfold exchangeRate at t
  rw [e1, e2, pow_two, ← min_mul_of_nonneg _ _ q0.le, ← max_mul_of_nonneg _ _ q0.le, ← mul_assoc, ← mul_assoc] at t
  have t := le_of_mul_le_mul_right t q0
  have d : (0 : ℚ) ≤ 10 ^ 24 := by positivity
  unfold priceVal at t
  rw [min_div_div_right d, max_div_div_right d, ← mul_div_assoc, ← mul_div_assoc] at t
  rw [Nat.cast_min, Nat.cast_max]
  exact (div_le_div_iff_of_pos_right (by positivity)).1 t

/-! ## The hypotheses can be met -/

/-- Alice closes the whole range after the swaps have raised the price: 2500 units of X and 4975 of Y are fees. -/
def Demo.closesLater (P x y : Nat) : Bool :=
  (((Demo.state Demo.chain Demo.halvesSwapped).pools.get? Demo.key.key).map (·.sqrtPrice) == some P) &&
  (((Demo.state Demo.chain Demo.halvesSwapped).positions.get? (positionKey Demo.alice 2)).map (fun q => (q.what,
    accrued (Demo.state Demo.chain Demo.halvesSwapped) true q / 10 ^ 34, accrued (Demo.state Demo.chain Demo.halvesSwapped) false q / 10 ^ 34)) ==
      some ((Demo.key, -10, 10, 10 ^ 15), 2500, 4975)) &&
  match World.tx Demo.chain ⟨Demo.state Demo.chain Demo.halvesSwapped, Demo.wealthy⟩ Demo.env ⟨Demo.alice, []⟩
    (.removePosition 2) with
  | .ok w' => decide (w'.ledger.bal (.cw20 [97]) Demo.alice = 10 ^ 40 + (x + 2500) ∧
      w'.ledger.bal (.cw20 [98]) Demo.alice = 10 ^ 40 + (y + 4975))
  | .error _ => false

theorem later_closing {P x y : Nat} (h : Demo.closesLater P x y = true) :
    Closing Demo.chain Demo.key (-10) 10 P (10 ^ 15) x y := by
  unfold Demo.closesLater at h
  rw [Bool.and_eq_true, Bool.and_eq_true] at h
  obtain ⟨⟨h0, h1⟩, h⟩ := h
  cases hp : (Demo.state Demo.chain Demo.halvesSwapped).pools.get? Demo.key.key with
  | none => rw [hp] at h0; simp at h0
  | some p =>
    rw [hp] at h0
    simp only [Option.map_some, beq_iff_eq, Option.some.injEq] at h0
    cases hq : (Demo.state Demo.chain Demo.halvesSwapped).positions.get? (positionKey Demo.alice 2) with
    | none => rw [hq] at h1; simp at h1
    | some q =>
      rw [hq] at h1
      simp only [Option.map_some, beq_iff_eq, Option.some.injEq, Prod.mk.injEq] at h1
      obtain ⟨h2, h3, h4⟩ := h1
      cases ht : World.tx Demo.chain ⟨Demo.state Demo.chain Demo.halvesSwapped, Demo.wealthy⟩ Demo.env ⟨Demo.alice, []⟩ (.removePosition 2) with
      | error e => rw [ht] at h; simp at h
      | ok w' =>
        rw [ht] at h
        simp only [decide_eq_true_eq] at h
        refine ⟨⟨Demo.state Demo.chain Demo.halvesSwapped, Demo.wealthy⟩, w', Demo.env, Demo.alice, 2, p, q,
          later_reach, by decide, hq, h2, hp, h0, ht, ?_, ?_⟩
        · rw [h3]
          exact h.1
        · rw [h4]
          exact h.2

-- 499851 units of each token become 252324 X and 747436 Y
example : Opening Demo.chain Demo.key (-10) 10 (10 ^ 24 + 4187) (10 ^ 15) 499851 499851 ∧
    Closing Demo.chain Demo.key (-10) 10 1000247586500000000000000 (10 ^ 15) 252324 747436 :=
  ⟨halves_opening (by decide +kernel), later_closing (by decide +kernel)⟩

example : sqrtPriceAt (-10) ≤ 10 ^ 24 + 4187 ∧ 10 ^ 24 + 4187 ≤ 1000247586500000000000000 ∧
    1000247586500000000000000 ≤ sqrtPriceAt 10 := by decide +kernel

-- worth 64 units of Y less at the new price (without the fees)
example : tokenValue 1000247586500000000000000 252324 747436 + 62 < tokenValue 1000247586500000000000000 499851 499851 ∧
    tokenValue 1000247586500000000000000 499851 499851 < tokenValue 1000247586500000000000000 252324 747436 + 65 := by
  norm_num [tokenValue, priceVal]

end OraiV3
