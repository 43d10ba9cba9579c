import Verif.Lemmas.Amounts

/-!
# One step of a swap
-/

namespace OraiV3

theorem checkedBigDivUp_inv {nom den q : Nat} (h : checkedBigDivUp nom den = .ok q) :
    0 < den ∧ q < U128 ∧ nom * SPR ≤ q * den ∧ q * den < nom * SPR + den := by
  unfold checkedBigDivUp at h
  rw [ite_error_ok, cast128_ok] at h
  obtain ⟨h1, h2, rfl⟩ := h
  have hd : 0 < den := Nat.pos_of_ne_zero h1
  exact ⟨hd, h2, ceil_spec _ _ hd⟩

theorem checkedBigDiv_inv {nom den q : Nat} (h : checkedBigDiv nom den = .ok q) :
    0 < den ∧ q < U128 ∧ q * den ≤ nom * SPR ∧ nom * SPR < q * den + den := by
  unfold checkedBigDiv at h
  rw [ite_error_ok, ite_error_ok, cast128_ok] at h
  obtain ⟨-, h1, h2, rfl⟩ := h
  have hd : 0 < den := Nat.pos_of_ne_zero h1
  exact ⟨hd, h2, floor_spec _ _ hd⟩

theorem xUp_pure {p L N q D S K : Nat} (hN : p * L ≤ N * K ∧ N * K < p * L + K)
    (hq : N * (K * S) ≤ q * D ∧ q * D < N * (K * S) + D) (hS : 0 < S) :
    p * L * S ≤ q * D ∧ q * D < (p * L + K) * S + D := by
  have h1 : p * L * S ≤ N * K * S := Nat.mul_le_mul_right _ hN.1
  have h2 : N * K * S < (p * L + K) * S := Nat.mul_lt_mul_of_pos_right hN.2 hS
  have h3 : N * (K * S) = N * K * S := by rw [Nat.mul_assoc]
  omega

/-- Next price after adding X. -/
theorem xUp_add {p L x q : Nat} (h : nextSqrtPriceXUp p L x true = .ok q) (hx : x ≠ 0) :
    q < U128 ∧ p * L * 10 ^ 18 ≤ q * (L * 10 ^ 18 + p * x) ∧
      q * (L * 10 ^ 18 + p * x) < (p * L + 10 ^ 6) * 10 ^ 18 + (L * 10 ^ 18 + p * x) := by
  unfold nextSqrtPriceXUp at h
  rw [if_neg hx] at h
  simp only [if_true] at h
  rw [ite_error_ok] at h
  obtain ⟨-, h⟩ := h
  obtain ⟨_, h1, h2⟩ := checkedBigDivUp_inv h
  have hN := ceil_spec (p * L) LIQ (by norm_num)
  rw [spr_eq] at h2
  exact ⟨h1, xUp_pure hN h2 (by norm_num)⟩

/-- Next price after taking X out. -/
theorem xUp_sub {p L x q : Nat} (h : nextSqrtPriceXUp p L x false = .ok q) (hx : x ≠ 0) :
    q < U128 ∧ p * x < L * 10 ^ 18 ∧ p * L * 10 ^ 18 ≤ q * (L * 10 ^ 18 - p * x) ∧
      q * (L * 10 ^ 18 - p * x) < (p * L + 10 ^ 6) * 10 ^ 18 + (L * 10 ^ 18 - p * x) := by
  unfold nextSqrtPriceXUp at h
  rw [if_neg hx] at h
  simp only [Bool.false_eq_true, if_false] at h
  rw [ite_error_ok] at h
  obtain ⟨h0, h⟩ := h
  obtain ⟨hd, h1, h2⟩ := checkedBigDivUp_inv h
  have hN := ceil_spec (p * L) LIQ (by norm_num)
  rw [spr_eq] at h2
  exact ⟨h1, by omega, xUp_pure hN h2 (by norm_num)⟩

/-- Next price after adding Y. -/
theorem yDown_add {p L y q : Nat} (h : nextSqrtPriceYDown p L y true = .ok q) :
    q < U128 ∧ p ≤ q ∧ (q - p) * L ≤ y * 10 ^ 30 ∧ y * 10 ^ 30 < (q - p) * L + L := by
  unfold nextSqrtPriceYDown at h
  simp only [if_true, bind_ok, checkedAdd_ok] at h
  obtain ⟨d, h1, h2, rfl⟩ := h
  obtain ⟨_, _, h4, h5⟩ := checkedBigDiv_inv h1
  refine ⟨h2, by omega, ?_⟩
  rw [Nat.add_sub_cancel_left]
  have e : y * SPR * SPR = y * 10 ^ 30 * 10 ^ 18 := by
    have : SPR * SPR = 10 ^ 30 * 10 ^ 18 := by norm_num
    rw [Nat.mul_assoc, this, Nat.mul_assoc]
  rw [e] at h4 h5
  have h6 : d * (L * 10 ^ 18) = d * L * 10 ^ 18 := by rw [Nat.mul_assoc]
  rw [h6] at h4 h5
  generalize (10 : Nat) ^ 30 = K at *
  have hS : (0 : Nat) < 10 ^ 18 := by norm_num
  generalize (10 : Nat) ^ 18 = S at *
  constructor
  · exact Nat.le_of_mul_le_mul_right h4 hS
  · have : y * K * S < (d * L + L) * S := by rw [Nat.add_mul]; exact h5
    exact Nat.lt_of_mul_lt_mul_right this

/-- Next price after taking Y out. -/
theorem yDown_sub {p L y q : Nat} (h : nextSqrtPriceYDown p L y false = .ok q) :
    q ≤ p ∧ y * 10 ^ 30 ≤ (p - q) * L ∧ (p - q) * L < y * 10 ^ 30 + L := by
  unfold nextSqrtPriceYDown at h
  simp only [Bool.false_eq_true, if_false, bind_ok, checkedSub_ok] at h
  obtain ⟨d, h1, h2, rfl⟩ := h
  obtain ⟨_, _, h4, h5⟩ := checkedBigDivUp_inv h1
  refine ⟨by omega, ?_⟩
  rw [show p - (p - d) = d by omega]
  have e : y * SPR * SPR = y * 10 ^ 30 * 10 ^ 18 := by
    have : SPR * SPR = 10 ^ 30 * 10 ^ 18 := by norm_num
    rw [Nat.mul_assoc, this, Nat.mul_assoc]
  rw [e] at h4 h5
  have h6 : d * (L * 10 ^ 18) = d * L * 10 ^ 18 := by rw [Nat.mul_assoc]
  rw [h6] at h4 h5
  generalize (10 : Nat) ^ 30 = K at *
  have hS : (0 : Nat) < 10 ^ 18 := by norm_num
  generalize (10 : Nat) ^ 18 = S at *
  constructor
  · exact Nat.le_of_mul_le_mul_right h4 hS
  · have : d * L * S < (y * K + L) * S := by rw [Nat.add_mul]; exact h5
    exact Nat.lt_of_mul_lt_mul_right this

/-- The amount a step charges for moving the price, `d` being the direction X to Y. -/
def deltaIn (d : Bool) (cur np L : Nat) : M Nat := if d then getDeltaX np cur L true else getDeltaY cur np L true

/-- The amount a step pays for moving the price. -/
def deltaOut (d : Bool) (cur np L : Nat) : M Nat := if d then getDeltaY np cur L false else getDeltaX cur np L false

/-- The price reached by an exact-input step. -/
def NextIn (d : Bool) (cur target L amount fee np : Nat) : Prop :=
  fee ≤ PCT ∧ ∃ pre, deltaIn d cur target L = .ok pre ∧
    ((pre ≤ amount * (PCT - fee) / PCT ∧ np = target) ∨
     (amount * (PCT - fee) / PCT < pre ∧
      nextSqrtPriceFromInput cur L (amount * (PCT - fee) / PCT) d = .ok np))

/-- The price reached by an exact-output step. -/
def NextOut (d : Bool) (cur target L amount np : Nat) : Prop :=
  ∃ pre, deltaOut d cur target L = .ok pre ∧
    ((pre ≤ amount ∧ np = target) ∨ (amount < pre ∧ nextSqrtPriceFromOutput cur L amount d = .ok np))

theorem amountAfterFee_inv {amount fee a : Nat} (h : amountAfterFee amount fee = .ok a) :
    fee ≤ PCT ∧ a = amount * (PCT - fee) / PCT ∧ a < U128 := by
  unfold amountAfterFee bigMul at h
  simp only [bind_ok, subP_ok, cast128_ok] at h
  obtain ⟨f, ⟨h1, rfl⟩, h2, rfl⟩ := h
  exact ⟨h1, rfl, h2⟩

theorem stepNextPrice_in {cur target L amount fee : Nat} {d : Bool} {np : Nat × Nat}
    (h : stepNextPrice cur target L amount true fee d = .ok np) :
    NextIn d cur target L amount fee np.1 ∧ deltaIn d cur target L = .ok np.2 := by
  unfold stepNextPrice at h
  simp only [if_true] at h
  rw [bind_ok] at h
  obtain ⟨aaf, h1, h⟩ := h
  obtain ⟨h2, rfl, -⟩ := amountAfterFee_inv h1
  have key : ∃ pre, deltaIn d cur target L = .ok pre ∧
      ((pre ≤ amount * (PCT - fee) / PCT ∧ np = (target, pre)) ∨
       (amount * (PCT - fee) / PCT < pre ∧ ∃ q,
        nextSqrtPriceFromInput cur L (amount * (PCT - fee) / PCT) d = .ok q ∧ np = (q, pre))) := by
    unfold deltaIn
    cases d
    · simp only [Bool.false_eq_true, if_false] at h ⊢
      rw [bind_ok] at h
      obtain ⟨pre, h3, h⟩ := h
      refine ⟨pre, h3, ?_⟩
      split at h
      · rename_i hc; rw [pure_ok] at h; exact .inl ⟨hc, h.symm⟩
      · rename_i hc; simp only [bind_ok, pure_ok] at h
        obtain ⟨q, h4, h5⟩ := h
        exact .inr ⟨by omega, q, h4, h5.symm⟩
    · simp only [if_true] at h ⊢
      rw [bind_ok] at h
      obtain ⟨pre, h3, h⟩ := h
      refine ⟨pre, h3, ?_⟩
      split at h
      · rename_i hc; rw [pure_ok] at h; exact .inl ⟨hc, h.symm⟩
      · rename_i hc; simp only [bind_ok, pure_ok] at h
        obtain ⟨q, h4, h5⟩ := h
        exact .inr ⟨by omega, q, h4, h5.symm⟩
  obtain ⟨pre, h3, h4⟩ := key
  rcases h4 with ⟨h4, rfl⟩ | ⟨h4, q, h5, rfl⟩
  · exact ⟨⟨h2, pre, h3, .inl ⟨h4, rfl⟩⟩, h3⟩
  · exact ⟨⟨h2, pre, h3, .inr ⟨h4, h5⟩⟩, h3⟩

theorem stepNextPrice_out {cur target L amount fee : Nat} {d : Bool} {np : Nat × Nat}
    (h : stepNextPrice cur target L amount false fee d = .ok np) :
    NextOut d cur target L amount np.1 ∧ deltaOut d cur target L = .ok np.2 := by
  unfold stepNextPrice at h
  simp only [Bool.false_eq_true, if_false] at h
  have key : ∃ pre, deltaOut d cur target L = .ok pre ∧
      ((pre ≤ amount ∧ np = (target, pre)) ∨
       (amount < pre ∧ ∃ q, nextSqrtPriceFromOutput cur L amount d = .ok q ∧ np = (q, pre))) := by
    unfold deltaOut
    cases d
    · simp only [Bool.false_eq_true, if_false] at h ⊢
      rw [bind_ok] at h
      obtain ⟨pre, h3, h⟩ := h
      refine ⟨pre, h3, ?_⟩
      split at h
      · rename_i hc; rw [pure_ok] at h; exact .inl ⟨hc, h.symm⟩
      · rename_i hc; simp only [bind_ok, pure_ok] at h
        obtain ⟨q, h4, h5⟩ := h
        exact .inr ⟨by omega, q, h4, h5.symm⟩
    · simp only [if_true] at h ⊢
      rw [bind_ok] at h
      obtain ⟨pre, h3, h⟩ := h
      refine ⟨pre, h3, ?_⟩
      split at h
      · rename_i hc; rw [pure_ok] at h; exact .inl ⟨hc, h.symm⟩
      · rename_i hc; simp only [bind_ok, pure_ok] at h
        obtain ⟨q, h4, h5⟩ := h
        exact .inr ⟨by omega, q, h4, h5.symm⟩
  obtain ⟨pre, h3, h4⟩ := key
  rcases h4 with ⟨h4, rfl⟩ | ⟨h4, q, h5, rfl⟩
  · exact ⟨⟨pre, h3, .inl ⟨h4, rfl⟩⟩, h3⟩
  · exact ⟨⟨pre, h3, .inr ⟨h4, h5⟩⟩, h3⟩

/-- The fee of a step, rounded up. -/
def feeOf (amount fee : Nat) : Nat := (amount * fee + (PCT - 1)) / PCT

/-- What a step with liquidity does. -/
theorem step_view {cur target L amount fee : Nat} {b : Bool} {r : SwapResult}
    (h : computeSwapStep cur target L amount b fee = .ok r) (hL : L ≠ 0) :
    (if b then NextIn (decide (cur ≥ target)) cur target L amount fee r.nextPrice
      else NextOut (decide (cur ≥ target)) cur target L amount r.nextPrice) ∧
    deltaIn (decide (cur ≥ target)) cur r.nextPrice L = .ok r.amountIn ∧
    (∃ out0, deltaOut (decide (cur ≥ target)) cur r.nextPrice L = .ok out0 ∧
      r.amountOut = if b then out0 else min out0 amount) ∧
    (if b ∧ r.nextPrice ≠ target then r.amountIn ≤ amount ∧ r.feeAmount = amount - r.amountIn
      else r.feeAmount = feeOf r.amountIn fee) := by
  unfold computeSwapStep at h
  rw [if_neg hL] at h
  dsimp only at h
  generalize decide (cur ≥ target) = d at *
  rw [bind_ok] at h
  obtain ⟨np, h1, h⟩ := h
  rw [bind_ok] at h
  obtain ⟨ain, h2, h⟩ := h
  rw [bind_ok] at h
  obtain ⟨aout, h3, h⟩ := h
  have e2 : b = true → deltaIn d cur target L = .ok np.2 := fun hb => by
    subst hb; exact (stepNextPrice_in h1).2
  have e3 : b = false → deltaOut d cur target L = .ok np.2 := fun hb => by
    subst hb; exact (stepNextPrice_out h1).2
  have hin : deltaIn d cur np.1 L = .ok ain := by
    unfold stepAmountIn at h2
    by_cases hc : (decide (target ≠ np.1) || !b) = true
    · rw [if_pos hc] at h2; exact h2
    · rw [if_neg hc, pure_ok] at h2
      simp only [ne_eq, Bool.or_eq_true, decide_eq_true_eq, Bool.not_eq_true', not_or, Decidable.not_not,
        Bool.not_eq_false] at hc
      rw [← hc.1, ← h2]
      exact e2 hc.2
  have hout : deltaOut d cur np.1 L = .ok aout := by
    unfold stepAmountOut at h3
    by_cases hc : (decide (target ≠ np.1) || b) = true
    · rw [if_pos hc] at h3; exact h3
    · rw [if_neg hc, pure_ok] at h3
      simp only [ne_eq, Bool.or_eq_true, decide_eq_true_eq, not_or, Decidable.not_not, Bool.not_eq_true] at hc
      rw [← hc.1, ← h3]
      exact e3 hc.2
  have hfee : ∃ f, (if b ∧ np.1 ≠ target then ain ≤ amount ∧ f = amount - ain else f = feeOf ain fee) ∧
      r = ⟨np.1, ain, if !b && decide (aout > amount) then amount else aout, f⟩ := by
    by_cases hc : (b && decide (target ≠ np.1)) = true
    · rw [if_pos hc] at h
      simp only [bind_ok, subP_ok, pure_ok] at h
      obtain ⟨f, ⟨h4, rfl⟩, h5⟩ := h
      simp only [ne_eq, Bool.and_eq_true, decide_eq_true_eq] at hc
      exact ⟨_, by rw [if_pos ⟨hc.1, fun e => hc.2 e.symm⟩]; exact ⟨h4, rfl⟩, h5.symm⟩
    · rw [if_neg hc] at h
      unfold bigMulUp at h
      simp only [bind_ok, cast128_ok, pure_ok] at h
      obtain ⟨f, ⟨h4, rfl⟩, h5⟩ := h
      simp only [ne_eq, Bool.and_eq_true, decide_eq_true_eq] at hc
      exact ⟨_, by rw [if_neg (fun e => hc ⟨e.1, fun e' => e.2 e'.symm⟩)]; rfl, h5.symm⟩
  obtain ⟨f, hf, rfl⟩ := hfee
  refine ⟨?_, hin, ⟨aout, hout, ?_⟩, hf⟩
  · cases b
    · exact (stepNextPrice_out h1).1
    · exact (stepNextPrice_in h1).1
  · cases b
    · simp only [Bool.not_false, Bool.true_and, decide_eq_true_eq, Bool.false_eq_true, if_false]
      split <;> omega
    · simp

end OraiV3
