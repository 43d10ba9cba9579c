import Verif.Lemmas.Rate
import Verif.Lemmas.Active
import Verif.Lemmas.ExactLemmas
import Mathlib.Tactic.Positivity
import Mathlib.Tactic.FieldSimp
import Mathlib.Tactic.Linarith

/-!
# What a step gives, measured at the price it reaches
-/

namespace OraiV3

/-! ## The price reached, in exact arithmetic -/

theorem xUp_add_le {p L a q : Nat} (h : nextSqrtPriceXUp p L a true = .ok q) :
    (a : ℚ) * p * q ≤ ((p : ℚ) - q) * L * 10 ^ 18 + 10 ^ 24 + L * 10 ^ 18 + p * a := by
  unfold nextSqrtPriceXUp at h
  split at h
  · rename_i h0
    rw [ok_inj] at h
    subst h
    subst h0
    have : (0 : ℚ) ≤ L := Nat.cast_nonneg _
    simp only [Nat.cast_zero, zero_mul, sub_self, mul_zero, add_zero, zero_add]
    positivity
  · dsimp only at h
    rw [if_pos rfl, ite_error_ok] at h
    obtain ⟨-, -, -, h2⟩ := checkedBigDivUp_inv h.2
    have h3 : (p * L + (LIQ - 1)) / LIQ * LIQ ≤ p * L + (LIQ - 1) := Nat.div_mul_le_self _ _
    generalize (p * L + (LIQ - 1)) / LIQ = N at *
    have e1 : LIQ = 10 ^ 6 := rfl
    have e2 : SPR = 10 ^ 24 := rfl
    rw [e1] at h3
    rw [e2] at h2
    have h3' : ((N * 10 ^ 6 : Nat) : ℚ) ≤ ((p * L + (10 ^ 6 - 1) : Nat) : ℚ) := by exact_mod_cast h3
    have h2' : ((q * (L * 10 ^ 18 + p * a) : Nat) : ℚ) < ((N * 10 ^ 24 + (L * 10 ^ 18 + p * a) : Nat) : ℚ) := by exact_mod_cast h2
    push_cast at h2' h3'
    norm_num at h3'
    nlinarith

theorem xUp_sub_le {p L x q : Nat} (h : nextSqrtPriceXUp p L x false = .ok q) :
    ((q : ℚ) - p) * L * 10 ^ 18 ≤ x * p * q + 10 ^ 24 + L * 10 ^ 18 := by
  unfold nextSqrtPriceXUp at h
  split at h
  · rename_i h0
    rw [ok_inj] at h
    subst h
    subst h0
    have : (0 : ℚ) ≤ L := Nat.cast_nonneg _
    simp only [Nat.cast_zero, zero_mul, sub_self, zero_add]
    positivity
  · dsimp only at h
    rw [if_neg (by decide), ite_error_ok] at h
    obtain ⟨-, -, -, h2⟩ := checkedBigDivUp_inv h.2
    have h3 : (p * L + (LIQ - 1)) / LIQ * LIQ ≤ p * L + (LIQ - 1) := Nat.div_mul_le_self _ _
    have h4 : p * x ≤ L * 10 ^ 18 := Nat.le_of_not_lt h.1
    generalize (p * L + (LIQ - 1)) / LIQ = N at *
    have e1 : LIQ = 10 ^ 6 := rfl
    have e2 : SPR = 10 ^ 24 := rfl
    rw [e1] at h3
    rw [e2] at h2
    obtain ⟨D, hD⟩ := Nat.le.dest h4
    have h5 : L * 10 ^ 18 - p * x = D := by omega
    rw [h5] at h2
    have h3' : ((N * 10 ^ 6 : Nat) : ℚ) ≤ ((p * L + (10 ^ 6 - 1) : Nat) : ℚ) := by exact_mod_cast h3
    have h2' : ((q * D : Nat) : ℚ) < ((N * 10 ^ 24 + D : Nat) : ℚ) := by exact_mod_cast h2
    have h6 : ((p * x + D : Nat) : ℚ) = ((L * 10 ^ 18 : Nat) : ℚ) := by exact_mod_cast hD
    push_cast at h2' h3' h6
    norm_num at h3'
    have h7 : (D : ℚ) = L * 10 ^ 18 - p * x := by linarith
    rw [h7] at h2'
    have : (0 : ℚ) ≤ (p : ℚ) * x := by positivity
    nlinarith

theorem yDown_add_le {p L y q : Nat} (h : nextSqrtPriceYDown p L y true = .ok q) :
    (y : ℚ) ≤ ((q : ℚ) - p) * L / 10 ^ 30 + L / 10 ^ 30 := by
  unfold nextSqrtPriceYDown at h
  dsimp only at h
  rw [if_pos rfl, bind_ok] at h
  obtain ⟨e, h1, h2⟩ := h
  obtain ⟨-, -, -, h3⟩ := checkedBigDiv_inv h1
  rw [checkedAdd_ok] at h2
  have e2 : SPR = 10 ^ 24 := rfl
  rw [e2] at h3
  have h3' : ((y * 10 ^ 24 * 10 ^ 24 : Nat) : ℚ) < ((e * (L * 10 ^ 18) + L * 10 ^ 18 : Nat) : ℚ) := by exact_mod_cast h3
  have h4 : (q : ℚ) = p + e := by have := h2.2.symm; exact_mod_cast this
  push_cast at h3'
  rw [h4, ← add_div, le_div_iff₀ (by positivity)]
  nlinarith

theorem yDown_sub_le {p L y q : Nat} (h : nextSqrtPriceYDown p L y false = .ok q) :
    ((p : ℚ) - q) * L / 10 ^ 30 ≤ y + L / 10 ^ 30 := by
  unfold nextSqrtPriceYDown at h
  dsimp only at h
  rw [if_neg (by decide), bind_ok] at h
  obtain ⟨e, h1, h2⟩ := h
  obtain ⟨-, -, -, h3⟩ := checkedBigDivUp_inv h1
  rw [checkedSub_ok] at h2
  have e2 : SPR = 10 ^ 24 := rfl
  rw [e2] at h3
  have h3' : ((e * (L * 10 ^ 18) : Nat) : ℚ) < ((y * 10 ^ 24 * 10 ^ 24 + L * 10 ^ 18 : Nat) : ℚ) := by exact_mod_cast h3
  have h5 : q + e = p := by have := h2.2; have := h2.1; omega
  have h4 : (p : ℚ) = q + e := by exact_mod_cast h5.symm
  push_cast at h3'
  rw [h4, ← sub_le_iff_le_add, ← sub_div, div_le_iff₀ (by positivity)]
  nlinarith

/-! ## Fees -/

theorem fee_le {a fee : Nat} (hf : fee ≤ PCT) : ((a : ℚ) + feeOf a fee) * (1 - (fee : ℚ) / 10 ^ 12) ≤ a + 1 := by
  have h1 : feeOf a fee * PCT ≤ a * fee + (PCT - 1) := Nat.div_mul_le_self _ _
  have e : PCT = 10 ^ 12 := rfl
  rw [e] at h1 hf
  have h1' : ((feeOf a fee * 10 ^ 12 : Nat) : ℚ) ≤ ((a * fee + (10 ^ 12 - 1) : Nat) : ℚ) := by exact_mod_cast h1
  have hf' : (fee : ℚ) ≤ 10 ^ 12 := by exact_mod_cast hf
  push_cast at h1'
  norm_num at h1'
  generalize (feeOf a fee : ℚ) = F at *
  have ha : (0 : ℚ) ≤ a := Nat.cast_nonneg _
  have h0 : (0 : ℚ) ≤ fee := Nat.cast_nonneg _
  set f : ℚ := (fee : ℚ) / 10 ^ 12 with hfd
  have hf0 : 0 ≤ f := by positivity
  have hf1 : f ≤ 1 := by rw [hfd, div_le_one (by positivity)]; exact hf'
  have hF : F ≤ a * f + 1 := by
    have : (fee : ℚ) = f * 10 ^ 12 := by rw [hfd]; field_simp
    rw [this] at h1'
    nlinarith
  nlinarith [mul_nonneg ha hf0, mul_nonneg (mul_nonneg ha hf0) hf0]

theorem afterFee_le {a fee : Nat} (hf : fee ≤ PCT) : (a : ℚ) * (1 - (fee : ℚ) / 10 ^ 12) ≤ (a * (PCT - fee) / PCT : Nat) + 1 := by
  have e : PCT = 10 ^ 12 := rfl
  have h1 := Nat.lt_div_mul_add (a := a * (PCT - fee)) (b := PCT) (by decide)
  obtain ⟨g, hg⟩ := Nat.le.dest hf
  have h2 : PCT - fee = g := by omega
  rw [h2] at h1 ⊢
  generalize a * g / PCT = N at *
  rw [e] at h1 hg
  have h1' : ((a * g : Nat) : ℚ) < ((N * 10 ^ 12 + 10 ^ 12 : Nat) : ℚ) := by exact_mod_cast h1
  have h3 : ((fee + g : Nat) : ℚ) = 10 ^ 12 := by exact_mod_cast hg
  push_cast at h1' h3
  have h4 : (1 : ℚ) - (fee : ℚ) / 10 ^ 12 = g / 10 ^ 12 := by
    field_simp
    linarith
  rw [h4, ← mul_div_assoc, div_le_iff₀ (by positivity)]
  linarith

theorem small_price {p q : Nat} (hp : p ≤ MAX_SQRT_PRICE) (hq : MIN_SQRT_PRICE ≤ q) : (p : ℚ) ≤ (q : ℚ) * q * (1 / 10 ^ 9) := by
  have h1 : (p : ℚ) ≤ (MAX_SQRT_PRICE : Nat) := by exact_mod_cast hp
  have h2 : ((MIN_SQRT_PRICE : Nat) : ℚ) ≤ q := by exact_mod_cast hq
  have h3 : ((MIN_SQRT_PRICE : Nat) : ℚ) * (MIN_SQRT_PRICE : Nat) ≤ (q : ℚ) * q := mul_le_mul h2 h2 (Nat.cast_nonneg _) (Nat.cast_nonneg _)
  have h4 : ((MAX_SQRT_PRICE : Nat) : ℚ) ≤ ((MIN_SQRT_PRICE : Nat) : ℚ) * (MIN_SQRT_PRICE : Nat) * (1 / 10 ^ 9) := by
    norm_num [MAX_SQRT_PRICE, MIN_SQRT_PRICE]
  exact (h1.trans h4).trans (mul_le_mul_of_nonneg_right h3 (by positivity))

/-- X sold that did not reach the target. -/
theorem rest_sell {p L a q : Nat} (h : nextSqrtPriceXUp p L a true = .ok q) (hle : q ≤ p) (hp : p ≤ MAX_SQRT_PRICE)
    (hq : MIN_SQRT_PRICE ≤ q) :
    (a : ℚ) * ((q : ℚ) * q / 10 ^ 48) * (1 - 1 / 10 ^ 9) ≤ ((p : ℚ) - q) * L / 10 ^ 30 + 1 / 10 ^ 24 + L / 10 ^ 30 := by
  have h1 := xUp_add_le h
  have h2 := small_price hp hq
  have hle' : (q : ℚ) ≤ p := by exact_mod_cast hle
  have ha : (0 : ℚ) ≤ a := Nat.cast_nonneg _
  have hq0 : (0 : ℚ) ≤ q := Nat.cast_nonneg _
  have h3 : (a : ℚ) * q * q ≤ a * p * q := by nlinarith [mul_nonneg ha hq0]
  have h4 : (p : ℚ) * a ≤ a * q * q * (1 / 10 ^ 9) := by nlinarith
  have h5 : (a : ℚ) * ((q : ℚ) * q / 10 ^ 48) * (1 - 1 / 10 ^ 9) = (a * q * q * (1 - 1 / 10 ^ 9)) / 10 ^ 48 := by ring
  have h6 : ((p : ℚ) - q) * L / 10 ^ 30 + 1 / 10 ^ 24 + L / 10 ^ 30 = (((p : ℚ) - q) * L * 10 ^ 18 + 10 ^ 24 + L * 10 ^ 18) / 10 ^ 48 := by
    field_simp
  rw [h5, h6]
  refine div_le_div_of_nonneg_right ?_ (by positivity)
  nlinarith

/-- X required by a price move. -/
theorem in_sell {p L a q : Nat} (h : getDeltaX q p L true = .ok a) (hle : q ≤ p) (hq : MIN_SQRT_PRICE ≤ q) :
    ((a : ℚ) + 1) * ((q : ℚ) * q / 10 ^ 48) * (1 - 1 / 10 ^ 9) ≤ ((p : ℚ) - q) * L / 10 ^ 30 + 2 * ((q : ℚ) * q / 10 ^ 48) := by
  obtain ⟨hq0, hp0, -, h1⟩ := deltaX_up_exact h
  have hd := dustX_small hq (hq.trans hle)
  rw [exactX_eq hq0 hp0, absDiff_cast] at h1
  have hq' : (0 : ℚ) < q := by exact_mod_cast hq0
  have hp' : (0 : ℚ) < p := by exact_mod_cast hp0
  have hle' : (q : ℚ) ≤ p := by exact_mod_cast hle
  rw [abs_of_nonneg (by linarith : (0 : ℚ) ≤ p - q)] at h1
  have ha : (0 : ℚ) ≤ a := Nat.cast_nonneg _
  have hL : (0 : ℚ) ≤ L := Nat.cast_nonneg _
  have hV : (0 : ℚ) ≤ (q : ℚ) * q / 10 ^ 48 := by positivity
  have h2 : (a : ℚ) * (1 - 1 / 10 ^ 9) ≤ ((p : ℚ) - q) * L * 10 ^ 18 / (q * p) + 1 := by
    have : (a : ℚ) * dustX q p ≤ a * (1 / 10 ^ 9) := mul_le_mul_of_nonneg_left (by linarith) ha
    linarith
  have h3 : ((p : ℚ) - q) * L * 10 ^ 18 / (q * p) * ((q : ℚ) * q / 10 ^ 48) ≤ ((p : ℚ) - q) * L / 10 ^ 30 := by
    have e : ((p : ℚ) - q) * L * 10 ^ 18 / (q * p) * ((q : ℚ) * q / 10 ^ 48) = (((p : ℚ) - q) * L / 10 ^ 30) * (q / p) := by
      field_simp
    rw [e]
    refine mul_le_of_le_one_right ?_ ((div_le_one hp').2 hle')
    have : (0 : ℚ) ≤ p - q := by linarith
    positivity
  have h4 := mul_le_mul_of_nonneg_right h2 hV
  rw [add_mul, one_mul] at h4
  nlinarith

/-- What a step from X to Y gives, at the price it reaches. -/
theorem step_sell {cur target L amount fee : Nat} {b : Bool} {r : SwapResult}
    (h : computeSwapStep cur target L amount b fee = .ok r) (ht : target ≤ cur) (hf : fee ≤ PCT)
    (hle : r.nextPrice ≤ cur) (hp : cur ≤ MAX_SQRT_PRICE) (hq : MIN_SQRT_PRICE ≤ r.nextPrice) :
    ((r.amountIn : ℚ) + r.feeAmount) * (1 - (fee : ℚ) / 10 ^ 12) * ((r.nextPrice : ℚ) * r.nextPrice / 10 ^ 48) * (1 - 1 / 10 ^ 9) ≤
        r.amountOut + (1 + 1 / 10 ^ 24) + 2 * ((r.nextPrice : ℚ) * r.nextPrice / 10 ^ 48) ∨
    (((r.amountIn : ℚ) + r.feeAmount) * (1 - (fee : ℚ) / 10 ^ 12) * ((r.nextPrice : ℚ) * r.nextPrice / 10 ^ 48) * (1 - 1 / 10 ^ 9) ≤
        r.amountOut + (1 + 1 / 10 ^ 24) + 2 * ((r.nextPrice : ℚ) * r.nextPrice / 10 ^ 48) + L / 10 ^ 30 ∧
      L ≠ 0 ∧ if b then r.amountIn + r.feeAmount = amount else r.amountOut = amount) := by
  have hV : (0 : ℚ) ≤ (r.nextPrice : ℚ) * r.nextPrice / 10 ^ 48 := by positivity
  by_cases hL : L = 0
  · left
    rw [hL] at h
    rw [step_zero h] at hV ⊢
    simp only [Nat.cast_zero, add_zero, zero_mul]
    linarith
  · obtain ⟨h1, h2, ⟨out0, h3, h4⟩, h5⟩ := step_view h hL
    rw [decide_eq_true (show cur ≥ target from ht)] at h1 h2 h3
    unfold deltaIn at h2
    unfold deltaOut at h3
    rw [if_pos rfl] at h2 h3
    have i1 := in_sell h2 hle hq
    have o1 := (deltaY_down_exact h3).2
    rw [exactY_eq, absDiff_cast] at o1
    have hle' : (r.nextPrice : ℚ) ≤ cur := by exact_mod_cast hle
    rw [abs_of_nonneg (by linarith : (0 : ℚ) ≤ (cur : ℚ) - r.nextPrice)] at o1
    have feeStep : r.feeAmount = feeOf r.amountIn fee →
        ((r.amountIn : ℚ) + r.feeAmount) * (1 - (fee : ℚ) / 10 ^ 12) * ((r.nextPrice : ℚ) * r.nextPrice / 10 ^ 48) * (1 - 1 / 10 ^ 9) ≤
          ((cur : ℚ) - r.nextPrice) * L / 10 ^ 30 + 2 * ((r.nextPrice : ℚ) * r.nextPrice / 10 ^ 48) := by
      intro e
      refine le_trans ?_ i1
      rw [e]
      exact mul_le_mul_of_nonneg_right (mul_le_mul_of_nonneg_right (fee_le hf) hV) (by norm_num)
    cases b
    · simp only [Bool.false_eq_true, if_false, false_and] at h1 h4 h5 ⊢
      have fs := feeStep h5
      obtain ⟨pre, g1, ⟨g2, g3⟩ | ⟨g2, g3⟩⟩ := h1
      · left
        have e : out0 = pre := by
          unfold deltaOut at g1
          rw [if_pos rfl, ← g3, h3, ok_inj] at g1
          exact g1
        rw [min_eq_left (by omega)] at h4
        rw [h4]
        linarith
      · unfold nextSqrtPriceFromOutput at g3
        rw [if_pos rfl] at g3
        have g4 := yDown_sub_le g3
        rcases Nat.le_total out0 amount with g5 | g5
        · left
          rw [min_eq_left g5] at h4
          rw [h4]
          linarith
        · right
          rw [min_eq_right g5] at h4
          refine ⟨?_, hL, h4⟩
          rw [h4]
          linarith
    · simp only [if_true, true_and] at h1 h4 h5 ⊢
      subst h4
      by_cases hn : r.nextPrice = target
      · rw [if_neg (fun hh => hh hn)] at h5
        left
        linarith [feeStep h5]
      · rw [if_pos hn] at h5
        right
        refine ⟨?_, hL, by omega⟩
        obtain ⟨-, pre, -, ⟨g2, g3⟩ | ⟨g2, g3⟩⟩ := h1
        · exact absurd g3 hn
        · unfold nextSqrtPriceFromInput at g3
          rw [if_pos rfl] at g3
          have g4 := rest_sell g3 hle hp hq
          have g5 := afterFee_le (a := amount) hf
          have e : (r.amountIn : ℚ) + r.feeAmount = amount := by
            have : r.amountIn + r.feeAmount = amount := by omega
            exact_mod_cast this
          rw [e]
          generalize (amount * (PCT - fee) / PCT : Nat) = N at *
          have g6 := mul_le_mul_of_nonneg_right (mul_le_mul_of_nonneg_right g5 hV) (show (0 : ℚ) ≤ 1 - 1 / 10 ^ 9 by norm_num)
          have g7 : ((N : ℚ) + 1) * ((r.nextPrice : ℚ) * r.nextPrice / 10 ^ 48) * (1 - 1 / 10 ^ 9) ≤
              N * ((r.nextPrice : ℚ) * r.nextPrice / 10 ^ 48) * (1 - 1 / 10 ^ 9) + (r.nextPrice : ℚ) * r.nextPrice / 10 ^ 48 := by
            nlinarith
          linarith

/-- X that cannot move the price. -/
theorem stall_sell {p L a fee : Nat} (h : isEnoughAmountToChangePrice a p L fee true true = .ok false) (hf : fee ≤ PCT)
    (hp : p ≤ MAX_SQRT_PRICE) (hq : MIN_SQRT_PRICE ≤ p) :
    (a : ℚ) * (1 - (fee : ℚ) / 10 ^ 12) * ((p : ℚ) * p / 10 ^ 48) * (1 - 1 / 10 ^ 9) ≤
      (1 / 10 ^ 24) + (p : ℚ) * p / 10 ^ 48 + L / 10 ^ 30 := by
  unfold isEnoughAmountToChangePrice at h
  split at h
  · simp at h
  · rw [if_pos rfl] at h
    rw [bind_ok] at h
    obtain ⟨aaf, h1, h⟩ := h
    rw [bind_ok] at h
    obtain ⟨np, h2, h3⟩ := h
    rw [pure_ok] at h3
    obtain ⟨-, rfl, -⟩ := amountAfterFee_inv h1
    have e : p = np := by simpa using h3
    subst e
    unfold nextSqrtPriceFromInput at h2
    rw [if_pos rfl] at h2
    have g4 := rest_sell h2 (Nat.le_refl _) hp hq
    have g5 := afterFee_le (a := a) hf
    generalize (a * (PCT - fee) / PCT : Nat) = N at *
    have hV : (0 : ℚ) ≤ (p : ℚ) * p / 10 ^ 48 := by positivity
    have g6 := mul_le_mul_of_nonneg_right (mul_le_mul_of_nonneg_right g5 hV) (show (0 : ℚ) ≤ 1 - 1 / 10 ^ 9 by norm_num)
    have g7 : ((N : ℚ) + 1) * ((p : ℚ) * p / 10 ^ 48) * (1 - 1 / 10 ^ 9) ≤
        N * ((p : ℚ) * p / 10 ^ 48) * (1 - 1 / 10 ^ 9) + (p : ℚ) * p / 10 ^ 48 := by
      nlinarith
    rw [sub_self, zero_mul, zero_div] at g4
    linarith

/-- What a step from Y to X gives, at the price it reaches. -/
theorem step_buy {cur target L amount fee : Nat} {b : Bool} {r : SwapResult}
    (h : computeSwapStep cur target L amount b fee = .ok r) (ht : cur < target) (hf : fee ≤ PCT)
    (hle : cur ≤ r.nextPrice) (hq : MIN_SQRT_PRICE ≤ cur) :
    ((r.amountIn : ℚ) + r.feeAmount) * (1 - (fee : ℚ) / 10 ^ 12) ≤
        r.amountOut * ((r.nextPrice : ℚ) * r.nextPrice / 10 ^ 48) * (1 + 1 / 10 ^ 9) + 2 + 2 * ((r.nextPrice : ℚ) * r.nextPrice / 10 ^ 48) ∨
    (((r.amountIn : ℚ) + r.feeAmount) * (1 - (fee : ℚ) / 10 ^ 12) ≤
        r.amountOut * ((r.nextPrice : ℚ) * r.nextPrice / 10 ^ 48) * (1 + 1 / 10 ^ 9) + 3 + 2 * ((r.nextPrice : ℚ) * r.nextPrice / 10 ^ 48) +
          L / 10 ^ 30 ∧
      if b then r.amountIn + r.feeAmount = amount else r.amountOut = amount) := by
  have hV : (0 : ℚ) ≤ (r.nextPrice : ℚ) * r.nextPrice / 10 ^ 48 := by positivity
  by_cases hL : L = 0
  · left
    rw [hL] at h
    rw [step_zero h] at hV ⊢
    simp only [Nat.cast_zero, add_zero, zero_mul]
    linarith
  · obtain ⟨h1, h2, ⟨out0, h3, h4⟩, h5⟩ := step_view h hL
    rw [decide_eq_false (show ¬ cur ≥ target by omega)] at h1 h2 h3
    unfold deltaIn at h2
    unfold deltaOut at h3
    rw [if_neg (by decide)] at h2 h3
    have i1 := (deltaY_up_exact h2).2
    rw [exactY_eq, absDiff_cast] at i1
    have hle' : (cur : ℚ) ≤ r.nextPrice := by exact_mod_cast hle
    rw [abs_of_nonneg (by linarith : (0 : ℚ) ≤ (r.nextPrice : ℚ) - cur)] at i1
    obtain ⟨hc0, hn0, -, o1⟩ := deltaX_down_exact h3
    have hd := dustX_small hq (hq.trans hle)
    rw [exactX_eq hc0 hn0, absDiff_cast, abs_of_nonneg (by linarith : (0 : ℚ) ≤ (r.nextPrice : ℚ) - cur)] at o1
    have hc' : (0 : ℚ) < cur := by exact_mod_cast hc0
    have hn' : (0 : ℚ) < r.nextPrice := by exact_mod_cast hn0
    have hLq : (0 : ℚ) ≤ L := Nat.cast_nonneg _
    -- the exact amount of Y is worth the exact amount of X at a lower price
    have e1 : ((r.nextPrice : ℚ) - cur) * L / 10 ^ 30 ≤
        ((r.nextPrice : ℚ) - cur) * L * 10 ^ 18 / (cur * r.nextPrice) * ((r.nextPrice : ℚ) * r.nextPrice / 10 ^ 48) := by
      have e : ((r.nextPrice : ℚ) - cur) * L * 10 ^ 18 / (cur * r.nextPrice) * ((r.nextPrice : ℚ) * r.nextPrice / 10 ^ 48) =
          (((r.nextPrice : ℚ) - cur) * L / 10 ^ 30) * (r.nextPrice / cur) := by
        field_simp
      rw [e]
      refine le_mul_of_one_le_right ?_ ((one_le_div hc').2 hle')
      have : (0 : ℚ) ≤ (r.nextPrice : ℚ) - cur := by linarith
      positivity
    have o2 : ((r.nextPrice : ℚ) - cur) * L / 10 ^ 30 ≤
        out0 * ((r.nextPrice : ℚ) * r.nextPrice / 10 ^ 48) * (1 + 1 / 10 ^ 9) + 2 * ((r.nextPrice : ℚ) * r.nextPrice / 10 ^ 48) := by
      refine e1.trans ?_
      have ho : (0 : ℚ) ≤ out0 := Nat.cast_nonneg _
      have hd' : (out0 : ℚ) * dustX cur r.nextPrice ≤ out0 * (1 / 10 ^ 9) := mul_le_mul_of_nonneg_left (by linarith) ho
      have : ((r.nextPrice : ℚ) - cur) * L * 10 ^ 18 / (cur * r.nextPrice) ≤ out0 * (1 + 1 / 10 ^ 9) + 2 := by linarith
      have := mul_le_mul_of_nonneg_right this hV
      nlinarith
    have feeStep : r.feeAmount = feeOf r.amountIn fee →
        ((r.amountIn : ℚ) + r.feeAmount) * (1 - (fee : ℚ) / 10 ^ 12) ≤ ((r.nextPrice : ℚ) - cur) * L / 10 ^ 30 + 2 := by
      intro e
      have := fee_le (a := r.amountIn) hf
      rw [e]
      linarith
    cases b
    · simp only [Bool.false_eq_true, if_false, false_and] at h1 h4 h5 ⊢
      have fs := feeStep h5
      obtain ⟨pre, g1, ⟨g2, g3⟩ | ⟨g2, g3⟩⟩ := h1
      · left
        have e : out0 = pre := by
          unfold deltaOut at g1
          rw [if_neg (by decide), ← g3, h3, ok_inj] at g1
          exact g1
        rw [min_eq_left (by omega)] at h4
        rw [h4]
        linarith
      · unfold nextSqrtPriceFromOutput at g3
        rw [if_neg (by decide)] at g3
        have g4 := xUp_sub_le g3
        rcases Nat.le_total out0 amount with g5 | g5
        · left
          rw [min_eq_left g5] at h4
          rw [h4]
          linarith
        · right
          rw [min_eq_right g5] at h4
          refine ⟨?_, h4⟩
          rw [h4]
          have ha : (0 : ℚ) ≤ amount := Nat.cast_nonneg _
          have g6 : ((r.nextPrice : ℚ) - cur) * L / 10 ^ 30 ≤ amount * ((r.nextPrice : ℚ) * r.nextPrice / 10 ^ 48) + 1 / 10 ^ 24 + L / 10 ^ 30 := by
            have a1 : ((r.nextPrice : ℚ) - cur) * L / 10 ^ 30 = ((r.nextPrice : ℚ) - cur) * L * 10 ^ 18 / 10 ^ 48 := by field_simp
            have a2 : amount * ((r.nextPrice : ℚ) * r.nextPrice / 10 ^ 48) + 1 / 10 ^ 24 + L / 10 ^ 30 =
                (amount * r.nextPrice * r.nextPrice + 10 ^ 24 + L * 10 ^ 18) / 10 ^ 48 := by field_simp
            rw [a1, a2]
            refine div_le_div_of_nonneg_right ?_ (by positivity)
            have : (amount : ℚ) * cur * r.nextPrice ≤ amount * r.nextPrice * r.nextPrice :=
              mul_le_mul_of_nonneg_right (mul_le_mul_of_nonneg_left hle' ha) hn'.le
            linarith
          have g7 : (0 : ℚ) ≤ amount * ((r.nextPrice : ℚ) * r.nextPrice / 10 ^ 48) * (1 / 10 ^ 9) := by positivity
          linarith
    · simp only [if_true, true_and] at h1 h4 h5 ⊢
      subst h4
      by_cases hn : r.nextPrice = target
      · rw [if_neg (fun hh => hh hn)] at h5
        left
        linarith [feeStep h5]
      · rw [if_pos hn] at h5
        right
        refine ⟨?_, by omega⟩
        obtain ⟨-, pre, -, ⟨g2, g3⟩ | ⟨g2, g3⟩⟩ := h1
        · exact absurd g3 hn
        · unfold nextSqrtPriceFromInput at g3
          rw [if_neg (by decide)] at g3
          have g4 := yDown_add_le g3
          have g5 := afterFee_le (a := amount) hf
          have e : (r.amountIn : ℚ) + r.feeAmount = amount := by
            have : r.amountIn + r.feeAmount = amount := by omega
            exact_mod_cast this
          rw [e]
          generalize (amount * (PCT - fee) / PCT : Nat) = N at *
          linarith

/-! ## Iterations -/

theorem isEnough_zero {p L fee : Nat} {b e : Bool} (hL : L ≠ 0) (h : isEnoughAmountToChangePrice 0 p L fee b true = .ok e) :
    e = false := by
  unfold isEnoughAmountToChangePrice at h
  rw [if_neg hL] at h
  cases b
  · rw [if_neg (by decide), bind_ok] at h
    obtain ⟨np, h2, h3⟩ := h
    unfold nextSqrtPriceFromOutput at h2
    rw [if_pos rfl] at h2
    unfold nextSqrtPriceYDown at h2
    dsimp only at h2
    rw [if_neg (by decide), bind_ok] at h2
    obtain ⟨q, h4, h5⟩ := h2
    obtain ⟨g1, -, -, g4⟩ := checkedBigDivUp_inv h4
    rw [Nat.zero_mul, Nat.zero_mul, Nat.zero_add] at g4
    have : q = 0 := by
      by_contra hq
      exact absurd g4 (Nat.not_lt.2 (Nat.le_mul_of_pos_left _ (Nat.pos_of_ne_zero hq)))
    rw [checkedSub_ok, this] at h5
    rw [pure_ok] at h3
    have : p = np := by have := h5.2; omega
    rw [← h3, this]
    simp
  · rw [if_pos rfl, bind_ok] at h
    obtain ⟨aaf, h1, h⟩ := h
    rw [bind_ok] at h
    obtain ⟨np, h2, h3⟩ := h
    obtain ⟨-, rfl, -⟩ := amountAfterFee_inv h1
    rw [Nat.zero_mul, Nat.zero_div] at h2
    unfold nextSqrtPriceFromInput at h2
    rw [if_pos rfl] at h2
    unfold nextSqrtPriceXUp at h2
    rw [if_pos rfl, ok_inj] at h2
    rw [pure_ok, ← h2] at h3
    rw [← h3]
    simp

/-- What an iteration takes besides the input and the fee of its step. -/
theorem iter_rest {s : Store} {pr : SwapParams} {st st' : SwapState} {i : Int} {ini : Bool} {r : SwapResult}
    {cfg : Config} {p1 : Pool} {rem : Nat} {u : TickUpdRes} (hv : IterView s pr st st' i ini r cfg p1 rem u) :
    (u.total = 0 ∧ (rem = 0 → st'.remaining = 0) ∧ (rem = 0 → pr.xToY = true → st.pool.liquidity ≠ 0 → u.crossed = false)) ∨
    (rem ≠ 0 ∧ pr.xToY = true ∧ pr.byAmountIn = true ∧ u.total = rem ∧ st'.remaining = 0 ∧ u.crossed = false ∧
      isEnoughAmountToChangePrice rem r.nextPrice st.pool.liquidity pr.key.tier.fee true true = .ok false) := by
  have hp1 : p1.liquidity = st.pool.liquidity := by
    obtain ⟨q, hq, rfl⟩ := hv.fee
    exact (addFee_keep hq).1
  have e1 : st'.remaining = u.remaining := by rw [hv.eq]
  rw [e1]
  rcases hv.fin with ⟨t, c1, c2, upd, rfl⟩ | ⟨e, c1, c2, c3, c4, rfl⟩ | ⟨e, t, tp, c1, c2, c3, c4, c5, c6, c7, c8, rfl⟩ |
    ⟨t, c1, c2, c3, c4, c5, c6, c7, c8⟩
  · exact .inl ⟨rfl, fun h => h, fun _ _ _ => rfl⟩
  · exact .inl ⟨rfl, fun h => h, fun _ _ _ => rfl⟩
  · refine .inl ⟨rfl, fun h => h, fun h hd hL => ?_⟩
    rw [h, hp1, hd] at c4
    have := isEnough_zero hL c4
    rw [c7 hd] at this
    simp at this
  · rcases c8 with ⟨d1, d2, p, d3, rfl⟩ | ⟨d1, rfl⟩
    · rw [hp1, d2, c4] at c5
      exact .inr ⟨d1, c4, d2, rfl, rfl, rfl, c5⟩
    · exact .inl ⟨rfl, fun _ => rfl, fun _ _ _ => rfl⟩

/-- The liquidity a swap used last: the pool's, or the pool's before it crossed the tick it is on. -/
def UsedLast (s : Store) (k : PoolKey) (d : Bool) (p : Pool) (L : Nat) : Prop :=
  L = p.liquidity ∨ d = false ∧ (L : Int) = p.liquidity - netAt s k p.tick

theorem iter_usedLast {s : Store} {pr : SwapParams} {st st' : SwapState} {i : Int} {ini : Bool} {r : SwapResult}
    {cfg : Config} {p1 : Pool} {rem : Nat} {u : TickUpdRes} (ht : TickSum s) (hk : pr.key.wf)
    (hv : IterView s pr st st' i ini r cfg p1 rem u) (hc : pr.xToY = true → u.crossed = false) :
    UsedLast s pr.key pr.xToY st'.pool st.pool.liquidity := by
  have hp1 : p1.liquidity = st.pool.liquidity ∧ p1.tick = st.pool.tick := by
    obtain ⟨q, hq, rfl⟩ := hv.fee
    exact ⟨(addFee_keep hq).1, (addFee_keep hq).2.2⟩
  cases hcr : u.crossed
  · exact .inl (iter_keep_liquidity hv hcr).symm
  · have hd : pr.xToY = false := by
      cases hd : pr.xToY
      · rfl
      · rw [hc hd] at hcr; simp at hcr
    refine .inr ⟨hd, ?_⟩
    have e1 : st'.pool = u.pool := by rw [hv.eq]
    rw [e1]
    rcases hv.fin with ⟨t, c1, c2, upd, rfl⟩ | ⟨e, c1, c2, c3, c4, rfl⟩ | ⟨e, t, tp, c1, c2, c3, c4, c5, c6, c7, c8, rfl⟩ |
      ⟨t, c1, c2, c3, c4, c5, c6, c7, c8⟩
    · simp at hcr
    · simp at hcr
    · obtain ⟨liq, -, d2, -, d4⟩ := Tick.cross_inv c8
      simp only [d4, hd, Bool.false_and, Bool.false_eq_true, if_false]
      have hnet := ht.net hk hv.ok.i32 c5
      unfold Tick.net at hnet
      unfold netAt
      rw [hp1.1, hp1.2, c6] at d2
      have hdir := hv.dir
      simp only [hd, Bool.false_eq_true, if_false] at hdir
      rw [decide_eq_false (by omega)] at d2
      cases hsg : t.sign <;> simp only [hsg, Bool.xor_false, Bool.xor_true, Bool.not_false, Bool.false_eq_true, if_false, if_true] at d2 hnet <;> omega
    · rw [hd] at c4; simp at c4

/-- The totals of a swap so far, at the price it has reached. -/
def ImpactInv (s : Store) (k : PoolKey) (d : Bool) (n : Nat) (st : SwapState) : Prop :=
  ∃ E : ℚ, 0 ≤ E ∧ (st.remaining ≠ 0 → E = 0) ∧ (∃ L : Nat, UsedLast s k d st.pool L ∧ E ≤ L / 10 ^ 30) ∧
    if d then (st.totalIn : ℚ) * (1 - (k.tier.fee : ℚ) / 10 ^ 12) * ((st.pool.sqrtPrice : ℚ) * st.pool.sqrtPrice / 10 ^ 48) * (1 - 1 / 10 ^ 9) ≤
        st.totalOut + n * (3 + 3 * ((st.pool.sqrtPrice : ℚ) * st.pool.sqrtPrice / 10 ^ 48)) + E
      else (st.totalIn : ℚ) * (1 - (k.tier.fee : ℚ) / 10 ^ 12) ≤
        st.totalOut * ((st.pool.sqrtPrice : ℚ) * st.pool.sqrtPrice / 10 ^ 48) * (1 + 1 / 10 ^ 9) +
          n * (3 + 3 * ((st.pool.sqrtPrice : ℚ) * st.pool.sqrtPrice / 10 ^ 48)) + E

theorem scale_sell {K T n V v : ℚ} (h : K * V ≤ T + n * (3 + 3 * V)) (hT : 0 ≤ T) (hn : 0 ≤ n) (hv : 0 ≤ v) (hV : v ≤ V) :
    K * v ≤ T + n * (3 + 3 * v) := by
  rcases le_total K (3 * n) with hk | hk
  · have := mul_le_mul_of_nonneg_right hk hv
    nlinarith
  · have := mul_le_mul_of_nonneg_left hV (sub_nonneg.2 hk)
    nlinarith

theorem iter_impact {s : Store} {now : Nat} {k : PoolKey} {d b : Bool} {limit : Nat} (ht : TickSum s) (hk : k.wf)
    (hf : k.tier.fee ≤ PCT) {n : Nat} {x y : SwapState} {i : Int} {ini : Bool} {r : SwapResult}
    {cfg : Config} {p1 : Pool} {rem : Nat} {u : TickUpdRes} (hv : IterView s ⟨k, d, b, limit, now⟩ x y i ini r cfg p1 rem u)
    (hx : LoopOk d k.tier.spacing limit x.pool x.remaining) (hr : x.remaining ≠ 0)
    (hy : LoopOk d k.tier.spacing limit y.pool y.remaining) (h : ImpactInv s k d n x) : ImpactInv s k d (n + 1) y := by
  obtain ⟨E, -, h0, -, h⟩ := h
  rw [h0 hr] at h
  clear h0
  have hpr := iter_price hv hx hr
  have hnp := iter_price_eq hv
  have htg := target_ahead hx hr hv.ok hv.dir
  have e1 : y.totalIn = x.totalIn + (r.amountIn + r.feeAmount) + u.total := by rw [hv.eq]
  have e2 : y.totalOut = x.totalOut + r.amountOut := by rw [hv.eq]
  have e1' : (y.totalIn : ℚ) = x.totalIn + (r.amountIn + r.feeAmount) + u.total := by exact_mod_cast e1
  have e2' : (y.totalOut : ℚ) = x.totalOut + r.amountOut := by exact_mod_cast e2
  have hn : (0 : ℚ) ≤ n := Nat.cast_nonneg _
  have ho : (0 : ℚ) ≤ x.totalOut := Nat.cast_nonneg _
  have hmin := hy.min
  have hxm : x.pool.sqrtPrice ≤ MAX_SQRT_PRICE := Nat.le_trans hx.le_top (maxTick_ok hx.tick.pos).price_max
  rw [hnp] at hmin
  have hrest := hv.rest
  have hi := iter_rest hv
  have hL : (0 : ℚ) ≤ (x.pool.liquidity : ℚ) / 10 ^ 30 := by positivity
  have hl := fun hc => iter_usedLast ht hk hv hc
  have hy0 : UsedLast s k d y.pool y.pool.liquidity := .inl rfl
  unfold ImpactInv
  rw [hnp, e1', e2']
  have hV : (0 : ℚ) ≤ (r.nextPrice : ℚ) * r.nextPrice / 10 ^ 48 := by positivity
  cases d
  · simp only [Bool.false_eq_true, if_false] at h hpr htg hi hrest hl ⊢
    have hle : (x.pool.sqrtPrice : ℚ) ≤ r.nextPrice := by exact_mod_cast hpr.1
    have hmono : (x.pool.sqrtPrice : ℚ) * x.pool.sqrtPrice / 10 ^ 48 ≤ (r.nextPrice : ℚ) * r.nextPrice / 10 ^ 48 :=
      div_le_div_of_nonneg_right (mul_le_mul hle hle (Nat.cast_nonneg _) (Nat.cast_nonneg _)) (by positivity)
    have h' : (x.totalIn : ℚ) * (1 - (k.tier.fee : ℚ) / 10 ^ 12) ≤
        x.totalOut * ((r.nextPrice : ℚ) * r.nextPrice / 10 ^ 48) * (1 + 1 / 10 ^ 9) + n * (3 + 3 * ((r.nextPrice : ℚ) * r.nextPrice / 10 ^ 48)) := by
      refine h.trans ?_
      rw [add_zero]
      gcongr
    have hz : u.total = 0 := by
      rcases hi with hi | hi
      · exact hi.1
      · simp at hi
    have hrem : rem = 0 → y.remaining = 0 := by
      rcases hi with hi | hi
      · exact hi.2.1
      · simp at hi
    rw [hz, Nat.cast_zero, add_zero]
    have hst := step_buy hv.step htg hf hpr.1 hx.min
    rcases hst with hst | ⟨hst, hend⟩
    · refine ⟨0, le_refl _, fun _ => rfl, ⟨_, hy0, by positivity⟩, ?_⟩
      push_cast
      nlinarith
    · refine ⟨(x.pool.liquidity : ℚ) / 10 ^ 30, hL, fun hne => absurd (hrem ?_) hne, ⟨_, hl (fun e => by simp at e), le_refl _⟩, ?_⟩
      · cases b <;> simp only [Bool.false_eq_true, if_false, if_true] at hend hrest <;> omega
      · push_cast
        nlinarith
  · simp only [if_true] at h hpr htg hi hrest hl ⊢
    have hle : (r.nextPrice : ℚ) ≤ x.pool.sqrtPrice := by exact_mod_cast hpr.1
    have hmono : (r.nextPrice : ℚ) * r.nextPrice / 10 ^ 48 ≤ (x.pool.sqrtPrice : ℚ) * x.pool.sqrtPrice / 10 ^ 48 :=
      div_le_div_of_nonneg_right (mul_le_mul hle hle (Nat.cast_nonneg _) (Nat.cast_nonneg _)) (by positivity)
    have h' : (x.totalIn : ℚ) * (1 - (k.tier.fee : ℚ) / 10 ^ 12) * ((r.nextPrice : ℚ) * r.nextPrice / 10 ^ 48) * (1 - 1 / 10 ^ 9) ≤
        x.totalOut + n * (3 + 3 * ((r.nextPrice : ℚ) * r.nextPrice / 10 ^ 48)) := by
      have := scale_sell (K := (x.totalIn : ℚ) * (1 - (k.tier.fee : ℚ) / 10 ^ 12) * (1 - 1 / 10 ^ 9)) (by linarith) ho hn hV hmono
      linarith
    have hst := step_sell hv.step htg hf hpr.1 hxm hmin
    rcases hi with ⟨hz, hrem, hcr⟩ | ⟨hne, -, hb, hz, hrem, hcr, hen⟩
    · rw [hz, Nat.cast_zero, add_zero]
      rcases hst with hst | ⟨hst, hL0, hend⟩
      · refine ⟨0, le_refl _, fun _ => rfl, ⟨_, hy0, by positivity⟩, ?_⟩
        push_cast
        nlinarith
      · have hr0 : rem = 0 := by
          cases b <;> simp only [Bool.false_eq_true, if_false, if_true] at hend hrest <;> omega
        refine ⟨(x.pool.liquidity : ℚ) / 10 ^ 30, hL, fun hne => absurd (hrem hr0) hne, ⟨_, hl (fun _ => hcr hr0 trivial hL0), le_refl _⟩, ?_⟩
        push_cast
        nlinarith
    · have hs := stall_sell hen hf (hpr.1.trans hxm) hmin
      rw [hz]
      rcases hst with hst | ⟨hst, hL0, hend⟩
      · refine ⟨(x.pool.liquidity : ℚ) / 10 ^ 30, hL, fun hne => absurd hrem hne, ⟨_, hl (fun _ => hcr), le_refl _⟩, ?_⟩
        push_cast
        nlinarith
      · subst hb
        simp only [if_true] at hend hrest
        omega

/-- The totals of a swap at the price it ends at. -/
theorem swap_impact {s : Store} {now : Nat} {k : PoolKey} {d : Bool} {amount : Nat} {b : Bool} {limit : Nat}
    {res : CalcSwapResult} {pool : Pool} (hs : Struct s) (hb : BitInv s) (ht : TickSum s) (hk : k.wf)
    (hp : s.pools.get? k.key = some pool) (hok : PoolOk k.tier.spacing pool)
    (h : calculateSwap s now k d amount b limit = .ok res) :
    ∃ L : Nat, UsedLast s k d res.pool L ∧
      if d then (res.amountIn : ℚ) * (1 - (k.tier.fee : ℚ) / 10 ^ 12) * ((res.pool.sqrtPrice : ℚ) * res.pool.sqrtPrice / 10 ^ 48) * (1 - 1 / 10 ^ 9) ≤
        res.amountOut + swapSteps s now k d amount b limit * (3 + 3 * ((res.pool.sqrtPrice : ℚ) * res.pool.sqrtPrice / 10 ^ 48)) + L / 10 ^ 30
      else (res.amountIn : ℚ) * (1 - (k.tier.fee : ℚ) / 10 ^ 12) ≤
        res.amountOut * ((res.pool.sqrtPrice : ℚ) * res.pool.sqrtPrice / 10 ^ 48) * (1 + 1 / 10 ^ 9) +
          swapSteps s now k d amount b limit * (3 + 3 * ((res.pool.sqrtPrice : ℚ) * res.pool.sqrtPrice / 10 ^ 48)) + L / 10 ^ 30 := by
  have hf : k.tier.fee ≤ PCT := Nat.le_of_lt (hs.tier hk hp).2.2
  obtain ⟨st, ⟨E, -, -, ⟨L, hL, hE⟩, h1⟩, -, rfl⟩ := swap_count hs hb hk hp hok h (ImpactInv s k d)
    (fun n x y i ini r cfg p1 rem u hv hx hr hy hP => iter_impact ht hk hf hv hx hr hy hP)
    ⟨0, le_refl _, fun _ => rfl, ⟨_, .inl rfl, by positivity⟩, by cases d <;> simp⟩
  refine ⟨L, hL, ?_⟩
  cases d
  · simp only [Bool.false_eq_true, if_false] at h1 ⊢
    linarith
  · simp only [if_true] at h1 ⊢
    linarith

end OraiV3
