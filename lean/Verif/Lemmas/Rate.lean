import Verif.Lemmas.SwapBooks
import Mathlib.Tactic.Linarith

/-!
# The rate of a swap: what is paid out against what is charged
-/

namespace OraiV3

/-- Fee on top of the net amount, rounded up. -/
theorem feeOf_gross {a f : Nat} : a * (PCT + f) ≤ (a + feeOf a f) * PCT := by
  have h : a * f ≤ feeOf a f * PCT := by
    unfold feeOf
    have := Nat.div_add_mod (a * f + (PCT - 1)) PCT
    have := Nat.mod_lt (a * f + (PCT - 1)) (show 0 < PCT by norm_num)
    rw [Nat.mul_comm PCT] at *
    have hP : 0 < PCT := by norm_num
    omega
  rw [Nat.mul_add, Nat.add_mul]
  omega

/-- What is left of an amount after the fee. -/
theorem afterFee_gross {A f K : Nat} (hf : f ≤ K) : A * (K - f) / K * (K + f) ≤ A * K := by
  obtain ⟨g, rfl⟩ : ∃ g, K = f + g := ⟨K - f, by omega⟩
  rw [Nat.add_sub_cancel_left]
  rcases Nat.eq_zero_or_pos (f + g) with h0 | h0
  · rw [h0]; simp
  have h1 : A * g / (f + g) * (f + g) ≤ A * g := Nat.div_mul_le_self _ _
  generalize A * g / (f + g) = q at *
  have h2 : q * (f + g + f) * (f + g) ≤ A * (f + g) * (f + g) :=
    calc q * (f + g + f) * (f + g) = q * (f + g) * (f + g + f) := by ring
      _ ≤ A * g * (f + g + f) := Nat.mul_le_mul_right _ h1
      _ ≤ A * g * (f + g + f) + A * (f * f) := Nat.le_add_right _ _
      _ = A * (f + g) * (f + g) := by ring
  exact Nat.le_of_mul_le_mul_right h2 h0

/-- One step: the amount paid out against the gross amount charged, at the price the step starts from. -/
theorem step_rate {cur target L amount fee : Nat} {b d : Bool} {r : SwapResult}
    (h : computeSwapStep cur target L amount b fee = .ok r) (hd : if d then target ≤ cur else cur < target) (hf : fee ≤ PCT)
    (hn : if d then r.nextPrice ≤ cur else cur ≤ r.nextPrice) :
    if d then r.amountOut * 10 ^ 48 * (PCT + fee) ≤ (r.amountIn + r.feeAmount) * PCT * (cur * cur) + 2 * 10 ^ 36
    else r.amountOut * (cur * cur) * (PCT + fee) ≤ (r.amountIn + r.feeAmount) * PCT * 10 ^ 48 := by
  by_cases hL : L = 0
  · rw [hL] at h
    rw [step_zero h]
    simp
  obtain ⟨h1, h2, ⟨out0, h3, h4⟩, h5⟩ := step_view h hL
  have e : decide (cur ≥ target) = d := by
    cases d <;> simp only [Bool.false_eq_true, if_false, if_true] at hd <;> simp <;> omega
  rw [e] at h1 h2 h3
  have ho : r.amountOut ≤ out0 := by
    rw [h4]; split
    · exact Nat.le_refl _
    · exact Nat.min_le_left _ _
  -- the exact net amount
  cases d
  · simp only [Bool.false_eq_true, if_false] at hn hd ⊢
    rw [deltaIn_false] at h2
    rw [deltaOut_false] at h3
    obtain ⟨_, _, _, g1, _⟩ := getDeltaX_down h3
    obtain ⟨_, g2, _⟩ := getDeltaY_up h2
    rw [absDiff_le hn] at g1 g2
    have key : (r.nextPrice - cur) * L * (PCT + fee) ≤ (r.amountIn + r.feeAmount) * PCT * 10 ^ 30 := by
      by_cases hB : b = true ∧ r.nextPrice ≠ target
      · rw [if_pos hB] at h5
        rw [if_pos hB.1] at h1
        obtain ⟨_, pre, _, ⟨_, hh⟩ | ⟨_, hh⟩⟩ := h1
        · exact absurd hh hB.2
        · unfold nextSqrtPriceFromInput at hh
          simp only [Bool.false_eq_true, if_false] at hh
          obtain ⟨_, _, g3, _⟩ := yDown_add hh
          have g4 := afterFee_gross (A := amount) hf
          rw [show r.amountIn + r.feeAmount = amount by omega]
          generalize amount * (PCT - fee) / PCT = A' at *
          calc (r.nextPrice - cur) * L * (PCT + fee) ≤ A' * 10 ^ 30 * (PCT + fee) := Nat.mul_le_mul_right _ g3
            _ = A' * (PCT + fee) * 10 ^ 30 := by ring
            _ ≤ amount * PCT * 10 ^ 30 := Nat.mul_le_mul_right _ g4
      · rw [if_neg hB] at h5
        have g4 := feeOf_gross (a := r.amountIn) (f := fee)
        rw [h5]
        calc (r.nextPrice - cur) * L * (PCT + fee) ≤ r.amountIn * 10 ^ 30 * (PCT + fee) := Nat.mul_le_mul_right _ g2
          _ = r.amountIn * (PCT + fee) * 10 ^ 30 := by ring
          _ ≤ _ := Nat.mul_le_mul_right _ g4
    calc r.amountOut * (cur * cur) * (PCT + fee) ≤ out0 * (cur * r.nextPrice) * (PCT + fee) :=
          Nat.mul_le_mul_right _ (Nat.mul_le_mul ho (Nat.mul_le_mul_left _ hn))
      _ ≤ (r.nextPrice - cur) * L * 10 ^ 18 * (PCT + fee) := Nat.mul_le_mul_right _ g1
      _ = (r.nextPrice - cur) * L * (PCT + fee) * 10 ^ 18 := by ring
      _ ≤ (r.amountIn + r.feeAmount) * PCT * 10 ^ 30 * 10 ^ 18 := Nat.mul_le_mul_right _ key
      _ = (r.amountIn + r.feeAmount) * PCT * 10 ^ 48 := by ring
  · simp only [if_true] at hn hd ⊢
    rw [deltaIn_true] at h2
    rw [deltaOut_true] at h3
    obtain ⟨_, _, _, g1, _⟩ := getDeltaX_up h2
    obtain ⟨_, g2, _⟩ := getDeltaY_down h3
    rw [absDiff_le hn] at g1 g2
    have key : (cur - r.nextPrice) * L * 10 ^ 18 * (PCT + fee) ≤
        (r.amountIn + r.feeAmount) * PCT * (cur * cur) + 10 ^ 24 * (PCT + fee) := by
      by_cases hB : b = true ∧ r.nextPrice ≠ target
      · rw [if_pos hB] at h5
        rw [if_pos hB.1] at h1
        obtain ⟨_, pre, _, ⟨_, hh⟩ | ⟨_, hh⟩⟩ := h1
        · exact absurd hh hB.2
        · unfold nextSqrtPriceFromInput at hh
          simp only [if_true] at hh
          have g4 := afterFee_gross (A := amount) hf
          rw [show r.amountIn + r.feeAmount = amount by omega]
          generalize amount * (PCT - fee) / PCT = A' at *
          have g3 : (cur - r.nextPrice) * L * 10 ^ 18 ≤ A' * (cur * cur) := by
            by_cases hx : A' = 0
            · unfold nextSqrtPriceXUp at hh
              rw [if_pos hx, ok_inj] at hh
              rw [← hh]; simp
            · obtain ⟨_, c1, _⟩ := xUp_add hh hx
              generalize r.nextPrice = n at *
              obtain ⟨g, rfl⟩ : ∃ g, cur = n + g := ⟨cur - n, by omega⟩
              rw [Nat.add_sub_cancel_left]
              have : g * L * 10 ^ 18 ≤ n * ((n + g) * A') := by
                generalize (10 : Nat) ^ 18 = S at *
                have e1 : (n + g) * L * S = n * (L * S) + g * L * S := by ring
                have e2 : n * (L * S + (n + g) * A') = n * (L * S) + n * ((n + g) * A') := by ring
                omega
              refine this.trans ?_
              have : n * ((n + g) * A') ≤ (n + g) * ((n + g) * A') := Nat.mul_le_mul_right _ (by omega)
              refine this.trans (le_of_eq (by ring))
          calc (cur - r.nextPrice) * L * 10 ^ 18 * (PCT + fee) ≤ A' * (cur * cur) * (PCT + fee) := Nat.mul_le_mul_right _ g3
            _ = A' * (PCT + fee) * (cur * cur) := by ring
            _ ≤ amount * PCT * (cur * cur) := Nat.mul_le_mul_right _ g4
            _ ≤ _ := Nat.le_add_right _ _
      · rw [if_neg hB] at h5
        have g4 := feeOf_gross (a := r.amountIn) (f := fee)
        rw [h5]
        have g3 : (cur - r.nextPrice) * L * 10 ^ 18 ≤ r.amountIn * (cur * cur) + 10 ^ 24 := by
          have h' : r.amountIn * (r.nextPrice * cur) ≤ r.amountIn * (cur * cur) :=
            Nat.mul_le_mul_left _ (Nat.mul_le_mul_right _ hn)
          exact ((Nat.le_add_right _ _).trans g1).trans (Nat.add_le_add_right h' _)
        calc (cur - r.nextPrice) * L * 10 ^ 18 * (PCT + fee) ≤ (r.amountIn * (cur * cur) + 10 ^ 24) * (PCT + fee) :=
              Nat.mul_le_mul_right _ g3
          _ = r.amountIn * (PCT + fee) * (cur * cur) + 10 ^ 24 * (PCT + fee) := by ring
          _ ≤ _ := Nat.add_le_add_right (Nat.mul_le_mul_right _ g4) _
    have hP : 10 ^ 24 * (PCT + fee) ≤ 2 * 10 ^ 36 := by
      have : PCT = 10 ^ 12 := rfl
      omega
    calc r.amountOut * 10 ^ 48 * (PCT + fee) = r.amountOut * 10 ^ 30 * 10 ^ 18 * (PCT + fee) := by ring
      _ ≤ out0 * 10 ^ 30 * 10 ^ 18 * (PCT + fee) :=
          Nat.mul_le_mul_right _ (Nat.mul_le_mul_right _ (Nat.mul_le_mul_right _ ho))
      _ ≤ (cur - r.nextPrice) * L * 10 ^ 18 * (PCT + fee) := Nat.mul_le_mul_right _ (Nat.mul_le_mul_right _ g2)
      _ ≤ _ := key
      _ ≤ _ := Nat.add_le_add_left hP _

theorem rate_arith {O o I g t n S K f P E : Nat} (h : O * S * (K + f) + o * S * (K + f) ≤ I * K * P + n * E + (g * K * P + E)) :
    (O + o) * S * (K + f) ≤ (I + g + t) * K * P + (n + 1) * E :=
  calc (O + o) * S * (K + f) = O * S * (K + f) + o * S * (K + f) := by ring
    _ ≤ _ := h
    _ ≤ _ := Nat.le_add_right _ (t * K * P)
    _ = _ := by ring

/-- The invariant of the loop: where the price is, and the totals so far. -/
def RateInv (d : Bool) (p0 fee n : Nat) (st : SwapState) : Prop :=
  if d then st.pool.sqrtPrice ≤ p0 ∧
    st.totalOut * 10 ^ 48 * (PCT + fee) ≤ st.totalIn * PCT * (p0 * p0) + n * (2 * 10 ^ 36)
  else p0 ≤ st.pool.sqrtPrice ∧ st.totalOut * (p0 * p0) * (PCT + fee) ≤ st.totalIn * PCT * 10 ^ 48

/-- Totals of a swap at the price it starts from. -/
theorem swap_rate {s : Store} {now : Nat} {k : PoolKey} {d : Bool} {amount : Nat} {b : Bool} {limit : Nat}
    {res : CalcSwapResult} {pool : Pool} (hs : Struct s) (hb : BitInv s) (hk : k.wf)
    (hp : s.pools.get? k.key = some pool) (hok : PoolOk k.tier.spacing pool)
    (h : calculateSwap s now k d amount b limit = .ok res) :
    if d then res.amountOut * 10 ^ 48 * (PCT + k.tier.fee) ≤ res.amountIn * PCT * (pool.sqrtPrice * pool.sqrtPrice) +
        swapSteps s now k d amount b limit * (2 * 10 ^ 36)
    else res.amountOut * (pool.sqrtPrice * pool.sqrtPrice) * (PCT + k.tier.fee) ≤ res.amountIn * PCT * 10 ^ 48 := by
  have hf : k.tier.fee ≤ PCT := Nat.le_of_lt (hs.tier hk hp).2.2
  have hc := swap_count hs hb hk hp hok h (RateInv d pool.sqrtPrice k.tier.fee)
    (fun n x y i ini r cfg p1 rem u hv hx hr hy hP => ?_) ?_
  · obtain ⟨st, h1, -, rfl⟩ := hc
    unfold RateInv at h1
    cases d
    · exact h1.2
    · exact h1.2
  · have g1 := iter_price hv hx hr
    have g2 := iter_price_eq hv
    have g3 := step_rate (d := d) hv.step (target_ahead hx hr hv.ok hv.dir) hf
      (by cases d
          · exact g1.1
          · exact g1.1)
    have e1 : y.totalIn = x.totalIn + (r.amountIn + r.feeAmount) + u.total := by rw [hv.eq]
    have e2 : y.totalOut = x.totalOut + r.amountOut := by rw [hv.eq]
    unfold RateInv at hP ⊢
    rw [g2, e1, e2]
    cases d
    · simp only [Bool.false_eq_true, if_false] at g1 g3 hP ⊢
      refine ⟨hP.1.trans g1.1, ?_⟩
      have g4 : r.amountOut * (pool.sqrtPrice * pool.sqrtPrice) * (PCT + k.tier.fee) ≤
          (r.amountIn + r.feeAmount) * PCT * 10 ^ 48 :=
        (Nat.mul_le_mul_right _ (Nat.mul_le_mul_left _ (Nat.mul_le_mul hP.1 hP.1))).trans g3
      have g5 := Nat.add_le_add hP.2 g4
      generalize PCT = K at *
      generalize (10 : Nat) ^ 48 = S at *
      calc (x.totalOut + r.amountOut) * (pool.sqrtPrice * pool.sqrtPrice) * (K + k.tier.fee) = _ := by ring
        _ ≤ _ := g5
        _ ≤ _ := Nat.le_add_right _ (u.total * K * S)
        _ = _ := by ring
    · simp only [if_true] at g1 g3 hP ⊢
      refine ⟨g1.1.trans hP.1, ?_⟩
      have g4 : r.amountOut * 10 ^ 48 * (PCT + k.tier.fee) ≤
          (r.amountIn + r.feeAmount) * PCT * (pool.sqrtPrice * pool.sqrtPrice) + 2 * 10 ^ 36 :=
        g3.trans (Nat.add_le_add_right (Nat.mul_le_mul_left _ (Nat.mul_le_mul hP.1 hP.1)) _)
      have g5 := Nat.add_le_add hP.2 g4
      exact rate_arith g5
  · unfold RateInv
    cases d
    · simp
    · simp

end OraiV3
