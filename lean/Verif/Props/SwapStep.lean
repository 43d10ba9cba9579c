import Verif.Lemmas.SwapTotals

/-!
# C26: one step of a swap

`computeSwapStep cur target L amount byAmountIn fee` is the model of `compute_swap_step`: it moves the
price from `cur` towards `target` in a range with liquidity `L`, with `amount` still to be traded.
-/

namespace OraiV3

/-- An exact-output step pays at most what is wanted. -/
theorem C26_out {cur target L amount fee : Nat} {r : SwapResult}
    (h : computeSwapStep cur target L amount false fee = .ok r) : r.amountOut ≤ amount := by
  by_cases hL : L = 0
  · rw [hL] at h; rw [step_zero h]; exact Nat.zero_le _
  · obtain ⟨-, -, ⟨out0, -, h2⟩, -⟩ := step_view h hL
    simp only [Bool.false_eq_true, if_false] at h2
    omega

/-- An exact-output step stays between the current price and the target. -/
theorem C26_out_target {cur target L amount fee : Nat} {r : SwapResult} (hc : MIN_SQRT_PRICE ≤ cur)
    (h : computeSwapStep cur target L amount false fee = .ok r) :
    if target ≤ cur then target ≤ r.nextPrice ∧ r.nextPrice ≤ cur else cur ≤ r.nextPrice ∧ r.nextPrice ≤ target := by
  by_cases hL : L = 0
  · rw [hL] at h; rw [step_zero h]
    split
    · exact ⟨Nat.le_refl _, ‹_›⟩
    · exact ⟨Nat.le_of_lt (Nat.lt_of_not_le ‹_›), Nat.le_refl _⟩
  · obtain ⟨h1, -, -, -⟩ := step_view h hL
    simp only [Bool.false_eq_true, if_false] at h1
    by_cases ht : target ≤ cur
    · rw [if_pos ht]
      rw [decide_eq_true (show cur ≥ target from ht)] at h1
      exact next_out_xy h1 ht
    · rw [if_neg ht]
      rw [decide_eq_false (show ¬ cur ≥ target from ht)] at h1
      exact next_out_yx h1 (by omega) (sq_ge hc)

/-- An exact-input step from Y to X stays between the current price and the target, and input and fee
together are at most what is available. -/
theorem C26_in_up {cur target L amount fee : Nat} {r : SwapResult} (ht : cur < target)
    (h : computeSwapStep cur target L amount true fee = .ok r) :
    r.amountIn + r.feeAmount ≤ amount ∧ cur ≤ r.nextPrice ∧ r.nextPrice ≤ target := by
  by_cases hL : L = 0
  · rw [hL] at h; rw [step_zero h]
    exact ⟨Nat.zero_le _, Nat.le_of_lt ht, Nat.le_refl _⟩
  · obtain ⟨h1, h2, -, h4⟩ := step_view h hL
    rw [decide_eq_false (show ¬ cur ≥ target by omega)] at h1 h2
    rw [if_pos rfl] at h1
    obtain ⟨a1, a2, a3⟩ := next_in_yx h1 ht
    refine ⟨?_, a1, a2⟩
    by_cases hn : r.nextPrice = target
    · rw [if_neg (fun hh => hh.2 hn)] at h4
      rw [hn] at h2
      obtain ⟨hf, pre, b1, b2⟩ := h1
      have hle : r.amountIn ≤ amount * (PCT - fee) / PCT := by
        by_contra hlt
        have := a3 _ h2 (by omega)
        omega
      rw [h4]
      exact fee_fits (by norm_num) hf hle
    · rw [if_pos ⟨rfl, hn⟩] at h4
      omega

/-- An exact-input step from X to Y.  If it stops before the target it uses exactly what is available;
if what is available after fees covers the amount needed for the target, input and fee together are at
most what is available; otherwise, if it still reaches the target, the input exceeds the available
amount by at most one unit plus `10^24 / (target * cur)` of the input.  The price never rises, and if it
passes the target, then by less than `10^24 / cur`.

Full statement, false by `C26_in_false` and `C26_target_false`: input and fee are at most what is
available, and the price never passes the target. -/
theorem C26_in_down_partial {cur target L amount fee : Nat} {r : SwapResult} (hc : MIN_SQRT_PRICE ≤ cur)
    (ht : target ≤ cur) (h : computeSwapStep cur target L amount true fee = .ok r) :
    (r.nextPrice ≠ target → r.amountIn + r.feeAmount = amount) ∧
    (r.nextPrice = target → r.amountIn ≤ amount * (10 ^ 12 - fee) / 10 ^ 12 → r.amountIn + r.feeAmount ≤ amount) ∧
    (r.nextPrice = target → (r.amountIn - 1 - amount) * (target * cur) ≤ r.amountIn * 10 ^ 24) ∧
    r.nextPrice ≤ cur ∧
    (r.nextPrice < target → (target - r.nextPrice) * cur < 10 ^ 24) := by
  by_cases hL : L = 0
  · rw [hL] at h; rw [step_zero h]
    exact ⟨fun hh => absurd rfl hh, fun _ _ => Nat.zero_le _, fun _ => by simp, ht, fun hh => absurd hh (Nat.lt_irrefl _)⟩
  · obtain ⟨h1, h2, -, h4⟩ := step_view h hL
    rw [decide_eq_true (show cur ≥ target from ht)] at h1 h2
    rw [if_pos rfl] at h1
    obtain ⟨a1, a2⟩ := next_in_xy h1 hL ht (sq_ge hc)
    refine ⟨fun hn => ?_, fun hn hle => ?_, fun hn => ?_, a1, a2⟩
    · rw [if_pos ⟨rfl, hn⟩] at h4
      omega
    · rw [if_neg (fun hh => hh.2 hn)] at h4
      rw [h4]
      exact fee_fits (by norm_num) h1.1 hle
    · rw [hn] at h2
      obtain ⟨hf, pre, b1, b2⟩ := h1
      rw [h2, ok_inj] at b1
      have haaf : amount * (PCT - fee) / PCT ≤ amount := by
        have : amount * (PCT - fee) ≤ amount * PCT := Nat.mul_le_mul_left _ (Nat.sub_le _ _)
        exact Nat.div_le_of_le_mul (by rw [Nat.mul_comm PCT]; exact this)
      generalize amount * (PCT - fee) / PCT = aaf at *
      rcases b2 with ⟨b2, -⟩ | ⟨b2, b3⟩
      · rw [show r.amountIn - 1 - amount = 0 by omega, Nat.zero_mul]; exact Nat.zero_le _
      · rw [deltaIn_true] at h2
        rw [hn] at b3
        have g1 := getDeltaX_up_lt h2 (y := r.amountIn - 1) (by omega)
        have g2 : absDiff target cur * L * 10 ^ 18 ≤ aaf * (target * cur) := by
          unfold nextSqrtPriceFromInput at b3
          simp only [if_true] at b3
          have hab : absDiff target cur = cur - target := by
            unfold absDiff
            split <;> omega
          rw [hab]
          by_cases hx : aaf = 0
          · rw [hx] at b3
            unfold nextSqrtPriceXUp at b3
            rw [if_pos rfl, ok_inj] at b3
            rw [b3, Nat.sub_self, Nat.zero_mul, Nat.zero_mul]
            exact Nat.zero_le _
          · obtain ⟨-, c1, -⟩ := xUp_add b3 hx
            obtain ⟨g, rfl⟩ : ∃ g, cur = target + g := ⟨cur - target, by omega⟩
            rw [Nat.add_sub_cancel_left]
            generalize (10 : Nat) ^ 18 = S at *
            nlinarith
        have g3 : (r.amountIn - 1 - amount) * (target * cur) + amount * (target * cur) ≤
            (r.amountIn - 1) * (target * cur) ∨ r.amountIn - 1 ≤ amount := by
          by_cases hle : r.amountIn - 1 ≤ amount
          · exact .inr hle
          · left
            rw [← Nat.add_mul]
            exact Nat.mul_le_mul_right _ (by omega)
        rcases g3 with g3 | g3
        · have g4 : aaf * (target * cur) ≤ amount * (target * cur) := Nat.mul_le_mul_right _ haaf
          have g5 : (r.amountIn - 1) * SPR ≤ r.amountIn * 10 ^ 24 := Nat.mul_le_mul_right _ (Nat.sub_le _ _)
          omega
        · rw [show r.amountIn - 1 - amount = 0 by omega, Nat.zero_mul]; exact Nat.zero_le _

example : computeSwapStep (10 ^ 24) (10 ^ 24 + 10 ^ 21) (10 ^ 20) 50000000000 true (10 ^ 10) =
    .ok ⟨1000495 * 10 ^ 18, 49500000000, 49475509622, 500000000⟩ := by decide +kernel
example : computeSwapStep (10 ^ 24) (10 ^ 24 - 10 ^ 21) (10 ^ 20) 50000000000 true (10 ^ 10) =
    .ok ⟨999505244903772632546890, 49500000000, 49475509622, 500000000⟩ := by decide +kernel
example : computeSwapStep (10 ^ 24) (10 ^ 24 - 10 ^ 21) (10 ^ 20) 50000000000 false (10 ^ 10) =
    .ok ⟨9995 * 10 ^ 20, 50025012507, 50000000000, 500250126⟩ := by decide +kernel

/-- A step of an exact-input swap can ask for more than is available: here 16662596144514635 are
available and no fee is charged, but the step takes four units more.  (In a swap this makes the
subtraction from the remaining amount fail, so that the whole swap is refused.) -/
theorem C26_in_false :
    ∃ r, computeSwapStep 35113119567141537395 35050371412541782893 326816331046766288178 16662596144514635 true 0 = .ok r ∧
      r.amountIn + r.feeAmount = 16662596144514635 + 4 := by
  exact ⟨⟨35050371412541782893, 16662596144514639, 20507121, 0⟩, by decide +kernel, by decide +kernel⟩

/-- The price of a step can pass its target, here by 39 units. -/
theorem C26_target_false :
    ∃ r, computeSwapStep 45536469000123456789 45422634000000000000 (10 ^ 20) 5559157155198773 true (10 ^ 10) = .ok r ∧
      r.nextPrice = 45422634000000000000 - 39 := by
  exact ⟨⟨45422633999999999961, 5503565583646787, 11383500, 55591571551986⟩, by decide +kernel, by decide +kernel⟩

/-- In a swap that succeeds, no iteration spends or delivers more than what was left: what is left after
it is what was left before minus input and fee (minus the output, for exact-output swaps). -/
theorem C26_iteration {c : Chain} {s : Store} (hr : Reach c s) {k : PoolKey} (hk : k.wf) {p : Pool}
    (hp : s.pools.get? k.key = some p) {d b : Bool} {limit now : Nat} {st st' : SwapState}
    (ht : TickOk k.tier.spacing st.pool.tick)
    (h : swapIter s ⟨k, d, b, limit, now⟩ st = .ok st') :
    if b then st'.remaining + st'.totalIn = st.remaining + st.totalIn ∧ st.totalIn ≤ st'.totalIn
    else st'.remaining + st'.totalOut = st.remaining + st.totalOut ∧ st.totalOut ≤ st'.totalOut := by
  have hm := hr.mreach
  obtain ⟨i, ini, r, cfg, p1, rem, u, hv⟩ := iter_view hm.struct hm.bitInv hk (hm.struct.tier hk hp) ht h
  cases b
  · refine ⟨iter_out hv rfl, ?_⟩
    rw [hv.eq]
    exact Nat.le_add_right _ _
  · refine ⟨iter_in hv rfl, ?_⟩
    have h1 := iter_in hv rfl
    have h2 := hv.rest
    rw [if_pos rfl] at h2
    rw [hv.eq]
    simp only
    omega

end OraiV3
