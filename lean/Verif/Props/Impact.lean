import Verif.Lemmas.Impact
import Verif.Props.Rate

/-!
# C64: no swap trades worse than the pool's price afterwards
-/

namespace OraiV3

/-- The price a swap ends at is the worst it trades at. In every reachable state, when a swap of `n` price steps ends at the
price `P'`, what the sender paid, less the fee, is worth at `P'` at most what they got. This holds up to a relative error of
`10^-9`, three units of either token per step, and the rounding of the last price: `L / 10^30` units of Y, where `L` is the
liquidity active in the last step (stored with 6 decimals), that is the pool's afterwards, or, if a swap of Y for X ended by
crossing the tick the pool is on now, the pool's without what starts and ends there. -/
theorem C64_worst_price {c : Chain} {w w' : World} {env : Env} {info : Info} {k : PoolKey} {d : Bool} {amount limit : Nat}
    {b : Bool} (hr : Reach c w.store) (hne : info.sender ≠ c.self) (hn : (info.funds.map Coin.denom).Nodup)
    (hu : ∀ x ∈ info.funds, x.denom ≠ tokenOut k d)
    (h : w.tx c env info (.swap k d amount b limit) = .ok w') :
    ∃ p' paid got L, ∃ n : Nat, queryPool w'.store k.tokenX k.tokenY k.tier = .ok p' ∧
      n = swapSteps w.store env.millis k d amount b limit ∧
      w'.ledger.bal (tokenAsset c (tokenIn k d)) info.sender + paid =
        w.ledger.bal (tokenAsset c (tokenIn k d)) info.sender ∧
      w'.ledger.bal (tokenAsset c (tokenOut k d)) info.sender =
        w.ledger.bal (tokenAsset c (tokenOut k d)) info.sender + got ∧
      (L = p'.liquidity ∨ d = false ∧ (L : Int) = p'.liquidity - netAt w.store k p'.tick) ∧
      if d then (paid : ℚ) * (1 - feeRate k) * priceOf p'.sqrtPrice * (1 - 1 / 10 ^ 9) ≤
        got + 3 * n * (1 + priceOf p'.sqrtPrice) + (L : ℚ) / 10 ^ 30
      else (paid : ℚ) * (1 - feeRate k) ≤
        got * priceOf p'.sqrtPrice * (1 + 1 / 10 ^ 9) + 3 * n * (1 + priceOf p'.sqrtPrice) + (L : ℚ) / 10 ^ 30 := by
  obtain ⟨q, h1, h2, h3, -, -⟩ := C11_swap_as_quoted hr hne hn hu h
  obtain ⟨res, pool, m1, hk, hp, h4, h5, -⟩ := swap_tx h
  obtain ⟨out, h0, -⟩ := tx_inv h
  have hm := hr.mreach
  obtain ⟨L, hL, h6⟩ := swap_impact hm.struct hm.bitInv hm.tickSum hk hp (hm.price k pool hk hp) h4
  unfold queryQuote at h1
  rw [h4, ok_bind, pure_ok] at h1
  subst h1
  refine ⟨res.pool, res.amountIn, res.amountOut, L, _, queryPool_of_key (hr.step h0).mreach.struct hk h5, rfl, h2, h3, hL, ?_⟩
  have hV : priceOf res.pool.sqrtPrice = (res.pool.sqrtPrice : ℚ) * res.pool.sqrtPrice / 10 ^ 48 := by
    unfold priceOf
    ring
  rw [hV]
  unfold feeRate
  cases d
  · simp only [Bool.false_eq_true, if_false] at h6 ⊢
    linarith
  · simp only [if_true] at h6 ⊢
    linarith

/-- A pool with a wide range around price 1 and two further out. -/
def Demo.threeRanges : List (Info × Msg) := setup ++
  [(by_ alice, .createPosition key (-1000) 1000 (10 ^ 18) 0 (10 ^ 30)),
   (by_ alice, .createPosition key (-3000) (-1000) (5 * 10 ^ 17) 0 (10 ^ 30)),
   (by_ alice, .createPosition key 1000 3000 (5 * 10 ^ 17) 0 (10 ^ 30))]

/-- The hypotheses are met by swaps that cross a tick and move the price by nearly a fifth in either direction: Bob pays
80,000,000,000 units and gets 72,770,758,445. -/
example : Reach Demo.chain (Demo.state Demo.chain Demo.threeRanges) ∧ [true, false].map (fun d =>
    ((World.tx Demo.chain ⟨Demo.state Demo.chain Demo.threeRanges, Demo.wealthy⟩ Demo.env (Demo.by_ Demo.bob)
      (.swap Demo.key d 80000000000 true (if d then MIN_SQRT_PRICE else MAX_SQRT_PRICE))).toOption.map (fun w =>
      (w.ledger.bal (.cw20 [97]) Demo.bob, w.ledger.bal (.cw20 [98]) Demo.bob,
        (queryPool w.store Demo.key.tokenX Demo.key.tokenY Demo.key.tier).toOption.map Pool.sqrtPrice)))) =
    [some (10 ^ 40 - 80000000000, 10 ^ 40 + 72770758445, some 903226681673733550521114),
     some (10 ^ 40 + 72770758445, 10 ^ 40 - 80000000000, some 1107141784328000000000000)] :=
  ⟨Demo.state_reach (by decide +kernel), by decide +kernel⟩

example : [true, false].map (fun d => swapSteps (Demo.state Demo.chain Demo.threeRanges) Demo.env.millis Demo.key d 80000000000 true
    (if d then MIN_SQRT_PRICE else MAX_SQRT_PRICE)) = [3, 3] := by decide +kernel

/-- With C49 this puts what was got between the worth at the two prices: here between 64.6 and 79.3 thousand million. -/
example : (646 * 10 ^ 8 : ℚ) < 80000000000 * (1 - feeRate Demo.key) * priceOf 903226681673733550521114 ∧
    (80000000000 : ℚ) / (1 + feeRate Demo.key) < 793 * 10 ^ 8 := by
  constructor <;> norm_num [feeRate, priceOf, Demo.key, Demo.tier]

end OraiV3
