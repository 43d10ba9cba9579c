import Verif.Lemmas.Curve
import Verif.Props.Shares
import Verif.Props.Impact
import Verif.Props.Solvency

/-!
# C82: a swap follows the price curve

What the positions of a pool consist of is a function of the price.  A swap that moves the price from `p` to `p'` should cost
what the positions have more of at `p'`, and the pool's fee, and give what they have less of.
-/

namespace OraiV3

/-- After any history whose swaps end regularly, for any swap of `n` price steps that ends regularly: with `p` and `p'` the
pool before and after,
* the sender pays at least the input of the curve from `p` to `p'` and on top of it the pool's percentage (`2 * 10^-14` of the
  smallest unit less per step);
* what the sender pays, less the pool's percentage, is at most the input of the curve (relative error `10^-14`), three units
  per step, and the amount that moves the price by one in its last digit;
* the sender gets at most what the curve gives, and at least that up to a relative error of `10^-13`, one unit per step, and
  the amount that moves the price by one in its last digit.
The last digit counts for the liquidity `L` active in the last step: the pool's afterwards, or, if a swap of Y for X ended by
crossing the tick the pool is on now, the pool's without what starts and ends there.
Missing: irregular ends, now or earlier, see `C82_false`. -/
theorem C82_curve_partial {c : Chain} {w w' : World} {env : Env} {info : Info} {k : PoolKey} {d b : Bool} {amount limit : Nat}
    (hr : Reach c w.store) (hdr : drift w.store k = 0) (hne : info.sender ≠ c.self) (hu : (info.funds.map Coin.denom).Nodup)
    (ho : ∀ x ∈ info.funds, x.denom ≠ tokenOut k d)
    (h : w.tx c env info (.swap k d amount b limit) = .ok w') (hreg : RegularEnd w'.store k d b limit) :
    ∃ p p' paid got L n, w.store.pools.get? k.key = some p ∧ w'.store.pools.get? k.key = some p' ∧
      w'.ledger.bal (tokenAsset c (tokenIn k d)) info.sender + paid = w.ledger.bal (tokenAsset c (tokenIn k d)) info.sender ∧
      w'.ledger.bal (tokenAsset c (tokenOut k d)) info.sender = w.ledger.bal (tokenAsset c (tokenOut k d)) info.sender + got ∧
      n = swapSteps w.store env.millis k d amount b limit ∧
      (L = p'.liquidity ∨ d = false ∧ (L : Int) = p'.liquidity - netAt w.store k p'.tick) ∧
      curveIn w.store k d p.sqrtPrice p'.sqrtPrice * (1 + feeRate k) ≤ paid + 2 / 10 ^ 14 * n ∧
      (paid : ℚ) * (1 - feeRate k) * (1 - 1 / 10 ^ 14) ≤
        curveIn w.store k d p.sqrtPrice p'.sqrtPrice + 3 * n + lastDigit d L p'.sqrtPrice ∧
      (got : ℚ) ≤ curveOut w.store k d p.sqrtPrice p'.sqrtPrice ∧
      curveOut w.store k d p.sqrtPrice p'.sqrtPrice ≤ (got + n) * (1 + 1 / 10 ^ 13) + lastDigit (!d) L p'.sqrtPrice := by
  obtain ⟨q, h1, h2, h3, -, -⟩ := C11_swap_as_quoted hr hne hu ho h
  obtain ⟨res, pool, m1, hk, hp, h4, h5, -⟩ := swap_tx h
  have hm := hr.mreach
  obtain ⟨out, hex, -⟩ := tx_inv h
  obtain ⟨r, hin⟩ := swap_inv (execute_ok.1 hex).2
  obtain ⟨t, e1⟩ := swapInternal_frame hin
  simp only at e1
  have epos : w'.store.positions = w.store.positions := by rw [e1]
  have hrg := hreg res.pool h5
  have hused : ∀ j, UsedTick w'.store k j ↔ UsedTick w.store k j := fun j => by unfold UsedTick positionsOf; rw [epos]
  rw [hused, hused] at hrg
  obtain ⟨st, hC, b1, b2, b3⟩ := swap_curve hm.struct hm.bitInv hm.tickSum hk hp (hm.price k pool hk hp) (active_of hdr hp) h4 hrg
  unfold queryQuote at h1
  rw [h4, ok_bind, pure_ok] at h1
  subst h1
  obtain ⟨E, F, -, ⟨L, hL, hE, hF⟩, c3, c4⟩ := hC.rest
  have c1 := hC.inLower
  have c2 := hC.outUpper
  rw [b1] at hL hE hF c1 c2 c3 c4
  rw [b2] at c1 c3
  rw [b3] at c2 c4
  refine ⟨pool, res.pool, res.amountIn, res.amountOut, L, _, hp, h5, h2, h3, rfl, hL, c1, ?_, c2, ?_⟩
  · unfold feeRate
    linarith
  · linarith

/-- In terms of Y the last digit of the price is worth `10^-24` of the liquidity, stored with 6 decimals; that is less than a
unit unless the stored liquidity exceeds `10^30`. -/
theorem C82_last_digit {L p : Nat} (hp : 0 < p) : lastDigit false L p = (L : ℚ) / 10 ^ 30 ∧
    (2 ≤ p → lastDigit true L p = (L : ℚ) * 10 ^ 18 / ((p - 1 : Nat) * p)) := by
  refine ⟨lastDigit_y hp, fun h => ?_⟩
  unfold lastDigit exactAmount
  rw [if_pos rfl, exactX_eq (by omega) hp, absDiff_le (by omega), show p - (p - 1) = 1 by omega]
  push_cast
  ring

/-- The hypotheses are met by two swaps that cross a tick and end between ticks. -/
example : RegularReach Demo.chain (fun _ => True) (Demo.state Demo.chain Demo.threeRanges) ∧ [true, false].all (fun d =>
    match World.tx Demo.chain ⟨Demo.state Demo.chain Demo.threeRanges, Demo.wealthy⟩ Demo.env (Demo.by_ Demo.bob)
      (.swap Demo.key d 80000000000 true (if d then MIN_SQRT_PRICE else MAX_SQRT_PRICE)) with
    | .ok w' => decide (RegularEnd w'.store Demo.key d true (if d then MIN_SQRT_PRICE else MAX_SQRT_PRICE))
    | .error _ => false) = true :=
  ⟨Demo.state_regular (by decide +kernel) (by decide +kernel), by decide +kernel⟩

/-- In the first of them the curve asks for 79205126844 units of X and gives 72770758446 of Y (both rounded down); Bob pays
80000000000 and gets 72770758445, in three steps.  The bounds say between 79997178112 and 80005178641 for what Bob pays, and
less than four units below the curve for what Bob gets. -/
example : (fun a b => (79205126844 : ℚ) ≤ a ∧ a < 79205126845 ∧ (72770758446 : ℚ) ≤ b ∧ b < 72770758447)
    (curveIn (Demo.state Demo.chain Demo.threeRanges) Demo.key true (10 ^ 24) 903226681673733550521114)
    (curveOut (Demo.state Demo.chain Demo.threeRanges) Demo.key true (10 ^ 24) 903226681673733550521114) := by
  decide +kernel

namespace Demo

/-- `drain` without its last call. -/
def halfDrained : List (Info × Msg) := setup ++
  [(by_ carol, .createPosition key 100 200 (3 * 10 ^ 11) 0 (10 ^ 30)),
   (by_ bob, .swap key false 499 false (sqrtPriceAt 10))]

end Demo

/-- False after an irregular end.  No position is active between the ticks 10 and 100, so that the curve gives nothing while the
price moves from tick 10 on towards tick 20.  The contract pays out 499 units of X, which belong to a position above. -/
theorem C82_false : ∃ w w' p p', WorldReach Demo.chain w ∧
    w.tx Demo.chain Demo.env (Demo.by_ Demo.bob) (.swap Demo.key false 499 false (sqrtPriceAt 20)) = .ok w' ∧
    w.store.pools.get? Demo.key.key = some p ∧ w'.store.pools.get? Demo.key.key = some p' ∧
    w'.ledger.bal (.cw20 Demo.key.tokenX) Demo.bob = w.ledger.bal (.cw20 Demo.key.tokenX) Demo.bob + 499 ∧
    curveOut w.store Demo.key false p.sqrtPrice p'.sqrtPrice = 0 := by
  have h : Demo.worksW Demo.chain Demo.halfDrained = true := by decide +kernel
  have h3 : (match (Demo.world Demo.chain Demo.halfDrained).tx Demo.chain Demo.env (Demo.by_ Demo.bob)
      (.swap Demo.key false 499 false (sqrtPriceAt 20)) with
    | .ok w' => (match (Demo.world Demo.chain Demo.halfDrained).store.pools.get? Demo.key.key, w'.store.pools.get? Demo.key.key with
      | some p, some p' => decide (w'.ledger.bal (.cw20 Demo.key.tokenX) Demo.bob =
            (Demo.world Demo.chain Demo.halfDrained).ledger.bal (.cw20 Demo.key.tokenX) Demo.bob + 499 ∧
          curveOut (Demo.world Demo.chain Demo.halfDrained).store Demo.key false p.sqrtPrice p'.sqrtPrice = 0)
      | _, _ => false)
    | .error _ => false) = true := by decide +kernel
  cases ht : (Demo.world Demo.chain Demo.halfDrained).tx Demo.chain Demo.env (Demo.by_ Demo.bob)
      (.swap Demo.key false 499 false (sqrtPriceAt 20)) with
  | error e => rw [ht] at h3; simp at h3
  | ok w' =>
    rw [ht] at h3
    simp only at h3
    split at h3
    · rename_i p p' hp hp'
      have h4 := of_decide_eq_true h3
      exact ⟨_, w', p, p', Demo.world_reach h, ht, hp, hp', h4.1, h4.2⟩
    · simp at h3

end OraiV3
