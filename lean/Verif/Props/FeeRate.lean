import Verif.Props.Shares
import Verif.WorldExamples

/-!
# C76: a swap pays the pool's fee

A pool with a fee of 1 % is expected to keep 1 % of what a trader pays, however the trade is specified.  The contract keeps
that much only where a swap by amount in ends between two ticks.  Elsewhere it adds 1 % to the input of the price curve, which
is less than 1 % of what is paid.  The lower rate holds of every swap with a regular end.
-/

namespace OraiV3

/-- For any swap whose end is regular, in any reachable state: the swap moves the price along the curve in a sequence of moves,
each with the liquidity of the positions in range at that point.  The trader receives at most what the curve gives, and pays at
least what the curve asks and on top of it the pool's percentage, short of it by at most `2 * 10^-14` of the smallest unit for
each move.  Missing: the percentage of what is paid in all, see `C76_false`, and swaps with an irregular end, see `C63_false`. -/
theorem C76_fee_partial {c : Chain} {w w' : World} {env : Env} {info : Info} {k : PoolKey} {d b : Bool} {amount limit : Nat}
    (hr : Reach c w.store) (hne : info.sender ≠ c.self) (hu : (info.funds.map Coin.denom).Nodup)
    (ho : ∀ x ∈ info.funds, x.denom ≠ tokenOut k d)
    (h : w.tx c env info (.swap k d amount b limit) = .ok w') (hreg : RegularEnd w'.store k d b limit) :
    ∃ p p' ms paid got, w.store.pools.get? k.key = some p ∧ w'.store.pools.get? k.key = some p' ∧
      Leads p.sqrtPrice ms p'.sqrtPrice ∧
      (∀ m ∈ ms, (m.liquidity : Int) = liquidityInRange w.store k m.tick + drift w.store k) ∧
      w'.ledger.bal (tokenAsset c (tokenIn k d)) info.sender + paid = w.ledger.bal (tokenAsset c (tokenIn k d)) info.sender ∧
      w'.ledger.bal (tokenAsset c (tokenOut k d)) info.sender = w.ledger.bal (tokenAsset c (tokenOut k d)) info.sender + got ∧
      (got : ℚ) ≤ (ms.map (fun m => exactAmount (!d) m.liquidity m.price m.next)).sum ∧
      (ms.map (fun m => exactAmount d m.liquidity m.price m.next)).sum * (1 + (k.tier.fee : ℚ) / 10 ^ 12) ≤
        paid + 2 / 10 ^ 14 * ms.length := by
  obtain ⟨p, p', ms, h1, h2, h3, h4, h5, h6, -⟩ := C63_moves_partial hr hne hu ho h hreg
  exact ⟨p, p', ms, _, _, h1, h2, h3, fun m hm => (h4 m hm).active, h5, h6,
    output_sum (fun m hm => (h4 m hm).out), gross_sum (fun m hm => (h4 m hm).gross)⟩

namespace Demo

/-- A pool with a fee of 1 %, all of which is set to go to the protocol, so that the fee of a swap can be read off the pool. -/
def allFees : List (Info × Msg) :=
  [(by_ alice, .addFeeTier tier),
   (by_ alice, .createPool [97] [98] tier (10 ^ 24) 0),
   (by_ alice, .changeProtocolFee (10 ^ 12)),
   (by_ alice, .createPosition key (-10) 10 (10 ^ 16) 0 (10 ^ 30))]

end Demo

/-- `who` swaps X for Y in the pool: pays `paid`, receives `got`, the protocol's fees grow by `fee`, and the end is regular. -/
structure Sells (c : Chain) (env : Env) (who : Bytes) (k : PoolKey) (amount : Nat) (b : Bool) (limit : Nat) (w : World)
    (paid got fee : Nat) (w' : World) : Prop where
  tx : w.tx c env ⟨who, []⟩ (.swap k true amount b limit) = .ok w'
  paid : w.ledger.bal (tokenAsset c k.tokenX) who = w'.ledger.bal (tokenAsset c k.tokenX) who + paid
  got : w'.ledger.bal (tokenAsset c k.tokenY) who = w.ledger.bal (tokenAsset c k.tokenY) who + got
  fee : (w'.store.pools.get? k.key).map (fun p => p.proto true) = (w.store.pools.get? k.key).map (fun p => p.proto true + fee)
  regular : RegularEnd w'.store k true b limit

namespace Demo

theorem sells {c : Chain} {env : Env} {who : Bytes} {k : PoolKey} {amount : Nat} {b : Bool} {limit : Nat} {w : World}
    {paid got fee : Nat} (h : (match w.tx c env ⟨who, []⟩ (.swap k true amount b limit) with
      | .ok w' => decide (w.ledger.bal (tokenAsset c k.tokenX) who = w'.ledger.bal (tokenAsset c k.tokenX) who + paid ∧
          w'.ledger.bal (tokenAsset c k.tokenY) who = w.ledger.bal (tokenAsset c k.tokenY) who + got ∧
          (w'.store.pools.get? k.key).map (fun p => p.proto true) = (w.store.pools.get? k.key).map (fun p => p.proto true + fee) ∧
          RegularEnd w'.store k true b limit)
      | .error _ => false) = true) : ∃ w', Sells c env who k amount b limit w paid got fee w' := by
  cases ht : w.tx c env ⟨who, []⟩ (.swap k true amount b limit) with
  | error e => rw [ht] at h; simp at h
  | ok w' =>
    rw [ht] at h
    obtain ⟨h1, h2, h3, h4⟩ := of_decide_eq_true h
    exact ⟨w', ⟨ht, h1, h2, h3, h4⟩⟩

theorem allFees_reach : WorldReach chain (world chain allFees) := world_reach (by decide +kernel)

end Demo

/-- False as stated.  The fee of the pool is 1 % and all of it goes to the protocol.  Bob buys 100000 units of Y and pays 101003
units of X.  The protocol gets 1001 of them, which is less than 1 %. -/
theorem C76_false : ∃ w w', WorldReach Demo.chain w ∧ Demo.key.tier.fee = 10 ^ 12 / 100 ∧
    (∃ cfg, w.store.config = some cfg ∧ cfg.protocolFee = 10 ^ 12) ∧
    Sells Demo.chain Demo.env Demo.bob Demo.key 100000 false MIN_SQRT_PRICE w 101003 100000 1001 w' ∧ 1001 * 100 < 101003 := by
  obtain ⟨w', h⟩ := Demo.sells (c := Demo.chain) (env := Demo.env) (who := Demo.bob) (k := Demo.key) (amount := 100000) (b := false)
    (limit := MIN_SQRT_PRICE) (w := Demo.world Demo.chain Demo.allFees) (paid := 101003) (got := 100000) (fee := 1001)
    (by decide +kernel)
  have hc : (match (Demo.world Demo.chain Demo.allFees).store.config with
    | some cfg => decide (cfg.protocolFee = 10 ^ 12)
    | none => false) = true := by decide +kernel
  refine ⟨_, w', Demo.allFees_reach, by decide, ?_, h, by decide⟩
  cases he : (Demo.world Demo.chain Demo.allFees).store.config with
  | none => rw [he] at hc; simp at hc
  | some cfg => rw [he] at hc; exact ⟨cfg, rfl, of_decide_eq_true hc⟩

/-- The same trade costs less if it is specified by what is bought.  In the same state, Bob can sell 1000000 units of X and gets
989901 units of Y, of which trade the fee is exactly 1 %.  Or Bob buys 989901 units of Y and pays 999900: 100 units less, all of
them saved in the fee. -/
theorem C76_two_ways : ∃ w w1 w2, WorldReach Demo.chain w ∧
    Sells Demo.chain Demo.env Demo.bob Demo.key 1000000 true MIN_SQRT_PRICE w 1000000 989901 10000 w1 ∧
    Sells Demo.chain Demo.env Demo.bob Demo.key 989901 false MIN_SQRT_PRICE w 999900 989901 9900 w2 := by
  obtain ⟨w1, h1⟩ := Demo.sells (c := Demo.chain) (env := Demo.env) (who := Demo.bob) (k := Demo.key) (amount := 1000000) (b := true)
    (limit := MIN_SQRT_PRICE) (w := Demo.world Demo.chain Demo.allFees) (paid := 1000000) (got := 989901) (fee := 10000)
    (by decide +kernel)
  obtain ⟨w2, h2⟩ := Demo.sells (c := Demo.chain) (env := Demo.env) (who := Demo.bob) (k := Demo.key) (amount := 989901) (b := false)
    (limit := MIN_SQRT_PRICE) (w := Demo.world Demo.chain Demo.allFees) (paid := 999900) (got := 989901) (fee := 9900)
    (by decide +kernel)
  exact ⟨_, w1, w2, Demo.allFees_reach, h1, h2⟩

theorem WorldReach.reach {c : Chain} {w : World} (h : WorldReach c w) : Reach c w.store := by
  induction h with
  | init sender fee h l => exact .init sender fee h
  | call _ h ih =>
    obtain ⟨_, hex, -⟩ := tx_inv h
    exact .step ih hex

/-- The hypotheses of `C76_fee_partial` are met by the swap of `C76_false`. -/
example : ∃ w w' : World, Reach Demo.chain w.store ∧ Demo.bob ≠ Demo.chain.self ∧
    w.tx Demo.chain Demo.env ⟨Demo.bob, []⟩ (.swap Demo.key true 100000 false MIN_SQRT_PRICE) = .ok w' ∧
    RegularEnd w'.store Demo.key true false MIN_SQRT_PRICE := by
  obtain ⟨w, w', h1, -, -, h2, -⟩ := C76_false
  exact ⟨w, w', h1.reach, by decide, h2.tx, h2.regular⟩

end OraiV3
