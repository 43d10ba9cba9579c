import Verif.Lemmas.Shares
import Verif.Props.Swap
import Verif.Props.Fees
import Verif.Props.Quote

/-!
# C28: the protocol's shares; C63: fees reach the positions in range in proportion to their liquidity

`accrued s x q` is what position `q` has earned in a token since it was last paid, in units of `10^-34` of the smallest unit.
A position earns the same for each unit of its liquidity, so proportionality is stated with a factor that depends on the range
but not on the position.
-/

namespace OraiV3

/-- **C28**, the shares.  For any swap in any reachable state: it is a sequence of price moves that leads from the price before to
the price after, for each of which an input and a fee are charged and the protocol gets its share of the fee (see `ChargeOk`).  The
trader pays exactly the inputs and fees and receives exactly the outputs, the protocol's record grows by exactly its shares, and
its record of the other token does not change. -/
theorem C28_swap_shares {c : Chain} {w w' : World} {env : Env} {info : Info} {k : PoolKey} {d b : Bool} {amount limit : Nat}
    (hr : Reach c w.store) (hne : info.sender ≠ c.self) (hu : (info.funds.map Coin.denom).Nodup)
    (ho : ∀ x ∈ info.funds, x.denom ≠ tokenOut k d)
    (h : w.tx c env info (.swap k d amount b limit) = .ok w') :
    ∃ p p' ms, w.store.pools.get? k.key = some p ∧ w'.store.pools.get? k.key = some p' ∧
      Leads p.sqrtPrice ms p'.sqrtPrice ∧ (∀ m ∈ ms, ChargeOk w.store k d m) ∧
      w'.ledger.bal (tokenAsset c (tokenIn k d)) info.sender + (ms.map (fun m => m.input + m.fee)).sum =
        w.ledger.bal (tokenAsset c (tokenIn k d)) info.sender ∧
      w'.ledger.bal (tokenAsset c (tokenOut k d)) info.sender =
        w.ledger.bal (tokenAsset c (tokenOut k d)) info.sender + (ms.map PriceMove.output).sum ∧
      p'.proto d = p.proto d + (ms.map PriceMove.protocol).sum ∧ p'.proto (!d) = p.proto (!d) := by
  obtain ⟨res, pool, m1, hk, hp, h1, hp', h2, h3⟩ := swap_tx h
  have hm := hr.mreach
  have hok := hm.price k pool hk hp
  obtain ⟨ms, st, hM, b1, b3, b4⟩ := swap_charges hm.struct hm.bitInv hk hp hok h1
  have hz := (swap_positive hm.struct hm.bitInv hk hp hok h1).1
  refine ⟨pool, res.pool, ms, hp, hp', b1 ▸ hM.leads, hM.each, ?_, ?_, b1 ▸ hM.proto, b1 ▸ hM.protoOther⟩
  · have h4 := h3 (tokenAsset c (tokenIn k d)) info.sender
    rw [outDelta_append, assetTransfer_sender hne,
      if_neg (fun e => swap_tokens_ne hm.struct hk hp d (tokenAsset_inj e))] at h4
    have h5 := charge_exact hne hu hz h2
    rw [← hM.total, b3]
    omega
  · have h4 := h3 (tokenAsset c (tokenOut k d)) info.sender
    rw [outDelta_append, assetTransfer_sender hne, if_pos rfl,
      assetTransferFrom_other h2 (fun e => swap_tokens_ne hm.struct hk hp d (tokenAsset_inj e).symm)] at h4
    have h5 : fundsDelta c info.sender info.funds (tokenAsset c (tokenOut k d)) info.sender = 0 := by
      rw [fundsDelta_none ho]
    rw [← hM.out, b4]
    omega

/-- Regularity in terms of the state before the swap. -/
theorem regular_before {c : Chain} {w w' : World} {env : Env} {info : Info} {k : PoolKey} {d b : Bool} {amount limit : Nat}
    (h : w.tx c env info (.swap k d amount b limit) = .ok w') {p' : Pool} (hp' : w'.store.pools.get? k.key = some p')
    (hreg : RegularEnd w'.store k d b limit) : RegularPool w.store k d b limit p' := by
  obtain ⟨out, hex, -⟩ := tx_inv h
  obtain ⟨r, hin⟩ := swap_inv (execute_ok.1 hex).2
  obtain ⟨t, e1⟩ := swapInternal_frame hin
  simp only at e1
  have epos : w'.store.positions = w.store.positions := by rw [e1]
  have hrg := hreg p' hp'
  have hused : ∀ j, UsedTick w'.store k j ↔ UsedTick w.store k j := fun j => by unfold UsedTick positionsOf; rw [epos]
  rw [hused, hused] at hrg
  exact hrg

/-- The moves of a swap, in terms of the transaction. -/
theorem Moves.tx {c : Chain} {w w' : World} {env : Env} {info : Info} {k : PoolKey} {d b : Bool} {amount limit : Nat}
    (hr : Reach c w.store) (hne : info.sender ≠ c.self) (hu : (info.funds.map Coin.denom).Nodup)
    (ho : ∀ x ∈ info.funds, x.denom ≠ tokenOut k d)
    (h : w.tx c env info (.swap k d amount b limit) = .ok w') {pool : Pool} {res : CalcSwapResult} {st : SwapState} {ms : List PriceMove}
    (hp : w.store.pools.get? k.key = some pool) (h1 : calculateSwap w.store env.millis k d amount b limit = .ok res)
    (hM : Moves w.store k d pool (drift w.store k) st ms) (b1 : st.pool = res.pool) (b2 : st.ticks = res.ticks)
    (b3 : st.totalIn = res.amountIn) (b4 : st.totalOut = res.amountOut) :
    w'.store.pools.get? k.key = some res.pool ∧
      Leads pool.sqrtPrice ms res.pool.sqrtPrice ∧
      (∀ m ∈ ms, MoveOk w.store k d (drift w.store k) m) ∧
      w'.ledger.bal (tokenAsset c (tokenIn k d)) info.sender + (ms.map (fun m => m.input + m.fee)).sum =
        w.ledger.bal (tokenAsset c (tokenIn k d)) info.sender ∧
      w'.ledger.bal (tokenAsset c (tokenOut k d)) info.sender =
        w.ledger.bal (tokenAsset c (tokenOut k d)) info.sender + (ms.map PriceMove.output).sum ∧
      res.pool.proto d = pool.proto d + (ms.map PriceMove.protocol).sum ∧ res.pool.proto (!d) = pool.proto (!d) ∧
      ∀ q ∈ positionsOf w.store k, accrued w'.store (!d) q = accrued w.store (!d) q ∧
        ∃ u, u < U128 ∧ accrued w.store d q = u * q.liquidity ∧
          accrued w'.store d q = (u + earned ms q.lower q.upper) % U128 * q.liquidity := by
  obtain ⟨res', pool', m1, hk, hq, h1', hp', h2, h3⟩ := swap_tx h
  obtain rfl : pool' = pool := by rw [hp] at hq; exact (Option.some.inj hq).symm
  obtain rfl : res = res' := ok_inj.1 (h1.symm.trans h1')
  have hm := hr.mreach
  have hok := hm.price k pool' hk hp
  obtain ⟨out, hex, -⟩ := tx_inv h
  obtain ⟨r, hin⟩ := swap_inv (execute_ok.1 hex).2
  obtain ⟨s1, m1', g1, g2, g3, g4, g5⟩ := swapInternal_inv hin
  simp only at g1 g2 g3
  obtain rfl : r = res := ok_inj.1 (g1.symm.trans h1)
  have htk : w'.store.ticks = withTicks w.store.ticks k st.ticks := by
    rw [g3, b2, ← saveTicks_withTicks g2]
    rfl
  have hz := (swap_positive hm.struct hm.bitInv hk hp hok h1).1
  refine ⟨hp', b1 ▸ hM.leads, hM.each, ?_, ?_, b1 ▸ hM.proto, b1 ▸ hM.protoOther, ?_⟩
  · have h4 := h3 (tokenAsset c (tokenIn k d)) info.sender
    rw [outDelta_append, assetTransfer_sender hne,
      if_neg (fun e => swap_tokens_ne hm.struct hk hp d (tokenAsset_inj e))] at h4
    have h5 := charge_exact hne hu hz h2
    rw [← hM.total, b3]
    omega
  · have h4 := h3 (tokenAsset c (tokenOut k d)) info.sender
    rw [outDelta_append, assetTransfer_sender hne, if_pos rfl,
      assetTransferFrom_other h2 (fun e => swap_tokens_ne hm.struct hk hp d (tokenAsset_inj e).symm)] at h4
    have h5 : fundsDelta c info.sender info.funds (tokenAsset c (tokenOut k d)) info.sender = 0 := by
      rw [fundsDelta_none ho]
    rw [← hM.out, b4]
    omega
  · intro q hq
    have hqk := (mem_positionsOf.1 hq).2
    obtain ⟨f1, f2⟩ := hM.earn q hq
    have a' : ∀ x, accrued w'.store x q = wsub (growthInside (withTicks w.store.ticks k st.ticks) k st.pool x q.lower q.upper) (q.fgIn x) * q.liquidity := by
      intro x
      unfold accrued accruedIn
      rw [hqk, hp', htk, b1]
    have a0 : ∀ x, accrued w.store x q = wsub (growthInside w.store.ticks k pool' x q.lower q.upper) (q.fgIn x) * q.liquidity := by
      intro x
      unfold accrued accruedIn
      rw [hqk, hp]
    refine ⟨by rw [a', a0, f1], _, ?_, a0 d, ?_⟩
    · unfold wsub
      exact Nat.mod_lt _ (by decide)
    · rw [a', f2]
      unfold wsub wadd
      generalize growthInside w.store.ticks k pool' d q.lower q.upper = g
      generalize q.fgIn d = f
      congr 1
      rw [Nat.mod_add_mod, Nat.mod_add_mod]
      congr 1
      omega

/-- For any swap whose end is regular, in any reachable state: the swap is a sequence of price moves that leads from the price
before to the price after (see `MoveOk` for each of them).  The trader pays exactly their inputs and fees and receives exactly
their outputs, the protocol gets exactly its parts of the fees, and every position of the pool earns, for each unit of its
liquidity, the growth of the moves made while its range contained the tick, and nothing in the other token (the counter per
unit of liquidity is kept modulo `2^128`).  Missing: swaps with an irregular end, see `C63_false`. -/
theorem C63_moves_partial {c : Chain} {w w' : World} {env : Env} {info : Info} {k : PoolKey} {d b : Bool} {amount limit : Nat}
    (hr : Reach c w.store) (hne : info.sender ≠ c.self) (hu : (info.funds.map Coin.denom).Nodup)
    (ho : ∀ x ∈ info.funds, x.denom ≠ tokenOut k d)
    (h : w.tx c env info (.swap k d amount b limit) = .ok w') (hreg : RegularEnd w'.store k d b limit) :
    ∃ p p' ms, w.store.pools.get? k.key = some p ∧ w'.store.pools.get? k.key = some p' ∧
      Leads p.sqrtPrice ms p'.sqrtPrice ∧
      (∀ m ∈ ms, MoveOk w.store k d (drift w.store k) m) ∧
      w'.ledger.bal (tokenAsset c (tokenIn k d)) info.sender + (ms.map (fun m => m.input + m.fee)).sum =
        w.ledger.bal (tokenAsset c (tokenIn k d)) info.sender ∧
      w'.ledger.bal (tokenAsset c (tokenOut k d)) info.sender =
        w.ledger.bal (tokenAsset c (tokenOut k d)) info.sender + (ms.map PriceMove.output).sum ∧
      p'.proto d = p.proto d + (ms.map PriceMove.protocol).sum ∧ p'.proto (!d) = p.proto (!d) ∧
      ∀ q ∈ positionsOf w.store k, accrued w'.store (!d) q = accrued w.store (!d) q ∧
        ∃ u, u < U128 ∧ accrued w.store d q = u * q.liquidity ∧
          accrued w'.store d q = (u + earned ms q.lower q.upper) % U128 * q.liquidity := by
  obtain ⟨res, pool, m1, hk, hp, h1, hp', h2, h3⟩ := swap_tx h
  have hm := hr.mreach
  obtain ⟨ms, st, hM, b1, b2, b3, b4⟩ := swap_moves hm.struct hm.bitInv hm.tickSum hk hp (hm.price k pool hk hp) h1
    (regular_before h hp' hreg)
  exact ⟨pool, res.pool, ms, hp, Moves.tx hr hne hu ho h hp h1 hM b1 b2 b3 b4⟩

/-- For a swap in a pool whose liquidity is right (C01): what all positions of the pool earn and the protocol's part are together the fee
the trader pays, short of it by at most two units of growth for each unit of liquidity and move.  Nothing is earned that
was not paid, and no more than that is lost. -/
theorem C63_all_fees_partial {c : Chain} {w w' : World} {env : Env} {info : Info} {k : PoolKey} {d b : Bool} {amount limit : Nat}
    (hr : Reach c w.store) (hdr : drift w.store k = 0) (hne : info.sender ≠ c.self) (hu : (info.funds.map Coin.denom).Nodup)
    (ho : ∀ x ∈ info.funds, x.denom ≠ tokenOut k d)
    (h : w.tx c env info (.swap k d amount b limit) = .ok w') (hreg : RegularEnd w'.store k d b limit) :
    ∃ p p' ms, w.store.pools.get? k.key = some p ∧ w'.store.pools.get? k.key = some p' ∧
      Leads p.sqrtPrice ms p'.sqrtPrice ∧
      (∀ m ∈ ms, MoveOk w.store k d 0 m) ∧
      w'.ledger.bal (tokenAsset c (tokenIn k d)) info.sender + (ms.map PriceMove.input).sum + (ms.map PriceMove.fee).sum =
        w.ledger.bal (tokenAsset c (tokenIn k d)) info.sender ∧
      p'.proto d = p.proto d + (ms.map PriceMove.protocol).sum ∧
      (∀ q ∈ positionsOf w.store k, ∃ u, u < U128 ∧ accrued w.store d q = u * q.liquidity ∧
        accrued w'.store d q = (u + earned ms q.lower q.upper) % U128 * q.liquidity) ∧
      sumPositions w.store k (fun q => earned ms q.lower q.upper * q.liquidity) + (ms.map PriceMove.protocol).sum * 10 ^ 34 ≤
        (ms.map PriceMove.fee).sum * 10 ^ 34 ∧
      (ms.map PriceMove.fee).sum * 10 ^ 34 ≤
        sumPositions w.store k (fun q => earned ms q.lower q.upper * q.liquidity) + (ms.map PriceMove.protocol).sum * 10 ^ 34 +
          2 * (ms.map PriceMove.liquidity).sum := by
  obtain ⟨p, p', ms, h1, h2, h3, h4, h5, -, h7, -, h9⟩ := C63_moves_partial hr hne hu ho h hreg
  rw [hdr] at h4
  obtain ⟨f1, f2⟩ := moves_fees h4
  refine ⟨p, p', ms, h1, h2, h3, h4, ?_, h7, fun q hq => (h9 q hq).2, f1, f2⟩
  rw [← h5, Nat.add_assoc]
  congr 1
  clear h3 h4 h5 h7 h9 f1 f2
  induction ms with
  | nil => rfl
  | cons m ms ih =>
    simp only [List.map_cons, List.sum_cons]
    omega

/-- For any swap whose end is regular, in any reachable state: what a unit of liquidity earns depends on the range only; a wider
range earns at least as much, and two adjacent ranges together earn what their union earns. -/
theorem C63_ranges_partial {c : Chain} {w w' : World} {env : Env} {info : Info} {k : PoolKey} {d b : Bool} {amount limit : Nat}
    (hr : Reach c w.store) (hne : info.sender ≠ c.self) (hu : (info.funds.map Coin.denom).Nodup)
    (ho : ∀ x ∈ info.funds, x.denom ≠ tokenOut k d)
    (h : w.tx c env info (.swap k d amount b limit) = .ok w') (hreg : RegularEnd w'.store k d b limit) :
    ∃ e : Int → Int → Nat,
      (∀ l u l' u', l' ≤ l → u ≤ u' → e l u ≤ e l' u') ∧ (∀ l m u, l ≤ m → m ≤ u → e l u = e l m + e m u) ∧
      ∀ q ∈ positionsOf w.store k, ∃ v, v < U128 ∧ accrued w.store d q = v * q.liquidity ∧
        accrued w'.store d q = (v + e q.lower q.upper) % U128 * q.liquidity := by
  obtain ⟨p, p', ms, -, -, -, -, -, -, -, -, h9⟩ := C63_moves_partial hr hne hu ho h hreg
  exact ⟨earned ms, fun _ _ _ _ => earned_mono ms, fun _ _ _ => earned_split ms, fun q hq => (h9 q hq).2⟩

/-- In any two states of the contract, whatever happened in between, regular or not: positions of the same pool with the same
range that were not touched have earned the same for each unit of their liquidity. -/
theorem C63_same_range {c : Chain} {s s' : Store} (hr : Reach c s) (hr' : Reach c s') (k : PoolKey) (l u : Int) (x : Bool) :
    ∃ e, ∀ q, q ∈ s.positions.vals → q ∈ s'.positions.vals → q.poolKey = k → q.lower = l → q.upper = u →
      ∃ v, v < U128 ∧ accrued s x q = v * q.liquidity ∧ accrued s' x q = (v + e) % U128 * q.liquidity := by
  cases hp : s.pools.get? k.key with
  | none =>
    refine ⟨0, fun q hq _ e _ _ => ?_⟩
    obtain ⟨id, hid⟩ := memPos hq
    obtain ⟨p, hp'⟩ := (hr.mreach.struct.positions _ _ hid).pool
    rw [e, hp] at hp'
    simp at hp'
  | some p =>
    cases hp' : s'.pools.get? k.key with
    | none =>
      refine ⟨0, fun q _ hq e _ _ => ?_⟩
      obtain ⟨id, hid⟩ := memPos hq
      obtain ⟨p, hp''⟩ := (hr'.mreach.struct.positions _ _ hid).pool
      rw [e, hp'] at hp''
      simp at hp''
    | some p' =>
      refine ⟨wsub (growthInside s'.ticks k p' x l u) (growthInside s.ticks k p x l u), fun q hq hq' e1 e2 e3 => ?_⟩
      obtain ⟨id, hid⟩ := memPos hq
      have hok := hr.mreach.struct.positions _ _ hid
      refine ⟨wsub (growthInside s.ticks k p x l u) (q.fgIn x), Nat.mod_lt _ (by decide), ?_, ?_⟩
      · unfold accrued accruedIn
        rw [e1, hp, e2, e3]
      · unfold accrued accruedIn
        rw [e1, hp', e2, e3]
        simp only
        congr 1
        have a1 : growthInside s'.ticks k p' x l u < U128 := growthInside_lt _ _ _ _ _ _
        have a2 : growthInside s.ticks k p x l u < U128 := growthInside_lt _ _ _ _ _ _
        have a3 : q.fgIn x < U128 := by cases x <;> [exact hok.fgY; exact hok.fgX]
        generalize growthInside s'.ticks k p' x l u = g' at *
        generalize growthInside s.ticks k p x l u = g at *
        generalize q.fgIn x = f at *
        unfold wsub
        rw [← Nat.add_mod, show g + (U128 - f) + (g' + (U128 - g)) = g' + (U128 - f) + U128 from by omega, Nat.add_mod_right]

/-- A position starts without earnings: it does not share in fees paid before it was opened. -/
theorem C63_new {c : Chain} {s s' : Store} {env : Env} {info : Info} {k : PoolKey} {l u : Int} {L lo hi : Nat} {out : List OutMsg}
    {msg : Msg} (hc : msg = .createPosition k l u L lo hi ∨ msg = .mint k l u L lo hi)
    (hr : Reach c s) (h : execute c env info msg s = .ok (s', out)) :
    ∃ q, q.what = (k, l, u, L) ∧ s'.positions.vals.Perm (q :: s.positions.vals) ∧ ∀ x, accrued s' x q = 0 := by
  have e : execute c env info msg s = execute c env info (.createPosition k l u L lo hi) s := by rcases hc with rfl | rfl <;> rfl
  rw [e] at h
  have hm := hr.mreach
  have hm' := Reach.mreach (.step hr h)
  obtain ⟨hw, h⟩ := execute_ok.1 h
  obtain ⟨q, _, _, _, _, _, _, h1, h2, -, -, -, -, -, -, h3, -⟩ := create_owes hm.struct hm'.struct hm.posInv hm.price hw h
  exact ⟨q, h1, h2, h3⟩

/-! A history with two positions: the first swap crosses from one into the other. -/

example : ∃ w w' : World, RegularReach Demo.chain (fun _ => True) w.store ∧
    w.tx Demo.chain Demo.env (Demo.by_ Demo.bob) (.swap Demo.key true 1000 true MIN_SQRT_PRICE) = .ok w' ∧
    RegularEnd w'.store Demo.key true true MIN_SQRT_PRICE := by
  have h : RegularReach Demo.chain (fun _ => True) (Demo.state Demo.chain (Demo.crossing.take (Demo.crossing.length - 2))) :=
    Demo.state_regular (by decide +kernel) (by decide +kernel)
  have h3 : (match World.tx Demo.chain ⟨Demo.state Demo.chain (Demo.crossing.take (Demo.crossing.length - 2)), Demo.wealthy⟩ Demo.env
      (Demo.by_ Demo.bob) (.swap Demo.key true 1000 true MIN_SQRT_PRICE) with
    | .ok w' => decide (RegularEnd w'.store Demo.key true true MIN_SQRT_PRICE)
    | .error _ => false) = true := by decide +kernel
  cases ht : World.tx Demo.chain ⟨Demo.state Demo.chain (Demo.crossing.take (Demo.crossing.length - 2)), Demo.wealthy⟩ Demo.env
      (Demo.by_ Demo.bob) (.swap Demo.key true 1000 true MIN_SQRT_PRICE) with
  | error e => rw [ht] at h3; simp at h3
  | ok w' =>
    rw [ht] at h3
    exact ⟨_, w', h, ht, of_decide_eq_true h3⟩

/-- What the positions of both owners have earned in X before and after that swap, in millionths of a unit. -/
example : [2, 1].map (fun n => (positionsOf (Demo.state Demo.chain (Demo.crossing.take (Demo.crossing.length - n))) Demo.key).map
    (fun q => accrued (Demo.state Demo.chain (Demo.crossing.take (Demo.crossing.length - n))) true q / 10 ^ 28)) =
    [[0, 0], [6000000, 5000000]] := by decide +kernel

/-- False of swaps with an irregular end.  The first swap of `Demo.feeTheft` takes 507 units of Y from the trader, and the
positions earn 6000. -/
theorem C63_false : ∃ w w', WorldReach Demo.chain w ∧
    w.tx Demo.chain Demo.env (Demo.by_ Demo.carol) (.swap Demo.key false 499 false (sqrtPriceAt 10)) = .ok w' ∧
    w.ledger.bal (.cw20 Demo.key.tokenY) Demo.carol = w'.ledger.bal (.cw20 Demo.key.tokenY) Demo.carol + 507 ∧
    totalAccrued w.store Demo.key false + 6000 * 10 ^ 34 ≤ totalAccrued w'.store Demo.key false := by
  have h : Demo.worksW Demo.chain (Demo.feeTheft.take (Demo.feeTheft.length - 2)) = true := by decide +kernel
  have h3 : (match (Demo.world Demo.chain (Demo.feeTheft.take (Demo.feeTheft.length - 2))).tx Demo.chain Demo.env (Demo.by_ Demo.carol)
      (.swap Demo.key false 499 false (sqrtPriceAt 10)) with
    | .ok w' => decide ((Demo.world Demo.chain (Demo.feeTheft.take (Demo.feeTheft.length - 2))).ledger.bal (.cw20 Demo.key.tokenY) Demo.carol =
          w'.ledger.bal (.cw20 Demo.key.tokenY) Demo.carol + 507 ∧
        totalAccrued (Demo.world Demo.chain (Demo.feeTheft.take (Demo.feeTheft.length - 2))).store Demo.key false + 6000 * 10 ^ 34 ≤
          totalAccrued w'.store Demo.key false)
    | .error _ => false) = true := by decide +kernel
  cases ht : (Demo.world Demo.chain (Demo.feeTheft.take (Demo.feeTheft.length - 2))).tx Demo.chain Demo.env (Demo.by_ Demo.carol)
      (.swap Demo.key false 499 false (sqrtPriceAt 10)) with
  | error e => rw [ht] at h3; simp at h3
  | ok w' =>
    rw [ht] at h3
    have h4 := of_decide_eq_true h3
    exact ⟨_, w', Demo.world_reach h, ht, h4.1, h4.2⟩

end OraiV3
