import Verif.Lemmas.Tokens
import Verif.Lemmas.SwapTotals
import Verif.Lemmas.Ledger
import Verif.Props.Ticks
import Verif.Props.Amounts
import Verif.Examples

/-!
# Swaps: price and tick, exact amounts, limits, termination (C03, C07, C08, C09, C10, C24)
-/

namespace OraiV3

/-! ## C03: price and tick stay consistent -/

/-- In every reachable state, the current tick of every pool is a usable tick, the price is at least the
price of that tick and below the price of the next usable tick; at the last usable tick the price is
exactly its price. -/
theorem C03_price_tick {c : Chain} {s : Store} (hr : Reach c s) {k : PoolKey} (hk : k.wf) {p : Pool}
    (hp : s.pools.get? k.key = some p) :
    ValidTick k.tier.spacing p.tick ∧ sqrtPriceAt p.tick ≤ p.sqrtPrice ∧
    (ValidTick k.tier.spacing (p.tick + k.tier.spacing) → p.sqrtPrice < sqrtPriceAt (p.tick + k.tier.spacing)) ∧
    (¬ ValidTick k.tier.spacing (p.tick + k.tier.spacing) → p.sqrtPrice = sqrtPriceAt p.tick) := by
  have h := hr.mreach.price k p hk hp
  simp only [validTick_iff]
  refine ⟨h.tick, h.lo, fun hn => h.hi ?_, fun hn => ?_⟩
  · have := (TickOk_iff.1 hn).2.2.2
    have := h.tick.pos
    omega
  · have h1 := (TickOk_iff.1 h.tick).2.2.2
    rcases Int.lt_or_eq_of_le h1 with h2 | h2
    · exact absurd (h.tick.add h2) hn
    · rw [h.top h2, h2]

/-- The current tick is the tick the price has by the conversion of `C22`. -/
theorem C03_tick_of_price {c : Chain} {s : Store} (hr : Reach c s) {k : PoolKey} (hk : k.wf) {p : Pool}
    (hp : s.pools.get? k.key = some p) : getTickAtSqrtPrice p.sqrtPrice k.tier.spacing = .ok p.tick := by
  have h := hr.mreach.price k p hk hp
  have hpos := h.tick.pos
  obtain ⟨t, ht⟩ := exists_tick h.min
  have ht : IsTick p.sqrtPrice t := ⟨ht.1, ht.2.1, ht.2.2.1, ht.2.2.2⟩
  have e := getTick_eq h.min h.max hpos ht
  rw [e]
  have hb := h.le_top
  have hl : sqrtPriceAt (-getMaxTick k.tier.spacing) ≤ p.sqrtPrice :=
    Nat.le_trans ((minTick_ok hpos).price_le h.tick (TickOk_iff.1 h.tick).2.2.1) h.lo
  obtain ⟨a1, a2, a3, a4⟩ := recomputed_ok e hpos hl hb
  have m1 := (TickOk_iff.1 a1).2.2.2
  have m2 := (TickOk_iff.1 h.tick).2.2.2
  have : t - t % (k.tier.spacing : Int) = p.tick := by
    rcases lt_trichotomy (t - t % (k.tier.spacing : Int)) p.tick with hlt | heq | hgt
    · have h1 := a3 (by omega)
      have h2 := (a1.add (by omega)).price_le h.tick (dvd_lt_step hpos a1.dvd h.tick.dvd hlt)
      have h3 := h.lo
      omega
    · exact heq
    · have h1 := h.hi (by omega)
      have h2 := (h.tick.add (by omega)).price_le a1 (dvd_lt_step hpos h.tick.dvd a1.dvd hgt)
      omega
  rw [this]

example : ((Demo.state Demo.chain (Demo.setup ++ [(Demo.by_ Demo.bob, .swap Demo.key true 100 true MIN_SQRT_PRICE)])).pools.get?
    Demo.key.key).map (fun p => (p.tick, decide (sqrtPriceAt p.tick < p.sqrtPrice))) = some (-10, true) := by
  decide +kernel

/-- Everybody, also the contract, has plenty of everything. -/
def Demo.wealthy : Ledger := ⟨fun _ _ => 10 ^ 40, fun _ _ => 10 ^ 40⟩

/-! ## What a swap does to balances -/

/-- A successful swap transaction and its computation. -/
theorem swap_tx {c : Chain} {w w' : World} {env : Env} {info : Info} {k : PoolKey} {d : Bool} {amount : Nat} {b : Bool}
    {limit : Nat} (h : w.tx c env info (.swap k d amount b limit) = .ok w') :
    ∃ res pool m1, k.wf ∧ w.store.pools.get? k.key = some pool ∧
      calculateSwap w.store env.millis k d amount b limit = .ok res ∧
      w'.store.pools.get? k.key = some res.pool ∧
      assetTransferFrom c (tokenIn k d) res.amountIn info = .ok m1 ∧
      ∀ a x, (w'.ledger.bal a x : Int) = w.ledger.bal a x + fundsDelta c info.sender info.funds a x +
        outDelta c (m1 ++ assetTransfer c (tokenOut k d) res.amountOut info) a x := by
  obtain ⟨out, h1, h2⟩ := tx_inv h
  obtain ⟨hw, h1⟩ := execute_ok.1 h1
  simp only [dispatch] at h1
  obtain ⟨res, h3⟩ := swap_inv h1
  obtain ⟨s1, m1, h4, h5, h6, h7, h8⟩ := swapInternal_inv h3
  obtain ⟨pool, st, _, hp, _⟩ := calculateSwap_inv h4
  obtain ⟨t, e1⟩ := swapInternal_frame h3
  refine ⟨res, pool, m1, hw.1, hp, h4, ?_, h7, ?_⟩
  · simp only at e1
    rw [e1]
    exact KV.get?_insert_same _ _ _
  · simp only at h8
    subst h8
    exact h2

/-- The sender pays exactly the charge, whatever else is attached. -/
theorem charge_exact {c : Chain} {d : Bytes} {n : Nat} {info : Info} {ms : List OutMsg} (hne : info.sender ≠ c.self)
    (hu : (info.funds.map Coin.denom).Nodup) (hn : n ≠ 0) (h : assetTransferFrom c d n info = .ok ms) :
    fundsDelta c info.sender info.funds (tokenAsset c d) info.sender +
      outDelta c ms (tokenAsset c d) info.sender = -(n : Int) := by
  rcases assetTransferFrom_delta h (tokenAsset c d) info.sender with ⟨h0, h⟩ | ⟨hc, h⟩ | ⟨hc, coin, hf, hle, h⟩
  · exact absurd h0 hn
  · rw [h]
    have e : tokenAsset c d = .cw20 d := by simp [tokenAsset, hc]
    rw [e, fundsDelta_cw20]
    simp [moveDelta, hne]
  · rw [h]
    have e : tokenAsset c d = .native d := by simp [tokenAsset, hc]
    rw [e, fundsDelta_native, attached_unique hu, hf]
    simp [moveDelta, hne]
    omega

/-! ## C07: an exact-input swap charges exactly the input -/

/-- The sender's balance of the input token falls by exactly the amount given in the message, fees
included, whether the token is a cw20 token or a native coin attached in excess. -/
theorem C07_exact_input {c : Chain} {w w' : World} {env : Env} {info : Info} {k : PoolKey} {d : Bool} {amount limit : Nat}
    (hr : Reach c w.store) (hne : info.sender ≠ c.self) (hu : (info.funds.map Coin.denom).Nodup)
    (h : w.tx c env info (.swap k d amount true limit) = .ok w') :
    w'.ledger.bal (tokenAsset c (tokenIn k d)) info.sender + amount =
      w.ledger.bal (tokenAsset c (tokenIn k d)) info.sender := by
  obtain ⟨res, pool, m1, hk, hp, h1, -, h2, h3⟩ := swap_tx h
  have hm := hr.mreach
  have hok := hm.price k pool hk hp
  have ha := swap_amount_in hm.struct hm.bitInv hk hp hok h1
  have hz := (swap_positive hm.struct hm.bitInv hk hp hok h1).1
  have h4 := h3 (tokenAsset c (tokenIn k d)) info.sender
  rw [outDelta_append, assetTransfer_sender hne,
    if_neg (fun e => swap_tokens_ne hm.struct hk hp d (tokenAsset_inj e))] at h4
  have h5 := charge_exact hne hu hz h2
  rw [ha] at h5
  omega

/-- A native coin, attached in excess, and a trader who pays 100 of the attached 1000. -/
example : (do
    let w ← World.tx Demo.nativeChain ⟨Demo.state Demo.chain Demo.setup, Demo.wealthy⟩ Demo.env
      ⟨Demo.bob, [⟨[97], 1000⟩]⟩ (.swap Demo.key true 100 true MIN_SQRT_PRICE)
    pure (w.ledger.bal (.native [97]) Demo.bob, w.ledger.bal (.native [98]) Demo.bob) : M (Nat × Nat)) =
      .ok (10 ^ 40 - 100, 10 ^ 40 + 98) := by decide +kernel

/-! ## C08: an exact-output swap pays exactly the output -/

/-- The sender's balance of the output token grows by exactly the amount given in the message (if no coin
of that token is attached: such a coin would be kept by the contract, see `C29`). -/
theorem C08_exact_output {c : Chain} {w w' : World} {env : Env} {info : Info} {k : PoolKey} {d : Bool} {amount limit : Nat}
    (hr : Reach c w.store) (hne : info.sender ≠ c.self) (hu : ∀ x ∈ info.funds, x.denom ≠ tokenOut k d)
    (h : w.tx c env info (.swap k d amount false limit) = .ok w') :
    w'.ledger.bal (tokenAsset c (tokenOut k d)) info.sender =
      w.ledger.bal (tokenAsset c (tokenOut k d)) info.sender + amount := by
  obtain ⟨res, pool, m1, hk, hp, h1, -, h2, h3⟩ := swap_tx h
  have hm := hr.mreach
  have hok := hm.price k pool hk hp
  have ha := swap_amount_out hm.struct hm.bitInv hk hp hok h1
  have h4 := h3 (tokenAsset c (tokenOut k d)) info.sender
  rw [outDelta_append, assetTransfer_sender hne, if_pos rfl,
    assetTransferFrom_other h2 (fun e => swap_tokens_ne hm.struct hk hp d (tokenAsset_inj e).symm), ha] at h4
  have h5 : fundsDelta c info.sender info.funds (tokenAsset c (tokenOut k d)) info.sender = 0 := by
    cases hc : c.isAddr (tokenOut k d)
    · have e : tokenAsset c (tokenOut k d) = .native (tokenOut k d) := by simp [tokenAsset, hc]
      rw [e, fundsDelta_native]
      have : info.funds.filter (fun x => x.denom = tokenOut k d) = [] := by
        rw [List.filter_eq_nil_iff]
        intro x hx
        simpa using hu x hx
      simp [attached, this]
    · have e : tokenAsset c (tokenOut k d) = .cw20 (tokenOut k d) := by simp [tokenAsset, hc]
      rw [e, fundsDelta_cw20]
  omega

example : (do
    let w ← World.tx Demo.chain ⟨Demo.state Demo.chain Demo.setup, Demo.wealthy⟩ Demo.env
      (Demo.by_ Demo.bob) (.swap Demo.key true 100 false MIN_SQRT_PRICE)
    pure (w.ledger.bal (.cw20 [97]) Demo.bob, w.ledger.bal (.cw20 [98]) Demo.bob) : M (Nat × Nat)) =
      .ok (10 ^ 40 - 103, 10 ^ 40 + 100) := by decide +kernel

/-! ## C10: no free swap -/

/-- A successful swap takes a positive amount of the input token from the sender and gives a positive
amount of the output token. -/
theorem C10_no_free_swap {c : Chain} {w w' : World} {env : Env} {info : Info} {k : PoolKey} {d : Bool} {amount limit : Nat}
    {b : Bool} (hr : Reach c w.store) (hne : info.sender ≠ c.self) (hu : ∀ x ∈ info.funds, x.denom ≠ tokenOut k d)
    (h : w.tx c env info (.swap k d amount b limit) = .ok w') :
    w'.ledger.bal (tokenAsset c (tokenIn k d)) info.sender < w.ledger.bal (tokenAsset c (tokenIn k d)) info.sender ∧
    w.ledger.bal (tokenAsset c (tokenOut k d)) info.sender < w'.ledger.bal (tokenAsset c (tokenOut k d)) info.sender := by
  obtain ⟨res, pool, m1, hk, hp, h1, -, h2, h3⟩ := swap_tx h
  have hm := hr.mreach
  have hok := hm.price k pool hk hp
  obtain ⟨z1, z2⟩ := swap_positive hm.struct hm.bitInv hk hp hok h1
  have hnt := swap_tokens_ne hm.struct hk hp d
  have h4 := h3 (tokenAsset c (tokenIn k d)) info.sender
  have h5 := h3 (tokenAsset c (tokenOut k d)) info.sender
  rw [outDelta_append, assetTransfer_sender hne, if_neg (fun e => hnt (tokenAsset_inj e))] at h4
  rw [outDelta_append, assetTransfer_sender hne, if_pos rfl,
    assetTransferFrom_other h2 (fun e => hnt (tokenAsset_inj e).symm)] at h5
  have h6 := assetTransferFrom_sender hne h2
  have h7 : fundsDelta c info.sender info.funds (tokenAsset c (tokenOut k d)) info.sender = 0 := by
    cases hc : c.isAddr (tokenOut k d)
    · have e : tokenAsset c (tokenOut k d) = .native (tokenOut k d) := by simp [tokenAsset, hc]
      rw [e, fundsDelta_native]
      have : info.funds.filter (fun x => x.denom = tokenOut k d) = [] := by
        rw [List.filter_eq_nil_iff]
        intro x hx
        simpa using hu x hx
      simp [attached, this]
    · have e : tokenAsset c (tokenOut k d) = .cw20 (tokenOut k d) := by simp [tokenAsset, hc]
      rw [e, fundsDelta_cw20]
  omega

/-! ## C09: direction and price limit -/

/-- A successful swap moves the price only in its direction. -/
theorem C09_direction {c : Chain} {w w' : World} {env : Env} {info : Info} {k : PoolKey} {d : Bool} {amount limit : Nat}
    {b : Bool} (hr : Reach c w.store) (h : w.tx c env info (.swap k d amount b limit) = .ok w') :
    ∃ p p', w.store.pools.get? k.key = some p ∧ w'.store.pools.get? k.key = some p' ∧
      (if d then p'.sqrtPrice ≤ p.sqrtPrice else p.sqrtPrice ≤ p'.sqrtPrice) := by
  obtain ⟨res, pool, m1, hk, hp, h1, h2, -, -⟩ := swap_tx h
  have hm := hr.mreach
  have h3 := swap_price hm.struct hm.bitInv hk hp (hm.price k pool hk hp) h1
  refine ⟨pool, res.pool, hp, h2, ?_⟩
  cases d
  · simp only [Bool.false_eq_true, if_false] at h3 ⊢; exact h3.1
  · simp only [if_true] at h3 ⊢; exact h3.1

/-- The price limit is respected by every swap from Y to X and every exact-output swap.  An exact-input
swap from X to Y can end below its limit, but by less than `10^24 / limit`, hence not at all if the
limit is at least 1.  (That everything was traded is `C07`, `C08`: a swap that reaches the limit with
something left fails.)

Full statement, false by `C09_limit_false`: the limit is never passed. -/
theorem C09_limit_partial {c : Chain} {w w' : World} {env : Env} {info : Info} {k : PoolKey} {d : Bool} {amount limit : Nat}
    {b : Bool} (hr : Reach c w.store) (h : w.tx c env info (.swap k d amount b limit) = .ok w') :
    ∃ p', w'.store.pools.get? k.key = some p' ∧
      (d = false → p'.sqrtPrice ≤ limit) ∧
      (d = true → b = false → limit ≤ p'.sqrtPrice) ∧
      (d = true → 10 ^ 24 ≤ limit → limit ≤ p'.sqrtPrice) ∧
      (d = true → limit ≤ p'.sqrtPrice ∨ (limit - p'.sqrtPrice) * limit < 10 ^ 24) := by
  obtain ⟨res, pool, m1, hk, hp, h1, h2, -, -⟩ := swap_tx h
  have hm := hr.mreach
  have h3 := swap_price hm.struct hm.bitInv hk hp (hm.price k pool hk hp) h1
  refine ⟨res.pool, h2, ?_⟩
  cases d
  · simp only [Bool.false_eq_true, if_false] at h3
    exact ⟨fun _ => h3.2, by simp, by simp, by simp⟩
  · simp only [if_true] at h3
    refine ⟨by simp, fun _ hb => ?_, fun _ hl => ?_, fun _ => ?_⟩
    · by_contra hc
      have := (h3.2 (by omega)).1
      rw [hb] at this; simp at this
    · by_contra hc
      have h4 := (h3.2 (by omega)).2
      have h5 : 1 * limit ≤ (limit - res.pool.sqrtPrice) * limit := Nat.mul_le_mul_right _ (by omega)
      have h6 : SPR = 10 ^ 24 := rfl
      omega
    · by_cases hc : limit ≤ res.pool.sqrtPrice
      · exact .inl hc
      · exact .inr (h3.2 (by omega)).2

namespace Demo

/-- A pool with tick spacing 100 and little liquidity at a low price. -/
def tier100 : FeeTier := ⟨10 ^ 10, 100⟩
def key100 : PoolKey := ⟨[97], [98], tier100⟩
def lowPrice : List (Info × Msg) :=
  [(by_ alice, .addFeeTier tier100),
   (by_ alice, .createPool [97] [98] tier100 45536469000123456789 (-200000)),
   (by_ alice, .createPosition key100 (-200000) (-199900) (10 ^ 20) 0 (10 ^ 30))]

/-- Bob's balance-independent swap in that pool, with the price of tick -200000 as limit. -/
def overshoot : Msg := .swap key100 true 5559157155198773 true 45422634000000000000

end Demo

/-- The limit can be passed: here an exact-input swap from X to Y succeeds and ends at a price 39 units
below its limit.  The cause is that `get_delta_x` divides by a product rounded down, which overstates
the input needed to reach the limit, so that the branch meant for a price short of the limit is taken. -/
theorem C09_limit_false :
    ∃ (w w' : World) (p' : Pool), Reach Demo.chain w.store ∧
      w.tx Demo.chain Demo.env (Demo.by_ Demo.bob) Demo.overshoot = .ok w' ∧
      w'.store.pools.get? Demo.key100.key = some p' ∧ p'.sqrtPrice < 45422634000000000000 := by
  have hw : Demo.works Demo.chain Demo.lowPrice = true := by decide +kernel
  have hq : (match World.tx Demo.chain ⟨Demo.state Demo.chain Demo.lowPrice, Demo.wealthy⟩ Demo.env (Demo.by_ Demo.bob)
      Demo.overshoot with
      | .ok w' => (match w'.store.pools.get? Demo.key100.key with
        | some p' => decide (p'.sqrtPrice < 45422634000000000000) | none => false)
      | .error _ => false) = true := by decide +kernel
  split at hq
  · rename_i w' h1
    split at hq
    · rename_i p' h2
      exact ⟨_, w', p', Demo.state_reach hw, h1, h2, by simpa using hq⟩
    · simp at hq
  · simp at hq

/-! ## C24: swaps terminate -/

/-- The loop `while remaining ≠ 0 { one iteration }`, run without any bound, ends from `st` after at most
`n` iterations: because nothing is left or because an iteration fails. -/
inductive LoopEnds (s : Store) (pr : SwapParams) : Nat → SwapState → Prop where
  | done {n : Nat} {st : SwapState} : st.remaining = 0 → LoopEnds s pr n st
  | fail {n : Nat} {st : SwapState} {e : Err} : swapIter s pr st = .error e → LoopEnds s pr (n + 1) st
  | next {n : Nat} {st st' : SwapState} : swapIter s pr st = .ok st' → LoopEnds s pr n st' → LoopEnds s pr (n + 1) st

theorem LoopEnds.mono {s : Store} {pr : SwapParams} {n m : Nat} {st : SwapState} (h : LoopEnds s pr n st) (hm : n ≤ m) :
    LoopEnds s pr m st := by
  induction h generalizing m with
  | done h => exact .done h
  | @fail n st e h =>
    obtain ⟨m', rfl⟩ : ∃ m', m = m' + 1 := ⟨m - 1, by omega⟩
    exact .fail h
  | @next n st st' h _ ih =>
    obtain ⟨m', rfl⟩ : ∃ m', m = m' + 1 := ⟨m - 1, by omega⟩
    exact .next h (ih (by omega))

/-- The fuel of the model's loop is irrelevant once the loop ends within it. -/
theorem LoopEnds.fuel {s : Store} {pr : SwapParams} {n m : Nat} {st : SwapState} (h : LoopEnds s pr n st) (hm : n ≤ m) :
    swapLoop s pr m st = swapLoop s pr n st := by
  induction h generalizing m with
  | @done n st h =>
    have : ∀ j, swapLoop s pr j st = .ok st := fun j => by cases j <;> unfold swapLoop <;> rw [if_pos h]
    rw [this, this]
  | @fail n st e h =>
    obtain ⟨m', rfl⟩ : ∃ m', m = m' + 1 := ⟨m - 1, by omega⟩
    unfold swapLoop
    rw [h]
    rfl
  | @next n st st' h _ ih =>
    obtain ⟨m', rfl⟩ : ∃ m', m = m' + 1 := ⟨m - 1, by omega⟩
    unfold swapLoop
    rw [h]
    simp only [ok_bind]
    rw [ih (by omega)]

theorem loopEnds_of_measure {s : Store} {pr : SwapParams} (hs : Struct s) (hb : BitInv s) (hk : pr.key.wf)
    (hv : pr.key.tier.Valid) (μ : SwapState → Nat)
    (hμ : ∀ a b, swapIter s pr a = .ok b → LoopOk pr.xToY pr.key.tier.spacing pr.limit a.pool a.remaining →
      a.remaining ≠ 0 → LoopOk pr.xToY pr.key.tier.spacing pr.limit b.pool b.remaining → b.remaining ≠ 0 → μ b < μ a) :
    ∀ (n : Nat) (st : SwapState), LoopOk pr.xToY pr.key.tier.spacing pr.limit st.pool st.remaining → μ st ≤ n →
      LoopEnds s pr (n + 1) st
  | n, st, h0, hn => by
    by_cases hr : st.remaining = 0
    · exact .done hr
    · cases hi : swapIter s pr st with
      | error e => exact .fail hi
      | ok b =>
        obtain ⟨i, ini, r, cfg, p1, rem, u, hview⟩ := iter_view hs hb hk hv h0.tick hi
        have hok := iter_ok hview h0 hr
        refine .next hi ?_
        by_cases hr' : b.remaining = 0
        · exact .done hr'
        · have hlt := hμ st b hi h0 hr hok hr'
          match n with
          | 0 => omega
          | n + 1 => exact loopEnds_of_measure hs hb hk hv μ hμ n b hok (by omega)

/-- The state the loop of a swap starts in. -/
def swapStart (pool : Pool) (amount : Nat) : SwapState :=
  { pool := pool, remaining := amount, totalIn := 0, totalOut := 0, fee := 0, ticks := [] }

/-- Swaps from X to Y and exact-input swaps end after at most as many iterations as there are ticks. -/
theorem C24_terminates {c : Chain} {s : Store} (hr : Reach c s) {k : PoolKey} (hk : k.wf) {p : Pool}
    (hp : s.pools.get? k.key = some p) (d b : Bool) (amount limit now : Nat)
    (hl : if d then limit < p.sqrtPrice else p.sqrtPrice < limit) (hd : d = true ∨ b = true) :
    LoopEnds s ⟨k, d, b, limit, now⟩ (2 * 221818 + 1) (swapStart p amount) := by
  have hm := hr.mreach
  have hok := (hm.price k p hk hp).loop (rem := amount) hl
  refine loopEnds_of_measure (pr := ⟨k, d, b, limit, now⟩) hm.struct hm.bitInv hk (hm.struct.tier hk hp)
    (fun st => if d then (st.pool.tick + MAX_TICK).toNat else (MAX_TICK - st.pool.tick).toNat)
    (fun x y hi hx hrx hy hry => ?_) _ _ hok ?_
  · obtain ⟨i, ini, r, cfg, p1, rem, u, hview⟩ := iter_view hm.struct hm.bitInv hk (hm.struct.tier hk hp) hx.tick hi
    have h1 := iter_progress hview hx hrx hy hry
    have r1 := hx.tick.range
    have r2 := hy.tick.range
    cases d
    · simp only [Bool.false_eq_true, if_false, false_or] at h1 hd ⊢
      rw [hd] at h1
      simp only [Bool.true_eq_false, false_and, or_false] at h1
      omega
    · simp only [if_true] at h1 ⊢
      omega
  · have r1 := hok.tick.range
    have hM : MAX_TICK = 221818 := rfl
    show (if d then (p.tick + MAX_TICK).toNat else (MAX_TICK - p.tick).toNat) ≤ 2 * 221818
    split <;> omega

/-- Every swap ends. -/
theorem C24_terminates_all {c : Chain} {s : Store} (hr : Reach c s) {k : PoolKey} (hk : k.wf) {p : Pool}
    (hp : s.pools.get? k.key = some p) (d b : Bool) (amount limit now : Nat)
    (hl : if d then limit < p.sqrtPrice else p.sqrtPrice < limit) :
    LoopEnds s ⟨k, d, b, limit, now⟩ swapFuel (swapStart p amount) := by
  have hm := hr.mreach
  have hok := (hm.price k p hk hp).loop (rem := amount) hl
  have hM : MAX_TICK = 221818 := rfl
  have hfuel : MAX_SQRT_PRICE + 2 * 221818 + 1 ≤ swapFuel := by decide +kernel
  refine LoopEnds.mono ?_ hfuel
  by_cases hd : d = true
  · exact (C24_terminates hr hk hp d b amount limit now hl (.inl hd)).mono (by omega)
  have hd : d = false := by simpa using hd
  subst hd
  refine loopEnds_of_measure (pr := ⟨k, false, b, limit, now⟩) hm.struct hm.bitInv hk (hm.struct.tier hk hp)
    (fun st => (MAX_SQRT_PRICE - st.pool.sqrtPrice) + (MAX_TICK - st.pool.tick).toNat)
    (fun x y hi hx hrx hy hry => ?_) _ _ hok ?_
  · obtain ⟨i, ini, r, cfg, p1, rem, u, hview⟩ := iter_view hm.struct hm.bitInv hk (hm.struct.tier hk hp) hx.tick hi
    have h1 := iter_progress hview hx hrx hy hry
    have r1 := hx.tick.range
    have r2 := hy.tick.range
    have hpr := iter_price hview hx hrx
    have hnp := iter_price_eq hview
    have t1 := Nat.le_trans hx.le_top (maxTick_ok hx.tick.pos).price_max
    have t2 := Nat.le_trans hy.le_top (maxTick_ok hx.tick.pos).price_max
    simp only [Bool.false_eq_true, if_false] at h1 hpr ⊢
    omega
  · have r1 := hok.tick.range
    show (MAX_SQRT_PRICE - p.sqrtPrice) + (MAX_TICK - p.tick).toNat ≤ _
    omega

/-- So the number of iterations granted to the loop of the model is not a restriction: with any larger
number every swap and quote has the same outcome. -/
theorem C24_fuel {c : Chain} {s : Store} (hr : Reach c s) {k : PoolKey} (hk : k.wf) {p : Pool}
    (hp : s.pools.get? k.key = some p) (d b : Bool) (amount limit now : Nat)
    (hl : if d then limit < p.sqrtPrice else p.sqrtPrice < limit) {n : Nat} (hn : swapFuel ≤ n) :
    swapLoop s ⟨k, d, b, limit, now⟩ n (swapStart p amount) =
      swapLoop s ⟨k, d, b, limit, now⟩ swapFuel (swapStart p amount) :=
  (C24_terminates_all hr hk hp d b amount limit now hl).fuel hn

example : (swapLoop (Demo.state Demo.chain Demo.setup) ⟨Demo.key, true, true, MIN_SQRT_PRICE, 0⟩ 1
    (swapStart { sqrtPrice := 10 ^ 24, tick := 0, liquidity := 10 ^ 12, startTs := 0, lastTs := 0, feeReceiver := [] } 300)).isOk = true := by
  decide +kernel

end OraiV3
