import Verif.Lemmas.Sim
import Verif.Lemmas.OpenClose
import Verif.Props.Tickmap

/-!
# C36: the client's simulation agrees with the contract
-/

namespace OraiV3

/-- **C36.** Whenever the contract's quote succeeds, the simulation on the same pool, ticks and tickmap (as far as the pool
has chunks) succeeds.  It gives up on the way (`max_ticks_crossed`) exactly if more than 173 ticks are crossed; otherwise it
reports no problem, the same amounts, the same price at the end and the same ticks. -/
theorem C36_simulation {s : Store} {env : Env} {k : PoolKey} {d : Bool} {amount : Nat} {b : Bool} {limit : Nat} {p : Pool}
    {bm : Nat → Nat} {ticks : List LTick} {q : QuoteResult} (hp : s.pools.get? k.key = some p)
    (hbm : ∀ c, c ≤ getMaxChunk k.tier.spacing → bm c = getChunk s k c)
    (ht : ∀ i t, -MAX_TICK ≤ i → i ≤ MAX_TICK → s.ticks.get? (tickKey k i) = some t →
      ticks.find? (fun x => x.index = i) = some ⟨t.index, t.change, t.sign⟩)
    (hq : queryQuote s env k d amount b limit = .ok q) :
    ∃ r, simulateSwap bm k.tier ⟨p.liquidity, p.sqrtPrice, p.tick⟩ ticks d amount b limit = .ok r ∧
      (r.maxCrossed = true ↔ 173 < q.ticks.length) ∧
      (r.maxCrossed = false → r.totalIn = q.amountIn ∧ r.totalOut = q.amountOut ∧ r.pool.sqrtPrice = q.targetPrice ∧
        r.insufficient = false ∧ r.outdated = false ∧ r.remaining = 0 ∧
        r.crossed = q.ticks.map (fun t => ⟨t.index, t.change, t.sign⟩)) := by
  unfold queryQuote at hq
  simp only [bind_ok, pure_ok] at hq
  obtain ⟨res, h1, rfl⟩ := hq
  obtain ⟨pool, st, ha, hp', hsp, hlim, hl, hout, rfl⟩ := calculateSwap_inv h1
  rw [hp, Option.some.injEq] at hp'
  subst hp'
  have hr0 : SimRel { pool := p, remaining := amount, totalIn := 0, totalOut := 0, fee := 0, ticks := [] }
      ⟨⟨p.liquidity, p.sqrtPrice, p.tick⟩, amount, 0, 0, 0, [], false, false, false⟩ :=
    ⟨rfl, rfl, rfl, rfl, rfl, rfl, rfl, rfl, rfl, by simp, by simp⟩
  obtain ⟨r, h2, h3⟩ := swapLoop_sim (pr := ⟨k, d, b, limit, env.millis⟩) (ticks := ticks) hbm ht hr0 hl
  refine ⟨r, ?_, ?_⟩
  · unfold simulateSwap
    have hlim' : ¬ ((d = true ∧ (p.sqrtPrice ≤ limit ∨ limit > MAX_SQRT_PRICE)) ∨
        (¬ d = true ∧ (p.sqrtPrice ≥ limit ∨ limit < MIN_SQRT_PRICE))) := by
      split at hlim
      · rename_i hd
        rintro (⟨_, h | h⟩ | ⟨h, _⟩)
        · omega
        · omega
        · exact h hd
      · rename_i hd
        rintro (⟨h, _⟩ | ⟨_, h | h⟩)
        · exact hd h
        · omega
        · omega
    rw [if_neg ha, if_neg hlim', if_neg hsp]
    exact h2
  · have hz : st.remaining = 0 := (swapLoop_induct (fun _ => True) (fun _ _ _ _ _ => trivial) _ _ _ trivial hl).2
    rcases h3 with ⟨hm, hlen⟩ | h3
    · rw [hm]
      exact ⟨⟨fun _ => hlen, fun _ => rfl⟩, fun h => by cases h⟩
    · have hshort := h3.short
      rw [h3.maxCrossed]
      refine ⟨⟨fun h => (by cases h), fun h => ?_⟩, fun _ => ⟨h3.totalIn, h3.totalOut, ?_, h3.insufficient, h3.outdated,
        h3.remaining.trans hz, h3.crossed⟩⟩
      · simp only at h
        have : MAX_TICK_CROSS = 173 := rfl
        omega
      · rw [h3.pool]; rfl

theorem getMinTick_half' (ts : Nat) : getMinTick ts = -(halfTicks ts : Int) * ts := by
  unfold getMinTick
  rw [Int.neg_tdiv, max_tdiv]

theorem queryPool_of_key {s : Store} (hs : Struct s) {k : PoolKey} (hk : k.wf) {p0 : Pool} (h0 : s.pools.get? k.key = some p0) :
    queryPool s k.tokenX k.tokenY k.tier = .ok p0 := by
  obtain ⟨k', e, hk', _, hlt⟩ := hs.pools _ _ h0
  rw [← PoolKey.key_inj hk hk' e] at hlt
  have hne := hs.tokens_ne hk h0
  unfold queryPool PoolKey.new
  rw [if_neg hne, if_pos hlt, ok_bind]
  unfold getPool
  rw [h0]

theorem queryLiquidityTicks_mem {s : Store} {k : PoolKey} : ∀ {idx : List Int} {l : List (Int × Nat × Bool)},
    idx.mapM (fun i => do let t ← getTick s k i; pure (t.index, t.change, t.sign) : Int → M (Int × Nat × Bool)) = .ok l →
    (∀ i ∈ idx, ∃ t, s.ticks.get? (tickKey k i) = some t ∧ (t.index, t.change, t.sign) ∈ l) ∧
    ∀ e ∈ l, ∃ i ∈ idx, ∃ t, s.ticks.get? (tickKey k i) = some t ∧ e = (t.index, t.change, t.sign)
  | [], l, h => by
    simp only [List.mapM_nil, pure_ok] at h
    subst h
    simp
  | i :: idx, l, h => by
    simp only [List.mapM_cons, bind_ok, pure_ok] at h
    obtain ⟨e, ⟨t, h1, rfl⟩, l', h2, rfl⟩ := h
    obtain ⟨a, b⟩ := queryLiquidityTicks_mem h2
    have ht : s.ticks.get? (tickKey k i) = some t := by
      unfold getTick at h1
      split at h1
      · rename_i t' h; rw [ok_inj] at h1; rw [h, h1]
      · cases h1
    constructor
    · intro j hj
      rcases List.mem_cons.1 hj with rfl | hj
      · exact ⟨t, ht, by simp⟩
      · obtain ⟨t', h3, h4⟩ := a j hj
        exact ⟨t', h3, by simp [h4]⟩
    · intro e he
      rcases List.mem_cons.1 he with rfl | he
      · exact ⟨i, by simp, t, ht, rfl⟩
      · obtain ⟨j, hj, t', h3, h4⟩ := b e he
        exact ⟨j, by simp [hj], t', h3, h4⟩

/-- **C36**, from what the queries return: the tickmap from `Tickmap` over the whole range (if it fits one page), the ticks from
`LiquidityTicks` for a list of indexes containing the initialized ones. -/
theorem C36_from_queries {c : Chain} {s : Store} (hr : Reach c s) {env : Env} {k : PoolKey} (hk : k.wf) {d d' : Bool} {amount : Nat}
    {b : Bool} {limit : Nat} {p : Pool} {chunks : List (Nat × Nat)} {idx : List Int} {l : List (Int × Nat × Bool)} {q : QuoteResult}
    (hp : queryPool s k.tokenX k.tokenY k.tier = .ok p)
    (hm : queryTickmap s k (getMinTick k.tier.spacing) (getMaxTick k.tier.spacing) d' = .ok chunks) (hpage : chunks.length < 1638)
    (hl : queryLiquidityTicks s k idx = .ok l) (hi : ∀ i ∈ idx, i32 i)
    (hidx : ∀ i, ValidTick k.tier.spacing i → Initialized s k i → i ∈ idx)
    (hq : queryQuote s env k d amount b limit = .ok q) :
    ∃ r, simulateSwap (tickmapOf chunks) k.tier ⟨p.liquidity, p.sqrtPrice, p.tick⟩ (l.map fun t => ⟨t.1, t.2.1, t.2.2⟩) d amount b limit
        = .ok r ∧
      (r.maxCrossed = true ↔ 173 < q.ticks.length) ∧
      (r.maxCrossed = false → r.totalIn = q.amountIn ∧ r.totalOut = q.amountOut ∧ r.pool.sqrtPrice = q.targetPrice ∧
        r.insufficient = false ∧ r.outdated = false ∧ r.remaining = 0 ∧
        r.crossed = q.ticks.map (fun t => ⟨t.index, t.change, t.sign⟩)) := by
  have hs := hr.mreach.struct
  obtain ⟨pool, hpool⟩ : ∃ pool, s.pools.get? k.key = some pool := by
    unfold queryQuote at hq
    simp only [bind_ok] at hq
    obtain ⟨res, h1, _⟩ := hq
    obtain ⟨pool, st, _, hp', _⟩ := calculateSwap_inv h1
    exact ⟨pool, hp'⟩
  rw [queryPool_of_key hs hk hpool, ok_inj] at hp
  subst hp
  refine C36_simulation hpool (fun ch hch => ?_) (fun i t h1 h2 hg => ?_) hq
  · obtain ⟨h0, _, _, _, h4⟩ := queryTickmap_view hm
    refine h4 ch ?_ ?_ (.inl hpage)
    · have : bitOfTick k.tier.spacing (getMinTick k.tier.spacing) = 0 := by
        unfold bitOfTick
        rw [getMinTick_half', Int.mul_ediv_cancel _ (by omega)]
        omega
      rw [this]
      omega
    · have : bitOfTick k.tier.spacing (getMaxTick k.tier.spacing) = 2 * halfTicks k.tier.spacing := by
        unfold bitOfTick
        rw [getMaxTick_half, Int.mul_ediv_cancel _ (by omega)]
        omega
      rw [this, ← getMaxChunk_eq h0]
      exact hch
  · have hi32 : i32 i := by
      unfold i32
      have : MAX_TICK = 221818 := rfl
      omega
    obtain ⟨e1, hrec⟩ := hs.tick hk hi32 hg
    have hv : ValidTick k.tier.spacing i := validTick_iff.2 (e1 ▸ hrec.ok)
    have hini : Initialized s k i :=
      (C02_tickmap_is_the_positions hr hk hpool hv).2
        ((C02_ticks_are_the_positions hr hk hi32).1.1 ⟨t, by unfold getTick; rw [hg]⟩)
    unfold queryLiquidityTicks at hl
    rw [ite_error_ok] at hl
    obtain ⟨a, b⟩ := queryLiquidityTicks_mem hl.2
    obtain ⟨t', h3, h4⟩ := a i (hidx i hv hini)
    rw [hg, Option.some.injEq] at h3
    subst h3
    cases hf : (l.map fun t => (⟨t.1, t.2.1, t.2.2⟩ : LTick)).find? (fun x => x.index = i) with
    | none =>
      rw [List.find?_eq_none] at hf
      have := hf ⟨t.index, t.change, t.sign⟩ (List.mem_map.2 ⟨_, h4, rfl⟩)
      simp [e1] at this
    | some x =>
      have h5 := List.mem_of_find?_eq_some hf
      have h6 : x.index = i := by simpa using List.find?_some hf
      obtain ⟨e, h7, rfl⟩ := List.mem_map.1 h5
      obtain ⟨j, hj, t', h8, rfl⟩ := b e h7
      have h9 := (hs.tick hk (hi j hj) h8).1
      simp only at h6
      have : j = i := by omega
      subst this
      rw [hg, Option.some.injEq] at h8
      subst h8
      rfl

/-- The hypotheses are met, with a swap that crosses a tick; the simulation gives the same. -/
example : let s := Demo.state Demo.chain Demo.shared
    (queryPool s [97] [98] Demo.tier).toOption.map (fun p => (p.liquidity, p.sqrtPrice, p.tick)) = some (10 ^ 13, 10 ^ 24, 0) ∧
    (queryLiquidityTicks s Demo.key [-20, 10, 30]).toOption =
      some [(-20, 10 ^ 13, true), (10, 990000000000000, true), (30, 10 ^ 15, false)] ∧
    (queryQuote s Demo.env Demo.key false 100000 true MAX_SQRT_PRICE).toOption.map
      (fun q => (q.amountIn, q.amountOut, q.targetPrice, q.ticks.length)) = some (100000, 98892, 1000594097010000000000000, 1) ∧
    (simulateSwap (tickmapOf [(346, 2 ^ 35 + 2 ^ 38 + 2 ^ 40)]) Demo.tier ⟨10 ^ 13, 10 ^ 24, 0⟩
      [⟨-20, 10 ^ 13, true⟩, ⟨10, 990000000000000, true⟩, ⟨30, 10 ^ 15, false⟩] false 100000 true MAX_SQRT_PRICE).toOption.map
      (fun r => (r.totalIn, r.totalOut, r.pool.sqrtPrice, r.crossed.length, r.maxCrossed)) =
        some (100000, 98892, 1000594097010000000000000, 1, false) := by decide +kernel

end OraiV3
