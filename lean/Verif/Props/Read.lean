import Verif.Lemmas.Read
import Verif.Props.Listings

/-!
# C84: a pool can be read completely from outside
-/

namespace OraiV3

/-- In every reachable state, at most five queries of the tickmap give all of it: decoded, the ticks at which a position of the
pool begins or ends, in ascending order. -/
theorem C84_tickmap {c : Chain} {s : Store} (hr : Reach c s) {k : PoolKey} (hk : k.wf) {p : Pool} (hp : s.pools.get? k.key = some p) :
    ∃ chunks, readTickmap s k 5 (getMinTick k.tier.spacing) = .ok chunks ∧
      (decodeTickmap k.tier.spacing chunks).Pairwise (· < ·) ∧
      ∀ i, i ∈ decodeTickmap k.tier.spacing chunks ↔ UsedTick s k i := by
  have ht := hr.mreach.struct.tier hk hp
  have hh := halfTicks_le k.tier.spacing
  obtain ⟨l, h1, h2, h3, h4⟩ := readTickmap_spec (s := s) (k := k) ht.1 5 (c0 := 0) (getMinTick_ok ht.1)
    (by rw [bitOfTick_min ht.1]) (by rw [getMaxChunk_eq ht.1]; omega)
  refine ⟨l, h1, decode_sorted ht.1 h2, fun i => ?_⟩
  rw [mem_decode]
  constructor
  · rintro ⟨e, he, b, hb, hbit, rfl⟩
    obtain ⟨-, a2, a3⟩ := h3 e he
    rw [a3] at hbit
    exact ((chunk_bit hr hk hp a2).1 hbit).2
  · intro hu
    obtain ⟨q, hq1, hq2⟩ := hu
    have hv : ValidTick k.tier.spacing i := validTick_iff.2 (usedTick_ok hr.mreach.struct ⟨q, hq1, hq2⟩)
    obtain ⟨pos, -, b1, b2, b3⟩ := C48_back hv
    have hbit := (chunk_bit hr hk hp b1 (b := pos.2)).2 ⟨b2, by rw [b3]; exact ⟨q, hq1, hq2⟩⟩
    rw [← h4 pos.1 (Nat.zero_le _) b1] at hbit
    have hnd : (l.map (·.1)).Nodup := by
      unfold List.Nodup
      rw [List.pairwise_map]
      exact h2.imp (fun {a b} hab => Nat.ne_of_lt hab)
    obtain ⟨v, hv1, hv2⟩ := (tickmapOf_eq hnd pos.1 pos.2).1 hbit
    exact ⟨_, hv1, pos.2, b2, hv2, b3⟩

/-- Queries of the size that the library gives return the liquidity of all ticks in use, however many: one entry for each, in the order asked for, with
the liquidity the open positions add and take away there. -/
theorem C84_ticks {c : Chain} {s : Store} (hr : Reach c s) {k : PoolKey} (hk : k.wf) {idx : List Int} {n : Nat}
    (hu : ∀ i ∈ idx, UsedTick s k i) (hn : idx.length ≤ clientLiquidityTicksLimit * n) :
    ∃ l, readTicks s k n idx = .ok l ∧ l.map (·.1) = idx ∧
      ∀ e ∈ l, (if e.2.2 then (e.2.1 : Int) else -e.2.1) = netAt s k e.1 := by
  have hs := hr.mreach.struct
  have hi : ∀ i ∈ idx, ∃ t, getTick s k i = .ok t ∧ t.index = i ∧ (if t.sign then (t.change : Int) else -t.change) = netAt s k i :=
    fun i hi => by
      have h32 := (usedTick_ok hs (hu i hi)).i32
      obtain ⟨h1, h2⟩ := C02_ticks_are_the_positions hr hk h32
      obtain ⟨t, ht⟩ := h1.2 (hu i hi)
      exact ⟨t, ht, (h2 t ht).1, (h2 t ht).2.2⟩
  rw [readTicks_eq n hn]
  clear hn hu
  induction idx with
  | nil => exact ⟨[], rfl, rfl, by simp⟩
  | cons i idx ih =>
    obtain ⟨l, h1, h2, h3⟩ := ih (fun j hj => hi j (by simp [hj]))
    obtain ⟨t, ht, e1, e2⟩ := hi i (by simp)
    refine ⟨(t.index, t.change, t.sign) :: l, ?_, by simp [h2, e1], fun e he => ?_⟩
    · rw [List.mapM_cons, h1]
      unfold tickEntry
      rw [ht]
      rfl
    · rcases List.mem_cons.1 he with rfl | he
      · simp only
        rw [e1]
        exact e2
      · exact h3 e he

/-- The whole chain: whoever reads the pool, the tickmap and the ticks through the queries, page by page, and puts them into the
library's simulation, gets exactly what the contract quotes for a trade and does when it is made (C11), unless more than 173 ticks
are crossed, in which case the simulation says so.  There is no limit on the number of positions or ticks. -/
theorem C84_simulation {c : Chain} {s : Store} (hr : Reach c s) {env : Env} {k : PoolKey} (hk : k.wf) {d b : Bool}
    {amount limit : Nat} {q : QuoteResult} (hq : queryQuote s env k d amount b limit = .ok q) :
    ∃ p chunks ticks r, queryPool s k.tokenX k.tokenY k.tier = .ok p ∧
      readTickmap s k 5 (getMinTick k.tier.spacing) = .ok chunks ∧
      readTicks s k ((decodeTickmap k.tier.spacing chunks).length / clientLiquidityTicksLimit + 1)
        (decodeTickmap k.tier.spacing chunks) = .ok ticks ∧
      simulateSwap (tickmapOf chunks) k.tier ⟨p.liquidity, p.sqrtPrice, p.tick⟩ (ticks.map fun t => ⟨t.1, t.2.1, t.2.2⟩) d amount b limit
        = .ok r ∧
      (r.maxCrossed = true ↔ 173 < q.ticks.length) ∧
      (r.maxCrossed = false → r.totalIn = q.amountIn ∧ r.totalOut = q.amountOut ∧ r.pool.sqrtPrice = q.targetPrice ∧
        r.insufficient = false ∧ r.outdated = false ∧ r.remaining = 0 ∧
        r.crossed = q.ticks.map (fun t => ⟨t.index, t.change, t.sign⟩)) := by
  have hs := hr.mreach.struct
  obtain ⟨p, hp⟩ : ∃ p, s.pools.get? k.key = some p := by
    unfold queryQuote at hq
    rw [bind_ok] at hq
    obtain ⟨res, h1, _⟩ := hq
    obtain ⟨pool, st, _, hp', _⟩ := calculateSwap_inv h1
    exact ⟨pool, hp'⟩
  obtain ⟨chunks, h1, h2, h3⟩ := C84_tickmap hr hk hp
  have hlen : (decodeTickmap k.tier.spacing chunks).length ≤
      780 * ((decodeTickmap k.tier.spacing chunks).length / clientLiquidityTicksLimit + 1) := by
    have : clientLiquidityTicksLimit = 780 := rfl
    rw [this]
    omega
  obtain ⟨ticks, h4, h5, -⟩ := C84_ticks hr hk (fun i hi => (h3 i).1 hi) hlen
  have hall : ∀ ch, ch ≤ getMaxChunk k.tier.spacing → tickmapOf chunks ch = getChunk s k ch := by
    have ht := hs.tier hk hp
    have hh := halfTicks_le k.tier.spacing
    obtain ⟨l, g1, -, -, g4⟩ := readTickmap_spec (s := s) (k := k) ht.1 5 (c0 := 0) (getMinTick_ok ht.1)
      (by rw [bitOfTick_min ht.1]) (by rw [getMaxChunk_eq ht.1]; omega)
    rw [h1, ok_inj] at g1
    subst g1
    exact fun ch h => g4 ch (Nat.zero_le _) h
  have hfind : ∀ i t, -MAX_TICK ≤ i → i ≤ MAX_TICK → s.ticks.get? (tickKey k i) = some t →
      (ticks.map fun t => (⟨t.1, t.2.1, t.2.2⟩ : LTick)).find? (fun x => x.index = i) = some ⟨t.index, t.change, t.sign⟩ := by
    intro i t g1 g2 hg
    have hi32 : i32 i := by
      unfold i32
      have : MAX_TICK = 221818 := rfl
      omega
    have hu := (C02_ticks_are_the_positions hr hk hi32).1.1 ⟨t, getTick_ok.2 hg⟩
    rw [readTicks_eq _ hlen] at h4
    exact find_entry hs hk (fun j hj => (usedTick_ok hs ((h3 j).1 hj)).i32) h4 ((h3 i).2 hu) hg
  obtain ⟨r, h6⟩ := C36_simulation hp hall hfind hq
  exact ⟨p, chunks, ticks, r, queryPool_of_key hs hk hp, h1, h4, h6⟩

/-- A pool with ticks in use at -20, 10 and 30, and a trade that crosses one of them. -/
example : let s := Demo.state Demo.chain Demo.shared
    Demo.works Demo.chain Demo.shared = true ∧ Demo.key.wf ∧
    (readTickmap s Demo.key 5 (getMinTick 10)).toOption.map (decodeTickmap 10) = some [-20, 10, 30] ∧
    (readTicks s Demo.key 1 [-20, 10, 30]).toOption = some [(-20, 10 ^ 13, true), (10, 990000000000000, true), (30, 10 ^ 15, false)] ∧
    (queryQuote s Demo.env Demo.key false 100000 true MAX_SQRT_PRICE).toOption.map (fun q => q.ticks.length) = some 1 := by
  decide +kernel

/-!
# C85: the library's page sizes are the contract's
-/

theorem entries_error {s : Store} {k : PoolKey} : ∀ {idx : List Int}, idx.mapM (tickEntry s k) ≠ .error .tickLimitReached
  | [] => nofun
  | i :: idx => by
    rw [List.mapM_cons]
    unfold tickEntry getTick
    cases s.ticks.get? (tickKey k i) with
    | none => nofun
    | some t =>
      intro h
      refine entries_error (s := s) (k := k) (idx := idx) ?_
      cases hm : idx.mapM (tickEntry s k) with
      | error e =>
        change (idx.mapM (tickEntry s k) >>= _) = _ at h
        rw [hm] at h
        exact h
      | ok l =>
        change (idx.mapM (tickEntry s k) >>= _) = _ at h
        rw [hm] at h
        cases h

/-- The sizes for the tickmap and for ticks are right.  A page of the tickmap never has more chunks, and with fewer it shows all
initialized ticks between the ends asked for.  A query of more ticks is always refused, a query of so many or fewer never for
being too long.
Missing: the sizes for listings of pools, see `C85_false`. -/
theorem C85_sizes_partial (s : Store) (k : PoolKey) :
    (∀ lower upper d l, queryTickmap s k lower upper d = .ok l → l.length ≤ clientMaxTickmapQuerySize ∧
      (l.length < clientMaxTickmapQuerySize → ∀ i, ValidTick k.tier.spacing i → lower ≤ i → i ≤ upper →
        (ShownIn l k.tier.spacing i ↔ Initialized s k i))) ∧
    ∀ idx : List Int, queryLiquidityTicks s k idx = .error .tickLimitReached ↔ clientLiquidityTicksLimit < idx.length := by
  refine ⟨fun lower upper d l h => ?_, fun idx => ?_⟩
  · obtain ⟨h1, -, h3⟩ := C43_tickmap h
    exact ⟨h1, fun hl i hi a b => h3 i hi a b (.inl hl)⟩
  · unfold queryLiquidityTicks
    by_cases hd : idx.length > 131072 / 168
    · rw [if_pos hd]
      exact ⟨fun _ => hd, fun _ => rfl⟩
    · rw [if_neg hd]
      exact ⟨fun h => absurd h entries_error, fun h => absurd h hd⟩

/-- The second bound is attained. -/
example : clientMaxTickmapQuerySize = 1638 ∧ clientLiquidityTicksLimit = 780 ∧
    (queryLiquidityTicks (Demo.state Demo.chain Demo.shared) Demo.key (List.replicate 780 10)).isOk = true ∧
    (queryLiquidityTicks (Demo.state Demo.chain Demo.shared) Demo.key (List.replicate 781 10)).isOk = false := by decide +kernel

namespace Demo

/-- Alice creates 101 pools for the token `a` and another token each. -/
def manyPools : List (Info × Msg) := (by_ alice, .addFeeTier tier) ::
  (List.range 101).map fun (i : Nat) => (by_ alice, .createPool [97] [98, Fin.ofNat 256 i] tier (10 ^ 24) 0)

theorem manyPools_works : works chain manyPools = true := by decide +kernel

end Demo

/-- The sizes for listings of pools are wrong: the library gives 220 and 126, the contract never returns more than 100.
Reading pages as long as they are full stops after the first page, and of 101 pools one is not seen. -/
theorem C85_false : ∀ size ∈ [clientMaxPoolKeysReturned, clientMaxPoolPairsReturned], ∃ s l k p, Reach Demo.chain s ∧
    readFullPages s size 10 none = .ok l ∧ k.wf ∧ s.pools.get? k.key = some p ∧ k ∉ l.map (·.1) := by
  intro size hsize
  have h : ([clientMaxPoolKeysReturned, clientMaxPoolPairsReturned].all fun size =>
      match readFullPages (Demo.state Demo.chain Demo.manyPools) size 10 none with
      | .ok l => (((Demo.state Demo.chain Demo.manyPools).pools.get? (PoolKey.key ⟨[97], [98, 100], Demo.tier⟩)).isSome &&
          decide (PoolKey.wf ⟨[97], [98, 100], Demo.tier⟩) &&
          decide ((⟨[97], [98, 100], Demo.tier⟩ : PoolKey) ∉ l.map (·.1)))
      | .error _ => false) = true := by decide +kernel
  rw [List.all_eq_true] at h
  have h := h size hsize
  split at h
  · rename_i l hl
    simp only [Bool.and_eq_true, decide_eq_true_eq] at h
    obtain ⟨⟨h1, h2⟩, h3⟩ := h
    obtain ⟨p, hp⟩ := Option.isSome_iff_exists.1 h1
    exact ⟨_, l, _, p, Demo.state_reach Demo.manyPools_works, hl, h2, hp, h3⟩
  · cases h

end OraiV3
