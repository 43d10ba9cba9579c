import Verif.Lemmas.RoundTrip
import Verif.Lemmas.Raw
import Verif.StrategySpec

/-!
# What a group of accounts can take out of a pool
-/

namespace OraiV3

/-! ## The positions of the group and of the others -/

/-- The account whose list a position id belongs to. -/
def holderOf (id : Bytes) : Bytes := id.take (id.length - 4)

theorem holderOf_key (a : Bytes) (i : Nat) : holderOf (positionKey a i) = a := by
  unfold holderOf positionKey
  rw [List.length_append, beBytes_length, Nat.add_sub_cancel, List.take_left']
  rfl

/-- The positions of pool `k` held by `G`, in the order of storage. -/
def own (s : Store) (G : List Bytes) (k : PoolKey) : List Position :=
  ((s.positions.entries.filter (fun e => decide (holderOf e.1 ∈ G))).map (·.2)).filter (fun q => decide (q.poolKey = k))

/-- The positions of pool `k` held by others. -/
def rest (s : Store) (G : List Bytes) (k : PoolKey) : List Position :=
  ((s.positions.entries.filter (fun e => !decide (holderOf e.1 ∈ G))).map (·.2)).filter (fun q => decide (q.poolKey = k))

theorem own_sublist (s : Store) (G : List Bytes) (k : PoolKey) : (own s G k).Sublist (positionsOf s k) :=
  List.Sublist.filter _ (List.Sublist.map _ (List.filter_sublist (l := s.positions.entries)))

theorem rest_sublist (s : Store) (G : List Bytes) (k : PoolKey) : (rest s G k).Sublist (positionsOf s k) :=
  List.Sublist.filter _ (List.Sublist.map _ (List.filter_sublist (l := s.positions.entries)))

theorem own_rest (s : Store) (G : List Bytes) (k : PoolKey) : (own s G k ++ rest s G k).Perm (positionsOf s k) := by
  unfold own rest positionsOf KV.vals
  rw [← List.filter_append, ← List.map_append]
  exact ((List.filter_append_perm _ _).map _).filter _

theorem rest_eq {s s' : Store} {G : List Bytes} (h : ∀ id, holderOf id ∉ G → s'.positions.get? id = s.positions.get? id) (k : PoolKey) :
    rest s' G k = rest s G k := by
  unfold rest
  congr 2
  refine sorted_ext (List.Pairwise.filter _ s'.positions.sorted) (List.Pairwise.filter _ s.positions.sorted) (fun id v => ?_)
  rw [List.mem_filter, List.mem_filter, KV.mem_entries_iff, KV.mem_entries_iff]
  constructor
  · rintro ⟨h1, h2⟩
    refine ⟨?_, h2⟩
    rw [← h id (by simpa using h2)]
    exact h1
  · rintro ⟨h1, h2⟩
    refine ⟨?_, h2⟩
    rw [h id (by simpa using h2)]
    exact h1

theorem own_congr {s s' : Store} (h : s'.positions = s.positions) (G : List Bytes) (k : PoolKey) : own s' G k = own s G k := by
  unfold own; rw [h]

/-- A position more, if the others' are the same. -/
theorem own_cons {s s' : Store} {G : List Bytes} {k : PoolKey} {p : Position} (h : s'.positions.vals.Perm (p :: s.positions.vals))
    (hk : p.poolKey = k) (hr : rest s' G k = rest s G k) : (own s' G k).Perm (p :: own s G k) := by
  have h1 := own_rest s G k
  have h2 := own_rest s' G k
  have h3 : (positionsOf s' k).Perm (p :: positionsOf s k) := by
    have := h.filter (fun q => decide (q.poolKey = k))
    rwa [List.filter_cons, if_pos (by simp [hk])] at this
  rw [hr] at h2
  have h4 := h2.trans (h3.trans ((h1.symm).cons p))
  rw [← List.cons_append] at h4
  exact (List.perm_append_right_iff _).1 h4

/-- A position in place of another, if the others' are the same. -/
theorem own_edit {s s' : Store} {G : List Bytes} {k : PoolKey} {id : Bytes} {p p' : Position} (hp : s.positions.get? id = some p)
    (h : s'.positions = s.positions.insert id p') (hk : p.poolKey = k) (hk' : p'.poolKey = k) (hg : holderOf id ∈ G) :
    (∀ k', rest s' G k' = rest s G k') ∧ ∃ l, (own s G k).Perm (p :: l) ∧ (own s' G k).Perm (p' :: l) := by
  have hr : ∀ k', rest s' G k' = rest s G k' := rest_eq (fun j hj => by
    rw [h, KV.get?_insert, if_neg (fun e => hj (by rw [e]; exact hg))])
  refine ⟨hr, ?_⟩
  have hmem : p ∈ own s G k := by
    unfold own
    rw [List.mem_filter, List.mem_map]
    exact ⟨⟨(id, p), List.mem_filter.2 ⟨(KV.mem_entries_iff _ _ _).2 hp, by simpa using hg⟩, rfl⟩, by simp [hk]⟩
  obtain ⟨l, hl⟩ : ∃ l, (own s G k).Perm (p :: l) := by
    obtain ⟨a, b, e⟩ := List.append_of_mem hmem
    exact ⟨a ++ b, e ▸ List.perm_middle⟩
  refine ⟨l, hl, ?_⟩
  obtain ⟨m, b1, b2⟩ := updatePosition_vals (p' := p') hp
  rw [← h] at b2
  have c1 : (positionsOf s k).Perm (p :: m.filter (fun q => decide (q.poolKey = k))) := by
    have := b1.filter (fun q => decide (q.poolKey = k))
    rwa [List.filter_cons, if_pos (by simp [hk])] at this
  have c2 : (positionsOf s' k).Perm (p' :: m.filter (fun q => decide (q.poolKey = k))) := by
    have := b2.filter (fun q => decide (q.poolKey = k))
    rwa [List.filter_cons, if_pos (by simp [hk'])] at this
  have h1 := own_rest s G k
  have h2 := own_rest s' G k
  rw [hr k] at h2
  have d1 : (l ++ rest s G k).Perm (m.filter (fun q => decide (q.poolKey = k))) := by
    have : (p :: (l ++ rest s G k)).Perm (p :: m.filter (fun q => decide (q.poolKey = k))) := by
      rw [← List.cons_append]
      exact ((List.Perm.append_right _ hl.symm).trans h1).trans c1
    exact (List.perm_cons p).1 this
  have d2 : (own s' G k ++ rest s G k).Perm ((p' :: l) ++ rest s G k) := by
    rw [List.cons_append]
    exact (h2.trans c2).trans (d1.symm.cons p')
  exact (List.perm_append_right_iff _).1 d2

/-! ## What the pool has to keep -/

/-- The price of a pool. -/
def priceAt (s : Store) (k : PoolKey) : Nat :=
  match s.pools.get? k.key with
  | none => 0
  | some p => p.sqrtPrice

/-- What the others' positions consist of and what those of the group are worth. -/
def stake (s : Store) (G : List Bytes) (k : PoolKey) (z : Bool) : ℚ :=
  ((rest s G k).map (fun q => q.principal z (priceAt s k))).sum + ((own s G k).map (worth s z)).sum

/-- The others' positions are the same, and the stakes in one pool change by at most the given amounts. -/
structure Staked (s s' : Store) (G : List Bytes) (k : PoolKey) (dx dy : ℚ) : Prop where
  rest : ∀ k', rest s' G k' = rest s G k'
  x : stake s' G k true ≤ stake s G k true + dx
  y : stake s' G k false ≤ stake s G k false + dy
  wf : k.wf
  other : ∀ k', k'.wf → k' ≠ k → ∀ z, stake s' G k' z = stake s G k' z

theorem map_sum_congr {l : List Position} {f g : Position → ℚ} (h : ∀ q ∈ l, f q = g q) : (l.map f).sum = (l.map g).sum := by
  rw [List.map_congr_left h]

theorem priceAt_some {s : Store} {k : PoolKey} {p : Pool} (h : s.pools.get? k.key = some p) : priceAt s k = p.sqrtPrice := by
  unfold priceAt; rw [h]

/-- A pool whose record and positions are the same. -/
theorem stake_kept {s s' : Store} {G : List Bytes} {k : PoolKey} (hr : rest s' G k = rest s G k)
    (hpos : (positionsOf s' k).Perm (positionsOf s k)) (hp : s'.pools.get? k.key = s.pools.get? k.key)
    (hw : ∀ q ∈ positionsOf s k, ∀ z, worth s' z q = worth s z q) (z : Bool) : stake s' G k z = stake s G k z := by
  have ho : (own s' G k).Perm (own s G k) := by
    have h1 := own_rest s G k
    have h2 := own_rest s' G k
    rw [hr] at h2
    exact (List.perm_append_right_iff _).1 ((h2.trans hpos).trans h1.symm)
  unfold stake priceAt
  rw [hr, hp, perm_sumQ (ho.map _), map_sum_congr (fun q hq => hw q ((own_sublist s G k).subset hq) z)]

theorem Staked.create {c : Chain} {s s' : Store} {G : List Bytes} {env : Env} {info : Info} {k : PoolKey}
    {l u : Int} {L lo hi : Nat} {out : List OutMsg} (hs : Struct s) (hs' : Struct s') (hi' : PosInv s) (ht : TickSum s) (hpr : PriceInv s)
    (hg : info.sender ∈ G) (hw : (Msg.createPosition k l u L lo hi).wf)
    (h : createPosition c s env info k l u L lo hi = .ok (s', out)) :
    ∃ x y m1 m2, assetTransferFrom c k.tokenX x info = .ok m1 ∧ assetTransferFrom c k.tokenY y info = .ok m2 ∧ out = m1 ++ m2 ∧
      Staked s s' G k (x + 1 / 10 ^ 14) y ∧ k.tokenX ≠ k.tokenY := by
  obtain ⟨p, pool, pool', m1, m2, x, y, hwhat, hperm, hp, hpools, -, t1, t2, ho, hacc, wx, wy⟩ := create_owes hs hs' hi' hpr hw h
  have hpk : p.poolKey = k := by unfold Position.what at hwhat; exact (Prod.mk.inj hwhat).1
  obtain ⟨pool0, tl, tu, r, rl, _, _, hp0, _, _, _, _, _, _, _, _, _, _, _, hm, _, _, e3, e4, _, _, _, _, _, _⟩ := createPosition_view hs hw h
  have hrest : ∀ k', OraiV3.rest s' G k' = OraiV3.rest s G k' := rest_eq (fun id hid => by
    rw [e4, KV.get?_insert, if_neg (fun e => hid (by rw [e, holderOf_key]; exact hg))])
  have hprice : priceAt s' k = priceAt s k := by
    rw [priceAt_some hp0, priceAt_some (p := r.pool) (by rw [e3, KV.get?_insert_same])]
    exact (modify_liquidity hm).2.1
  have hown := own_cons (G := G) hperm hpk (hrest k)
  have hkept : ∀ z, ((own s G k).map (worth s' z)).sum = ((own s G k).map (worth s z)).sum := fun z =>
    map_sum_congr (fun q hq => (create_kept hs ht hw h (mem_positionsOf.1 ((own_sublist s G k).subset hq)).1 z).2)
  refine ⟨x, y, m1, m2, t1, t2, ho, ⟨hrest, ?_, ?_, hw.1, fun k' hk' hne => stake_kept (hrest k') ?_ ?_ ?_⟩, swap_tokens_ne hs hw.1 hp true⟩
  · unfold stake
    rw [hrest, hprice, perm_sumQ (hown.map _), List.map_cons, List.sum_cons, hkept]
    linarith
  · unfold stake
    rw [hrest, hprice, perm_sumQ (hown.map _), List.map_cons, List.sum_cons, hkept]
    linarith
  · have := hperm.filter (fun q => decide (q.poolKey = k'))
    rwa [List.filter_cons, if_neg (by simpa [hpk] using Ne.symm hne)] at this
  · rw [hpools, KV.get?_insert_other _ _ (key_ne hk' hw.1 hne)]
  · exact fun q hq z => (create_kept hs ht hw h (mem_positionsOf.1 hq).1 z).2

theorem Staked.claim {c : Chain} {s s' : Store} {G : List Bytes} {env : Env} {info : Info} {i : Nat} {out : List OutMsg} {k : PoolKey} {q : Position}
    (hs : Struct s) (hg : info.sender ∈ G) (hq : s.positions.get? (positionKey info.sender i) = some q) (hqk : q.poolKey = k)
    (h : claimFee c s env info i = .ok (s', out)) :
    ∃ x y, out = assetTransfer c k.tokenX x info ++ assetTransfer c k.tokenY y info ∧ Staked s s' G k (-(x : Nat)) (-(y : Nat)) ∧
      k.tokenX ≠ k.tokenY := by
  obtain ⟨pos, pos', pool, pool', hpos, hpos', hwhat, _, hp, hpools, he, ho, hacc, hworth⟩ := claim_owes hs h
  rw [hq, Option.some.injEq] at hpos
  subst hpos
  subst hqk
  have hok := hs.positions _ _ hq
  have hk := hok.kwf
  have hpk : pos'.poolKey = q.poolKey := by unfold Position.what at hwhat; exact (Prod.mk.inj hwhat).1
  obtain ⟨hrest, l, o1, o2⟩ := own_edit (G := G) hq hpos' rfl hpk (by rw [holderOf_key]; exact hg)
  have hprice : priceAt s' q.poolKey = priceAt s q.poolKey := by
    rw [priceAt_some hp, priceAt_some (p := pool') (by rw [hpools, KV.get?_insert_same]), he]
  have hkept : ∀ z, (l.map (worth s' z)).sum = (l.map (worth s z)).sum := fun z =>
    map_sum_congr (fun q' hq' => (claim_kept hs h (mem_positionsOf.1 ((own_sublist s G _).subset
      (o1.symm.subset (List.mem_cons_of_mem _ hq')))).1 z).2)
  have key : ∀ z, stake s' G q.poolKey z ≤ stake s G q.poolKey z + -((accrued s z q / 10 ^ 34 : Nat) : ℚ) := by
    intro z
    unfold stake
    rw [hrest, hprice, perm_sumQ (o1.map _), perm_sumQ (o2.map _), List.map_cons, List.map_cons, List.sum_cons, List.sum_cons, hkept]
    have := hworth z
    have := floor_le_q (accrued s z q)
    linarith
  refine ⟨_, _, ho, ⟨hrest, key true, key false, hk, fun k' hk' hne => stake_kept (hrest k') ?_ ?_ ?_⟩, swap_tokens_ne hs hk hp true⟩
  · obtain ⟨m, b1, b2⟩ := updatePosition_vals (p' := pos') hq
    rw [← hpos'] at b2
    have c1 := b1.filter (fun q' => decide (q'.poolKey = k'))
    have c2 := b2.filter (fun q' => decide (q'.poolKey = k'))
    rw [List.filter_cons, if_neg (by simpa using Ne.symm hne)] at c1
    rw [List.filter_cons, if_neg (by simpa [hpk] using Ne.symm hne)] at c2
    exact c2.trans c1.symm
  · rw [hpools, KV.get?_insert_other _ _ (key_ne hk' hk hne)]
  · exact fun q hq z => (claim_kept hs h (mem_positionsOf.1 hq).1 z).2

theorem Staked.remove {c : Chain} {s s' : Store} {G : List Bytes} {env : Env} {info : Info} {i : Nat} {out : List OutMsg} {k : PoolKey} {q : Position}
    (hs : Struct s) (hs' : Struct s') (hi : PosInv s) (ht' : TickSum s') (hpr : PriceInv s) (hw : i < U32)
    (hg : info.sender ∈ G) (hq : s.positions.get? (positionKey info.sender i) = some q) (hqk : q.poolKey = k)
    (h : removePosition c s env info i = .ok (s', out)) :
    ∃ x y, out = assetTransfer c k.tokenX x info ++ assetTransfer c k.tokenY y info ∧ Staked s s' G k (-(x : Nat)) (-(y : Nat)) ∧
      k.tokenX ≠ k.tokenY := by
  obtain ⟨pos, pool, pool', x, y, hpos, hperm, hp, hpools, hproto, ho, hx, hy⟩ := remove_owes hs hi hpr hw h
  rw [hq, Option.some.injEq] at hpos
  subst hpos
  subst hqk
  have hok := hs.positions _ _ hq
  obtain ⟨pos, tl, tu, pool0, r, sr, s1, s2, hpos, _, _, _, _, hp0, hm, _, _, _, _, _, _, hr, e1, e2, e3, e5, e6, _⟩ := removePosition_view hs h
  rw [hq, Option.some.injEq] at hpos
  subst hpos
  have hrest : ∀ k', OraiV3.rest s' G k' = OraiV3.rest s G k' := rest_eq (fun id hid => by
    rw [e6]
    cases hget : s.positions.get? id with
    | some v =>
      obtain ⟨o, j, rfl, -⟩ := hi.key _ _ hget
      rw [holderOf_key] at hid
      rw [(removePositionAt_other hr (o' := o) (fun e => hid (e ▸ hg))).2 j, hget]
    | none =>
      cases hget' : sr.positions.get? id with
      | none => rfl
      | some v =>
        have hi' := (PosInv.remove hi hw hr).2
        obtain ⟨o, j, rfl, -⟩ := hi'.key _ _ hget'
        rw [holderOf_key] at hid
        rw [(removePositionAt_other hr (o' := o) (fun e => hid (e ▸ hg))).2 j, hget] at hget'
        exact hget'.symm)
  have hprice : priceAt s' q.poolKey = priceAt s q.poolKey := by
    rw [priceAt_some hp0, priceAt_some (p := r.pool) (by rw [e5, KV.get?_insert_same])]
    exact (modify_liquidity hm).2.1
  have hown := own_cons (G := G) hperm rfl (hrest _).symm
  have hkept : ∀ z, ((own s' G q.poolKey).map (worth s' z)).sum = ((own s' G q.poolKey).map (worth s z)).sum := fun z =>
    map_sum_congr (fun q' hq' => (remove_kept hs hs' hi ht' hw h (mem_positionsOf.1 ((own_sublist s' G _).subset hq')).1 z).2)
  have key : ∀ z n, ((n : Nat) : ℚ) ≤ q.principal z pool.sqrtPrice →
      stake s' G q.poolKey z ≤ stake s G q.poolKey z + -((n + accrued s z q / 10 ^ 34 : Nat) : ℚ) := by
    intro z n hn
    unfold stake
    rw [hrest, hprice, perm_sumQ (hown.map _), List.map_cons, List.sum_cons, hkept]
    have := floor_le_q (accrued s z q)
    have e : worth s z q = q.principal z pool.sqrtPrice + (accrued s z q : ℚ) / 10 ^ 34 := by unfold worth; rw [hp]
    rw [e]
    push_cast
    linarith
  refine ⟨_, _, ho, ⟨hrest, key true x hx, key false y hy, hok.kwf, fun k' hk' hne => ?_⟩, swap_tokens_ne hs hok.kwf hp true⟩
  refine fun z => (stake_kept (s := s') (s' := s) (hrest k').symm ?_ ?_ ?_ z).symm
  · have := hperm.filter (fun q' => decide (q'.poolKey = k'))
    rwa [List.filter_cons, if_neg (by simpa using Ne.symm hne)] at this
  · rw [hpools, KV.get?_insert_other _ _ (key_ne hk' hok.kwf hne)]
  · exact fun q hq z => (remove_kept hs hs' hi ht' hw h (mem_positionsOf.1 hq).1 z).2.symm

/-- What some positions of a pool are worth: principal and fees. -/
theorem worth_part {s : Store} {k : PoolKey} {p : Pool} (hp : s.pools.get? k.key = some p) (x : Bool) {l : List Position}
    (hl : ∀ q ∈ l, q.poolKey = k) :
    (l.map (worth s x)).sum = (l.map (fun q => q.principal x p.sqrtPrice)).sum + ((l.map (accruedIn s.ticks p x)).sum : Nat) / 10 ^ 34 := by
  induction l with
  | nil => simp
  | cons q l ih =>
    have e : worth s x q = q.principal x p.sqrtPrice + (accruedIn s.ticks p x q : ℚ) / 10 ^ 34 := by
      unfold worth accrued
      rw [hl q (by simp), hp]
    simp only [List.map_cons, List.sum_cons]
    rw [ih (fun q hq => hl q (by simp [hq])), e]
    push_cast
    ring

theorem Staked.swap {c : Chain} {s : Store} {G : List Bytes} {info : Info} {now : Nat} {k : PoolKey} {d : Bool} {amount : Nat}
    {b : Bool} {limit : Nat} {x : Store × List OutMsg × CalcSwapResult} (hr : MReach c s) (ha : drift s k = 0) (hk : k.wf)
    (h : swapInternal c s info now k d amount b limit = .ok x) (hreg : RegularEnd x.1 k d b limit) :
    ∃ i o m1, assetTransferFrom c (tokenIn k d) i info = .ok m1 ∧ x.2.1 = m1 ++ assetTransfer c (tokenOut k d) o info ∧
      k.tokenX ≠ k.tokenY ∧
      (if d then Staked s x.1 G k (i + swapSteps s now k d amount b limit / 10 ^ 14) (-(o : Nat))
        else Staked s x.1 G k (-(o : Nat)) i) := by
  obtain ⟨s1, m1, h1, h2, h3, h4, h5⟩ := swapInternal_inv h
  obtain ⟨pool, st0, _, hp, _⟩ := calculateSwap_inv h1
  obtain ⟨t, e1⟩ := swapInternal_frame h
  have epos : x.1.positions = s.positions := by rw [e1]
  have hp' : x.1.pools.get? k.key = some x.2.2.pool := by rw [e1]; exact KV.get?_insert_same _ _ _
  have hrg := hreg x.2.2.pool hp'
  have hu : ∀ j, UsedTick x.1 k j ↔ UsedTick s k j := fun j => by unfold UsedTick positionsOf; rw [epos]
  rw [hu, hu] at hrg
  obtain ⟨Gr, left, st, hB, b1, b2, b3, b4, b5⟩ := swap_books hr.struct hr.bitInv hr.tickSum hk hp (hr.price k pool hk hp)
    (active_of ha hp) h1 hrg
  have htk : x.1.ticks = withTicks s.ticks k st.ticks := by
    rw [h3, b2, ← saveTicks_withTicks h2]
    rfl
  have hrest : ∀ k', OraiV3.rest x.1 G k' = OraiV3.rest s G k' := rest_eq (fun id _ => by rw [epos])
  have hown := own_congr epos G k
  have hmem : ∀ q ∈ own s G k, q.poolKey = k := fun q hq => (mem_positionsOf.1 ((own_sublist s G k).subset hq)).2
  -- principal of all positions, others and own
  have split : ∀ z P, sumQ s k (fun q => q.principal z P) =
      ((OraiV3.rest s G k).map (fun q => q.principal z P)).sum + ((own s G k).map (fun q => q.principal z P)).sum := by
    intro z P
    unfold sumQ
    rw [← perm_sumQ ((own_rest s G k).map _), List.map_append, List.sum_append]
    ring
  have st0 : ∀ z, stake s G k z = sumQ s k (fun q => q.principal z pool.sqrtPrice) +
      (((own s G k).map (accruedIn s.ticks pool z)).sum : Nat) / 10 ^ 34 := by
    intro z
    unfold stake
    rw [priceAt_some hp, worth_part hp z hmem, split]
    ring
  have st1 : ∀ z, stake x.1 G k z = sumQ s k (fun q => q.principal z x.2.2.pool.sqrtPrice) +
      (((own s G k).map (accruedIn (withTicks s.ticks k st.ticks) st.pool z)).sum : Nat) / 10 ^ 34 := by
    intro z
    unfold stake
    rw [priceAt_some hp', hrest, hown, worth_part hp' z hmem, split, htk, b1]
    ring
  have oin : stake x.1 G k d ≤ stake s G k d + (x.2.2.amountIn + swapSteps s now k d amount b limit * (if d then 1 / 10 ^ 14 else 0)) := by
    rw [st0, st1, ← b1, ← b3]
    have f := hB.parts _ (own_sublist s G k)
    have p := hB.pin
    have pr := hB.proto
    have f' : (((own s G k).map (accruedIn (withTicks s.ticks k st.ticks) st.pool d)).sum : Nat) ≤
      ((own s G k).map (accruedIn s.ticks pool d)).sum + (st.fee + left) * 10 ^ 34 := by
      generalize 10 ^ 34 = S at *
      nlinarith
    have f'' : ((((own s G k).map (accruedIn (withTicks s.ticks k st.ticks) st.pool d)).sum : Nat) : ℚ) ≤
      (((own s G k).map (accruedIn s.ticks pool d)).sum : Nat) + (st.fee + left) * 10 ^ 34 := by exact_mod_cast f'
    push_cast at p
    have f3 := (div_le_div_iff_of_pos_right (show (0:ℚ) < 10 ^ 34 by positivity)).2 f''
    rw [add_div, mul_div_assoc, div_self (by positivity), mul_one] at f3
    linarith
  have oout : stake x.1 G k (!d) ≤ stake s G k (!d) + -(x.2.2.amountOut : ℚ) := by
    rw [st0, st1, ← b1, ← b4]
    have p := hB.pout
    have e : (own s G k).map (accruedIn (withTicks s.ticks k st.ticks) st.pool (!d)) = (own s G k).map (accruedIn s.ticks pool (!d)) :=
      List.map_congr_left (fun q hq => by
        unfold accruedIn
        rw [hmem q hq, (hB.earn q ((own_sublist s G k).subset hq)).1])
    rw [e]
    linarith
  have oth : ∀ k', k'.wf → k' ≠ k → ∀ z, stake x.1 G k' z = stake s G k' z := fun k' hk' hne => by
    obtain ⟨f1, f2, _⟩ := swapInternal_frame' hk' hk hne h
    refine stake_kept (hrest k') (by unfold positionsOf; rw [epos]) f1 (fun q hq z => ?_)
    have e := (mem_positionsOf.1 hq).2
    exact (worth_same (by rw [e]; exact f1) (outAt_get (by rw [e]; exact f2 _) _) (outAt_get (by rw [e]; exact f2 _) _)).2
  refine ⟨x.2.2.amountIn, x.2.2.amountOut, m1, h4, h5, swap_tokens_ne hr.struct hk hp true, ?_⟩
  cases d
  · simp only [Bool.false_eq_true, if_false, Bool.not_false, mul_zero, add_zero] at oin oout ⊢
    exact ⟨hrest, oout, oin, hk, oth⟩
  · simp only [if_true, Bool.not_true] at oin oout ⊢
    exact ⟨hrest, by rw [div_eq_mul_one_div]; exact oin, oout, hk, oth⟩

/-! ## One call -/

/-- What a call leaves to the contract, in the token `t`. -/
def gainIn (c : Chain) (w w' : World) (t : Bytes) : ℚ :=
  (w'.ledger.bal (tokenAsset c t) c.self : ℚ) - w.ledger.bal (tokenAsset c t) c.self

theorem pay_gain {c : Chain} {w w' : World} {info : Info} (hne : info.sender ≠ c.self) {k : PoolKey} {x y : Nat} {out : List OutMsg}
    (ho : out = assetTransfer c k.tokenX x info ++ assetTransfer c k.tokenY y info) (hd : k.tokenX ≠ k.tokenY)
    (h : ∀ a b, (w'.ledger.bal a b : Int) = w.ledger.bal a b + fundsDelta c info.sender info.funds a b + outDelta c out a b) :
    -(x : ℚ) ≤ gainIn c w w' k.tokenX ∧ -(y : ℚ) ≤ gainIn c w w' k.tokenY ∧
      ∀ t, k.tokenX ≠ t → k.tokenY ≠ t → 0 ≤ gainIn c w w' t := by
  have key : ∀ t, -(if k.tokenX = t then (x : Int) else 0) - (if k.tokenY = t then (y : Int) else 0) ≤
      w'.ledger.bal (tokenAsset c t) c.self - w.ledger.bal (tokenAsset c t) c.self := by
    intro t
    have a := h (tokenAsset c t) c.self
    rw [ho, outDelta_append, pay_self _ _ hne, pay_self _ _ hne] at a
    have := fundsSelf_nonneg hne t
    omega
  have k1 := (Int.cast_le (R := ℚ)).2 (key k.tokenX)
  have k2 := (Int.cast_le (R := ℚ)).2 (key k.tokenY)
  rw [if_pos rfl, if_neg (Ne.symm hd)] at k1
  rw [if_neg hd, if_pos rfl] at k2
  push_cast at k1 k2
  unfold gainIn
  refine ⟨by linarith, by linarith, fun t h1 h2 => ?_⟩
  have k3 := (Int.cast_le (R := ℚ)).2 (key t)
  rw [if_neg h1, if_neg h2] at k3
  push_cast at k3
  linarith

theorem charge_gain {c : Chain} {w w' : World} {info : Info} (hne : info.sender ≠ c.self) {k : PoolKey} {x y : Nat} {m1 m2 : List OutMsg}
    (h1 : assetTransferFrom c k.tokenX x info = .ok m1) (h2 : assetTransferFrom c k.tokenY y info = .ok m2) (hd : k.tokenX ≠ k.tokenY)
    (h : ∀ a b, (w'.ledger.bal a b : Int) = w.ledger.bal a b + fundsDelta c info.sender info.funds a b + outDelta c (m1 ++ m2) a b) :
    (x : ℚ) ≤ gainIn c w w' k.tokenX ∧ (y : ℚ) ≤ gainIn c w w' k.tokenY ∧
      ∀ t, k.tokenX ≠ t → k.tokenY ≠ t → 0 ≤ gainIn c w w' t := by
  have kx : (x : Int) ≤ w'.ledger.bal (tokenAsset c k.tokenX) c.self - w.ledger.bal (tokenAsset c k.tokenX) c.self := by
    have a := h (tokenAsset c k.tokenX) c.self
    have c1 := charge_self hne h1 k.tokenX
    have c2 := charge_self hne h2 k.tokenX
    rw [outDelta_append, funds_self hne] at a
    rw [if_neg (Ne.symm hd), if_neg (fun e => hd e.1.symm)] at c2
    rw [if_pos rfl] at c1
    simp only [true_and] at c1
    split_ifs at a c1 <;> omega
  have ky : (y : Int) ≤ w'.ledger.bal (tokenAsset c k.tokenY) c.self - w.ledger.bal (tokenAsset c k.tokenY) c.self := by
    have a := h (tokenAsset c k.tokenY) c.self
    have c1 := charge_self hne h1 k.tokenY
    have c2 := charge_self hne h2 k.tokenY
    rw [outDelta_append, funds_self hne] at a
    rw [if_neg hd, if_neg (fun e => hd e.1)] at c1
    rw [if_pos rfl] at c2
    simp only [true_and] at c2
    split_ifs at a c2 <;> omega
  have k1 := (Int.cast_le (R := ℚ)).2 kx
  have k2 := (Int.cast_le (R := ℚ)).2 ky
  push_cast at k1 k2
  unfold gainIn
  refine ⟨k1, k2, fun t e1 e2 => ?_⟩
  have a := h (tokenAsset c t) c.self
  have c1 := charge_self hne h1 t
  have c2 := charge_self hne h2 t
  have c3 := fundsSelf_nonneg hne t
  rw [if_neg e1, if_neg (fun e => e1 e.1)] at c1
  rw [if_neg e2, if_neg (fun e => e2 e.1)] at c2
  rw [outDelta_append] at a
  have : (w.ledger.bal (tokenAsset c t) c.self : Int) ≤ w'.ledger.bal (tokenAsset c t) c.self := by omega
  have := (Int.cast_le (R := ℚ)).2 this
  push_cast at this
  linarith

theorem swap_gain_in {c : Chain} {w w' : World} {info : Info} (hne : info.sender ≠ c.self) {k : PoolKey} {d : Bool} {i o : Nat} {m1 : List OutMsg}
    (h1 : assetTransferFrom c (tokenIn k d) i info = .ok m1) (hd : k.tokenX ≠ k.tokenY)
    (h : ∀ a b, (w'.ledger.bal a b : Int) = w.ledger.bal a b + fundsDelta c info.sender info.funds a b +
      outDelta c (m1 ++ assetTransfer c (tokenOut k d) o info) a b) :
    (i : ℚ) ≤ gainIn c w w' (tokenIn k d) ∧ -(o : ℚ) ≤ gainIn c w w' (tokenOut k d) ∧
      ∀ t, tokenIn k d ≠ t → tokenOut k d ≠ t → 0 ≤ gainIn c w w' t := by
  have hd' : tokenIn k d ≠ tokenOut k d := by
    cases d
    · exact Ne.symm hd
    · exact hd
  have kx : (i : Int) ≤ w'.ledger.bal (tokenAsset c (tokenIn k d)) c.self - w.ledger.bal (tokenAsset c (tokenIn k d)) c.self := by
    have a := h (tokenAsset c (tokenIn k d)) c.self
    have c1 := charge_self hne h1 (tokenIn k d)
    rw [outDelta_append, funds_self hne, pay_self _ _ hne, if_neg (Ne.symm hd')] at a
    rw [if_pos rfl] at c1
    simp only [true_and] at c1
    split_ifs at a c1 <;> omega
  have ky : -(o : Int) ≤ w'.ledger.bal (tokenAsset c (tokenOut k d)) c.self - w.ledger.bal (tokenAsset c (tokenOut k d)) c.self := by
    have a := h (tokenAsset c (tokenOut k d)) c.self
    have c1 := charge_self hne h1 (tokenOut k d)
    have c2 := fundsSelf_nonneg hne (tokenOut k d)
    rw [outDelta_append, pay_self _ _ hne, if_pos rfl] at a
    rw [if_neg hd', if_neg (fun e => hd' e.1)] at c1
    omega
  have k1 := (Int.cast_le (R := ℚ)).2 kx
  have k2 := (Int.cast_le (R := ℚ)).2 ky
  push_cast at k1 k2
  unfold gainIn
  refine ⟨k1, k2, fun t e1 e2 => ?_⟩
  have a := h (tokenAsset c t) c.self
  have c1 := charge_self hne h1 t
  have c3 := fundsSelf_nonneg hne t
  rw [if_neg e1, if_neg (fun e => e1 e.1)] at c1
  rw [outDelta_append, pay_self _ _ hne, if_neg e2] at a
  have : (w.ledger.bal (tokenAsset c t) c.self : Int) ≤ w'.ledger.bal (tokenAsset c t) c.self := by omega
  have := (Int.cast_le (R := ℚ)).2 this
  push_cast at this
  linarith

theorem held_get {s : Store} {a : Bytes} {i : Nat} {q : Position} (h : (positionList s a)[i]? = some (some q)) :
    s.positions.get? (positionKey a i) = some q := by
  rw [positionList_getElem?] at h
  split at h
  · simpa using h
  · simp at h

theorem Staked.mono {s s' : Store} {G : List Bytes} {k : PoolKey} {dx dy ex ey : ℚ} (h : Staked s s' G k dx dy) (hx : dx ≤ ex) (hy : dy ≤ ey) :
    Staked s s' G k ex ey := ⟨h.rest, h.x.trans (by linarith), h.y.trans (by linarith), h.wf, h.other⟩

theorem strategy_step {c : Chain} {w w' : World} {G : List Bytes} {k : PoolKey} {env : Env} {info : Info} {msg : Msg}
    (hr : Reach c w.store) (hdr : drift w.store k = 0) (hne : info.sender ≠ c.self) (hg : info.sender ∈ G) (h : w.tx c env info msg = .ok w')
    (ha : ActsIn w.store k info.sender msg) (hreg : RegularCall c (· = k) env info w.store w'.store msg) :
    Staked w.store w'.store G k (gainIn c w w' k.tokenX + roundings c env info w.store msg / 10 ^ 14) (gainIn c w w' k.tokenY) ∧
      k.tokenX ≠ k.tokenY ∧ ∀ t, k.tokenX ≠ t → k.tokenY ≠ t → 0 ≤ gainIn c w w' t := by
  obtain ⟨out, h1, h2⟩ := tx_inv h
  have hm := hr.mreach
  have hm' := Reach.mreach (.step hr h1)
  obtain ⟨hw, hx⟩ := execute_ok.1 h1
  have hs := hm.struct
  have hi := hm.posInv
  cases msg <;> simp only [ActsIn] at ha <;> simp only [dispatch] at hx
  case createPosition k' l u L lo hi' =>
    subst ha
    obtain ⟨x, y, m1, m2, t1, t2, ho, hp, hd⟩ := Staked.create hs hm'.struct hi hm.tickSum hm.price hg hw hx
    rw [ho] at h2
    obtain ⟨g1, g2, g3⟩ := charge_gain hne t1 t2 hd h2
    exact ⟨hp.mono (by simp only [roundings, Nat.cast_one]; linarith) g2, hd, g3⟩
  case mint k' l u L lo hi' =>
    subst ha
    obtain ⟨x, y, m1, m2, t1, t2, ho, hp, hd⟩ := Staked.create hs hm'.struct hi hm.tickSum hm.price hg hw hx
    rw [ho] at h2
    obtain ⟨g1, g2, g3⟩ := charge_gain hne t1 t2 hd h2
    exact ⟨hp.mono (by simp only [roundings, Nat.cast_one]; linarith) g2, hd, g3⟩
  case swap k' d a b l =>
    subst ha
    obtain ⟨r, hx⟩ := swap_inv hx
    obtain ⟨i, o, m1, t1, ho, hd, hp⟩ := Staked.swap (G := G) hm hdr hw.1 hx (hreg rfl)
    simp only at ho hp
    rw [ho] at h2
    obtain ⟨g1, g2, g3⟩ := swap_gain_in hne t1 hd h2
    have hε : (0 : ℚ) ≤ swapSteps w.store env.millis k' d a b l / 10 ^ 14 := by positivity
    simp only [roundings]
    cases d
    · simp only [Bool.false_eq_true, if_false, tokenIn, tokenOut] at hp g1 g2 g3
      exact ⟨hp.mono (by linarith) g1, hd, fun t e1 e2 => g3 t e2 e1⟩
    · simp only [if_true, tokenIn, tokenOut] at hp g1 g2 g3
      exact ⟨hp.mono (by linarith) g2, hd, g3⟩
  case claimFee i =>
    obtain ⟨q, q1, q2⟩ := ha
    obtain ⟨x, y, ho, hp, hd⟩ := Staked.claim hs hg (held_get q1) q2 hx
    obtain ⟨g1, g2, g3⟩ := pay_gain hne ho hd h2
    exact ⟨hp.mono (by simp only [roundings, Nat.cast_zero, zero_div, add_zero]; exact g1) g2, hd, g3⟩
  case removePosition i =>
    obtain ⟨q, q1, q2⟩ := ha
    obtain ⟨x, y, ho, hp, hd⟩ := Staked.remove hs hm'.struct hi hm'.tickSum hm.price hw hg (held_get q1) q2 hx
    obtain ⟨g1, g2, g3⟩ := pay_gain hne ho hd h2
    exact ⟨hp.mono (by simp only [roundings, Nat.cast_zero, zero_div, add_zero]; exact g1) g2, hd, g3⟩
  case burn id =>
    obtain ⟨q, q1, q2⟩ := ha
    obtain ⟨o, _, j1, _, _, hx⟩ := burn_inv hx
    obtain ⟨x, y, ho, hp, hd⟩ := Staked.remove hs hm'.struct hi hm'.tickSum hm.price (tokenOwner_spec j1).2 hg (held_get q1) q2 hx
    obtain ⟨g1, g2, g3⟩ := pay_gain hne ho hd h2
    exact ⟨hp.mono (by simp only [roundings, Nat.cast_zero, zero_div, add_zero]; exact g1) g2, hd, g3⟩

/-- A position that changes hands within the group. -/
theorem share_step {c : Chain} {w w' : World} {G : List Bytes} {env : Env} {info : Info} {i : Nat} {other : Bytes}
    (hr : Reach c w.store) (hne : info.sender ≠ c.self) (hg : info.sender ∈ G) (ho : other ∈ G)
    (h : w.tx c env info (.transferPosition i other) = .ok w') :
    (∀ k, rest w'.store G k = rest w.store G k) ∧ (∀ k z, stake w'.store G k z = stake w.store G k z) ∧ ∀ t, 0 ≤ gainIn c w w' t := by
  obtain ⟨out, h1, h2⟩ := tx_inv h
  have hi := hr.mreach.posInv
  obtain ⟨hw, hx⟩ := execute_ok.1 h1
  simp only [dispatch] at hx
  obtain ⟨positions, posLen, hfr⟩ := transferPosition_frame hx
  obtain ⟨pos, s1, hpos, hrem, -, hadd, rfl⟩ := transferPosition_inv hx
  have hi1 := (PosInv.remove hi hw hrem).2
  have v1 := removePositionAt_vals hi hw hrem
  have v2 := addPosition_vals hi1 hadd
  have hrest : ∀ k', rest w'.store G k' = rest w.store G k' := by
    have r1 : ∀ k', rest s1 G k' = rest w.store G k' := rest_eq (fun id hid => by
      cases hget : w.store.positions.get? id with
      | some v =>
        obtain ⟨o, j, rfl, -⟩ := hi.key _ _ hget
        rw [holderOf_key] at hid
        rw [(removePositionAt_other hrem (o' := o) (fun e => hid (e ▸ hg))).2 j, hget]
      | none =>
        cases hget' : s1.positions.get? id with
        | none => rfl
        | some v =>
          obtain ⟨o, j, rfl, -⟩ := hi1.key _ _ hget'
          rw [holderOf_key] at hid
          rw [(removePositionAt_other hrem (o' := o) (fun e => hid (e ▸ hg))).2 j, hget] at hget'
          exact hget'.symm)
    have r2 : ∀ k', rest w'.store G k' = rest s1 G k' := by
      obtain ⟨-, e⟩ := addPosition_ok.1 hadd
      refine rest_eq (fun id hid => ?_)
      rw [e]
      simp only
      rw [KV.get?_insert, if_neg (fun e => hid (by rw [e, holderOf_key]; exact ho))]
    exact fun k' => (r2 k').trans (r1 k')
  refine ⟨hrest, fun k z => ?_, fun t => ?_⟩
  · have hworth : ∀ q, worth w'.store z q = worth w.store z q := fun q => by
      have e1 : w'.store.pools = w.store.pools := by rw [hfr]
      have e2 : w'.store.ticks = w.store.ticks := by rw [hfr]
      exact (worth_same (by rw [e1]) (by rw [e2]) (by rw [e2])).2
    have hprice : priceAt w'.store k = priceAt w.store k := by
      unfold priceAt
      rw [hfr]
    have all : ((positionsOf w'.store k).map (worth w.store z)).sum = ((positionsOf w.store k).map (worth w.store z)).sum := by
      unfold positionsOf
      rw [perm_sumQ ((v2.filter _).map _), perm_sumQ ((v1.filter _).map _), List.filter_cons, List.filter_cons]
      simp only
      by_cases e : pos.poolKey = k
      · rw [if_pos (by simpa using e), if_pos (by simpa using e), List.map_cons, List.map_cons, List.sum_cons, List.sum_cons]
        rfl
      · rw [if_neg (by simpa using e), if_neg (by simpa using e)]
    have p1 := perm_sumQ ((own_rest w.store G k).map (worth w.store z))
    have p2 := perm_sumQ ((own_rest w'.store G k).map (worth w.store z))
    rw [List.map_append, List.sum_append] at p1 p2
    unfold stake
    rw [hrest, hprice, map_sum_congr (fun q _ => hworth q)]
    rw [hrest] at p2
    linarith
  · have a := h2 (tokenAsset c t) c.self
    have e0 : outDelta c [] (tokenAsset c t) c.self = 0 := rfl
    rw [e0] at a
    have b := fundsSelf_nonneg (info := info) hne t
    have key : (0 : Int) ≤ (w'.ledger.bal (tokenAsset c t) c.self : Int) - w.ledger.bal (tokenAsset c t) c.self := by omega
    have key' := (Int.cast_le (R := ℚ)).2 key
    push_cast at key'
    unfold gainIn
    linarith

/-! ## Prices -/

/-- What a position consists of is worth no less at any other price, valued at this one. -/
theorem principal_tangent {s : Store} (hs : Struct s) {k : PoolKey} {q : Position} (hq : q ∈ positionsOf s k) (P Q : Nat) :
    priceVal P ^ 2 * q.principal true P + q.principal false P ≤ priceVal P ^ 2 * q.principal true Q + q.principal false Q := by
  rcases Nat.le_total Q P with h | h
  · have := principal_rate hs hq h
    linarith
  · obtain ⟨-, h1, h2, h3⟩ := hs.posOf hq
    have r1 := sqrtPriceAt_range h1.range.1 h1.range.2
    have r2 := sqrtPriceAt_range h2.range.1 h2.range.2
    have r3 := h1.price_le h2 (by omega)
    have hm : 0 < MIN_SQRT_PRICE := by norm_num
    unfold Position.principal
    simp only [if_true, Bool.false_eq_true, if_false]
    generalize sqrtPriceAt q.lower = lo at *
    generalize sqrtPriceAt q.upper = hi at *
    have c1 : lo ≤ max lo (min P hi) := le_max_left _ _
    have c2 : max lo (min P hi) ≤ max lo (min Q hi) := by omega
    have c3 : max lo (min Q hi) ≤ hi := by omega
    have c4 : P ≤ max lo (min P hi) ∨ max lo (min P hi) = max lo (min Q hi) := by omega
    generalize max lo (min P hi) = a at *
    generalize max lo (min Q hi) = b at *
    rw [exactX_add (b := b) (by omega) c2 c3, exactY_add (b := a) c1 c2, exactX_le (by omega) c2, exactY_le c2]
    have hL : 0 ≤ liqVal q.liquidity := by unfold liqVal; positivity
    have pa := priceVal_pos (p := a) (by omega)
    rcases c4 with c4 | rfl
    · have e1 := priceVal_le c2
      have e2 := priceVal_le c4
      have e0 : 0 ≤ priceVal P := by unfold priceVal; positivity
      generalize priceVal a = x at *
      generalize priceVal b = y at *
      generalize priceVal P = z at *
      have hy : 0 < y := by linarith
      have e : y - x = x * y * (1 / x - 1 / y) := by field_simp
      have e3 : 0 ≤ 1 / x - 1 / y := sub_nonneg.2 (one_div_le_one_div_of_le pa e1)
      have e4 : z ^ 2 ≤ x * y := by nlinarith
      have : z ^ 2 * (liqVal q.liquidity * (1 / x - 1 / y)) ≤ liqVal q.liquidity * (y - x) := by
        rw [e]
        calc z ^ 2 * (liqVal q.liquidity * (1 / x - 1 / y)) ≤ x * y * (liqVal q.liquidity * (1 / x - 1 / y)) :=
              mul_le_mul_of_nonneg_right e4 (mul_nonneg hL e3)
          _ = liqVal q.liquidity * (x * y * (1 / x - 1 / y)) := by ring
      rw [mul_add]
      linarith
    · simp

theorem rest_tangent {s : Store} (hs : Struct s) (G : List Bytes) (k : PoolKey) (P Q : Nat) :
    priceVal P ^ 2 * ((rest s G k).map (fun q => q.principal true P)).sum + ((rest s G k).map (fun q => q.principal false P)).sum ≤
    priceVal P ^ 2 * ((rest s G k).map (fun q => q.principal true Q)).sum + ((rest s G k).map (fun q => q.principal false Q)).sum := by
  have key : ∀ q ∈ rest s G k, _ := fun q hq => principal_tangent hs ((rest_sublist s G k).subset hq) P Q
  generalize rest s G k = l at *
  induction l with
  | nil => simp
  | cons p l ih =>
    have i := ih (fun q hq => key q (by simp [hq]))
    have j := key p (by simp)
    simp only [List.map_cons, List.sum_cons, mul_add] at i ⊢
    linarith

/-! ## The positions held, by storage and by account -/

theorem flatMap_perm_of_perm {α β : Type} {l : List α} {f g : α → List β} (h : ∀ a ∈ l, (f a).Perm (g a)) : (l.flatMap f).Perm (l.flatMap g) := by
  induction l with
  | nil => exact .refl _
  | cons a l ih =>
    rw [List.flatMap_cons, List.flatMap_cons]
    exact (h a (by simp)).append (ih (fun b hb => h b (by simp [hb])))

/-- The ids of the positions of `G`. -/
def heldIds (s : Store) (G : List Bytes) : List Bytes := G.flatMap (fun a => (List.range (getPositionLength s a)).map (positionKey a))

theorem heldIds_nodup {s : Store} (hi : PosInv s) : ∀ {G : List Bytes}, G.Nodup → (heldIds s G).Nodup
  | [], _ => List.nodup_nil
  | a :: G, h => by
    obtain ⟨h1, h2⟩ := List.nodup_cons.1 h
    unfold heldIds
    rw [List.flatMap_cons]
    refine List.Nodup.append ?_ (heldIds_nodup hi h2) ?_
    · refine List.Nodup.map_on ?_ List.nodup_range
      intro i hi1 j hj1 e
      have := hi.len a
      exact (positionKey_inj (by have := List.mem_range.1 hi1; omega) (by have := List.mem_range.1 hj1; omega) e).2
    · intro id m1 m2
      rw [List.mem_map] at m1
      obtain ⟨i, _, rfl⟩ := m1
      rw [List.mem_flatMap] at m2
      obtain ⟨b, hb, m2⟩ := m2
      rw [List.mem_map] at m2
      obtain ⟨j, _, e⟩ := m2
      have := congrArg holderOf e
      rw [holderOf_key, holderOf_key] at this
      exact h1 (this ▸ hb)

theorem positionsHeld_perm {s : Store} (hi : PosInv s) {G : List Bytes} (hG : G.Nodup) (k : PoolKey) : (positionsHeld s G k).Perm (own s G k) := by
  unfold positionsHeld own
  refine List.Perm.filter _ ?_
  have e1 : G.flatMap (fun a => (positionList s a).filterMap id) = (heldIds s G).filterMap (fun id => s.positions.get? id) := by
    unfold heldIds positionList
    rw [List.filterMap_flatMap]
    congr 1
    funext a
    rw [List.filterMap_map, List.filterMap_map]
    rfl
  have e2 : (s.positions.entries.filter (fun e => decide (holderOf e.1 ∈ G))).map (·.2) =
      ((s.positions.entries.filter (fun e => decide (holderOf e.1 ∈ G))).map (·.1)).filterMap (fun id => s.positions.get? id) := by
    rw [List.filterMap_map]
    rw [← List.filterMap_eq_map]
    refine List.filterMap_congr (fun e he => ?_)
    simp only [Function.comp]
    exact ((KV.mem_entries_iff s.positions e.1 e.2).1 (List.mem_filter.1 he).1).symm
  rw [e1, e2]
  refine List.Perm.filterMap _ ?_
  refine (List.perm_ext_iff_of_nodup (heldIds_nodup hi hG) ?_).2 (fun id => ?_)
  · refine List.Nodup.map_on ?_ ?_
    · intro a ha b hb e
      have h1 := (KV.mem_entries_iff s.positions a.1 a.2).1 (List.mem_filter.1 ha).1
      have h2 := (KV.mem_entries_iff s.positions b.1 b.2).1 (List.mem_filter.1 hb).1
      rw [e, h2, Option.some.injEq] at h1
      exact Prod.ext e h1.symm
    · refine List.Nodup.filter _ (s.positions.sorted.imp ?_)
      intro a b hab e
      rw [e] at hab
      rw [bytesLt_irrefl] at hab
      simp at hab
  · unfold heldIds
    simp only [List.mem_flatMap, List.mem_map, List.mem_range, List.mem_filter, decide_eq_true_eq]
    constructor
    · rintro ⟨a, ha, i, hl, rfl⟩
      have hl' := hi.len a
      obtain ⟨p, hp⟩ := (hi.iff a i (by omega)).2 hl
      exact ⟨(_, p), ⟨(KV.mem_entries_iff _ _ _).2 hp, by rw [holderOf_key]; exact ha⟩, rfl⟩
    · rintro ⟨⟨id, p⟩, ⟨he, hh⟩, rfl⟩
      obtain ⟨o, i, e, hU⟩ := hi.key _ _ ((KV.mem_entries_iff _ _ _).1 he)
      simp only at hh e ⊢
      rw [e, holderOf_key] at hh
      exact ⟨o, hh, i, (hi.iff o i hU).1 ⟨p, e ▸ (KV.mem_entries_iff _ _ _).1 he⟩, e.symm⟩

/-- The group's positions and the others'. -/
theorem stake_held {s : Store} (hi : PosInv s) {G : List Bytes} (hG : G.Nodup) (k : PoolKey) (z : Bool) :
    stake s G k z = ((rest s G k).map (fun q => q.principal z (priceAt s k))).sum + ((positionsHeld s G k).map (worth s z)).sum := by
  unfold stake
  rw [perm_sumQ ((positionsHeld_perm hi hG k).map _)]

end OraiV3
