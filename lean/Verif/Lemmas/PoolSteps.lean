import Verif.Lemmas.Owes
import Verif.Lemmas.Frame
import Verif.Lemmas.Tokens

/-!
# What each operation does to the amounts pools owe
-/

namespace OraiV3

/-- One pool's obligations change by at most the given amounts, the others' do not change. -/
structure PoolStep (s s' : Store) (k : PoolKey) (dx dy : ℚ) : Prop where
  wf : k.wf
  x : poolOwes s' k true ≤ poolOwes s k true + dx
  y : poolOwes s' k false ≤ poolOwes s k false + dy
  other : ∀ k', k'.wf → k' ≠ k → ∀ z, poolOwes s' k' z = poolOwes s k' z

/-- A pool whose record and positions did not change. -/
theorem poolOwes_kept {s s' : Store} {k : PoolKey} {z : Bool}
    (hp : s'.pools.get? k.key = s.pools.get? k.key)
    (hs : sumQ s' k (worth s' z) = sumQ s k (worth s z)) : poolOwes s' k z = poolOwes s k z := by
  unfold poolOwes
  rw [hp, hs]

theorem poolOwes_some {s : Store} {k : PoolKey} {p : Pool} (hp : s.pools.get? k.key = some p) (z : Bool) :
    poolOwes s k z = sumQ s k (worth s z) + p.proto z := by
  unfold poolOwes
  rw [hp]

theorem poolOwes_frame {s s' : Store} {k : PoolKey} (h1 : s'.pools.get? k.key = s.pools.get? k.key)
    (h2 : ∀ i, s'.ticks.get? (tickKey k i) = s.ticks.get? (tickKey k i)) (hp : s'.positions = s.positions) (z : Bool) :
    poolOwes s' k z = poolOwes s k z := by
  refine poolOwes_kept h1 ?_
  rw [sumQ_congr hp]
  refine sumQ_ext (fun q hq => ?_)
  have e := (mem_positionsOf.1 hq).2
  exact (worth_same (by rw [e]; exact h1) (outAt_get (by rw [e]; exact h2 _) _) (outAt_get (by rw [e]; exact h2 _) _)).2

/-- No change to pools, ticks and positions except approvals and places. -/
theorem poolOwes_same {s s' : Store} (h1 : s'.pools = s.pools) (h2 : s'.ticks = s.ticks)
    (h3 : ∀ k f, (∀ q a, f { q with approvals := a } = f q) → sumQ s' k f = sumQ s k f) (k : PoolKey) (z : Bool) :
    poolOwes s' k z = poolOwes s k z := by
  have e : worth s' z = worth s z := by
    funext q
    exact (worth_same (by rw [h1]) (by rw [h2]) (by rw [h2])).2
  refine poolOwes_kept (by rw [h1]) ?_
  rw [e]
  exact h3 k _ (fun _ _ => rfl)

/-- A pool record is rewritten without touching what its positions are worth. -/
theorem PoolStep.poolMeta {s s' : Store} {k : PoolKey} {p p' : Pool} (hk : k.wf) (hp : s.pools.get? k.key = some p)
    (h1 : s'.pools = s.pools.insert k.key p') (h2 : s'.ticks = s.ticks) (h3 : s'.positions = s.positions)
    (e1 : p'.tick = p.tick) (e2 : p'.sqrtPrice = p.sqrtPrice) (e3 : p'.fgX = p.fgX) (e4 : p'.fgY = p.fgY) {dx dy : ℚ}
    (hx : (p'.protoX : ℚ) ≤ p.protoX + dx) (hy : (p'.protoY : ℚ) ≤ p.protoY + dy) : PoolStep s s' k dx dy := by
  have hp' : s'.pools.get? k.key = some p' := by rw [h1, KV.get?_insert_same]
  have hw : ∀ z q, q ∈ positionsOf s k → worth s' z q = worth s z q := by
    intro z q hq
    have hqk := (mem_positionsOf.1 hq).2
    refine (worth_frame (p := p) (p' := p') (by rw [hqk]; exact hp) (by rw [hqk]; exact hp') e1 e2 ?_ (by rw [h2]) (by rw [h2])).2
    cases z
    · exact e4
    · exact e3
  refine ⟨hk, ?_, ?_, fun k' hk' hne z => poolOwes_frame ?_ (fun i => by rw [h2]) h3 z⟩
  · rw [poolOwes_some hp, poolOwes_some hp', sumQ_congr h3, sumQ_ext (hw true)]
    simp only [Pool.proto, if_true]
    linarith
  · rw [poolOwes_some hp, poolOwes_some hp', sumQ_congr h3, sumQ_ext (hw false)]
    simp only [Pool.proto, Bool.false_eq_true, if_false]
    linarith
  · rw [h1, KV.get?_insert_other _ _ (key_ne hk' hk hne)]

/-- Creating a pool. -/
theorem PoolStep.newPool {s s' : Store} (hs : Struct s) {env : Env} {t0 t1 : Bytes} {tier : FeeTier} {price : Nat} {tick : Int}
    {out : List OutMsg} (hw : (Msg.createPool t0 t1 tier price tick).wf) (h : createPool s env t0 t1 tier price tick = .ok (s', out)) :
    out = [] ∧ ∃ k, PoolStep s s' k 0 0 := by
  obtain ⟨cfg, k, pool, h1, h2, h3, h4, h5, h6, rfl, ho⟩ := createPool_inv h
  have hk : k.wf := by
    unfold PoolKey.new at h4
    obtain ⟨w1, w2, w3, _⟩ := hw
    split at h4
    · simp at h4
    · split at h4
      · rw [ok_inj] at h4; subst h4; exact ⟨w1, w2, w3⟩
      · rw [ok_inj] at h4; subst h4; exact ⟨w2, w1, w3⟩
  have hl : ∀ z, pool.proto z = 0 := by
    unfold Pool.create at h6
    rw [bind_ok] at h6
    obtain ⟨b, -, h6⟩ := h6
    cases b
    · simp at h6
    · simp only [Bool.not_true, Bool.false_eq_true, if_false, pure_ok] at h6
      rw [← h6]
      intro z; cases z <;> rfl
  have hnone : positionsOf s k = [] := by
    rw [List.eq_nil_iff_forall_not_mem]
    intro q hq
    obtain ⟨hq, hqk⟩ := mem_positionsOf.1 hq
    obtain ⟨id, hid⟩ := memPos hq
    obtain ⟨p, hp⟩ := (hs.positions _ _ hid).pool
    rw [hqk, h5] at hp
    simp at hp
  have hz : ∀ z, poolOwes (savePool s k pool) k z ≤ poolOwes s k z + 0 := by
    intro z
    rw [poolOwes_some (p := pool) (KV.get?_insert_same _ _ _), hl z]
    have : sumQ (savePool s k pool) k (worth (savePool s k pool) z) = 0 := by
      unfold sumQ
      have : positionsOf (savePool s k pool) k = [] := hnone
      rw [this]; rfl
    rw [this]
    have := poolOwes_nonneg s k z
    push_cast
    linarith
  exact ⟨ho, k, hk, hz true, hz false,
    fun k' hk' hne z => poolOwes_frame (s := s) (s' := savePool s k pool) (KV.get?_insert_other _ _ (key_ne hk' hk hne)) (fun _ => rfl) rfl z⟩

/-- Opening a position. -/
theorem PoolStep.create {c : Chain} {s s' : Store} {env : Env} {info : Info} {k : PoolKey}
    {l u : Int} {L lo hi : Nat} {out : List OutMsg} (hs : Struct s) (hs' : Struct s') (hi' : PosInv s) (ht : TickSum s) (hpr : PriceInv s)
    (hw : (Msg.createPosition k l u L lo hi).wf)
    (h : createPosition c s env info k l u L lo hi = .ok (s', out)) :
    ∃ x y m1 m2, assetTransferFrom c k.tokenX x info = .ok m1 ∧ assetTransferFrom c k.tokenY y info = .ok m2 ∧ out = m1 ++ m2 ∧
      PoolStep s s' k (x + 1 / 10 ^ 14) y ∧ k.tokenX ≠ k.tokenY := by
  obtain ⟨p, pool, pool', m1, m2, x, y, hwhat, hperm, hp, hpools, hproto, t1, t2, ho, hacc, wx, wy⟩ := create_owes hs hs' hi' hpr hw h
  have hk := hw.1
  have hpk : p.poolKey = k := by unfold Position.what at hwhat; exact (Prod.mk.inj hwhat).1
  have hkept : ∀ z k', sumQ s k' (worth s' z) = sumQ s k' (worth s z) := fun z k' =>
    sumQ_ext (fun q hq => (create_kept hs ht hw h (mem_positionsOf.1 hq).1 z).2)
  have hp' : s'.pools.get? k.key = some pool' := by rw [hpools, KV.get?_insert_same]
  refine ⟨x, y, m1, m2, t1, t2, ho, ⟨hk, ?_, ?_, fun k' hk' hne z => ?_⟩, ?_⟩
  · rw [poolOwes_some hp, poolOwes_some hp', sumQ_cons hperm, if_pos hpk, hkept, hproto]
    linarith
  · rw [poolOwes_some hp, poolOwes_some hp', sumQ_cons hperm, if_pos hpk, hkept, hproto]
    linarith
  · refine poolOwes_kept (by rw [hpools, KV.get?_insert_other _ _ (key_ne hk' hk hne)]) ?_
    rw [sumQ_cons hperm, if_neg (fun e => hne (e.symm.trans hpk)), hkept, zero_add]
  · exact swap_tokens_ne hs hk hp true

theorem floor_le_q (a : Nat) : ((a / 10 ^ 34 : Nat) : ℚ) ≤ (a : ℚ) / 10 ^ 34 := by
  have := @Nat.cast_div_le ℚ _ _ _ a (10 ^ 34)
  push_cast at this ⊢
  exact this

/-- Claiming fees. -/
theorem PoolStep.claim {c : Chain} {s s' : Store} {env : Env} {info : Info} {i : Nat} {out : List OutMsg}
    (hs : Struct s) (h : claimFee c s env info i = .ok (s', out)) :
    ∃ k x y, out = assetTransfer c k.tokenX x info ++ assetTransfer c k.tokenY y info ∧ PoolStep s s' k (-(x : Nat)) (-(y : Nat)) ∧
      k.tokenX ≠ k.tokenY := by
  obtain ⟨pos, pos', pool, pool', hpos, hpos', hwhat, _, hp, hpools, he, ho, hacc, hworth⟩ := claim_owes hs h
  have hok := hs.positions _ _ hpos
  have hk := hok.kwf
  have hpk : pos'.poolKey = pos.poolKey := by unfold Position.what at hwhat; exact (Prod.mk.inj hwhat).1
  have hkept : ∀ z k', sumQ s k' (worth s' z) = sumQ s k' (worth s z) := fun z k' =>
    sumQ_ext (fun q hq => (claim_kept hs h (mem_positionsOf.1 hq).1 z).2)
  have hp' : s'.pools.get? pos.poolKey.key = some pool' := by rw [hpools, KV.get?_insert_same]
  have hproto : ∀ z, pool'.proto z = pool.proto z := fun z => by rw [he]; rfl
  have hself : ∀ z, worth s' z pos = worth s z pos := fun z => (claim_kept hs h ((mem_vals _ _).2 ⟨_, hpos⟩) z).2
  have key : ∀ z, poolOwes s' pos.poolKey z ≤ poolOwes s pos.poolKey z + -((accrued s z pos / 10 ^ 34 : Nat) : ℚ) := by
    intro z
    rw [poolOwes_some hp, poolOwes_some hp', sumQ_edit hpos hpos' _ _ hpk, if_pos rfl, hkept, hproto, hself]
    have := hworth z
    have := floor_le_q (accrued s z pos)
    linarith
  refine ⟨pos.poolKey, _, _, ho, ⟨hk, key true, key false, fun k' hk' hne z => ?_⟩, swap_tokens_ne hs hk hp true⟩
  refine poolOwes_kept (by rw [hpools, KV.get?_insert_other _ _ (key_ne hk' hk hne)]) ?_
  rw [sumQ_edit hpos hpos' _ _ hpk, if_neg (fun e => hne e.symm), hkept, add_zero]

/-- Closing a position. -/
theorem PoolStep.remove {c : Chain} {s s' : Store} {env : Env} {info : Info} {i : Nat} {out : List OutMsg}
    (hs : Struct s) (hs' : Struct s') (hi : PosInv s) (ht' : TickSum s') (hpr : PriceInv s) (hw : i < U32)
    (h : removePosition c s env info i = .ok (s', out)) :
    ∃ k x y, out = assetTransfer c k.tokenX x info ++ assetTransfer c k.tokenY y info ∧ PoolStep s s' k (-(x : Nat)) (-(y : Nat)) ∧
      k.tokenX ≠ k.tokenY := by
  obtain ⟨pos, pool, pool', x, y, hpos, hperm, hp, hpools, hproto, ho, hx, hy⟩ := remove_owes hs hi hpr hw h
  have hok := hs.positions _ _ hpos
  have hk := hok.kwf
  have hkept : ∀ z k', sumQ s' k' (worth s' z) = sumQ s' k' (worth s z) := fun z k' =>
    sumQ_ext (fun q hq => (remove_kept hs hs' hi ht' hw h (mem_positionsOf.1 hq).1 z).2)
  have hp' : s'.pools.get? pos.poolKey.key = some pool' := by rw [hpools, KV.get?_insert_same]
  have key : ∀ z n, ((n : Nat) : ℚ) ≤ pos.principal z pool.sqrtPrice →
      poolOwes s' pos.poolKey z ≤ poolOwes s pos.poolKey z + -((n + accrued s z pos / 10 ^ 34 : Nat) : ℚ) := by
    intro z n hn
    rw [poolOwes_some hp, poolOwes_some hp', sumQ_cons hperm, if_pos rfl, hkept, hproto]
    have := floor_le_q (accrued s z pos)
    have e : worth s z pos = pos.principal z pool.sqrtPrice + (accrued s z pos : ℚ) / 10 ^ 34 := by unfold worth; rw [hp]
    rw [e]
    push_cast
    linarith
  refine ⟨pos.poolKey, _, _, ho, ⟨hk, key true x hx, key false y hy, fun k' hk' hne z => ?_⟩, swap_tokens_ne hs hk hp true⟩
  refine poolOwes_kept (by rw [hpools, KV.get?_insert_other _ _ (key_ne hk' hk hne)]) ?_
  rw [sumQ_cons hperm, if_neg (fun e => hne e.symm), hkept, zero_add]

/-- A swap changes nothing about other pools. -/
theorem swap_other_owes {c : Chain} {s : Store} {info : Info} {now : Nat} {k : PoolKey} {d : Bool} {amount : Nat}
    {b : Bool} {limit : Nat} {x : Store × List OutMsg × CalcSwapResult} (hk : k.wf)
    (h : swapInternal c s info now k d amount b limit = .ok x) {k' : PoolKey} (hk' : k'.wf) (hne : k' ≠ k) (z : Bool) :
    poolOwes x.1 k' z = poolOwes s k' z := by
  obtain ⟨t, e1⟩ := swapInternal_frame h
  have epos : x.1.positions = s.positions := by rw [e1]
  obtain ⟨f1, f2, _⟩ := swapInternal_frame' hk' hk hne h
  exact poolOwes_frame f1 f2 epos z

/-- A swap that ends regularly. -/
theorem PoolStep.swap {c : Chain} {s : Store} {info : Info} {now : Nat} {k : PoolKey} {d : Bool} {amount : Nat}
    {b : Bool} {limit : Nat} {x : Store × List OutMsg × CalcSwapResult} (hr : MReach c s) (ha : drift s k = 0) (hk : k.wf)
    (h : swapInternal c s info now k d amount b limit = .ok x) (hreg : RegularEnd x.1 k d b limit) :
    ∃ i o m1, assetTransferFrom c (tokenIn k d) i info = .ok m1 ∧ x.2.1 = m1 ++ assetTransfer c (tokenOut k d) o info ∧
      tokenIn k d ≠ tokenOut k d ∧
      (if d then PoolStep s x.1 k (i + swapSteps s now k d amount b limit / 10 ^ 14) (-(o : Nat))
        else PoolStep s x.1 k (-(o : Nat)) i) := by
  obtain ⟨s1, m1, h1, h2, h3, h4, h5⟩ := swapInternal_inv h
  obtain ⟨pool, st0, _, hp, _⟩ := calculateSwap_inv h1
  obtain ⟨t, e1⟩ := swapInternal_frame h
  have epos : x.1.positions = s.positions := by rw [e1]
  have hp' : x.1.pools.get? k.key = some x.2.2.pool := by rw [e1]; exact KV.get?_insert_same _ _ _
  have hrg := hreg x.2.2.pool hp'
  have hu : ∀ j, UsedTick x.1 k j ↔ UsedTick s k j := fun j => by unfold UsedTick positionsOf; rw [epos]
  rw [hu, hu] at hrg
  obtain ⟨G, left, st, hB, b1, b2, b3, b4, b5⟩ := swap_books hr.struct hr.bitInv hr.tickSum hk hp (hr.price k pool hk hp)
    (by have := drift_of hp; omega) h1 hrg
  have htk : x.1.ticks = withTicks s.ticks k st.ticks := by
    rw [h3, b2, ← saveTicks_withTicks h2]
    rfl
  have hacc : ∀ z, totalAccrued x.1 k z = sumPositions s k (accruedIn (withTicks s.ticks k st.ticks) st.pool z) := by
    intro z
    unfold totalAccrued
    rw [sumPositions_congr epos]
    refine sumPositions_ext (fun q hq => ?_)
    unfold accrued
    rw [(mem_positionsOf.1 hq).2, hp', htk, b1]
  have hacc0 : ∀ z, totalAccrued s k z = sumPositions s k (accruedIn s.ticks pool z) := by
    intro z
    refine sumPositions_ext (fun q hq => ?_)
    unfold accrued
    rw [(mem_positionsOf.1 hq).2, hp]
  have oin : poolOwes x.1 k d ≤ poolOwes s k d + (x.2.2.amountIn + swapSteps s now k d amount b limit * (if d then 1 / 10 ^ 14 else 0)) := by
    rw [poolOwes_some hp, poolOwes_some hp', sumQ_worth hp, sumQ_worth hp', hacc, hacc0, sumQ_congr epos, ← b1, ← b3]
    have f := hB.fees
    have p := hB.pin
    have f' : (sumPositions s k (accruedIn (withTicks s.ticks k st.ticks) st.pool d) : ℚ) + st.pool.proto d * 10 ^ 34 ≤
      sumPositions s k (accruedIn s.ticks pool d) + (pool.proto d + (st.fee + left)) * 10 ^ 34 := by exact_mod_cast f
    push_cast at p
    have f'' := (div_le_div_iff_of_pos_right (show (0:ℚ) < 10 ^ 34 by positivity)).2 f'
    rw [add_div, add_div, mul_div_assoc, mul_div_assoc, div_self (by positivity), mul_one, mul_one] at f''
    linarith
  have oout : poolOwes x.1 k (!d) ≤ poolOwes s k (!d) + -(x.2.2.amountOut : ℚ) := by
    rw [poolOwes_some hp, poolOwes_some hp', sumQ_worth hp, sumQ_worth hp', hacc, hacc0, sumQ_congr epos, ← b1, ← b4, hB.other,
      hB.protoOther]
    have p := hB.pout
    linarith
  have oth : ∀ k', k'.wf → k' ≠ k → ∀ z, poolOwes x.1 k' z = poolOwes s k' z := fun k' hk' hne z => by
    obtain ⟨f1, f2, _⟩ := swapInternal_frame' hk' hk hne h
    exact poolOwes_frame f1 f2 epos z
  refine ⟨x.2.2.amountIn, x.2.2.amountOut, m1, h4, h5, swap_tokens_ne hr.struct hk hp d, ?_⟩
  cases d
  · simp only [Bool.false_eq_true, if_false, Bool.not_false, mul_zero, add_zero] at oin oout ⊢
    exact ⟨hk, oout, oin, oth⟩
  · simp only [if_true, Bool.not_true] at oin oout ⊢
    exact ⟨hk, by rw [div_eq_mul_one_div]; exact oin, oout, oth⟩

end OraiV3
