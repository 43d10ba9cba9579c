import Verif.Lemmas.Solvent
import Verif.FeeHistory

/-!
# Fees claimable from a pool, through every call
-/

namespace OraiV3

theorem claimable_eq (s : Store) (k : PoolKey) (x : Bool) : claimable s k x =
    sumQ s k (fun q => (accrued s x q : ℚ) / 10 ^ 34) + protocolFees s k x := by
  unfold claimable totalAccrued
  rw [sumQ_cast]

theorem claimable_some {s : Store} {k : PoolKey} {p : Pool} (hp : s.pools.get? k.key = some p) (x : Bool) :
    claimable s k x = sumQ s k (fun q => (accrued s x q : ℚ) / 10 ^ 34) + p.proto x := by
  rw [claimable_eq]
  unfold protocolFees
  rw [hp]

theorem claimable_nonneg (s : Store) (k : PoolKey) (x : Bool) : 0 ≤ claimable s k x := by
  unfold claimable
  positivity

theorem claimable_kept {s s' : Store} {k : PoolKey} {x : Bool} (hp : s'.pools.get? k.key = s.pools.get? k.key)
    (h : sumQ s' k (fun q => (accrued s' x q : ℚ) / 10 ^ 34) = sumQ s k (fun q => (accrued s x q : ℚ) / 10 ^ 34)) :
    claimable s' k x = claimable s k x := by
  rw [claimable_eq, claimable_eq, h]
  unfold protocolFees
  rw [hp]

theorem claimable_same {s s' : Store} (h1 : s'.pools = s.pools) (h2 : s'.ticks = s.ticks)
    (h3 : ∀ k f, (∀ q a, f { q with approvals := a } = f q) → sumQ s' k f = sumQ s k f) (k : PoolKey) (x : Bool) :
    claimable s' k x = claimable s k x := by
  have e : accrued s' x = accrued s x := by
    funext q
    exact (worth_same (by rw [h1]) (by rw [h2]) (by rw [h2])).1
  refine claimable_kept (by rw [h1]) ?_
  rw [e]
  exact h3 k _ (fun _ _ => rfl)

theorem claimable_frame {s s' : Store} {k : PoolKey} (h1 : s'.pools.get? k.key = s.pools.get? k.key)
    (h2 : ∀ i, s'.ticks.get? (tickKey k i) = s.ticks.get? (tickKey k i)) (hp : s'.positions = s.positions) (x : Bool) :
    claimable s' k x = claimable s k x := by
  refine claimable_kept h1 ?_
  rw [sumQ_congr hp]
  refine sumQ_ext (fun q hq => ?_)
  have e := (mem_positionsOf.1 hq).2
  rw [(worth_same (s := s) (s' := s') (x := x) (q := q) (by rw [e]; exact h1) (outAt_get (by rw [e]; exact h2 _) _) (outAt_get (by rw [e]; exact h2 _) _)).1]

/-- A pool record is rewritten. -/
theorem claimable_meta {s : Store} {k : PoolKey} {p p' : Pool} (hk : k.wf) (hp : s.pools.get? k.key = some p)
    (e1 : p'.tick = p.tick) (e2 : p'.sqrtPrice = p.sqrtPrice) (e3 : p'.fgX = p.fgX) (e4 : p'.fgY = p.fgY)
    {k' : PoolKey} (hk' : k'.wf) (x : Bool) :
    claimable (savePool s k p') k' x = claimable s k' x + if k = k' then (p'.proto x : ℚ) - p.proto x else 0 := by
  by_cases e : k = k'
  · subst e
    have hp' : (savePool s k p').pools.get? k.key = some p' := KV.get?_insert_same _ _ _
    rw [if_pos rfl, claimable_some hp', claimable_some hp]
    have : sumQ (savePool s k p') k (fun q => (accrued (savePool s k p') x q : ℚ) / 10 ^ 34) =
        sumQ s k (fun q => (accrued s x q : ℚ) / 10 ^ 34) := by
      rw [sumQ_congr (s := s) (s' := savePool s k p') rfl]
      refine sumQ_ext (fun q hq => ?_)
      have hqk := (mem_positionsOf.1 hq).2
      rw [(worth_frame (s := s) (s' := savePool s k p') (x := x) (p := p) (p' := p') (by rw [hqk]; exact hp) (by rw [hqk]; exact hp')
        e1 e2 (by cases x <;> [exact e4; exact e3]) rfl rfl).1]
    rw [this]
    ring
  · rw [if_neg e, add_zero]
    exact claimable_frame (s := s) (s' := savePool s k p') (KV.get?_insert_other _ _ (key_ne hk' hk (Ne.symm e))) (fun _ => rfl) rfl x

theorem poolPrincipal_some {s : Store} {k : PoolKey} {p : Pool} (hp : s.pools.get? k.key = some p) (x : Bool) :
    poolPrincipal s k x = sumQ s k (fun q => q.principal x p.sqrtPrice) := by
  unfold poolPrincipal
  rw [hp]

/-- What a swap that ends regularly does to the claimable fees. -/
theorem swap_claimable {c : Chain} {P : PoolKey → Prop} {s : Store} {info : Info} {now : Nat} {k : PoolKey} {d : Bool} {amount : Nat}
    {b : Bool} {limit : Nat} {x : Store × List OutMsg × CalcSwapResult} (hr : MReach c s) (ha : ActiveIn P s) (hk : k.wf)
    (h : swapInternal c s info now k d amount b limit = .ok x) (hreg : P k → RegularEnd x.1 k d b limit)
    {k' : PoolKey} (hk' : k'.wf) (hP : P k') (z : Bool) :
    claimable x.1 k' z ≤ claimable s k' z + swapCharge s x.1 k d x.2.2.amountIn k' z +
      swapSteps s now k d amount b limit / 10 ^ 14 := by
  obtain ⟨s1, m1, h1, h2, h3, h4, h5⟩ := swapInternal_inv h
  obtain ⟨pool, st0, _, hp, _⟩ := calculateSwap_inv h1
  obtain ⟨t, e1⟩ := swapInternal_frame h
  have epos : x.1.positions = s.positions := by rw [e1]
  have hp' : x.1.pools.get? k.key = some x.2.2.pool := by rw [e1]; exact KV.get?_insert_same _ _ _
  have hε : (0 : ℚ) ≤ swapSteps s now k d amount b limit / 10 ^ 14 := by positivity
  by_cases hkk : k' = k
  swap
  · obtain ⟨f1, f2, _⟩ := swapInternal_frame' hk' hk hkk h
    rw [claimable_frame f1 f2 epos z]
    unfold swapCharge
    rw [if_neg (fun e => hkk e.1)]
    linarith
  subst hkk
  have hrg := hreg hP x.2.2.pool hp'
  have hu : ∀ j, UsedTick x.1 k' j ↔ UsedTick s k' j := fun j => by unfold UsedTick positionsOf; rw [epos]
  rw [hu, hu] at hrg
  obtain ⟨G, left, st, hB, b1, b2, b3, b4, b5⟩ := swap_books hr.struct hr.bitInv hr.tickSum hk hp (hr.price k' pool hk hp)
    (active_of (ha k' hk hP) hp) h1 hrg
  have htk : x.1.ticks = withTicks s.ticks k' st.ticks := by
    rw [h3, b2, ← saveTicks_withTicks h2]
    rfl
  have hacc : ∀ z, totalAccrued x.1 k' z = sumPositions s k' (accruedIn (withTicks s.ticks k' st.ticks) st.pool z) := by
    intro z
    unfold totalAccrued
    rw [sumPositions_congr epos]
    refine sumPositions_ext (fun q hq => ?_)
    unfold accrued
    rw [(mem_positionsOf.1 hq).2, hp', htk, b1]
  have hacc0 : ∀ z, totalAccrued s k' z = sumPositions s k' (accruedIn s.ticks pool z) := by
    intro z
    refine sumPositions_ext (fun q hq => ?_)
    unfold accrued
    rw [(mem_positionsOf.1 hq).2, hp]
  unfold claimable protocolFees
  rw [hp, hp', hacc, hacc0, ← b1]
  by_cases hz : z = d
  · subst hz
    have f := hB.fees
    have p := hB.pin
    have f' : (sumPositions s k' (accruedIn (withTicks s.ticks k' st.ticks) st.pool z) : ℚ) + st.pool.proto z * 10 ^ 34 ≤
      sumPositions s k' (accruedIn s.ticks pool z) + (pool.proto z + (st.fee + left)) * 10 ^ 34 := by exact_mod_cast f
    push_cast at p
    have f'' := (div_le_div_iff_of_pos_right (show (0:ℚ) < 10 ^ 34 by positivity)).2 f'
    rw [add_div, add_div, mul_div_assoc, mul_div_assoc, div_self (by positivity), mul_one, mul_one] at f''
    unfold swapCharge
    rw [if_pos ⟨rfl, rfl⟩, poolPrincipal_some hp, poolPrincipal_some hp', sumQ_congr epos, ← b1, ← b3]
    have hd : (swapSteps s now k' z amount b limit : ℚ) * (if z then 1 / 10 ^ 14 else 0) ≤ swapSteps s now k' z amount b limit / 10 ^ 14 := by
      cases z
      · simp only [Bool.false_eq_true, if_false, mul_zero]; exact hε
      · simp only [if_true]; rw [mul_one_div]
    simp only
    linarith
  · have hz' : z = !d := by cases z <;> cases d <;> simp_all
    subst hz'
    unfold swapCharge
    rw [if_neg (fun e => hz e.2), hB.other]
    simp only
    rw [hB.protoOther]
    linarith

theorem route_claimable {c : Chain} {P : PoolKey → Prop} {info : Info} {now : Nat} {k : PoolKey} (hk : k.wf) (hP : P k) (z : Bool) :
    ∀ {hops : List Hop} {s s' : Store} {a fin : Nat} {m out : List OutMsg}, MReach c s → ActiveIn P s →
    (∀ h ∈ hops, h.poolKey.wf) → a < U128 →
    swapRouteInternal c info now hops s a m = .ok (s', fin, out) → RegularRoute c P info now hops s a →
    claimable s' k z ≤ claimable s k z + routeCharges c info now hops s a k z + routeSteps c info now hops s a / 10 ^ 14
  | [], s, s', a, fin, m, out, _, _, _, _, h, _ => by
    simp only [swapRouteInternal, ok_inj, Prod.mk.injEq] at h
    obtain ⟨rfl, -, rfl⟩ := h
    simp [routeCharges, routeSteps]
  | hh :: hops, s, s', a, fin, m, out, hr, h0, hw, ha, h, hreg => by
    simp only [swapRouteInternal, bind_ok] at h
    obtain ⟨x, h1, h2⟩ := h
    obtain ⟨g1, g2⟩ := hreg x h1
    have hkh := hw hh (by simp)
    have hmi : Micro c s x.1 := .swap hkh ha (by unfold hopLimit; split <;> decide) h1
    have ih := route_claimable hk hP z (.step hr hmi) (h0.swap hr hkh h1 g1) (fun h hh => hw h (by simp [hh])) (swapInternal_out_lt h1) h2 g2
    have st := swap_claimable hr h0 hkh h1 g1 hk hP z
    have hsteps : routeSteps c info now (hh :: hops) s a = swapSteps s now hh.poolKey hh.xToY a true (hopLimit hh.xToY) +
        routeSteps c info now hops x.1 x.2.2.amountOut := by
      simp only [routeSteps, h1]
    have hch : routeCharges c info now (hh :: hops) s a k z = swapCharge s x.1 hh.poolKey hh.xToY x.2.2.amountIn k z +
        routeCharges c info now hops x.1 x.2.2.amountOut k z := by
      simp only [routeCharges, h1]
    rw [hsteps, hch]
    push_cast
    rw [add_div]
    linarith

theorem create_claimable {c : Chain} {s s' : Store} {env : Env} {info : Info} {k : PoolKey}
    {l u : Int} {L lo hi : Nat} {out : List OutMsg} (hs : Struct s) (hs' : Struct s') (hi' : PosInv s) (ht : TickSum s) (hpr : PriceInv s)
    (hw : (Msg.createPosition k l u L lo hi).wf) (h : createPosition c s env info k l u L lo hi = .ok (s', out))
    {k' : PoolKey} (hk' : k'.wf) (z : Bool) : claimable s' k' z = claimable s k' z := by
  obtain ⟨p, pool, pool', m1, m2, x, y, hwhat, hperm, hp, hpools, hproto, t1, t2, ho, hacc, wx, wy⟩ := create_owes hs hs' hi' hpr hw h
  have hk := hw.1
  have hkept : sumQ s k' (fun q => (accrued s' z q : ℚ) / 10 ^ 34) = sumQ s k' (fun q => (accrued s z q : ℚ) / 10 ^ 34) :=
    sumQ_ext (fun q hq => by rw [(create_kept hs ht hw h (mem_positionsOf.1 hq).1 z).1])
  have hsum : sumQ s' k' (fun q => (accrued s' z q : ℚ) / 10 ^ 34) = sumQ s k' (fun q => (accrued s z q : ℚ) / 10 ^ 34) := by
    rw [sumQ_cons hperm, hacc, hkept]
    simp
  by_cases e : k' = k
  · subst e
    rw [claimable_some hp, claimable_some (p := pool') (by rw [hpools, KV.get?_insert_same]), hsum, hproto]
  · exact claimable_kept (by rw [hpools, KV.get?_insert_other _ _ (key_ne hk' hk e)]) hsum

theorem claim_claimable {c : Chain} {s s' : Store} {env : Env} {info : Info} {i : Nat} {out : List OutMsg}
    (hs : Struct s) (h : claimFee c s env info i = .ok (s', out)) {k' : PoolKey} (hk' : k'.wf) (z : Bool) :
    claimable s' k' z + positionFees s info.sender i k' z ≤ claimable s k' z := by
  obtain ⟨pos, pos', pool, pool', hpos, hpos', hwhat, _, hp, hpools, he, ho, hacc, hworth⟩ := claim_owes hs h
  have hok := hs.positions _ _ hpos
  have hk := hok.kwf
  have hpk : pos'.poolKey = pos.poolKey := by unfold Position.what at hwhat; exact (Prod.mk.inj hwhat).1
  have hself : accrued s' z pos = accrued s z pos := (claim_kept hs h ((mem_vals _ _).2 ⟨_, hpos⟩) z).1
  have hkept : sumQ s k' (fun q => (accrued s' z q : ℚ) / 10 ^ 34) = sumQ s k' (fun q => (accrued s z q : ℚ) / 10 ^ 34) :=
    sumQ_ext (fun q hq => by rw [(claim_kept hs h (mem_positionsOf.1 hq).1 z).1])
  have hp' : s'.pools.get? pos.poolKey.key = some pool' := by rw [hpools, KV.get?_insert_same]
  have hproto : pool'.proto z = pool.proto z := by rw [he]; rfl
  unfold positionFees
  rw [hpos]
  simp only
  by_cases e : pos.poolKey = k'
  · subst e
    rw [claimable_some hp, claimable_some hp', sumQ_edit hpos hpos' _ _ hpk, if_pos rfl, if_pos rfl, hkept, hproto, hself, hacc]
    have := floor_le_q (accrued s z pos)
    push_cast at this ⊢
    rw [zero_div]
    linarith
  · rw [if_neg e, claimable_kept (s := s) (s' := s') (by rw [hpools, KV.get?_insert_other _ _ (key_ne hk' hk (Ne.symm e))])
      (by rw [sumQ_edit hpos hpos' _ _ hpk, if_neg e, hkept, add_zero])]
    simp

theorem remove_claimable {c : Chain} {s s' : Store} {env : Env} {info : Info} {i : Nat} {out : List OutMsg}
    (hs : Struct s) (hs' : Struct s') (hi : PosInv s) (ht' : TickSum s') (hpr : PriceInv s) (hw : i < U32)
    (h : removePosition c s env info i = .ok (s', out)) {k' : PoolKey} (hk' : k'.wf) (z : Bool) :
    claimable s' k' z + positionFees s info.sender i k' z ≤ claimable s k' z := by
  obtain ⟨pos, pool, pool', x, y, hpos, hperm, hp, hpools, hproto, ho, hx, hy⟩ := remove_owes hs hi hpr hw h
  have hok := hs.positions _ _ hpos
  have hk := hok.kwf
  have hkept : sumQ s' k' (fun q => (accrued s' z q : ℚ) / 10 ^ 34) = sumQ s' k' (fun q => (accrued s z q : ℚ) / 10 ^ 34) :=
    sumQ_ext (fun q hq => by rw [(remove_kept hs hs' hi ht' hw h (mem_positionsOf.1 hq).1 z).1])
  have hp' : s'.pools.get? pos.poolKey.key = some pool' := by rw [hpools, KV.get?_insert_same]
  unfold positionFees
  rw [hpos]
  simp only
  by_cases e : pos.poolKey = k'
  · subst e
    rw [claimable_some hp, claimable_some hp', sumQ_cons hperm, if_pos rfl, if_pos rfl, hkept, hproto]
    have := floor_le_q (accrued s z pos)
    push_cast at this ⊢
    linarith
  · rw [if_neg e, claimable_kept (s := s) (s' := s') (by rw [hpools, KV.get?_insert_other _ _ (key_ne hk' hk (Ne.symm e))])
      (by rw [sumQ_cons hperm, if_neg e, hkept, zero_add])]
    simp

theorem newPool_claimable {s s' : Store} (hs : Struct s) {env : Env} {t0 t1 : Bytes} {tier : FeeTier} {price : Nat} {tick : Int}
    {out : List OutMsg} (hw : (Msg.createPool t0 t1 tier price tick).wf) (h : createPool s env t0 t1 tier price tick = .ok (s', out))
    {k' : PoolKey} (hk' : k'.wf) (z : Bool) : claimable s' k' z ≤ claimable s k' z := by
  obtain ⟨cfg, k, pool, h1, h2, h3, h4, h5, h6, rfl, ho⟩ := createPool_inv h
  have hk : k.wf := by
    unfold PoolKey.new at h4
    obtain ⟨w1, w2, w3, _⟩ := hw
    split at h4
    · simp at h4
    · split at h4
      · rw [ok_inj] at h4; subst h4; exact ⟨w1, w2, w3⟩
      · rw [ok_inj] at h4; subst h4; exact ⟨w2, w1, w3⟩
  have hl : pool.proto z = 0 := by
    unfold Pool.create at h6
    rw [bind_ok] at h6
    obtain ⟨b, -, h6⟩ := h6
    cases b
    · simp at h6
    · simp only [Bool.not_true, Bool.false_eq_true, if_false, pure_ok] at h6
      rw [← h6]
      cases z <;> rfl
  by_cases e : k' = k
  · subst e
    have hnone : positionsOf s k' = [] := by
      rw [List.eq_nil_iff_forall_not_mem]
      intro q hq
      obtain ⟨hq, hqk⟩ := mem_positionsOf.1 hq
      obtain ⟨id, hid⟩ := memPos hq
      obtain ⟨p, hp⟩ := (hs.positions _ _ hid).pool
      rw [hqk, h5] at hp
      simp at hp
    rw [claimable_some (p := pool) (KV.get?_insert_same _ _ _), hl]
    have : sumQ (savePool s k' pool) k' (fun q => (accrued (savePool s k' pool) z q : ℚ) / 10 ^ 34) = 0 := by
      unfold sumQ
      have : positionsOf (savePool s k' pool) k' = [] := hnone
      rw [this]; rfl
    rw [this]
    have := claimable_nonneg s k' z
    push_cast
    linarith
  · exact le_of_eq (claimable_frame (s := s) (s' := savePool s k pool) (KV.get?_insert_other _ _ (key_ne hk' hk e)) (fun _ => rfl) rfl z)

theorem moved_claimable {s s1 s2 : Store} {o r : Bytes} {i : Nat} {p : Position} (hi : PosInv s) (hw : i < U32)
    (h1 : removePositionAt s o i = .ok (s1, p)) (h2 : addPosition s1 r { p with approvals := [] } = .ok s2) (k : PoolKey) (z : Bool) :
    claimable s2 k z = claimable s k z := by
  obtain ⟨a, b, e1⟩ := removePositionAt_frame h1
  obtain ⟨a', b', e2⟩ := addPosition_frame h2
  exact claimable_same (by rw [e2, e1]) (by rw [e2, e1]) (fun k f hf => sumQ_move hi hw h1 h2 k f (hf p [])) k z

theorem appr_claimable {s : Store} {id : Bytes} {p : Position} (hp : s.positions.get? id = some p) (a : List Approval) (k : PoolKey) (z : Bool) :
    claimable { s with positions := s.positions.insert id { p with approvals := a } } k z = claimable s k z := by
  refine claimable_same (s := s) (s' := { s with positions := s.positions.insert id { p with approvals := a } }) rfl rfl (fun k f hf => ?_) k z
  rw [sumQ_edit (s := s) (p' := { p with approvals := a }) hp rfl k f rfl, hf, sub_self, ite_self, add_zero]

theorem execute_claimable {c : Chain} {P : PoolKey → Prop} {env : Env} {info : Info} {msg : Msg} {s s' : Store} {out : List OutMsg}
    (hr : MReach c s) (hr' : MReach c s') (ha : ActiveIn P s)
    (h : execute c env info msg s = .ok (s', out)) (hreg : RegularCall c P env info s s' msg) {k : PoolKey} (hk : k.wf) (hP : P k) (z : Bool) :
    claimable s' k z + feesPaid info s msg k z ≤
      claimable s k z + feesCharged c env info s msg k z + roundings c env info s msg / 10 ^ 14 := by
  have hw := (execute_ok.1 h).1
  replace h := (execute_ok.1 h).2
  have hs := hr.struct
  have hi := hr.posInv
  cases msg <;> simp only [dispatch] at h <;> simp only [feesPaid, feesCharged, roundings, Nat.cast_zero, Nat.cast_one, zero_div, add_zero]
  case changeAdmin a =>
    simp only [changeAdmin, bind_ok, ite_error_ok, pure_ok, Prod.mk.injEq, loadConfig_ok] at h
    obtain ⟨cfg, h0, _, h, ho⟩ := h
    rw [← h]
    exact le_refl _
  case withdrawProtocolFee k' =>
    simp only [withdrawProtocolFee, bind_ok, ite_error_ok, pure_ok, Prod.mk.injEq, getPool_ok] at h
    obtain ⟨p0, hp0, _, h, ho⟩ := h
    rw [← h, claimable_meta (p' := { p0 with protoX := 0, protoY := 0 }) hw hp0 rfl rfl rfl rfl hk z]
    by_cases e : k' = k
    · subst e
      have hpf : protocolFees s k' z = p0.proto z := by unfold protocolFees; rw [hp0]
      rw [if_pos rfl, if_pos rfl, hpf]
      have : Pool.proto { p0 with protoX := 0, protoY := 0 } z = 0 := by cases z <;> rfl
      rw [this]
      push_cast
      linarith
    · rw [if_neg e, if_neg e]
      simp
  case changeProtocolFee f =>
    simp only [changeProtocolFee, bind_ok, ite_error_ok, pure_ok, Prod.mk.injEq, loadConfig_ok] at h
    obtain ⟨cfg, h0, _, h, ho⟩ := h
    rw [← h]
    exact le_refl _
  case changeFeeReceiver k' r =>
    simp only [changeFeeReceiver, bind_ok, ite_error_ok, pure_ok, Prod.mk.injEq, getPool_ok] at h
    obtain ⟨_, _, _, p0, hp0, h, ho⟩ := h
    rw [← h, claimable_meta (p' := { p0 with feeReceiver := r }) hw hp0 rfl rfl rfl rfl hk z]
    have : Pool.proto { p0 with feeReceiver := r } z = p0.proto z := rfl
    rw [this, sub_self, ite_self, add_zero]
  case createPosition k' l u L lo hi' =>
    rw [create_claimable hs hr'.struct hi hr.tickSum hr.price hw h hk z]
    linarith [show (0 : ℚ) ≤ 1 / 10 ^ 14 by positivity]
  case mint k' l u L lo hi' =>
    rw [create_claimable hs hr'.struct hi hr.tickSum hr.price hw h hk z]
    linarith [show (0 : ℚ) ≤ 1 / 10 ^ 14 by positivity]
  case swap k' d a b l =>
    obtain ⟨r, h⟩ := swap_inv h
    have := swap_claimable hr ha hw.1 h hreg hk hP z
    rw [h]
    exact this
  case swapRoute a e sl hops =>
    obtain ⟨fin, m, h1, _, _⟩ := swapRoute_inv h
    exact route_claimable hk hP z hr ha hw.2.2.2 hw.1 h1 hreg
  case transferPosition i r =>
    obtain ⟨pos, s1, _, h1, _, h2, ho⟩ := transferPosition_inv h
    rw [moved_claimable hi hw h1 h2]
  case claimFee i => exact claim_claimable hs h hk z
  case removePosition i => exact remove_claimable hs hr'.struct hi hr'.tickSum hr.price hw h hk z
  case createPool t0 t1 tier price tick => exact newPool_claimable hs hw h hk z
  case addFeeTier t =>
    simp only [addFeeTier, bind_ok, ite_error_ok, pure_ok, Prod.mk.injEq, loadConfig_ok] at h
    obtain ⟨cfg, h0, _, h1, h2, h, ho⟩ := h
    rw [← h]
    exact le_refl _
  case removeFeeTier t =>
    simp only [removeFeeTier, bind_ok, ite_error_ok, ite_ok_error, pure_ok, Prod.mk.injEq, loadConfig_ok] at h
    obtain ⟨cfg, h0, _, _, h, ho⟩ := h
    rw [← h]
    exact le_refl _
  case transferNft r id =>
    simp only [transferNft, bind_ok, pure_ok, Prod.mk.injEq] at h
    obtain ⟨_, h1, rfl, ho⟩ := h
    obtain ⟨o, pos, s1, p, e1, e2, _, e4, e5⟩ := transferNftInternal_inv h1
    have hsp := tokenOwner_spec e1
    obtain ⟨_, _, hp, _⟩ := removePositionAt_inv e4
    rw [hsp.1, e2] at hp
    cases hp
    rw [moved_claimable hi hsp.2 e4 e5]
  case burn id =>
    obtain ⟨o, _, h1, _, _, h⟩ := burn_inv h
    exact remove_claimable hs hr'.struct hi hr'.tickSum hr.price (tokenOwner_spec h1).2 h hk z
  case sendNft ct id m =>
    simp only [sendNft, bind_ok, pure_ok, Prod.mk.injEq] at h
    obtain ⟨_, h1, rfl, ho⟩ := h
    obtain ⟨o, pos, s1, p, e1, e2, _, e4, e5⟩ := transferNftInternal_inv h1
    have hsp := tokenOwner_spec e1
    obtain ⟨_, _, hp, _⟩ := removePositionAt_inv e4
    rw [hsp.1, e2] at hp
    cases hp
    rw [moved_claimable hi hsp.2 e4 e5]
  case approve sp id ex =>
    obtain ⟨_, _, _, hp, _, ho, _, e⟩ := updateApprovals_inv h
    rw [e, appr_claimable hp]
  case revoke sp id =>
    obtain ⟨_, _, _, hp, _, ho, _, e⟩ := updateApprovals_inv h
    rw [e, appr_claimable hp]
  case approveAll o ex =>
    simp only [approveAll, ite_error_ok, ok_inj, Prod.mk.injEq] at h
    rw [← h.2.1]
    exact le_refl _
  case revokeAll o =>
    simp only [revokeAll, ok_inj, Prod.mk.injEq] at h
    rw [← h.1]
    exact le_refl _

theorem FeeHistory.regular {c : Chain} {P : PoolKey → Prop} {s : Store} {n : Nat} {charged : PoolKey → Bool → ℚ} {paid : PoolKey → Bool → Nat}
    (h : FeeHistory c P s n charged paid) : RegularReach c P s := by
  induction h with
  | init sender fee hf => exact .init sender fee hf
  | step _ he hreg ih => exact .step ih he hreg

theorem FeeHistory.bound {c : Chain} {P : PoolKey → Prop} {s : Store} {n : Nat} {charged : PoolKey → Bool → ℚ} {paid : PoolKey → Bool → Nat}
    (h : FeeHistory c P s n charged paid) {k : PoolKey} (hk : k.wf) (hP : P k) (z : Bool) :
    claimable s k z + paid k z ≤ charged k z + n / 10 ^ 14 := by
  induction h with
  | init sender fee hf =>
    have : claimable (instantiate sender fee) k z = 0 := by
      unfold claimable totalAccrued sumPositions protocolFees
      have : positionsOf (instantiate sender fee) k = [] := by
        rw [List.eq_nil_iff_forall_not_mem]
        intro q hq
        obtain ⟨id, hid⟩ := memPos (mem_positionsOf.1 hq).1
        simp [instantiate, Store.empty, KV.get?_empty] at hid
      rw [this]
      simp [instantiate, Store.empty, KV.get?_empty]
    rw [this]
    simp
  | @step s s' n charged paid env info msg out hh he hreg ih =>
    have hr := hh.regular
    have := execute_claimable hr.reach.mreach (Reach.mreach (.step hr.reach he)) hr.active he hreg hk hP z
    push_cast
    rw [add_div]
    linarith

end OraiV3
