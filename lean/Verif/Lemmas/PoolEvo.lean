import Verif.Lemmas.SwapInv
import Verif.Spec

/-!
# How pools and the configuration evolve under every call
-/

namespace OraiV3

/-- What a swap in direction `d` may do to a pool record, apart from price, tick and liquidity. -/
structure SwapKeeps (d : Bool) (p p' : Pool) : Prop where
  feeReceiver : p'.feeReceiver = p.feeReceiver
  startTs : p'.startTs = p.startTs
  proto : if d then p.protoX ≤ p'.protoX ∧ p'.protoY = p.protoY
    else p.protoY ≤ p'.protoY ∧ p'.protoX = p.protoX

theorem SwapKeeps.refl (d : Bool) (p : Pool) : SwapKeeps d p p := ⟨rfl, rfl, by cases d <;> simp⟩

theorem SwapKeeps.trans {d : Bool} {p q r : Pool} (h : SwapKeeps d p q) (h' : SwapKeeps d q r) :
    SwapKeeps d p r := by
  refine ⟨h'.1.trans h.1, h'.2.trans h.2, ?_⟩
  have a := h.3
  have b := h'.3
  cases d <;> simp at a b ⊢ <;> omega

theorem addFee_keeps {pool p : Pool} {amount : Nat} {d : Bool} {pf : Nat}
    (h : pool.addFee amount d pf = .ok p) : SwapKeeps d pool p := by
  obtain ⟨_, ⟨_, h⟩ | ⟨_, _, g, _, h⟩⟩ := Pool.addFee_inv h
  · subst h; exact .refl _ _
  · cases d
    · obtain ⟨_, h⟩ := h; subst h; exact ⟨rfl, rfl, by simp⟩
    · obtain ⟨_, h⟩ := h; subst h; exact ⟨rfl, rfl, by simp⟩

theorem updateTick_keeps {pool : Pool} {np sl : Nat} {upd : TickUpd} {rem : Nat} {b d : Bool} {now pf : Nat}
    {tier : FeeTier} {u : TickUpdRes}
    (h : pool.updateTick np sl upd rem b d now pf tier = .ok u) : SwapKeeps d pool u.pool := by
  rcases updateTick_inv h with ⟨_, t, _, h⟩ | ⟨_, e, _, ⟨i, _, h⟩ | ⟨t, _, h⟩⟩
  · subst h; exact ⟨rfl, rfl, by cases d <;> simp⟩
  · subst h; exact ⟨rfl, rfl, by cases d <;> simp⟩
  · rcases h with ⟨_, tp, hc, h⟩ | ⟨hd, _, _, _, p, hp, h⟩ | ⟨_, _, _, h⟩
    · obtain ⟨liq, _, _, _, h2⟩ := Tick.cross_inv hc
      subst h
      rw [h2]
      exact ⟨rfl, rfl, by cases d <;> simp⟩
    · subst h
      have := addFee_keeps hp
      exact ⟨this.1, this.2, this.3⟩
    · subst h; exact ⟨rfl, rfl, by cases d <;> simp⟩

theorem swapIter_keeps {s : Store} {pr : SwapParams} {st st' : SwapState} (h : swapIter s pr st = .ok st') :
    SwapKeeps pr.xToY st.pool st'.pool := by
  obtain ⟨cl, r, cfg, pool1, upd, u, rem, _, _, _, _, h1, _, _, h2, _, _, _, h3⟩ := swapIter_inv h
  have a := addFee_keeps h1
  have b := updateTick_keeps h2
  subst h3
  exact a.trans ⟨b.1, b.2, b.3⟩

theorem calculateSwap_keeps {s : Store} {now : Nat} {k : PoolKey} {d : Bool} {amount : Nat} {b : Bool}
    {limit : Nat} {r : CalcSwapResult} (h : calculateSwap s now k d amount b limit = .ok r) :
    ∃ pool, s.pools.get? k.key = some pool ∧ SwapKeeps d pool r.pool := by
  obtain ⟨pool, st, _, hp, _, _, hl, _, hr⟩ := calculateSwap_inv h
  refine ⟨pool, hp, ?_⟩
  have := (swapLoop_induct (fun x => SwapKeeps d pool x.pool)
    (fun a b ha _ hab => ha.trans (swapIter_keeps hab)) _ _ _ (.refl _ _) hl).1
  rw [hr]; exact this

theorem swapInternal_frame {c : Chain} {s : Store} {info : Info} {now : Nat} {k : PoolKey} {d : Bool}
    {amount : Nat} {b : Bool} {limit : Nat} {x : Store × List OutMsg × CalcSwapResult}
    (h : swapInternal c s info now k d amount b limit = .ok x) :
    ∃ ticks, x.1 = { s with ticks := ticks, pools := s.pools.insert k.key x.2.2.pool } := by
  obtain ⟨s1, m1, h1, h2, h3, h4, h5⟩ := swapInternal_inv h
  obtain ⟨ticks, hs⟩ := saveTicks_frame h2
  refine ⟨ticks, ?_⟩
  rw [h3, hs]; rfl

theorem modify_pool {p : Position} {pool : Pool} {upper lower : Tick} {delta : Nat} {add : Bool} {now ts : Nat}
    {r : ModifyRes} (h : p.modify pool upper lower delta add now ts = .ok r) :
    ∃ liq, r.pool = { pool with lastTs := now, liquidity := liq } := by
  obtain ⟨q, _, _, _, hq, h1, _, _⟩ := Position.modify_inv h
  obtain ⟨a, liq, _, _, h2⟩ := Pool.updateLiquidity_inv hq
  rw [h1, h2]
  exact ⟨liq, rfl⟩

theorem create_pool {pool : Pool} {k : PoolKey} {lower upper : Tick} {now L lo hi block ts : Nat}
    {r : ModifyRes} (h : Position.create pool k lower upper now L lo hi block ts = .ok r) :
    lo ≤ pool.sqrtPrice ∧ pool.sqrtPrice ≤ hi ∧ ∃ liq, r.pool = { pool with lastTs := now, liquidity := liq } := by
  obtain ⟨h1, h2, h3⟩ := Position.create_inv h
  exact ⟨h1, h2, modify_pool h3⟩

theorem claimFee_pool {p : Position} {pool : Pool} {upper lower : Tick} {now : Nat}
    {r : ModifyRes} (h : p.claimFee pool upper lower now = .ok r) :
    ∃ liq, r.pool = { pool with lastTs := now, liquidity := liq } := by
  obtain ⟨q, h1, rfl⟩ := Position.claimFee_inv h
  exact modify_pool (r := q) h1

theorem remove_pool {p : Position} {pool : Pool} {upper lower : Tick} {now ts : Nat}
    {r : ModifyRes} (h : p.remove pool now lower upper ts = .ok r) :
    ∃ liq, r.pool = { pool with lastTs := now, liquidity := liq } := by
  obtain ⟨q, h1, _, _, rfl⟩ := Position.remove_inv h
  exact modify_pool (r := q) h1

/-- Storage effect of creating a position, by component. -/
theorem createPosition_frame {c : Chain} {s s' : Store} {env : Env} {info : Info} {k : PoolKey}
    {l u : Int} {L lo hi : Nat} {out : List OutMsg}
    (h : createPosition c s env info k l u L lo hi = .ok (s', out)) :
    ∃ pool liq pos ticks bitmap, s.pools.get? k.key = some pool ∧ lo ≤ pool.sqrtPrice ∧ pool.sqrtPrice ≤ hi ∧
      getPositionLength s info.sender + 1 < U32 ∧
      s' = { s with
        pools := s.pools.insert k.key { pool with lastTs := env.millis, liquidity := liq },
        positions := s.positions.insert (positionKey info.sender (getPositionLength s info.sender)) pos,
        posLen := s.posLen.insert info.sender (getPositionLength s info.sender + 1),
        ticks := ticks, bitmap := bitmap } := by
  obtain ⟨pool, rl, ru, r, s1, s2, m1, m2, _, _, hp, h1, h2, h3, h4, h5, h6, _, _, _⟩ := createPosition_inv h
  obtain ⟨t1, b1, e1⟩ := getOrCreateTick_frame h1
  obtain ⟨t2, b2, e2⟩ := getOrCreateTick_frame h2
  obtain ⟨hlo, hhi, liq, e3⟩ := create_pool h3
  rw [addPosition_ok] at h4
  rw [updateTick_ok] at h5 h6
  rw [e1] at e2
  have hlen : getPositionLength (savePool ru.1 k r.pool) info.sender = getPositionLength s info.sender := by
    rw [e2]; rfl
  rw [hlen] at h4
  refine ⟨pool, liq, r.pos, (s2.ticks.insert (tickKey k r.upper.index) r.upper), b2, hp, hlo, hhi, h4.1, ?_⟩
  rw [h6.2, h5.2, h4.2, e2, e3]
  rfl

/-- Storage effect of claiming fees, by component. -/
theorem claimFee_frame {c : Chain} {s s' : Store} {env : Env} {info : Info} {i : Nat} {out : List OutMsg}
    (h : claimFee c s env info i = .ok (s', out)) :
    ∃ pos pool liq pos' ticks, s.positions.get? (positionKey info.sender i) = some pos ∧
      s.pools.get? pos.poolKey.key = some pool ∧
      i < getPositionLength s info.sender ∧
      s' = { s with
        pools := s.pools.insert pos.poolKey.key { pool with lastTs := env.millis, liquidity := liq },
        positions := s.positions.insert (positionKey info.sender i) pos',
        ticks := ticks } := by
  obtain ⟨pos, lower, upper, pool, r, s1, s2, hp, hl, hu, hpool, h1, h2, h3, h4, _⟩ := claimFee_inv h
  obtain ⟨liq, e1⟩ := claimFee_pool h1
  rw [updatePosition_ok] at h2
  rw [updateTick_ok] at h3 h4
  refine ⟨pos, pool, liq, r.pos, (s2.ticks.insert (tickKey pos.poolKey r.lower.index) r.lower), hp, hpool,
    h2.1, ?_⟩
  rw [h4.2, h3.2, h2.2, e1]
  rfl

/-- Storage effect of `removePositionAt`, by component. -/
theorem removePositionAt_frame {s s' : Store} {o : Bytes} {i : Nat} {p : Position}
    (h : removePositionAt s o i = .ok (s', p)) :
    ∃ positions posLen, s' = { s with positions := positions, posLen := posLen } := by
  obtain ⟨n, _, _, ⟨_, _, _, h⟩ | ⟨_, h⟩⟩ := removePositionAt_inv h
  · exact ⟨_, _, h⟩
  · exact ⟨_, _, h⟩

/-- `removePositionAt` looks only at the positions. -/
theorem removePositionAt_congr {s s1 s' : Store} {o : Bytes} {i : Nat} {p : Position}
    (h1 : s1.positions = s.positions) (h2 : s1.posLen = s.posLen)
    (h : removePositionAt s1 o i = .ok (s', p)) :
    ∃ s2, removePositionAt s o i = .ok (s2, p) ∧ s2.positions = s'.positions ∧ s2.posLen = s'.posLen := by
  obtain ⟨c, po, ps, pl, t, b, op⟩ := s
  obtain ⟨c1, po1, ps1, pl1, t1, b1, op1⟩ := s1
  simp only at h1 h2
  subst h1 h2
  unfold removePositionAt at h ⊢
  simp only [getPositionLength, getPosition, getPositionByKey] at h ⊢
  rw [bind_ok] at h
  obtain ⟨n, hn, h⟩ := h
  rw [hn, ok_bind]
  rw [bind_ok] at h
  obtain ⟨q, hq, h⟩ := h
  rw [hq, ok_bind]
  split at h
  · rename_i hi
    rw [if_pos hi]
    split at h
    · simp at h
    · rw [pure_ok, Prod.mk.injEq] at h
      obtain ⟨rfl, rfl⟩ := h
      exact ⟨_, rfl, rfl, rfl⟩
  · rename_i hi
    rw [if_neg hi]
    rw [pure_ok, Prod.mk.injEq] at h
    obtain ⟨rfl, rfl⟩ := h
    exact ⟨_, rfl, rfl, rfl⟩

/-- Storage effect of removing a position, by component. -/
theorem removePosition_frame {c : Chain} {s s' : Store} {env : Env} {info : Info} {i : Nat}
    {out : List OutMsg} (h : removePosition c s env info i = .ok (s', out)) :
    ∃ pos pool liq s2 ticks bitmap, s.positions.get? (positionKey info.sender i) = some pos ∧
      s.pools.get? pos.poolKey.key = some pool ∧
      removePositionAt s info.sender i = .ok (s2, pos) ∧
      s' = { s with
        pools := s.pools.insert pos.poolKey.key { pool with lastTs := env.millis, liquidity := liq },
        positions := s2.positions, posLen := s2.posLen,
        ticks := ticks, bitmap := bitmap } := by
  obtain ⟨pos, lower, upper, pool, r, s1, s2, pos', hp, hl, hu, hpool, h1, h2, h3, h4, _⟩ :=
    removePosition_inv h
  obtain ⟨liq, e1⟩ := remove_pool h1
  obtain ⟨t2, b2, e2⟩ := settleTick_frame h2
  obtain ⟨t3, b3, e3⟩ := settleTick_frame h3
  obtain ⟨ps, pl, e4⟩ := removePositionAt_frame h4
  have hps : s2.positions = s.positions := by rw [e3, e2]; rfl
  have hpl : s2.posLen = s.posLen := by rw [e3, e2]; rfl
  obtain ⟨s5, h5, h6, h7⟩ := removePositionAt_congr hps hpl h4
  have : pos' = pos := by
    obtain ⟨_, _, hq, _⟩ := removePositionAt_inv h5
    rw [hp] at hq; cases hq; rfl
  subst this
  refine ⟨pos', pool, liq, s5, t3, b3, hp, hpool, h5, ?_⟩
  rw [h6, h7, e4, e3, e2, e1]
  rfl

theorem addPosition_frame {s s' : Store} {o : Bytes} {p : Position} (h : addPosition s o p = .ok s') :
    ∃ positions posLen, s' = { s with positions := positions, posLen := posLen } := by
  rw [addPosition_ok] at h
  exact ⟨_, _, h.2⟩

theorem transferNftInternal_frame {s s' : Store} {env : Env} {info : Info} {rcp id : Bytes}
    (h : transferNftInternal s env info rcp id = .ok s') :
    ∃ positions posLen, s' = { s with positions := positions, posLen := posLen } := by
  obtain ⟨_, _, s1, _, _, _, _, h1, h2⟩ := transferNftInternal_inv h
  obtain ⟨a, b, e1⟩ := removePositionAt_frame h1
  obtain ⟨a', b', e2⟩ := addPosition_frame h2
  rw [e1] at e2
  exact ⟨a', b', e2⟩

theorem transferPosition_frame {c : Chain} {s s' : Store} {info : Info} {i : Nat} {rcv : Bytes}
    {out : List OutMsg} (h : transferPosition c s info i rcv = .ok (s', out)) :
    ∃ positions posLen, s' = { s with positions := positions, posLen := posLen } := by
  obtain ⟨_, s1, _, h1, _, h2, _⟩ := transferPosition_inv h
  obtain ⟨a, b, e1⟩ := removePositionAt_frame h1
  obtain ⟨a', b', e2⟩ := addPosition_frame h2
  rw [e1] at e2
  exact ⟨a', b', e2⟩

theorem swapRouteInternal_frame {c : Chain} {info : Info} {now : Nat} : ∀ {hops : List Hop} {s s' : Store}
    {a fin : Nat} {m out : List OutMsg},
    swapRouteInternal c info now hops s a m = .ok (s', fin, out) →
    ∃ ticks pools, s' = { s with ticks := ticks, pools := pools }
  | [], s, s', a, fin, m, out, h => by
    simp only [swapRouteInternal, ok_inj, Prod.mk.injEq] at h
    exact ⟨s.ticks, s.pools, h.1.symm⟩
  | hp :: hops, s, s', a, fin, m, out, h => by
    simp only [swapRouteInternal, bind_ok] at h
    obtain ⟨x, h1, h2⟩ := h
    obtain ⟨t, e1⟩ := swapInternal_frame h1
    obtain ⟨t', p', e2⟩ := swapRouteInternal_frame h2
    rw [e1] at e2
    exact ⟨t', p', e2⟩

/-- Relation between a pool before and after a call. -/
def PoolRel (msg : Msg) (key : Bytes) (p p' : Pool) : Prop :=
  p'.startTs = p.startTs ∧
  (p'.feeReceiver = p.feeReceiver ∨ ∃ k, msg = .changeFeeReceiver k p'.feeReceiver ∧ k.key = key) ∧
  ((p.protoX ≤ p'.protoX ∧ p.protoY ≤ p'.protoY) ∨
    ∃ k, msg = .withdrawProtocolFee k ∧ k.key = key ∧ p' = { p with protoX := 0, protoY := 0 }) ∧
  ((p'.protoX = p.protoX ∧ p'.protoY = p.protoY) ∨ (∃ k, msg = .withdrawProtocolFee k ∧ k.key = key) ∨
    (∃ k d a b l, msg = .swap k d a b l ∧ k.key = key) ∨
    (∃ a e sl hops h, msg = .swapRoute a e sl hops ∧ h ∈ hops ∧ h.poolKey.key = key))

theorem PoolRel.refl (msg : Msg) (key : Bytes) (p : Pool) : PoolRel msg key p p :=
  ⟨rfl, .inl rfl, .inl ⟨Nat.le_refl _, Nat.le_refl _⟩, .inl ⟨rfl, rfl⟩⟩

theorem PoolRel.liq (msg : Msg) (key : Bytes) (p : Pool) (ts l : Nat) :
    PoolRel msg key p { p with lastTs := ts, liquidity := l } :=
  ⟨rfl, .inl rfl, .inl ⟨Nat.le_refl _, Nat.le_refl _⟩, .inl ⟨rfl, rfl⟩⟩

/-- Effect on all pools of writing one existing pool. -/
theorem pools_insert_rel {R : Bytes → Pool → Pool → Prop} {m : KV Pool} {key0 : Bytes} {p0 p1 : Pool}
    (h0 : m.get? key0 = some p0) (hr : ∀ key p, R key p p) (h1 : R key0 p0 p1) :
    ∀ key p, m.get? key = some p → ∃ p', (m.insert key0 p1).get? key = some p' ∧ R key p p' := by
  intro key p hp
  rw [KV.get?_insert]
  by_cases hk : key = key0
  · subst hk
    rw [h0] at hp
    cases hp
    exact ⟨p1, by simp, h1⟩
  · exact ⟨p, by simp [hk, hp], hr key p⟩

theorem swapRouteInternal_pools {c : Chain} {info : Info} {now : Nat} : ∀ {hops : List Hop} {s s' : Store}
    {a fin : Nat} {m out : List OutMsg},
    swapRouteInternal c info now hops s a m = .ok (s', fin, out) →
    ∀ key p, s.pools.get? key = some p → ∃ p', s'.pools.get? key = some p' ∧
      p'.startTs = p.startTs ∧ p'.feeReceiver = p.feeReceiver ∧ p.protoX ≤ p'.protoX ∧ p.protoY ≤ p'.protoY ∧
      ((∃ h ∈ hops, h.poolKey.key = key) ∨ p' = p)
  | [], s, s', a, fin, m, out, h => by
    simp only [swapRouteInternal, ok_inj, Prod.mk.injEq] at h
    intro key p hp
    exact ⟨p, h.1 ▸ hp, rfl, rfl, Nat.le_refl _, Nat.le_refl _, .inr rfl⟩
  | hh :: hops, s, s', a, fin, m, out, h => by
    simp only [swapRouteInternal, bind_ok] at h
    obtain ⟨x, h1, h2⟩ := h
    obtain ⟨t, e1⟩ := swapInternal_frame h1
    obtain ⟨_, _, h3, _⟩ := swapInternal_inv h1
    obtain ⟨p0, h4, h5⟩ := calculateSwap_keeps h3
    intro key p hp
    have key1 : ∃ p', x.1.pools.get? key = some p' ∧ p'.startTs = p.startTs ∧ p'.feeReceiver = p.feeReceiver ∧
        p.protoX ≤ p'.protoX ∧ p.protoY ≤ p'.protoY ∧ (hh.poolKey.key = key ∨ p' = p) := by
      rw [e1]
      refine pools_insert_rel (R := fun key p p' => p'.startTs = p.startTs ∧ p'.feeReceiver = p.feeReceiver ∧
        p.protoX ≤ p'.protoX ∧ p.protoY ≤ p'.protoY ∧ (hh.poolKey.key = key ∨ p' = p)) h4 ?_ ?_ key p hp
      · intro key p; exact ⟨rfl, rfl, Nat.le_refl _, Nat.le_refl _, .inr rfl⟩
      · have := h5.proto
        refine ⟨h5.startTs, h5.feeReceiver, ?_, ?_, .inl rfl⟩ <;> cases hd : hh.xToY <;> simp [hd] at this <;> omega
    obtain ⟨p1, a1, a2, a3, a4, a5, a6⟩ := key1
    obtain ⟨p2, b1, b2, b3, b4, b5, b6⟩ := swapRouteInternal_pools h2 key p1 a1
    refine ⟨p2, b1, b2.trans a2, b3.trans a3, by omega, by omega, ?_⟩
    rcases b6 with ⟨h', hm, hk⟩ | b6
    · exact .inl ⟨h', List.mem_cons_of_mem _ hm, hk⟩
    · rcases a6 with a6 | a6
      · exact .inl ⟨hh, List.mem_cons_self, a6⟩
      · exact .inr (b6.trans a6)

/-- What any successful call does to the existing pools. -/
theorem execute_pools {c : Chain} {env : Env} {info : Info} {msg : Msg} {s s' : Store} {out : List OutMsg}
    (h : execute c env info msg s = .ok (s', out)) :
    ∀ key p, s.pools.get? key = some p → ∃ p', s'.pools.get? key = some p' ∧ PoolRel msg key p p' := by
  replace h := (execute_ok.1 h).2
  have same : s'.pools = s.pools →
      ∀ key p, s.pools.get? key = some p → ∃ p', s'.pools.get? key = some p' ∧ PoolRel msg key p p' :=
    fun e key p hp => ⟨p, by rw [e]; exact hp, .refl _ _ _⟩
  cases msg <;> simp only [dispatch] at h
  case changeAdmin a =>
    apply same
    simp only [changeAdmin, bind_ok, ite_error_ok, pure_ok, Prod.mk.injEq] at h
    obtain ⟨_, _, _, h, _⟩ := h
    rw [← h]
  case withdrawProtocolFee k =>
    simp only [withdrawProtocolFee, bind_ok, ite_error_ok, pure_ok, Prod.mk.injEq, getPool_ok] at h
    obtain ⟨p0, hp0, _, h, _⟩ := h
    rw [← h]
    exact pools_insert_rel hp0 (fun key p => .refl _ key p)
      ⟨rfl, .inl rfl, .inr ⟨k, rfl, rfl, rfl⟩, .inr (.inl ⟨k, rfl, rfl⟩)⟩
  case changeProtocolFee f =>
    apply same
    simp only [changeProtocolFee, bind_ok, ite_error_ok, pure_ok, Prod.mk.injEq] at h
    obtain ⟨_, _, _, h, _⟩ := h
    rw [← h]
  case changeFeeReceiver k r =>
    simp only [changeFeeReceiver, bind_ok, ite_error_ok, pure_ok, Prod.mk.injEq, getPool_ok] at h
    obtain ⟨_, _, _, p0, hp0, h, _⟩ := h
    rw [← h]
    exact pools_insert_rel hp0 (fun key p => .refl _ key p)
      ⟨rfl, .inr ⟨k, rfl, rfl⟩, .inl ⟨Nat.le_refl _, Nat.le_refl _⟩, .inl ⟨rfl, rfl⟩⟩
  case createPosition k l u L lo hi =>
    obtain ⟨p0, liq, _, _, _, hp0, _, _, _, e⟩ := createPosition_frame h
    rw [e]
    exact pools_insert_rel hp0 (fun key p => .refl _ key p) (.liq _ _ _ _ _)
  case mint k l u L lo hi =>
    obtain ⟨p0, liq, _, _, _, hp0, _, _, _, e⟩ := createPosition_frame h
    rw [e]
    exact pools_insert_rel hp0 (fun key p => .refl _ key p) (.liq _ _ _ _ _)
  case swap k d a b l =>
    obtain ⟨r, h⟩ := swap_inv h
    obtain ⟨t, e1⟩ := swapInternal_frame h
    obtain ⟨_, _, h3, _⟩ := swapInternal_inv h
    obtain ⟨p0, h4, h5⟩ := calculateSwap_keeps h3
    simp only at e1
    rw [e1]
    refine pools_insert_rel h4 (fun key p => .refl _ key p) ?_
    have := h5.proto
    refine ⟨h5.startTs, .inl h5.feeReceiver, .inl ?_, .inr (.inr (.inl ⟨k, d, a, b, l, rfl, rfl⟩))⟩
    cases hd : d <;> simp [hd] at this ⊢ <;> omega
  case swapRoute a e sl hops =>
    obtain ⟨fin, m, h1, _, _⟩ := swapRoute_inv h
    intro key p hp
    obtain ⟨p', a1, a2, a3, a4, a5, a6⟩ := swapRouteInternal_pools h1 key p hp
    refine ⟨p', a1, a2, .inl a3, .inl ⟨a4, a5⟩, ?_⟩
    rcases a6 with ⟨hh, hm, hk⟩ | a6
    · exact .inr (.inr (.inr ⟨a, e, sl, hops, hh, rfl, hm, hk⟩))
    · rw [a6]; exact .inl ⟨rfl, rfl⟩
  case transferPosition i r =>
    obtain ⟨_, _, e⟩ := transferPosition_frame h
    exact same (by rw [e])
  case claimFee i =>
    obtain ⟨pos, p0, liq, _, _, _, hp0, _, e⟩ := claimFee_frame h
    rw [e]
    exact pools_insert_rel hp0 (fun key p => .refl _ key p) (.liq _ _ _ _ _)
  case removePosition i =>
    obtain ⟨pos, p0, liq, _, _, _, _, hp0, _, e⟩ := removePosition_frame h
    rw [e]
    exact pools_insert_rel hp0 (fun key p => .refl _ key p) (.liq _ _ _ _ _)
  case createPool t0 t1 tier price tick =>
    simp only [createPool, bind_ok, ite_error_ok] at h
    obtain ⟨cfg, _, _, _, _, k, _, hk, h⟩ := h
    rw [Bool.not_eq_true, KV.has_false_iff] at hk
    split at h
    · simp at h
    · simp at h
    · rename_i p0 _
      rw [pure_ok, Prod.mk.injEq] at h
      intro key p hp
      rw [← h.1]
      refine ⟨p, ?_, .refl _ _ _⟩
      simp only [savePool, KV.get?_insert]
      rw [if_neg, hp]
      rintro rfl
      rw [hk] at hp
      simp at hp
  case addFeeTier t =>
    apply same
    simp only [addFeeTier, bind_ok, ite_error_ok, pure_ok, Prod.mk.injEq] at h
    obtain ⟨_, _, _, _, _, h, _⟩ := h
    rw [← h]
  case removeFeeTier t =>
    apply same
    simp only [removeFeeTier, bind_ok, ite_error_ok, ite_ok_error, pure_ok, Prod.mk.injEq] at h
    obtain ⟨_, _, _, _, h, _⟩ := h
    rw [← h]
  case transferNft r id =>
    simp only [transferNft, bind_ok, pure_ok, Prod.mk.injEq] at h
    obtain ⟨_, h1, rfl, _⟩ := h
    obtain ⟨_, _, e⟩ := transferNftInternal_frame h1
    exact same (by rw [e])
  case burn id =>
    obtain ⟨_, _, _, _, _, h⟩ := burn_inv h
    obtain ⟨pos, p0, liq, _, _, _, _, hp0, _, e⟩ := removePosition_frame h
    rw [e]
    exact pools_insert_rel hp0 (fun key p => .refl _ key p) (.liq _ _ _ _ _)
  case sendNft ct id m =>
    simp only [sendNft, bind_ok, pure_ok, Prod.mk.injEq] at h
    obtain ⟨_, h1, rfl, _⟩ := h
    obtain ⟨_, _, e⟩ := transferNftInternal_frame h1
    exact same (by rw [e])
  case approve sp id ex =>
    obtain ⟨_, _, _, _, _, _, _, e⟩ := updateApprovals_inv h
    exact same (by rw [e])
  case revoke sp id =>
    obtain ⟨_, _, _, _, _, _, _, e⟩ := updateApprovals_inv h
    exact same (by rw [e])
  case approveAll o ex =>
    simp only [approveAll, ite_error_ok, ok_inj, Prod.mk.injEq] at h
    exact same (by rw [← h.2.1])
  case revokeAll o =>
    simp only [revokeAll, ok_inj, Prod.mk.injEq] at h
    exact same (by rw [← h.1])

/-- The messages that write the configuration. -/
def Msg.isConfig : Msg → Bool
  | .changeAdmin _ | .changeProtocolFee _ | .addFeeTier _ | .removeFeeTier _ => true
  | _ => false

/-- Only the four configuration messages change the configuration. -/
theorem execute_config {c : Chain} {env : Env} {info : Info} {msg : Msg} {s s' : Store} {out : List OutMsg}
    (h : execute c env info msg s = .ok (s', out)) (hm : msg.isConfig = false) : s'.config = s.config := by
  replace h := (execute_ok.1 h).2
  cases msg <;> simp only [dispatch] at h <;> simp only [Msg.isConfig, Bool.true_eq_false] at hm
  case withdrawProtocolFee k =>
    simp only [withdrawProtocolFee, bind_ok, ite_error_ok, pure_ok, Prod.mk.injEq, getPool_ok] at h
    obtain ⟨p0, hp0, _, h, _⟩ := h
    rw [← h]; rfl
  case changeFeeReceiver k r =>
    simp only [changeFeeReceiver, bind_ok, ite_error_ok, pure_ok, Prod.mk.injEq, getPool_ok] at h
    obtain ⟨_, _, _, p0, hp0, h, _⟩ := h
    rw [← h]; rfl
  case createPosition k l u L lo hi =>
    obtain ⟨p0, liq, _, _, _, hp0, _, _, _, e⟩ := createPosition_frame h
    rw [e]
  case mint k l u L lo hi =>
    obtain ⟨p0, liq, _, _, _, hp0, _, _, _, e⟩ := createPosition_frame h
    rw [e]
  case swap k d a b l =>
    obtain ⟨r, h⟩ := swap_inv h
    obtain ⟨t, e1⟩ := swapInternal_frame h
    simp only at e1
    rw [e1]
  case swapRoute a e sl hops =>
    obtain ⟨fin, m, h1, _, _⟩ := swapRoute_inv h
    obtain ⟨_, _, e⟩ := swapRouteInternal_frame h1
    rw [e]
  case transferPosition i r =>
    obtain ⟨_, _, e⟩ := transferPosition_frame h
    rw [e]
  case claimFee i =>
    obtain ⟨pos, p0, liq, _, _, _, hp0, _, e⟩ := claimFee_frame h
    rw [e]
  case removePosition i =>
    obtain ⟨pos, p0, liq, _, _, _, _, hp0, _, e⟩ := removePosition_frame h
    rw [e]
  case createPool t0 t1 tier price tick =>
    simp only [createPool, bind_ok, ite_error_ok] at h
    obtain ⟨cfg, _, _, _, _, k, _, hk, h⟩ := h
    split at h
    · simp at h
    · simp at h
    · rw [pure_ok, Prod.mk.injEq] at h
      rw [← h.1]; rfl
  case transferNft r id =>
    simp only [transferNft, bind_ok, pure_ok, Prod.mk.injEq] at h
    obtain ⟨_, h1, rfl, _⟩ := h
    obtain ⟨_, _, e⟩ := transferNftInternal_frame h1
    rw [e]
  case burn id =>
    obtain ⟨_, _, _, _, _, h⟩ := burn_inv h
    obtain ⟨pos, p0, liq, _, _, _, _, hp0, _, e⟩ := removePosition_frame h
    rw [e]
  case sendNft ct id m =>
    simp only [sendNft, bind_ok, pure_ok, Prod.mk.injEq] at h
    obtain ⟨_, h1, rfl, _⟩ := h
    obtain ⟨_, _, e⟩ := transferNftInternal_frame h1
    rw [e]
  case approve sp id ex =>
    obtain ⟨_, _, _, _, _, _, _, e⟩ := updateApprovals_inv h
    rw [e]
  case revoke sp id =>
    obtain ⟨_, _, _, _, _, _, _, e⟩ := updateApprovals_inv h
    rw [e]
  case approveAll o ex =>
    simp only [approveAll, ite_error_ok, ok_inj, Prod.mk.injEq] at h
    rw [← h.2.1]
  case revokeAll o =>
    simp only [revokeAll, ok_inj, Prod.mk.injEq] at h
    rw [← h.1]

theorem bytesLt_flip : ∀ {a b : Bytes}, a ≠ b → bytesLt b a = !bytesLt a b
  | [], [], h => absurd rfl h
  | [], _ :: _, _ => rfl
  | _ :: _, [], _ => rfl
  | x :: xs, y :: ys, h => by
    unfold bytesLt
    by_cases h1 : x.val < y.val
    · rw [if_pos h1, if_neg (by omega), if_neg (by omega)]; rfl
    · by_cases h2 : x.val = y.val
      · have : x = y := Fin.ext h2
        subst this
        rw [if_neg h1, if_pos rfl, if_neg h1, if_pos rfl]
        exact bytesLt_flip (fun e => h (by rw [e]))
      · rw [if_pos (by omega : y.val < x.val), if_neg h1, if_neg h2]; rfl

theorem PoolKey.new_symm (a b : Bytes) (t : FeeTier) : PoolKey.new b a t = PoolKey.new a b t := by
  unfold PoolKey.new
  by_cases h : a = b
  · subst h; rfl
  · rw [if_neg h, if_neg (Ne.symm h), bytesLt_flip h]
    cases bytesLt a b <;> simp

theorem createPool_inv {s s' : Store} {env : Env} {t0 t1 : Bytes} {tier : FeeTier} {price : Nat} {tick : Int}
    {out : List OutMsg} (h : createPool s env t0 t1 tier price tick = .ok (s', out)) :
    ∃ cfg k pool, s.config = some cfg ∧ tier ∈ cfg.feeTiers ∧ checkTick tick tier.spacing = .ok () ∧
      PoolKey.new t0 t1 tier = .ok k ∧ s.pools.get? k.key = none ∧
      Pool.create price tick env.millis tier.spacing cfg.admin = .ok pool ∧
      s' = savePool s k pool ∧ out = [] := by
  simp only [createPool, bind_ok, ite_error_ok, loadConfig_ok] at h
  obtain ⟨cfg, h0, h1, ⟨⟩, h2, k, h3, hk, h⟩ := h
  rw [Bool.not_eq_true, KV.has_false_iff] at hk
  split at h
  · simp at h
  · simp at h
  · rename_i pool hp
    rw [pure_ok, Prod.mk.injEq] at h
    exact ⟨cfg, k, pool, h0, by simpa using h1, h2, h3, hk, hp, h.1.symm, h.2.symm⟩

end OraiV3
