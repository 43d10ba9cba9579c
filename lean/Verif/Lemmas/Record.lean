import Verif.RecordSpec
import Verif.Lemmas.Clock
import Verif.Props.Positions

/-!
# Lemmas for C69
-/

namespace OraiV3

/-- The record a deposit adds. -/
theorem deposit_record {c : Chain} {s s' : Store} {env : Env} {info : Info} {k : PoolKey} {l u : Int} {L lo hi : Nat}
    {out : List OutMsg} (hs : Struct s) (hw : (Msg.createPosition k l u L lo hi).wf)
    (h : createPosition c s env info k l u L lo hi = .ok (s', out)) :
    ∃ p, s'.positions.get? (positionKey info.sender (getPositionLength s info.sender)) = some p ∧
      getPositionLength s' info.sender = getPositionLength s info.sender + 1 ∧
      p.what = (k, l, u, L) ∧ p.lastBlock = env.height ∧ p.owedX = 0 ∧ p.owedY = 0 ∧ p.approvals = [] := by
  obtain ⟨pool, tl, tu, r, rl, m1, m2, hp, hL, hlu, vl, vu, il, iu, _, _, _, _, _, hm, e1, e2, e3, e4, e5, hU, _⟩ :=
    createPosition_view hs hw h
  obtain ⟨q, d1, d2, d3, d4, d5, _, _⟩ := Position.modify_inv hm
  obtain ⟨ox, oy, l', p1, p2, p3, p4, p5, p6, p7⟩ := Position.update_inv d3
  simp only [if_true, Nat.zero_add] at p4
  have z : ∀ {g n}, feeGrowthToFee g 0 = .ok n → n = 0 := by
    intro g n hn
    simp only [feeGrowthToFee, Nat.mul_zero, Nat.zero_div] at hn
    exact ((cast128_ok.1 hn).2).symm
  refine ⟨r.pos, ?_, ?_, ?_, ?_, ?_, ?_, ?_⟩
  · rw [e4, KV.get?_insert, if_pos rfl]
  · unfold getPositionLength at *
    rw [e5, KV.get?_insert, if_pos rfl]; rfl
  all_goals rw [p7]
  · rw [p4.2]; rfl
  · simp only [z p2]
  · simp only [z p3]

/-- Editing a position keeps its origin. -/
theorem edit_origin {c : Chain} {s s' : Store} {env : Env} {info : Info} {msg : Msg} {out : List OutMsg} {id : Bytes}
    {p p' : Position} (hs : Struct s) (h : execute c env info msg s = .ok (s', out)) (ho : msg.posOp info.sender = .edit id)
    (hp : s.positions.get? id = some p) (hp' : s'.positions.get? id = some p') : p'.origin = p.origin := by
  replace h := (execute_ok.1 h).2
  have appr : ∀ {sp id' : Bytes} {add : Bool} {ex : Option Expiration}, id' = id →
      updateApprovals s env info sp id' add ex = .ok (s', out) → p'.origin = p.origin := by
    rintro sp _ add ex rfl h
    obtain ⟨_, pos, _, hpos, _, _, _, rfl⟩ := updateApprovals_inv h
    rw [hp, Option.some.injEq] at hpos
    simp only [KV.get?_insert, if_true, Option.some.injEq] at hp'
    rw [← hp', hpos]; rfl
  cases msg <;> simp only [Msg.posOp, PosOp.edit.injEq, reduceCtorEq] at ho <;> simp only [dispatch] at h
  case claimFee i =>
    obtain ⟨pos, tl, tu, pool, r, hpos, htl, htu, il, iu, hpool, hm, e1, e2, e3, e4, e5, e6, _⟩ := claimFee_view hs h
    obtain ⟨q, d1, d2, d3, d4, d5, _, _⟩ := Position.modify_inv hm
    obtain ⟨ox, oy, l', p1, p2, p3, p4, p5, p6, p7⟩ := Position.update_inv d3
    simp only [if_true, Nat.add_zero] at p4
    rw [ho] at hpos e6
    rw [hp, Option.some.injEq] at hpos
    rw [e6, KV.get?_insert, if_pos rfl, Option.some.injEq] at hp'
    rw [← hp', p7, p4.2, hpos]; rfl
  case approve sp id' ex => exact appr ho h
  case revoke sp id' => exact appr ho h

/-! ## The time of the last change of a pool -/

theorem swapIter_lastTs {s : Store} {pr : SwapParams} {st st' : SwapState} (h : swapIter s pr st = .ok st') :
    st'.pool.lastTs = st.pool.lastTs ∨ st'.pool.lastTs = pr.now := by
  have fee : ∀ {pool p : Pool} {amount : Nat} {d : Bool} {pf : Nat}, pool.addFee amount d pf = .ok p → p.lastTs = pool.lastTs := by
    intro pool p amount d pf h
    obtain ⟨_, ⟨_, h⟩ | ⟨_, _, g, _, h⟩⟩ := Pool.addFee_inv h
    · subst h; rfl
    · cases d
      · obtain ⟨_, h⟩ := h; subst h; rfl
      · obtain ⟨_, h⟩ := h; subst h; rfl
  obtain ⟨cl, r, cfg, pool1, upd, u, rem, _, _, _, _, h1, _, _, h2, _, _, _, h3⟩ := swapIter_inv h
  have a := fee h1
  subst h3
  show u.pool.lastTs = _ ∨ u.pool.lastTs = _
  rcases updateTick_inv h2 with ⟨_, t, _, h⟩ | ⟨_, e, _, ⟨i, _, h⟩ | ⟨t, _, h⟩⟩
  · subst h; exact .inl a
  · subst h; exact .inl a
  · rcases h with ⟨_, tp, hc, h⟩ | ⟨hd, _, _, _, p, hp, h⟩ | ⟨_, _, _, h⟩
    · obtain ⟨liq, _, _, _, hx⟩ := Tick.cross_inv hc
      subst h
      rw [hx]
      exact .inr rfl
    · subst h
      exact .inl ((fee hp).trans a)
    · subst h; exact .inl a

theorem swapInternal_lastTs {c : Chain} {s : Store} {info : Info} {now : Nat} {k : PoolKey} {d : Bool}
    {amount : Nat} {b : Bool} {limit : Nat} {x : Store × List OutMsg × CalcSwapResult}
    (h : swapInternal c s info now k d amount b limit = .ok x) :
    ∃ p, s.pools.get? k.key = some p ∧ (x.2.2.pool.lastTs = p.lastTs ∨ x.2.2.pool.lastTs = now) := by
  obtain ⟨_, _, h3, _⟩ := swapInternal_inv h
  obtain ⟨pool, st, _, hp, _, _, hl, _, hr⟩ := calculateSwap_inv h3
  refine ⟨pool, hp, ?_⟩
  rw [hr]
  exact (swapLoop_induct (fun x => x.pool.lastTs = pool.lastTs ∨ x.pool.lastTs = now)
    (fun a b ha _ hab => by
      rcases swapIter_lastTs hab with e | e
      · rw [e]; exact ha
      · exact .inr e) _ _ _ (.inl rfl) hl).1

/-- The times of pools: creation times stay, the time of the last change stays or becomes the present. -/
def SameTimes (now : Nat) (s s' : Store) : Prop :=
  ∀ key, (s.pools.get? key = none → s'.pools.get? key = none) ∧
    ∀ p, s.pools.get? key = some p → ∃ p', s'.pools.get? key = some p' ∧ p'.startTs = p.startTs ∧
      (p'.lastTs = p.lastTs ∨ p'.lastTs = now)

theorem SameTimes.insert {now : Nat} {s s' : Store} {k0 : Bytes} {p0 q : Pool} (h0 : s.pools.get? k0 = some p0)
    (e : s'.pools = s.pools.insert k0 q) (h1 : q.startTs = p0.startTs) (h2 : q.lastTs = p0.lastTs ∨ q.lastTs = now) :
    SameTimes now s s' := by
  intro key
  rw [e, KV.get?_insert]
  by_cases he : key = k0
  · subst he
    rw [if_pos rfl, h0]
    refine ⟨fun h => by simp at h, fun p hp => ?_⟩
    cases hp
    exact ⟨q, rfl, h1, h2⟩
  · rw [if_neg he]
    exact ⟨id, fun p hp => ⟨p, hp, rfl, .inl rfl⟩⟩

theorem SameTimes.same {now : Nat} {s s' : Store} (e : s'.pools = s.pools) : SameTimes now s s' := by
  intro key
  rw [e]
  exact ⟨id, fun p hp => ⟨p, hp, rfl, .inl rfl⟩⟩

theorem SameTimes.trans {now : Nat} {s s' s'' : Store} (h : SameTimes now s s') (h' : SameTimes now s' s'') :
    SameTimes now s s'' := by
  intro key
  refine ⟨fun hn => (h' key).1 ((h key).1 hn), fun p hp => ?_⟩
  obtain ⟨p1, a1, a2, a3⟩ := (h key).2 p hp
  obtain ⟨p2, b1, b2, b3⟩ := (h' key).2 p1 a1
  refine ⟨p2, b1, b2.trans a2, ?_⟩
  rcases b3 with b3 | b3
  · rw [b3]; exact a3
  · exact .inr b3

theorem modify_lastTs {p : Position} {pool : Pool} {upper lower : Tick} {delta : Nat} {add : Bool} {now ts : Nat}
    {r : ModifyRes} (h : p.modify pool upper lower delta add now ts = .ok r) :
    r.pool.startTs = pool.startTs ∧ r.pool.lastTs = now := by
  obtain ⟨liq, e⟩ := modify_pool h
  rw [e]; exact ⟨rfl, rfl⟩

theorem swapInternal_times {c : Chain} {s : Store} {info : Info} {now : Nat} {k : PoolKey} {d : Bool}
    {amount : Nat} {b : Bool} {limit : Nat} {x : Store × List OutMsg × CalcSwapResult}
    (h : swapInternal c s info now k d amount b limit = .ok x) : SameTimes now s x.1 := by
  obtain ⟨p, hp, hl⟩ := swapInternal_lastTs h
  obtain ⟨_, _, h3, _⟩ := swapInternal_inv h
  obtain ⟨p0, h4, h5⟩ := calculateSwap_keeps h3
  obtain ⟨t, e⟩ := swapInternal_frame h
  rw [h4, Option.some.injEq] at hp
  subst hp
  exact .insert h4 (by rw [e]) h5.startTs hl

theorem swapRouteInternal_times {c : Chain} {info : Info} {now : Nat} : ∀ {hops : List Hop} {s s' : Store}
    {a fin : Nat} {m out : List OutMsg}, swapRouteInternal c info now hops s a m = .ok (s', fin, out) → SameTimes now s s'
  | [], s, s', a, fin, m, out, h => by
    simp only [swapRouteInternal, ok_inj, Prod.mk.injEq] at h
    exact .same (by rw [h.1])
  | hh :: hops, s, s', a, fin, m, out, h => by
    simp only [swapRouteInternal, bind_ok] at h
    obtain ⟨x, h1, h2⟩ := h
    exact (swapInternal_times h1).trans (swapRouteInternal_times h2)

/-- Every call keeps the times like this, or creates a pool now. -/
def TimesStep (now : Nat) (s s' : Store) : Prop :=
  ∀ key, (s.pools.get? key = none → ∀ p', s'.pools.get? key = some p' → p'.startTs = now ∧ p'.lastTs = now) ∧
    ∀ p, s.pools.get? key = some p → ∃ p', s'.pools.get? key = some p' ∧ p'.startTs = p.startTs ∧
      (p'.lastTs = p.lastTs ∨ p'.lastTs = now)

theorem SameTimes.step {now : Nat} {s s' : Store} (h : SameTimes now s s') : TimesStep now s s' :=
  fun key => ⟨fun hn p' hp => by rw [(h key).1 hn] at hp; simp at hp, (h key).2⟩

theorem TimesStep.quiet {c : Chain} {env : Env} {s s' : Store} (hs : Struct s) (hm : Quiet c env s s') :
    TimesStep env.millis s s' := by
  cases hm with
  | @config cfg cfg' hc hf ht => exact (SameTimes.same rfl).step
  | opers ops => exact (SameTimes.same rfl).step
  | @poolMeta k p rcv px py hk hp hx hy => exact (SameTimes.insert
      (s' := savePool s k { p with feeReceiver := rcv, protoX := px, protoY := py })
      (q := { p with feeReceiver := rcv, protoX := px, protoY := py }) hp rfl rfl (.inl rfl)).step
  | @newPool _ t0 t1 tier price tick out hw hh =>
    obtain ⟨cfg, k, pool, h1, h2, h3, h4, h5, h6, rfl, _⟩ := createPool_inv hh
    have hst : pool.startTs = env.millis ∧ pool.lastTs = env.millis := by
      unfold Pool.create at h6
      rw [bind_ok] at h6
      obtain ⟨b, -, h6⟩ := h6
      cases b
      · simp at h6
      · simp only [Bool.not_true, Bool.false_eq_true, if_false, pure_ok] at h6
        rw [← h6]; exact ⟨rfl, rfl⟩
    intro key
    simp only [savePool, KV.get?_insert]
    refine ⟨fun hn p' hp => ?_, fun p hp => ?_⟩
    · split at hp
      · cases hp; exact hst
      · rw [hn] at hp; simp at hp
    · refine ⟨p, ?_, rfl, .inl rfl⟩
      rw [if_neg, hp]
      rintro rfl
      rw [h5] at hp; simp at hp
  | @create _ info k l u L lo hi' out hw hh =>
    obtain ⟨pool, tl, tu, r, rl, m1, m2, hp, hL, hlu, vl, vu, il, iu, _, _, _, _, _, hm, e1, e2, e3, _⟩ :=
      createPosition_view hs hw hh
    exact (SameTimes.insert hp e3 (modify_lastTs hm).1 (.inr (modify_lastTs hm).2)).step
  | @claim _ info i out hw hh =>
    obtain ⟨pos, tl, tu, pool, r, hpos, htl, htu, il, iu, hp, hm, _, _, _, _, e3, _⟩ := claimFee_view hs hh
    exact (SameTimes.insert hp e3 (modify_lastTs hm).1 (.inr (modify_lastTs hm).2)).step
  | @remove _ info i out hw hh =>
    obtain ⟨pos, tl, tu, pool, r, sr, s1, s2, hpos, htl, htu, il, iu, hp, hm, _, _, jl, ju, _, _, hr, e1, e2, e3, e5, _⟩ :=
      removePosition_view hs hh
    exact (SameTimes.insert hp e5 (modify_lastTs hm).1 (.inr (modify_lastTs hm).2)).step
  | @move s1 _ o r i p hw h1 h2 =>
    obtain ⟨_, rfl⟩ := addPosition_ok.1 h2
    obtain ⟨_, _, rfl⟩ := removePositionAt_frame h1
    exact (SameTimes.same rfl).step
  | @appr id p a h' => exact (SameTimes.same rfl).step

theorem execute_times {c : Chain} {env : Env} {info : Info} {msg : Msg} {s s' : Store} {out : List OutMsg}
    (hs : Struct s) (h : execute c env info msg s = .ok (s', out)) : TimesStep env.millis s s' := by
  by_cases hq : msg.isSwap = false
  · exact .quiet hs (execute_quiet hq h)
  · have he := (execute_ok.1 h).2
    cases msg <;> simp only [Msg.isSwap, not_true_eq_false] at hq
    case swap k d a b l =>
      simp only [dispatch] at he
      obtain ⟨r, h1⟩ := swap_inv he
      exact (swapInternal_times h1).step
    case swapRoute a e sl hops =>
      simp only [dispatch] at he
      obtain ⟨fin, m, h1, _, _⟩ := swapRoute_inv he
      exact (swapRouteInternal_times h1).step

end OraiV3
