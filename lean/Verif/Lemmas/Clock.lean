import Verif.Clock
import Verif.Lemmas.FeeInside
import Verif.Lemmas.Owes

/-!
# Lemmas about the time kept by ticks
-/

namespace OraiV3

/-- Recorded times do not exceed the age of the pool. -/
structure TimeInv (now : Nat) (s : Store) : Prop where
  pools : ∀ (k : PoolKey) (p : Pool), k.wf → s.pools.get? k.key = some p → p.startTs ≤ now
  ticks : ∀ (k : PoolKey) (p : Pool) (i : Int) (t : Tick), k.wf → i32 i → s.pools.get? k.key = some p →
    s.ticks.get? (tickKey k i) = some t → t.secondsOutside ≤ now - p.startTs

theorem TimeInv.wait {now now' : Nat} {s : Store} (h : TimeInv now s) (hn : now ≤ now') : TimeInv now' s :=
  ⟨fun k p hk hp => Nat.le_trans (h.pools k p hk hp) hn,
   fun k p i t hk hi hp ht => Nat.le_trans (h.ticks k p i t hk hi hp ht) (by omega)⟩

/-- What a call that is not a swap does to the times: pools stay where they are, and ticks keep their
record, vanish, or are created. -/
structure TimeStep (now : Nat) (s s' : Store) : Prop where
  pools : ∀ (k : PoolKey) (p : Pool), k.wf → s.pools.get? k.key = some p →
    ∃ p', s'.pools.get? k.key = some p' ∧ p'.startTs = p.startTs ∧ p'.tick = p.tick
  fresh : ∀ (k : PoolKey) (p' : Pool), k.wf → s.pools.get? k.key = none → s'.pools.get? k.key = some p' → p'.startTs = now
  ticks : ∀ (k : PoolKey) (i : Int) (t' : Tick), k.wf → i32 i → s'.ticks.get? (tickKey k i) = some t' →
    ∃ p, s.pools.get? k.key = some p ∧
      ((∃ t, s.ticks.get? (tickKey k i) = some t ∧ t'.secondsOutside = t.secondsOutside) ∨
       (s.ticks.get? (tickKey k i) = none ∧ t'.secondsOutside = if i ≤ p.tick then now - p.startTs else 0))

theorem TimeStep.same {now : Nat} {s s' : Store} (hs : Struct s)
    (hp : ∀ (k : PoolKey) (p : Pool), k.wf → s.pools.get? k.key = some p →
      ∃ p', s'.pools.get? k.key = some p' ∧ p'.startTs = p.startTs ∧ p'.tick = p.tick)
    (hf : ∀ (k : PoolKey) (p' : Pool), k.wf → s.pools.get? k.key = none → s'.pools.get? k.key = some p' → p'.startTs = now)
    (ht : s'.ticks = s.ticks) : TimeStep now s s' := by
  refine ⟨hp, hf, fun k i t' hk hi h => ?_⟩
  rw [ht] at h
  obtain ⟨p, hp⟩ := (hs.tick hk hi h).2.pool
  exact ⟨p, hp, .inl ⟨t', h, rfl⟩⟩

/-- One pool is replaced by one with the same creation time and tick. -/
theorem pools_insert {s s' : Store} {k0 : PoolKey} {p0 q : Pool}
    (h0 : s.pools.get? k0.key = some p0) (e : s'.pools = s.pools.insert k0.key q) (h1 : q.startTs = p0.startTs)
    (h2 : q.tick = p0.tick) (now : Nat) :
    (∀ (k : PoolKey) (p : Pool), k.wf → s.pools.get? k.key = some p →
      ∃ p', s'.pools.get? k.key = some p' ∧ p'.startTs = p.startTs ∧ p'.tick = p.tick) ∧
    (∀ (k : PoolKey) (p' : Pool), k.wf → s.pools.get? k.key = none → s'.pools.get? k.key = some p' → p'.startTs = now) := by
  refine ⟨fun k p _ hp => ?_, fun k p' _ hn hp => ?_⟩
  · rw [e, KV.get?_insert]
    by_cases he : k.key = k0.key
    · rw [he, h0, Option.some.injEq] at hp
      subst hp
      exact ⟨q, by rw [if_pos he], h1, h2⟩
    · exact ⟨p, by rw [if_neg he, hp], rfl, rfl⟩
  · rw [e, KV.get?_insert] at hp
    split at hp
    · rename_i he
      rw [he, h0] at hn
      simp at hn
    · rw [hn] at hp; simp at hp

theorem modify_start {pos : Position} {pool : Pool} {tu tl : Tick} {delta : Nat} {add : Bool} {now ts : Nat} {r : ModifyRes}
    (h : pos.modify pool tu tl delta add now ts = .ok r) : r.pool.startTs = pool.startTs := by
  obtain ⟨q, d1, d2, -, d3, e, -, -⟩ := Position.modify_inv h
  obtain ⟨a, liq, h1, h2, h3⟩ := Pool.updateLiquidity_inv d3
  rw [e, h3]

theorem create_secs {i : Int} {pool : Pool} {now : Nat} {t : Tick} (h : Tick.create i pool now = .ok t) :
    t.secondsOutside = if i ≤ pool.tick then now - pool.startTs else 0 := by
  unfold Tick.create at h
  cases hc : calculateSqrtPrice i with
  | error e => simp only [hc] at h; exact absurd ((error_bind _ _).symm.trans h) (by simp)
  | ok p =>
    simp only [hc, decide_eq_true_eq] at h
    by_cases hb : i ≤ pool.tick
    · simp only [if_pos hb, bind_ok, pure_ok, subP_ok] at h
      obtain ⟨_, _, secs, ⟨_, h1⟩, rfl⟩ := h
      rw [if_pos hb]; exact h1.symm
    · simp only [if_neg hb, bind_ok, pure_ok] at h
      obtain ⟨_, _, secs, h1, rfl⟩ := h
      rw [if_neg hb]; exact h1.symm

theorem TimeStep.quiet {c : Chain} {env : Env} {s s' : Store} (hs : Struct s) (hm : Quiet c env s s') :
    TimeStep env.millis s s' := by
  have keep : ∀ {s' : Store}, s'.pools = s.pools → s'.ticks = s.ticks → TimeStep env.millis s s' := by
    intro s' e1 e2
    refine .same hs (fun k p _ hp => ⟨p, by rw [e1]; exact hp, rfl, rfl⟩) (fun k p' _ hn hp => ?_) e2
    rw [e1, hn] at hp; simp at hp
  cases hm with
  | @config cfg cfg' hc hf ht => exact keep rfl rfl
  | opers ops => exact keep rfl rfl
  | @poolMeta k p rcv px py hk hp hx hy =>
    obtain ⟨a, b⟩ := pools_insert (s' := savePool s k { p with feeReceiver := rcv, protoX := px, protoY := py }) hp rfl rfl rfl env.millis
    exact .same hs a b rfl
  | @newPool _ t0 t1 tier price tick out hw hh =>
    obtain ⟨cfg, k, pool, h1, h2, h3, h4, h5, h6, rfl, _⟩ := createPool_inv hh
    have hst : pool.startTs = env.millis := by
      unfold Pool.create at h6
      rw [bind_ok] at h6
      obtain ⟨b, -, h6⟩ := h6
      cases b
      · simp at h6
      · simp only [Bool.not_true, Bool.false_eq_true, if_false, pure_ok] at h6
        rw [← h6]
    refine .same hs (fun k' p _ hp => ⟨p, ?_, rfl, rfl⟩) (fun k' p' _ hn hp => ?_) rfl
    · show (s.pools.insert k.key pool).get? k'.key = some p
      rw [KV.get?_insert, if_neg, hp]
      intro e
      rw [e, h5] at hp; simp at hp
    · change (s.pools.insert k.key pool).get? k'.key = some p' at hp
      rw [KV.get?_insert] at hp
      split at hp
      · rw [Option.some.injEq] at hp; rw [← hp, hst]
      · rw [hn] at hp; simp at hp
  | @create _ info k l u L lo hi' out hw hh =>
    obtain ⟨pool, tl, tu, r, rl, m1, m2, hp, hL, hlu, vl, vu, il, iu, _, _, _, _, _, hm, e1, e2, e3, e4, e5, hU, htk, _⟩ :=
      createPosition_view hs hw hh
    obtain ⟨hk, hl, hu, _⟩ := hw
    obtain ⟨q', d1, d2, _⟩ := Position.modify_inv hm
    have f1 := Tick.update_inv d1
    have f2 := Tick.update_inv d2
    obtain ⟨a, b⟩ := pools_insert hp e3 (modify_start hm) (modify_liquidity hm).1 env.millis
    refine ⟨a, b, fun k' i t' hk' hi ht' => ?_⟩
    have hnew : ∀ {j : Int} {t : Tick}, i32 j → tickKey k' i = tickKey k j → TickUsed s k pool env.millis j t →
        t'.secondsOutside = t.secondsOutside → ∃ p, s.pools.get? k'.key = some p ∧
      ((∃ t, s.ticks.get? (tickKey k' i) = some t ∧ t'.secondsOutside = t.secondsOutside) ∨
       (s.ticks.get? (tickKey k' i) = none ∧
        t'.secondsOutside = if i ≤ p.tick then env.millis - p.startTs else 0)) := by
      intro j t hj he hv hso
      obtain ⟨rfl, rfl⟩ := tickKey_inj hk' hk hi hj he
      refine ⟨pool, hp, ?_⟩
      rcases hv with hv | ⟨hv, _, hv2⟩
      · exact .inl ⟨t, hv, hso⟩
      · exact .inr ⟨hv, hso.trans (create_secs hv2)⟩
    rw [htk] at ht'
    split at ht'
    · rename_i he
      rw [Option.some.injEq] at ht'
      exact hnew hu he vu (by rw [← ht']; exact f2.2.2.2.2.1)
    · split at ht'
      · rename_i he
        rw [Option.some.injEq] at ht'
        exact hnew hl he vl (by rw [← ht']; exact f1.2.2.2.2.1)
      · obtain ⟨p, hp⟩ := (hs.tick hk' hi ht').2.pool
        exact ⟨p, hp, .inl ⟨t', ht', rfl⟩⟩
  | @claim _ info i out hw hh =>
    obtain ⟨pos, tl, tu, pool, r, hpos, htl, htu, il, iu, hp, hm, _, _, _, _, e3, hp', _, htk, _⟩ := claimFee_view hs hh
    obtain ⟨q', d1, d2, _⟩ := Position.modify_inv hm
    have f1 := Tick.update_inv d1
    have f2 := Tick.update_inv d2
    obtain ⟨a, b⟩ := pools_insert hp e3 (modify_start hm) (modify_liquidity hm).1 env.millis
    refine ⟨a, b, fun k' i t' hk' hi ht' => ?_⟩
    have hold : ∀ {t : Tick}, s.ticks.get? (tickKey k' i) = some t → t'.secondsOutside = t.secondsOutside →
        ∃ p, s.pools.get? k'.key = some p ∧
      ((∃ t, s.ticks.get? (tickKey k' i) = some t ∧ t'.secondsOutside = t.secondsOutside) ∨
       (s.ticks.get? (tickKey k' i) = none ∧
        t'.secondsOutside = if i ≤ p.tick then env.millis - p.startTs else 0)) := by
      intro t ht he
      obtain ⟨p, hp⟩ := (hs.tick hk' hi ht).2.pool
      exact ⟨p, hp, .inl ⟨t, ht, he⟩⟩
    rw [htk] at ht'
    split at ht'
    · rename_i he
      rw [Option.some.injEq] at ht'
      exact hold (by rw [he]; exact htl) (by rw [← ht']; exact f1.2.2.2.2.1)
    · split at ht'
      · rename_i he
        rw [Option.some.injEq] at ht'
        exact hold (by rw [he]; exact htu) (by rw [← ht']; exact f2.2.2.2.2.1)
      · exact hold ht' rfl
  | @remove _ info i out hw hh =>
    obtain ⟨pos, tl, tu, pool, r, sr, s1, s2, hpos, htl, htu, il, iu, hp, hm, _, _, jl, ju, _, _, hr, e1, e2, e3, e5, e6, e7,
      htk, _⟩ := removePosition_view hs hh
    obtain ⟨q', d1, d2, _⟩ := Position.modify_inv hm
    have f1 := Tick.update_inv d1
    have f2 := Tick.update_inv d2
    obtain ⟨a, b⟩ := pools_insert hp e5 (modify_start hm) (modify_liquidity hm).1 env.millis
    refine ⟨a, b, fun k' i t' hk' hi ht' => ?_⟩
    have hold : ∀ {t : Tick}, s.ticks.get? (tickKey k' i) = some t → t'.secondsOutside = t.secondsOutside →
        ∃ p, s.pools.get? k'.key = some p ∧
      ((∃ t, s.ticks.get? (tickKey k' i) = some t ∧ t'.secondsOutside = t.secondsOutside) ∨
       (s.ticks.get? (tickKey k' i) = none ∧
        t'.secondsOutside = if i ≤ p.tick then env.millis - p.startTs else 0)) := by
      intro t ht he
      obtain ⟨p, hp⟩ := (hs.tick hk' hi ht).2.pool
      exact ⟨p, hp, .inl ⟨t, ht, he⟩⟩
    rw [htk] at ht'
    split at ht'
    · rename_i he
      split at ht'
      · simp at ht'
      · rw [Option.some.injEq] at ht'
        exact hold (by rw [he]; exact htu) (by rw [← ht']; exact f2.2.2.2.2.1)
    · split at ht'
      · rename_i he
        split at ht'
        · simp at ht'
        · rw [Option.some.injEq] at ht'
          exact hold (by rw [he]; exact htl) (by rw [← ht']; exact f1.2.2.2.2.1)
      · exact hold ht' rfl
  | @move s1 _ o r i p hw h1 h2 =>
    obtain ⟨_, rfl⟩ := addPosition_ok.1 h2
    obtain ⟨_, _, rfl⟩ := removePositionAt_frame h1
    exact keep rfl rfl
  | @appr id p a h' => exact keep rfl rfl

theorem TimeInv.step {now : Nat} {s s' : Store} (h : TimeInv now s) (hm : TimeStep now s s') : TimeInv now s' := by
  have hpool : ∀ (k : PoolKey) (p' : Pool), k.wf → s'.pools.get? k.key = some p' → p'.startTs = now ∧ s.pools.get? k.key = none ∨
      ∃ p, s.pools.get? k.key = some p ∧ p'.startTs = p.startTs := by
    intro k p' hk hp'
    cases hp : s.pools.get? k.key with
    | none => exact .inl ⟨hm.fresh k p' hk hp hp', rfl⟩
    | some p =>
      obtain ⟨q, a1, a2, _⟩ := hm.pools k p hk hp
      rw [a1, Option.some.injEq] at hp'
      exact .inr ⟨p, rfl, by rw [← hp', a2]⟩
  refine ⟨fun k p' hk hp' => ?_, fun k p' i t' hk hi hp' ht' => ?_⟩
  · rcases hpool k p' hk hp' with ⟨e, _⟩ | ⟨p, hp, e⟩
    · rw [e]
    · rw [e]; exact h.pools k p hk hp
  · obtain ⟨p, hp, ht⟩ := hm.ticks k i t' hk hi ht'
    rcases hpool k p' hk hp' with ⟨_, e⟩ | ⟨p2, hp2, e⟩
    · rw [hp] at e; simp at e
    · rw [hp, Option.some.injEq] at hp2
      rw [e, ← hp2]
      rcases ht with ⟨t, a1, a2⟩ | ⟨_, a2⟩
      · rw [a2]; exact h.ticks k p i t hk hi hp a1
      · rw [a2]; split <;> omega

/-! ## Swaps -/

theorem addFee_start {pool p : Pool} {amount : Nat} {d : Bool} {pf : Nat} (h : pool.addFee amount d pf = .ok p) :
    p.startTs = pool.startTs := by
  obtain ⟨_, ⟨_, rfl⟩ | ⟨_, _, g, _, h⟩⟩ := Pool.addFee_inv h
  · rfl
  · cases d
    · simp only [Bool.false_eq_true, if_false] at h; rw [h.2]
    · simp only [if_true] at h; rw [h.2]

theorem iter_start {s : Store} {pr : SwapParams} {st st' : SwapState} {i : Int} {ini : Bool} {r : SwapResult}
    {cfg : Config} {p1 : Pool} {rem : Nat} {u : TickUpdRes} (hv : IterView s pr st st' i ini r cfg p1 rem u) :
    p1.startTs = st.pool.startTs ∧ st'.pool.startTs = st.pool.startTs := by
  obtain ⟨q, hq, hp1⟩ := hv.fee
  have h1 : p1.startTs = st.pool.startTs := by rw [hp1]; exact (addFee_start hq :)
  refine ⟨h1, ?_⟩
  have e1 : st'.pool = u.pool := by rw [hv.eq]
  rw [e1]
  rcases hv.fin with ⟨t, c1, c2, upd, rfl⟩ | ⟨e, c1, c2, c3, c4, rfl⟩ | ⟨e, t, tp, c1, c2, c3, c4, c5, c6, c7, c8, rfl⟩ |
    ⟨t, c1, c2, c3, c4, c5, c6, c7, c8⟩
  · exact h1
  · exact h1
  · obtain ⟨liq, -, d2, d3, d4⟩ := Tick.cross_inv c8
    simp only [d4]; exact h1
  · rcases c8 with ⟨d1, d2, p, d3, rfl⟩ | ⟨d1, rfl⟩
    · exact (addFee_start d3).trans h1
    · exact h1

/-- A crossed tick: the stored one with the time turned over. -/
def Turned (s : Store) (k : PoolKey) (now start : Nat) (t : Tick) : Prop :=
  TickOk k.tier.spacing t.index ∧ start ≤ now ∧ ∃ t0, s.ticks.get? (tickKey k t.index) = some t0 ∧
    t.secondsOutside = (now - start + (U64 - t0.secondsOutside)) % U64

theorem iter_turned {s : Store} {pr : SwapParams} {st st' : SwapState} {i : Int} {ini : Bool} {r : SwapResult}
    {cfg : Config} {p1 : Pool} {rem : Nat} {u : TickUpdRes} (hv : IterView s pr st st' i ini r cfg p1 rem u)
    (h : ∀ t ∈ st.ticks, Turned s pr.key pr.now st.pool.startTs t) :
    ∀ t ∈ st'.ticks, Turned s pr.key pr.now st.pool.startTs t := by
  have h1 := (iter_start hv).1
  have e2 : st'.ticks = pushCrossed st.ticks u.upd u.crossed := by rw [hv.eq]
  have nocross : u.crossed = false → ∀ t ∈ st'.ticks, Turned s pr.key pr.now st.pool.startTs t := by
    intro hcr
    have e3 : st'.ticks = st.ticks := by
      rw [e2, hcr]; unfold pushCrossed; cases u.upd <;> rfl
    rw [e3]; exact h
  rcases hv.fin with ⟨t, c1, c2, upd, rfl⟩ | ⟨e, c1, c2, c3, c4, rfl⟩ | ⟨e, t, tp, c1, c2, c3, c4, c5, c6, c7, c8, rfl⟩ |
    ⟨t, c1, c2, c3, c4, c5, c6, c7, c8⟩
  · exact nocross rfl
  · exact nocross rfl
  · obtain ⟨liq, d1, d2, d3, d4⟩ := Tick.cross_inv c8
    have gt : st'.ticks = st.ticks ++ [tp.1] := e2
    have gi : tp.1.index = i := by rw [d3]; exact c6
    intro x hx
    rw [gt, List.mem_append, List.mem_singleton] at hx
    rcases hx with hx | rfl
    · exact h x hx
    · refine ⟨by rw [gi]; exact hv.ok, by rw [← h1]; exact d1, t, by rw [gi]; exact c5, ?_⟩
      rw [d3, ← h1]
  · rcases c8 with ⟨d1, d2, p, d3, rfl⟩ | ⟨d1, rfl⟩
    · exact nocross rfl
    · exact nocross rfl

theorem withTicks_cases {k : PoolKey} {key : Bytes} : ∀ (l : List Tick) (m : KV Tick) {t : Tick},
    (withTicks m k l).get? key = some t → m.get? key = some t ∨ (t ∈ l ∧ key = tickKey k t.index)
  | [], _, _, h => .inl h
  | x :: l, m, t, h => by
    change (withTicks (m.insert (tickKey k x.index) x) k l).get? key = _ at h
    rcases withTicks_cases l _ h with h | h
    · rw [KV.get?_insert] at h
      split at h
      · rename_i he
        rw [Option.some.injEq] at h
        subst h
        exact .inr ⟨by simp, he⟩
      · exact .inl h
    · exact .inr ⟨by simp [h.1], h.2⟩

theorem withTicks_some {k : PoolKey} : ∀ {l : List Tick} {m : KV Tick} {t : Tick}, t ∈ l →
    ((withTicks m k l).get? (tickKey k t.index)).isSome = true
  | x :: l, m, t, h => by
    show ((withTicks (m.insert (tickKey k x.index) x) k l).get? (tickKey k t.index)).isSome = true
    by_cases hl : ∃ a ∈ l, tickKey k t.index = tickKey k a.index
    · obtain ⟨a, ha, e⟩ := hl
      rw [e]; exact withTicks_some ha
    · rw [withTicks_get _ _ (fun a ha e => hl ⟨a, ha, e⟩)]
      rw [List.mem_cons] at h
      rcases h with rfl | h
      · rw [KV.get?_insert_same]; rfl
      · exact absurd ⟨t, h, rfl⟩ hl

theorem turn_le {a so : Nat} (ha : a < U64) (h : so ≤ a) : (a + (U64 - so)) % U64 = a - so := by
  have : a + (U64 - so) = (a - so) + U64 := by omega
  rw [this, Nat.add_mod_right, Nat.mod_eq_of_lt (by omega)]

theorem swap_turned {s : Store} {now : Nat} {k : PoolKey} {d : Bool} {amount : Nat} {b : Bool} {limit : Nat}
    {res : CalcSwapResult} {pool : Pool} (hs : Struct s) (hb : BitInv s) (hk : k.wf)
    (hp : s.pools.get? k.key = some pool) (hok : PoolOk k.tier.spacing pool)
    (h : calculateSwap s now k d amount b limit = .ok res) :
    res.pool.startTs = pool.startTs ∧ ∀ t ∈ res.ticks, Turned s k now pool.startTs t := by
  obtain ⟨st, h1, -, -, -, -, -, rfl⟩ := swap_induct hs hb hk hp hok h
    (fun x => x.pool.startTs = pool.startTs ∧ ∀ t ∈ x.ticks, Turned s k now pool.startTs t)
    (fun x y i ini r cfg p1 rem u hv hx hr hy hP => by
      refine ⟨(iter_start hv).2.trans hP.1, ?_⟩
      have := iter_turned hv (by rw [hP.1]; exact hP.2)
      rw [hP.1] at this
      exact this)
    (fun _ _ => ⟨rfl, by simp⟩)
  exact h1

theorem TimeInv.swap {c : Chain} {s : Store} {info : Info} {now : Nat} {k : PoolKey} {d : Bool} {amount : Nat}
    {b : Bool} {limit : Nat} {x : Store × List OutMsg × CalcSwapResult} (hr : MReach c s) (h : TimeInv now s) (hk : k.wf)
    (hn : now < U64) (hh : swapInternal c s info now k d amount b limit = .ok x) : TimeInv now x.1 := by
  obtain ⟨s1, m1, h1, h2, h3, _, _⟩ := swapInternal_inv hh
  obtain ⟨pool, st, _, hp, _⟩ := calculateSwap_inv h1
  have htk := saveTicks_withTicks h2
  obtain ⟨e1, ht⟩ := swap_turned hr.struct hr.bitInv hk hp (hr.price k pool hk hp) h1
  obtain ⟨_, e4⟩ := swapInternal_frame hh
  have epool : x.1.pools = s.pools.insert k.key x.2.2.pool := by rw [e4]
  have etick : x.1.ticks = withTicks s.ticks k x.2.2.ticks := by rw [h3]; exact htk
  have hpool : ∀ (k' : PoolKey) (p' : Pool), x.1.pools.get? k'.key = some p' →
      ∃ p, s.pools.get? k'.key = some p ∧ p'.startTs = p.startTs := by
    intro k' p' hp'
    rw [epool, KV.get?_insert] at hp'
    split at hp'
    · rename_i he
      rw [Option.some.injEq] at hp'
      exact ⟨pool, by rw [he]; exact hp, by rw [← hp', e1]⟩
    · exact ⟨p', hp', rfl⟩
  refine ⟨fun k' p' hk' hp' => ?_, fun k' p' i t hk' hi hp' ht' => ?_⟩
  · obtain ⟨p, a1, a2⟩ := hpool k' p' hp'
    rw [a2]; exact h.pools k' p hk' a1
  · obtain ⟨p, a1, a2⟩ := hpool k' p' hp'
    rw [a2]
    rw [etick] at ht'
    rcases withTicks_cases _ _ ht' with ht' | ⟨hin, he⟩
    · exact h.ticks k' p i t hk' hi a1 ht'
    · obtain ⟨b1, b2, t0, b3, b4⟩ := ht t hin
      obtain ⟨rfl, rfl⟩ := tickKey_inj hk' hk hi b1.i32 he
      rw [hp, Option.some.injEq] at a1
      subst a1
      have b5 := h.ticks _ _ _ _ hk hi hp b3
      rw [b4, turn_le (by omega) b5]
      omega

theorem TimeInv.route {c : Chain} {info : Info} {now : Nat} (hn : now < U64) : ∀ {hops : List Hop} {s s' : Store}
    {a fin : Nat} {m out : List OutMsg}, MReach c s → TimeInv now s → (∀ h ∈ hops, h.poolKey.wf) → a < U128 →
    swapRouteInternal c info now hops s a m = .ok (s', fin, out) → TimeInv now s'
  | [], s, s', a, fin, m, out, _, h0, _, _, h => by
    simp only [swapRouteInternal, ok_inj, Prod.mk.injEq] at h
    exact h.1 ▸ h0
  | hh :: hops, s, s', a, fin, m, out, hr, h0, hw, ha, h => by
    simp only [swapRouteInternal, bind_ok] at h
    obtain ⟨x, h1, h2⟩ := h
    have hk := hw hh (by simp)
    have hm : Micro c s x.1 := .swap hk ha (by unfold hopLimit; split <;> decide) h1
    exact TimeInv.route hn (.step hr hm) (h0.swap hr hk hn h1) (fun h hh => hw h (by simp [hh]))
      (swapInternal_out_lt h1) h2

theorem TimeInv.call {c : Chain} {env : Env} {info : Info} {msg : Msg} {s s' : Store} {out : List OutMsg} (hm : MReach c s)
    (h : TimeInv env.millis s) (hn : env.millis < U64) (he : execute c env info msg s = .ok (s', out)) :
    TimeInv env.millis s' := by
  by_cases hsw : msg.isSwap = false
  · exact h.step (.quiet hm.struct (execute_quiet hsw he))
  · have hw := (execute_ok.1 he).1
    replace he := (execute_ok.1 he).2
    cases msg <;> simp only [Msg.isSwap, not_true] at hsw
    case swap k d a b l =>
      simp only [dispatch] at he
      obtain ⟨r, h1⟩ := swap_inv he
      exact h.swap hm hw.1 hn h1
    case swapRoute a e sl hops =>
      simp only [dispatch] at he
      obtain ⟨fin, m, h1, _, _⟩ := swapRoute_inv he
      exact TimeInv.route hn hm h hw.2.2.2 hw.1 h1

theorem TimedReach.reach {c : Chain} {t : Nat} {s : Store} (h : TimedReach c t s) : Reach c s := by
  induction h with
  | init sender fee hf t ht => exact .init sender fee hf
  | wait _ _ _ ih => exact ih
  | call _ _ he ih => exact .step ih he

theorem TimedReach.lt {c : Chain} {t : Nat} {s : Store} (h : TimedReach c t s) : t < U64 := by
  induction h with
  | init sender fee hf t ht => exact ht
  | wait _ _ ht _ => exact ht
  | call _ _ _ ih => exact ih

theorem TimedReach.inv {c : Chain} {t : Nat} {s : Store} (h : TimedReach c t s) : TimeInv t s := by
  induction h with
  | init sender fee hf t ht =>
    exact ⟨fun k p _ h => by simp [instantiate, Store.empty, KV.get?_empty] at h,
      fun k p _ _ _ _ h => by simp [instantiate, Store.empty, KV.get?_empty] at h⟩
  | wait _ h _ ih => exact ih.wait h
  | call hr ht he ih =>
    subst ht
    exact ih.call hr.reach.mreach hr.lt he

/-! ## Swaps that end regularly -/

/-- The sides of the used ticks after an iteration: only the crossed one changes. -/
theorem iter_sides {s : Store} {pr : SwapParams} {st st' : SwapState} {i : Int} {ini : Bool} {r : SwapResult}
    {cfg : Config} {p1 : Pool} {rem : Nat} {u : TickUpdRes} (hs : Struct s) (ht : TickSum s) (hk : pr.key.wf)
    (hv : IterView s pr st st' i ini r cfg p1 rem u)
    (h : LoopOk pr.xToY pr.key.tier.spacing pr.limit st.pool st.remaining) (hr : st.remaining ≠ 0)
    (h' : LoopOk pr.xToY pr.key.tier.spacing pr.limit st'.pool st'.remaining) :
    (st'.ticks = st.ticks ∧ ∀ j, TickOk pr.key.tier.spacing j → UsedTick s pr.key j → (j ≤ st.pool.tick ↔ j ≤ st'.pool.tick)) ∨
    (∃ t t', st'.ticks = st.ticks ++ [t'] ∧ t'.index = i ∧ s.ticks.get? (tickKey pr.key i) = some t ∧
      st.pool.startTs ≤ pr.now ∧
      t'.secondsOutside = (pr.now - st.pool.startTs + (U64 - t.secondsOutside)) % U64 ∧
      ∀ j, TickOk pr.key.tier.spacing j → UsedTick s pr.key j →
        (j ≠ i → (j ≤ st.pool.tick ↔ j ≤ st'.pool.tick)) ∧ (j = i → (j ≤ st.pool.tick ↔ ¬ j ≤ st'.pool.tick))) ∨
    (st'.remaining = 0 ∧ ¬ RegularPool s pr.key pr.xToY pr.byAmountIn pr.limit st'.pool) := by
  have h1 := (iter_start hv).1
  have e1 : st'.pool = u.pool := by rw [hv.eq]
  have e2 : st'.ticks = pushCrossed st.ticks u.upd u.crossed := by rw [hv.eq]
  cases hcr : u.crossed
  · rcases iter_region hs ht hk hv h hr h' hcr with hreg | hbad
    · left
      refine ⟨by rw [e2, hcr]; unfold pushCrossed; cases u.upd <;> rfl, fun j hj hu => hreg.iff hj hu⟩
    · exact .inr (.inr ⟨hbad.1, hbad.2.choose_spec.1.irregular⟩)
  · right; left
    obtain ⟨gap, usedi⟩ := iter_used hs ht hk hv
    rcases hv.fin with ⟨t, c1, c2, upd, rfl⟩ | ⟨e, c1, c2, c3, c4, rfl⟩ | ⟨e, t, tp, c1, c2, c3, c4, c5, c6, c7, c8, rfl⟩ |
      ⟨t, c1, c2, c3, c4, c5, c6, c7, c8⟩
    · simp at hcr
    · simp at hcr
    · obtain ⟨liq, d1, d2, d3, d4⟩ := Tick.cross_inv c8
      have pt : st'.pool.tick = if pr.xToY && e then i - pr.key.tier.spacing else i := by rw [e1]
      have hdir := hv.dir
      have p0 := hv.ok.pos
      refine ⟨t, tp.1, e2, by rw [d3]; exact c6, c5, by rw [← h1]; exact d1, by rw [d3, ← h1], ?_⟩
      intro j hj hu
      rw [pt]
      have hg := gap j hj
      cases hd : pr.xToY
      · simp only [hd, Bool.false_eq_true, if_false, Bool.false_and] at hdir hg ⊢
        refine ⟨fun hne => ?_, fun he => by omega⟩
        constructor
        · omega
        · intro h1
          by_contra h2
          exact hg ⟨by omega, by omega⟩ hu
      · have he := c7 hd
        simp only [hd, he, if_true, Bool.and_self] at hdir hg ⊢
        refine ⟨fun hne => ?_, fun he => by omega⟩
        constructor
        · intro h1
          by_contra h2
          by_cases h3 : i < j
          · exact hg ⟨h3, h1⟩ hu
          · have := dvd_lt_step p0 hj.dvd hv.ok.dvd (by omega)
            omega
        · omega
    · rcases c8 with ⟨d1, d2, p, d3, rfl⟩ | ⟨d1, rfl⟩ <;> simp at hcr

/-- Time below a used tick, with the ticks crossed so far. -/
def belowAt (m : KV Tick) (k : PoolKey) (p : Pool) (now : Nat) (i : Int) : Option Int :=
  (m.get? (tickKey k i)).map (fun t => if i ≤ p.tick then (t.secondsOutside : Int) else p.age now - t.secondsOutside)

/-- What is known of the times while a swap runs. -/
structure ClockInv (s : Store) (k : PoolKey) (d : Bool) (now : Nat) (pool : Pool) (st : SwapState) : Prop where
  start : st.pool.startTs = pool.startTs
  used : ∀ t ∈ st.ticks, TickOk k.tier.spacing t.index ∧ UsedTick s k t.index ∧
    if d then st.pool.tick < t.index else t.index ≤ st.pool.tick
  below : ∀ j, TickOk k.tier.spacing j → UsedTick s k j →
    belowAt (withTicks s.ticks k st.ticks) k st.pool now j = belowAt s.ticks k pool now j

theorem iter_clock {s : Store} {now : Nat} {k : PoolKey} {d b : Bool} {limit : Nat} {pool : Pool}
    (hs : Struct s) (ht : TickSum s) (hti : TimeInv now s) (hn : now < U64) (hk : k.wf) (hp : s.pools.get? k.key = some pool)
    {x y : SwapState} {i : Int} {ini : Bool} {r : SwapResult}
    {cfg : Config} {p1 : Pool} {rem : Nat} {u : TickUpdRes} (hv : IterView s ⟨k, d, b, limit, now⟩ x y i ini r cfg p1 rem u)
    (hx : LoopOk d k.tier.spacing limit x.pool x.remaining) (hr : x.remaining ≠ 0)
    (hy : LoopOk d k.tier.spacing limit y.pool y.remaining) (h : ClockInv s k d now pool x) :
    ClockInv s k d now pool y ∨ (y.remaining = 0 ∧ ¬ RegularPool s k d b limit y.pool) := by
  have hst : y.pool.startTs = pool.startTs := (iter_start hv).2.trans h.start
  have age : y.pool.age now = x.pool.age now := by unfold Pool.age; rw [(iter_start hv).2]
  have hdir := hv.dir
  simp only at hdir
  rcases iter_sides hs ht hk hv hx hr hy with ⟨e, side⟩ | ⟨t, t', e, ei, hg, hnow, hso, side⟩ | hbad
  · left
    simp only at side
    refine ⟨hst, fun a ha => ?_, fun j hj hu => ?_⟩
    · rw [e] at ha
      obtain ⟨b1, b2, b3⟩ := h.used a ha
      refine ⟨b1, b2, ?_⟩
      have := side _ b1 b2
      cases d <;> simp only [Bool.false_eq_true, if_false, if_true] at b3 ⊢ <;> omega
    · rw [← h.below j hj hu, e]
      unfold belowAt
      rw [age]
      simp only [side j hj hu]
  · left
    simp only at side hg hso hnow
    have ui : UsedTick s k i := by
      rw [ht.used hs hk hv.ok.i32, hg]; rfl
    have hli : (withTicks s.ticks k x.ticks).get? (tickKey k i) = some t := by
      rw [withTicks_get _ _ (fun a ha he => ?_), hg]
      obtain ⟨b1, b2, b3⟩ := h.used a ha
      have := (tickKey_inj hk hk hv.ok.i32 b1.i32 he).2
      cases d <;> simp only [Bool.false_eq_true, if_false, if_true] at b3 hdir <;> omega
    have hbound := hti.ticks k pool i t hk hv.ok.i32 hp hg
    rw [h.start, turn_le (by omega) hbound] at hso
    rw [h.start] at hnow
    refine ⟨hst, fun a ha => ?_, fun j hj hu => ?_⟩
    · rw [e, List.mem_append, List.mem_singleton] at ha
      rcases ha with ha | rfl
      · obtain ⟨b1, b2, b3⟩ := h.used a ha
        refine ⟨b1, b2, ?_⟩
        have hne : a.index ≠ i := by
          intro e
          cases d <;> simp only [Bool.false_eq_true, if_false, if_true] at b3 hdir <;> omega
        have := (side _ b1 b2).1 hne
        cases d <;> simp only [Bool.false_eq_true, if_false, if_true] at b3 ⊢ <;> omega
      · rw [ei]
        refine ⟨hv.ok, ui, ?_⟩
        have := (side i hv.ok ui).2 rfl
        cases d <;> simp only [Bool.false_eq_true, if_false, if_true] at hdir ⊢ <;> omega
    · rw [← h.below j hj hu, e, withTicks_snoc, ei]
      unfold belowAt
      rw [KV.get?_insert, age]
      by_cases hji : j = i
      · rw [if_pos (by rw [hji]), hji, hli]
        have hside := (side i hv.ok ui).2 rfl
        simp only [Option.map_some, Option.some.injEq]
        unfold Pool.age
        rw [h.start]
        by_cases hc : i ≤ x.pool.tick
        · rw [if_pos hc, if_neg (hside.1 hc)]; omega
        · rw [if_neg hc, if_pos (by by_contra h2; exact hc (hside.2 h2))]; omega
      · rw [if_neg (fun he => hji (tickKey_inj hk hk hj.i32 hv.ok.i32 he).2)]
        simp only [(side j hj hu).1 hji]
  · exact .inr hbad

theorem swap_clock {s : Store} {now : Nat} {k : PoolKey} {d : Bool} {amount : Nat} {b : Bool} {limit : Nat}
    {res : CalcSwapResult} {pool : Pool} (hs : Struct s) (hb : BitInv s) (ht : TickSum s) (hti : TimeInv now s) (hn : now < U64)
    (hk : k.wf) (hp : s.pools.get? k.key = some pool) (hok : PoolOk k.tier.spacing pool)
    (h : calculateSwap s now k d amount b limit = .ok res) (hreg : RegularPool s k d b limit res.pool) :
    ∀ j, TickOk k.tier.spacing j → UsedTick s k j →
      belowAt (withTicks s.ticks k res.ticks) k res.pool now j = belowAt s.ticks k pool now j := by
  obtain ⟨st, h1, -, -, -, -, -, rfl⟩ := swap_induct hs hb hk hp hok h
    (fun x => ClockInv s k d now pool x ∨ (x.remaining = 0 ∧ ¬ RegularPool s k d b limit x.pool))
    (fun x y i ini r cfg p1 rem u hv hx hr hy hP => by
      rcases hP with hP | hP
      · exact iter_clock hs ht hti hn hk hp hv hx hr hy hP
      · exact absurd hP.1 hr)
    (fun _ _ => .inl ⟨rfl, by simp, fun j _ _ => rfl⟩)
  rcases h1 with h1 | h1
  · exact h1.below
  · exact absurd hreg h1.2

/-! ## Calls -/

/-- Time below a tick in a storage. -/
def storeBelow (s : Store) (k : PoolKey) (now : Nat) (i : Int) : Option Int :=
  (s.pools.get? k.key).bind (fun p => belowAt s.ticks k p now i)

/-- Ticks stored before and after keep their time below. -/
def KeepsTime (P : PoolKey → Prop) (now : Nat) (s s' : Store) : Prop :=
  ∀ (k : PoolKey) (i : Int), P k → k.wf → i32 i → (s.ticks.get? (tickKey k i)).isSome = true → (s'.ticks.get? (tickKey k i)).isSome = true →
    storeBelow s' k now i = storeBelow s k now i

theorem TimeStep.keeps {P : PoolKey → Prop} {now : Nat} {s s' : Store} (h : TimeStep now s s') : KeepsTime P now s s' := by
  intro k i _ hk hi h1 h2
  rw [Option.isSome_iff_exists] at h1 h2
  obtain ⟨t, h1⟩ := h1
  obtain ⟨t', h2⟩ := h2
  obtain ⟨p, hp, ht⟩ := h.ticks k i t' hk hi h2
  obtain ⟨p', hp', a1, a2⟩ := h.pools k p hk hp
  unfold storeBelow belowAt Pool.age
  rw [hp, hp', Option.bind_some, Option.bind_some, h1, h2, a1, a2]
  rcases ht with ⟨t2, b1, b2⟩ | ⟨b1, _⟩
  · rw [h1, Option.some.injEq] at b1
    rw [b1, Option.map_some, Option.map_some, b2]
  · rw [h1] at b1; simp at b1

/-- A swap neither adds nor removes ticks. -/
theorem swap_present {c : Chain} {s : Store} {info : Info} {now : Nat} {k : PoolKey} {d : Bool} {amount : Nat}
    {b : Bool} {limit : Nat} {x : Store × List OutMsg × CalcSwapResult} (hr : MReach c s) (hk : k.wf)
    (hh : swapInternal c s info now k d amount b limit = .ok x) (key : Bytes) :
    (x.1.ticks.get? key).isSome = (s.ticks.get? key).isSome := by
  obtain ⟨s1, m1, h1, h2, h3, _, _⟩ := swapInternal_inv hh
  obtain ⟨pool, st, _, hp, _⟩ := calculateSwap_inv h1
  obtain ⟨_, ht⟩ := swap_turned hr.struct hr.bitInv hk hp (hr.price k pool hk hp) h1
  have etick : x.1.ticks = withTicks s.ticks k x.2.2.ticks := by rw [h3]; exact (saveTicks_withTicks h2 :)
  rw [etick]
  cases hg : (withTicks s.ticks k x.2.2.ticks).get? key with
  | some t =>
    rcases withTicks_cases _ _ hg with h | ⟨hin, he⟩
    · rw [h]
    · obtain ⟨_, _, t0, h0, _⟩ := ht t hin
      rw [he, h0]; rfl
  | none =>
    by_cases hin : ∃ t ∈ x.2.2.ticks, key = tickKey k t.index
    · exfalso
      obtain ⟨t, hin, he⟩ := hin
      have := withTicks_some (k := k) (m := s.ticks) hin
      rw [← he, hg] at this
      simp at this
    · rw [withTicks_get _ _ (fun t ht e => hin ⟨t, ht, e⟩)] at hg
      rw [hg]

theorem KeepsTime.swap {c : Chain} {P : PoolKey → Prop} {s : Store} {info : Info} {now : Nat} {k : PoolKey} {d : Bool} {amount : Nat}
    {b : Bool} {limit : Nat} {x : Store × List OutMsg × CalcSwapResult} (hr : MReach c s) (h : TimeInv now s) (hk : k.wf)
    (hn : now < U64) (hh : swapInternal c s info now k d amount b limit = .ok x) (hreg : P k → RegularEnd x.1 k d b limit) :
    KeepsTime P now s x.1 ∧ ∀ key, (x.1.ticks.get? key).isSome = (s.ticks.get? key).isSome := by
  obtain ⟨s1, m1, h1, h2, h3, _, _⟩ := swapInternal_inv hh
  obtain ⟨pool, st, _, hp, _⟩ := calculateSwap_inv h1
  have htk := saveTicks_withTicks h2
  obtain ⟨_, ht⟩ := swap_turned hr.struct hr.bitInv hk hp (hr.price k pool hk hp) h1
  obtain ⟨_, e4⟩ := swapInternal_frame hh
  have epool : x.1.pools = s.pools.insert k.key x.2.2.pool := by rw [e4]
  have epos : x.1.positions = s.positions := by rw [e4]
  have etick : x.1.ticks = withTicks s.ticks k x.2.2.ticks := by rw [h3]; exact htk
  have hu : ∀ j, UsedTick x.1 k j ↔ UsedTick s k j := fun j => by unfold UsedTick positionsOf; rw [epos]
  refine ⟨fun k' i hP hk' hi hs1 hs2 => ?_, swap_present hr hk hh⟩
  · by_cases he : k' = k
    · subst he
      have hrg := hreg hP x.2.2.pool (by rw [epool]; exact KV.get?_insert_same _ _ _)
      rw [hu, hu] at hrg
      have hclock := swap_clock hr.struct hr.bitInv hr.tickSum h hn hk hp (hr.price _ pool hk hp) h1 hrg
      unfold storeBelow
      rw [epool, KV.get?_insert_same, hp, etick]
      obtain ⟨t, hg⟩ := Option.isSome_iff_exists.1 hs1
      have htr := hr.struct.tick hk' hi hg
      have hok : TickOk k'.tier.spacing i := by rw [← htr.1]; exact htr.2.ok
      exact hclock i hok ((hr.tickSum.used hr.struct hk' hi).2 hs1)
    · have hne : k'.key ≠ k.key := fun e => he (PoolKey.key_inj hk' hk e)
      unfold storeBelow
      rw [epool, KV.get?_insert, if_neg hne]
      have : x.1.ticks.get? (tickKey k' i) = s.ticks.get? (tickKey k' i) := by
        rw [etick]
        exact withTicks_get _ _ (fun t htt e => he (tickKey_inj hk' hk hi (ht t htt).1.i32 e).1)
      unfold belowAt
      rw [this]

theorem KeepsTime.route {c : Chain} {P : PoolKey → Prop} {info : Info} {now : Nat} (hn : now < U64) : ∀ {hops : List Hop} {s s' : Store}
    {a fin : Nat} {m out : List OutMsg}, MReach c s → TimeInv now s → (∀ h ∈ hops, h.poolKey.wf) → a < U128 →
    swapRouteInternal c info now hops s a m = .ok (s', fin, out) → RegularRoute c P info now hops s a →
    KeepsTime P now s s' ∧ ∀ key, (s'.ticks.get? key).isSome = (s.ticks.get? key).isSome
  | [], s, s', a, fin, m, out, _, h0, _, _, h, _ => by
    simp only [swapRouteInternal, ok_inj, Prod.mk.injEq] at h
    obtain ⟨rfl, _⟩ := h
    exact ⟨fun _ _ _ _ _ _ _ => rfl, fun _ => rfl⟩
  | hh :: hops, s, s', a, fin, m, out, hr, h0, hw, ha, h, hreg => by
    simp only [swapRouteInternal, bind_ok] at h
    obtain ⟨x, h1, h2⟩ := h
    obtain ⟨g1, g2⟩ := hreg x h1
    have hk := hw hh (by simp)
    have hm : Micro c s x.1 := .swap hk ha (by unfold hopLimit; split <;> decide) h1
    obtain ⟨a1, a2⟩ := KeepsTime.swap hr h0 hk hn h1 g1
    obtain ⟨b1, b2⟩ := KeepsTime.route hn (.step hr hm) (h0.swap hr hk hn h1) (fun h hh => hw h (by simp [hh]))
      (swapInternal_out_lt h1) h2 g2
    refine ⟨fun k i hP hk hi e1 e2 => ?_, fun key => (b2 key).trans (a2 key)⟩
    rw [b1 k i hP hk hi (by rw [a2]; exact e1) e2, a1 k i hP hk hi e1 (by rw [a2]; exact e1)]

theorem KeepsTime.call {c : Chain} {P : PoolKey → Prop} {env : Env} {info : Info} {msg : Msg} {s s' : Store} {out : List OutMsg} (hm : MReach c s)
    (h : TimeInv env.millis s) (hn : env.millis < U64) (he : execute c env info msg s = .ok (s', out))
    (hreg : RegularCall c P env info s s' msg) : KeepsTime P env.millis s s' := by
  by_cases hsw : msg.isSwap = false
  · exact (TimeStep.quiet hm.struct (execute_quiet hsw he)).keeps
  · have hw := (execute_ok.1 he).1
    replace he := (execute_ok.1 he).2
    cases msg <;> simp only [Msg.isSwap, not_true] at hsw
    case swap k d a b l =>
      simp only [dispatch] at he
      obtain ⟨r, h1⟩ := swap_inv he
      exact (KeepsTime.swap hm h hw.1 hn h1 hreg).1
    case swapRoute a e sl hops =>
      simp only [dispatch] at he
      obtain ⟨fin, m, h1, _, _⟩ := swapRoute_inv he
      exact (KeepsTime.route hn hm h hw.2.2.2 hw.1 h1 hreg).1

/-- Nor does any call that swaps. -/
theorem route_present {c : Chain} {info : Info} {now : Nat} : ∀ {hops : List Hop} {s s' : Store}
    {a fin : Nat} {m out : List OutMsg}, MReach c s → (∀ h ∈ hops, h.poolKey.wf) → a < U128 →
    swapRouteInternal c info now hops s a m = .ok (s', fin, out) →
    ∀ key, (s'.ticks.get? key).isSome = (s.ticks.get? key).isSome
  | [], s, s', a, fin, m, out, _, _, _, h => by
    simp only [swapRouteInternal, ok_inj, Prod.mk.injEq] at h
    obtain ⟨rfl, _⟩ := h
    exact fun _ => rfl
  | hh :: hops, s, s', a, fin, m, out, hr, hw, ha, h => by
    simp only [swapRouteInternal, bind_ok] at h
    obtain ⟨x, h1, h2⟩ := h
    have hk := hw hh (by simp)
    have hm : Micro c s x.1 := .swap hk ha (by unfold hopLimit; split <;> decide) h1
    exact fun key => (route_present (.step hr hm) (fun h hh => hw h (by simp [hh])) (swapInternal_out_lt h1) h2 key).trans
      (swap_present hr hk h1 key)

theorem swap_ticks_same {c : Chain} {env : Env} {info : Info} {msg : Msg} {s s' : Store} {out : List OutMsg} (hm : MReach c s)
    (hsw : ¬ msg.isSwap = false) (he : execute c env info msg s = .ok (s', out)) (key : Bytes) :
    (s'.ticks.get? key).isSome = (s.ticks.get? key).isSome := by
  have hw := (execute_ok.1 he).1
  replace he := (execute_ok.1 he).2
  cases msg <;> simp only [Msg.isSwap, not_true] at hsw
  case swap k d a b l =>
    simp only [dispatch] at he
    obtain ⟨r, h1⟩ := swap_inv he
    exact swap_present hm hw.1 h1 key
  case swapRoute a e sl hops =>
    simp only [dispatch] at he
    obtain ⟨fin, m, h1, _, _⟩ := swapRoute_inv he
    exact route_present hm hw.2.2.2 hw.1 h1 key

/-! ## Clocks of ranges -/

theorem Held.spec {c : Chain} {s : Store} (hr : MReach c s) {k : PoolKey} {l u : Int} (h : Held s k l u) :
    k.wf ∧ i32 l ∧ i32 u ∧ l < u ∧ ∃ p tl tu, s.pools.get? k.key = some p ∧ s.ticks.get? (tickKey k l) = some tl ∧
      s.ticks.get? (tickKey k u) = some tu ∧ tl.index = l ∧ tu.index = u := by
  obtain ⟨q, hq, rfl, rfl⟩ := h
  unfold positionsOf at hq
  rw [List.mem_filter, decide_eq_true_eq] at hq
  obtain ⟨hq, rfl⟩ := hq
  obtain ⟨id, hid⟩ := memPos hq
  have hok := hr.struct.positions _ _ hid
  have hu := (usedOf hq).2
  obtain ⟨tl, htl⟩ := Option.isSome_iff_exists.1 ((hr.tickSum.used hr.struct hok.kwf hok.lower.i32).1 hu.1)
  obtain ⟨tu, htu⟩ := Option.isSome_iff_exists.1 ((hr.tickSum.used hr.struct hok.kwf hok.upper.i32).1 hu.2)
  obtain ⟨p, hp⟩ := hok.pool
  exact ⟨hok.kwf, hok.lower.i32, hok.upper.i32, hok.lt, p, tl, tu, hp, htl, htu,
    (hr.struct.tick hok.kwf hok.lower.i32 htl).1, (hr.struct.tick hok.kwf hok.upper.i32 htu).1⟩

/-- The clock of a range from the times below its ends. -/
theorem rangeClock_eq {s : Store} {k : PoolKey} {l u : Int} {now : Nat} {p : Pool} {tl tu : Tick}
    (hp : s.pools.get? k.key = some p) (hl : s.ticks.get? (tickKey k l) = some tl) (hu : s.ticks.get? (tickKey k u) = some tu)
    (il : tl.index = l) (iu : tu.index = u) {a b : Int} (ha : storeBelow s k now l = some a) (hb : storeBelow s k now u = some b) :
    rangeClock s k l u now = b - a := by
  unfold rangeClock
  simp only [hp, hl, hu]
  unfold storeBelow belowAt at ha hb
  rw [hp, Option.bind_some, hl, Option.map_some, Option.some.injEq] at ha
  rw [hp, Option.bind_some, hu, Option.map_some, Option.some.injEq] at hb
  unfold timeBelow timeAbove
  rw [il, iu, ← ha, ← hb]
  split <;> split <;> omega

theorem storeBelow_some {s : Store} {k : PoolKey} {i : Int} {now : Nat} {p : Pool} {t : Tick}
    (hp : s.pools.get? k.key = some p) (ht : s.ticks.get? (tickKey k i) = some t) : ∃ a, storeBelow s k now i = some a := by
  unfold storeBelow belowAt
  rw [hp, Option.bind_some, ht]
  exact ⟨_, rfl⟩

theorem rangeClock_call {c : Chain} {env : Env} {info : Info} {msg : Msg} {s s' : Store} {out : List OutMsg} (hm : MReach c s)
    (h : TimeInv env.millis s) (hn : env.millis < U64) (he : execute c env info msg s = .ok (s', out))
    {k : PoolKey} (hreg : RegularCall c (· = k) env info s s' msg) {l u : Int} (h1 : Held s k l u) (h2 : Held s' k l u) :
    rangeClock s' k l u env.millis = rangeClock s k l u env.millis := by
  have hkeep := KeepsTime.call hm h hn he hreg
  obtain ⟨hk, hl, hu, _, p, tl, tu, hp, a1, a2, a3, a4⟩ := h1.spec hm
  obtain ⟨_, _, _, _, p', tl', tu', hp', b1, b2, b3, b4⟩ := h2.spec ((execute_micros he).mreach hm)
  obtain ⟨x, hx⟩ := storeBelow_some (now := env.millis) hp a1
  obtain ⟨y, hy⟩ := storeBelow_some (now := env.millis) hp a2
  have hx' := (hkeep k l rfl hk hl (by rw [a1]; rfl) (by rw [b1]; rfl)).trans hx
  have hy' := (hkeep k u rfl hk hu (by rw [a2]; rfl) (by rw [b2]; rfl)).trans hy
  rw [rangeClock_eq hp a1 a2 a3 a4 hx hy, rangeClock_eq hp' b1 b2 b3 b4 hx' hy']

theorem rangeClock_wait {c : Chain} {s : Store} (hm : MReach c s) {k : PoolKey} {l u : Int} (h : Held s k l u) {t t' : Nat}
    (ht : t ≤ t') :
    (InRange s k l u → rangeClock s k l u t' = rangeClock s k l u t + ((t' - t : Nat) : Int)) ∧
    (¬ InRange s k l u → rangeClock s k l u t' = rangeClock s k l u t) := by
  obtain ⟨_, _, _, hlt, p, tl, tu, hp, a1, a2, a3, a4⟩ := h.spec hm
  unfold rangeClock timeBelow timeAbove Pool.age InRange
  simp only [hp, a1, a2, a3, a4, Option.some.injEq, exists_eq_left']
  constructor <;> intro h <;> split <;> split <;> omega

end OraiV3
