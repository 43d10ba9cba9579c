import Verif.Lemmas.Commute
import Verif.Props.Accept
import Verif.Props.Trace
import Verif.Props.Batch

/-!
# C73: the order of deposits does not matter
-/

namespace OraiV3

/-- Deposits of others do not get in the way of a deposit that would be accepted after them. -/
theorem deposit_first {c : Chain} {s s1 s2 : Store} {env : Env} {ia ib : Info} {k k' : PoolKey} {l u l' u' : Int} {L L' lo hi lo' hi' : Nat}
    {oa ob : List OutMsg} (hr : TimedReach c env.millis s) (hne : ia.sender ≠ ib.sender)
    (ha : execute c env ia (.createPosition k l u L lo hi) s = .ok (s1, oa))
    (hb : execute c env ib (.createPosition k' l' u' L' lo' hi') s1 = .ok (s2, ob)) :
    ∃ s1' ob', execute c env ib (.createPosition k' l' u' L' lo' hi') s = .ok (s1', ob') := by
  have hr1 : TimedReach c env.millis s1 := .call hr rfl ha
  have hwa := (execute_ok.1 ha).1
  have hwb := (execute_ok.1 hb).1
  obtain ⟨p, fl, fu, d⟩ := deposit_facts hr.reach.mreach hwa (execute_ok.1 ha).2
  rw [C59_deposit hr.reach env ib (.inl rfl) hwb (fun p => hr.inv.pools k' p hwb.1)]
  obtain ⟨p1, q1, q2, q3, q4, q5, q6, q7, q8, q9, q10, q11, x, y, act, q12, q13, q14⟩ :=
    (C59_deposit hr1.reach env ib (.inl rfl) hwb (fun p => hr1.inv.pools k' p hwb.1)).1 ⟨s2, ob, hb⟩
  have hp : ∃ p0, s.pools.get? k'.key = some p0 ∧ p0.tick = p1.tick ∧ p0.sqrtPrice = p1.sqrtPrice ∧ p0.liquidity ≤ p1.liquidity := by
    rw [d.pools, KV.get?_insert] at q1
    split at q1
    · rename_i e
      rw [Option.some.injEq] at q1
      refine ⟨p, by rw [e]; exact d.pool, by rw [← q1]; rfl, by rw [← q1]; rfl, ?_⟩
      rw [← q1]
      unfold depositPool
      simp only
      split <;> omega
    · exact ⟨p1, q1, rfl, rfl, Nat.le_refl _⟩
  obtain ⟨p0, hp0, e1, e2, e3⟩ := hp
  have hlen : getPositionLength s1 ib.sender = getPositionLength s ib.sender := by
    unfold getPositionLength
    rw [d.posLen, KV.get?_insert, if_neg hne.symm]
  rw [d.starting, d.ending] at q8 q9
  rw [hlen] at q11
  refine ⟨p0, hp0, q2, q3, q4, q5, by rw [e2]; exact q6, by rw [e2]; exact q7, by omega, by omega, ?_, q11, x, y, act, by rw [e1, e2]; exact q12,
    q13, q14⟩
  rw [e1]
  intro h1 h2
  have := q10 h1 h2
  omega

/-- A deposit that is accepted before another one is accepted after it, if the two fit together. -/
theorem deposit_second {c : Chain} {s s1 s2 s1' : Store} {env : Env} {ia ib : Info} {k k' : PoolKey} {l u l' u' : Int}
    {L L' lo hi lo' hi' : Nat} {oa ob ob' : List OutMsg} (hr : TimedReach c env.millis s) (hne : ia.sender ≠ ib.sender)
    (ha : execute c env ia (.createPosition k l u L lo hi) s = .ok (s1, oa))
    (hb : execute c env ib (.createPosition k' l' u' L' lo' hi') s1 = .ok (s2, ob))
    (hb' : execute c env ib (.createPosition k' l' u' L' lo' hi') s = .ok (s1', ob')) :
    ∃ s2' oa', execute c env ia (.createPosition k l u L lo hi) s1' = .ok (s2', oa') := by
  have hr1 : TimedReach c env.millis s1 := .call hr rfl ha
  have hr1' : TimedReach c env.millis s1' := .call hr rfl hb'
  have hwa := (execute_ok.1 ha).1
  have hwb := (execute_ok.1 hb).1
  obtain ⟨p, fl, fu, d⟩ := deposit_facts hr.reach.mreach hwa (execute_ok.1 ha).2
  obtain ⟨p', fl', fu', d'⟩ := deposit_facts hr.reach.mreach hwb (execute_ok.1 hb').2
  rw [C59_deposit hr1'.reach env ia (.inl rfl) hwa (fun p => hr1'.inv.pools k p hwa.1)]
  obtain ⟨p1, q1, q2, q3, q4, q5, q6, q7, q8, q9, q10, q11, -⟩ :=
    (C59_deposit hr1.reach env ib (.inl rfl) hwb (fun p => hr1.inv.pools k' p hwb.1)).1 ⟨s2, ob, hb⟩
  obtain ⟨p0, r1, r2, r3, r4, r5, r6, r7, r8, r9, r10, r11, x, y, act, r12, r13, r14⟩ :=
    (C59_deposit hr.reach env ia (.inl rfl) hwa (fun p => hr.inv.pools k p hwa.1)).1 ⟨s1, oa, ha⟩
  have hlen : getPositionLength s1' ia.sender = getPositionLength s ia.sender := by
    unfold getPositionLength
    rw [d'.posLen, KV.get?_insert, if_neg hne]
  rw [d.pool, Option.some.injEq] at r1
  subst r1
  have hp : ∃ pn, s1'.pools.get? k.key = some pn ∧ pn.tick = p.tick ∧ pn.sqrtPrice = p.sqrtPrice ∧
      (l ≤ p.tick → p.tick < u → pn.liquidity + L < U128) := by
    rw [d'.pools, KV.get?_insert]
    split
    · rename_i e
      have ek := PoolKey.key_inj hwa.1 hwb.1 e
      subst ek
      have ep := d'.pool
      rw [d.pool, Option.some.injEq] at ep
      subst ep
      refine ⟨_, rfl, rfl, rfl, fun h1 h2 => ?_⟩
      rw [d.pools, KV.get?_insert, if_pos rfl, Option.some.injEq] at q1
      subst q1
      unfold depositPool at q10 ⊢
      simp only at q10 ⊢
      rw [if_pos ⟨h1, h2⟩] at q10
      split
      · rename_i e
        have := q10 e.1 e.2
        omega
      · exact r10 h1 h2
    · exact ⟨p, d.pool, rfl, rfl, r10⟩
  obtain ⟨pn, hpn, e1, e2, e3⟩ := hp
  have hlt := r3
  have hlt' := q3
  rw [d.starting, d.ending] at q8 q9
  refine ⟨pn, hpn, r2, r3, r4, r5, by rw [e2]; exact r6, by rw [e2]; exact r7, ?_, ?_, by rw [e1]; exact e3, by rw [hlen]; exact r11, x, y, act,
    by rw [e1, e2]; exact r12, r13, r14⟩
  · rw [d'.starting, d'.ending]
    by_cases a : k' = k ∧ l' = l
    · obtain ⟨rfl, rfl⟩ := a
      simp only [true_and, if_true] at q8 ⊢
      split <;> split at q8 <;> omega
    · rw [if_neg a]
      split
      · rename_i b
        obtain ⟨rfl, rfl⟩ := b
        simp only [true_and, if_true] at q9
        split at q9 <;> omega
      · omega
  · rw [d'.starting, d'.ending]
    by_cases a : k' = k ∧ l' = u
    · obtain ⟨rfl, rfl⟩ := a
      simp only [true_and, if_true] at q8 ⊢
      split <;> split at q8 <;> omega
    · rw [if_neg a]
      split
      · rename_i b
        obtain ⟨rfl, rfl⟩ := b
        simp only [true_and, if_true] at q9
        split at q9 <;> omega
      · omega

/-- **C73.** Two deposits of different accounts, in the same pool or in two, can be made in either order: if they succeed in
one order they succeed in the other, everybody pays the same, and the records are the same. -/
theorem C73_order {c : Chain} {s s1 s2 : Store} {env : Env} {ia ib : Info} {k k' : PoolKey} {l u l' u' : Int} {L L' lo hi lo' hi' : Nat}
    {oa ob : List OutMsg} (hr : TimedReach c env.millis s) (hne : ia.sender ≠ ib.sender)
    (ha : execute c env ia (.createPosition k l u L lo hi) s = .ok (s1, oa))
    (hb : execute c env ib (.createPosition k' l' u' L' lo' hi') s1 = .ok (s2, ob)) :
    ∃ s1' s2', execute c env ib (.createPosition k' l' u' L' lo' hi') s = .ok (s1', ob) ∧
      execute c env ia (.createPosition k l u L lo hi) s1' = .ok (s2', oa) ∧ NoTrace s2 s2' := by
  obtain ⟨s1', ob', hb'⟩ := deposit_first hr hne ha hb
  obtain ⟨s2', oa', ha'⟩ := deposit_second hr hne ha hb hb'
  have hwa := (execute_ok.1 ha).1
  have hwb := (execute_ok.1 hb).1
  have hr1 := Reach.step hr.reach ha
  have hr1' := Reach.step hr.reach hb'
  obtain ⟨_, _, _, d1⟩ := deposit_facts hr.reach.mreach hwa (execute_ok.1 ha).2
  obtain ⟨_, _, _, d2⟩ := deposit_facts hr1.mreach hwb (execute_ok.1 hb).2
  obtain ⟨_, _, _, d3⟩ := deposit_facts hr.reach.mreach hwb (execute_ok.1 hb').2
  obtain ⟨_, _, _, d4⟩ := deposit_facts hr1'.mreach hwa (execute_ok.1 ha').2
  obtain ⟨hn, rfl, rfl⟩ := Deposit.swap hne hwa.1 hwb.1 hwa.2.1 hwa.2.2.1 hwb.2.1 hwb.2.2.1 d1 d2 d3 d4
    (Reach.step hr1 hb).mreach (Reach.step hr1' ha').mreach
  exact ⟨s1', s2', hb', ha', hn⟩

/-- **C73.** So nothing that happens later depends on the order. -/
theorem C73_future {c : Chain} {s s1 s2 s1' s2' : Store} {env : Env} {ia ib : Info} {k k' : PoolKey} {l u l' u' : Int}
    {L L' lo hi lo' hi' : Nat} {oa ob oa' ob' : List OutMsg} (hr : TimedReach c env.millis s) (hne : ia.sender ≠ ib.sender)
    (ha : execute c env ia (.createPosition k l u L lo hi) s = .ok (s1, oa))
    (hb : execute c env ib (.createPosition k' l' u' L' lo' hi') s1 = .ok (s2, ob))
    (hb' : execute c env ib (.createPosition k' l' u' L' lo' hi') s = .ok (s1', ob'))
    (ha' : execute c env ia (.createPosition k l u L lo hi) s1' = .ok (s2', oa'))
    (calls : List (Env × Info × Msg)) (hf : Forward (env :: calls.map (·.1))) :
    (runCalls c calls s2').2 = (runCalls c calls s2).2 ∧ SameView (runCalls c calls s2).1 (runCalls c calls s2').1 := by
  obtain ⟨t1, t2, x1, x2, hn⟩ := C73_order hr hne ha hb
  rw [hb', ok_inj, Prod.mk.injEq] at x1
  obtain ⟨rfl, -⟩ := x1
  rw [ha', ok_inj, Prod.mk.injEq] at x2
  obtain ⟨rfl, -⟩ := x2
  exact hn.future (.call (.call hr rfl ha) rfl hb) calls hf

/-- **C73.** The same for any number of deposits of different accounts: whatever their order in the block, all are accepted,
everybody pays the same, and whatever happens afterwards happens the same way. -/
theorem C73_any_order {c : Chain} {env : Env} {es es' : Batch} (hp : es.Perm es') (he : ∀ e ∈ es, e.2.isDeposit)
    (hd : (es.map (·.1.sender)).Nodup) {s : Store} (hr : TimedReach c env.millis s)
    (hok : ∀ r ∈ (runCalls c (es.calls env) s).2, r.isOk) (calls : List (Env × Info × Msg)) (hf : Forward (env :: calls.map (·.1))) :
    (∀ r ∈ (runCalls c (es'.calls env) s).2, r.isOk) ∧ (Batch.results c env es' s).Perm (Batch.results c env es s) ∧
    (runCalls c calls (runCalls c (es'.calls env) s).1).2 = (runCalls c calls (runCalls c (es.calls env) s).1).2 ∧
    SameView (runCalls c calls (runCalls c (es.calls env) s).1).1 (runCalls c calls (runCalls c (es'.calls env) s).1).1 := by
  refine Batch.any_order (P := Msg.isDeposit) (fun {s s1 s2 x y ox oy} hr hne hx hy h1 h2 => ?_) hp he hd hr hok calls hf
  have eq : ∀ {m : Msg}, m.isDeposit → ∃ k l u L lo hi, m = .createPosition k l u L lo hi := by
    intro m h
    cases m <;> first | exact absurd h id | skip
    exact ⟨_, _, _, _, _, _, rfl⟩
  obtain ⟨_, _, _, _, _, _, ex⟩ := eq hx
  obtain ⟨_, _, _, _, _, _, ey⟩ := eq hy
  rw [ex] at h1 ⊢
  rw [ey] at h2 ⊢
  exact C73_order hr hne h1 h2

namespace Demo

/-- Carol's range ends where Bob's begins, at a new tick. -/
def deposits : List (Info × Msg) :=
  [(by_ carol, .createPosition key (-30) 40 (10 ^ 12) 0 (10 ^ 30)), (by_ bob, .createPosition key 40 60 (10 ^ 12) 0 (10 ^ 30))]
/-- The state after both, in the order of the list. -/
def deposited (calls : List (Info × Msg)) : Store := calls.foldl (fun s x => next chain (later 1000) x.1 x.2 s) clock0
/-- The first deposit is accepted at the start, the second after it. -/
def accepted (calls : List (Info × Msg)) : List Bool :=
  (runCalls chain (calls.map fun x => (later 1000, x)) clock0).2.map (·.isOk)

end Demo

/-- Both orders are accepted; the records differ in nothing but the sign of a zero. -/
example : TimedReach Demo.chain (Demo.later 1000).millis Demo.clock0 ∧
    Demo.accepted Demo.deposits = [true, true] ∧ Demo.accepted Demo.deposits.reverse = [true, true] ∧
    ((Demo.deposited Demo.deposits).ticks.get? (tickKey Demo.key 40)).map (fun t => (t.change, t.gross, t.sign)) =
      some (0, 2 * 10 ^ 12, true) ∧
    ((Demo.deposited Demo.deposits.reverse).ticks.get? (tickKey Demo.key 40)).map (fun t => (t.change, t.gross, t.sign)) =
      some (0, 2 * 10 ^ 12, false) ∧
    (Demo.deposited Demo.deposits).pools.get? Demo.key.key = (Demo.deposited Demo.deposits.reverse).pools.get? Demo.key.key ∧
    (Demo.deposited Demo.deposits).pools.get? Demo.key.key ≠ Demo.clock0.pools.get? Demo.key.key := by
  refine ⟨.wait (t := 1000000000000) (Demo.state_timed (by decide +kernel)) (by decide) (by decide), by decide +kernel,
    by decide +kernel, by decide +kernel, by decide +kernel, by decide +kernel, by decide +kernel⟩

/-- Three deposits in two orders, and a swap afterwards. -/
example : let three : Batch := Demo.deposits ++ [(Demo.by_ Demo.alice, .createPosition Demo.key (-30) 60 (10 ^ 12) 0 (10 ^ 30))]
    three.Perm three.reverse ∧ (∀ e ∈ three, e.2.isDeposit) ∧ (three.map (·.1.sender)).Nodup ∧
    (runCalls Demo.chain (three.calls (Demo.later 1000)) Demo.clock0).2.map (fun r => r.isOk) = [true, true, true] ∧
    (runCalls Demo.chain (Batch.calls (Demo.later 1000) three.reverse) Demo.clock0).2.map (fun r => r.isOk) = [true, true, true] ∧
    (runCalls Demo.chain (three.calls (Demo.later 1000) ++
      [(Demo.later 2000, Demo.by_ Demo.bob, .swap Demo.key true 1000 true MIN_SQRT_PRICE)]) Demo.clock0).2.map (fun r => r.isOk) =
      [true, true, true, true] := by
  refine ⟨(List.reverse_perm _).symm, by simp [Demo.deposits, Msg.isDeposit], by decide +kernel, by decide +kernel, by decide +kernel,
    by decide +kernel⟩

end OraiV3
