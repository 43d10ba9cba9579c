import Verif.Lemmas.Payout
import Verif.Props.Liveness
import Verif.Props.Clock

/-!
# C74: what a position is paid does not depend on other liquidity providers
-/

namespace OraiV3

/-- **C74.** As long as nobody trades in the pool, a position is paid the same whenever it is closed, whatever anybody else
deposits, withdraws, claims, transfers or configures in the meantime. -/
theorem C74_withdraw {c : Chain} {s s' t t' : Store} {env env' : Env} {info : Info} {i : Nat} {q : Position} {out out' : List OutMsg}
    (hr : Reach c s) (h0 : Holds s info.sender i q) (hu : Untraded c info.sender i q s s')
    (h : execute c env info (.removePosition i) s = .ok (t, out)) (h' : execute c env' info (.removePosition i) s' = .ok (t', out')) :
    out' = out := by
  obtain ⟨hr', h1, ha, hpl⟩ := hu.kept hr h0
  obtain ⟨q0, pool, a, p1, p2, p3, -, -, rfl⟩ := remove_pays hr.mreach.struct (execute_ok.1 h).2
  obtain ⟨q1, pool', a', p1', p2', p3', -, -, rfl⟩ := remove_pays hr'.mreach.struct (execute_ok.1 h').2
  obtain ⟨-, x0, y0, e0⟩ := h0.get hr
  obtain ⟨-, x1, y1, e1⟩ := h1.get hr'
  rw [p1, Option.some.injEq] at y0
  rw [p1', Option.some.injEq] at y1
  subst y0 y1
  obtain ⟨f1, f2, f3, f4⟩ := e0.fields
  obtain ⟨g1, g2, g3, g4⟩ := e1.fields
  have hpp : pool'.sqrtPrice = pool.sqrtPrice ∧ pool'.tick = pool.tick := by
    unfold place at hpl
    rw [f1] at p2
    rw [g1] at p2'
    rw [p2, p2', Option.map_some, Option.map_some, Option.some.injEq, Prod.mk.injEq] at hpl
    exact hpl
  rw [g2, g3, g4, hpp.1, hpp.2] at p3'
  rw [f2, f3, f4, p3', ok_inj] at p3
  subst p3
  rw [accrued_same e0, accrued_same e0, accrued_same e1, accrued_same e1, ha, ha, f1, g1]

/-- **C74.** The same holds for claimed fees, and a claim that is possible before is possible afterwards. -/
theorem C74_claim {c : Chain} {s s' t : Store} {env : Env} {info : Info} {i : Nat} {q : Position} {out : List OutMsg}
    (hr : Reach c s) (h0 : Holds s info.sender i q) (hu : Untraded c info.sender i q s s')
    (h : execute c env info (.claimFee i) s = .ok (t, out)) (env' : Env) :
    ∃ t', execute c env' info (.claimFee i) s' = .ok (t', out) := by
  obtain ⟨hr', h1, ha, hpl⟩ := hu.kept hr h0
  have hm' := hr'.mreach
  obtain ⟨q0, q0', pool, pool', p1, -, -, -, -, -, -, rfl, -⟩ := claim_owes hr.mreach.struct (execute_ok.1 h).2
  obtain ⟨hi, x0, y0, e0⟩ := h0.get hr
  obtain ⟨-, x1, y1, e1⟩ := h1.get hr'
  rw [p1, Option.some.injEq] at y0
  subst y0
  have hfit : ∀ x, accrued s x q0 / 10 ^ 34 < U128 := by
    obtain ⟨pos, tl, tu, pool, r, hpos, htl, htu, il, iu, hp, hm, -⟩ := claimFee_view hr.mreach.struct (execute_ok.1 h).2
    rw [p1, Option.some.injEq] at hpos
    subst hpos
    obtain ⟨o1, o2, -⟩ := modify_owed (hr.mreach.struct.positions _ _ p1) htl htu il iu hp hm
    obtain ⟨q', d1, d2, d3, -⟩ := Position.modify_inv hm
    obtain ⟨ox, oy, l, -, -, -, -, u1, u2, u3⟩ := Position.update_inv d3
    intro x
    cases x
    · rw [← o2, u3]; exact u2
    · rw [← o1, u3]; exact u1
  obtain ⟨t', out', ht⟩ := claimFee_ok (c := c) (env := env') hm'.struct hm'.posInv hm'.tickSum hm'.cap hm'.price hi y1
    (fun x => by
      rw [accrued_same e1, ha, ← accrued_same e0]
      exact hfit x)
  obtain ⟨q1, q1', -, -, p1', -, -, -, -, -, -, rfl, -⟩ := claim_owes hm'.struct ht
  rw [p1', Option.some.injEq] at y1
  subst y1
  refine ⟨t', execute_ok.2 ⟨hi, ?_⟩⟩
  have := ht
  rw [accrued_same e1, accrued_same e1, ha, ha, ← accrued_same e0, ← accrued_same e0, e1.fields.1, ← e0.fields.1] at this
  exact this

/-- **C74.** If the pool's liquidity is right (no swap in it ended in one of the ways that corrupt it, see C01), others cannot make
the withdrawal impossible either: if it is possible before, it is possible afterwards, with the same payment. -/
theorem C74_withdraw_regular {c : Chain} {s s' t : Store} {env : Env} {info : Info} {i : Nat} {q : Position} {out : List OutMsg}
    (hr : Reach c s) (hr' : Reach c s') (hdr : drift s' q.poolKey = 0) (h0 : Holds s info.sender i q) (hu : Untraded c info.sender i q s s')
    (h : execute c env info (.removePosition i) s = .ok (t, out)) (env' : Env) :
    ∃ t', execute c env' info (.removePosition i) s' = .ok (t', out) := by
  have hacc : ∃ t' out', execute c env' info (.removePosition i) s' = .ok (t', out') := by
    obtain ⟨-, h1, ha, hpl⟩ := hu.kept hr h0
    have hm' := hr'.mreach
    obtain ⟨q0, pool, a, p1, p2, p3, b1, b2, -⟩ := remove_pays hr.mreach.struct (execute_ok.1 h).2
    obtain ⟨hi, x0, y0, e0⟩ := h0.get hr
    obtain ⟨-, x1, y1, e1⟩ := h1.get hr'
    rw [p1, Option.some.injEq] at y0
    subst y0
    have hok := hm'.struct.positions _ _ y1
    obtain ⟨pool', hp'⟩ := hok.pool
    obtain ⟨f1, f2, f3, f4⟩ := e0.fields
    obtain ⟨g1, g2, g3, g4⟩ := e1.fields
    have hpp : pool'.sqrtPrice = pool.sqrtPrice ∧ pool'.tick = pool.tick := by
      unfold place at hpl
      rw [f1] at p2
      rw [← g1, hp', g1, p2, Option.map_some, Option.map_some, Option.some.injEq, Prod.mk.injEq] at hpl
      exact hpl
    have hmem : x1 ∈ positionsOf s' x1.poolKey := mem_positionsOf.2 ⟨(mem_vals _ _).2 ⟨_, y1⟩, rfl⟩
    obtain ⟨t', out', ht⟩ := removePosition_ok' (c := c) (env := env') hm'.struct hm'.posInv hm'.tickSum hm'.bitInv hm'.price hi y1 hp'
      (fun h1 h2 => by
        rw [active_of (g1 ▸ hdr) hp']
        have := le_sumPositions hmem (fun p => if p.lower ≤ pool'.tick ∧ pool'.tick < p.upper then p.liquidity else 0)
        simpa [liquidityInRange, h1, h2] using this)
      (fun a' ha' => by
        rw [g2, g3, g4, hpp.1, hpp.2] at ha'
        rw [f2, f3, f4, ha', ok_inj] at p3
        subst p3
        rw [accrued_same e1, accrued_same e1, ha, ha, ← accrued_same e0, ← accrued_same e0]
        exact ⟨b1, b2⟩)
    exact ⟨t', out', execute_ok.2 ⟨hi, ht⟩⟩
  obtain ⟨t', out', ht⟩ := hacc
  have := C74_withdraw hr h0 hu h ht
  exact ⟨t', by rw [← this]; exact ht⟩

namespace Demo

/-- Two swaps have paid fees to Alice's and Bob's positions. -/
def earned : Store := state chain crossing
/-- Bob closes his position … -/
def others1 : Store := next chain env (by_ bob) (.removePosition 0) earned
/-- … and Carol opens one with the range of Alice's, but much larger. -/
def others2 : Store := next chain env (by_ carol) (.createPosition key (-10) 10 (10 ^ 15) 0 (10 ^ 30)) others1
/-- Alice's position. -/
def hers : Position := match positionList earned alice with | [some q] => q | _ => ⟨key, 0, 0, 0, 0, 0, 0, 0, 0, []⟩
/-- What the call pays. -/
def pays (s : Store) (msg : Msg) : List OutMsg := match execute chain env (by_ alice) msg s with | .ok r => r.2 | .error _ => []

theorem holds_of {s : Store} {o : Bytes} {i : Nat} {q : Position}
    (h : ((positionList s o)[i]?.map (·.map fun r => { r with approvals := [] })) = some (some { q with approvals := [] })) :
    Holds s o i q := by
  cases hp : (positionList s o)[i]? with
  | none => rw [hp] at h; cases h
  | some r =>
    rw [hp] at h
    cases r with
    | none => cases h
    | some r => exact ⟨r, hp, Option.some.inj (Option.some.inj h)⟩

end Demo

/-- Alice's position has earned fees; others withdraw and deposit; Alice is paid the same tokens and fees. -/
example : RegularReach Demo.chain (fun _ => True) Demo.earned ∧ RegularReach Demo.chain (fun _ => True) Demo.others2 ∧
    Holds Demo.earned Demo.alice 0 Demo.hers ∧ Untraded Demo.chain Demo.alice 0 Demo.hers Demo.earned Demo.others2 ∧
    Demo.others2.ticks.get? (tickKey Demo.key (-10)) ≠ Demo.earned.ticks.get? (tickKey Demo.key (-10)) ∧
    Demo.pays Demo.earned (.removePosition 0) = Demo.pays Demo.others2 (.removePosition 0) ∧
    Demo.pays Demo.earned (.claimFee 0) = Demo.pays Demo.others2 (.claimFee 0) ∧
    (Demo.pays Demo.earned (.removePosition 0)).length = 2 ∧ (Demo.pays Demo.earned (.claimFee 0)).length = 2 := by
  have r0 : RegularReach Demo.chain (fun _ => True) Demo.earned := Demo.state_regular (by decide +kernel) (by decide +kernel)
  obtain ⟨o1, e1⟩ := Demo.next_ok (c := Demo.chain) (e := Demo.env) (i := Demo.by_ Demo.bob) (m := .removePosition 0) (s := Demo.earned)
    (by decide +kernel)
  obtain ⟨o2, e2⟩ := Demo.next_ok (c := Demo.chain) (e := Demo.env) (i := Demo.by_ Demo.carol)
    (m := .createPosition Demo.key (-10) 10 (10 ^ 15) 0 (10 ^ 30)) (s := Demo.others1) (by decide +kernel)
  refine ⟨r0, .step (.step r0 e1 trivial) e2 trivial, Demo.holds_of (by decide +kernel),
    .step (.step .refl e1 id (Demo.holds_of (by decide +kernel))) e2 id (Demo.holds_of (by decide +kernel)),
    by decide +kernel, by decide +kernel, by decide +kernel, by decide +kernel, by decide +kernel⟩

end OraiV3
