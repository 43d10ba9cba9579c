import Verif.Lemmas.Exits
import Verif.Props.Commute
import Verif.Props.Batch

/-!
# C90: the order of withdrawals and claims does not matter
-/

namespace OraiV3

/-- **C90.** Two accounts that close a position or claim fees in the same block, in the same pool or in two, can do it in
either order: if they succeed in one order they succeed in the other, everybody is paid the same, and the records are the
same. -/
theorem C90_order {c : Chain} {s s1 s2 : Store} {env : Env} {ia ib : Info} {wa wb : Bool} {i j : Nat} {oa ob : List OutMsg}
    (hr : Reach c s) (hne : ia.sender ≠ ib.sender) (ha : execute c env ia (exitMsg wa i) s = .ok (s1, oa))
    (hb : execute c env ib (exitMsg wb j) s1 = .ok (s2, ob)) :
    ∃ s1' s2', execute c env ib (exitMsg wb j) s = .ok (s1', ob) ∧ execute c env ia (exitMsg wa i) s1' = .ok (s2', oa) ∧
      NoTrace s2 s2' := by
  obtain ⟨s1', ob', hb'⟩ := exit_first hr hne ha hb
  obtain ⟨s2', oa', ha'⟩ := exit_second hr hne ha hb hb'
  obtain ⟨_, _, d1⟩ := exit_facts hr ha
  obtain ⟨_, _, d2⟩ := exit_facts (hr.step ha) hb
  obtain ⟨_, _, d3⟩ := exit_facts hr hb'
  obtain ⟨_, _, d4⟩ := exit_facts (hr.step hb') ha'
  obtain ⟨hn, rfl, rfl⟩ := Exit.swap hne d1 d2 d3 d4 ((hr.step ha).step hb).mreach ((hr.step hb').step ha').mreach
  exact ⟨s1', s2', hb', ha', hn⟩

theorem Msg.isExit.eq {m : Msg} (h : m.isExit) : ∃ w i, m = exitMsg w i := by
  cases m <;> first | exact absurd h id | skip
  · rename_i i; exact ⟨false, i, rfl⟩
  · rename_i i; exact ⟨true, i, rfl⟩

/-- **C90.** The same for any number of accounts: whatever the order of their calls in the block, all are accepted and
everybody is paid the same, and whatever happens afterwards happens the same way. -/
theorem C90_any_order {c : Chain} {env : Env} {es es' : Batch} (hp : es.Perm es') (he : ∀ e ∈ es, e.2.isExit)
    (hd : (es.map (·.1.sender)).Nodup) {s : Store} (hr : TimedReach c env.millis s)
    (hok : ∀ r ∈ (runCalls c (es.calls env) s).2, r.isOk) (calls : List (Env × Info × Msg)) (hf : Forward (env :: calls.map (·.1))) :
    (∀ r ∈ (runCalls c (es'.calls env) s).2, r.isOk) ∧ (Batch.results c env es' s).Perm (Batch.results c env es s) ∧
    (runCalls c calls (runCalls c (es'.calls env) s).1).2 = (runCalls c calls (runCalls c (es.calls env) s).1).2 ∧
    SameView (runCalls c calls (runCalls c (es.calls env) s).1).1 (runCalls c calls (runCalls c (es'.calls env) s).1).1 := by
  refine Batch.any_order (P := Msg.isExit) (fun {s s1 s2 x y ox oy} hr hne hx hy h1 h2 => ?_) hp he hd hr hok calls hf
  obtain ⟨wx, i, ex⟩ := hx.eq
  obtain ⟨wy, j, ey⟩ := hy.eq
  rw [ex] at h1 ⊢
  rw [ey] at h2 ⊢
  exact C90_order hr.reach hne h1 h2

namespace Demo

/-- Alice, Bob and Carol have positions that share ends; Bob has swapped. -/
def leaving : List (Info × Msg) := setup ++
  [(by_ bob, .createPosition key (-10) 20 (10 ^ 12) 0 (10 ^ 30)),
   (by_ carol, .createPosition key 10 20 (10 ^ 12) 0 (10 ^ 30)),
   (by_ bob, .swap key true 1000 true MIN_SQRT_PRICE)]
/-- Alice and Carol close their positions, Bob claims. -/
def exits : Batch := [(by_ alice, .removePosition 0), (by_ bob, .claimFee 0), (by_ carol, .removePosition 0)]
/-- Afterwards Bob closes his position and somebody tries to swap. -/
def afterwards : List (Env × Info × Msg) :=
  [(later 2000, by_ bob, .swap key false 100 true MAX_SQRT_PRICE), (later 3000, by_ bob, .removePosition 0)]

end Demo

/-- In both orders everybody leaves, is paid something, and the swap that follows succeeds. -/
example : TimedReach Demo.chain (Demo.later 1000).millis (Demo.state Demo.chain Demo.leaving) ∧
    Demo.exits.Perm (Demo.exits.reverse : Batch) ∧ (Demo.exits.map (·.1.sender)).Nodup ∧ (∀ e ∈ Demo.exits, e.2.isExit) ∧
    Forward (Demo.later 1000 :: Demo.afterwards.map (·.1)) ∧
    (runCalls Demo.chain (Demo.exits.calls (Demo.later 1000)) (Demo.state Demo.chain Demo.leaving)).2.map
      (fun r => r.toOption.map (·.length)) = [some 2, some 1, some 1] ∧
    (runCalls Demo.chain (Batch.calls (Demo.later 1000) Demo.exits.reverse) (Demo.state Demo.chain Demo.leaving)).2.map
      (fun r => r.toOption.map (·.length)) = [some 1, some 1, some 2] ∧
    (runCalls Demo.chain (Demo.exits.calls (Demo.later 1000) ++ Demo.afterwards) (Demo.state Demo.chain Demo.leaving)).2.map
      (fun r => r.isOk) = [true, true, true, true, true] := by
  refine ⟨.wait (t := 1000000000000) (Demo.state_timed (by decide +kernel)) (by decide) (by decide), (List.reverse_perm _).symm, by decide +kernel,
    by simp [Demo.exits, Msg.isExit], by unfold Forward; decide +kernel, by decide +kernel, by decide +kernel, by decide +kernel⟩

end OraiV3
