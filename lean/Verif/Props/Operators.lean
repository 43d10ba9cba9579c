import Verif.OperatorSpec
import Verif.Props.Access
import Verif.Props.Listings

/-!
# C18, C44: operators over whole histories

`C18_operators` and `C44_operators` speak of what is stored.  Here the same is said of what was done: an account is an
operator exactly if it was appointed and not dismissed since, and the query lists exactly these.
-/

namespace OraiV3

theorem Appointing.stored {c : Chain} {s : Store} {g : Appointments} (h : Appointing c s g) (owner who : Bytes)
    (ho : owner.length < 2 ^ 16) : s.operators.get? (operatorKey owner who) = g owner who := by
  induction h with
  | init sender fee _ => simp [instantiate, Store.empty, KV.get?, KV.empty, kvFind]
  | @step s s' g env info msg out _ hl hx ih =>
    obtain ⟨a1, a2, a3⟩ := C18_operators hx
    have hk : ∀ w, operatorKey owner who = operatorKey info.sender w ↔ owner = info.sender ∧ who = w := fun w =>
      ⟨fun e => operatorKey_inj ho hl e, fun e => by rw [e.1, e.2]⟩
    by_cases m1 : ∃ o ex, msg = .approveAll o ex
    · obtain ⟨o, ex, rfl⟩ := m1
      rw [(a1 o ex rfl).2]
      simp only [KV.get?_insert, Appointments.after, hk, ih]
    · by_cases m2 : ∃ o, msg = .revokeAll o
      · obtain ⟨o, rfl⟩ := m2
        rw [(a2 o rfl).1]
        simp only [KV.get?_erase, Appointments.after, hk, ih]
      · have e : g.after info.sender msg = g := by
          cases msg <;> first | rfl | exact absurd ⟨_, _, rfl⟩ m1 | exact absurd ⟨_, rfl⟩ m2
        rw [a3 (fun o ex e => m1 ⟨o, ex, e⟩) (fun o e => m2 ⟨o, e⟩), e, ih]

/-- **C18.** After any history an account may act for another exactly if that other appointed it by `ApproveAll`, has not
dismissed it by `RevokeAll` since, and the appointment has not expired. -/
theorem C18_operators_are_the_appointed {c : Chain} {s : Store} {g : Appointments} (h : Appointing c s g) (env : Env)
    (owner who : Bytes) (ho : owner.length < 2 ^ 16) :
    OperatorOf s env owner who ↔ ∃ ex, g owner who = some ex ∧ ex.ValidAt env := by
  unfold OperatorOf
  rw [h.stored owner who ho]

/-- **C44.** After any history the operators query of an account returns the page, after the given address, of the accounts which
it appointed and has not dismissed since, without the expired ones unless they are asked for. -/
theorem C44_operators_are_the_appointed {c : Chain} {s : Store} {g : Appointments} (h : Appointing c s g) (env : Env)
    (owner : Bytes) (ho : owner.length < 2 ^ 16) (includeExpired : Bool) (start : Option Bytes) (limit : Option Nat) :
    PageOf (fun who ex => g owner who = some ex ∧ (includeExpired = true ∨ ex.ValidAt env))
      start (min (limit.getD 100) 100) (queryAllApprovals s env owner includeExpired start limit) := by
  have := C44_operators s env owner includeExpired start limit
  simpa only [h.stored owner _ ho] using this

/-! Alice appoints Bob and Carol, or appoints Bob and dismisses them again. -/

namespace Demo

def appoint : Msg := .approveAll bob (some (.atHeight 5))

theorem appointing_one : ∃ s, Appointing chain s
    ((Appointments.after (fun _ _ => none) alice appoint).after alice (.approveAll carol none)) ∧
    queryAllApprovals s env alice false none none = [(bob, .atHeight 5), (carol, .never)] := by
  refine ⟨_, .step (info := by_ alice) (env := env) (out := []) (.step (info := by_ alice) (env := env) (out := [])
    (.init alice 0 (by decide)) (by decide) (s' := _) (msg := appoint) rfl) (by decide) (s' := _) rfl, ?_⟩
  decide +kernel

theorem appointing_two : ∃ s, Appointing chain s
    ((Appointments.after (fun _ _ => none) alice appoint).after alice (.revokeAll bob)) ∧
    queryAllApprovals s env alice false none none = [] := by
  refine ⟨_, .step (info := by_ alice) (env := env) (out := []) (.step (info := by_ alice) (env := env) (out := [])
    (.init alice 0 (by decide)) (by decide) (s' := _) (msg := appoint) rfl) (by decide) (s' := _) rfl, ?_⟩
  decide +kernel

end Demo

end OraiV3
