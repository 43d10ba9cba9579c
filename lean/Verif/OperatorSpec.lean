import Verif.Spec

/-!
# Who has been appointed operator by whom

A record of the appointments kept by somebody who watches the successful calls only, without looking at the
contract's storage.
-/

namespace OraiV3

/-- For each account and each other account, the expiry of the standing appointment, if there is one. -/
abbrev Appointments := Bytes → Bytes → Option Expiration

/-- The appointments after a successful call: `ApproveAll` appoints the named account for the sender, until the given
time or for ever; `RevokeAll` ends the sender's appointment of the named account; nothing else matters.
Interface: contracts/oraiswap-v3/src/msg.rs:123-132 (`ApproveAll`, `RevokeAll`). -/
def Appointments.after (g : Appointments) (sender : Bytes) : Msg → Appointments
  | .approveAll who ex => fun a b => if a = sender ∧ b = who then some (ex.getD .never) else g a b
  | .revokeAll who => fun a b => if a = sender ∧ b = who then none else g a b
  | _ => g

/-- Histories of successful calls with the appointments made in them.  Addresses are shorter than 65536 bytes. -/
inductive Appointing (c : Chain) : Store → Appointments → Prop where
  | init (sender : Bytes) (fee : Nat) (h : fee < U64) : Appointing c (instantiate sender fee) (fun _ _ => none)
  | step {s s' : Store} {g : Appointments} {env : Env} {info : Info} {msg : Msg} {out : List OutMsg} :
      Appointing c s g → info.sender.length < 2 ^ 16 → execute c env info msg s = .ok (s', out) →
      Appointing c s' (g.after info.sender msg)

end OraiV3
