import Verif.Spec

/-!
# AccountSpec: histories in which calls come from accounts

Specification for C68.  On a chain every call is signed by an account, so its sender passes the address check; the
strings inside messages can be anything.
-/

namespace OraiV3

/-- `s'` is obtained from `s` by successful calls that satisfy `P`, each sent by an account. -/
inductive AccountSteps (c : Chain) (P : Msg → Prop) : Store → Store → Prop where
  | refl (s : Store) : AccountSteps c P s s
  | tail {s s1 s2 : Store} {env : Env} {info : Info} {msg : Msg} {out : List OutMsg} :
      AccountSteps c P s s1 → c.isAddr info.sender = true → info.sender.length < 2 ^ 16 → P msg →
      execute c env info msg s1 = .ok (s2, out) → AccountSteps c P s s2

/-- Storages that can occur if every call is sent by an account. -/
def AccountReach (c : Chain) (P : Msg → Prop) (s : Store) : Prop :=
  ∃ sender fee, fee < U64 ∧ c.isAddr sender = true ∧ AccountSteps c P (instantiate sender fee) s

/-- Everybody that owns a position, is the admin, or receives a pool's protocol fees is an account. -/
def OnlyAccounts (c : Chain) (s : Store) : Prop :=
  (∀ owner, positionList s owner ≠ [] → c.isAddr owner = true) ∧
  (∀ cfg, s.config = some cfg → c.isAddr cfg.admin = true) ∧
  (∀ key p, s.pools.get? key = some p → c.isAddr p.feeReceiver = true)

/-- The call hands nothing to a string that is not an account, apart perhaps from `TransferPosition`, which looks after
itself. -/
def Msg.Careful (c : Chain) : Msg → Prop
  | .transferNft r _ | .sendNft r _ _ | .changeAdmin r | .changeFeeReceiver _ r => c.isAddr r = true
  | _ => True

end OraiV3
