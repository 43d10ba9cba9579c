import Verif.Spec

/-!
# While nobody trades

Specification for C74.
-/

namespace OraiV3

/-- The call trades in the pool. -/
def Msg.tradesIn (k : PoolKey) : Msg → Prop
  | .swap k' .. => k' = k
  | .swapRoute _ _ _ hops => ∃ h ∈ hops, h.poolKey = k
  | _ => False

/-- The two records say the same, but for the approvals. -/
def SamePosition (q q' : Position) : Prop := { q' with approvals := [] } = { q with approvals := [] }

/-- The account's `i`-th position is `q`, perhaps with other approvals. -/
def Holds (s : Store) (owner : Bytes) (i : Nat) (q : Position) : Prop :=
  ∃ q', (positionList s owner)[i]? = some (some q') ∧ SamePosition q q'

/-- From the first storage to the second by calls of any accounts, none of which trades in the pool of the position `q`, and
all of which leave `q` in its place. -/
inductive Untraded (c : Chain) (owner : Bytes) (i : Nat) (q : Position) (s : Store) : Store → Prop where
  | refl : Untraded c owner i q s s
  | step {s1 s2 : Store} {env : Env} {info : Info} {msg : Msg} {out : List OutMsg} : Untraded c owner i q s s1 →
      execute c env info msg s1 = .ok (s2, out) → ¬ msg.tradesIn q.poolKey → Holds s2 owner i q → Untraded c owner i q s s2

end OraiV3
