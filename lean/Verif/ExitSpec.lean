import Verif.Spec

/-!
# Calls of several accounts in one block

Specification for C73 and C90.
-/

namespace OraiV3

/-- The call by which an account closes its `i`-th position (`whole`) or only claims the fees of it. -/
def exitMsg (whole : Bool) (i : Nat) : Msg := if whole then .removePosition i else .claimFee i

/-- The call closes a position or claims fees. -/
def Msg.isExit : Msg → Prop
  | .removePosition _ => True
  | .claimFee _ => True
  | _ => False

/-- The call makes a deposit. -/
def Msg.isDeposit : Msg → Prop
  | .createPosition .. => True
  | _ => False

/-- Calls made in one block, with their callers. -/
abbrev Batch := List (Info × Msg)

/-- The calls, in the order of the list. -/
def Batch.calls (env : Env) (es : Batch) : List (Env × Info × Msg) := es.map fun e => (env, e.1, e.2)

/-- Each call with what it gave when they were made in the order of the list: its messages, or its error. -/
def Batch.results (c : Chain) (env : Env) (es : Batch) (s : Store) : List ((Info × Msg) × M (List OutMsg)) :=
  es.zip (runCalls c (es.calls env) s).2

end OraiV3
