import Verif.Spec
import Verif.Ledger

/-!
# Positions that change hands

Specification for C88.
-/

namespace OraiV3

/-- The call gives position `i` of `A` to `B`. -/
def HandsOver (msg : Msg) (sender A : Bytes) (i : Nat) (B : Bytes) : Prop :=
  match msg with
  | .transferPosition i' r => sender = A ∧ i' = i ∧ r = B
  | .transferNft r id => i < 2 ^ 32 ∧ id = positionKey A i ∧ r = B
  | .sendNft r id _ => i < 2 ^ 32 ∧ id = positionKey A i ∧ r = B
  | _ => False

/-- From the same balances `l`, what `A` gets in `w` is what `B` gets in `w'`, and it comes from the contract both times. -/
def SamePayment (c : Chain) (l : Ledger) (A : Bytes) (w : World) (B : Bytes) (w' : World) : Prop :=
  ∀ a, (w'.ledger.bal a B : Int) - l.bal a B = w.ledger.bal a A - l.bal a A ∧ w'.ledger.bal a c.self = w.ledger.bal a c.self

/-- The two states agree on everything but who holds which position. -/
def SameMarket (s t : Store) : Prop :=
  t.config = s.config ∧ t.pools = s.pools ∧ t.ticks = s.ticks ∧ t.bitmap = s.bitmap ∧ t.operators = s.operators

end OraiV3
