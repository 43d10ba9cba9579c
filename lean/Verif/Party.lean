import Verif.Spec
import Verif.Ledger

/-!
# Parties: between whom a response moves tokens

Specification for C66.
-/

namespace OraiV3

/-- A token movement between the sender and the contract in a token with `P`. -/
def OutMsg.Between (self sender : Bytes) (P : Bytes → Prop) : OutMsg → Prop
  | .cw20Transfer t to _ => to = sender ∧ P t
  | .bankSend to d _ => to = sender ∧ P d
  | .cw20TransferFrom t owner to _ => owner = sender ∧ to = self ∧ P t
  | .nftReceive .. => False

/-- The text an asset is known by: the address of the cw20 contract, or the denomination of the coin. -/
def Asset.name : Asset → Bytes
  | .cw20 t => t
  | .native d => d

end OraiV3
