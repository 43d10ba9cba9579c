import Verif.Clock

/-!
# RecordSpec: what a position records about its origin

Specification for C69.
-/

namespace OraiV3

/-- What a position records for ever: pool, range and liquidity, and the block in which it was opened. -/
def Position.origin (p : Position) : (PoolKey × Int × Int × Nat) × Nat := (p.what, p.lastBlock)

/-- The origins of an account's positions, in the order of the account's list. -/
def origins (s : Store) (owner : Bytes) : List (Option ((PoolKey × Int × Int × Nat) × Nat)) :=
  (positionList s owner).map (Option.map Position.origin)

end OraiV3
