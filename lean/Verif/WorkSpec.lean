import Mathlib.Data.Finset.Dedup
import Mathlib.Data.Finset.Filter
import Mathlib.Data.Finset.Card
import Verif.Spec
import Verif.Solvency

/-!
# What a swap has to pass
-/

namespace OraiV3

/-- The ticks from `a` to `b`, in either direction and both included, at which a position of the pool begins or ends. -/
def usedTicks (s : Store) (k : PoolKey) (a b : Int) : Finset Int :=
  ((positionsOf s k).flatMap (fun p => [p.lower, p.upper])).toFinset.filter (fun t => min a b ≤ t ∧ t ≤ max a b)

end OraiV3
