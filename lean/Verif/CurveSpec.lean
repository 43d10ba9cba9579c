import Verif.Solvency
import Verif.Shares

/-!
# The price curve of a pool

What the positions of a pool consist of depends on the price alone.  Moving the price from one value to another therefore has
an exact cost and an exact yield.  Nothing here is used by the model.
-/

namespace OraiV3

/-- What the positions of a pool consist of in one token (X if `x`) at square-root price `p`. -/
def held (s : Store) (k : PoolKey) (x : Bool) (p : Nat) : ℚ := sumQ s k (fun q => q.principal x p)

/-- What it costs on the curve to move the price from `p` to `p'`: X if `sellX`, otherwise Y. -/
def curveIn (s : Store) (k : PoolKey) (sellX : Bool) (p p' : Nat) : ℚ := held s k sellX p' - held s k sellX p

/-- What the curve gives for moving the price from `p` to `p'`: Y if `sellX`, otherwise X. -/
def curveOut (s : Store) (k : PoolKey) (sellX : Bool) (p p' : Nat) : ℚ := held s k (!sellX) p - held s k (!sellX) p'

/-- The amount of a token that liquidity `L` exchanges when the stored square-root price `p` changes by one in its last digit. -/
def lastDigit (x : Bool) (L p : Nat) : ℚ := exactAmount x L (p - 1) p

end OraiV3
