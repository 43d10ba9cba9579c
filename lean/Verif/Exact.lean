import Mathlib.Algebra.Order.Field.Rat
import Mathlib.Algebra.Order.Ring.Unbundled.Rat

/-!
# Exact: the concentrated-liquidity formulas in exact arithmetic

Liquidity is stored with 6 decimals and square-root prices with 24; the amounts of the two tokens
backing liquidity `L` between the square-root prices `a ≤ b` are `L·(1/a − 1/b)` and `L·(b − a)`.
Nothing here is used by the model.
-/

namespace OraiV3

/-- The number a stored liquidity stands for. -/
def liqVal (L : Nat) : ℚ := (L : ℚ) / 10 ^ 6

/-- The number a stored square-root price stands for. -/
def priceVal (p : Nat) : ℚ := (p : ℚ) / 10 ^ 24

/-- Exact amount of token X backing `L` between two prices (in either order). -/
def exactX (L a b : Nat) : ℚ := liqVal L * |1 / priceVal a - 1 / priceVal b|

/-- Exact amount of token Y backing `L` between two prices (in either order). -/
def exactY (L a b : Nat) : ℚ := liqVal L * |priceVal b - priceVal a|

/-- The largest error of the rounded-up amount of token X below the exact amount. -/
def dustX (a b : Nat) : ℚ := 1 / (priceVal a * priceVal b) / 10 ^ 24

/-- The price, moved to the nearer end of a range when it is outside. -/
def clampPrice (lo hi p : Nat) : Nat := max lo (min p hi)

/-- Exact amount of token X in a position of liquidity `L` between two prices: the part of the range above
the current price. -/
def exactPositionX (L lo hi p : Nat) : ℚ := exactX L (clampPrice lo hi p) hi

/-- Exact amount of token Y in a position: the part of the range below the current price. -/
def exactPositionY (L lo hi p : Nat) : ℚ := exactY L lo (clampPrice lo hi p)

end OraiV3
