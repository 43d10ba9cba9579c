import Verif.Spec

/-!
# FeeSpec: what positions have earned

Vocabulary for the fee properties.  A token is selected by a Boolean, `true` for X.  Amounts called
`accrued` are exact: in units of `10^-34` of the smallest unit of the token, so that nothing is rounded.
Nothing here is used by the model.
-/

namespace OraiV3

/-- Fees earned so far by one unit of active liquidity, as the pool counts them. -/
def Pool.fg (p : Pool) (x : Bool) : Nat := if x then p.fgX else p.fgY
/-- Protocol fee not yet withdrawn. -/
def Pool.proto (p : Pool) (x : Bool) : Nat := if x then p.protoX else p.protoY
/-- The counter stored in a tick. -/
def Tick.out (t : Tick) (x : Bool) : Nat := if x then t.outX else t.outY
/-- The counter stored in a position. -/
def Position.fgIn (q : Position) (x : Bool) : Nat := if x then q.fgInX else q.fgInY

/-- The counter of the tick stored at an index. -/
def outAt (m : KV Tick) (k : PoolKey) (x : Bool) (i : Int) : Nat :=
  match m.get? (tickKey k i) with
  | some t => t.out x
  | none => 0

/-- Fees earned by one unit of liquidity inside a range: all fees less those earned below the lower tick and those
earned at or above the upper tick. A tick remembers the fees of the side on which the price is not. -/
def growthInside (m : KV Tick) (k : PoolKey) (p : Pool) (x : Bool) (l u : Int) : Nat :=
  let below := if l ≤ p.tick then outAt m k x l else wsub (p.fg x) (outAt m k x l)
  let above := if p.tick < u then outAt m k x u else wsub (p.fg x) (outAt m k x u)
  wsub (wsub (p.fg x) below) above

/-- The code computes it. -/
theorem growthInside_code (m : KV Tick) (k : PoolKey) (p : Pool) (x : Bool) (l u : Int) :
    growthInside m k p x l u = feeGrowthInside l (outAt m k x l) u (outAt m k x u) p.tick (p.fg x) := rfl

/-- What a position has earned since its fees were last paid, in a pool with the given ticks. -/
def accruedIn (m : KV Tick) (p : Pool) (x : Bool) (q : Position) : Nat :=
  wsub (growthInside m q.poolKey p x q.lower q.upper) (q.fgIn x) * q.liquidity

/-- What a position has earned since its fees were last paid. -/
def accrued (s : Store) (x : Bool) (q : Position) : Nat :=
  match s.pools.get? q.poolKey.key with
  | some p => accruedIn s.ticks p x q
  | none => 0

/-- What all positions of a pool have earned and not been paid. -/
def totalAccrued (s : Store) (k : PoolKey) (x : Bool) : Nat := sumPositions s k (accrued s x)

end OraiV3
