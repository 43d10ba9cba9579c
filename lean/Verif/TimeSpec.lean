import Verif.TimeWeight

/-!
# A pool that weights time by liquidity

The bookkeeping these functions are made for: one counter for the pool, one for each tick. When time
passes, the pool's counter grows; when the price passes a tick, the tick's counter is mirrored.
-/

namespace OraiV3

/-- The counters of a pool. -/
structure TimeBook where
  tick : Int
  global : Nat
  outside : Int → Nat

/-- What happens to a pool: time passes with so much per unit of liquidity, or the price goes to another tick. -/
inductive TimeEvent where
  | pass (amount : Nat)
  | move (tick : Int)

/-- `j` is passed on the way between `t` and `t'`: it is at or below one of them and above the other. -/
def passed (t t' j : Int) : Bool := (decide (j ≤ t)) != (decide (j ≤ t'))

/-- The counters after an event. Sums and differences wrap round (`unchecked_add`, `unchecked_sub`,
`math/types/seconds_per_liquidity.rs:12-18`). -/
def TimeBook.after (b : TimeBook) : TimeEvent → TimeBook
  | .pass a => { b with global := wadd b.global a }
  | .move t => { b with tick := t,
                        outside := fun j => if passed b.tick t j then wsub b.global (b.outside j) else b.outside j }

def TimeBook.run (b : TimeBook) (es : List TimeEvent) : TimeBook := es.foldl TimeBook.after b

/-- What the contract's function says about the range from `l` to `u`. -/
def TimeBook.inside (b : TimeBook) (l u : Int) : Nat :=
  secondsPerLiquidityInside l u b.tick (b.outside l) (b.outside u) b.global

/-- What passed while the price was in the range from `l` to `u`, starting from tick `t`. -/
def spentInside (l u : Int) : Int → List TimeEvent → Nat
  | _, [] => 0
  | t, .pass a :: es => (if l ≤ t ∧ t < u then a else 0) + spentInside l u t es
  | _, .move t' :: es => spentInside l u t' es

/-- The counters are 128-bit numbers. -/
def TimeBook.Ok (b : TimeBook) : Prop := b.global < U128 ∧ ∀ j, b.outside j < U128

end OraiV3
