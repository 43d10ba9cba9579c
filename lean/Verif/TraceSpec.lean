import Verif.Spec

/-!
# What it means to leave no trace

Specification for C72.
-/

namespace OraiV3

/-- A tick record in which a liquidity change of zero is written with the sign `true`. -/
def Tick.plain (t : Tick) : Tick := if t.change = 0 then { t with sign := true } else t

/-- The second storage is the first one but for the time of a pool's last change, the sign of a zero liquidity change, and
records that say zero instead of being absent. -/
structure NoTrace (s s' : Store) : Prop where
  config : s'.config = s.config
  operators : s'.operators = s.operators
  pools : ∀ key, (s'.pools.get? key).map (fun p => { p with lastTs := 0 }) =
    (s.pools.get? key).map (fun p : Pool => { p with lastTs := 0 })
  ticks : ∀ key, (s'.ticks.get? key).map Tick.plain = (s.ticks.get? key).map Tick.plain
  bitmap : ∀ key, (s'.bitmap.get? key).getD 0 = (s.bitmap.get? key).getD 0
  positions : s'.positions = s.positions
  posLen : ∀ u, (s'.posLen.get? u).getD 0 = (s.posLen.get? u).getD 0

/-- The two storages hold the same prices, liquidity, fees, positions and rights; timestamps, seconds and block heights and
the sign of a zero liquidity change may differ. -/
structure SameView (s s' : Store) : Prop where
  config : s'.config = s.config
  operators : s'.operators = s.operators
  pools : ∀ key, (s'.pools.get? key).map Pool.timeless = (s.pools.get? key).map Pool.timeless
  ticks : ∀ key, (s'.ticks.get? key).map (fun t => t.plain.timeless) = (s.ticks.get? key).map (fun t => t.plain.timeless)
  bitmap : ∀ key, (s'.bitmap.get? key).getD 0 = (s.bitmap.get? key).getD 0
  positions : ∀ id, (s'.positions.get? id).map Position.timeless = (s.positions.get? id).map Position.timeless
  posLen : ∀ u, (s'.posLen.get? u).getD 0 = (s.posLen.get? u).getD 0

end OraiV3
