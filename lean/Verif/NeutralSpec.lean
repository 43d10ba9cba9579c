import Verif.Spec

/-!
# NeutralSpec: storages that differ only in fees

Vocabulary of C92.  Nothing here is used by the model.
-/

namespace OraiV3

/-- A pool without its fee counters. -/
def Pool.feeless (p : Pool) : Pool := { p with fgX := 0, fgY := 0, protoX := 0, protoY := 0 }
/-- A tick without its fee counters. -/
def Tick.feeless (t : Tick) : Tick := { t with outX := 0, outY := 0 }
/-- A position without its fee counters. -/
def Position.feeless (q : Position) : Position := { q with fgInX := 0, fgInY := 0, owedX := 0, owedY := 0 }
/-- The settings without the protocol fee. -/
def Config.feeless (c : Config) : Config := { c with protocolFee := 0 }

/-- The two storages hold the same but for the protocol fee and the counters of earned fees: the same pools at the same prices
with the same liquidity and fee receivers, the same ticks, and the same positions of the same accounts. -/
structure SameButFees (s s' : Store) : Prop where
  config : s.config.map Config.feeless = s'.config.map Config.feeless
  pools : ∀ key, (s.pools.get? key).map Pool.feeless = (s'.pools.get? key).map Pool.feeless
  ticks : ∀ key, (s.ticks.get? key).map Tick.feeless = (s'.ticks.get? key).map Tick.feeless
  positions : ∀ id, (s.positions.get? id).map Position.feeless = (s'.positions.get? id).map Position.feeless
  posLen : s.posLen = s'.posLen
  bitmap : s.bitmap = s'.bitmap
  operators : s.operators = s'.operators

/-- The same call, but a protocol fee may be set to another value. -/
def Msg.SameButRate : Msg → Msg → Prop
  | .changeProtocolFee _, .changeProtocolFee _ => True
  | m, m' => m = m'

/-- The calls that pay out earned fees. -/
def Msg.paysFees : Msg → Bool
  | .claimFee _ | .removePosition _ | .burn _ | .withdrawProtocolFee _ => true
  | _ => false

end OraiV3
