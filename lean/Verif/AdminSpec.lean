import Verif.Spec

/-!
# AdminSpec: what the administrative calls are for

Specification for C67.
-/

namespace OraiV3

/-- The settings after a successful call. -/
def settingsAfter (cfg : Config) : Msg → Config
  | .changeAdmin a => { cfg with admin := a }
  | .changeProtocolFee f => { cfg with protocolFee := f }
  | .addFeeTier t => { cfg with feeTiers := cfg.feeTiers ++ [t] }
  | .removeFeeTier t => { cfg with feeTiers := cfg.feeTiers.erase t }
  | _ => cfg

/-- The fee receiver of the pool stored under `key` after a successful call. -/
def receiverAfter (key old : Bytes) : Msg → Bytes
  | .changeFeeReceiver k r => if k.key = key then r else old
  | _ => old

/-- Is it a call for the admin or a fee receiver? -/
def Msg.isAdmin : Msg → Bool
  | .changeAdmin _ | .changeProtocolFee _ | .changeFeeReceiver _ _ | .addFeeTier _ | .removeFeeTier _
  | .withdrawProtocolFee _ => true
  | _ => false

/-- When such a call is accepted. -/
def adminAccepted (s : Store) (cfg : Config) (sender : Bytes) : Msg → Prop
  | .changeAdmin _ | .changeProtocolFee _ => sender = cfg.admin
  | .changeFeeReceiver k _ => sender = cfg.admin ∧ ∃ p, s.pools.get? k.key = some p
  | .addFeeTier t => sender = cfg.admin ∧ 1 ≤ t.spacing ∧ t.spacing ≤ 100 ∧ t.fee < 10 ^ 12
  | .removeFeeTier t => sender = cfg.admin ∧ t ∈ cfg.feeTiers
  | .withdrawProtocolFee k => ∃ p, s.pools.get? k.key = some p ∧ sender = p.feeReceiver
  | _ => False

end OraiV3
