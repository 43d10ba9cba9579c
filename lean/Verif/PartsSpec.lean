import Verif.TradeSpec
import Verif.CurveSpec

/-!
# PartsSpec: trades in one direction

Vocabulary for C97 and C98.  Nothing here is used by the model.
-/

namespace OraiV3

/-- One swap in the pool `k`, of X for Y if `d`, otherwise of Y for X, by anybody, specified in any way and with any limit, with a
regular end: the sender pays `paid` and gets `got`, and it takes `n` price steps. -/
def OneTrade (c : Chain) (k : PoolKey) (d : Bool) (w w' : World) (paid got n : Nat) : Prop :=
  ∃ (env : Env) (info : Info) (amount : Nat) (b : Bool) (limit : Nat), info.sender ≠ c.self ∧ (info.funds.map Coin.denom).Nodup ∧
    (∀ x ∈ info.funds, x.denom ≠ tokenOut k d) ∧ w.tx c env info (.swap k d amount b limit) = .ok w' ∧
    RegularEnd w'.store k d b limit ∧ n = swapSteps w.store env.millis k d amount b limit ∧
    w'.ledger.bal (tokenAsset c (tokenIn k d)) info.sender + paid = w.ledger.bal (tokenAsset c (tokenIn k d)) info.sender ∧
    w'.ledger.bal (tokenAsset c (tokenOut k d)) info.sender = w.ledger.bal (tokenAsset c (tokenOut k d)) info.sender + got

/-- Any number of such swaps one after the other, in the same direction, and what is paid and received for all of them. -/
inductive Parts (c : Chain) (k : PoolKey) (d : Bool) : World → World → Nat → Nat → Nat → Prop where
  | none (w : World) : Parts c k d w w 0 0 0
  | more {w w1 w2 : World} {paid got n paid' got' n' : Nat} : Parts c k d w w1 paid got n → OneTrade c k d w1 w2 paid' got' n' →
      Parts c k d w w2 (paid + paid') (got + got') (n + n')

/-- What one unit of the token sold is worth in units of the other at a square-root price. -/
def sellPrice (d : Bool) (p : Nat) : ℚ := if d then ((p : ℚ) / 10 ^ 24) ^ 2 else 1 / ((p : ℚ) / 10 ^ 24) ^ 2

end OraiV3
