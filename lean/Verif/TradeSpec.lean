import Verif.Solvency

/-!
# TradeSpec: sequences of swaps in one pool

Vocabulary for C46.  Nothing here is used by the model.
-/

namespace OraiV3

/-- A sequence of regular swaps in one pool, and the number of price steps they take. -/
inductive Trades (c : Chain) (k : PoolKey) : World → World → Nat → Prop where
  | none (w : World) : Trades c k w w 0
  | more {w w1 w2 : World} {n : Nat} {env : Env} {info : Info} {d : Bool} {amount : Nat} {b : Bool} {limit : Nat} :
      Trades c k w w1 n → info.sender ≠ c.self → w1.tx c env info (.swap k d amount b limit) = .ok w2 →
      RegularEnd w2.store k d b limit → Trades c k w w2 (n + swapSteps w1.store env.millis k d amount b limit)

end OraiV3
