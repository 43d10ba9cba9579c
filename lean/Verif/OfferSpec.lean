import Verif.Solvency

/-!
# What a pool has to offer

The exact amount of the output token between the current price and a price limit.  Nothing here is used by
the model.
-/

namespace OraiV3

/-- The exact amount of the output token that the positions of a pool give up while the price moves from `p` to
`limit`: Y when X is sold (the price falls), X when X is bought (the price rises). -/
def onOffer (s : Store) (k : PoolKey) (sellX : Bool) (p limit : Nat) : ℚ :=
  sumQ s k (fun q => q.principal (!sellX) p) - sumQ s k (fun q => q.principal (!sellX) limit)

end OraiV3
