import Verif.Solvency
import Verif.RouteSpec

/-!
# SafeSpec: trades that can be seen to be harmless beforehand

Vocabulary of C80.  Whether a trade is safe is decided by what can be asked before it is made: the open positions of the
pool, and the answer of the `Quote` query.
-/

namespace OraiV3

/-- Something holds of every tick at which a position of the pool starts or ends. -/
def AtEnds (s : Store) (k : PoolKey) (P : Int → Prop) : Prop := ∀ q ∈ positionsOf s k, P q.lower ∧ P q.upper

/-- A trade is safe
* if it buys an exact amount of Y;
* if it sells an exact amount of X and the quoted final price is not the price of a tick at which a position starts or ends, and
  not less than `10^24 / price` below one;
* if it buys X and its price limit is not the price of a tick at which a position starts or ends. -/
def SafeTrade (s : Store) (env : Env) (k : PoolKey) (d : Bool) (amount : Nat) (b : Bool) (limit : Nat) : Prop :=
  if d then
    b = false ∨
      match queryQuote s env k d amount b limit with
      | .ok q => AtEnds s k (fun t => sqrtPriceAt t < q.targetPrice ∨ 10 ^ 24 ≤ (sqrtPriceAt t - q.targetPrice) * q.targetPrice)
      | .error _ => True
  else AtEnds s k (fun t => sqrtPriceAt t ≠ limit)

/-- The hops of a route through pools of `P` are safe, each in the state in which it is made. -/
def SafeRoute (c : Chain) (P : PoolKey → Prop) (env : Env) (info : Info) : List Hop → Store → Nat → Prop
  | [], _, _ => True
  | h :: hs, s, a =>
    (P h.poolKey → SafeTrade s env h.poolKey h.xToY a true (if h.xToY then MIN_SQRT_PRICE else MAX_SQRT_PRICE)) ∧
      ∀ s1 m1 b, execute c env info (hopCall h a) s = .ok (s1, m1) → hopOutput s env h a = .ok b → SafeRoute c P env info hs s1 b

/-- A call is safe if its trades in pools of `P` are; every call that trades nothing is. -/
def SafeCall (c : Chain) (P : PoolKey → Prop) (env : Env) (info : Info) (s : Store) : Msg → Prop
  | .swap k d amount b limit => P k → SafeTrade s env k d amount b limit
  | .swapRoute amount _ _ hops => SafeRoute c P env info hops s amount
  | _ => True

/-- Storages reached by safe calls. -/
inductive SafeReach (c : Chain) (P : PoolKey → Prop) : Store → Prop where
  | init (sender : Bytes) (fee : Nat) (h : fee < U64) : SafeReach c P (instantiate sender fee)
  | step {s s' : Store} {env : Env} {info : Info} {msg : Msg} {out : List OutMsg} :
      SafeReach c P s → SafeCall c P env info s msg → execute c env info msg s = .ok (s', out) → SafeReach c P s'

/-- The same with balances, as far as the tokens of `T` are concerned: calls by accounts other than the contract, whose trades in
pools that trade a token of `T` are safe and whose routes take each native coin of `T` once, in any interleaving with other
transactions, which may change any balance but do not take tokens of `T` from the contract.  The number counts the roundings, as in `History`. -/
inductive SafeHistory (c : Chain) (T : Bytes → Prop) : World → Nat → Prop where
  | init (sender : Bytes) (fee : Nat) (h : fee < U64) (l : Ledger) : SafeHistory c T ⟨instantiate sender fee, l⟩ 0
  | call {w w' : World} {n : Nat} {env : Env} {info : Info} {msg : Msg} : SafeHistory c T w n → info.sender ≠ c.self →
      SafeCall c (PoolKey.trades T) env info w.store msg → ChargedOnce c T msg → w.tx c env info msg = .ok w' →
      SafeHistory c T w' (n + roundings c env info w.store msg)
  | outside {w : World} {n : Nat} (l : Ledger) : SafeHistory c T w n → (∀ t, T t → w.ledger.bal (tokenAsset c t) c.self ≤ l.bal (tokenAsset c t) c.self) →
      SafeHistory c T ⟨w.store, l⟩ n

end OraiV3
