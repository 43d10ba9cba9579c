import Verif.FeeSpec
import Verif.RouteSpec

/-!
# KeepSpec: a stretch of history during which a position is left alone

Vocabulary of C81.
-/

namespace OraiV3

/-- What a trade takes from the trader, as quoted. -/
def quotedInput (s : Store) (env : Env) (k : PoolKey) (d : Bool) (amount : Nat) (b : Bool) (limit : Nat) : Nat :=
  match queryQuote s env k d amount b limit with
  | .ok q => q.amountIn
  | .error _ => 0

/-- What the hops of a route together take in pool `k` in token X (if `x`) or Y. -/
def routeInput (c : Chain) (env : Env) (info : Info) (k : PoolKey) (x : Bool) : List Hop → Store → Nat → Nat
  | [], _, _ => 0
  | h :: hs, s, a =>
    (if h.poolKey = k ∧ h.xToY = x then
      quotedInput s env k x a true (if h.xToY then MIN_SQRT_PRICE else MAX_SQRT_PRICE) else 0) +
      match execute c env info (hopCall h a) s, hopOutput s env h a with
      | .ok (s1, _), .ok b => routeInput c env info k x hs s1 b
      | _, _ => 0

/-- What traders pay into pool `k` in token X (if `x`) or Y by a call, price and fee together. -/
def paidInto (c : Chain) (env : Env) (info : Info) (s : Store) (k : PoolKey) (x : Bool) : Msg → Nat
  | .swap k' d amount b limit => if k' = k ∧ d = x then quotedInput s env k x amount b limit else 0
  | .swapRoute amount _ _ hops => routeInput c env info k x hops s amount
  | _ => 0

/-- `LeftAlone c q x s s' n`: calls lead from `s` to `s'`, their trades in the pool of the position `q` end regularly; `q` is there all the time,
and traders have paid `n` units of token X (if `x`) or Y into its pool. -/
inductive LeftAlone (c : Chain) (q : Position) (x : Bool) : Store → Store → Nat → Prop
  | start {s : Store} : q ∈ s.positions.vals → LeftAlone c q x s s 0
  | call {s s1 s2 : Store} {n : Nat} {env : Env} {info : Info} {msg : Msg} {out : List OutMsg} :
      LeftAlone c q x s s1 n → execute c env info msg s1 = .ok (s2, out) → RegularCall c (· = q.poolKey) env info s1 s2 msg →
      q ∈ s2.positions.vals → LeftAlone c q x s s2 (n + paidInto c env info s1 q.poolKey x msg)

end OraiV3
