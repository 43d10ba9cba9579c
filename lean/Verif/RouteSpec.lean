import Verif.Query
import Verif.Ledger

/-!
# RouteSpec: the hops of a route as calls of their own

What C79 compares a route with: for each hop, one ordinary exact-input `Swap` of the output of the hop before, with the
loosest price limit.  The output of a swap is read off the `Quote` query asked just before it.
-/

namespace OraiV3

/-- The call that makes one hop: sell all of `amount`, whatever the price. -/
def hopCall (h : Hop) (amount : Nat) : Msg :=
  .swap h.poolKey h.xToY amount true (if h.xToY then MIN_SQRT_PRICE else MAX_SQRT_PRICE)

/-- The quoted output of that call. -/
def hopOutput (s : Store) (env : Env) (h : Hop) (amount : Nat) : M Nat :=
  (queryQuote s env h.poolKey h.xToY amount true (if h.xToY then MIN_SQRT_PRICE else MAX_SQRT_PRICE)).map QuoteResult.amountOut

/-- `HopByHop c env info hops s a s' b ms`: starting with `s` and `a` tokens, the calls for `hops`, each made with the output of
the one before, all succeed, lead to `s'`, send the messages `ms`, and the last of them gives `b`. -/
inductive HopByHop (c : Chain) (env : Env) (info : Info) : List Hop → Store → Nat → Store → Nat → List OutMsg → Prop
  | nil {s : Store} {a : Nat} : HopByHop c env info [] s a s a []
  | cons {h : Hop} {hs : List Hop} {s s1 s' : Store} {a b out : Nat} {m1 ms : List OutMsg} :
      execute c env info (hopCall h a) s = .ok (s1, m1) → hopOutput s env h a = .ok b →
      HopByHop c env info hs s1 b s' out ms → HopByHop c env info (h :: hs) s a s' out (m1 ++ ms)

/-- The same with balances: every call is a transaction of its own. -/
inductive TxByTx (c : Chain) (env : Env) (info : Info) : List Hop → World → Nat → World → Nat → Prop
  | nil {w : World} {a : Nat} : TxByTx c env info [] w a w a
  | cons {h : Hop} {hs : List Hop} {w w1 w' : World} {a b out : Nat} :
      w.tx c env info (hopCall h a) = .ok w1 → hopOutput w.store env h a = .ok b →
      TxByTx c env info hs w1 b w' out → TxByTx c env info (h :: hs) w a w' out

end OraiV3
