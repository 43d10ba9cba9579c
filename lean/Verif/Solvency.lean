import Verif.FeeSpec
import Verif.Exact
import Verif.Ledger

/-!
# Solvency: what the contract owes

Exact (rational) amounts owed to the open positions and the protocol.  Nothing here is used by the model.
-/

namespace OraiV3

/-- The exact amount of a token (X if `x`) a position consists of at square-root price `p`. -/
def Position.principal (q : Position) (x : Bool) (p : Nat) : ℚ :=
  let lo := sqrtPriceAt q.lower
  let hi := sqrtPriceAt q.upper
  if x then exactX q.liquidity (max lo (min p hi)) hi else exactY q.liquidity lo (max lo (min p hi))

/-- Sum of a rational quantity over the open positions of a pool. -/
def sumQ (s : Store) (k : PoolKey) (f : Position → ℚ) : ℚ := ((positionsOf s k).map f).sum

/-- What a position is worth in one token: its principal and the fees it has not been paid. -/
def worth (s : Store) (x : Bool) (q : Position) : ℚ :=
  match s.pools.get? q.poolKey.key with
  | none => 0
  | some p => q.principal x p.sqrtPrice + (accrued s x q : ℚ) / 10 ^ 34

/-- What a pool owes in one token: to its positions, and to the protocol. -/
def poolOwes (s : Store) (k : PoolKey) (x : Bool) : ℚ :=
  match s.pools.get? k.key with
  | none => 0
  | some p => sumQ s k (worth s x) + p.proto x

/-- Iterations of the swap loop. -/
def loopSteps (s : Store) (pr : SwapParams) : Nat → SwapState → Nat
  | 0, _ => 0
  | n + 1, st =>
    if st.remaining = 0 then 0
    else match swapIter s pr st with
      | .ok st' => loopSteps s pr n st' + 1
      | .error _ => 0

/-- Number of price steps a swap takes. -/
def swapSteps (s : Store) (now : Nat) (k : PoolKey) (d : Bool) (amount : Nat) (b : Bool) (limit : Nat) : Nat :=
  match s.pools.get? k.key with
  | none => 0
  | some pool => loopSteps s ⟨k, d, b, limit, now⟩ swapFuel
      { pool := pool, remaining := amount, totalIn := 0, totalOut := 0, fee := 0, ticks := [] }

/-- What the given pools owe in one token. -/
def owes (s : Store) (ks : List PoolKey) (t : Bytes) : ℚ :=
  (ks.map (fun k => (if k.tokenX = t then poolOwes s k true else 0) + (if k.tokenY = t then poolOwes s k false else 0))).sum

/-- Number of price steps the hops of a route take. -/
def routeSteps (c : Chain) (info : Info) (now : Nat) : List Hop → Store → Nat → Nat
  | [], _, _ => 0
  | h :: hs, s, amount =>
    match swapInternal c s info now h.poolKey h.xToY amount true (hopLimit h.xToY) with
    | .ok r => swapSteps s now h.poolKey h.xToY amount true (hopLimit h.xToY) + routeSteps c info now hs r.1 r.2.2.amountOut
    | .error _ => 0

/-- How often a call rounds an amount the contract receives: once for a new position, once for each price
step of a swap. -/
def roundings (c : Chain) (env : Env) (info : Info) (s : Store) : Msg → Nat
  | .createPosition .. | .mint .. => 1
  | .swap k d amount b limit => swapSteps s env.millis k d amount b limit
  | .swapRoute amount _ _ hops => routeSteps c info env.millis hops s amount
  | _ => 0

/-- The pool trades a token of `T`. -/
def PoolKey.trades (T : Bytes → Prop) (k : PoolKey) : Prop := T k.tokenX ∨ T k.tokenY

/-- No native coin of `T` is the input of two hops of a route. -/
def ChargedOnce (c : Chain) (T : Bytes → Prop) : Msg → Prop
  | .swapRoute _ _ _ hops => ∀ t, T t → c.isAddr t = false → (hops.map (fun h => tokenIn h.poolKey h.xToY)).count t ≤ 1
  | _ => True

/-- Histories of the contract together with all balances, and the number of roundings in them, as far as the tokens of `T` are
concerned: calls by accounts other than the contract itself, whose swaps in pools that trade a token of `T` end regularly and whose
routes take each native coin of `T` once, in any interleaving with other transactions, which may change any balance but do not take
tokens of `T` from the contract. -/
inductive History (c : Chain) (T : Bytes → Prop) : World → Nat → Prop where
  | init (sender : Bytes) (fee : Nat) (h : fee < U64) (l : Ledger) : History c T ⟨instantiate sender fee, l⟩ 0
  | call {w w' : World} {n : Nat} {env : Env} {info : Info} {msg : Msg} : History c T w n → info.sender ≠ c.self →
      w.tx c env info msg = .ok w' → RegularCall c (PoolKey.trades T) env info w.store w'.store msg → ChargedOnce c T msg →
      History c T w' (n + roundings c env info w.store msg)
  | outside {w : World} {n : Nat} (l : Ledger) : History c T w n →
      (∀ t, T t → w.ledger.bal (tokenAsset c t) c.self ≤ l.bal (tokenAsset c t) c.self) → History c T ⟨w.store, l⟩ n

/-- The token a message moves. -/
def OutMsg.token? : OutMsg → Option Bytes
  | .cw20Transfer t _ _ | .cw20TransferFrom t _ _ _ | .bankSend _ t _ => some t
  | .nftReceive .. => none

end OraiV3
