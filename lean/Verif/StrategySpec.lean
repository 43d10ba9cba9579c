import Verif.Solvency

/-!
# StrategySpec: what a group of accounts does in one pool, or in several

Vocabulary of C89 and C94.  Nothing here is used by the model.
-/

namespace OraiV3

/-- The open positions of pool `k` held by the accounts `G`. -/
def positionsHeld (s : Store) (G : List Bytes) (k : PoolKey) : List Position :=
  (G.flatMap (fun a => (positionList s a).filterMap id)).filter (fun q => decide (q.poolKey = k))

/-- What the accounts `G` have in one token of pool `k` (X if `x`): their balances, and what their positions in the pool
consist of and have earned. -/
def wealth (c : Chain) (w : World) (G : List Bytes) (k : PoolKey) (x : Bool) : ℚ :=
  (G.map (fun a => (w.ledger.bal (tokenAsset c (if x then k.tokenX else k.tokenY)) a : ℚ))).sum +
    ((positionsHeld w.store G k).map (worth w.store x)).sum

/-- The calls with which an account trades and provides liquidity in pool `k`. -/
def ActsIn (s : Store) (k : PoolKey) (who : Bytes) : Msg → Prop
  | .swap k' .. | .createPosition k' .. | .mint k' .. => k' = k
  | .removePosition i | .claimFee i => ∃ q, (positionList s who)[i]? = some (some q) ∧ q.poolKey = k
  | .burn id => ∃ q, (positionList s who)[tokenIndex id]? = some (some q) ∧ q.poolKey = k
  | _ => False

/-- A sequence of calls by the accounts `G` in pool `k` whose swaps end regularly, with positions changing hands among them, and
the number of roundings in it. -/
inductive Strategy (c : Chain) (G : List Bytes) (k : PoolKey) : World → World → Nat → Prop where
  | none (w : World) : Strategy c G k w w 0
  | more {w w1 w2 : World} {n : Nat} {env : Env} {info : Info} {msg : Msg} : Strategy c G k w w1 n → info.sender ∈ G →
      w1.tx c env info msg = .ok w2 → ActsIn w1.store k info.sender msg → RegularCall c (· = k) env info w1.store w2.store msg →
      Strategy c G k w w2 (n + roundings c env info w1.store msg)
  | share {w w1 w2 : World} {n : Nat} {env : Env} {info : Info} {i : Nat} {other : Bytes} : Strategy c G k w w1 n → info.sender ∈ G →
      other ∈ G → w1.tx c env info (.transferPosition i other) = .ok w2 → Strategy c G k w w2 n

/-! ## Several pools -/

/-- What the accounts `G` have, when a unit of each token `t` is worth `v t`: their balances in the tokens `ts`, and what their
positions in the pools `ks` consist of and have earned. -/
def fortune (c : Chain) (w : World) (G : List Bytes) (ts : List Bytes) (ks : List PoolKey) (v : Bytes → ℚ) : ℚ :=
  (ts.map (fun t => v t * (G.map (fun a => (w.ledger.bal (tokenAsset c t) a : ℚ))).sum)).sum +
    (ks.map (fun k => ((positionsHeld w.store G k).map (fun q =>
      v k.tokenX * worth w.store true q + v k.tokenY * worth w.store false q)).sum)).sum

/-- A pool agrees with the values: its price, Y per X, is the value of X in units of Y. -/
def PricedAt (s : Store) (v : Bytes → ℚ) (k : PoolKey) : Prop :=
  ∃ p, s.pools.get? k.key = some p ∧ v k.tokenX = priceVal p.sqrtPrice ^ 2 * v k.tokenY

/-- The calls with which an account trades and provides liquidity in the pools `ks`. -/
def ActsAmong (s : Store) (ks : List PoolKey) (who : Bytes) : Msg → Prop
  | .swapRoute _ _ _ hops => ∀ h ∈ hops, h.poolKey ∈ ks
  | m => ∃ k ∈ ks, ActsIn s k who m

/-- A sequence of calls by the accounts `G` in the pools `ks` whose swaps end regularly and whose routes take each native coin
once, with positions changing hands among them, and the number of roundings in it. -/
inductive Strategies (c : Chain) (G : List Bytes) (ks : List PoolKey) : World → World → Nat → Prop where
  | none (w : World) : Strategies c G ks w w 0
  | more {w w1 w2 : World} {n : Nat} {env : Env} {info : Info} {msg : Msg} : Strategies c G ks w w1 n → info.sender ∈ G →
      w1.tx c env info msg = .ok w2 → ActsAmong w1.store ks info.sender msg →
      RegularCall c (· ∈ ks) env info w1.store w2.store msg → ChargedOnce c (fun _ => True) msg →
      Strategies c G ks w w2 (n + roundings c env info w1.store msg)
  | share {w w1 w2 : World} {n : Nat} {env : Env} {info : Info} {i : Nat} {other : Bytes} : Strategies c G ks w w1 n → info.sender ∈ G →
      other ∈ G → w1.tx c env info (.transferPosition i other) = .ok w2 → Strategies c G ks w w2 n

end OraiV3
