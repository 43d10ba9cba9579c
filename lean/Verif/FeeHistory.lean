import Verif.Solvency

/-!
# FeeHistory: fees charged and fees paid over a history

Vocabulary for C05.  Nothing here is used by the model.
-/

namespace OraiV3

/-- Exact amount of a token all positions of a pool consist of at the pool's price. -/
def poolPrincipal (s : Store) (k : PoolKey) (x : Bool) : ℚ :=
  match s.pools.get? k.key with
  | none => 0
  | some p => sumQ s k (fun q => q.principal x p.sqrtPrice)

/-- Protocol fee of a pool that has not been withdrawn. -/
def protocolFees (s : Store) (k : PoolKey) (x : Bool) : Nat :=
  match s.pools.get? k.key with
  | none => 0
  | some p => p.proto x

/-- Fees that can be claimed from a pool: by its positions and by the protocol. -/
def claimable (s : Store) (k : PoolKey) (x : Bool) : ℚ :=
  (totalAccrued s k x : ℚ) / 10 ^ 34 + protocolFees s k x

/-- The fee a swap charges, from `s` to `s'` in pool `k` and direction `d`: what the trader pays beyond the
exact amount the price move adds to the positions. -/
def swapCharge (s s' : Store) (k : PoolKey) (d : Bool) (amountIn : Nat) (k' : PoolKey) (x : Bool) : ℚ :=
  if k' = k ∧ x = d then amountIn - (poolPrincipal s' k d - poolPrincipal s k d) else 0

/-- Fees charged by the hops of a route. -/
def routeCharges (c : Chain) (info : Info) (now : Nat) : List Hop → Store → Nat → PoolKey → Bool → ℚ
  | [], _, _, _, _ => 0
  | h :: hs, s, amount, k, x =>
    match swapInternal c s info now h.poolKey h.xToY amount true (hopLimit h.xToY) with
    | .ok r => swapCharge s r.1 h.poolKey h.xToY r.2.2.amountIn k x + routeCharges c info now hs r.1 r.2.2.amountOut k x
    | .error _ => 0

/-- Fees charged to traders by a call, for each pool and token. -/
def feesCharged (c : Chain) (env : Env) (info : Info) (s : Store) (msg : Msg) (k : PoolKey) (x : Bool) : ℚ :=
  match msg with
  | .swap k' d amount b limit =>
    match swapInternal c s info env.millis k' d amount b limit with
    | .ok r => swapCharge s r.1 k' d r.2.2.amountIn k x
    | .error _ => 0
  | .swapRoute amount _ _ hops => routeCharges c info env.millis hops s amount k x
  | _ => 0

/-- Fees of the sender's `i`-th position, in whole units of the token. -/
def positionFees (s : Store) (owner : Bytes) (i : Nat) (k : PoolKey) (x : Bool) : Nat :=
  match s.positions.get? (positionKey owner i) with
  | some q => if q.poolKey = k then accrued s x q / 10 ^ 34 else 0
  | none => 0

/-- Fees paid out by a call, for each pool and token. -/
def feesPaid (info : Info) (s : Store) (msg : Msg) (k : PoolKey) (x : Bool) : Nat :=
  match msg with
  | .claimFee i | .removePosition i => positionFees s info.sender i k x
  | .burn id => positionFees s info.sender (tokenIndex id) k x
  | .withdrawProtocolFee k' =>
    if k' = k then protocolFees s k x else 0
  | _ => 0

/-- Histories whose swaps in pools of `P` end regularly, with the number of roundings, the fees charged and the fees paid out. -/
inductive FeeHistory (c : Chain) (P : PoolKey → Prop) : Store → Nat → (PoolKey → Bool → ℚ) → (PoolKey → Bool → Nat) → Prop where
  | init (sender : Bytes) (fee : Nat) (h : fee < U64) : FeeHistory c P (instantiate sender fee) 0 (fun _ _ => 0) (fun _ _ => 0)
  | step {s s' : Store} {n : Nat} {charged : PoolKey → Bool → ℚ} {paid : PoolKey → Bool → Nat} {env : Env} {info : Info} {msg : Msg}
      {out : List OutMsg} : FeeHistory c P s n charged paid → execute c env info msg s = .ok (s', out) →
      RegularCall c P env info s s' msg →
      FeeHistory c P s' (n + roundings c env info s msg) (fun k x => charged k x + feesCharged c env info s msg k x)
        (fun k x => paid k x + feesPaid info s msg k x)

end OraiV3
