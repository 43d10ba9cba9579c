import Verif.Contract

/-!
# Spec: vocabulary of the property statements

Only what is needed to say the properties: which storages can occur, who may touch a position, and
sums over the open positions.  Nothing here is used by the model.
-/

namespace OraiV3

/-- Storages that can occur: instantiation followed by any successful calls, by anyone, at any time.
(A failing call leaves the storage as it is, so it adds nothing.) -/
inductive Reach (c : Chain) : Store → Prop where
  | init (sender : Bytes) (fee : Nat) (h : fee < U64) : Reach c (instantiate sender fee)
  | step {s s' : Store} {env : Env} {info : Info} {msg : Msg} {out : List OutMsg} :
      Reach c s → execute c env info msg s = .ok (s', out) → Reach c s'

/-- `s'` is obtained from `s` by successful calls. -/
inductive Steps (c : Chain) : Store → Store → Prop where
  | refl (s : Store) : Steps c s s
  | tail {s s1 s2 : Store} {env : Env} {info : Info} {msg : Msg} {out : List OutMsg} :
      Steps c s s1 → execute c env info msg s1 = .ok (s2, out) → Steps c s s2

/-- An approval is valid until its expiry: before the block, or before the time (in nanoseconds), or for ever. -/
def Expiration.ValidAt (env : Env) : Expiration → Prop
  | .atHeight h => env.height < h
  | .atTime t => env.nanos < t
  | .never => True

/-- `account` may act for all of `owner`'s positions: a granted, non-expired operator. -/
def OperatorOf (s : Store) (env : Env) (owner account : Bytes) : Prop :=
  ∃ ex, s.operators.get? (operatorKey owner account) = some ex ∧ ex.ValidAt env

/-- `account` holds a non-expired approval for this position. -/
def ApprovedFor (p : Position) (env : Env) (account : Bytes) : Prop :=
  ∃ a ∈ p.approvals, a.spender = account ∧ a.expires.ValidAt env

/-- The open positions of a pool. -/
def positionsOf (s : Store) (k : PoolKey) : List Position :=
  s.positions.vals.filter (fun p => decide (p.poolKey = k))

/-- Sum of a quantity over the open positions of a pool. -/
def sumPositions (s : Store) (k : PoolKey) (f : Position → Nat) : Nat := ((positionsOf s k).map f).sum

/-- Liquidity of the positions that start at a tick. -/
def liquidityStartingAt (s : Store) (k : PoolKey) (t : Int) : Nat :=
  sumPositions s k (fun p => if p.lower = t then p.liquidity else 0)

/-- Liquidity of the positions that end at a tick. -/
def liquidityEndingAt (s : Store) (k : PoolKey) (t : Int) : Nat :=
  sumPositions s k (fun p => if p.upper = t then p.liquidity else 0)

/-- Liquidity of the positions whose range `[lower, upper)` contains a tick. -/
def liquidityInRange (s : Store) (k : PoolKey) (t : Int) : Nat :=
  sumPositions s k (fun p => if p.lower ≤ t ∧ t < p.upper then p.liquidity else 0)

/-- Some open position of the pool starts or ends at the tick. -/
def UsedTick (s : Store) (k : PoolKey) (t : Int) : Prop :=
  ∃ p ∈ positionsOf s k, p.lower = t ∨ p.upper = t

/-- The numbered list of an account's positions. -/
def positionList (s : Store) (owner : Bytes) : List (Option Position) :=
  (List.range (getPositionLength s owner)).map (fun i => s.positions.get? (positionKey owner i))

/-- What a position is about: its pool, its range and its liquidity. -/
def Position.what (p : Position) : PoolKey × Int × Int × Nat := (p.poolKey, p.lower, p.upper, p.liquidity)

/-- Removing entry `i` of a list by moving the last entry into its place. -/
def swapRemove {α : Type} (l : List α) (i : Nat) : List α :=
  match l.getLast? with
  | none => []
  | some x => (l.set i x).dropLast

/-- What a call does to the numbered lists of positions. -/
inductive PosOp where
  /-- a new position is appended to the account's list -/
  | append (owner : Bytes) (what : PoolKey × Int × Int × Nat)
  /-- entry `index` of the account's list is removed -/
  | remove (owner : Bytes) (index : Nat)
  /-- entry `index` of the account's list goes to the end of the receiver's list -/
  | move (owner : Bytes) (index : Nat) (receiver : Bytes)
  /-- fee bookkeeping or approvals of the position with this id are changed -/
  | edit (id : Bytes)
  /-- nothing -/
  | keep

/-- The list operation each message stands for.  `burn` is listed as it works, see `C17`. -/
def Msg.posOp (sender : Bytes) : Msg → PosOp
  | .createPosition k l u L _ _ | .mint k l u L _ _ => .append sender (k, l, u, L)
  | .removePosition i => .remove sender i
  | .burn id => .remove sender (tokenIndex id)
  | .transferPosition i r => .move sender i r
  | .transferNft r id | .sendNft r id _ => .move (id.take (id.length - 4)) (tokenIndex id) r
  | .claimFee i => .edit (positionKey sender i)
  | .approve _ id _ | .revoke _ id => .edit id
  | _ => .keep

/-! ## What a call is about -/

/-- The call is about this pool. -/
def Msg.onPool (s : Store) (sender : Bytes) (k : PoolKey) : Msg → Prop
  | .withdrawProtocolFee k' | .changeFeeReceiver k' _ | .createPosition k' .. | .mint k' .. | .swap k' .. => k' = k
  | .swapRoute _ _ _ hops => ∃ h ∈ hops, h.poolKey = k
  | .createPool t0 t1 tier _ _ => k = ⟨t0, t1, tier⟩ ∨ k = ⟨t1, t0, tier⟩
  | .claimFee i | .removePosition i | .transferPosition i _ =>
    ∃ p, s.positions.get? (positionKey sender i) = some p ∧ p.poolKey = k
  | .burn id => ∃ p, s.positions.get? (positionKey sender (tokenIndex id)) = some p ∧ p.poolKey = k
  | .transferNft _ id | .sendNft _ id _ | .approve _ id _ | .revoke _ id =>
    ∃ p, s.positions.get? id = some p ∧ p.poolKey = k
  | _ => False

/-- The call reads or writes the record, the ticks or the tickmap of this pool (transfers and approvals do not). -/
def Msg.usesPool (s : Store) (sender : Bytes) (k : PoolKey) (msg : Msg) : Prop :=
  match msg with
  | .transferPosition .. | .transferNft .. | .sendNft .. | .approve .. | .revoke .. => False
  | _ => msg.onPool s sender k

/-- Calls that change the settings or an account's operators. -/
def Msg.global : Msg → Bool
  | .changeAdmin _ | .changeProtocolFee _ | .addFeeTier _ | .removeFeeTier _ | .approveAll .. | .revokeAll _ => true
  | _ => false

/-- The accounts in whose lists of positions a call looks. -/
def Msg.accounts (sender : Bytes) : Msg → List Bytes
  | .createPosition .. | .mint .. | .claimFee _ | .removePosition _ => [sender]
  | .transferPosition _ r => [sender, r]
  | .burn id => [sender, id.take (id.length - 4)]
  | .transferNft r id | .sendNft r id _ => [id.take (id.length - 4), r]
  | .approve _ id _ | .revoke _ id => [id.take (id.length - 4)]
  | _ => []

/-- The expirations a call sets. -/
def Msg.expirations : Msg → List Expiration
  | .approve _ _ e | .approveAll _ e => [e.getD .never]
  | _ => []

/-! ## Whole histories -/

/-- A list of calls made one after the other, with their blocks; a call that fails changes nothing.  The final storage and
what each call gave: its messages or its error. -/
def runCalls (c : Chain) : List (Env × Info × Msg) → Store → Store × List (M (List OutMsg))
  | [], s => (s, [])
  | (env, info, msg) :: rest, s =>
    match execute c env info msg s with
    | .ok (s', out) => ((runCalls c rest s').1, .ok out :: (runCalls c rest s').2)
    | .error e => ((runCalls c rest s).1, .error e :: (runCalls c rest s).2)

/-- A pool without its timestamps. -/
def Pool.timeless (p : Pool) : Pool := { p with startTs := 0, lastTs := 0 }
/-- A tick without its seconds. -/
def Tick.timeless (t : Tick) : Tick := { t with secondsOutside := 0 }
/-- A position without its block height. -/
def Position.timeless (q : Position) : Position := { q with lastBlock := 0 }

/-- The two storages hold the same but for timestamps, seconds and block heights. -/
structure SameButTimes (s s' : Store) : Prop where
  config : s'.config = s.config
  operators : s'.operators = s.operators
  pools : ∀ key, (s'.pools.get? key).map Pool.timeless = (s.pools.get? key).map Pool.timeless
  ticks : ∀ key, (s'.ticks.get? key).map Tick.timeless = (s.ticks.get? key).map Tick.timeless
  bitmap : ∀ key, (s'.bitmap.get? key).getD 0 = (s.bitmap.get? key).getD 0
  positions : ∀ id, (s'.positions.get? id).map Position.timeless = (s.positions.get? id).map Position.timeless
  posLen : ∀ u, s'.posLen.get? u = s.posLen.get? u

/-- The same payment, from or to another user. -/
def OutMsg.forUser (user : Bytes) : OutMsg → OutMsg
  | .cw20Transfer token _ amount => .cw20Transfer token user amount
  | .cw20TransferFrom token _ dest amount => .cw20TransferFrom token user dest amount
  | .bankSend _ denom amount => .bankSend user denom amount
  | m => m

/-! ## Regular histories

Three kinds of swaps leave a pool's active liquidity wrong (see the `C01_false` theorems).  They are told
apart by where they end. -/

/-- A swap in direction `d` (X to Y if true), by input amount if `b`, with the given price limit, ended at
a place where the active liquidity is right:
* if it ended exactly at the price of its final tick and a position starts or ends there, it was not an
  exact-input swap from X to Y and, going from Y to X, this price was not its limit;
* an exact-input swap from X to Y did not end within `10^24 / price` below a tick at which a position
  starts or ends. -/
def RegularEnd (s : Store) (k : PoolKey) (d b : Bool) (limit : Nat) : Prop :=
  ∀ p, s.pools.get? k.key = some p →
    (p.sqrtPrice = sqrtPriceAt p.tick → UsedTick s k p.tick → if d then b = false else p.sqrtPrice ≠ limit) ∧
    (d = true → b = true → UsedTick s k (p.tick + k.tier.spacing) →
      10 ^ 24 ≤ (sqrtPriceAt (p.tick + k.tier.spacing) - p.sqrtPrice) * p.sqrtPrice)

/-- By how much a pool's liquidity differs from the sum of the liquidity of the positions whose range contains the current tick. -/
def drift (s : Store) (k : PoolKey) : Int :=
  match s.pools.get? k.key with
  | some p => (p.liquidity : Int) - liquidityInRange s k p.tick
  | none => 0

/-- The net liquidity at a tick: what starts there minus what ends there. -/
def netAt (s : Store) (k : PoolKey) (t : Int) : Int := (liquidityStartingAt s k t : Int) - liquidityEndingAt s k t

/-- A swap in direction `d` (X to Y if true), by input amount if `b`, with the given price limit, that led to `s`, moved onto or
past a tick at which positions start or end without accounting for it, which makes the drift grow by `delta`:
* from Y to X, the price ended at the limit and this is the price of the current tick: the tick's net liquidity is missing;
* exact input from X to Y, the price ended at the price of the current tick: the tick was crossed but is still counted as
  reached, and its net liquidity is missing;
* exact input from X to Y, the price ended within `10^24 / price` below the next tick up, which was not crossed: its net
  liquidity is still there. -/
def Missed (s : Store) (k : PoolKey) (d b : Bool) (limit : Nat) (delta : Int) : Prop :=
  ∃ p, s.pools.get? k.key = some p ∧
    ((d = false ∧ p.sqrtPrice = limit ∧ p.sqrtPrice = sqrtPriceAt p.tick ∧ UsedTick s k p.tick ∧ delta = - netAt s k p.tick) ∨
    (d = true ∧ b = true ∧ p.sqrtPrice = sqrtPriceAt p.tick ∧ UsedTick s k p.tick ∧ delta = - netAt s k p.tick) ∨
    (d = true ∧ b = true ∧ UsedTick s k (p.tick + k.tier.spacing) ∧
      (sqrtPriceAt (p.tick + k.tier.spacing) - p.sqrtPrice) * p.sqrtPrice < 10 ^ 24 ∧
      delta = netAt s k (p.tick + k.tier.spacing)))

/-- The hops of a route together make the drift of pool `k` grow by `delta`. -/
def MissedOnRoute (c : Chain) (info : Info) (now : Nat) (k : PoolKey) : List Hop → Store → Nat → Int → Prop
  | [], _, _, delta => delta = 0
  | h :: hs, s, amount, delta => ∃ r d1 d2,
      swapInternal c s info now h.poolKey h.xToY amount true (hopLimit h.xToY) = .ok r ∧
      (d1 = 0 ∨ (k = h.poolKey ∧ Missed r.1 k h.xToY true (hopLimit h.xToY) d1)) ∧
      MissedOnRoute c info now k hs r.1 r.2.2.amountOut d2 ∧ delta = d1 + d2

/-- Every hop of a route through a pool of `P` ends regularly. -/
def RegularRoute (c : Chain) (P : PoolKey → Prop) (info : Info) (now : Nat) : List Hop → Store → Nat → Prop
  | [], _, _ => True
  | h :: hs, s, amount => ∀ r, swapInternal c s info now h.poolKey h.xToY amount true (hopLimit h.xToY) = .ok r →
      (P h.poolKey → RegularEnd r.1 h.poolKey h.xToY true (hopLimit h.xToY)) ∧ RegularRoute c P info now hs r.1 r.2.2.amountOut

/-- The swaps in pools of `P` made by a call that leads from `s` to `s'` end regularly. -/
def RegularCall (c : Chain) (P : PoolKey → Prop) (env : Env) (info : Info) (s s' : Store) : Msg → Prop
  | .swap k d _ b limit => P k → RegularEnd s' k d b limit
  | .swapRoute amount _ _ hops => RegularRoute c P info env.millis hops s amount
  | _ => True

/-- Storages reached by calls whose swaps in pools of `P` all end regularly; swaps in other pools may end in any way. -/
inductive RegularReach (c : Chain) (P : PoolKey → Prop) : Store → Prop where
  | init (sender : Bytes) (fee : Nat) (h : fee < U64) : RegularReach c P (instantiate sender fee)
  | step {s s' : Store} {env : Env} {info : Info} {msg : Msg} {out : List OutMsg} :
      RegularReach c P s → execute c env info msg s = .ok (s', out) → RegularCall c P env info s s' msg → RegularReach c P s'

end OraiV3
