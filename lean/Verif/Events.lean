import Verif.Contract
import Mathlib.Data.Rat.Defs

/-!
# The attributes of responses

Every handler of `/repo/contracts/oraiswap-v3/src/entrypoints/execute.rs` ends with a `Response` that carries, next to
the messages, a list of attributes: the event by which explorers and indexers learn what the call did.  `execute`
(`Verif/Contract.lean`) leaves them out; `respond` is `execute` with them.  The second half of the file is a
specification: how a reader turns the texts back into numbers.
-/

namespace OraiV3

/-! ## Numbers as text -/

/-- The bytes of an ASCII text. -/
def ascii (s : String) : Bytes := s.toList.map fun ch => Fin.ofNat 256 ch.toNat

/-- The character of a decimal digit. -/
def digitChar (d : Nat) : Byte := Fin.ofNat 256 (48 + d)

/-- At most `fuel + 1` decimal digits of a number, most significant first. -/
def showDigits : Nat → Nat → Bytes
  | 0, n => [digitChar (n % 10)]
  | fuel + 1, n => if n < 10 then [digitChar n] else showDigits fuel (n / 10) ++ [digitChar (n % 10)]

/-- `to_string` of an unsigned integer (Rust's `core::fmt::Display`); a number has no more decimal than binary
digits. -/
def showNat (n : Nat) : Bytes := showDigits (Nat.log2 n) n

/-- `to_string` of a signed integer (ticks are `i32`). -/
def showInt (i : Int) : Bytes := if i < 0 then 45 :: showNat i.natAbs else showNat i.natAbs

/-- The loop `while decimal_places > 0 { non_zero_tail += 1; decimal_places /= 10 }`
(`packages/decimal-core/src/others.rs:79-85`): how many digits a number has, `0` has none. -/
def countDigits : Nat → Nat → Nat
  | 0, _ => 0
  | fuel + 1, n => if n = 0 then 0 else 1 + countDigits fuel (n / 10)

/-- `Display` of a decimal type with `scale` decimals (`packages/decimal-core/src/others.rs:75-100`).  The
subtraction `scale - non_zero_tail` cannot underflow: a remainder of `10 ^ scale` has at most `scale` digits. -/
def showDec (scale n : Nat) : Bytes :=
  if 0 < scale then
    showNat (n / 10 ^ scale) ++ 46 ::
      (List.replicate (scale - countDigits (n + 1) (n % 10 ^ scale)) 48 ++ showNat (n % 10 ^ scale))
  else showNat n

/-! ## Responses -/

/-- `Attribute { key, value }` of cosmwasm-std. -/
structure Attr where
  key : String
  value : Bytes
deriving DecidableEq

/-- `attr("action", name)`. -/
def action (name : String) : Attr := ⟨"action", ascii name⟩

/-- The six attributes of `create_position` (`entrypoints/execute.rs:230-237`) and `remove_position` (`:523-530`).
`Liquidity` has 6 decimals, `SqrtPrice` 24. -/
def positionAttrs (name : String) (sender : Bytes) (liquidity : Nat) (lower upper : Int) (sqrtPrice : Nat) : List Attr :=
  [action name, ⟨"address", sender⟩, ⟨"liquidity", showDec 6 liquidity⟩, ⟨"lower_tick", showInt lower⟩,
   ⟨"upper_tick", showInt upper⟩, ⟨"current_sqrt_price", showDec 24 sqrtPrice⟩]

/-- What `execute` returns: the new storage, the messages and the attributes. -/
abbrev Resp := Store × List OutMsg × List Attr

/-- A handler whose attributes do not depend on what it computes. -/
def withAttrs (as : List Attr) (r : M (Store × List OutMsg)) : M Resp := do
  let r ← r
  pure (r.1, r.2, as)

/-- `create_position` with its attributes (`entrypoints/execute.rs:158-241`). -/
def createPositionR (c : Chain) (s : Store) (env : Env) (info : Info) (k : PoolKey) (lower upper : Int)
    (L lo hi : Nat) : M Resp :=
  if L = 0 then .error .insufficientLiquidity
  else if lower = upper then .error .invalidTickIndex
  else
    match s.pools.get? k.key with
    | none => .error .poolNotFound
    | some pool => do
      let rl ← getOrCreateTick s env.millis k lower
      let ru ← getOrCreateTick rl.1 env.millis k upper
      let r ← Position.create pool k rl.2 ru.2 env.millis L lo hi env.height k.tier.spacing
      let s := savePool ru.1 k r.pool
      let s ← addPosition s info.sender r.pos
      let s ← updateTick s k r.lower.index r.lower
      let s ← updateTick s k r.upper.index r.upper
      let m1 ← assetTransferFrom c k.tokenX r.x info
      let m2 ← assetTransferFrom c k.tokenY r.y info
      pure (s, m1 ++ m2, positionAttrs "create_position" info.sender L r.lower.index r.upper.index r.pool.sqrtPrice)

/-- `claim_fee` with its attributes (`entrypoints/execute.rs:387-445`). -/
def claimFeeR (c : Chain) (s : Store) (env : Env) (info : Info) (index : Nat) : M Resp := do
  let pos ← getPosition s info.sender index
  let lower ← getTick s pos.poolKey pos.lower
  let upper ← getTick s pos.poolKey pos.upper
  let pool ← getPool s pos.poolKey
  let r ← pos.claimFee pool upper lower env.millis
  let s ← updatePosition s info.sender index r.pos
  let s := savePool s pos.poolKey r.pool
  let s ← updateTick s pos.poolKey r.upper.index r.upper
  let s ← updateTick s pos.poolKey r.lower.index r.lower
  pure (s, assetTransfer c pos.poolKey.tokenX r.x info ++ assetTransfer c pos.poolKey.tokenY r.y info,
    [action "claim_fee", ⟨"amount_x", showDec 0 r.x⟩, ⟨"amount_y", showDec 0 r.y⟩])

/-- `remove_position` with its attributes (`entrypoints/execute.rs:457-535`). -/
def removePositionR (c : Chain) (s : Store) (env : Env) (info : Info) (index : Nat) : M Resp := do
  let pos ← getPosition s info.sender index
  let lower ← getTick s pos.poolKey pos.lower
  let upper ← getTick s pos.poolKey pos.upper
  let pool ← getPool s pos.poolKey
  let r ← pos.remove pool env.millis lower upper pos.poolKey.tier.spacing
  let s := savePool s pos.poolKey r.pool
  let s ← settleTick s pos.poolKey pos.lower r.lower
  let s ← settleTick s pos.poolKey pos.upper r.upper
  let sp ← removePositionAt s info.sender index
  pure (sp.1, assetTransfer c sp.2.poolKey.tokenX r.x info ++ assetTransfer c sp.2.poolKey.tokenY r.y info,
    positionAttrs "remove_position" info.sender pos.liquidity r.lower.index r.upper.index r.pool.sqrtPrice)

/-- `swap` with its attributes (`entrypoints/execute.rs:261-300`). -/
def swapR (c : Chain) (s : Store) (env : Env) (info : Info) (k : PoolKey) (xToY : Bool) (amount : Nat)
    (byAmountIn : Bool) (limit : Nat) : M Resp := do
  let r ← swapInternal c s info env.millis k xToY amount byAmountIn limit
  pure (r.1, r.2.1, [action "swap", ⟨"amount_in", showDec 0 r.2.2.amountIn⟩, ⟨"amount_out", showDec 0 r.2.2.amountOut⟩])

/-- `swap_route` with its attributes (`entrypoints/execute.rs:322-352`). -/
def swapRouteR (c : Chain) (s : Store) (env : Env) (info : Info) (amountIn expectedOut slippage : Nat)
    (hops : List Hop) : M Resp := do
  let r ← swapRouteInternal c info env.millis hops s amountIn []
  let minOut ← calculateMinAmountOut expectedOut slippage
  if r.2.1 < minOut then .error .amountUnderMinimumAmountOut
  else pure (r.1, r.2.2, [action "swap_route", ⟨"amount_out", showDec 0 r.2.1⟩])

/-- `handle_burn` (`entrypoints/execute.rs:760-773`) answers with the response of `remove_position`. -/
def burnR (c : Chain) (s : Store) (env : Env) (info : Info) (tokenId : Bytes) : M Resp := do
  let pos ← getPositionByKey s tokenId
  let owner ← tokenOwner tokenId
  checkCanSend s env info owner pos
  removePositionR c s env info (tokenIndex tokenId)

/-- Dispatch of `execute` (`contract.rs:35-155`) with the attributes of `entrypoints/execute.rs:42-43,84,108,136,377,
594,632,663,676-680,692-696,717-721,734-738,753-757,795-799`. -/
def respondWf (c : Chain) (env : Env) (info : Info) (msg : Msg) (s : Store) : M Resp :=
  match msg with
  | .changeAdmin a => withAttrs [action "change_admin", ⟨"new_admin", a⟩] (changeAdmin s info a)
  | .withdrawProtocolFee k => withAttrs [action "withdraw_protocol_fee"] (withdrawProtocolFee c s info k)
  | .changeProtocolFee f => withAttrs [action "change_protocol_fee"] (changeProtocolFee s info f)
  | .changeFeeReceiver k r => withAttrs [action "change_fee_receiver"] (changeFeeReceiver s info k r)
  | .createPosition k l u L lo hi => createPositionR c s env info k l u L lo hi
  | .swap k d a b lim => swapR c s env info k d a b lim
  | .swapRoute a e sl hops => swapRouteR c s env info a e sl hops
  | .transferPosition i r => withAttrs [action "transfer_position"] (transferPosition c s info i r)
  | .claimFee i => claimFeeR c s env info i
  | .removePosition i => removePositionR c s env info i
  | .createPool t0 t1 tier p t => withAttrs [action "create_pool"] (createPool s env t0 t1 tier p t)
  | .addFeeTier t => withAttrs [action "add_fee_tier"] (addFeeTier s info t)
  | .removeFeeTier t => withAttrs [action "remove_fee_tier"] (removeFeeTier s info t)
  | .transferNft r id =>
    withAttrs [action "transfer_nft", ⟨"sender", info.sender⟩, ⟨"recipient", r⟩] (transferNft s env info r id)
  | .mint k l u L lo hi => createPositionR c s env info k l u L lo hi
  | .burn id => burnR c s env info id
  | .sendNft ct id m =>
    withAttrs [action "send_nft", ⟨"sender", info.sender⟩, ⟨"recipient", ct⟩] (sendNft s env info ct id m)
  | .approve sp id ex =>
    withAttrs [action "approve", ⟨"sender", info.sender⟩, ⟨"spender", sp⟩] (updateApprovals s env info sp id true ex)
  | .revoke sp id =>
    withAttrs [action "revoke", ⟨"sender", info.sender⟩, ⟨"spender", sp⟩] (updateApprovals s env info sp id false none)
  | .approveAll o ex =>
    withAttrs [action "approve_all", ⟨"sender", info.sender⟩, ⟨"operator", o⟩] (approveAll s env info o ex)
  | .revokeAll o =>
    withAttrs [action "revoke_all", ⟨"sender", info.sender⟩, ⟨"operator", o⟩] (revokeAll s info o)

/-- `execute` with the attributes of its response. -/
def respond (c : Chain) (env : Env) (info : Info) (msg : Msg) (s : Store) : M Resp :=
  if msg.wf then respondWf c env info msg s else .error .parse

/-! ## Reading an event

The specification used in `Verif/Props/Events.lean`: how somebody who only sees the texts understands them. -/

/-- The value of a decimal digit. -/
def readDigit (b : Byte) : Option Nat := if 48 ≤ b.val ∧ b.val ≤ 57 then some (b.val - 48) else none

/-- Digits after a number already read. -/
def readFrom : Nat → Bytes → Option Nat
  | n, [] => some n
  | n, b :: bs => match readDigit b with
    | some d => readFrom (10 * n + d) bs
    | none => none

/-- A natural number: one or more decimal digits. -/
def readNat : Bytes → Option Nat
  | [] => none
  | b :: bs => readFrom 0 (b :: bs)

/-- An integer: a natural number, perhaps with a minus sign. -/
def readInt : Bytes → Option Int
  | [] => none
  | b :: bs => if b = 45 then Option.map (fun n : Nat => -(n : Int)) (readNat bs) else Option.map (fun n : Nat => (n : Int)) (readNat (b :: bs))

/-- A decimal fraction: a whole number, or one with a point and digits behind it. -/
def readDec (bs : Bytes) : Option Rat :=
  match bs.dropWhile (fun b => b ≠ 46) with
  | [] => Option.map (fun n : Nat => (n : Rat)) (readNat bs)
  | _ :: frac =>
    match readNat (bs.takeWhile fun b => b ≠ 46), readNat frac with
    | some n, some f => some ((n : Rat) + (f : Rat) / (10 : Rat) ^ frac.length)
    | _, _ => none

/-- The first value under a key. -/
def attr? (as : List Attr) (key : String) : Option Bytes := (as.find? fun a => a.key = key).map (·.value)

/-- The action a message is announced as; `mint` and `burn` appear as the calls they stand for. -/
def Msg.action : Msg → String
  | .changeAdmin _ => "change_admin"
  | .withdrawProtocolFee _ => "withdraw_protocol_fee"
  | .changeProtocolFee _ => "change_protocol_fee"
  | .changeFeeReceiver _ _ => "change_fee_receiver"
  | .createPosition .. => "create_position"
  | .mint .. => "create_position"
  | .swap .. => "swap"
  | .swapRoute .. => "swap_route"
  | .transferPosition _ _ => "transfer_position"
  | .claimFee _ => "claim_fee"
  | .removePosition _ => "remove_position"
  | .burn _ => "remove_position"
  | .createPool .. => "create_pool"
  | .addFeeTier _ => "add_fee_tier"
  | .removeFeeTier _ => "remove_fee_tier"
  | .transferNft _ _ => "transfer_nft"
  | .sendNft .. => "send_nft"
  | .approve .. => "approve"
  | .revoke _ _ => "revoke"
  | .approveAll _ _ => "approve_all"
  | .revokeAll _ => "revoke_all"

end OraiV3
