import Verif.KV
import Verif.Math

/-!
# Types: stored records, messages, storage keys

Paths are relative to `/repo/contracts/oraiswap-v3/src`.
-/

namespace OraiV3

/-- `FeeTier` (`storage/fee_tier.rs:5-10`). -/
structure FeeTier where
  fee : Nat
  spacing : Nat
  deriving DecidableEq, Repr

/-- `PoolKey` (`storage/pool_key.rs:6-12`). -/
structure PoolKey where
  tokenX : Bytes
  tokenY : Bytes
  tier : FeeTier
  deriving DecidableEq, Repr

/-- `Pool` (`storage/pool.rs:19-32`). -/
structure Pool where
  liquidity : Nat := 0
  sqrtPrice : Nat := 0
  tick : Int := 0
  fgX : Nat := 0
  fgY : Nat := 0
  protoX : Nat := 0
  protoY : Nat := 0
  startTs : Nat := 0
  lastTs : Nat := 0
  feeReceiver : Bytes := []
  deriving DecidableEq, Repr

/-- `Tick` (`storage/tick.rs:13-24`). -/
structure Tick where
  index : Int
  sign : Bool
  change : Nat
  gross : Nat
  sqrtPrice : Nat
  outX : Nat
  outY : Nat
  secondsOutside : Nat
  deriving DecidableEq, Repr

/-- `cw20::Expiration`. -/
inductive Expiration where
  | atHeight (h : Nat)
  | atTime (nanos : Nat)
  | never
  deriving DecidableEq, Repr

/-- `Approval` (`interface.rs:152-158`). -/
structure Approval where
  spender : Bytes
  expires : Expiration
  deriving DecidableEq, Repr

/-- `Position` (`storage/position.rs:18-33`). -/
structure Position where
  poolKey : PoolKey
  liquidity : Nat
  lower : Int
  upper : Int
  fgInX : Nat
  fgInY : Nat
  lastBlock : Nat
  owedX : Nat
  owedY : Nat
  approvals : List Approval
  deriving DecidableEq, Repr

/-- `Config` (`storage/config.rs:6-11`). -/
structure Config where
  admin : Bytes
  feeTiers : List FeeTier
  protocolFee : Nat
  deriving DecidableEq, Repr

/-- Block information of `Env` used by the contract: height and time in nanoseconds. -/
structure Env where
  height : Nat
  nanos : Nat
  deriving DecidableEq, Repr

/-- `TimeStampExt::millis` (`entrypoints/common.rs:18-26`). -/
def Env.millis (e : Env) : Nat := e.nanos / 1000000

/-- `Expiration::is_expired` of the `cw20`/`cw-utils` crate. -/
def Expiration.isExpired (e : Expiration) (env : Env) : Bool :=
  match e with
  | .atHeight h => decide (env.height ≥ h)
  | .atTime t => decide (env.nanos ≥ t)
  | .never => false

/-- A native coin attached to a message. -/
structure Coin where
  denom : Bytes
  amount : Nat
  deriving DecidableEq, Repr

/-- `MessageInfo`. -/
structure Info where
  sender : Bytes
  funds : List Coin
  deriving DecidableEq, Repr

/-- What is fixed for the life of the contract: its own address and which strings the chain's
`addr_validate` accepts. -/
structure Chain where
  self : Bytes
  isAddr : Bytes → Bool

/-- `SwapHop` (`interface.rs:24-28`). -/
structure Hop where
  poolKey : PoolKey
  xToY : Bool
  deriving DecidableEq, Repr

/-- `ExecuteMsg` (`msg.rs:32-133`).  `Mint` carries the fields of `NftExtensionMsg`
(`msg.rs:22-30`). -/
inductive Msg where
  | changeAdmin (newAdmin : Bytes)
  | withdrawProtocolFee (pk : PoolKey)
  | changeProtocolFee (fee : Nat)
  | changeFeeReceiver (pk : PoolKey) (receiver : Bytes)
  | createPosition (pk : PoolKey) (lower upper : Int) (L lo hi : Nat)
  | swap (pk : PoolKey) (xToY : Bool) (amount : Nat) (byAmountIn : Bool) (limit : Nat)
  | swapRoute (amountIn expectedOut slippage : Nat) (hops : List Hop)
  | transferPosition (index : Nat) (receiver : Bytes)
  | claimFee (index : Nat)
  | removePosition (index : Nat)
  | createPool (token0 token1 : Bytes) (tier : FeeTier) (price : Nat) (tick : Int)
  | addFeeTier (tier : FeeTier)
  | removeFeeTier (tier : FeeTier)
  | transferNft (recipient tokenId : Bytes)
  | mint (pk : PoolKey) (lower upper : Int) (L lo hi : Nat)
  | burn (tokenId : Bytes)
  | sendNft (contract tokenId : Bytes) (msg : Option Bytes)
  | approve (spender tokenId : Bytes) (expires : Option Expiration)
  | revoke (spender tokenId : Bytes)
  | approveAll (operator : Bytes) (expires : Option Expiration)
  | revokeAll (operator : Bytes)
  deriving DecidableEq, Repr

/-- `CosmosMsg` values the contract emits (`interface.rs:57-149`, `entrypoints/execute.rs:786-794`). -/
inductive OutMsg where
  | cw20Transfer (token recipient : Bytes) (amount : Nat)
  | cw20TransferFrom (token owner recipient : Bytes) (amount : Nat)
  | bankSend (to denom : Bytes) (amount : Nat)
  | nftReceive (contract sender tokenId : Bytes) (msg : Option Bytes)
  deriving DecidableEq, Repr

/-! ## Storage -/

/-- The contract's storage (`state.rs:12-26`).  `POOL_KEYS*` are declared there but never used. -/
structure Store where
  config : Option Config
  pools : KV Pool
  positions : KV Position
  posLen : KV Nat
  ticks : KV Tick
  bitmap : KV Nat
  operators : KV Expiration

/-- Storage before instantiation. -/
def Store.empty : Store := ⟨none, .empty, .empty, .empty, .empty, .empty, .empty⟩

/-- `FeeTier::key` (`storage/fee_tier.rs:25-31`). -/
def FeeTier.key (t : FeeTier) : Bytes := beBytes 8 t.fee ++ beBytes 2 t.spacing

/-- `cosmwasm_storage::to_length_prefixed`: two length bytes, then the data.  Lengths above 65535
panic; see `PoolKey.wf`. -/
def lenPrefixed (b : Bytes) : Bytes := beBytes 2 b.length ++ b

/-- `PoolKey::key` (`storage/pool_key.rs:15-22`). -/
def PoolKey.key (k : PoolKey) : Bytes :=
  lenPrefixed k.tokenX ++ lenPrefixed k.tokenY ++ lenPrefixed k.tier.key

/-- `index.to_be_bytes()` of an `i32` (two's complement). -/
def i32Bytes (t : Int) : Bytes := beBytes 4 (t % 4294967296).toNat

/-- `tick_key` (`state.rs:60-64`). -/
def tickKey (k : PoolKey) (t : Int) : Bytes := k.key ++ i32Bytes t

/-- `position_key` (`state.rs:129-133`), also the NFT token id. -/
def positionKey (owner : Bytes) (index : Nat) : Bytes := owner ++ beBytes 4 index

/-- `bitmap_key` (`state.rs:243-247`). -/
def bitmapKey (chunk : Nat) (k : PoolKey) : Bytes := beBytes 2 chunk ++ k.key

/-- Key of `OPERATORS: Map<(&[u8], &[u8]), _>`: length-prefixed owner, then operator. -/
def operatorKey (owner operator : Bytes) : Bytes := lenPrefixed owner ++ operator

/-- `FeeTier::from_bytes` (`storage/fee_tier.rs:33-46`). -/
def FeeTier.fromBytes (b : Bytes) : M FeeTier :=
  if b.length ≠ 10 then .error .invalidSize
  else .ok ⟨beNat (b.take 8), beNat (b.drop 8)⟩

/-- The `while index < raw_key.len()` loop of `PoolKey::from_bytes` (`storage/pool_key.rs:26-33`), on
the remaining bytes; slice indices out of range panic. -/
def splitNamespaces : Nat → Bytes → M (List Bytes)
  | 0, [] => .ok []
  | 0, _ :: _ => .error .outOfFuel
  | n + 1, b =>
    match b with
    | [] => .ok []
    | [_] => .error .panic
    | b0 :: b1 :: rest =>
      let len := beNat [b0, b1]
      if rest.length < len then .error .panic
      else do
        let more ← splitNamespaces n (rest.drop len)
        pure (rest.take len :: more)

/-- `PoolKey::from_bytes` (`storage/pool_key.rs:24-45`); UTF-8 errors are not modelled. -/
def PoolKey.fromBytes (b : Bytes) : M PoolKey := do
  let ns ← splitNamespaces b.length b
  match ns with
  | [x, y, f] => do
    let t ← FeeTier.fromBytes f
    pure ⟨x, y, t⟩
  | _ => .error .invalidSize

/-- `PoolKey::new` (`storage/pool_key.rs:47-65`). -/
def PoolKey.new (t0 t1 : Bytes) (tier : FeeTier) : M PoolKey :=
  if t0 = t1 then .error .tokensAreSame
  else if bytesLt t0 t1 then .ok ⟨t0, t1, tier⟩ else .ok ⟨t1, t0, tier⟩

/-! ## Range of message fields

Serde rejects numbers outside the Rust type, and `to_length_prefixed_nested` panics for token names
longer than 65535 bytes.  Both are checked here when a message enters (`parse` error); the code
reports the second one later, as a panic, but before any effect. -/

def FeeTier.wf (t : FeeTier) : Prop := t.fee < U64 ∧ t.spacing < U16
instance (t : FeeTier) : Decidable t.wf := inferInstanceAs (Decidable (_ ∧ _))
def PoolKey.wf (k : PoolKey) : Prop := k.tokenX.length < U16 ∧ k.tokenY.length < U16 ∧ k.tier.wf
instance (k : PoolKey) : Decidable k.wf := inferInstanceAs (Decidable (_ ∧ _ ∧ _))
/-- Range of `i32`. -/
def i32 (t : Int) : Prop := -2147483648 ≤ t ∧ t < 2147483648
instance (t : Int) : Decidable (i32 t) := inferInstanceAs (Decidable (_ ∧ _))

/-- All numeric fields of the message fit their Rust types. -/
def Msg.wf : Msg → Prop
  | .changeAdmin _ => True
  | .withdrawProtocolFee pk => pk.wf
  | .changeProtocolFee fee => fee < U64
  | .changeFeeReceiver pk _ => pk.wf
  | .createPosition pk lower upper L lo hi =>
    pk.wf ∧ i32 lower ∧ i32 upper ∧ L < U128 ∧ lo < U128 ∧ hi < U128
  | .swap pk _ amount _ limit => pk.wf ∧ amount < U128 ∧ limit < U128
  | .swapRoute a e s hops => a < U128 ∧ e < U128 ∧ s < U64 ∧ ∀ h ∈ hops, h.poolKey.wf
  | .transferPosition index _ => index < U32
  | .claimFee index => index < U32
  | .removePosition index => index < U32
  | .createPool t0 t1 tier price tick =>
    t0.length < U16 ∧ t1.length < U16 ∧ tier.wf ∧ price < U128 ∧ i32 tick
  | .addFeeTier tier => tier.wf
  | .removeFeeTier tier => tier.wf
  | .mint pk lower upper L lo hi =>
    pk.wf ∧ i32 lower ∧ i32 upper ∧ L < U128 ∧ lo < U128 ∧ hi < U128
  | .transferNft .. | .burn .. | .sendNft .. | .approve .. | .revoke .. | .approveAll ..
  | .revokeAll .. => True

instance (m : Msg) : Decidable m.wf := by
  cases m <;> unfold Msg.wf <;> infer_instance

end OraiV3
