import Verif.Swap

/-!
# Contract: message handlers

Paths are relative to `/repo/contracts/oraiswap-v3/src`.  Handlers return the new storage and the
messages of the response.  The attributes of the response are modelled in `Events`.
-/

namespace OraiV3

/-! ## Token movements -/

/-- `Asset::transfer` with `AssetInfo::from_denom` (`interface.rs:38-48,57-90`). -/
def assetTransfer (c : Chain) (denom : Bytes) (amount : Nat) (info : Info) : List OutMsg :=
  if amount = 0 then []
  else if c.isAddr denom then [.cw20Transfer denom info.sender amount]
  else [.bankSend info.sender denom amount]

/-- `Asset::transfer_from` with `AssetInfo::from_denom` (`interface.rs:38-48,92-149`). -/
def assetTransferFrom (c : Chain) (denom : Bytes) (amount : Nat) (info : Info) : M (List OutMsg) :=
  if amount = 0 then .ok []
  else if c.isAddr denom then .ok [.cw20TransferFrom denom info.sender c.self amount]
  else
    match info.funds.find? (fun x => x.denom = denom) with
    | some coin =>
      if coin.amount ≥ amount then
        if coin.amount - amount = 0 then .ok []
        else .ok [.bankSend info.sender denom (coin.amount - amount)]
      else .error .invalidFunds
    | none => .error .invalidFunds

/-! ## Administration -/

/-- `change_admin` (`entrypoints/execute.rs:27-44`). -/
def changeAdmin (s : Store) (info : Info) (newAdmin : Bytes) : M (Store × List OutMsg) := do
  let cfg ← loadConfig s
  if info.sender ≠ cfg.admin then .error .unauthorized
  else pure ({ s with config := some { cfg with admin := newAdmin } }, [])

/-- `withdraw_protocol_fee` (`entrypoints/execute.rs:53-85`, `storage/pool.rs:185-193`). -/
def withdrawProtocolFee (c : Chain) (s : Store) (info : Info) (k : PoolKey) : M (Store × List OutMsg) := do
  let pool ← getPool s k
  if pool.feeReceiver ≠ info.sender then .error .unauthorized
  else pure (savePool s k { pool with protoX := 0, protoY := 0 },
    assetTransfer c k.tokenX pool.protoX info ++ assetTransfer c k.tokenY pool.protoY info)

/-- `change_protocol_fee` (`entrypoints/execute.rs:94-109`). -/
def changeProtocolFee (s : Store) (info : Info) (fee : Nat) : M (Store × List OutMsg) := do
  let cfg ← loadConfig s
  if info.sender ≠ cfg.admin then .error .unauthorized
  else pure ({ s with config := some { cfg with protocolFee := fee } }, [])

/-- `change_fee_receiver` (`entrypoints/execute.rs:119-137`). -/
def changeFeeReceiver (s : Store) (info : Info) (k : PoolKey) (receiver : Bytes) :
    M (Store × List OutMsg) := do
  let cfg ← loadConfig s
  if info.sender ≠ cfg.admin then .error .unauthorized
  else do
    let pool ← getPool s k
    pure (savePool s k { pool with feeReceiver := receiver }, [])

/-- `add_fee_tier` (`entrypoints/execute.rs:607-633`). -/
def addFeeTier (s : Store) (info : Info) (tier : FeeTier) : M (Store × List OutMsg) := do
  let cfg ← loadConfig s
  if info.sender ≠ cfg.admin then .error .unauthorized
  else if tier.spacing = 0 ∨ tier.spacing > 100 then .error .invalidTickSpacing
  else if tier.fee ≥ PCT then .error .invalidFee
  else pure ({ s with config := some { cfg with feeTiers := cfg.feeTiers ++ [tier] } }, [])

/-- `remove_fee_tier` (`entrypoints/execute.rs:643-664`): removes the first occurrence. -/
def removeFeeTier (s : Store) (info : Info) (tier : FeeTier) : M (Store × List OutMsg) := do
  let cfg ← loadConfig s
  if info.sender ≠ cfg.admin then .error .unauthorized
  else if tier ∈ cfg.feeTiers then
    pure ({ s with config := some { cfg with feeTiers := cfg.feeTiers.erase tier } }, [])
  else .error .feeTierNotFound

/-- `create_pool` (`entrypoints/execute.rs:555-595`). -/
def createPool (s : Store) (env : Env) (t0 t1 : Bytes) (tier : FeeTier) (price : Nat) (tick : Int) :
    M (Store × List OutMsg) := do
  let cfg ← loadConfig s
  if tier ∉ cfg.feeTiers then .error .feeTierNotFound
  else do
    checkTick tick tier.spacing
    let k ← PoolKey.new t0 t1 tier
    if s.pools.has k.key then .error .poolAlreadyExist
    else
      match Pool.create price tick env.millis tier.spacing cfg.admin with
      | .error .panic => .error .panic
      | .error _ => .error .createPoolError
      | .ok pool => pure (savePool s k pool, [])

/-! ## Positions -/

/-- `create_tick` (`entrypoints/common.rs:28-42`). -/
def createTick (s : Store) (now : Nat) (k : PoolKey) (index : Int) : M (Store × Tick) := do
  checkTick index k.tier.spacing
  let pool ← getPool s k
  let t ← Tick.create index pool now
  let s ← addTick s k index t
  let s ← flipBitmap s true index k.tier.spacing k
  pure (s, t)

/-- `match get_tick { Ok(tick) => tick, _ => create_tick(..)? }`
(`entrypoints/execute.rs:186-194`). -/
def getOrCreateTick (s : Store) (now : Nat) (k : PoolKey) (index : Int) : M (Store × Tick) :=
  match getTick s k index with
  | .ok t => .ok (s, t)
  | .error _ => createTick s now k index

/-- `create_position` (`entrypoints/execute.rs:159-242`). -/
def createPosition (c : Chain) (s : Store) (env : Env) (info : Info) (k : PoolKey) (lower upper : Int)
    (L lo hi : Nat) : M (Store × List OutMsg) :=
  if L = 0 then .error .insufficientLiquidity
  else if lower = upper then .error .invalidTickIndex
  else
    match s.pools.get? k.key with
    | none => .error .poolNotFound
    | some pool => do
      let rl ← getOrCreateTick s env.millis k lower
      let ru ← getOrCreateTick rl.1 env.millis k upper
      let r ← Position.create pool k rl.2 ru.2 env.millis L lo hi env.height k.tier.spacing
      let s := savePool ru.1 k r.pool
      let s ← addPosition s info.sender r.pos
      let s ← updateTick s k r.lower.index r.lower
      let s ← updateTick s k r.upper.index r.upper
      let m1 ← assetTransferFrom c k.tokenX r.x info
      let m2 ← assetTransferFrom c k.tokenY r.y info
      pure (s, m1 ++ m2)

/-- `claim_fee` (`entrypoints/execute.rs:387-445`). -/
def claimFee (c : Chain) (s : Store) (env : Env) (info : Info) (index : Nat) : M (Store × List OutMsg) := do
  let pos ← getPosition s info.sender index
  let lower ← getTick s pos.poolKey pos.lower
  let upper ← getTick s pos.poolKey pos.upper
  let pool ← getPool s pos.poolKey
  let r ← pos.claimFee pool upper lower env.millis
  let s ← updatePosition s info.sender index r.pos
  let s := savePool s pos.poolKey r.pool
  let s ← updateTick s pos.poolKey r.upper.index r.upper
  let s ← updateTick s pos.poolKey r.lower.index r.lower
  pure (s, assetTransfer c pos.poolKey.tokenX r.x info ++ assetTransfer c pos.poolKey.tokenY r.y info)

/-- `remove_tick_and_flip_bitmap` (`entrypoints/common.rs:329-343`). -/
def removeTickAndFlip (s : Store) (k : PoolKey) (t : Tick) : M Store :=
  if t.gross ≠ 0 then .error .notEmptyTickDeinitialization
  else do
    let s ← flipBitmap s false t.index k.tier.spacing k
    removeTick s k t.index

/-- `if deinitialize { remove_tick_and_flip_bitmap } else { update_tick }`
(`entrypoints/execute.rs:486-506`). -/
def settleTick (s : Store) (k : PoolKey) (index : Int) (t : Tick) : M Store :=
  if t.gross = 0 then removeTickAndFlip s k t else updateTick s k index t

/-- `remove_position` (`entrypoints/execute.rs:457-535`). -/
def removePosition (c : Chain) (s : Store) (env : Env) (info : Info) (index : Nat) :
    M (Store × List OutMsg) := do
  let pos ← getPosition s info.sender index
  let lower ← getTick s pos.poolKey pos.lower
  let upper ← getTick s pos.poolKey pos.upper
  let pool ← getPool s pos.poolKey
  let r ← pos.remove pool env.millis lower upper pos.poolKey.tier.spacing
  let s := savePool s pos.poolKey r.pool
  let s ← settleTick s pos.poolKey pos.lower r.lower
  let s ← settleTick s pos.poolKey pos.upper r.upper
  let sp ← removePositionAt s info.sender index
  pure (sp.1, assetTransfer c sp.2.poolKey.tokenX r.x info ++ assetTransfer c sp.2.poolKey.tokenY r.y info)

/-- `transfer_position` (`entrypoints/execute.rs:359-378`). -/
def transferPosition (c : Chain) (s : Store) (info : Info) (index : Nat) (receiver : Bytes) :
    M (Store × List OutMsg) := do
  let pos ← getPosition s info.sender index
  let sp ← removePositionAt s info.sender index
  if !c.isAddr receiver then .error .std
  else do
    let s ← addPosition sp.1 receiver { pos with approvals := [] }
    pure (s, [])

/-! ## Swaps -/

/-- `for tick in &ticks { update_tick(..)? }` (`entrypoints/common.rs:210-212`). -/
def saveTicks (s : Store) (k : PoolKey) : List Tick → M Store
  | [] => .ok s
  | t :: ts => do
    let s ← updateTick s k t.index t
    saveTicks s k ts

/-- `swap_internal` (`entrypoints/common.rs:187-236`). -/
def swapInternal (c : Chain) (s : Store) (info : Info) (now : Nat) (k : PoolKey) (xToY : Bool)
    (amount : Nat) (byAmountIn : Bool) (limit : Nat) : M (Store × List OutMsg × CalcSwapResult) := do
  let r ← calculateSwap s now k xToY amount byAmountIn limit
  let s ← saveTicks s k r.ticks
  let s := savePool s k r.pool
  let m1 ← assetTransferFrom c (if xToY then k.tokenX else k.tokenY) r.amountIn info
  let m2 := assetTransfer c (if xToY then k.tokenY else k.tokenX) r.amountOut info
  pure (s, m1 ++ m2, r)

/-- `swap` (`entrypoints/execute.rs:265-300`). -/
def swap (c : Chain) (s : Store) (env : Env) (info : Info) (k : PoolKey) (xToY : Bool) (amount : Nat)
    (byAmountIn : Bool) (limit : Nat) : M (Store × List OutMsg) := do
  let r ← swapInternal c s info env.millis k xToY amount byAmountIn limit
  pure (r.1, r.2.1)

/-- Price limit used for hops (`entrypoints/common.rs:252-256,288-292`). -/
def hopLimit (xToY : Bool) : Nat := if xToY then MIN_SQRT_PRICE else MAX_SQRT_PRICE

/-- `swap_route_internal` (`entrypoints/common.rs:238-275`). -/
def swapRouteInternal (c : Chain) (info : Info) (now : Nat) :
    List Hop → Store → Nat → List OutMsg → M (Store × Nat × List OutMsg)
  | [], s, amount, msgs => .ok (s, amount, msgs)
  | h :: hs, s, amount, msgs => do
    let r ← swapInternal c s info now h.poolKey h.xToY amount true (hopLimit h.xToY)
    swapRouteInternal c info now hs r.1 r.2.2.amountOut (msgs ++ r.2.1)

/-- `swap_route` (`entrypoints/execute.rs:322-352`). -/
def swapRoute (c : Chain) (s : Store) (env : Env) (info : Info) (amountIn expectedOut slippage : Nat)
    (hops : List Hop) : M (Store × List OutMsg) := do
  let r ← swapRouteInternal c info env.millis hops s amountIn []
  let minOut ← calculateMinAmountOut expectedOut slippage
  if r.2.1 < minOut then .error .amountUnderMinimumAmountOut
  else pure (r.1, r.2.2)

/-- `route` (`entrypoints/common.rs:277-307`): quotes hop after hop on the unchanged storage. -/
def route (s : Store) (now : Nat) : List Hop → Nat → M Nat
  | [], amount => .ok amount
  | h :: hs, amount => do
    let r ← calculateSwap s now h.poolKey h.xToY amount true (hopLimit h.xToY)
    route s now hs r.amountOut

/-! ## NFT messages -/

/-- `&token_id[..token_id.len() - 4]`, panics below four bytes. -/
def tokenOwner (id : Bytes) : M Bytes := if id.length < 4 then .error .panic else .ok (id.take (id.length - 4))

/-- `u32::from_be_bytes(token_id[token_id.len() - 4..])`. -/
def tokenIndex (id : Bytes) : Nat := beNat (id.drop (id.length - 4))

/-- The operator part shared by `check_can_approve` and `check_can_send`
(`entrypoints/common.rs:358-369,396-407`). -/
def isOperator (s : Store) (env : Env) (owner sender : Bytes) : Bool :=
  match s.operators.get? (operatorKey owner sender) with
  | some ex => !ex.isExpired env
  | none => false

/-- `check_can_approve` (`entrypoints/common.rs:346-370`). -/
def checkCanApprove (s : Store) (env : Env) (info : Info) (owner : Bytes) : M Unit :=
  if info.sender = owner then .ok ()
  else if isOperator s env owner info.sender then .ok () else .error .unauthorized

/-- `check_can_send` (`entrypoints/common.rs:373-408`). -/
def checkCanSend (s : Store) (env : Env) (info : Info) (owner : Bytes) (pos : Position) : M Unit :=
  if info.sender = owner then .ok ()
  else if pos.approvals.any (fun a => a.spender = info.sender && !a.expires.isExpired env) then .ok ()
  else if isOperator s env owner info.sender then .ok () else .error .unauthorized

/-- `update_approvals` (`entrypoints/common.rs:410-449`). -/
def updateApprovals (s : Store) (env : Env) (info : Info) (spender tokenId : Bytes) (add : Bool)
    (expires : Option Expiration) : M (Store × List OutMsg) := do
  let owner ← tokenOwner tokenId
  let pos ← getPositionByKey s tokenId
  checkCanApprove s env info owner
  let kept := pos.approvals.filter (fun a => a.spender ≠ spender)
  if add then
    let ex := expires.getD .never
    if ex.isExpired env then .error .expired
    else pure ({ s with positions :=
      s.positions.insert tokenId { pos with approvals := kept ++ [⟨spender, ex⟩] } }, [])
  else pure ({ s with positions := s.positions.insert tokenId { pos with approvals := kept } }, [])

/-- `transfer_nft` (`entrypoints/common.rs:451-470`). -/
def transferNftInternal (s : Store) (env : Env) (info : Info) (recipient tokenId : Bytes) : M Store := do
  let owner ← tokenOwner tokenId
  let pos ← getPositionByKey s tokenId
  checkCanSend s env info owner pos
  let sp ← removePositionAt s owner (tokenIndex tokenId)
  addPosition sp.1 recipient { pos with approvals := [] }

/-- `handle_transfer_nft` (`entrypoints/execute.rs:742-758`). -/
def transferNft (s : Store) (env : Env) (info : Info) (recipient tokenId : Bytes) :
    M (Store × List OutMsg) := do
  let s ← transferNftInternal s env info recipient tokenId
  pure (s, [])

/-- `handle_send_nft` (`entrypoints/execute.rs:775-800`). -/
def sendNft (s : Store) (env : Env) (info : Info) (contract tokenId : Bytes) (msg : Option Bytes) :
    M (Store × List OutMsg) := do
  let s ← transferNftInternal s env info contract tokenId
  pure (s, [.nftReceive contract info.sender tokenId msg])

/-- `handle_burn` (`entrypoints/execute.rs:760-773`): the permission check is on the named token, the
removal is of the *sender's* position with the same index. -/
def burn (c : Chain) (s : Store) (env : Env) (info : Info) (tokenId : Bytes) : M (Store × List OutMsg) := do
  let pos ← getPositionByKey s tokenId
  let owner ← tokenOwner tokenId
  checkCanSend s env info owner pos
  removePosition c s env info (tokenIndex tokenId)

/-- `handle_approve_all` (`entrypoints/execute.rs:699-722`). -/
def approveAll (s : Store) (env : Env) (info : Info) (operator : Bytes) (expires : Option Expiration) :
    M (Store × List OutMsg) :=
  let ex := expires.getD .never
  if ex.isExpired env then .error .expired
  else .ok ({ s with operators := s.operators.insert (operatorKey info.sender operator) ex }, [])

/-- `handle_revoke_all` (`entrypoints/execute.rs:724-739`). -/
def revokeAll (s : Store) (info : Info) (operator : Bytes) : M (Store × List OutMsg) :=
  .ok ({ s with operators := s.operators.erase (operatorKey info.sender operator) }, [])

/-! ## Entry points -/

/-- `instantiate` (`contract.rs:17-32`). -/
def instantiate (sender : Bytes) (protocolFee : Nat) : Store :=
  { Store.empty with config := some ⟨sender, [], protocolFee⟩ }

/-- Dispatch of `execute` (`contract.rs:35-155`).  `handle_approve`, `handle_revoke`
(`entrypoints/execute.rs:666-697`) and `handle_mint` (`:802-828`) only pass their arguments on. -/
def dispatch (c : Chain) (env : Env) (info : Info) (msg : Msg) (s : Store) : M (Store × List OutMsg) :=
  match msg with
  | .changeAdmin a => changeAdmin s info a
  | .withdrawProtocolFee k => withdrawProtocolFee c s info k
  | .changeProtocolFee f => changeProtocolFee s info f
  | .changeFeeReceiver k r => changeFeeReceiver s info k r
  | .createPosition k l u L lo hi => createPosition c s env info k l u L lo hi
  | .swap k d a b lim => swap c s env info k d a b lim
  | .swapRoute a e sl hops => swapRoute c s env info a e sl hops
  | .transferPosition i r => transferPosition c s info i r
  | .claimFee i => claimFee c s env info i
  | .removePosition i => removePosition c s env info i
  | .createPool t0 t1 tier p t => createPool s env t0 t1 tier p t
  | .addFeeTier t => addFeeTier s info t
  | .removeFeeTier t => removeFeeTier s info t
  | .transferNft r id => transferNft s env info r id
  | .mint k l u L lo hi => createPosition c s env info k l u L lo hi
  | .burn id => burn c s env info id
  | .sendNft ct id m => sendNft s env info ct id m
  | .approve sp id ex => updateApprovals s env info sp id true ex
  | .revoke sp id => updateApprovals s env info sp id false none
  | .approveAll o ex => approveAll s env info o ex
  | .revokeAll o => revokeAll s info o

/-- `execute` (`contract.rs:35-155`) behind serde: messages whose fields do not fit the Rust types
never reach the contract. -/
def execute (c : Chain) (env : Env) (info : Info) (msg : Msg) (s : Store) : M (Store × List OutMsg) :=
  if msg.wf then dispatch c env info msg s else .error .parse

end OraiV3
