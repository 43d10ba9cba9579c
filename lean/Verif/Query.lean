import Verif.Contract

/-!
# Query: read-only entry points

Paths are relative to `/repo/contracts/oraiswap-v3/src`.  `query` (`contract.rs:158-271`) only
dispatches and serialises.  `Deps` gives no write access, so a query is a function of the storage.
-/

namespace OraiV3

/-- `query_admin` (`entrypoints/query.rs:22-25`). -/
def queryAdmin (s : Store) : M Bytes := do
  let cfg ← loadConfig s
  pure cfg.admin

/-- `get_protocol_fee` (`entrypoints/query.rs:28-31`). -/
def queryProtocolFee (s : Store) : M Nat := do
  let cfg ← loadConfig s
  pure cfg.protocolFee

/-- `get_fee_tiers` (`entrypoints/query.rs:148-151`). -/
def queryFeeTiers (s : Store) : M (List FeeTier) := do
  let cfg ← loadConfig s
  pure cfg.feeTiers

/-- `fee_tier_exist` (`entrypoints/query.rs:62-65`). -/
def queryFeeTierExist (s : Store) (t : FeeTier) : M Bool := do
  let cfg ← loadConfig s
  pure (decide (t ∈ cfg.feeTiers))

/-- `get_pool` (`entrypoints/query.rs:77-85`). -/
def queryPool (s : Store) (t0 t1 : Bytes) (tier : FeeTier) : M Pool := do
  let k ← PoolKey.new t0 t1 tier
  getPool s k

/-- `get_pools` (`entrypoints/query.rs:116-122`, `state.rs:35-58`): the first undecodable key makes
the whole query fail. -/
def queryPools (s : Store) (limit : Option Nat) (startAfter : Option PoolKey) : M (List (PoolKey × Pool)) :=
  ((s.pools.rangeAfter (startAfter.map PoolKey.key)).take (min (limit.getD MAX_LIMIT) MAX_LIMIT)).mapM
    (fun e => do
      let k ← PoolKey.fromBytes e.1
      pure (k, e.2))

/-- `get_all_pools_for_pair` (`entrypoints/query.rs:127-145`). -/
def queryPoolsForPair (s : Store) (t0 t1 : Bytes) : M (List (PoolKey × Pool)) := do
  let cfg ← loadConfig s
  let k ← PoolKey.new t0 t1 ⟨0, 1⟩
  pure (cfg.feeTiers.filterMap fun tier =>
    match s.pools.get? ({ k with tier := tier } : PoolKey).key with
    | some p => some ({ k with tier := tier }, p)
    | none => none)

/-- `(from..to)` as a list. -/
def rangeList (a b : Nat) : List Nat := (List.range (b - a)).map (· + a)

/-- `from_idx`/`to_idx` of `get_all_positions` and `get_all_position_keys` (`state.rs:215-217,
229-231`); the u32 addition panics on overflow, and the limit is not capped. -/
def pageBounds (s : Store) (owner : Bytes) (limit offset : Option Nat) : M (Nat × Nat) :=
  let a := offset.getD 0
  let b := a + limit.getD MAX_LIMIT
  if b < U32 then .ok (a, min (getPositionLength s owner) b) else .error .panic

/-- `get_positions` (`entrypoints/query.rs:49-56`, `state.rs:209-221`). -/
def queryPositions (s : Store) (owner : Bytes) (limit offset : Option Nat) : M (List Position) := do
  let b ← pageBounds s owner limit offset
  (rangeList b.1 b.2).mapM (fun i => getPosition s owner i)

/-- `query_tokens` (`entrypoints/query.rs:461-473`, `state.rs:223-235`): `start_after` is passed as the
offset. -/
def queryTokens (s : Store) (owner : Bytes) (startAfter limit : Option Nat) : M (List Bytes) := do
  let b ← pageBounds s owner limit startAfter
  pure ((rangeList b.1 b.2).map (fun i => positionKey owner i))

/-- `query_all_tokens` (`entrypoints/query.rs:475-489`). -/
def queryAllTokens (s : Store) (startAfter : Option Bytes) (limit : Option Nat) : List Bytes :=
  ((s.positions.rangeAfter startAfter).take (min (limit.getD MAX_LIMIT) MAX_LIMIT)).map (·.1)

/-- `get_user_position_amount` (`entrypoints/query.rs:207-209`). -/
def queryUserPositionAmount (s : Store) (owner : Bytes) : Nat := getPositionLength s owner

/-- `is_tick_initialized` (`entrypoints/query.rs:104-111`). -/
def queryIsTickInitialized (s : Store) (k : PoolKey) (t : Int) : M Bool := getBitmap s t k.tier.spacing k

/-- `humanize_approvals` (`entrypoints/common.rs:472-482`). -/
def humanizeApprovals (env : Env) (p : Position) (includeExpired : Bool) : List Approval :=
  p.approvals.filter (fun a => includeExpired || !a.expires.isExpired env)

/-- `query_owner_of` (`entrypoints/query.rs:397-409`). -/
def queryOwnerOf (s : Store) (env : Env) (tokenId : Bytes) (includeExpired : Bool) :
    M (Bytes × List Approval) := do
  let owner ← tokenOwner tokenId
  let pos ← getPositionByKey s tokenId
  pure (owner, humanizeApprovals env pos includeExpired)

/-- `query_nft_info` (`entrypoints/query.rs:439-442`). -/
def queryNftInfo (s : Store) (tokenId : Bytes) : M Position := getPositionByKey s tokenId

/-- `query_all_nft_info` (`entrypoints/query.rs:444-459`). -/
def queryAllNftInfo (s : Store) (env : Env) (tokenId : Bytes) (includeExpired : Bool) :
    M ((Bytes × List Approval) × Position) := do
  let owner ← tokenOwner tokenId
  let pos ← getPositionByKey s tokenId
  pure ((owner, humanizeApprovals env pos includeExpired), pos)

/-- `OPERATORS.prefix(owner).range_raw(start, None, Ascending)`: the entries below the length-prefixed owner, with the rest of the
key. -/
def operatorsAfter (s : Store) (owner : Bytes) (start : Option Bytes) : List (Bytes × Expiration) :=
  let l := s.operators.entries.filterMap fun e =>
    if (lenPrefixed owner).isPrefixOf e.1 then some (e.1.drop (lenPrefixed owner).length, e.2) else none
  match start with
  | none => l
  | some st => l.filter (fun e => bytesLt st e.1)

/-- `query_all_approvals` (`entrypoints/query.rs:411-437`); pairs of operator and expiry. -/
def queryAllApprovals (s : Store) (env : Env) (owner : Bytes) (includeExpired : Bool) (startAfter : Option Bytes)
    (limit : Option Nat) : List (Bytes × Expiration) :=
  ((operatorsAfter s owner startAfter).filter (fun e => includeExpired || !e.2.isExpired env)).take
    (min (limit.getD MAX_LIMIT) MAX_LIMIT)

/-- `QuoteResult` (`interface.rs:161-168`). -/
structure QuoteResult where
  amountIn : Nat
  amountOut : Nat
  targetPrice : Nat
  ticks : List Tick

/-- `quote` (`entrypoints/query.rs:350-375`). -/
def queryQuote (s : Store) (env : Env) (k : PoolKey) (xToY : Bool) (amount : Nat) (byAmountIn : Bool)
    (limit : Nat) : M QuoteResult := do
  let r ← calculateSwap s env.millis k xToY amount byAmountIn limit
  pure ⟨r.amountIn, r.amountOut, r.pool.sqrtPrice, r.ticks⟩

/-- `quote_route` (`entrypoints/query.rs:387-395`). -/
def queryQuoteRoute (s : Store) (env : Env) (amountIn : Nat) (hops : List Hop) : M Nat :=
  route s env.millis hops amountIn

/-- `u64::count_ones`. -/
def popcount : Nat → Nat → Nat
  | 0, _ => 0
  | n + 1, v => v % 2 + popcount n (v / 2)

/-- `active_bits_in_range` (`entrypoints/query.rs:310-313`): the u8 subtraction panics for an inverted
range and `1u64 << 64` panics for a range of 64 bits. -/
def activeBitsInRange (chunk minBit maxBit : Nat) : M Nat := do
  let w ← subP maxBit minBit
  if w + 1 ≥ 64 then .error .panic
  else pure (popcount 64 (chunk / 2 ^ minBit % 2 ^ (w + 1)))

/-- `get_liquidity_ticks_amount` (`entrypoints/query.rs:285-334`). -/
def queryLiquidityTicksAmount (s : Store) (k : PoolKey) (lower upper : Int) : M Nat :=
  let ts := k.tier.spacing
  if ts = 0 then .error .invalidTickSpacing
  else if lower.tmod ts ≠ 0 ∨ upper.tmod ts ≠ 0 then .error .invalidTickIndex
  else if lower < getMinTick ts ∨ upper > getMaxTick ts then .error .invalidTickIndex
  else do
    let lo ← tickToPosition lower ts
    let hi ← tickToPosition upper ts
    if hi.1 = lo.1 then activeBitsInRange (getChunk s k lo.1) lo.2 hi.2
    else do
      let a ← activeBitsInRange (getChunk s k lo.1) lo.2 63
      let b ← activeBitsInRange (getChunk s k hi.1) 0 hi.2
      pure (a + b + ((rangeList (lo.1 + 1) hi.1).map (fun i => popcount 64 (getChunk s k i))).sum)

/-- `get_liquidity_ticks` (`entrypoints/query.rs:255-273`). -/
def queryLiquidityTicks (s : Store) (k : PoolKey) (idx : List Int) : M (List (Int × Nat × Bool)) :=
  if idx.length > 131072 / 168 then .error .tickLimitReached
  else idx.mapM (fun i => do
    let t ← getTick s k i
    pure (t.index, t.change, t.sign))

/-- `get_max_chunk` (`storage/tickmap.rs:7-12`); every caller in the model has checked the spacing. -/
def getMaxChunk (ts : Nat) : Nat := (((getMaxTick ts + MAX_TICK).tdiv ts).tdiv CHUNK_SIZE).toNat

/-- `get_min_chunk` (`storage/tickmap.rs:14-19`). -/
def getMinChunk (ts : Nat) : Nat := (((MAX_TICK - getMaxTick ts).tdiv ts).tdiv CHUNK_SIZE).toNat

/-- `MAX_TICKMAP_QUERY_SIZE` (`storage/tickmap.rs:5`, `storage/tick.rs:26`). -/
abbrev MAX_TICKMAP_QUERY_SIZE : Nat := 131072 / (16 + 64)

/-- `tickmap_slice` (`entrypoints/common.rs:309-327`). -/
def tickmapSlice (s : Store) (k : PoolKey) (range : List Nat) : List (Nat × Nat) :=
  (range.filterMap fun c => (s.bitmap.get? (bitmapKey c k)).map (fun v => (c, v))).take MAX_TICKMAP_QUERY_SIZE

/-- `get_tickmap` (`entrypoints/query.rs:218-243`). -/
def queryTickmap (s : Store) (k : PoolKey) (lower upper : Int) (xToY : Bool) : M (List (Nat × Nat)) := do
  let ts := k.tier.spacing
  let lo ← tickToPosition lower ts
  let hi ← tickToPosition upper ts
  let range := rangeList (max (getMinChunk ts) lo.1) (min (getMaxChunk ts) hi.1 + 1)
  pure (tickmapSlice s k (if xToY then range.reverse else range))

/-- `PositionTick` (`storage/tick.rs:34-40`). -/
structure PositionTick where
  index : Int
  outX : Nat
  outY : Nat
  secondsOutside : Nat
  deriving DecidableEq, Repr

/-- `POSITION_TICK_LIMIT` (`storage/tick.rs:26,32`). -/
abbrev POSITION_TICK_LIMIT : Nat := 131072 / (32 + 128 + 128 + 64)

/-- The ticks of one position, as far as they are stored (`entrypoints/query.rs:172-193`). -/
def positionTicksOf (s : Store) (owner : Bytes) (i : Nat) : List PositionTick :=
  match getPosition s owner i with
  | .error _ => []
  | .ok p => [p.lower, p.upper].filterMap fun j =>
      (s.ticks.get? (tickKey p.poolKey j)).map (fun t => ⟨t.index, t.outX, t.outY, t.secondsOutside⟩)

/-- The loop of `get_position_ticks` (`entrypoints/query.rs:171-198`). -/
def positionTicksLoop (s : Store) (owner : Bytes) : List Nat → List PositionTick → List PositionTick
  | [], acc => acc
  | i :: is, acc =>
    let acc := acc ++ positionTicksOf s owner i
    if acc.length ≥ POSITION_TICK_LIMIT then acc else positionTicksLoop s owner is acc

/-- `get_position_ticks` (`entrypoints/query.rs:158-201`). -/
def queryPositionTicks (s : Store) (owner : Bytes) (offset : Nat) : M (List PositionTick) :=
  let n := getPositionLength s owner
  if offset > n then .error .invalidOffset
  else pure (positionTicksLoop s owner (rangeList offset n) [])

end OraiV3
