import Verif.Query

/-!
# Client: helpers of the client library

Models the exported functions of `/repo/wasm` that have no counterpart in the contract.  The functions they call
(`calculate_fee_growth_inside`, `to_fee`, …) are textually the contract's and are represented by the same definitions.
-/

namespace OraiV3

/-- `calculate_fee` (`/repo/wasm/custom.rs:40-80`). -/
def clientFee (lower : Int) (lowerOutX lowerOutY : Nat) (upper : Int) (upperOutX upperOutY : Nat) (cur : Int)
    (globalX globalY insideX insideY L : Nat) : M (Nat × Nat) := do
  let inX := feeGrowthInside lower lowerOutX upper upperOutX cur globalX
  let inY := feeGrowthInside lower lowerOutY upper upperOutY cur globalY
  let x ← feeGrowthToFee (wsub inX insideX) L
  let y ← feeGrowthToFee (wsub inY insideY) L
  pure (x, y)

/-- `tick_to_position_js` (`/repo/wasm/collections/tickmap.rs:33-52`): errors where the contract's `tick_to_position` panics. -/
def clientTickToPosition (t : Int) (ts : Nat) : M (Nat × Nat) := tickToPosition t ts

/-- `position_to_tick` (`/repo/wasm/collections/tickmap.rs:77-83`, also `storage/tickmap.rs:43-47`, where no call of the contract
uses it).  The `i32` products do not overflow for the chunks of a
pool; the model computes them exactly. -/
def clientPositionToTick (chunk bit ts : Nat) : Int :=
  ((chunk : Int) * CHUNK_SIZE * ts + bit * ts) - (MAX_TICK - MAX_TICK.tmod ts)

/-- `is_token_x` (`/repo/wasm/custom.rs:81-85`); strings are compared by their bytes. -/
def clientIsTokenX (candidate other : Bytes) : Bool := bytesLt candidate other

/-- `new_pool_key` and `PoolKey::new` of the client (`/repo/wasm/storage/pool_key.rs:20-49`). -/
def clientPoolKey (t0 t1 : Bytes) (tier : FeeTier) : M PoolKey :=
  if t0 = t1 then .error .tokensAreSame
  else if clientIsTokenX t0 t1 then .ok ⟨t0, t1, tier⟩ else .ok ⟨t1, t0, tier⟩

/-- `new_fee_tier` and `FeeTier::new` (`/repo/wasm/storage/fee_tier.rs:17-35`, also
`/repo/contracts/oraiswap-v3/src/storage/fee_tier.rs:13-23`, where no call of the contract uses it). -/
def clientFeeTier (fee spacing : Nat) : M FeeTier :=
  if spacing = 0 ∨ spacing > 100 then .error .invalidTickSpacing
  else if fee > PCT then .error .invalidFee
  else .ok ⟨fee, spacing⟩

/-- `check_ticks` (`/repo/wasm/clamm.rs:375-385`, also `math/clamm.rs:317-329`, where no call of the contract uses it). -/
def clientCheckTicks (lower upper : Int) (ts : Nat) : M Unit :=
  if lower > upper then .error .tickLowerGreater
  else do
    checkTick lower ts
    checkTick upper ts

/-- `get_max_sqrt_price` (`/repo/wasm/types/sqrt_price.rs:220-225`, also `math/types/sqrt_price.rs:228-231`); a spacing of 0 is a
division by zero. -/
def clientMaxSqrtPrice (ts : Nat) : M Nat := if ts = 0 then .error .panic else calculateSqrtPrice (getMaxTick ts)

/-- `get_min_sqrt_price` (`/repo/wasm/types/sqrt_price.rs:227-232`, also `math/types/sqrt_price.rs:233-236`). -/
def clientMinSqrtPrice (ts : Nat) : M Nat := if ts = 0 then .error .panic else calculateSqrtPrice (getMinTick ts)

/-! ## The library's constants -/

/-- `get_max_chunk` (`/repo/wasm/consts.rs:46-51`); a spacing of 0 is a division by zero. -/
def clientMaxChunk (ts : Nat) : M Nat := if ts = 0 then .error .panic else .ok (getMaxChunk ts)

/-- `get_max_tickmap_query_size` (`/repo/wasm/consts.rs:16-17,67-69`). -/
def clientMaxTickmapQuerySize : Nat := 16 * 1024 * 8 / (16 + 64)

/-- `get_liquidity_ticks_limit` (`/repo/wasm/consts.rs:19,73-75`). -/
def clientLiquidityTicksLimit : Nat := 16 * 1024 * 8 / (32 + 128 + 8)

/-- `get_max_pool_keys_returned` (`/repo/wasm/consts.rs:21,79-81`). -/
def clientMaxPoolKeysReturned : Nat := 220

/-- `get_max_pool_pairs_returned` (`/repo/wasm/consts.rs:23-24,85-87`). -/
def clientMaxPoolPairsReturned : Nat :=
  16 * 1024 * 8 / (128 + 128 + 32 + 128 + 128 + 128 + 128 + 64 + 64 + 32 + 64 + 16)

end OraiV3
