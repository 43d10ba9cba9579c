import Verif.PoolOps

/-!
# Swap: the swap loop

Paths are relative to `/repo/contracts/oraiswap-v3/src`.
-/

namespace OraiV3

/-- Parameters of one swap. -/
structure SwapParams where
  key : PoolKey
  xToY : Bool
  byAmountIn : Bool
  limit : Nat
  now : Nat
  deriving DecidableEq, Repr

/-- Mutable state of the loop in `calculate_swap` (`entrypoints/common.rs:57-83`). -/
structure SwapState where
  pool : Pool
  remaining : Nat
  totalIn : Nat
  totalOut : Nat
  fee : Nat
  ticks : List Tick

/-- The `tick_update` value (`entrypoints/common.rs:128-139`). -/
def tickUpdOf (s : Store) (k : PoolKey) (lt : Option (Int × Bool)) : M TickUpd :=
  match lt with
  | none => pure .noTick
  | some (i, true) => do
    let t ← getTick s k i
    pure (.init t)
  | some (i, false) => pure (.uninit i)

/-- `if let TickInitialized(tick) = tick_update { if has_crossed { ticks.push(tick) } }`
(`entrypoints/common.rs:156-160`). -/
def pushCrossed (ticks : List Tick) (upd : TickUpd) (crossed : Bool) : List Tick :=
  match upd, crossed with
  | .init t, true => ticks ++ [t]
  | _, _ => ticks

/-- `reached_tick_limit` (`entrypoints/common.rs:71-75,162-165`). -/
def reachedTickLimit (xToY : Bool) (ts : Nat) (t : Int) : Bool :=
  if xToY then decide (t ≤ getMinTick ts) else decide (t ≥ getMaxTick ts)

/-- One iteration of the loop in `calculate_swap` (`entrypoints/common.rs:86-169`). -/
def swapIter (s : Store) (pr : SwapParams) (st : SwapState) : M SwapState := do
  let cl ← getCloserLimit (getChunk s pr.key) pr.limit pr.xToY st.pool.tick pr.key.tier.spacing
  let r ← computeSwapStep st.pool.sqrtPrice cl.1 st.pool.liquidity st.remaining pr.byAmountIn pr.key.tier.fee
  let remaining ←
    if pr.byAmountIn then do
      let inFee ← add128 r.amountIn r.feeAmount
      checkedSub .sub st.remaining inFee
    else checkedSub .sub st.remaining r.amountOut
  let cfg ← loadConfig s
  let pool ← st.pool.addFee r.feeAmount pr.xToY cfg.protocolFee
  let fee ← add128 st.fee r.feeAmount
  let pool := { pool with sqrtPrice := r.nextPrice }
  let inFee ← add128 r.amountIn r.feeAmount
  let totalIn ← add128 st.totalIn inFee
  let totalOut ← add128 st.totalOut r.amountOut
  if pool.sqrtPrice = pr.limit ∧ remaining ≠ 0 then .error .priceLimitReached
  else do
    let upd ← tickUpdOf s pr.key cl.2
    let u ← pool.updateTick r.nextPrice cl.1 upd remaining pr.byAmountIn pr.xToY pr.now cfg.protocolFee
      pr.key.tier
    let totalIn ← add128 totalIn u.total
    if reachedTickLimit pr.xToY pr.key.tier.spacing u.pool.tick then .error .tickLimitReached
    else pure { pool := u.pool, remaining := u.remaining, totalIn := totalIn, totalOut := totalOut,
                fee := fee, ticks := pushCrossed st.ticks u.upd u.crossed }

/-- The `while !remaining_amount.is_zero()` loop (`entrypoints/common.rs:85-170`). -/
def swapLoop (s : Store) (pr : SwapParams) : Nat → SwapState → M SwapState
  | 0, st => if st.remaining = 0 then .ok st else .error .outOfFuel
  | n + 1, st =>
    if st.remaining = 0 then .ok st
    else do
      let st' ← swapIter s pr st
      swapLoop s pr n st'

/-- Iterations granted to the loop; `Props` proves they are never exhausted. -/
def swapFuel : Nat := 2 ^ 100

/-- `CalculateSwapResult` (`interface.rs:13-22`). -/
structure CalcSwapResult where
  amountIn : Nat
  amountOut : Nat
  startPrice : Nat
  targetPrice : Nat
  fee : Nat
  pool : Pool
  ticks : List Tick

/-- `calculate_swap` (`entrypoints/common.rs:44-184`). -/
def calculateSwap (s : Store) (now : Nat) (k : PoolKey) (xToY : Bool) (amount : Nat) (byAmountIn : Bool)
    (limit : Nat) : M CalcSwapResult :=
  if amount = 0 then .error .amountIsZero
  else do
    let pool ← getPool s k
    if (xToY ∧ (pool.sqrtPrice ≤ limit ∨ limit > MAX_SQRT_PRICE)) ∨
       (¬ xToY ∧ (pool.sqrtPrice ≥ limit ∨ limit < MIN_SQRT_PRICE)) then .error .wrongLimit
    else if k.tier.spacing = 0 then .error .panic
    else do
      let st ← swapLoop s ⟨k, xToY, byAmountIn, limit, now⟩ swapFuel
        { pool := pool, remaining := amount, totalIn := 0, totalOut := 0, fee := 0, ticks := [] }
      if st.totalOut = 0 then .error .noGainSwap
      else pure { amountIn := st.totalIn, amountOut := st.totalOut, startPrice := pool.sqrtPrice,
                  targetPrice := st.pool.sqrtPrice, fee := st.fee, pool := st.pool, ticks := st.ticks }

end OraiV3
