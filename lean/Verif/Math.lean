import Verif.Base

/-!
# Math: decimals, tick prices, logarithm, amounts

Paths are relative to `/repo/contracts/oraiswap-v3/src`.

A decimal value is represented by its raw integer.  Scales: `Liquidity` 6, `Percentage` 12,
`TokenAmount` 0, `SqrtPrice` 24, `FeeGrowth` 28, `FixedPoint` 12
(`math/types/*.rs`, attribute `#[decimal(n)]`).
-/

namespace OraiV3

/-- `T::one()` of the decimal types (`/repo/packages/decimal-core/src/base.rs`). -/
abbrev LIQ : Nat := 10 ^ 6
abbrev PCT : Nat := 10 ^ 12
abbrev FIX : Nat := 10 ^ 12
abbrev SPR : Nat := 10 ^ 24
abbrev FGR : Nat := 10 ^ 28

/-- `math/consts.rs`. -/
abbrev MAX_TICK : Int := 221818
abbrev MAX_SQRT_PRICE : Nat := 65535383934512647000000000000
abbrev MIN_SQRT_PRICE : Nat := 15258932000000000000
abbrev TICK_SEARCH_RANGE : Int := 256

/-- `a.big_mul(b)` with `one = b's one`: `a*b/one` in 256 bits, then back to u128 or panic
(`/repo/packages/decimal-core/src/big_ops.rs:25-64`; u128×u128 cannot overflow 256 bits). -/
def bigMul (a b one : Nat) : M Nat := cast128 .panic (a * b / one)

/-- `a.big_mul_up(b)`: rounded up (`/repo/packages/decimal-core/src/big_ops.rs:25-64`). -/
def bigMulUp (a b one : Nat) : M Nat := cast128 .panic ((a * b + (one - 1)) / one)

/-- `a.big_div(b)`: `a*one/b`, panics on zero or overflow
(`/repo/packages/decimal-core/src/big_ops.rs:66-110`). -/
def bigDiv (a b one : Nat) : M Nat := if b = 0 then .error .panic else cast128 .panic (a * one / b)

/-! ## Prices of ticks -/

/-- One conditional factor `if tick & bit != 0 { sqrt_price *= FixedPoint::new(c) }` of
`math/types/sqrt_price.rs:150-203`.  `FixedPoint * FixedPoint` is `a*b/10^12` in u128; the product is
below 2^128 for every reachable pair, so the overflow panic is omitted. -/
def spFactor (tick bit c acc : Nat) : Nat := if tick / bit % 2 = 1 then acc * c / FIX else acc

/-- The accumulated product of `math/types/sqrt_price.rs:148-203` for `tick = |tick_index|`. -/
def spRaw (tick : Nat) : Nat :=
  let a := FIX
  let a := spFactor tick 0x1 1000049998750 a
  let a := spFactor tick 0x2 1000100000000 a
  let a := spFactor tick 0x4 1000200010000 a
  let a := spFactor tick 0x8 1000400060004 a
  let a := spFactor tick 0x10 1000800280056 a
  let a := spFactor tick 0x20 1001601200560 a
  let a := spFactor tick 0x40 1003204964963 a
  let a := spFactor tick 0x80 1006420201726 a
  let a := spFactor tick 0x100 1012881622442 a
  let a := spFactor tick 0x200 1025929181080 a
  let a := spFactor tick 0x400 1052530684591 a
  let a := spFactor tick 0x800 1107820842005 a
  let a := spFactor tick 0x1000 1227267017980 a
  let a := spFactor tick 0x2000 1506184333421 a
  let a := spFactor tick 0x4000 2268591246242 a
  let a := spFactor tick 0x8000 5146506242525 a
  let a := spFactor tick 0x10000 26486526504348 a
  spFactor tick 0x20000 701536086265529 a

/-- The value computed by `calculate_sqrt_price` (`math/types/sqrt_price.rs:205-215`): the product, or
its inverse `10^12 * 10^12 / product` for negative ticks, scaled from 12 to 24 decimals. -/
def sqrtPriceAt (t : Int) : Nat :=
  if 0 ≤ t then spRaw t.natAbs * 10 ^ 12 else FIX * FIX / spRaw t.natAbs * 10 ^ 12

/-- `calculate_sqrt_price`, `SqrtPrice::from_tick` (`math/types/sqrt_price.rs:14-16,140-216`).
`i32::MIN.abs()` panics instead of returning the error; the conversions at the end cannot fail. -/
def calculateSqrtPrice (t : Int) : M Nat :=
  if (t.natAbs : Int) > MAX_TICK then .error .tickOverBounds else .ok (sqrtPriceAt t)

/-- `get_max_tick` (`math/types/sqrt_price.rs:218-221`); `ts = 0` panics in the code, every caller in
the model checks it. -/
def getMaxTick (ts : Nat) : Int := MAX_TICK.tdiv ts * ts

/-- `get_min_tick` (`math/types/sqrt_price.rs:223-226`). -/
def getMinTick (ts : Nat) : Int := (-MAX_TICK).tdiv ts * ts

/-- `check_tick_to_sqrt_price_relationship` (`math/types/sqrt_price.rs:119-138`). -/
def checkTickToSqrtPrice (t : Int) (ts : Nat) (p : Nat) : M Bool :=
  if t + ts > MAX_TICK then do
    let pm ← calculateSqrtPrice (getMaxTick ts)
    pure (p = pm)
  else do
    let lo ← calculateSqrtPrice t
    let hi ← calculateSqrtPrice (t + ts)
    pure (¬ (p ≥ hi ∨ p < lo))

/-! ## Logarithm -/

/-- `sqrt_price_to_x32` (`math/log.rs:19-21`); the `as u64` truncation is modelled by the mod. -/
def sqrtPriceToX32 (p : Nat) : Nat := p * 2 ^ 32 / SPR % U64

/-- `align_tick_to_spacing` (`math/log.rs:23-28`). -/
def alignTick (t : Int) (ts : Int) : Int := if t > 0 then t - t.tmod ts else t - t % ts

/-- One step of `log2_floor_x32` (`math/log.rs:33-55`): `if x >= 1 << k { x >>= k; msb |= k }`. -/
def log2FloorStep (k : Nat) (s : Nat × Nat) : Nat × Nat :=
  if s.1 ≥ 2 ^ k then (s.1 / 2 ^ k, s.2 + k) else s

/-- `log2_floor_x32` (`math/log.rs:30-58`): position of the most significant bit of a u64.  The bits
or-ed into `msb` are distinct, so `|=` is `+`. -/
def log2Floor (x : Nat) : Nat :=
  (log2FloorStep 1 (log2FloorStep 2 (log2FloorStep 4 (log2FloorStep 8 (log2FloorStep 16
    (log2FloorStep 32 (x, 0))))))).2

/-- The `while delta > LOG2_ACCURACY` loop (`math/log.rs:74-82`): `n` iterations are left, `delta` is
halved each time.  The or-ed bits are distinct, so `|=` is `+`. -/
def log2Loop : Nat → Nat → Nat → Nat → Nat
  | 0, _, _, result => result
  | n + 1, delta, y, result =>
    let y2 := y * y / 2 ^ 32
    if y2 ≥ 2 ^ 33 then log2Loop n (delta / 2) (y2 / 2) (result + delta)
    else log2Loop n (delta / 2) y2 result

/-- `log2_iterative_approximation_x32` (`math/log.rs:60-84`); `delta` runs from `2^31` down to `2^17`
(the loop stops at `LOG2_ACCURACY = 2^16`), i.e. 15 iterations. -/
def log2Approx (x : Nat) : Bool × Nat :=
  let sign := decide (x ≥ 2 ^ 32)
  let x := if x < 2 ^ 32 then 2 ^ 64 / (x + 1) else x
  let fl := log2Floor (x / 2 ^ 32)
  let y := x / 2 ^ fl
  if y = 2 ^ 32 then (sign, fl * 2 ^ 32) else (sign, log2Loop 15 (2 ^ 31) y (fl * 2 ^ 32))

/-- `get_tick_at_sqrt_price` (`math/log.rs:86-136`). -/
def getTickAtSqrtPrice (p : Nat) (ts : Nat) : M Int :=
  if p > MAX_SQRT_PRICE ∨ p < MIN_SQRT_PRICE then .error .sqrtPriceOutOfRange
  else if ts = 0 then .error .panic
  else
    let lg := log2Approx (sqrtPriceToX32 p)
    let a : Int := if lg.1 then (lg.2 / 309801 : Nat) else ((lg.2 + 300000) / 309801 : Nat)
    let nearer : Int := if lg.1 then a else -a
    let farther : Int := if lg.1 then a + 1 else -a - 1
    let fartherS := alignTick farther ts
    let nearerS := alignTick nearer ts
    if fartherS = nearerS then .ok nearerS
    else do
      let accurate ←
        if lg.1 then do
          let fp ← calculateSqrtPrice farther
          pure (if p ≥ fp then fartherS else nearerS)
        else do
          let np ← calculateSqrtPrice nearer
          pure (if np ≤ p then nearerS else fartherS)
      pure (if ts > 1 then alignTick accurate ts else accurate)

/-! ## Token amounts -/

/-- `SqrtPrice::big_div_values_to_token` (`math/types/sqrt_price.rs:18-38`); `nominator * 10^24` fits
320 bits for a 256-bit nominator below `2^240`, which `get_delta_x` guarantees. -/
def divToToken (nom den : Nat) : M Nat :=
  if den = 0 then .error .div
  else
    let q := nom * SPR / den
    if q ≥ U256 then .error .u320ToU256 else cast128 .cast (q / SPR)

/-- `SqrtPrice::big_div_values_to_token_up` (`math/types/sqrt_price.rs:40-64`); `denominator - 1`
panics when the denominator is zero. -/
def divToTokenUp (nom den : Nat) : M Nat :=
  if den = 0 then .error .panic
  else
    let q := (nom * SPR + (den - 1)) / den
    if q ≥ U256 then .error .u320ToU256
    else if q + (SPR - 1) ≥ U256 then .error .add
    else cast128 .cast ((q + (SPR - 1)) / SPR)

/-- Absolute difference, `math/clamm.rs:114-118,139-143`. -/
def absDiff (a b : Nat) : Nat := if a > b then a - b else b - a

/-- `get_delta_x` (`math/clamm.rs:108-131`); `big_mul_to_value(_up)` from
`/repo/packages/decimal-core/src/by_number.rs:66+`. -/
def getDeltaX (a b L : Nat) (up : Bool) : M Nat :=
  let nom := absDiff a b * L / LIQ
  if up then divToTokenUp nom (a * b / SPR)
  else divToToken nom ((a * b + (SPR - 1)) / SPR)

/-- `get_delta_y` (`math/clamm.rs:133-161`); the 256-bit additions cannot overflow. -/
def getDeltaY (a b L : Nat) (up : Bool) : M Nat :=
  if up then cast128 .cast (((absDiff a b * L + (LIQ - 1)) / LIQ + (SPR - 1)) / SPR)
  else cast128 .cast (absDiff a b * L / LIQ / SPR)

/-- `SqrtPrice::checked_big_div_values` (`math/types/sqrt_price.rs:80-93`). -/
def checkedBigDiv (nom den : Nat) : M Nat :=
  if nom * SPR ≥ U256 then .error .mul
  else if den = 0 then .error .div
  else cast128 .cast (nom * SPR / den)

/-- `SqrtPrice::checked_big_div_values_up` (`math/types/sqrt_price.rs:95-116`); the 320-bit product
cannot overflow for the nominators used. -/
def checkedBigDivUp (nom den : Nat) : M Nat :=
  if den = 0 then .error .sub
  else cast128 .cast ((nom * SPR + (den - 1)) / den)

/-- `get_next_sqrt_price_x_up` (`math/clamm.rs:193-215`). -/
def nextSqrtPriceXUp (p L x : Nat) (addX : Bool) : M Nat :=
  if x = 0 then .ok p
  else
    let pd := L * 10 ^ 18
    if addX then
      if pd + p * x ≥ U256 then .error .bigLiquidityOverflow
      else checkedBigDivUp ((p * L + (LIQ - 1)) / LIQ) (pd + p * x)
    else
      if pd < p * x then .error .bigLiquidityOverflow
      else checkedBigDivUp ((p * L + (LIQ - 1)) / LIQ) (pd - p * x)

/-- `get_next_sqrt_price_y_down` (`math/clamm.rs:217-239`). -/
def nextSqrtPriceYDown (p L y : Nat) (addY : Bool) : M Nat :=
  let nom := y * SPR
  let den := L * 10 ^ 18
  if addY then do
    let q ← checkedBigDiv nom den
    checkedAdd .add p q
  else do
    let q ← checkedBigDivUp nom den
    checkedSub .sub p q

/-- `get_next_sqrt_price_from_input` (`math/clamm.rs:163-176`). -/
def nextSqrtPriceFromInput (p L amount : Nat) (xToY : Bool) : M Nat :=
  if xToY then nextSqrtPriceXUp p L amount true else nextSqrtPriceYDown p L amount true

/-- `get_next_sqrt_price_from_output` (`math/clamm.rs:178-191`). -/
def nextSqrtPriceFromOutput (p L amount : Nat) (xToY : Bool) : M Nat :=
  if xToY then nextSqrtPriceYDown p L amount false else nextSqrtPriceXUp p L amount false

/-- `SwapResult` (`math/clamm.rs:8-14`). -/
structure SwapResult where
  nextPrice : Nat
  amountIn : Nat
  amountOut : Nat
  feeAmount : Nat
  deriving DecidableEq, Repr

/-- `amount.big_mul(Percentage::from_integer(1) - fee)` (`math/clamm.rs:38,302`). -/
def amountAfterFee (amount fee : Nat) : M Nat := do
  let f ← subP PCT fee
  bigMul amount f PCT

/-- First half of `compute_swap_step` (`math/clamm.rs:37-69`): the price reached, and the amount
computed on the way (input when `byAmountIn`, output otherwise). -/
def stepNextPrice (cur target L amount : Nat) (byAmountIn : Bool) (fee : Nat) (xToY : Bool) :
    M (Nat × Nat) :=
  if byAmountIn then do
    let aaf ← amountAfterFee amount fee
    let amountIn ← if xToY then getDeltaX target cur L true else getDeltaY cur target L true
    if aaf ≥ amountIn then pure (target, amountIn)
    else do
      let np ← nextSqrtPriceFromInput cur L aaf xToY
      pure (np, amountIn)
  else do
    let amountOut ← if xToY then getDeltaY target cur L false else getDeltaX cur target L false
    if amount ≥ amountOut then pure (target, amountOut)
    else do
      let np ← nextSqrtPriceFromOutput cur L amount xToY
      pure (np, amountOut)

/-- The input amount of `compute_swap_step` (`math/clamm.rs:71-87`): recomputed unless the target was
reached with the amount already known. -/
def stepAmountIn (cur next L pre : Nat) (recompute xToY : Bool) : M Nat :=
  if recompute then (if xToY then getDeltaX next cur L true else getDeltaY cur next L true) else pure pre

/-- The output amount of `compute_swap_step` (`math/clamm.rs:71-87`). -/
def stepAmountOut (cur next L pre : Nat) (recompute xToY : Bool) : M Nat :=
  if recompute then (if xToY then getDeltaY next cur L false else getDeltaX cur next L false) else pure pre

/-- `compute_swap_step` (`math/clamm.rs:16-106`). -/
def computeSwapStep (cur target L amount : Nat) (byAmountIn : Bool) (fee : Nat) : M SwapResult :=
  if L = 0 then .ok ⟨target, 0, 0, 0⟩
  else do
    let xToY := decide (cur ≥ target)
    let np ← stepNextPrice cur target L amount byAmountIn fee xToY
    let notMax := decide (target ≠ np.1)
    let amountIn ← stepAmountIn cur np.1 L np.2 (notMax || !byAmountIn) xToY
    let amountOut ← stepAmountOut cur np.1 L np.2 (notMax || byAmountIn) xToY
    let feeAmount ← if byAmountIn && notMax then subP amount amountIn else bigMulUp amountIn fee PCT
    pure ⟨np.1, amountIn,
      if !byAmountIn && decide (amountOut > amount) then amount else amountOut, feeAmount⟩

/-- `is_enough_amount_to_change_price` (`math/clamm.rs:289-309`). -/
def isEnoughAmountToChangePrice (amount p L fee : Nat) (byAmountIn xToY : Bool) : M Bool :=
  if L = 0 then .ok true
  else do
    let next ←
      if byAmountIn then do
        let aaf ← amountAfterFee amount fee
        nextSqrtPriceFromInput p L aaf xToY
      else nextSqrtPriceFromOutput p L amount xToY
    pure (decide (p ≠ next))

/-- `calculate_amount_delta` (`math/clamm.rs:241-287`). -/
def calculateAmountDelta (curTick : Int) (curPrice L : Nat) (sign : Bool) (upper lower : Int) :
    M (Nat × Nat × Bool) :=
  if upper < lower then .error .upperTickNotGreater
  else if curTick < lower then do
    let pl ← calculateSqrtPrice lower
    let pu ← calculateSqrtPrice upper
    let x ← getDeltaX pl pu L sign
    pure (x, 0, false)
  else if curTick < upper then do
    let pu ← calculateSqrtPrice upper
    let x ← getDeltaX curPrice pu L sign
    let pl ← calculateSqrtPrice lower
    let y ← getDeltaY pl curPrice L sign
    pure (x, y, true)
  else do
    let pl ← calculateSqrtPrice lower
    let pu ← calculateSqrtPrice upper
    let y ← getDeltaY pl pu L sign
    pure (0, y, false)

/-- `calculate_max_liquidity_per_tick` (`math/clamm.rs:311-315`). -/
def maxLiquidityPerTick (ts : Nat) : Nat := (U128 - 1) / ((2 * 221818 + 1) / ts)

/-- `check_tick` (`math/clamm.rs:331-343`); division by a zero spacing panics. -/
def checkTick (t : Int) (ts : Nat) : M Unit :=
  if ts = 0 then .error .panic
  else if t.tmod ts ≠ 0 then .error .invalidTickSpacing
  else if t > getMaxTick ts ∨ t < getMinTick ts then .error .invalidTickIndex
  else .ok ()

/-- `calculate_min_amount_out` (`math/clamm.rs:345-350`); the subtraction panics for a slippage above
100%. -/
def calculateMinAmountOut (expected slippage : Nat) : M Nat := do
  let f ← subP PCT slippage
  bigMulUp expected f PCT

/-! ## Fee growth -/

/-- `FeeGrowth::from_fee` (`math/types/fee_growth.rs:22-34`); the 256-bit products cannot overflow. -/
def feeGrowthFromFee (L fee : Nat) : M Nat :=
  if L = 0 then .error .div else cast128 .cast (fee * FGR * LIQ / L)

/-- `FeeGrowth::to_fee` (`math/types/fee_growth.rs:36-46`). -/
def feeGrowthToFee (g L : Nat) : M Nat := cast128 .cast (g * L / 10 ^ 34)

/-- `calculate_fee_growth_inside` (`math/types/fee_growth.rs:50-98`) for one of the two tokens. -/
def feeGrowthInside (lower : Int) (lowerOut : Nat) (upper : Int) (upperOut : Nat) (cur : Int)
    (global : Nat) : Nat :=
  let below := if cur ≥ lower then lowerOut else wsub global lowerOut
  let above := if cur < upper then upperOut else wsub global upperOut
  wsub (wsub global below) above

end OraiV3
