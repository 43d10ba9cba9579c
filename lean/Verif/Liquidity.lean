import Verif.Math

/-!
# Liquidity: client helpers turning token amounts into liquidity

Models `/repo/contracts/oraiswap-v3/src/logic/math.rs`; the copy in `/repo/wasm/math.rs` has the same
arithmetic.
-/

namespace OraiV3

/-- `LiquidityResult`/`SingleTokenLiquidity` (`logic/math.rs:9-20`): the liquidity and the amount of
the other token. -/
structure SingleLiq where
  l : Nat
  amount : Nat
  deriving DecidableEq, Repr

/-- `a.big_mul(b).big_div(SqrtPrice::from_integer(1))` (`logic/math.rs:131-132,148-150,230-231`). -/
def priceProduct (a b : Nat) : M Nat := do
  let m ← bigMul a b SPR
  bigDiv m SPR SPR

/-- `calculate_x` (`logic/math.rs:243-265`). -/
def calcX (nom den L : Nat) (up : Bool) : M Nat := do
  let m ← bigMul L nom SPR
  let common ← bigDiv m den SPR
  if up then cast128 .overflowCastingTokenAmount ((common + LIQ - 1) / LIQ)
  else cast128 .overflowCastingTokenAmount (common / LIQ)

/-- `calculate_y` (`logic/math.rs:267-289`). -/
def calcY (diff L : Nat) (up : Bool) : M Nat :=
  if up then cast128 .overflowCastingTokenAmount ((diff * (L / LIQ) + (SPR - 1)) / SPR)
  else cast128 .overflowCastingTokenAmount (diff * (L / LIQ) / SPR)

/-- `x * nominator * 10^6 / denominator` of `get_liquidity_by_x_sqrt_price`
(`logic/math.rs:134-141,152-159`): the U256 product panics on overflow, so does division by zero. -/
def liqFromX (x nom den : Nat) : M Nat :=
  if x * nom * LIQ ≥ U256 ∨ den = 0 then .error .panic
  else cast128 .overflowInCalculatingLiquidity (x * nom * LIQ / den)

/-- `y * 10^24 * 10^6 / diff` of `get_liquidity_by_y_sqrt_price` (`logic/math.rs:207-214,222-229`). -/
def liqFromY (y diff : Nat) : M Nat :=
  if diff = 0 then .error .panic
  else cast128 .overflowInCalculatingLiquidity (y * SPR * LIQ / diff)

/-- `get_liquidity_by_x_sqrt_price` (`logic/math.rs:119-167`). -/
def liquidityByXPrice (x lo hi cur : Nat) (up : Bool) : M SingleLiq :=
  if hi < cur then .error .upperSqrtPriceLess
  else if cur < lo then do
    let nom ← priceProduct lo hi
    let den ← subP hi lo
    let l ← liqFromX x nom den
    pure ⟨l, 0⟩
  else do
    let nom ← priceProduct cur hi
    let den ← subP hi cur
    let l ← liqFromX x nom den
    let diff ← subP cur lo
    let y ← calcY diff l up
    pure ⟨l, y⟩

/-- `get_liquidity_by_y_sqrt_price` (`logic/math.rs:194-240`). -/
def liquidityByYPrice (y lo hi cur : Nat) (up : Bool) : M SingleLiq :=
  if cur < lo then .error .currentSqrtPriceLess
  else if hi ≤ cur then do
    let diff ← subP hi lo
    let l ← liqFromY y diff
    pure ⟨l, 0⟩
  else do
    let diff ← subP cur lo
    let l ← liqFromY y diff
    let den ← priceProduct cur hi
    let nom ← subP hi cur
    let x ← calcX nom den l up
    pure ⟨l, x⟩

/-- `get_liquidity_by_x` (`logic/math.rs:97-118`). -/
def liquidityByX (x : Nat) (lower upper : Int) (cur : Nat) (up : Bool) : M SingleLiq :=
  if lower < -MAX_TICK ∨ upper > MAX_TICK then .error .invalidTick
  else do
    let lo ← calculateSqrtPrice lower
    let hi ← calculateSqrtPrice upper
    liquidityByXPrice x lo hi cur up

/-- `get_liquidity_by_y` (`logic/math.rs:170-191`). -/
def liquidityByY (y : Nat) (lower upper : Int) (cur : Nat) (up : Bool) : M SingleLiq :=
  if lower < -MAX_TICK ∨ upper > MAX_TICK then .error .invalidTick
  else do
    let lo ← calculateSqrtPrice lower
    let hi ← calculateSqrtPrice upper
    liquidityByYPrice y lo hi cur up

/-- `LiquidityResult` (`logic/math.rs:9-14`). -/
structure LiqResult where
  x : Nat
  y : Nat
  l : Nat
  deriving DecidableEq, Repr

/-- `get_liquidity` (`logic/math.rs:23-94`). -/
def getLiquidity (x y : Nat) (lower upper : Int) (cur : Nat) (up : Bool) : M LiqResult :=
  if lower < -MAX_TICK ∨ upper > MAX_TICK then .error .invalidTick
  else do
    let lo ← calculateSqrtPrice lower
    let hi ← calculateSqrtPrice upper
    if hi < cur then do
      let r ← liquidityByYPrice y lo hi cur up
      pure ⟨r.amount, y, r.l⟩
    else if cur < lo then do
      let r ← liquidityByXPrice x lo hi cur up
      pure ⟨x, r.amount, r.l⟩
    else do
      let ry ← liquidityByYPrice y lo hi cur up
      let rx ← liquidityByXPrice x lo hi cur up
      pure ⟨ry.amount, rx.amount, if ry.l < rx.l then ry.l else rx.l⟩

end OraiV3
