import Verif.Math

/-!
# The decimal library and the fixed-width arithmetic, literally

`Math.lean` writes the arithmetic with unbounded integers and leaves out overflow checks that cannot fail.  This file
transcribes the same code literally: every operation names the integer type it is carried out in, and
fails where the code fails.  `Props/Literal.lean` proves that both agree.

Paths are relative to `/repo/packages/decimal-core/src` for `Dec.*` and to `/repo/contracts/oraiswap-v3/src` for `Lit.*`.
-/

namespace OraiV3

/-! ## Unsigned integers -/

/-- `checked_add` of an unsigned type with `W` values (Rust integers and the `uint` crate's `U256`, `U320`). -/
def uAdd (W a b : Nat) : Option Nat := if a + b < W then some (a + b) else none
/-- `checked_sub`. -/
def uSub (a b : Nat) : Option Nat := if b ≤ a then some (a - b) else none
/-- `checked_mul`. -/
def uMul (W a b : Nat) : Option Nat := if a * b < W then some (a * b) else none
/-- `checked_div`. -/
def uDiv (a b : Nat) : Option Nat := if b = 0 then none else some (a / b)
/-- `try_from`, `try_into` a type with `W` values. -/
def uCast (W a : Nat) : Option Nat := if a < W then some a else none

/-- `unwrap()`, `unwrap_or_else(|| panic!(..))`. -/
def orPanic {α : Type} : Option α → M α
  | some x => .ok x
  | none => .error .panic
/-- `ok_or(e)?`, `map_err(|_| e)?`. -/
def orErr {α : Type} (e : Err) : Option α → M α
  | some x => .ok x
  | none => .error e

/-! ## Decimal types -/

/-- A decimal type: its scale, the number of values of the underlying type and of the type for intermediate results
(`DecimalCharacteristics`, `structs.rs`). -/
structure DecTy where
  scale : Nat
  under : Nat
  big : Nat

/-- `#[decimal(24)] SqrtPrice(u128)`; without a second argument the big type is `U256` (`lib.rs:29-33`). -/
def SQRT_PRICE : DecTy := ⟨24, U128, U256⟩
/-- `#[decimal(6)] Liquidity(u128)`. -/
def LIQUIDITY : DecTy := ⟨6, U128, U256⟩
/-- `#[decimal(28)] FeeGrowth(u128)`. -/
def FEE_GROWTH : DecTy := ⟨28, U128, U256⟩
/-- `#[decimal(0)] TokenAmount(u128)`. -/
def TOKEN_AMOUNT : DecTy := ⟨0, U128, U256⟩
/-- `#[decimal(12)] FixedPoint(u128)`. -/
def FIXED_POINT : DecTy := ⟨12, U128, U256⟩
/-- `#[decimal(12)] Percentage(u64)`. -/
def PERCENTAGE : DecTy := ⟨12, U64, U256⟩

namespace Dec

/-- `T::one::<W>()` (`base.rs:45-50`). -/
def one (T : DecTy) (W : Nat) : M Nat := orPanic (uCast W (10 ^ T.scale))
/-- `T::almost_one::<W>()` (`base.rs:59-64`). -/
def almostOne (T : DecTy) (W : Nat) : M Nat := orPanic (uCast W (10 ^ T.scale - 1))

/-- `add` (`ops.rs:19-27`). -/
def add (S : DecTy) (a b : Nat) : M Nat := orPanic (uAdd S.under a b)
/-- `sub` (`ops.rs:29-38`). -/
def sub (a b : Nat) : M Nat := orPanic (uSub a b)

/-- `mul` (`ops.rs:40-59`). -/
def mul (S T : DecTy) (a b : Nat) : M Nat := do
  let b ← orPanic (uCast S.under b)
  let p ← orPanic (uMul S.under a b)
  let o ← one T S.under
  orPanic (uDiv p o)

/-- `div` (`ops.rs:61-80`). -/
def div (S T : DecTy) (a b : Nat) : M Nat := do
  let o ← one T S.under
  let p ← orPanic (uMul S.under a o)
  let b ← orPanic (uCast S.under b)
  orPanic (uDiv p b)

/-- `mul_up` (`others.rs:24-39`). -/
def mulUp (S T : DecTy) (a b : Nat) : M Nat := do
  let b ← orPanic (uCast S.under b)
  let p ← orPanic (uMul S.under a b)
  let r ← almostOne T S.under
  let p ← orPanic (uAdd S.under p r)
  let o ← one T S.under
  orPanic (uDiv p o)

/-- `div_up` (`others.rs:42-63`). -/
def divUp (S T : DecTy) (a b : Nat) : M Nat := do
  let o ← one T S.under
  let p ← orPanic (uMul S.under a o)
  let b ← orPanic (uCast S.under b)
  let r ← orPanic (uSub b 1)
  let p ← orPanic (uAdd S.under p r)
  orPanic (uDiv p b)

/-- `checked_div` (`checked_ops.rs:29-37`); `e` is the error the caller maps the message to. -/
def checkedDiv (S : DecTy) (e : Err) (a b : Nat) : M Nat := do
  let o ← one S S.under
  let p ← orErr e (uMul S.under a o)
  orErr e (uDiv p b)

/-- `big_mul` (`big_ops.rs:25-42`). -/
def bigMul (S T : DecTy) (a b : Nat) : M Nat := do
  let a ← orPanic (uCast S.big a)
  let b ← orPanic (uCast S.big b)
  let p ← orPanic (uMul S.big a b)
  let o ← one T S.big
  let q ← orPanic (uDiv p o)
  orPanic (uCast S.under q)

/-- `big_mul_up` (`big_ops.rs:44-62`). -/
def bigMulUp (S T : DecTy) (a b : Nat) : M Nat := do
  let a ← orPanic (uCast S.big a)
  let b ← orPanic (uCast S.big b)
  let p ← orPanic (uMul S.big a b)
  let r ← almostOne T S.big
  let p ← orPanic (uAdd S.big p r)
  let o ← one T S.big
  let q ← orPanic (uDiv p o)
  orPanic (uCast S.under q)

/-- `big_div` (`big_ops.rs:64-81`). -/
def bigDiv (S T : DecTy) (a b : Nat) : M Nat := do
  let a ← orPanic (uCast S.big a)
  let o ← one T S.big
  let p ← orPanic (uMul S.big a o)
  let b ← orPanic (uCast S.big b)
  let q ← orPanic (uDiv p b)
  orPanic (uCast S.under q)

/-- `big_div_up` (`big_ops.rs:103-126`). -/
def bigDivUp (S T : DecTy) (a b : Nat) : M Nat := do
  let a ← orPanic (uCast S.big a)
  let o ← one T S.big
  let p ← orPanic (uMul S.big a o)
  let b ← orPanic (uCast S.big b)
  let r ← orPanic (uSub b 1)
  let p ← orPanic (uAdd S.big p r)
  let q ← orPanic (uDiv p b)
  orPanic (uCast S.under q)

/-- `big_mul_to_value` (`by_number.rs:67-76`): the result stays in the big type. -/
def bigMulToValue (S T : DecTy) (a b : Nat) : M Nat := do
  let a ← orPanic (uCast S.big a)
  let b ← orPanic (uCast S.big b)
  let p ← orPanic (uMul S.big a b)
  let o ← one T S.big
  orPanic (uDiv p o)

/-- `big_mul_to_value_up` (`by_number.rs:79-89`). -/
def bigMulToValueUp (S T : DecTy) (a b : Nat) : M Nat := do
  let a ← orPanic (uCast S.big a)
  let b ← orPanic (uCast S.big b)
  let p ← orPanic (uMul S.big a b)
  let r ← almostOne T S.big
  let p ← orPanic (uAdd S.big p r)
  let o ← one T S.big
  orPanic (uDiv p o)

/-- `big_div_by_number` (`by_number.rs:18-26`); `n` is a number of the big type. -/
def bigDivByNumber (S : DecTy) (a n : Nat) : M Nat := do
  let a ← orPanic (uCast S.big a)
  let o ← one S S.big
  let p ← orPanic (uMul S.big a o)
  let q ← orPanic (uDiv p n)
  orPanic (uCast S.under q)

/-- `big_div_by_number_up` (`by_number.rs:37-48`). -/
def bigDivByNumberUp (S : DecTy) (a n : Nat) : M Nat := do
  let a ← orPanic (uCast S.big a)
  let o ← one S S.big
  let p ← orPanic (uMul S.big a o)
  let r ← orPanic (uSub n 1)
  let p ← orPanic (uAdd S.big p r)
  let q ← orPanic (uDiv p n)
  orPanic (uCast S.under q)

/-- `from_integer` (`factories.rs:32-40`). -/
def fromInteger (S : DecTy) (n : Nat) : M Nat := do
  let n ← orPanic (uCast S.under n)
  let o ← one S S.under
  orPanic (uMul S.under n o)

/-- `from_decimal`, `from_scale` (`factories.rs:42-55,93-96`).  The powers are computed as `u128`. -/
def fromDecimal (S T : DecTy) (a : Nat) : M Nat :=
  if S.scale > T.scale then do
    let a ← orPanic (uCast S.under a)
    let m ← orPanic (uCast U128 (10 ^ (S.scale - T.scale)))
    let m ← orPanic (uCast S.under m)
    orPanic (uMul S.under a m)
  else do
    let d ← orPanic (uCast U128 (10 ^ (T.scale - S.scale)))
    let d ← orPanic (uCast T.under d)
    let q ← orPanic (uDiv a d)
    orPanic (uCast S.under q)

/-- `checked_from_decimal`, `checked_from_scale` (`factories.rs:57-72,98-100`): the same with an error for every failure. -/
def checkedFromDecimal (S T : DecTy) (e : Err) (a : Nat) : M Nat :=
  if S.scale > T.scale then do
    let a ← orErr e (uCast S.under a)
    let m ← orErr e (uCast U128 (10 ^ (S.scale - T.scale)))
    let m ← orErr e (uCast S.under m)
    orErr e (uMul S.under a m)
  else do
    let d ← orErr e (uCast U128 (10 ^ (T.scale - S.scale)))
    let d ← orErr e (uCast T.under d)
    let q ← orErr e (uDiv a d)
    orErr e (uCast S.under q)

/-- `from_decimal_up`, `from_scale_up` (`factories.rs:74-94,102-104`). -/
def fromDecimalUp (S T : DecTy) (a : Nat) : M Nat :=
  if S.scale > T.scale then do
    let a ← orPanic (uCast S.under a)
    let m ← orPanic (uCast U128 (10 ^ (S.scale - T.scale)))
    let m ← orPanic (uCast S.under m)
    orPanic (uMul S.under a m)
  else do
    let d ← orPanic (uCast U128 (10 ^ (T.scale - S.scale)))
    let d ← orPanic (uCast T.under d)
    let r ← orPanic (uSub d 1)
    let p ← orPanic (uAdd T.under a r)
    let q ← orPanic (uDiv p d)
    orPanic (uCast S.under q)

/-- `checked_from_decimal_to_value`, `checked_from_scale_to_value` (`factories.rs:107-145`). -/
def checkedFromDecimalToValue (S T : DecTy) (e : Err) (a : Nat) : M Nat :=
  if S.scale > T.scale then do
    let a ← orErr e (uCast S.under a)
    let a ← orErr e (uCast S.big a)
    let m ← orErr e (uCast U128 (10 ^ (S.scale - T.scale)))
    let m ← orErr e (uCast S.big m)
    orErr e (uMul S.big a m)
  else do
    let d ← orErr e (uCast U128 (10 ^ (T.scale - S.scale)))
    let a ← orErr e (uCast S.under a)
    let a ← orErr e (uCast S.big a)
    let d ← orErr e (uCast S.big d)
    let q ← orErr e (uDiv a d)
    orErr e (uCast S.big q)

end Dec

namespace Lit

/-! ## `math/types/sqrt_price.rs`, `math/types/fee_growth.rs` -/

/-- `checked_u320_to_u256` (`/repo/packages/decimal/src/uint.rs:20-31`): the four low words if the fifth is zero. -/
def u320ToU256 (n : Nat) : Option Nat :=
  if n / 2 ^ 256 ≠ 0 then none
  else some (n % 2 ^ 64 + n / 2 ^ 64 % 2 ^ 64 * 2 ^ 64 + n / 2 ^ 128 % 2 ^ 64 * 2 ^ 128 + n / 2 ^ 192 % 2 ^ 64 * 2 ^ 192)

/-- `u256_to_u320` (`/repo/packages/decimal/src/uint.rs:44-53`). -/
def u256ToU320 (n : Nat) : Nat :=
  n % 2 ^ 64 + n / 2 ^ 64 % 2 ^ 64 * 2 ^ 64 + n / 2 ^ 128 % 2 ^ 64 * 2 ^ 128 + n / 2 ^ 192 % 2 ^ 64 * 2 ^ 192

/-- `big_div_values_to_token` (`math/types/sqrt_price.rs:18-38`). -/
def divToToken (nom den : Nat) : M Nat := do
  let nom := u256ToU320 nom
  let den := u256ToU320 den
  let o ← Dec.one SQRT_PRICE U320
  let p ← orErr .mul (uMul U320 nom o)
  let q ← orErr .div (uDiv p den)
  let q ← orErr .u320ToU256 (u320ToU256 q)
  let o ← Dec.one SQRT_PRICE U256
  let r ← orErr .div (uDiv q o)
  orErr .cast (uCast U128 r)

/-- `big_div_values_to_token_up` (`math/types/sqrt_price.rs:40-64`). -/
def divToTokenUp (nom den : Nat) : M Nat := do
  let nom := u256ToU320 nom
  let den := u256ToU320 den
  let o ← Dec.one SQRT_PRICE U320
  let p ← orErr .mul (uMul U320 nom o)
  let d1 ← orPanic (uSub den 1)
  let p ← orErr .add (uAdd U320 p d1)
  let q ← orErr .div (uDiv p den)
  let q ← orErr .u320ToU256 (u320ToU256 q)
  let r ← Dec.almostOne SQRT_PRICE U256
  let q ← orErr .add (uAdd U256 q r)
  let o ← Dec.one SQRT_PRICE U256
  let r ← orErr .div (uDiv q o)
  orErr .cast (uCast U128 r)

/-- `checked_big_div_values` (`math/types/sqrt_price.rs:80-93`). -/
def checkedBigDiv (nom den : Nat) : M Nat := do
  let o ← Dec.one SQRT_PRICE U256
  let p ← orErr .mul (uMul U256 nom o)
  let q ← orErr .div (uDiv p den)
  orErr .cast (uCast U128 q)

/-- `checked_big_div_values_up` (`math/types/sqrt_price.rs:95-116`). -/
def checkedBigDivUp (nom den : Nat) : M Nat := do
  let den := u256ToU320 den
  let o ← Dec.one SQRT_PRICE U320
  let p ← orErr .mul (uMul U320 (u256ToU320 nom) o)
  let d1 ← orErr .sub (uSub den 1)
  let p ← orErr .add (uAdd U320 p d1)
  let q ← orErr .div (uDiv p den)
  orErr .cast (uCast U128 q)

/-- `if tick & bit != 0 { sqrt_price *= FixedPoint::new(c) }` (`math/types/sqrt_price.rs:150-203`). -/
def factor (tick bit c acc : Nat) : M Nat :=
  if tick &&& bit ≠ 0 then Dec.mul FIXED_POINT FIXED_POINT acc c else pure acc

/-- `calculate_sqrt_price` (`math/types/sqrt_price.rs:140-216`) for an `i32`; `abs` panics for the least one. -/
def calculateSqrtPrice (t : Int) : M Nat := do
  if t = -2 ^ 31 then .error .panic
  let tick := t.natAbs
  if (tick : Int) > MAX_TICK then .error .tickOverBounds
  let a ← Dec.fromInteger FIXED_POINT 1
  let a ← factor tick 0x1 1000049998750 a
  let a ← factor tick 0x2 1000100000000 a
  let a ← factor tick 0x4 1000200010000 a
  let a ← factor tick 0x8 1000400060004 a
  let a ← factor tick 0x10 1000800280056 a
  let a ← factor tick 0x20 1001601200560 a
  let a ← factor tick 0x40 1003204964963 a
  let a ← factor tick 0x80 1006420201726 a
  let a ← factor tick 0x100 1012881622442 a
  let a ← factor tick 0x200 1025929181080 a
  let a ← factor tick 0x400 1052530684591 a
  let a ← factor tick 0x800 1107820842005 a
  let a ← factor tick 0x1000 1227267017980 a
  let a ← factor tick 0x2000 1506184333421 a
  let a ← factor tick 0x4000 2268591246242 a
  let a ← factor tick 0x8000 5146506242525 a
  let a ← factor tick 0x10000 26486526504348 a
  let a ← factor tick 0x20000 701536086265529 a
  if 0 ≤ t then Dec.checkedFromDecimal SQRT_PRICE FIXED_POINT .std a
  else do
    let i ← Dec.fromInteger FIXED_POINT 1
    let q ← Dec.checkedDiv FIXED_POINT .std i a
    Dec.checkedFromDecimal SQRT_PRICE FIXED_POINT .std q

/-- `FeeGrowth::from_fee` (`math/types/fee_growth.rs:22-34`). -/
def feeGrowthFromFee (L fee : Nat) : M Nat := do
  let o ← Dec.one FEE_GROWTH U256
  let p ← orErr .mul (uMul U256 fee o)
  let l ← Dec.one LIQUIDITY U256
  let p ← orErr .mul (uMul U256 p l)
  let d ← orPanic (uCast U256 L)
  let q ← orErr .div (uDiv p d)
  orErr .cast (uCast U128 q)

/-- `FeeGrowth::to_fee` (`math/types/fee_growth.rs:36-46`). -/
def feeGrowthToFee (g L : Nat) : M Nat := do
  let l ← orPanic (uCast U256 L)
  let p ← orErr .mul (uMul U256 g l)
  let d ← orPanic (uCast U256 (10 ^ (FEE_GROWTH.scale + LIQUIDITY.scale)))
  let q ← orErr .mul (uDiv p d)
  orErr .cast (uCast U128 q)

/-! ## `math/clamm.rs` -/

/-- `if a > b { a - b } else { b - a }` (`math/clamm.rs:114-118,139-143`). -/
def delta (a b : Nat) : M Nat := if a > b then Dec.sub a b else Dec.sub b a

/-- `get_delta_x` (`math/clamm.rs:108-131`). -/
def getDeltaX (a b L : Nat) (up : Bool) : M Nat := do
  let d ← delta a b
  let nom ← Dec.bigMulToValue SQRT_PRICE LIQUIDITY d L
  if up then do
    let den ← Dec.bigMulToValue SQRT_PRICE SQRT_PRICE a b
    divToTokenUp nom den
  else do
    let den ← Dec.bigMulToValueUp SQRT_PRICE SQRT_PRICE a b
    divToToken nom den

/-- `get_delta_y` (`math/clamm.rs:133-161`). -/
def getDeltaY (a b L : Nat) (up : Bool) : M Nat := do
  let d ← delta a b
  if up then do
    let v ← Dec.bigMulToValueUp SQRT_PRICE LIQUIDITY d L
    let r ← Dec.almostOne SQRT_PRICE U256
    let v ← orErr .add (uAdd U256 v r)
    let o ← Dec.one SQRT_PRICE U256
    let v ← orErr .div (uDiv v o)
    orErr .cast (uCast U128 v)
  else do
    let v ← Dec.bigMulToValue SQRT_PRICE LIQUIDITY d L
    let o ← Dec.one SQRT_PRICE U256
    let v ← orErr .div (uDiv v o)
    orErr .cast (uCast U128 v)

/-- `get_next_sqrt_price_x_up` (`math/clamm.rs:193-215`). -/
def nextSqrtPriceXUp (p L x : Nat) (addX : Bool) : M Nat :=
  if x = 0 then .ok p
  else do
    let pd ← Dec.checkedFromDecimalToValue SQRT_PRICE LIQUIDITY .extendLiquidityOverflow L
    let m ← Dec.bigMulToValue SQRT_PRICE TOKEN_AMOUNT p x
    let den ← orErr .bigLiquidityOverflow (if addX then uAdd U256 pd m else uSub pd m)
    let nom ← Dec.bigMulToValueUp SQRT_PRICE LIQUIDITY p L
    checkedBigDivUp nom den

/-- `get_next_sqrt_price_y_down` (`math/clamm.rs:217-239`). -/
def nextSqrtPriceYDown (p L y : Nat) (addY : Bool) : M Nat := do
  let nom ← Dec.checkedFromDecimalToValue SQRT_PRICE TOKEN_AMOUNT .panic y
  let den ← Dec.checkedFromDecimalToValue SQRT_PRICE LIQUIDITY .extendLiquidityOverflow L
  if addY then do
    let q ← checkedBigDiv nom den
    orErr .add (uAdd U128 p q)
  else do
    let q ← checkedBigDivUp nom den
    orErr .sub (uSub p q)

/-- `get_next_sqrt_price_from_input` (`math/clamm.rs:163-176`). -/
def nextSqrtPriceFromInput (p L amount : Nat) (xToY : Bool) : M Nat :=
  if xToY then nextSqrtPriceXUp p L amount true else nextSqrtPriceYDown p L amount true

/-- `get_next_sqrt_price_from_output` (`math/clamm.rs:178-191`). -/
def nextSqrtPriceFromOutput (p L amount : Nat) (xToY : Bool) : M Nat :=
  if xToY then nextSqrtPriceYDown p L amount false else nextSqrtPriceXUp p L amount false

/-- `compute_swap_step` (`math/clamm.rs:16-106`), statement by statement. -/
def computeSwapStep (cur target L amount : Nat) (byAmountIn : Bool) (fee : Nat) : M SwapResult := do
  if L = 0 then return ⟨target, 0, 0, 0⟩
  let xToY := decide (cur ≥ target)
  let mut next := 0
  let mut amountIn := 0
  let mut amountOut := 0
  if byAmountIn then
    let i ← Dec.fromInteger PERCENTAGE 1
    let f ← Dec.sub i fee
    let aaf ← Dec.bigMul TOKEN_AMOUNT PERCENTAGE amount f
    amountIn ← if xToY then getDeltaX target cur L true else getDeltaY cur target L true
    if aaf ≥ amountIn then next := target
    else next ← nextSqrtPriceFromInput cur L aaf xToY
  else
    amountOut ← if xToY then getDeltaY target cur L false else getDeltaX cur target L false
    if amount ≥ amountOut then next := target
    else next ← nextSqrtPriceFromOutput cur L amount xToY
  let notMax := decide (target ≠ next)
  if xToY then
    if notMax || !byAmountIn then amountIn ← getDeltaX next cur L true
    if notMax || byAmountIn then amountOut ← getDeltaY next cur L false
  else
    if notMax || !byAmountIn then amountIn ← getDeltaY cur next L true
    if notMax || byAmountIn then amountOut ← getDeltaX cur next L false
  if !byAmountIn && decide (amountOut > amount) then amountOut := amount
  let feeAmount ← if byAmountIn && decide (next ≠ target) then Dec.sub amount amountIn
    else Dec.bigMulUp TOKEN_AMOUNT PERCENTAGE amountIn fee
  return ⟨next, amountIn, amountOut, feeAmount⟩

/-- `calculate_amount_delta` (`math/clamm.rs:241-287`). -/
def calculateAmountDelta (curTick : Int) (curPrice L : Nat) (sign : Bool) (upper lower : Int) :
    M (Nat × Nat × Bool) := do
  if upper < lower then .error .upperTickNotGreater
  let mut x := 0
  let mut y := 0
  let mut inside := false
  if curTick < lower then
    let pl ← calculateSqrtPrice lower
    let pu ← calculateSqrtPrice upper
    x ← getDeltaX pl pu L sign
  else if curTick < upper then
    let pu ← calculateSqrtPrice upper
    x ← getDeltaX curPrice pu L sign
    let pl ← calculateSqrtPrice lower
    y ← getDeltaY pl curPrice L sign
    inside := true
  else
    let pl ← calculateSqrtPrice lower
    let pu ← calculateSqrtPrice upper
    y ← getDeltaY pl pu L sign
  return (x, y, inside)

/-- `is_enough_amount_to_change_price` (`math/clamm.rs:289-309`). -/
def isEnoughAmountToChangePrice (amount p L fee : Nat) (byAmountIn xToY : Bool) : M Bool := do
  if L = 0 then return true
  let next ← if byAmountIn then do
      let i ← Dec.fromInteger PERCENTAGE 1
      let f ← Dec.sub i fee
      let aaf ← Dec.bigMul TOKEN_AMOUNT PERCENTAGE amount f
      nextSqrtPriceFromInput p L aaf xToY
    else nextSqrtPriceFromOutput p L amount xToY
  return decide (p ≠ next)

/-- `calculate_min_amount_out` (`math/clamm.rs:345-350`). -/
def calculateMinAmountOut (expected slippage : Nat) : M Nat := do
  let i ← Dec.fromInteger PERCENTAGE 1
  let f ← Dec.sub i slippage
  Dec.bigMulUp TOKEN_AMOUNT PERCENTAGE expected f

/-! ## `math/log.rs` -/

/-- `sqrt_price_to_x32` (`math/log.rs:19-21`): a `u128` product, truncated to `u64`. -/
def sqrtPriceToX32 (p : Nat) : M Nat := do
  let q ← orPanic (uMul U128 p (2 ^ 32))
  let q ← orPanic (uDiv q (10 ^ 24))
  pure (q % U64)

/-- One `if x >= 1 << k { x >>= k; msb |= k }` of `log2_floor_x32` (`math/log.rs:33-55`). -/
def log2FloorStep (k : Nat) (s : Nat × Nat) : Nat × Nat :=
  if s.1 ≥ 1 <<< k then (s.1 >>> k, s.2 ||| k) else s

/-- `log2_floor_x32` (`math/log.rs:30-58`). -/
def log2Floor (x : Nat) : Nat :=
  let s := log2FloorStep 32 (x, 0)
  let s := log2FloorStep 16 s
  let s := log2FloorStep 8 s
  let s := log2FloorStep 4 s
  let s := log2FloorStep 2 s
  if s.1 ≥ 1 <<< 1 then s.2 ||| 1 else s.2

/-- `while delta > LOG2_ACCURACY` (`math/log.rs:74-82`); the loop halves `delta`, so `n = 64` is enough for it to end, and the
product is a `u128`. -/
def log2Loop : Nat → Nat → Nat → Nat → M Nat
  | 0, _, _, _ => .error .outOfFuel
  | n + 1, delta, y, result =>
    if delta > 1 <<< 16 then do
      let y2 ← orPanic (uMul U128 y y)
      let y := y2 / 1 <<< 32
      if y ≥ 1 <<< 33 then log2Loop n (delta >>> 1) (y >>> 1) (result ||| delta)
      else log2Loop n (delta >>> 1) y result
    else .ok result

/-- `if x < ONE { x = (DOUBLE_ONE / (x as u128 + 1)) as u64 }` (`math/log.rs:61-68`). -/
def log2Invert (x : Nat) : M Nat :=
  if x < 1 <<< 32 then do
    let d ← orPanic (uAdd U128 x 1)
    let q ← orPanic (uDiv (1 <<< 64) d)
    pure (q % U64)
  else pure x

/-- `log2_iterative_approximation_x32` (`math/log.rs:60-84`). -/
def log2Approx (x : Nat) : M (Bool × Nat) := do
  let sign := decide (¬ x < 1 <<< 32)
  let x ← log2Invert x
  let fl := log2Floor (x >>> 32)
  let result := fl <<< 32 % U64
  let y := x >>> fl
  if y = 1 <<< 32 then return (sign, result)
  let r ← log2Loop 64 ((1 <<< 32) >>> 1) y result
  return (sign, r)

/-- A checked `i32` result. -/
def i32 (x : Int) : M Int := if -2 ^ 31 ≤ x ∧ x < 2 ^ 31 then .ok x else .error .panic

/-- `align_tick_to_spacing` (`math/log.rs:23-28`). -/
def alignTick (t ts : Int) : M Int :=
  if ts = 0 then .error .panic
  else if t > 0 then i32 (t - t.tmod ts) else i32 (t - t % ts)

/-- `x as i32` of a `u64`: the low 32 bits as a signed number. -/
def asI32 (x : Nat) : Int := if x % 2 ^ 32 < 2 ^ 31 then (x % 2 ^ 32 : Nat) else (x % 2 ^ 32 : Nat) - 2 ^ 32

/-- `get_tick_at_sqrt_price` (`math/log.rs:86-136`). -/
def getTickAtSqrtPrice (p : Nat) (ts : Nat) : M Int := do
  if p > MAX_SQRT_PRICE ∨ p < MIN_SQRT_PRICE then .error .sqrtPriceOutOfRange
  let x ← sqrtPriceToX32 p
  let (sign, lg) ← log2Approx x
  let a ← if sign then orPanic (uDiv lg 309801) else do
    let l ← orPanic (uAdd U64 lg 300000)
    orPanic (uDiv l 309801)
  let a := asI32 a
  let nearer ← if sign then pure a else i32 (-a)
  let farther ← if sign then i32 (a + 1) else do
    let m ← i32 (-a)
    i32 (m - 1)
  let fartherS ← alignTick farther ts
  let nearerS ← alignTick nearer ts
  if fartherS = nearerS then return nearerS
  let accurate ← if sign then do
      let fp ← calculateSqrtPrice farther
      pure (if p ≥ fp then fartherS else nearerS)
    else do
      let np ← calculateSqrtPrice nearer
      pure (if np ≤ p then nearerS else fartherS)
  if ts > 1 then alignTick accurate ts else return accurate

end Lit

end OraiV3
