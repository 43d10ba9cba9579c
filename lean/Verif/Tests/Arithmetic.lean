import Verif.Decimal
import Verif.TimeWeight
import Verif.Liquidity

/-!
# The repository's own unit tests, run on the model: arithmetic

Every vector below is an assertion of a `#[test]` of `/repo`, with the literal arguments and the expected
result or error of that test.  They test the transcription of the code in `Verif.Math`, `Verif.Decimal`,
`Verif.TimeWeight` and `Verif.Liquidity`; they are tests of the model, not proofs of properties.

Where both exist, the vectors are run on the integer functions of `Verif.Math` and on the
operator-by-operator transcription `Lit` of `Verif.Decimal`.
-/

namespace OraiV3.RepoTests

/-- A test: what the model computes, and what the test of the repository expects. -/
abbrev Vec (α : Type) := List (M α × M α)

/-- Equality of results. -/
def same {α : Type} [DecidableEq α] : M α → M α → Bool
  | .ok a, .ok b => decide (a = b)
  | .error a, .error b => decide (a = b)
  | _, _ => false

/-- Every test passes. -/
def passes {α : Type} [DecidableEq α] (v : Vec α) : Bool := v.all fun t => same t.1 t.2

/-- `u128::MAX`. -/
abbrev MAX : Nat := 340282366920938463463374607431768211455

/-! ## `math/types/sqrt_price.rs:238-409` -/

/-- `test_calculate_sqrt_price`, `test_domain_calculate_sqrt_price`, `test_sqrt_price_limitation`. -/
def sqrtPrice (f : Int → M Nat) : Vec Nat := [
  (f 20000, .ok (2718145925979 * 10 ^ 12)),
  (f 200000, .ok (22015455979766288 * 10 ^ 12)),
  (f (-20000), .ok (367897834491 * 10 ^ 12)),
  (f (-200000), .ok (45422634 * 10 ^ 12)),
  (f 0, .ok (10 ^ 24)),
  (f MAX_TICK, .ok (65535383934512647 * 10 ^ 12)),
  (f MAX_TICK, .ok MAX_SQRT_PRICE),
  (f (-MAX_TICK), .ok (15258932 * 10 ^ 12)),
  (f (-MAX_TICK), .ok MIN_SQRT_PRICE),
  (f (MAX_TICK + 1), .error .tickOverBounds),
  (f (-MAX_TICK - 1), .error .tickOverBounds),
  (f (getMaxTick 1), .ok MAX_SQRT_PRICE),
  (f (getMaxTick 2), .ok MAX_SQRT_PRICE),
  (f (getMaxTick 5), .ok 65525554855399275000000000000),
  (f (getMaxTick 10), .ok 65509176333123237000000000000),
  (f (getMaxTick 100), .ok 65476431569071896000000000000),
  (f (getMinTick 1), .ok MIN_SQRT_PRICE),
  (f (getMinTick 2), .ok MIN_SQRT_PRICE),
  (f (getMinTick 5), .ok 15261221000000000000),
  (f (getMinTick 10), .ok 15265036000000000000),
  (f (getMinTick 100), .ok 15272671000000000000)]

example : passes (sqrtPrice calculateSqrtPrice) = true := by decide +kernel
example : passes (sqrtPrice Lit.calculateSqrtPrice) = true := by decide +kernel
example : [getMaxTick 10, getMaxTick 100, getMinTick 10, getMinTick 100] =
    [221810, 221800, -221810, -221800] := by decide +kernel

/-! ## `math/log.rs:138-571` -/

/-- `test_sqrt_price_to_u64`. -/
example : [sqrtPriceToX32 (sqrtPriceAt (-MAX_TICK)), sqrtPriceToX32 (sqrtPriceAt MAX_TICK)] =
    [65536, 281472330729535] := by decide +kernel
example : passes [(Lit.sqrtPriceToX32 (sqrtPriceAt (-MAX_TICK)), .ok 65536),
    (Lit.sqrtPriceToX32 (sqrtPriceAt MAX_TICK), .ok 281472330729535)] = true := by decide +kernel

/-- `test_log2_x32`. -/
def log2 (f : Nat → M (Bool × Nat)) : Vec (Bool × Nat) := [
  (f (sqrtPriceToX32 (10 ^ 24)), .ok (true, 0)),
  (f (sqrtPriceToX32 (879 * 10 ^ 24)), .ok (true, 42003464192)),
  (f (sqrtPriceToX32 (59 * 10 ^ 20)), .ok (false, 31804489728)),
  (f (sqrtPriceToX32 (sqrtPriceAt MAX_TICK)), .ok (true, 68719345664)),
  (f (sqrtPriceToX32 (sqrtPriceAt (-MAX_TICK))), .ok (false, 68719345664)),
  (f (sqrtPriceToX32 (sqrtPriceAt (-19999) - 1)), .ok (false, 6195642368)),
  (f (sqrtPriceToX32 (sqrtPriceAt 19999 - 1)), .ok (true, 6195642368))]

example : passes (log2 fun x => .ok (log2Approx x)) = true := by decide +kernel
example : passes (log2 Lit.log2Approx) = true := by decide +kernel

/-- `test_get_tick_at_sqrt_price_x32`. -/
def tickAt (f : Nat → Nat → M Int) : Vec Int := [
  (f (10 ^ 24) 1, .ok 0), (f (10 ^ 24 - 1) 1, .ok (-1)), (f (10 ^ 24 + 1) 1, .ok 0),
  (f (sqrtPriceAt 1) 1, .ok 1), (f (sqrtPriceAt 1 - 1) 1, .ok 0), (f (sqrtPriceAt 1 + 1) 1, .ok 1),
  (f (sqrtPriceAt (-1)) 1, .ok (-1)), (f (sqrtPriceAt (-1) - 1) 1, .ok (-2)),
  (f (sqrtPriceAt (-1) + 1) 1, .ok (-1)),
  (f (sqrtPriceAt (MAX_TICK - 1)) 1, .ok (MAX_TICK - 1)),
  (f (sqrtPriceAt (MAX_TICK - 1) - 1) 1, .ok (MAX_TICK - 2)),
  (f (sqrtPriceAt (MAX_TICK - 1) + 1) 1, .ok (MAX_TICK - 1)),
  (f (sqrtPriceAt (-(MAX_TICK - 1))) 1, .ok (-(MAX_TICK - 1))),
  (f (sqrtPriceAt (-(MAX_TICK - 1)) - 1) 1, .ok (-MAX_TICK)),
  (f (sqrtPriceAt (-(MAX_TICK - 1)) + 1) 1, .ok (-(MAX_TICK - 1))),
  (f (MAX_SQRT_PRICE - 1) 1, .ok (MAX_TICK - 1)),
  (f (sqrtPriceAt 19999) 1, .ok 19999), (f (sqrtPriceAt 19999 - 1) 1, .ok 19998),
  (f (sqrtPriceAt 19999 + 1) 1, .ok 19999),
  (f (sqrtPriceAt (-19999)) 1, .ok (-19999)), (f (sqrtPriceAt (-19999) - 1) 1, .ok (-20000)),
  (f (sqrtPriceAt (-19999) + 1) 1, .ok (-19999)),
  (f (sqrtPriceAt (-MAX_TICK) + 1) 1, .ok (-MAX_TICK))]

example : passes (tickAt getTickAtSqrtPrice) = true := by decide +kernel
example : passes (tickAt Lit.getTickAtSqrtPrice) = true := by decide +kernel

/-- `test_align_tick_with_spacing`. -/
example : [alignTick 0 3, alignTick 14 10, alignTick 20 10, alignTick (-14) 10, alignTick (-120) 3] =
    [0, 10, 20, -20, -120] := by decide +kernel

/-! ## `math/types/fee_growth.rs:100-599` -/

/-- `test_unchecked_add`, `test_unchecked_sub`. -/
example : [wadd MAX (MAX - 1), wadd MAX (MAX - 6), wadd MAX (MAX - 20), wadd MAX (MAX - 50), wadd 11 1100,
      wsub (MAX - 1) MAX, wsub 1 1, wsub 10 20, wsub 10 5] =
    [340282366920938463463374607431768211453, 340282366920938463463374607431768211448,
      340282366920938463463374607431768211434, 340282366920938463463374607431768211404, 1111,
      340282366920938463463374607431768211455, 0, 340282366920938463463374607431768211446, 5] := by
  decide +kernel

/-- `test_from_fee`, `test_domain_from_fee`, and the growths of `test_to_fee` and `test_domain_to_fee`. -/
def fromFee (f : Nat → Nat → M Nat) : Vec Nat := [
  (f LIQ 1, .ok FGR),
  (f (2 * LIQ) 1, .ok (5 * 10 ^ 27)),
  (f (18446744073709551615 * LIQ) 1, .ok 542101086),
  (f (100 * LIQ) 1000000, .ok (10000 * FGR)),
  (f MAX (MAX * (sqrtPriceAt MAX_TICK - sqrtPriceAt (MAX_TICK - 100 * TICK_SEARCH_RANGE)) / LIQ / SPR),
    .ok 473129365723326089999999999999999),
  (f (FGR * LIQ * 10000) 10000, .ok 1),
  (f 1 MAX, .error .cast),
  (f (1000 * LIQ) 0, .ok 0),
  (f 0 1000, .error .div),
  (f (2 ^ 77 * LIQ) 100000000000000, .ok 6617444900424221398),
  (f (10000000000000000000 * LIQ) 600000000000000000, .ok 600000000000000000000000000)]

example : passes (fromFee feeGrowthFromFee) = true := by decide +kernel
example : passes (fromFee Lit.feeGrowthFromFee) = true := by decide +kernel

/-- `test_to_fee`, `test_domain_to_fee`. -/
def toFee (g f : Nat → Nat → M Nat) : Vec Nat := [
  ((do let x ← g (1000000 * LIQ) 100; f x (1000000 * LIQ)), .ok 100),
  ((do let x ← g (1000000 * LIQ) 100; f x (10000000 * LIQ)), .ok 1000),
  (f 6617444900424221398 (2 ^ 77 * LIQ), .ok 99999999999999),
  (f 600000000000000000000000000 (10000000000000000000 * LIQ), .ok 600000000000000000),
  (f (1000000 * FGR) MAX, .ok MAX),
  (f MAX MAX, .error .cast),
  (f 0 (1000 * LIQ), .ok 0),
  (f (1000 * FGR) 0, .ok 0)]

example : passes (toFee feeGrowthFromFee feeGrowthToFee) = true := by decide +kernel
example : passes (toFee Lit.feeGrowthFromFee Lit.feeGrowthToFee) = true := by decide +kernel

/-- `test_calculate_fee_growth_inside`, `test_domain_calculate_fee_growth_inside`. -/
example :
    [feeGrowthInside (-2) 0 2 0 0 (15 * FGR), feeGrowthInside (-2) 0 2 0 (-4) (15 * FGR),
      feeGrowthInside (-2) 0 2 0 4 (15 * FGR), feeGrowthInside (-2) 0 2 1 3 (5 * FGR),
      feeGrowthInside (-2) 0 2 2 3 (5 * FGR), feeGrowthInside (-2) 0 2 (2 * FGR) 0 (15 * FGR),
      feeGrowthInside (-2) 0 2 (3 * FGR) 0 (15 * FGR), feeGrowthInside (-2) (2 * FGR) 2 0 0 (15 * FGR),
      feeGrowthInside (-2) (3 * FGR) 2 0 0 (15 * FGR),
      feeGrowthInside (-20) (20 * FGR) (-10) (15 * FGR) 0 (20 * FGR)] =
    [15 * FGR, 0, 0, 1, 2, 13 * FGR, 12 * FGR, 13 * FGR, 12 * FGR, MAX - 5 * FGR + 1] := by decide +kernel

/-! ## `math/types/seconds_per_liquidity.rs:72-296` -/

/-- `test_domain_calculate_seconds_per_liquidity_global`. -/
example : passes [
    (secondsPerLiquidityGlobal LIQ 0 100, .error .timestampCheckFailed),
    (secondsPerLiquidityGlobal 0 1 0, .error .div),
    (secondsPerLiquidityGlobal MAX 1 0, .ok 0),
    (secondsPerLiquidityGlobal 1 315360000 0, .ok 315360000000000000000000000000000000000),
    (secondsPerLiquidityGlobal 1 18446744073709551615 0, .error .cast),
    (secondsPerLiquidityGlobal MAX 315360000 0, .ok 0),
    (secondsPerLiquidityGlobal MAX 315360000 315359999, .ok 0),
    (secondsPerLiquidityGlobal 1 315360000 315359999, .ok 1000000000000000000000000000000)] = true := by
  decide +kernel

/-- `test_calculate_seconds_per_liquidity_inside`. -/
example :
    [secondsPerLiquidityInside 0 10 (-10) 3012300000 2030400000 0,
      secondsPerLiquidityInside 0 10 0 3012300000 2030400000 0,
      secondsPerLiquidityInside 0 10 20 2012333200 3012333310 0,
      secondsPerLiquidityInside 0 10 20 201233320000 301233331000 0,
      secondsPerLiquidityInside 0 10 (-20) 201233320000 301233331000 0] =
    [981900000, 340282366920938463463374607426725511456, 1000000110, 100000011000,
      340282366920938463463374607331768200456] := by decide +kernel

/-! ## `math/clamm.rs:352-2296` -/

/-- `test_calculate_min_amount_out`, `test_domain_calculate_min_amount_out`. -/
def minAmountOut (f : Nat → Nat → M Nat) : Vec Nat := [
  (f 100 0, .ok 100), (f 100 (10 ^ 9), .ok 100), (f 123 (9 * 10 ^ 9), .ok 122), (f 100 (10 ^ 10), .ok 99),
  (f 100 (3 * 10 ^ 10), .ok 97), (f 100 (5 * 10 ^ 10), .ok 95), (f 100 (10 ^ 11), .ok 90),
  (f 100 (2 * 10 ^ 11), .ok 80), (f 100 (5 * 10 ^ 11), .ok 50), (f 100 (10 ^ 12), .ok 0),
  (f 0 0, .ok 0), (f 0 (10 ^ 12), .ok 0), (f MAX (10 ^ 12), .ok 0), (f MAX 0, .ok MAX)]

example : passes (minAmountOut calculateMinAmountOut) = true := by decide +kernel
example : passes (minAmountOut Lit.calculateMinAmountOut) = true := by decide +kernel

/-- `test_domain_get_next_sqrt_price_from_input`. -/
def fromInput (f : Nat → Nat → Nat → Bool → M Nat) : Vec Nat := [
  (f (MAX_SQRT_PRICE - 1) MAX 600000000 false, .ok 65535383934512647000000000000),
  (f (MIN_SQRT_PRICE + 1) MAX 2000000000000000000 true, .ok 15258932000000000000),
  (f MIN_SQRT_PRICE MAX 0 true, .ok MIN_SQRT_PRICE),
  (f MIN_SQRT_PRICE 0 20 true, .ok 0),
  (f MAX_SQRT_PRICE 1 MAX false, .error .mul)]

example : passes (fromInput nextSqrtPriceFromInput) = true := by decide +kernel
example : passes (fromInput Lit.nextSqrtPriceFromInput) = true := by decide +kernel

/-- `test_domain_get_next_sqrt_price_from_output`. -/
def fromOutput (f : Nat → Nat → Nat → Bool → M Nat) : Vec Nat := [
  (f (MAX_SQRT_PRICE - 1) MAX 1 false, .ok 65535383934512647000000000012),
  (f (MIN_SQRT_PRICE + 1) MAX 1 true, .ok 15258932000000000000),
  (f MIN_SQRT_PRICE MAX 0 true, .ok MIN_SQRT_PRICE),
  (f MIN_SQRT_PRICE 0 20 true, .error .sub),
  (f MAX_SQRT_PRICE 1 MAX false, .error .bigLiquidityOverflow)]

example : passes (fromOutput nextSqrtPriceFromOutput) = true := by decide +kernel
example : passes (fromOutput Lit.nextSqrtPriceFromOutput) = true := by decide +kernel

/-- `test_compute_swap_step`. -/
def swapStep (f : Nat → Nat → Nat → Nat → Bool → Nat → M SwapResult) : Vec SwapResult :=
  let target := 1004987562112089027021926
  let fee := 6 * 10 ^ 8
  let low := 999500149965 * 10 ^ 12
  let low10 := sqrtPriceAt (-10)
  let L10 := 340282366920938463463374607 * LIQ
  [(f SPR target (2000 * LIQ) 1 true fee, .ok ⟨SPR, 0, 0, 1⟩),
   (f SPR target (2000 * LIQ) 20 true fee, .ok ⟨target, 10, 9, 1⟩),
   (f SPR target (2000 * LIQ) 20 false fee, .ok ⟨target, 10, 9, 1⟩),
   (f (101 * 10 ^ 22) (10 * SPR) (300000000 * LIQ) 1000000 true fee,
     .ok ⟨1013331333333333333333333, 999400, 976487, 600⟩),
   (f (101 * SPR) (100 * SPR) (5000000000000 * LIQ) 2000000 false fee,
     .ok ⟨100999999600000000000000000, 197, 2000000, 1⟩),
   (f low low 20006000000000 1000000 true fee, .ok ⟨low, 0, 0, 0⟩),
   (f low (1999500149965 * 10 ^ 12) (100000000000000000000000000 * LIQ) 10 true fee, .ok ⟨low, 0, 0, 10⟩),
   (f SPR (100005 * 10 ^ 19) (368944000000000000000000 * LIQ) 1 true fee, .ok ⟨SPR, 0, 0, 1⟩),
   (f SPR (100005 * 10 ^ 19) (368944000000000000000000 * LIQ) 1 false fee,
     .ok ⟨1000000000000000000000003, 2, 1, 1⟩),
   (f SPR (100005 * 10 ^ 19) 0 100000 true fee, .ok ⟨100005 * 10 ^ 19, 0, 0, 0⟩),
   (f SPR (100005 * 10 ^ 19) 0 100000 false fee, .ok ⟨100005 * 10 ^ 19, 0, 0, 0⟩),
   (f (99995 * 10 ^ 19) SPR (50000000 * LIQ) 1000 true 0, .ok ⟨99997 * 10 ^ 19, 1000, 1000, 0⟩),
   (f (low10 + SPR) low10 L10 1 false (9 * 10 ^ 11), .ok ⟨low10 + SPR - 1, 86, 1, 78⟩),
   (f (low10 + SPR) low10 L10 85 false (9 * 10 ^ 11), .ok ⟨low10 + SPR - 1, 86, 85, 78⟩),
   (f (low10 + SPR) low10 L10 0 false 0, .ok ⟨low10 + SPR, 0, 0, 0⟩)]

/-- `test_domain_compute_swap_step`. -/
def swapStepDomain (f : Nat → Nat → Nat → Nat → Bool → Nat → M SwapResult) : Vec SwapResult := [
  (f SPR (2 * SPR) LIQ MAX true (10 ^ 12), .ok ⟨SPR, 0, 0, MAX⟩),
  (f SPR (2 * SPR) MAX MAX true 0,
    .ok ⟨2000000000000000000000000, 340282366920938463463374607431769, 170141183460469231731687303715884, 0⟩),
  (f SPR (2 * SPR) (100000000000000 * LIQ) (100000000000000 - 1) true 0,
    .ok ⟨1999999999999990000000000, 99999999999999, 49999999999999, 0⟩),
  (f SPR (2 * SPR) MAX MAX true (10 ^ 12 - 19),
    .ok ⟨1000018999999999999999999, 6465364971497830805463835175, 6465242131897324756293472063,
      340282366914473098491876776626304376280⟩),
  (f MAX_SQRT_PRICE MIN_SQRT_PRICE MAX (MAX - 1) true 0,
    .ok ⟨15258932000000000000, 22300536291904886527033853306200674438,
      22300535557116062863569555195614450423, 0⟩),
  (f MIN_SQRT_PRICE MAX_SQRT_PRICE MAX (MAX - 1) true 0,
    .ok ⟨65535383934512647000000000000, 22300535557116062863569555195614450424,
      22300536291904886527033853306200674437, 0⟩),
  (f MIN_SQRT_PRICE MAX_SQRT_PRICE (LIQ - 1) (340282366920939 - 1) true 0,
    .ok ⟨MAX_SQRT_PRICE, 65536, 65535, 0⟩),
  (f (MAX_SQRT_PRICE - 232826265438719159684) MAX_SQRT_PRICE MAX (MAX - 1) false 0,
    .ok ⟨65535383934512647000000000000, 79226672684850046813853155300, 18446744073709551615, 0⟩),
  (f MIN_SQRT_PRICE MAX_SQRT_PRICE (281477613507675 * LIQ) (MAX - 1) false 0,
    .ok ⟨65535383934512647000000000000, 18446743465900796471, 18446744073709559494, 0⟩),
  (f (MAX_SQRT_PRICE - SPR) MAX_SQRT_PRICE (10000000000 * LIQ) 1 false 0,
    .ok ⟨65534813412874974599766965330, 4294783624, 1, 0⟩),
  (f MAX_SQRT_PRICE MIN_SQRT_PRICE MAX MAX false 0,
    .ok ⟨15258932000000000000, 22300536291904886527033853306200674438,
      22300535557116062863569555195614450423, 0⟩)]

example : passes (swapStep computeSwapStep) = true := by decide +kernel
example : passes (swapStep Lit.computeSwapStep) = true := by decide +kernel
example : passes (swapStepDomain computeSwapStep) = true := by decide +kernel
example : passes (swapStepDomain Lit.computeSwapStep) = true := by decide +kernel

/-- `test_get_next_sqrt_price_y_down`, `test_domain_get_next_sqrt_price_y_down`. -/
def yDown (f : Nat → Nat → Nat → Bool → M Nat) : Vec Nat := [
  (f SPR LIQ 1 true, .ok (2 * SPR)),
  (f SPR (2 * LIQ) 3 true, .ok (25 * 10 ^ 23)),
  (f (2 * SPR) (3 * LIQ) 5 true, .ok (11 * SPR / 3)),
  (f (24234 * SPR) (3000 * LIQ) 5000 true, .ok (72707 * SPR / 3)),
  (f SPR (2 * LIQ) 1 false, .ok (5 * 10 ^ 23)),
  (f (100000 * SPR) (500000000 * LIQ) 4000 false, .ok 99999999992000000000000000000),
  (f (3 * SPR) (222 * LIQ) 37 false, .ok 2833333333333333333333333),
  (f MIN_SQRT_PRICE MAX (1 + 600000000) true, .ok 15258932000000000001),
  (f (MIN_SQRT_PRICE + 1) MAX 1 false, .ok 15258932000000000000),
  (f MAX_SQRT_PRICE MAX 1 false, .ok 65535383934512646999999999999),
  (f (MAX_SQRT_PRICE - 1) MAX (1 + 600000000) true, .ok 65535383934512647000000000000),
  (f MAX_SQRT_PRICE 1 MAX true, .error .mul),
  (f 1 1 MAX false, .error .cast),
  (f MAX_SQRT_PRICE LIQ (340282366920940 - 2) true, .error .add),
  (f 1 LIQ (340282366920940 - 2) false, .error .sub),
  (f 1 LIQ (2 ^ 96) true, .error .cast),
  (f 1 LIQ (2 ^ 96) false, .error .cast),
  (f MIN_SQRT_PRICE MAX MAX true, .error .mul),
  (f MIN_SQRT_PRICE 0 1 true, .error .div),
  (f MIN_SQRT_PRICE MAX 0 true, .ok MIN_SQRT_PRICE)]

example : passes (yDown nextSqrtPriceYDown) = true := by decide +kernel
example : passes (yDown Lit.nextSqrtPriceYDown) = true := by decide +kernel

/-- `test_get_delta_x`, `test_domain_get_delta_x`. -/
def deltaX (f : Nat → Nat → Nat → Bool → M Nat) : Vec Nat :=
  let a := 234878324943782000000000000
  let b := 87854456421658000000000000
  [(f SPR SPR 0 false, .ok 0), (f SPR (2 * SPR) (2 * LIQ) false, .ok 1),
   (f a b 983983249092 false, .ok 7010), (f a b 983983249092 true, .ok 7011),
   (f SPR (5 * 10 ^ 23) ((2 ^ 64 - 1) * LIQ) false, .ok (2 ^ 64 - 1)),
   (f SPR (5 * 10 ^ 23) ((2 ^ 64 - 1) * LIQ) true, .ok (2 ^ 64 - 1)),
   (f MAX_SQRT_PRICE MIN_SQRT_PRICE MAX true, .ok 22300536291904886527033853306200674438),
   (f MAX_SQRT_PRICE MIN_SQRT_PRICE MAX false, .ok 22300536291904886527033853306200674437),
   (f MAX_SQRT_PRICE MIN_SQRT_PRICE 1 true, .ok 1), (f MAX_SQRT_PRICE MIN_SQRT_PRICE 1 false, .ok 0),
   (f MIN_SQRT_PRICE (sqrtPriceAt (-MAX_TICK + 1)) MAX true, .ok 1115049101222874255702226300908362),
   (f MIN_SQRT_PRICE (sqrtPriceAt (-MAX_TICK + 1)) MAX false, .ok 1115049101222874255702226300908361),
   (f MIN_SQRT_PRICE (sqrtPriceAt (-MAX_TICK + 1)) 1 true, .ok 1),
   (f MIN_SQRT_PRICE (sqrtPriceAt (-MAX_TICK + 1)) 1 false, .ok 0),
   (f MAX_SQRT_PRICE (sqrtPriceAt (MAX_TICK - 256 * 100)) MAX true, .ok 13481455942966627077028504118),
   (f MAX_SQRT_PRICE (MAX_SQRT_PRICE - 1) MAX true, .ok 1),
   (f MIN_SQRT_PRICE (MIN_SQRT_PRICE + 1) MAX true, .ok 1461474256330471373),
   (f MAX_SQRT_PRICE MIN_SQRT_PRICE 0 true, .ok 0), (f MAX_SQRT_PRICE MIN_SQRT_PRICE 0 false, .ok 0)]

example : passes (deltaX getDeltaX) = true := by decide +kernel
example : passes (deltaX Lit.getDeltaX) = true := by decide +kernel

/-- The cases of `test_get_delta_x` that only ask for success. -/
example : [getDeltaX SPR (5 * 10 ^ 23) MAX false, getDeltaX SPR (5 * 10 ^ 23) MAX true,
    getDeltaX SPR (SPR + 1000000) (2 ^ 80 * LIQ) false,
    getDeltaX SPR (SPR + 1000000) (2 ^ 80 * LIQ) true].all (·.isOk) = true := by decide +kernel

/-- `test_get_delta_y`, `test_domain_get_delta_y`. -/
def deltaY (f : Nat → Nat → Nat → Bool → M Nat) : Vec Nat :=
  let a := 234878324943782000000000000
  let b := 87854456421658000000000000
  [(f SPR SPR 0 false, .ok 0), (f SPR (2 * SPR) (2 * LIQ) false, .ok 2),
   (f a b 983983249092 false, .ok 144669023), (f a b 983983249092 true, .ok 144669024),
   (f SPR (2 * SPR) ((2 ^ 64 - 1) * LIQ) false, .ok (2 ^ 64 - 1)),
   (f SPR (2 * SPR) ((2 ^ 64 - 1) * LIQ) true, .ok (2 ^ 64 - 1)),
   (f MAX_SQRT_PRICE MIN_SQRT_PRICE MAX true, .ok 22300535557116062863569555195614450424),
   (f MAX_SQRT_PRICE MIN_SQRT_PRICE MAX false, .ok 22300535557116062863569555195614450423),
   (f MAX_SQRT_PRICE (MAX_SQRT_PRICE - 1) 1 false, .ok 0),
   (f MAX_SQRT_PRICE MIN_SQRT_PRICE 0 true, .ok 0), (f MAX_SQRT_PRICE MAX_SQRT_PRICE MAX true, .ok 0)]

example : passes (deltaY getDeltaY) = true := by decide +kernel
example : passes (deltaY Lit.getDeltaY) = true := by decide +kernel

/-- The cases of `test_get_delta_y` that only ask for success or failure. -/
example : [getDeltaY SPR MAX MAX false, getDeltaY SPR MAX MAX true,
      getDeltaY SPR (SPR + 1000000) (2 ^ 80 * LIQ) false,
      getDeltaY SPR (SPR + 1000000) (2 ^ 80 * LIQ) true].map (·.isOk) = [false, false, true, true] := by
  decide +kernel

/-- `test_get_next_sqrt_price_x_up`, `test_domain_get_next_sqrt_price_x_up`. -/
def xUp (f : Nat → Nat → Nat → Bool → M Nat) : Vec Nat := [
  (f SPR LIQ 1 true, .ok (5 * 10 ^ 23)),
  (f SPR (2 * LIQ) 3 true, .ok (4 * 10 ^ 23)),
  (f (2 * SPR) (3 * LIQ) 5 true, .ok 461538461538461538461539),
  (f (24234 * SPR) (3000 * LIQ) 5000 true, .ok 599985145205615112277488),
  (f SPR (2 * LIQ) 1 false, .ok (2 * SPR)),
  (f (100000 * SPR) (500000000 * LIQ) 4000 false, .ok (500000 * SPR)),
  (f 3333333333333333333333333 222222222 37 false, .ok 7490636713462104974072145),
  (f MIN_SQRT_PRICE MAX 600000000 false, .ok 15258932000000000001),
  (f (MIN_SQRT_PRICE + 1) MAX 2000000000000000000 true, .ok 15258932000000000000),
  (f MAX_SQRT_PRICE MAX 1 true, .ok 65535383934512646999999999988),
  (f (MAX_SQRT_PRICE - 1) MAX 1 false, .ok 65535383934512647000000000012),
  (f MAX_SQRT_PRICE MAX MAX true, .ok 999999999984741068),
  (f MAX_SQRT_PRICE 1 MAX false, .error .bigLiquidityOverflow),
  (f MAX_SQRT_PRICE 0 1 true, .ok 0),
  (f MAX_SQRT_PRICE MAX 0 true, .ok 65535383934512647000000000000)]

example : passes (xUp nextSqrtPriceXUp) = true := by decide +kernel
example : passes (xUp Lit.nextSqrtPriceXUp) = true := by decide +kernel

/-- `test_is_enough_amount_to_push_price`, `test_domain_is_enoguh_amount_to_push_price`. -/
def isEnough (f : Nat → Nat → Nat → Nat → Bool → Bool → M Bool) : Vec Bool := [
  (f MAX MAX_SQRT_PRICE 1 0 false false, .error .bigLiquidityOverflow),
  (f 1 MAX_SQRT_PRICE 1 (10 ^ 12) false false, .error .bigLiquidityOverflow),
  (f MAX MAX_SQRT_PRICE 0 (10 ^ 12) false false, .ok true),
  (f 1 MAX_SQRT_PRICE 1 0 false false, .error .bigLiquidityOverflow)]

example : passes (isEnough isEnoughAmountToChangePrice) = true := by decide +kernel
example : passes (isEnough Lit.isEnoughAmountToChangePrice) = true := by decide +kernel

/-- `test_calculate_amount_delta`, `test_domain_calculate_amount_delta`. -/
def amountDelta (f : Int → Nat → Nat → Bool → Int → Int → M (Nat × Nat × Bool)) : Vec (Nat × Nat × Bool) := [
  (f 2 1000140000000000000000000 (5000000 * LIQ) true 3 0, .ok (51, 700, true)),
  (f 2 1000140000000000000000000 (5000000 * LIQ) true 4 0, .ok (300, 700, true)),
  (f 0 0 (10 * LIQ) true 4 2, .ok (1, 0, false)),
  (f 6 0 (10 * LIQ) true 4 2, .ok (0, 1, false)),
  (f (-MAX_TICK) 0 MAX true MAX_TICK (-MAX_TICK + 1), .ok (22299421242803663652778151079899766076, 0, false)),
  (f MAX_TICK 0 MAX true (MAX_TICK - 1) (-MAX_TICK), .ok (0, 22299420613894225688327846143610371474, false)),
  (f 2 1000140000000000000000000 0 true 4 0, .ok (0, 0, true)),
  (f 0 1000140000000000000000000 0 true 4 10, .error .upperTickNotGreater),
  (f 0 MAX MAX true MAX_TICK (-MAX_TICK), .error .cast)]

example : passes (amountDelta calculateAmountDelta) = true := by decide +kernel
example : passes (amountDelta Lit.calculateAmountDelta) = true := by decide +kernel

/-- `test_calculate_max_liquidity_per_tick`. -/
example : [1, 2, 5, 100].map maxLiquidityPerTick =
    [767028825190275976673213928125400, 1534061108300221187926023169588438,
      3835161415588698631345301964810804, 76709280189571339824926647302021688] := by decide +kernel

/-! ## `logic/math.rs:291-500` -/

/-- `get_liquidity_by_x_test`. -/
example : passes [
    (liquidityByX 430000 80 120 (sqrtPriceAt 100) true, .ok ⟨432392997319297, 434322⟩),
    (liquidityByX 430000 80 120 (sqrtPriceAt 100) false, .ok ⟨432392997319297, 434321⟩),
    (liquidityByX 430000 150 800 (sqrtPriceAt 100) true, .ok ⟨13548826311623, 0⟩),
    (liquidityByX 430000 150 800 (sqrtPriceAt 100) false, .ok ⟨13548826311623, 0⟩)] = true := by
  decide +kernel

/-- `get_liquidity_by_y_test`. -/
example : passes [
    (liquidityByY 47600000000 (-22000) (-21000) (sqrtPriceAt (-20000)) true, .ok ⟨2789052279103923275, 0⟩),
    (liquidityByY 47600000000 (-22000) (-21000) (sqrtPriceAt (-20000)) false, .ok ⟨2789052279103923275, 0⟩),
    (liquidityByY 47600000000 (-25000) (-19000) (sqrtPriceAt (-20000)) true,
      .ok ⟨584945290554346935, 77539808126⟩),
    (liquidityByY 47600000000 (-25000) (-19000) (sqrtPriceAt (-20000)) false,
      .ok ⟨584945290554346935, 77539808125⟩),
    (liquidityByY 47600000000 (-10000) 0 (sqrtPriceAt (-20000)) true, .error .currentSqrtPriceLess),
    (liquidityByY 47600000000 (-10000) 0 (sqrtPriceAt (-20000)) false, .error .currentSqrtPriceLess)] = true := by
  decide +kernel

/-- `get_liquidity_test`: the liquidity and the amount the test looks at. -/
example : passes [
    ((fun r => (r.l, r.x)) <$> getLiquidity 0 47600000000 (-22000) (-21000) (sqrtPriceAt (-20000)) true,
      .ok (2789052279103923275, 0)),
    ((fun r => (r.l, r.x)) <$> getLiquidity 77539808126 47600000000 (-25000) (-19000) (sqrtPriceAt (-20000)) true,
      .ok (584945290554346935, 77539808126)),
    ((fun r => (r.l, r.x)) <$> getLiquidity 77539808125 47600000000 (-25000) (-19000) (sqrtPriceAt (-20000)) false,
      .ok (584945290552911923, 77539808125)),
    ((fun r => (r.l, r.y)) <$> getLiquidity 430000000 0 150 800 (sqrtPriceAt (-20000)) true,
      .ok (13548826311623850, 0))] = true := by
  decide +kernel

end OraiV3.RepoTests
