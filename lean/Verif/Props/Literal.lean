import Verif.Lemmas.LiteralTick

/-!
# C51: fixed-width arithmetic does not distort prices and amounts

The functions of namespace `Lit` transcribe the contract's arithmetic statement by statement: every number has the width of the
Rust type that holds it, every operation can overflow, divide by zero or fail to convert, and every failure is the code's own.
The functions without the prefix, about which all other properties are proved, use unbounded integers and leave out checks.
Both agree for all arguments of the Rust types: no intermediate result overflows, is truncated or loses bits, except
where the unbounded formula reports the same failure.

`u128` arguments are below `U128`, a `Percentage` is a `u64`, a tick is an `i32`, a tick spacing a `u16`.
-/

namespace OraiV3

/-- Amount of the first token between two prices. -/
theorem C51_amount_x {a b L : Nat} (ha : a < U128) (hb : b < U128) (hL : L < U128) (up : Bool) :
    Lit.getDeltaX a b L up = getDeltaX a b L up := getDeltaX_lit ha hb hL up

/-- Amount of the second token between two prices. -/
theorem C51_amount_y {a b L : Nat} (ha : a < U128) (hb : b < U128) (hL : L < U128) (up : Bool) :
    Lit.getDeltaY a b L up = getDeltaY a b L up := getDeltaY_lit ha hb hL up

example : Lit.getDeltaX (2 * SPR) (3 * SPR) (10 ^ 9 * LIQ) true = .ok 166666667 ∧
    Lit.getDeltaX (2 * SPR) (3 * SPR) (10 ^ 9 * LIQ) false = .ok 166666666 ∧
    Lit.getDeltaY (2 * SPR) (3 * SPR) (10 ^ 9 * LIQ) true = .ok (10 ^ 9) := by decide +kernel
/-- The failures agree as well: a price of zero, and an amount beyond `u128`. -/
example : Lit.getDeltaX 0 1 (U128 - 1) true = .error .panic ∧ Lit.getDeltaX 0 1 (U128 - 1) false = .error .div ∧
    Lit.getDeltaX 1 (U128 - 1) (U128 - 1) true = .error .u320ToU256 ∧
    Lit.getDeltaX (10 ^ 12) (U128 - 1) (U128 - 1) true = .error .cast := by decide +kernel

/-- The price after an input. -/
theorem C51_price_from_input {p L a : Nat} (hp : p < U128) (hL : L < U128) (ha : a < U128) (xToY : Bool) :
    Lit.nextSqrtPriceFromInput p L a xToY = nextSqrtPriceFromInput p L a xToY := nextSqrtPriceFromInput_lit hp hL ha xToY

/-- The price after an output. -/
theorem C51_price_from_output {p L a : Nat} (hp : p < U128) (hL : L < U128) (ha : a < U128) (xToY : Bool) :
    Lit.nextSqrtPriceFromOutput p L a xToY = nextSqrtPriceFromOutput p L a xToY := nextSqrtPriceFromOutput_lit hp hL ha xToY

example : Lit.nextSqrtPriceFromInput SPR (10 ^ 6 * LIQ) 1000 true = .ok 999000999000999000999001 ∧
    Lit.nextSqrtPriceFromInput SPR (10 ^ 6 * LIQ) 1000 false = .ok 1001000000000000000000000 ∧
    Lit.nextSqrtPriceFromOutput SPR (10 ^ 6 * LIQ) 2000000 true = .error .sub := by decide +kernel

/-- One step of a swap. -/
theorem C51_swap_step {cur target L amount fee : Nat} (hc : cur < U128) (ht : target < U128) (hL : L < U128)
    (ha : amount < U128) (hf : fee < U64) (byAmountIn : Bool) :
    Lit.computeSwapStep cur target L amount byAmountIn fee = computeSwapStep cur target L amount byAmountIn fee :=
  computeSwapStep_lit hc ht hL ha hf byAmountIn

example : Lit.computeSwapStep SPR (SPR + SPR / 100) (10 ^ 6 * LIQ) 1000 true (10 ^ 10) =
    .ok ⟨1000990000000000000000000, 990, 989, 10⟩ := by decide +kernel

/-- The check whether an amount can move the price. -/
theorem C51_enough_amount {amount p L fee : Nat} (ha : amount < U128) (hp : p < U128) (hL : L < U128) (byAmountIn xToY : Bool) :
    Lit.isEnoughAmountToChangePrice amount p L fee byAmountIn xToY =
      isEnoughAmountToChangePrice amount p L fee byAmountIn xToY := isEnough_lit hp hL ha byAmountIn xToY

/-- The least output accepted for a slippage. -/
theorem C51_min_amount_out {expected slippage : Nat} (he : expected < U128) :
    Lit.calculateMinAmountOut expected slippage = calculateMinAmountOut expected slippage := calculateMinAmountOut_lit he

example : Lit.calculateMinAmountOut 1001 (10 ^ 10) = .ok 991 ∧ Lit.calculateMinAmountOut 1001 (PCT + 1) = .error .panic := by
  decide +kernel

/-- The price of a tick.  The least `i32` is the only exception: the code panics on it, the model answers `TickOverBounds`. -/
theorem C51_tick_price {t : Int} (h : t ≠ -2 ^ 31) : Lit.calculateSqrtPrice t = calculateSqrtPrice t := calculateSqrtPrice_lit h

example : Lit.calculateSqrtPrice 221818 = .ok MAX_SQRT_PRICE ∧ Lit.calculateSqrtPrice (-221818) = .ok MIN_SQRT_PRICE ∧
    Lit.calculateSqrtPrice 221819 = .error .tickOverBounds ∧ Lit.calculateSqrtPrice (-2 ^ 31) = .error .panic := by
  decide +kernel

/-- The tick of a price. -/
theorem C51_tick_of_price {p ts : Nat} (hts : ts < 2 ^ 16) : Lit.getTickAtSqrtPrice p ts = getTickAtSqrtPrice p ts :=
  getTickAtSqrtPrice_lit hts

example : Lit.getTickAtSqrtPrice (2 * SPR) 10 = .ok 13860 ∧ Lit.getTickAtSqrtPrice (SPR / 3) 1 = .ok (-21974) ∧
    Lit.getTickAtSqrtPrice SPR 0 = .error .panic := by decide +kernel

/-- The amounts of a position. -/
theorem C51_position_amounts {cur upper lower : Int} {p L : Nat} (hp : p < U128) (hL : L < U128) (hu : upper ≠ -2 ^ 31)
    (hl : lower ≠ -2 ^ 31) (sign : Bool) :
    Lit.calculateAmountDelta cur p L sign upper lower = calculateAmountDelta cur p L sign upper lower :=
  calculateAmountDelta_lit hp hL hu hl sign

example : (Lit.calculateAmountDelta 0 SPR (10 ^ 6 * LIQ) true 10 (-10)).toOption = some (500, 500, true) := by decide +kernel

/-- Fees turned into fee growth. -/
theorem C51_fee_growth {L fee : Nat} (hL : L < U128) (hf : fee < U128) :
    Lit.feeGrowthFromFee L fee = feeGrowthFromFee L fee := feeGrowthFromFee_lit hL hf

/-- Fee growth turned into fees. -/
theorem C51_fees {g L : Nat} (hg : g < U128) (hL : L < U128) : Lit.feeGrowthToFee g L = feeGrowthToFee g L :=
  feeGrowthToFee_lit hg hL

example : Lit.feeGrowthFromFee (10 ^ 6 * LIQ) 1000 = .ok (10 ^ 25) ∧ Lit.feeGrowthToFee (10 ^ 25) (10 ^ 6 * LIQ) = .ok 1000 ∧
    Lit.feeGrowthFromFee 0 1000 = .error .div := by decide +kernel

end OraiV3
