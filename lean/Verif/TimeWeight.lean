import Verif.Math

/-!
# Time weighted by liquidity

`math/types/seconds_per_liquidity.rs`. The contract exports these functions and the client library has
the same ones (`/repo/wasm/types/seconds_per_liquidity.rs`); no entry point calls them.
-/

namespace OraiV3

/-- One unit of `SecondsPerLiquidity`, 24 decimals (`math/types/seconds_per_liquidity.rs:6-9`). -/
abbrev SPL : Nat := 10 ^ 24

/-- `SecondsPerLiquidity::calculate_seconds_per_liquidity_global`
(`math/types/seconds_per_liquidity.rs:20-41`). The times are `u64`, so that the 256-bit products cannot
overflow. -/
def secondsPerLiquidityGlobal (L now last : Nat) : M Nat :=
  if now ≤ last then .error .timestampCheckFailed
  else if L = 0 then .error .div
  else cast128 .cast ((now - last) * SPL * LIQ / L)

/-- `calculate_seconds_per_liquidity_inside` (`math/types/seconds_per_liquidity.rs:44-70`), in the order
of its arguments. -/
def secondsPerLiquidityInside (lower upper cur : Int) (lowerOut upperOut global : Nat) : Nat :=
  let below := if cur ≥ lower then lowerOut else wsub global lowerOut
  let above := if cur < upper then upperOut else wsub global upperOut
  wsub (wsub global below) above

end OraiV3
