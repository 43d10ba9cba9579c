/-!
# Base: errors, the result monad, integer widths, byte strings

Every fallible function of the contract returns `Result<_, ContractError>`; the model keeps that as
data.  A Rust panic (integer overflow with `overflow-checks = true`, `unwrap`, `assert!`, division by
zero, slice out of range; `/repo/Cargo.toml` `[profile.release]`) is the explicit value `Err.panic`.
-/

namespace OraiV3

/-- `ContractError`, `/repo/contracts/oraiswap-v3/src/error.rs:6-219`: the variants the modelled code
can return.  `panic` stands for any Rust panic, `parse` for a message rejected by serde before the
contract runs, `std` for `ContractError::Std` (value not found in storage, invalid address),
`outOfFuel` is an artefact of modelling the swap loop and is proved unreachable. -/
inductive Err where
  | panic | parse | std | outOfFuel | transferFailed
  | invalidTickSpacing | invalidFee | invalidTickIndex | invalidTick | tokensAreSame
  | invalidInitSqrtPrice | invalidOffset | invalidFunds
  | mul | div | cast | add | sub
  | updateLiquidityPlusOverflow | updateLiquidityMinusOverflow
  | emptyPositionPokes | positionNotFound
  | positionAddLiquidityOverflow | positionRemoveLiquidityUnderflow
  | priceLimitReached | insufficientLiquidity | timestampSubOverflow | poolNotFound
  | poolAddTickLiquidityOverflow | poolSubTickLiquidityUnderflow
  | tickLimitReached | tickNotFound | tickAlreadyExist
  | tickAddLiquidityOverflow | tickRemoveLiquidityUnderflow | invalidTickLiquidity
  | invalidSize | sqrtPriceOutOfRange | u320ToU256 | tickOverBounds
  | extendLiquidityOverflow | bigLiquidityOverflow | upperTickNotGreater | tickLowerGreater
  | tickReInitialize | upperSqrtPriceLess | overflowInCalculatingLiquidity | currentSqrtPriceLess
  | overflowCastingTokenAmount | unauthorized | expired | amountIsZero | wrongLimit | noGainSwap
  | amountUnderMinimumAmountOut | poolAlreadyExist | createPoolError | feeTierNotFound
  | notEmptyTickDeinitialization | timestampCheckFailed
  deriving DecidableEq, Repr

/-- `Result<_, ContractError>`. -/
abbrev M (α : Type) := Except Err α

/-- Widths of the integer types used by the contract. -/
abbrev U16 : Nat := 2 ^ 16
abbrev U32 : Nat := 2 ^ 32
abbrev U64 : Nat := 2 ^ 64
abbrev U128 : Nat := 2 ^ 128
abbrev U256 : Nat := 2 ^ 256
abbrev U320 : Nat := 2 ^ 320

/-- `x.try_into::<u128>().map_err(|_| e)`: keep `x` if it fits into 128 bits. -/
def cast128 (e : Err) (x : Nat) : M Nat := if x < U128 then .ok x else .error e

/-- `a + b` on a u128-backed decimal, panicking on overflow
(`/repo/packages/decimal-core/src/ops.rs:19-60`). -/
def add128 (a b : Nat) : M Nat := cast128 .panic (a + b)

/-- `a - b` on an unsigned value, panicking on underflow
(`/repo/packages/decimal-core/src/ops.rs:19-60`). -/
def subP (a b : Nat) : M Nat := if b ≤ a then .ok (a - b) else .error .panic

/-- `a.checked_add(b).map_err(|_| e)`
(`/repo/packages/decimal-core/src/checked_ops.rs:14-37`). -/
def checkedAdd (e : Err) (a b : Nat) : M Nat := cast128 e (a + b)

/-- `a.checked_sub(b).map_err(|_| e)`
(`/repo/packages/decimal-core/src/checked_ops.rs:14-37`). -/
def checkedSub (e : Err) (a b : Nat) : M Nat := if b ≤ a then .ok (a - b) else .error e

/-- `u128::wrapping_add`. -/
def wadd (a b : Nat) : Nat := (a + b) % U128

/-- `u128::wrapping_sub` (for `b < 2^128`). -/
def wsub (a b : Nat) : Nat := (a + (U128 - b)) % U128

/-- Rounded-up division of naturals, `(a + b - 1) / b`. -/
def cdiv (a b : Nat) : Nat := (a + b - 1) / b

/-- A byte, and byte strings.  Rust `String`, `Addr`, `Binary` and `Vec<u8>` are all byte strings
here; UTF-8 validity is not modelled (every byte list is admitted, a superset). -/
abbrev Byte := Fin 256
abbrev Bytes := List Byte

/-- Lexicographic order of byte strings: order of storage keys and of Rust strings. -/
def bytesLt : Bytes → Bytes → Bool
  | [], [] => false
  | [], _ :: _ => true
  | _ :: _, [] => false
  | a :: as, b :: bs => if a.val < b.val then true else if a.val = b.val then bytesLt as bs else false

/-- `n.to_be_bytes()` for an integer of `k` bytes. -/
def beBytes : Nat → Nat → Bytes
  | 0, _ => []
  | k + 1, n => Fin.ofNat 256 (n / 256 ^ k) :: beBytes k n

/-- `uN::from_be_bytes`. -/
def beNat : Bytes → Nat
  | [] => 0
  | b :: bs => b.val * 256 ^ bs.length + beNat bs

end OraiV3
