import Verif.Ledger
import Verif.Query
import Verif.Liquidity
import Verif.Tests.Arithmetic

/-!
# The test harness of the repository, on the model

`src/tests/helper.rs` runs the contract together with `cw20_base` tokens in `cw_multi_test`.  Here the same
steps run `World.tx` on a ledger: a call that must succeed, one that must fail, minting, allowances, queries.
-/

namespace OraiV3.RepoTests

/-- `MockApp` (`tests/helper.rs:36-41`): contract, balances, and the current block. -/
structure App where
  world : World
  env : Env

/-- A test, or a part of one: `none` if an assertion fails. -/
abbrev Test (α : Type) := StateT App Option α

/-- The contract; every string is an address, so every token is a cw20 token. -/
def dex : Bytes := [0]
def chain : Chain := ⟨dex, fun _ => true⟩
def alice : Bytes := [1]
def bob : Bytes := [2]
def tokenX : Bytes := [97]
def tokenY : Bytes := [98]
def tokenZ : Bytes := [99]

/-- `next_block` of `cw_multi_test`. -/
def App.next (a : App) : App := { a with env := ⟨a.env.height + 1, a.env.nanos + 5000000000⟩ }

/-- Alice instantiates the contract and has `supply` of each token
(`create_dex!`, `create_tokens!`, `tests/helper.rs:193-218, 322-330`). -/
def start (supply protocolFee : Nat) : App :=
  ⟨⟨instantiate alice protocolFee, ⟨fun _ h => if h = alice then supply else 0, fun _ _ => 0⟩⟩,
   ⟨12345, 1571797419879305533⟩⟩

/-- A call that must succeed. -/
def ok (who : Bytes) (m : Msg) : Test Unit := fun a =>
  match a.world.tx chain a.env ⟨who, []⟩ m with
  | .ok w => some ((), { a with world := w }.next)
  | .error _ => none

/-- A call that must fail (`unwrap_err`, `is_err`). -/
def err (who : Bytes) (m : Msg) : Test Unit := fun a =>
  match a.world.tx chain a.env ⟨who, []⟩ m with
  | .ok _ => none
  | .error _ => some ((), a)

/-- `mint!` (`tests/helper.rs:242-258`). -/
def mint (t who : Bytes) (n : Nat) : Test Unit := fun a =>
  let l := a.world.ledger
  some ((), { a with world := { a.world with
    ledger := { l with bal := upd l.bal (.cw20 t) (upd (l.bal (.cw20 t)) who (l.bal (.cw20 t) who + n)) } } }.next)

/-- `approve!`: `IncreaseAllowance` (`tests/helper.rs:296-318`). -/
def approve (t who : Bytes) (n : Nat) : Test Unit := fun a =>
  let l := a.world.ledger
  some ((), { a with world := { a.world with
    ledger := { l with allow := upd l.allow t (upd (l.allow t) who (l.allow t who + n)) } } }.next)

/-- `balance_of!`. -/
def balance (t who : Bytes) : Test Nat := fun a => some (a.world.ledger.bal (.cw20 t) who, a)

/-- A query that must succeed. -/
def ask {α : Type} (q : Store → M α) : Test α := fun a =>
  match q a.world.store with
  | .ok x => some (x, a)
  | .error _ => none

/-- A query that must fail. -/
def refuse {α : Type} (q : Store → M α) : Test Unit := fun a =>
  match q a.world.store with
  | .ok _ => none
  | .error _ => some ((), a)

/-- `quote!`. -/
def quote (k : PoolKey) (xToY : Bool) (n : Nat) (byIn : Bool) (limit : Nat) : Test QuoteResult := fun a =>
  match queryQuote a.world.store a.env k xToY n byIn limit with
  | .ok x => some (x, a)
  | .error _ => none

/-- `quote_route!`. -/
def quoteRoute (n : Nat) (hops : List Hop) : Test Nat := fun a =>
  match queryQuoteRoute a.world.store a.env n hops with
  | .ok x => some (x, a)
  | .error _ => none

/-- `assert!`. -/
def check (p : Prop) [Decidable p] : Test Unit := fun a => if p then some ((), a) else none

/-- `get_pool!`. -/
def pool (k : PoolKey) : Test Pool := ask fun s => queryPool s k.tokenX k.tokenY k.tier
/-- `get_tick!`. -/
def tick (k : PoolKey) (i : Int) : Test Tick := ask fun s => getTick s k i
/-- `is_tick_initialized!`. -/
def bit (k : PoolKey) (i : Int) : Test Bool := ask fun s => queryIsTickInitialized s k i
/-- `get_position!`. -/
def position (who : Bytes) (i : Nat) : Test Position := ask fun s => getPosition s who i
/-- `get_all_positions!` with `MAX_LIMIT`. -/
def positions (who : Bytes) : Test (List Position) := ask fun s => queryPositions s who (some 100) (some 0)

/-- Does the test pass? -/
def passing (a : App) (t : Test Unit) : Bool := (t a).isSome

/-- `positions_equals!` (`tests/helper.rs:1734-1746`): everything but block and approvals. -/
structure Core where
  (key : PoolKey) (liquidity : Nat) (lower upper : Int) (fgInX fgInY owedX owedY : Nat)
  deriving DecidableEq

def core (p : Position) : Core :=
  ⟨p.poolKey, p.liquidity, p.lower, p.upper, p.fgInX, p.fgInY, p.owedX, p.owedY⟩

/-- `Percentage::from_scale(6, 3)`, `from_scale(1, 2)`, … -/
def pct (n scale : Nat) : Nat := n * 10 ^ (12 - scale)

/-- The tier of the basic pool. -/
def basicTier : FeeTier := ⟨pct 6 3, 10⟩
def basicKey : PoolKey := ⟨tokenX, tokenY, basicTier⟩

/-- `Liquidity::from_integer`. -/
def liq (n : Nat) : Nat := n * LIQ

/-- Both allowances of Alice. -/
def approveBoth (n : Nat) : Test Unit := do approve tokenX alice n; approve tokenY alice n

/-- Add the tier and create the pool at a tick. -/
def addPool (k : PoolKey) (t : Int) : Test Unit := do
  ok alice (.addFeeTier k.tier)
  ok alice (.createPool k.tokenX k.tokenY k.tier (sqrtPriceAt t) t)

/-- A position of Alice's with no limits on the price. -/
def openPos (k : PoolKey) (lower upper : Int) (L : Nat) : Test Unit :=
  ok alice (.createPosition k lower upper L 0 MAX)

/-- A position of Alice's at the current price. -/
def openNow (k : PoolKey) (lower upper : Int) (L : Nat) : Test Unit := do
  let p ← pool k
  ok alice (.createPosition k lower upper L p.sqrtPrice p.sqrtPrice)

/-- A position of Alice's at the current price or above. -/
def openAbove (k : PoolKey) (lower upper : Int) (L : Nat) : Test Unit := do
  let p ← pool k
  ok alice (.createPosition k lower upper L p.sqrtPrice MAX)

/-- `init_basic_pool!` (`tests/helper.rs:990-1013`). -/
def basicPool : Test Unit := addPool basicKey 0

/-- `init_basic_position!` (`tests/helper.rs:1016-1071`). -/
def basicPosition : Test Unit := do
  approveBoth (10 ^ 10)
  openNow basicKey (-20) 10 (liq 1000000)
  check ((← pool basicKey).liquidity = liq 1000000)

/-- `init_cross_position!` (`tests/helper.rs:1074-1129`). -/
def crossPosition : Test Unit := do
  approveBoth (10 ^ 10)
  openNow basicKey (-40) (-10) (liq 1000000)
  check ((← pool basicKey).liquidity = liq 1000000)

/-- `init_basic_swap!` (`tests/helper.rs:1182-1264`). -/
def basicSwap : Test Unit := do
  mint tokenX bob 1000
  check ((← balance tokenX bob) = 1000)
  approve tokenX bob 1000
  check ((← balance tokenX dex) = 500)
  check ((← balance tokenY dex) = 1000)
  let before ← pool basicKey
  ok bob (.swap basicKey true 1000 true MIN_SQRT_PRICE)
  let after ← pool basicKey
  check (after.liquidity = before.liquidity)
  check (after.tick = -20)
  check (after.sqrtPrice ≠ before.sqrtPrice)
  check ((← balance tokenX bob) = 0)
  check ((← balance tokenY bob) = 993)
  check ((← balance tokenX dex) = 1500)
  check ((← balance tokenY dex) = 7)
  check (after.fgX = 50000000000000000000000)
  check (after.fgY = 0)
  check (after.protoX = 1)
  check (after.protoY = 0)

/-- `init_cross_swap!` (`tests/helper.rs:1281-1359`). -/
def crossSwap : Test Unit := do
  mint tokenX bob 1000
  check ((← balance tokenX bob) = 1000)
  approve tokenX bob 1000
  check ((← balance tokenX dex) = 500)
  check ((← balance tokenY dex) = 2499)
  let before ← pool basicKey
  ok bob (.swap basicKey true 1000 true MIN_SQRT_PRICE)
  let after ← pool basicKey
  check (after.liquidity - liq 1000000 = before.liquidity)
  check (after.tick = -20)
  check (after.sqrtPrice ≠ before.sqrtPrice)
  check ((← balance tokenX bob) = 0)
  check ((← balance tokenY bob) = 990)
  check ((← balance tokenX dex) = 1500)
  check ((← balance tokenY dex) = 1509)
  check (after.fgX = 40000000000000000000000)
  check (after.fgY = 0)
  check (after.protoX = 2)
  check (after.protoY = 0)

/-- `swap_exact_limit!` (`tests/helper.rs:1132-1162`). -/
def swapExactLimit (who : Bytes) (k : PoolKey) (xToY : Bool) (n : Nat) (byIn : Bool) : Test Unit := do
  let q ← quote k xToY n byIn (if xToY then MIN_SQRT_PRICE else MAX_SQRT_PRICE)
  ok who (.swap k xToY n byIn q.targetPrice)

/-- `init_slippage_pool_with_liquidity!` (`tests/helper.rs:915-987`). -/
def slippagePool : Test Unit := do
  basicPool
  approveBoth (10 ^ 10)
  openNow basicKey (-1000) 1000 (liq 10000000000)
  check ((← pool basicKey).liquidity = liq 10000000000)

end OraiV3.RepoTests
