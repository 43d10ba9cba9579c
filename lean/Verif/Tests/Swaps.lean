import Verif.Tests.App

/-!
# The repository's integration tests, run on the model: swaps and fees

The scenarios of `src/tests/{swap,cross,cross_both_size,protocol_fee,claim,slippage,liquidity_gap,swap_route,
multiple_swap,limits}.rs`, with their literal arguments and expectations.
-/

namespace OraiV3.RepoTests

/-! ## `tests/swap.rs` -/

/-- `test_swap_x_to_y` and `test_swap_y_to_x` (`tests/swap.rs:15-290`), which mirror each other. -/
def swapBoth (xToY : Bool) : Test Unit := do
  let lower : Int := if xToY then -20 else -10
  let middle : Int := if xToY then -10 else 10
  let upper : Int := if xToY then 10 else 20
  let tin := if xToY then tokenX else tokenY
  let tout := if xToY then tokenY else tokenX
  addPool basicKey 0
  approveBoth (10 ^ 10)
  openPos basicKey lower upper (liq 1000000)
  (if xToY then openPos basicKey (lower - 20) middle (liq 1000000)
   else openPos basicKey middle (upper + 20) (liq 1000000))
  check ((← pool basicKey).liquidity = liq 1000000)
  mint tin bob 1000
  approve tin bob 1000
  let q ← quote basicKey xToY 1000 true (if xToY then MIN_SQRT_PRICE else MAX_SQRT_PRICE)
  let beforeIn ← balance tin dex
  let beforeOut ← balance tout dex
  ok bob (.swap basicKey xToY 1000 true q.targetPrice)
  let p ← pool basicKey
  let lo ← tick basicKey lower
  let mi ← tick basicKey middle
  let up ← tick basicKey upper
  check ((← balance tin bob) = 0)
  check ((← balance tout bob) = 990)
  check ((← balance tin dex) = beforeIn + 1000)
  check ((← balance tout dex) + 990 = beforeOut)
  check ((if xToY then p.fgY else p.fgX) = 0)
  check ((if xToY then p.fgX else p.fgY) = 40000000000000000000000)
  check ((if xToY then p.protoY else p.protoX) = 0)
  check ((if xToY then p.protoX else p.protoY) = 2)
  check (lo.change = liq 1000000 ∧ mi.change = liq 1000000 ∧ up.change = liq 1000000)
  check ((if xToY then up.outX else up.outY) = 0)
  check ((if xToY then mi.outX else mi.outY) = 30000000000000000000000)
  check ((if xToY then lo.outX else lo.outY) = 0)
  check ((← bit basicKey lower) = true)
  check ((← bit basicKey middle) = true)
  check ((← bit basicKey upper) = true)

example : passing (start (10 ^ 10) (pct 6 3)) (swapBoth true) = true := by decide +kernel
example : passing (start (10 ^ 10) (pct 6 3)) (swapBoth false) = true := by decide +kernel

/-- `test_swap_not_enough_liquidity_token_x` (`tests/swap.rs:293-380`). -/
example : passing (start (10 ^ 10) (pct 6 3)) (do
    addPool basicKey 0
    approveBoth (10 ^ 10)
    openPos basicKey (-10) 20 (liq 1000000)
    openPos basicKey 10 40 (liq 1000000)
    check ((← pool basicKey).liquidity = liq 1000000)
    mint tokenX bob 1000
    approve tokenX bob 1000
    err bob (.swap basicKey true 1000 true MIN_SQRT_PRICE)) = true := by decide +kernel

/-- `test_swap_not_enough_liquidity_token_y` (`tests/swap.rs:383-474`). -/
example : passing (start (10 ^ 10) (pct 6 3)) (do
    addPool basicKey 0
    approveBoth (10 ^ 10)
    openPos basicKey (-20) 10 (liq 1000000)
    openPos basicKey (-40) (-10) (liq 1000000)
    check ((← pool basicKey).liquidity = liq 1000000)
    mint tokenY bob 1000
    approve tokenY bob 1000
    err bob (.swap basicKey false 1000 true MAX_SQRT_PRICE)) = true := by decide +kernel

/-! ## `tests/cross.rs`, `tests/cross_both_size.rs` -/

/-- `test_cross` (`tests/cross.rs:14-56`). -/
example : passing (start (10 ^ 10) (pct 1 2)) (do
    basicPool; basicPosition; crossPosition; crossSwap
    let up ← tick basicKey 10
    let mi ← tick basicKey (-10)
    let lo ← tick basicKey (-20)
    check (up.change = liq 1000000 ∧ mi.change = liq 1000000 ∧ lo.change = liq 1000000)
    check (up.outX = 0)
    check (mi.outX = 30000000000000000000000)
    check (lo.outX = 0)) = true := by decide +kernel

/-- The amounts minted and approved before the swaps of the two tests. -/
abbrev crossMint : Nat := 10068 + 1 + 3 + 20136101434

/-- `test_cross_both_side` (`tests/cross_both_size.rs:14-252`). -/
example : passing (start (10 ^ 5) (pct 1 2)) (do
    basicPool
    mint tokenX bob (10 ^ 5)
    mint tokenY alice (10 ^ 5)
    approveBoth (10 ^ 5)
    openNow basicKey (-10) 10 (liq 20006000)
    openNow basicKey (-20) (-10) (liq 20006000)
    check ((← pool basicKey).liquidity = liq 20006000)
    mint tokenX alice crossMint
    mint tokenY alice crossMint
    approveBoth crossMint
    let before ← pool basicKey
    ok alice (.swap basicKey true 10068 true MIN_SQRT_PRICE)
    let p ← pool basicKey
    check (p.tick = -10)
    check (p.liquidity = before.liquidity)
    check (p.sqrtPrice = sqrtPriceAt (-10))
    ok alice (.swap basicKey true 3 true MIN_SQRT_PRICE)
    ok alice (.swap basicKey false 3 true MAX_SQRT_PRICE)
    mint tokenX alice (10 ^ 19)
    mint tokenY alice (10 ^ 19)
    approveBoth (10 ^ 19)
    ok alice (.createPosition basicKey (-20) 0 (liq 19996000399699881985603) MIN_SQRT_PRICE MAX_SQRT_PRICE)
    ok alice (.swap basicKey true 1 false MIN_SQRT_PRICE)
    ok alice (.swap basicKey false 2 true MAX_SQRT_PRICE)
    let p ← pool basicKey
    check (p.tick = -20)
    check (p.fgX = 29991002699190242927121)
    check (p.fgY = 0)
    check (p.protoX = 4)
    check (p.protoY = 2)
    check (p.liquidity = liq 19996000399699901991603)
    check (p.sqrtPrice = 999500149964999999999999)
    let last ← tick basicKey (-20)
    check (last.outX = 0 ∧ last.outY = 0 ∧ last.change = liq 19996000399699901991603)
    let lower ← tick basicKey (-10)
    check (lower.outX = 29991002699190242927121 ∧ lower.outY = 0 ∧ lower.change = 0)
    let upper ← tick basicKey 10
    check (upper.outX = 0 ∧ upper.outY = 0 ∧ upper.change = liq 20006000)) = true := by decide +kernel

/-- `test_cross_both_side_not_cross_case` (`tests/cross_both_size.rs:255-381`). -/
example : passing (start (10 ^ 10) (pct 1 2)) (do
    basicPool
    mint tokenX alice (10 ^ 5)
    mint tokenY alice (10 ^ 5)
    approveBoth (10 ^ 5)
    openNow basicKey (-10) 10 20006000000000
    openNow basicKey (-20) (-10) 20006000000000
    check ((← pool basicKey).liquidity = 20006000000000)
    mint tokenX alice crossMint
    mint tokenY alice crossMint
    approveBoth crossMint
    let before ← pool basicKey
    ok alice (.swap basicKey true 10068 true MIN_SQRT_PRICE)
    let p ← pool basicKey
    check (p.tick = -10)
    check (p.liquidity = before.liquidity)
    check (p.sqrtPrice = sqrtPriceAt (-10))
    err alice (.swap basicKey true 1 true MIN_SQRT_PRICE)) = true := by decide +kernel

/-! ## `tests/protocol_fee.rs`, `tests/claim.rs` -/

/-- `test_protocol_fee` (`tests/protocol_fee.rs:10-43`). -/
example : passing (start (10 ^ 10) (pct 1 2)) (do
    basicPool; basicPosition; basicSwap
    ok alice (.withdrawProtocolFee basicKey)
    check ((← balance tokenX alice) = 9999999501)
    check ((← balance tokenY alice) = 9999999000)
    check ((← balance tokenX dex) = 1499)
    check ((← balance tokenY dex) = 7)
    let p ← pool basicKey
    check (p.protoX = 0 ∧ p.protoY = 0)) = true := by decide +kernel

/-- `test_protocol_fee_not_admin` (`tests/protocol_fee.rs:46-65`). -/
example : passing (start (10 ^ 10) (pct 1 2)) (do
    basicPool; basicPosition; basicSwap
    err bob (.withdrawProtocolFee basicKey)) = true := by decide +kernel

/-- `test_withdraw_fee_not_deployer` (`tests/protocol_fee.rs:68-104`). -/
example : passing (start (10 ^ 10) (pct 1 2)) (do
    basicPool; basicPosition; basicSwap
    ok alice (.changeFeeReceiver basicKey bob)
    check ((← pool basicKey).feeReceiver = bob)
    ok bob (.withdrawProtocolFee basicKey)
    check ((← balance tokenX bob) = 1)
    check ((← balance tokenY bob) = 993)
    check ((← balance tokenX dex) = 1499)
    check ((← balance tokenY dex) = 7)
    let p ← pool basicKey
    check (p.protoX = 0 ∧ p.protoY = 0)) = true := by decide +kernel

/-- `test_claim` (`tests/claim.rs:11-41`). -/
example : passing (start (10 ^ 10) (pct 1 2)) (do
    basicPool; basicPosition; basicSwap
    let p ← pool basicKey
    let a ← balance tokenX alice
    let d ← balance tokenX dex
    ok alice (.claimFee 0)
    check ((← balance tokenX alice) = a + 5)
    check ((← balance tokenX dex) + 5 = d)
    let pos ← position alice 0
    check (pos.fgInX = p.fgX)
    check (pos.owedX = 0)) = true := by decide +kernel

/-- `test_claim_not_owner` (`tests/claim.rs:44-52`). -/
example : passing (start (10 ^ 10) (pct 1 2)) (do
    basicPool; basicPosition; basicSwap
    err bob (.claimFee 0)) = true := by decide +kernel

/-! ## `tests/slippage.rs` -/

/-- `test_basic_slippage` (`tests/slippage.rs:13-41`). -/
example : passing (start (10 ^ 23) (pct 1 2)) (do
    slippagePool
    approve tokenX alice (10 ^ 8)
    ok alice (.swap basicKey false (10 ^ 8) true 1009940000000000000000001)
    check ((← pool basicKey).sqrtPrice = 1009940000000000000000000)) = true := by decide +kernel

/-- `test_swap_close_to_limit` (`tests/slippage.rs:44-80`). -/
example : passing (start (10 ^ 23) (pct 1 2)) (do
    slippagePool
    approve tokenX alice (10 ^ 8)
    let q ← quote basicKey false (10 ^ 8) true MAX_SQRT_PRICE
    err alice (.swap basicKey false (10 ^ 8) true (q.targetPrice - 1))) = true := by decide +kernel

/-- `test_swap_exact_limit` (`tests/slippage.rs:83-104`). -/
example : passing (start (10 ^ 10) (pct 1 2)) (do
    basicPool; basicPosition
    mint tokenX bob 1000
    check ((← balance tokenX bob) = 1000)
    approve tokenX bob 1000
    swapExactLimit bob basicKey true 1000 true) = true := by decide +kernel

/-! ## `tests/liquidity_gap.rs:14-206` -/

/-- `test_liquidity_gap`. -/
example : passing (start (10 ^ 10) (pct 1 2)) (do
    basicPool
    mint tokenX alice (10 ^ 10)
    mint tokenY alice (10 ^ 10)
    approveBoth (10 ^ 10)
    openNow basicKey (-10) 10 (liq 20006000)
    check ((← pool basicKey).liquidity = liq 20006000)
    mint tokenX bob 10067
    approve tokenX bob 10067
    let x0 ← balance tokenX dex
    let y0 ← balance tokenY dex
    let q ← quote basicKey true 10067 true MIN_SQRT_PRICE
    ok bob (.swap basicKey true 10067 true q.targetPrice)
    let p ← pool basicKey
    check (p.liquidity = liq 20006000)
    check (p.tick = -10)
    check (p.sqrtPrice = sqrtPriceAt (-10))
    check ((← balance tokenX bob) = 0)
    check ((← balance tokenY bob) = 9999)
    check ((← balance tokenX dex) = x0 + 10067)
    check ((← balance tokenY dex) + 9999 = y0)
    check (p.fgX = 29991002699190242927121)
    check (p.fgY = 0)
    check (p.protoX = 1)
    check (p.protoY = 0)
    err bob (.swap basicKey true 1 true MIN_SQRT_PRICE)
    approveBoth (liq 20008000)
    openNow basicKey (-90) (-50) (liq 20008000)
    mint tokenX bob 5000
    approve tokenX bob 5000
    swapExactLimit bob basicKey true 5000 true) = true := by decide +kernel

/-! ## `tests/swap_route.rs:14-155` -/

def routeTier : FeeTier := ⟨pct 6 3, 1⟩
def key1 : PoolKey := ⟨tokenX, tokenY, routeTier⟩
def key2 : PoolKey := ⟨tokenY, tokenZ, routeTier⟩

/-- `swap_route`. -/
example : passing (start (10 ^ 10) (pct 6 3)) (do
    approveBoth (10 ^ 10)
    approve tokenZ alice (10 ^ 10)
    mint tokenX bob 1000
    approve tokenX bob 1000
    approve tokenY bob (10 ^ 10)
    addPool key1 0
    ok alice (.createPool tokenY tokenZ routeTier (sqrtPriceAt 0) 0)
    openNow key1 (-1) 1 (2 ^ 63 - 1)
    openNow key2 (-1) 1 (2 ^ 63 - 1)
    let out ← quoteRoute 1000 [⟨key1, true⟩, ⟨key2, true⟩]
    ok bob (.swapRoute 1000 out 0 [⟨key1, true⟩, ⟨key2, true⟩])
    check ((← balance tokenX bob) = 0)
    check ((← balance tokenY bob) = 0)
    check ((← balance tokenZ bob) = 986)
    let p1 ← pool key1
    check (p1.protoX = 1 ∧ p1.protoY = 0)
    let p2 ← pool key2
    check (p2.protoX = 1 ∧ p2.protoY = 0)
    let x ← balance tokenX alice
    let y ← balance tokenY alice
    let z ← balance tokenZ alice
    ok alice (.claimFee 0)
    ok alice (.claimFee 1)
    check ((← balance tokenX alice) = x + 4)
    check ((← balance tokenY alice) = y + 4)
    check ((← balance tokenZ alice) = z)) = true := by decide +kernel

/-! ## `tests/multiple_swap.rs` (`multiple_swap!`, `tests/helper.rs:1461-1609`) -/

def multiKey : PoolKey := ⟨tokenX, tokenY, ⟨pct 1 3, 1⟩⟩

/-- `multiple_swap!`: ten swaps of 10 each. -/
def multipleSwap (xToY : Bool) : Test Unit := do
  let tin := if xToY then tokenX else tokenY
  let tout := if xToY then tokenY else tokenX
  addPool multiKey 0
  approveBoth (10 ^ 10)
  let p ← pool multiKey
  let l ← ask fun _ => getLiquidity 100 100 (-953) 953 p.sqrtPrice true
  openNow multiKey (-953) 953 l.l
  mint tin bob 100
  check ((← balance tin bob) = 100)
  approve tin bob 100
  let rec go : Nat → Test Unit
    | 0 => pure ()
    | n + 1 => do swapExactLimit bob multiKey xToY 10 true; go n
  go 10
  let p ← pool multiKey
  check (p.tick = if xToY then -821 else 820)
  check (p.fgX = 0 ∧ p.fgY = 0)
  check (p.protoX = if xToY then 10 else 0)
  check (p.protoY = if xToY then 0 else 10)
  check (p.liquidity = l.l)
  check (p.sqrtPrice = if xToY then 959805958620596146276151 else 1041877257604411525269920)
  check ((← balance tin dex) = 200)
  check ((← balance tout dex) = 20)
  check ((← balance tin bob) = 0)
  check ((← balance tout bob) = 80)

example : passing (start (10 ^ 10) (pct 1 2)) (multipleSwap true) = true := by decide +kernel
example : passing (start (10 ^ 10) (pct 1 2)) (multipleSwap false) = true := by decide +kernel

/-! ## `tests/limits.rs` -/

def limitKey : PoolKey := ⟨tokenX, tokenY, ⟨pct 6 3, 1⟩⟩

/-- `big_deposit_and_swap!` (`tests/helper.rs:1612-1731`). -/
def bigDepositAndSwap (xToY : Bool) : Test Unit := do
  let n := 2 ^ 75 - 1
  approveBoth MAX
  addPool limitKey 0
  let lower : Int := if xToY then -1 else 0
  let upper : Int := if xToY then 0 else 1
  let p ← pool limitKey
  let l ← ask fun _ => if xToY then liquidityByY n lower upper p.sqrtPrice true
    else liquidityByX n lower upper p.sqrtPrice true
  openNow limitKey lower upper l.l
  let tin := if xToY then tokenX else tokenY
  let tout := if xToY then tokenY else tokenX
  check ((← balance tin alice) = 340282366920938463463374607431768211455)
  check ((← balance tout alice) = 340282366920938425684442744474606501888)
  ok alice (.swap limitKey xToY n true (if xToY then MIN_SQRT_PRICE else MAX_SQRT_PRICE))
  check ((← balance tin alice) = 340282366920938425684442744474606501888)
  check ((← balance tout alice) ≠ 0)

example : passing (start MAX (pct 1 2)) (bigDepositAndSwap true) = true := by decide +kernel
example : passing (start MAX (pct 1 2)) (bigDepositAndSwap false) = true := by decide +kernel

/-- The deposit that starts `test_limits_big_deposit_both_tokens` and `test_limits_big_deposit_and_swaps`. -/
def bigDepositBoth (n : Nat) : Test Unit := do
  approveBoth MAX
  addPool limitKey 0
  let p ← pool limitKey
  let l ← ask fun _ => liquidityByX n (-1) 1 p.sqrtPrice false
  let y ← ask fun _ => getDeltaY (sqrtPriceAt (-1)) p.sqrtPrice l.l true
  openNow limitKey (-1) 1 l.l
  check ((← balance tokenX alice) = MAX - n)
  check ((← balance tokenY alice) = MAX - y)
  check ((← balance tokenX dex) = n)
  check ((← balance tokenY dex) = y)

/-- `test_limits_big_deposit_both_tokens` (`tests/limits.rs:27-93`). -/
example : passing (start MAX (pct 1 2)) (bigDepositBoth (2 ^ 75 - 1)) = true := by decide +kernel

/-- `test_limits_big_deposit_and_swaps` (`tests/limits.rs:160-258`). -/
example : passing (start MAX (pct 1 2)) (do
    bigDepositBoth ((2 ^ 76 - 1) / 2)
    ok alice (.swap limitKey false ((2 ^ 76 - 1) / 8) true MAX_SQRT_PRICE)
    ok alice (.swap limitKey true ((2 ^ 76 - 1) / 8) true MIN_SQRT_PRICE)
    ok alice (.swap limitKey false ((2 ^ 76 - 1) / 8) true MAX_SQRT_PRICE)
    ok alice (.swap limitKey true ((2 ^ 76 - 1) / 8) true MIN_SQRT_PRICE)) = true := by decide +kernel

/-- `test_deposit_limits_at_upper_limit` (`tests/limits.rs:96-157`). -/
example : passing (start MAX (pct 1 2)) (do
    approveBoth MAX
    addPool limitKey (getMaxTick 1)
    let p ← pool limitKey
    check (p.tick = getMaxTick 1)
    check (p.sqrtPrice = sqrtPriceAt (getMaxTick 1))
    let l ← ask fun _ => liquidityByY (2 ^ 105 - 2) 0 MAX_TICK p.sqrtPrice false
    openNow limitKey 0 MAX_TICK l.l) = true := by decide +kernel

/-- `test_limits_full_range_with_max_liquidity` (`tests/limits.rs:261-317`). -/
example : passing (start MAX (pct 1 2)) (do
    approveBoth MAX
    addPool limitKey (getMaxTick 1)
    let p ← pool limitKey
    check (p.tick = getMaxTick 1)
    check (p.sqrtPrice = sqrtPriceAt (getMaxTick 1))
    openNow limitKey (-MAX_TICK) MAX_TICK (2 ^ 109 - 1)
    check ((← balance tokenX dex) = 0)
    check ((← balance tokenY dex) = 42534896005851865508212194815854)) = true := by decide +kernel

end OraiV3.RepoTests
