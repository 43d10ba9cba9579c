import Verif.Tests.App

/-!
# The repository's integration tests, run on the model: positions, pools, administration, queries

The scenarios of the remaining files of `src/tests`, with their literal arguments and expectations.
-/

namespace OraiV3.RepoTests

/-! ## `tests/position.rs`, `tests/nft.rs` -/

def zeroKey : PoolKey := ⟨tokenX, tokenY, ⟨0, 1⟩⟩

/-- `test_create_position` (`tests/position.rs:14-56`) and `test_mint_nft` (`tests/nft.rs:18-62`). -/
example : passing (start 500 0) (do
    addPool zeroKey 10
    approveBoth 500
    openPos zeroKey (-10) 10 10) = true := by decide +kernel
example : passing (start 500 0) (do
    addPool zeroKey 10
    approveBoth 500
    ok alice (.mint zeroKey (-10) 10 10 0 MAX)) = true := by decide +kernel

/-- `test_position_same_upper_and_lower_tick` (`tests/position.rs:56-98`). -/
example : passing (start 500 0) (do
    addPool zeroKey 10
    approveBoth 500
    err alice (.createPosition zeroKey 10 10 10 0 MAX)) = true := by decide +kernel

/-- `test_remove_position` (`tests/position.rs:99-252`) and `test_burn_nft` (`tests/nft.rs:131-305`): the same
steps through the two interfaces. -/
def removeTest (nft : Bool) : Test Unit := do
  let make (lo hi : Int) (L : Nat) : Test Unit := do
    let p ← pool basicKey
    ok alice (if nft then .mint basicKey lo hi L p.sqrtPrice p.sqrtPrice
      else .createPosition basicKey lo hi L p.sqrtPrice p.sqrtPrice)
  basicPool
  approveBoth (10 ^ 10)
  make (-20) 10 (liq 1000000)
  check ((← pool basicKey).liquidity = liq 1000000)
  approveBoth (liq 1000000 * 1000000)
  make (-70) 60 (liq 1000000 * 1000000)
  let pos ← (if nft then ask fun s => queryNftInfo s (positionKey alice 1) else position alice 1)
  check (pos.lower = -70 ∧ pos.upper = 60)
  mint tokenX bob 1000
  check ((← balance tokenX bob) = 1000)
  approve tokenX bob 1000
  let before ← pool basicKey
  ok bob (.swap basicKey true 1000 true MIN_SQRT_PRICE)
  let after ← pool basicKey
  check (after.fgX = 49999950000049999)
  check (after.protoX = 1 ∧ after.protoY = 0)
  check (after.sqrtPrice < before.sqrtPrice)
  check (after.liquidity = before.liquidity)
  check (after.tick = -10)
  check ((← balance tokenX bob) = 0)
  check ((← balance tokenY bob) = 993)
  let x ← balance tokenX dex
  let y ← balance tokenY dex
  ok alice (if nft then .burn (positionKey alice 0) else .removePosition 0)
  refuse fun s => getTick s basicKey (-20)
  refuse fun s => getTick s basicKey 10
  check ((← balance tokenX dex) + 499 = x)
  check ((← balance tokenY dex) + 999 = y)
  check ((← bit basicKey (-20)) = false)
  check ((← bit basicKey 10) = false)
  let p ← pool basicKey
  check (p.liquidity = liq 1000000 * 1000000)
  check (p.tick = -10)

example : passing (start (10 ^ 10) (pct 1 2)) (removeTest false) = true := by decide +kernel
example : passing (start (10 ^ 10) (pct 1 2)) (removeTest true) = true := by decide +kernel

/-- `test_query_nft` (`tests/nft.rs:64-129`). -/
example : passing (start 500 0) (do
    addPool zeroKey 10
    approveBoth 500
    ok alice (.mint zeroKey (-10) 10 10 0 MAX)
    let p ← ask fun s => queryNftInfo s (positionKey alice 0)
    check (p.poolKey = zeroKey)
    let t ← ask fun s => queryTokens s alice none none
    check (t.length = 1)) = true := by decide +kernel

def fourKey : PoolKey := ⟨tokenX, tokenY, ⟨pct 2 4, 4⟩⟩

/-- The common part of the three tests that follow: one position in a pool at tick -23028. -/
def rangeTest (supply : Nat) (lower upper : Int) (L poolL x y : Nat) : Test Unit := do
  addPool fourKey (-23028)
  approveBoth supply
  openAbove fourKey lower upper L
  let pos ← position alice 0
  let p ← pool fourKey
  let lo ← tick fourKey lower
  let hi ← tick fourKey upper
  check (lo.index = lower ∧ hi.index = upper)
  check (lo.gross = L ∧ hi.gross = L ∧ lo.change = L ∧ hi.change = L)
  check (lo.sign = true ∧ hi.sign = false)
  check (p.liquidity = poolL ∧ p.tick = -23028)
  check (core pos = ⟨fourKey, L, lower, upper, 0, 0, pos.owedX, pos.owedY⟩)
  check ((← balance tokenX alice) = supply - x)
  check ((← balance tokenY alice) = supply - y)
  check ((← balance tokenX dex) = x)
  check ((← balance tokenY dex) = y)

/-- `test_position_within_current_tick` (`tests/position.rs:253-349`). -/
example : passing (start 100000000 0) (rangeTest 100000000 (-177440) 177440 (liq 100) (liq 100) 317 32) = true := by
  decide +kernel
/-- `test_position_below_current_tick` (`tests/position.rs:350-443`). -/
example : passing (start 10000000000 0)
    (rangeTest 10000000000 (-46080) (-23040) (liq 10000) 0 0 2162) = true := by decide +kernel
/-- `test_position_above_current_tick` (`tests/position.rs:444-536`). -/
example : passing (start 10000000000 0)
    (rangeTest 10000000000 (-22980) 0 (liq 10000) 0 21549 0) = true := by decide +kernel

/-! ## `tests/position_list.rs` -/

def threeKey : PoolKey := ⟨tokenX, tokenY, ⟨pct 2 4, 3⟩⟩

/-- `test_remove_position_from_empty_list` (`tests/position_list.rs:12-38`). -/
example : passing (start (10 ^ 10) (pct 6 3)) (do
    addPool ⟨tokenX, tokenY, ⟨pct 6 3, 3⟩⟩ (-23028)
    err alice (.removePosition 0)) = true := by decide +kernel

/-- The start of `test_add_multiple_positions` and `test_only_owner_can_modify_position_list`: four positions,
one of them removed, another added. -/
def fourPositions : Test Unit := do
  addPool threeKey (-23028)
  approveBoth (10 ^ 10)
  openAbove threeKey (-9780) (-42) (liq 1000000)
  openAbove threeKey (-9780) (-42) (liq 1000000)
  openAbove threeKey (-9780) 0 (liq 1000000)
  openAbove threeKey (-42) 276 (liq 1000000)
  let before ← positions alice
  ok alice (.removePosition 2)
  let after ← positions alice
  check (before.getLast?.map core = after[2]?.map core ∧ after[2]?.isSome)
  openAbove threeKey (-42) 0 (liq 1000000)
  check ((← positions alice).length = after.length + 1)

/-- `test_add_multiple_positions` (`tests/position_list.rs:40-223`). -/
example : passing (start (10 ^ 10) 0) (do
    fourPositions
    let n := (← positions alice).length
    ok alice (.removePosition (n - 1))
    check ((← positions alice).length + 1 = n)
    check (n = 4)
    ok alice (.removePosition 2)
    ok alice (.removePosition 1)
    ok alice (.removePosition 0)
    check ((← positions alice).length = 0)
    openAbove threeKey (-9780) (-42) (liq 1000000)
    check ((← positions alice).length = 1)) = true := by decide +kernel

/-- `test_only_owner_can_modify_position_list` (`tests/position_list.rs:224-381`). -/
example : passing (start (10 ^ 10) 0) (do
    fourPositions
    err bob (.removePosition ((← positions alice).length - 1))) = true := by decide +kernel

/-- `test_transfer_position_ownership` (`tests/position_list.rs:382-581`) and `test_transfer_nft`
(`tests/nft.rs:306-851`): the same steps through the two interfaces. -/
def transferTest (nft : Bool) : Test Unit := do
  let make (lo hi : Int) : Test Unit := do
    let p ← pool threeKey
    ok alice (if nft then .mint threeKey lo hi (liq 1000000) p.sqrtPrice MAX
      else .createPosition threeKey lo hi (liq 1000000) p.sqrtPrice MAX)
  let give (src dst : Bytes) (i : Nat) : Test Unit :=
    ok src (if nft then .transferNft dst (positionKey src i) else .transferPosition i dst)
  let get (who : Bytes) (i : Nat) : Test Position :=
    if nft then ask fun s => queryNftInfo s (positionKey who i) else position who i
  let count (who : Bytes) : Test Nat :=
    if nft then do pure (← ask fun s => queryTokens s who none none).length else do pure (← positions who).length
  addPool threeKey (-23028)
  approveBoth (10 ^ 10)
  make (-9780) (-42)
  check ((← count alice) = 1)
  make (-9780) (-42)
  make (-42) 0
  (if nft then make 0 9 else make (-42) 9)
  -- first
  let gone ← get alice 0
  let last ← get alice 3
  give alice bob 0
  check (core (← get bob 0) = core gone)
  check (core (← get alice 0) = core last)
  check ((← count bob) = 1)
  check ((← count alice) = 3)
  -- middle
  let last ← get alice 2
  give alice bob 1
  check (core (← get alice 1) = core last)
  check ((← count bob) = 2)
  check ((← count alice) = 2)
  -- last
  let gone ← get alice 1
  give alice bob 1
  check ((← count bob) = 3)
  check (core (← get bob 2) = core gone)
  -- the only one left
  let gone ← get alice 0
  give alice bob 0
  check ((← count bob) = 4)
  check ((← count alice) = 0)
  check (core (← get bob 3) = core gone)
  -- back
  let gone ← get bob 0
  let last ← get bob 3
  give bob alice 0
  check (core (← get bob 0) = core last)
  check (core (← get alice 0) = core gone)
  check ((← count bob) = 3)
  check ((← count alice) = 1)

example : passing (start (10 ^ 10) 0) (transferTest false) = true := by decide +kernel
example : passing (start (10 ^ 10) 0) (transferTest true) = true := by decide +kernel

/-- `test_only_owner_can_transfer_position` (`tests/position_list.rs:582-680`) and
`test_only_owner_can_transfer_nft` (`tests/nft.rs:852-984`). -/
example : passing (start (10 ^ 10) 0) (do
    addPool threeKey (-23028)
    approveBoth (10 ^ 10)
    openAbove threeKey (-9780) (-42) (liq 1000000)
    openAbove threeKey (-9780) (-42) (liq 1000000)
    openAbove threeKey (-42) 0 (liq 1000000)
    openAbove threeKey (-42) 9 (liq 1000000)
    err bob (.transferPosition 0 alice)
    err bob (.transferNft alice (positionKey bob 0))) = true := by decide +kernel

def sameTickKey : PoolKey := ⟨tokenX, tokenY, ⟨pct 2 4, 10⟩⟩

/-- `test_multiple_positions_on_same_tick` (`tests/position_list.rs:681-942`). -/
example : passing (start 100000000 0) (do
    addPool sameTickKey 0
    approveBoth 100000000
    openAbove sameTickKey (-10) 10 100
    openAbove sameTickKey (-10) 10 100
    openAbove sameTickKey (-10) 10 100
    let all ← positions alice
    check (all.map core = List.replicate 3 ⟨sameTickKey, 100, -10, 10, 0, 0, 0, 0⟩)
    let lo ← tick sameTickKey (-10)
    let hi ← tick sameTickKey 10
    check (lo.index = -10 ∧ hi.index = 10)
    check (lo.gross = 300 ∧ hi.gross = 300 ∧ lo.change = 300 ∧ hi.change = 300)
    check (lo.sign = true ∧ hi.sign = false)
    let p ← pool sameTickKey
    check (p.liquidity = 300 ∧ p.tick = 0)
    openAbove sameTickKey (-10) 10 100
    openAbove sameTickKey (-20) (-10) 100
    openAbove sameTickKey 10 20 100
    check (core (← position alice 3) = ⟨sameTickKey, 100, -10, 10, 0, 0, 0, 0⟩)
    check (core (← position alice 4) = ⟨sameTickKey, 100, -20, -10, 0, 0, 0, 0⟩)
    check (core (← position alice 5) = ⟨sameTickKey, 100, 10, 20, 0, 0, 0, 0⟩)
    let p ← pool sameTickKey
    let a ← tick sameTickKey (-20)
    let b ← tick sameTickKey (-10)
    let c ← tick sameTickKey 10
    let d ← tick sameTickKey 20
    check ((a.index, a.gross, a.change, a.sign) = (-20, 100, 100, true))
    check ((b.index, b.gross, b.change, b.sign) = (-10, 500, 300, true))
    check ((c.index, c.gross, c.change, c.sign) = (10, 500, 300, false))
    check ((d.index, d.gross, d.change, d.sign) = (20, 100, 100, false))
    check ((← bit sameTickKey (-20)) = true)
    check ((← bit sameTickKey (-10)) = true)
    check ((← bit sameTickKey 20) = true)
    check (p.liquidity = 400 ∧ p.tick = 0)) = true := by decide +kernel

/-! ## `tests/position_slippage.rs` -/

/-- `test_position_slippage_zero_slippage_and_inside_range`, `…_below_range`, `…_above_range`. -/
example : passing (start (10 ^ 23) (pct 1 2)) (do
    slippagePool
    openNow basicKey (-10) 10 (liq 1000000)
    ok alice (.createPosition basicKey (-10) 10 (liq 1000000) 994734637981406576896367 1025038048074314166333500)) =
    true := by decide +kernel
example : passing (start (10 ^ 23) (pct 1 2)) (do
    slippagePool
    err alice (.createPosition basicKey (-10) 10 (liq 1000000) 1014432353584998786339859 1045335831204498605270797)) =
    true := by decide +kernel
example : passing (start (10 ^ 23) (pct 1 2)) (do
    slippagePool
    err alice (.createPosition basicKey (-10) 10 (liq 1000000) 955339206774222158009382 984442481813945288458906)) =
    true := by decide +kernel

/-! ## `tests/{add_fee_tier,remove_fee_tier,admin,change_fee_receiver,change_protocol_fee}.rs` -/

/-- `test_add_multiple_fee_tiers` and the other tests of `tests/add_fee_tier.rs`. -/
example : passing (start 0 0) (do
    ok alice (.addFeeTier ⟨1, 1⟩)
    ok alice (.addFeeTier ⟨1, 2⟩)
    ok alice (.addFeeTier ⟨1, 4⟩)
    let t ← ask queryFeeTiers
    check (⟨1, 1⟩ ∈ t ∧ ⟨1, 2⟩ ∈ t ∧ ⟨1, 4⟩ ∈ t ∧ t.length = 3)) = true := by decide +kernel
example : passing (start 0 0) (do
    err bob (.addFeeTier ⟨1, 1⟩)
    ok alice (.addFeeTier ⟨0, 10⟩)
    err alice (.addFeeTier ⟨1, 0⟩)
    err alice (.addFeeTier ⟨1, 101⟩)
    err alice (.addFeeTier ⟨1000000000000, 10⟩)) = true := by decide +kernel

/-- The three tests of `tests/remove_fee_tier.rs`. -/
example : passing (start 0 0) (do
    ok alice (.addFeeTier ⟨pct 2 4, 1⟩)
    err alice (.removeFeeTier ⟨pct 2 4, 2⟩)
    ok alice (.addFeeTier ⟨pct 2 4, 2⟩)
    err bob (.removeFeeTier ⟨pct 2 4, 2⟩)
    ok alice (.removeFeeTier ⟨pct 2 4, 2⟩)
    check ((← ask fun s => queryFeeTierExist s ⟨pct 2 4, 2⟩) = false)) = true := by decide +kernel

/-- `tests/admin.rs`, `tests/change_protocol_fee.rs`. -/
example : passing (start 0 0) (do
    check ((← ask queryAdmin) = alice)
    check ((← ask queryProtocolFee) = 0)
    err bob (.changeProtocolFee 1)
    ok alice (.changeProtocolFee 1)
    check ((← ask queryProtocolFee) = 1)
    err bob (.changeAdmin bob)
    ok alice (.changeAdmin bob)
    check ((← ask queryAdmin) = bob)) = true := by decide +kernel

/-- `tests/change_fee_receiver.rs`. -/
example : passing (start 500 0) (do
    addPool ⟨tokenX, tokenY, ⟨1, 1⟩⟩ 0
    ok alice (.changeFeeReceiver ⟨tokenX, tokenY, ⟨1, 1⟩⟩ alice)
    check ((← pool ⟨tokenX, tokenY, ⟨1, 1⟩⟩).feeReceiver = alice)
    addPool ⟨tokenX, tokenY, ⟨1, 100⟩⟩ 0
    err bob (.changeFeeReceiver ⟨tokenX, tokenY, ⟨1, 100⟩⟩ bob)) = true := by decide +kernel

/-! ## `tests/create_pool.rs` -/

/-- All tests of the file but the one that creates a thousand pools. -/
example : passing (start (10 ^ 10) (pct 6 3)) (do
    err alice (.createPool tokenX tokenY basicTier (sqrtPriceAt 0) 0)
    ok alice (.addFeeTier basicTier)
    err alice (.createPool tokenX tokenX basicTier (sqrtPriceAt 0) 0)
    ok alice (.createPool tokenX tokenY basicTier (sqrtPriceAt 0) 0)
    check ((← pool basicKey).tick = 0)
    err alice (.createPool tokenY tokenX basicTier (sqrtPriceAt 0) 0)
    ok alice (.addFeeTier ⟨pct 6 3, 3⟩)
    err alice (.createPool tokenX tokenY ⟨pct 6 3, 3⟩ (sqrtPriceAt 2) 2)
    ok alice (.createPool tokenX tokenY ⟨pct 6 3, 3⟩ (sqrtPriceAt 0 + 1) 0)
    check ((← pool ⟨tokenX, tokenY, ⟨pct 6 3, 3⟩⟩).tick = 0)
    ok alice (.addFeeTier ⟨pct 5 1, 1⟩)
    err alice (.createPool tokenX tokenY ⟨pct 5 1, 1⟩ 1000175003749000000000000 2)
    ok alice (.createPool tokenX tokenY ⟨pct 5 1, 1⟩ 1000175003749000000000000 3)
    check ((← pool ⟨tokenX, tokenY, ⟨pct 5 1, 1⟩⟩).tick = 3)
    ok alice (.addFeeTier ⟨pct 5 1, 3⟩)
    err alice (.createPool tokenX tokenY ⟨pct 5 1, 3⟩ 1000225003749000000000000 0)
    ok alice (.createPool tokenX tokenY ⟨pct 5 1, 3⟩ 1000225003749000000000000 3)
    check ((← pool ⟨tokenX, tokenY, ⟨pct 5 1, 3⟩⟩).tick = 3)) = true := by decide +kernel

/-! ## `tests/interaction_with_pool_on_removed_fee_tier.rs:12-130` -/

/-- `test_interaction_with_pool_on_removed_fee_tier`. -/
example : passing (start (10 ^ 10) (pct 1 2)) (do
    basicPool
    ok alice (.removeFeeTier basicTier)
    check ((← ask fun s => queryFeeTierExist s basicTier) = false)
    err alice (.createPool tokenX tokenY basicTier (sqrtPriceAt 0) 0)
    basicPosition
    basicSwap
    let x ← balance tokenX alice
    let y ← balance tokenY alice
    ok alice (.claimFee 0)
    check ((← balance tokenX alice) = x + 5)
    check ((← balance tokenY alice) = y)
    ok alice (.changeFeeReceiver basicKey bob)
    ok bob (.withdrawProtocolFee basicKey)
    ok alice (.removePosition 0)
    let _ ← pool basicKey
    let ps ← ask fun s => queryPools s (some 1) none
    check (ps.map (·.1) = [basicKey])
    basicPosition
    let gone ← position alice 0
    ok alice (.transferPosition 0 bob)
    check (core (← position bob 0) = core gone)
    check ((← positions bob).length = 1)
    check ((← positions alice).length = 0)
    ok alice (.addFeeTier basicTier)
    err alice (.createPool tokenX tokenY basicTier (sqrtPriceAt 0) 0)) = true := by decide +kernel

/-! ## `tests/{get_tickmap,get_liquidity_ticks,get_position_ticks}.rs`

All tests of these files but those that open hundreds of positions to reach the limit of a query. -/

def mapKey (spacing : Nat) : PoolKey := ⟨tokenX, tokenY, ⟨pct 5 1, spacing⟩⟩
def tickKey1 (spacing : Nat) : PoolKey := ⟨tokenX, tokenY, ⟨pct 1 2, spacing⟩⟩

/-- The whole tickmap of a pool. -/
def tickmap (k : PoolKey) (xToY : Bool) : Test (List (Nat × Nat)) :=
  ask fun s => queryTickmap s k (getMinTick k.tier.spacing) (getMaxTick k.tier.spacing) xToY

/-- `test_get_tickmap`. -/
example : passing (start (10 ^ 10) 0) (do
    approveBoth (10 ^ 10)
    addPool (mapKey 1) 0
    openAbove (mapKey 1) (-58) 5 1000
    check ((← tickmap (mapKey 1) false) = [(3465, 2 ^ 63 + 1)])) = true := by decide +kernel

/-- `test_get_tickmap_tick_spacing_over_one`. -/
example : passing (start (10 ^ 10) 0) (do
    approveBoth (10 ^ 10)
    addPool (mapKey 10) 0
    openAbove (mapKey 10) 10 20 1000
    openAbove (mapKey 10) (getMinTick 10) (getMaxTick 10) 1000
    check ((← tickmap (mapKey 10) false) = [(0, 1), (346, 2 ^ 39 + 2 ^ 38), (getMaxChunk 10, 2 ^ 10)])) = true := by
  decide +kernel

/-- `test_get_tickmap_edge_ticks_intialized`. -/
example : passing (start (10 ^ 10) 0) (do
    approveBoth (10 ^ 10)
    addPool (mapKey 1) 0
    openAbove (mapKey 1) (-221818) (-221817) 1000
    openAbove (mapKey 1) 221817 221818 1000
    check ((← tickmap (mapKey 1) false) = [(0, 3), (getMaxChunk 1, 2 ^ 52 + 2 ^ 51)])
    check ((← tickmap (mapKey 1) true) = [(getMaxChunk 1, 2 ^ 52 + 2 ^ 51), (0, 3)])) = true := by decide +kernel

/-- `test_get_liquidity_ticks` and `test_get_liquidity_ticks_with_offset`. -/
example : passing (start (10 ^ 10) (pct 1 2)) (do
    addPool (tickKey1 1) 0
    approveBoth 500
    openPos (tickKey1 1) (-10) 10 10
    check ((← ask fun s => queryLiquidityTicksAmount s (tickKey1 1) (-10) 10) = 2)
    let m ← ask fun s => queryTickmap s (tickKey1 1) (-10) 10 false
    check (m.length = 2)
    let ts := m.flatMap fun (c, v) => (List.range 64).filterMap fun (i : Nat) =>
      if v.testBit i then some ((64 * c + i : Int) - MAX_TICK) else none
    check (ts = [-10, 10])
    let lo ← tick (tickKey1 1) (-10)
    let hi ← tick (tickKey1 1) 10
    let r ← ask fun s => queryLiquidityTicks s (tickKey1 1) ts
    check (r = [(lo.index, lo.change, lo.sign), (hi.index, hi.change, hi.sign)])
    let r' ← ask fun s => queryLiquidityTicks s (tickKey1 1) [10]
    check (r'.length = 1 ∧ r'[0]? = r[1]?)) = true := by decide +kernel

/-- `test_get_liquidity_ticks_different_tick_spacings` and `test_get_position_ticks_with_offset`. -/
example : passing (start (10 ^ 10) (pct 1 2)) (do
    addPool (tickKey1 2) 0
    addPool (tickKey1 10) 0
    approveBoth (10 ^ 10)
    openPos (tickKey1 2) (-10) 30 10
    openPos (tickKey1 10) (-20) 40 10
    check ((← ask fun s => queryLiquidityTicksAmount s (tickKey1 2) (-10) 30) = 2)
    check ((← ask fun s => queryLiquidityTicks s (tickKey1 2) [-10, 30]).length = 2)
    check ((← ask fun s => queryLiquidityTicksAmount s (tickKey1 10) (-20) 40) = 2)
    check ((← ask fun s => queryLiquidityTicks s (tickKey1 10) [-20, 40]).length = 2)
    let a ← ask fun s => queryPositionTicks s alice 0
    check (a.length = 4)
    let b ← ask fun s => queryPositionTicks s alice 1
    check (b.length = 2)
    check (a[2]? = b[0]? ∧ a[3]? = b[1]?)) = true := by decide +kernel

/-- `test_get_position_ticks`. -/
example : passing (start (10 ^ 10) (pct 1 2)) (do
    addPool (tickKey1 1) 0
    approveBoth 500
    openPos (tickKey1 1) (-10) 10 10
    let r ← ask fun s => queryPositionTicks s alice 0
    let lo ← tick (tickKey1 1) (-10)
    let hi ← tick (tickKey1 1) 10
    check (r = [⟨lo.index, lo.outX, lo.outY, lo.secondsOutside⟩,
      ⟨hi.index, hi.outX, hi.outY, hi.secondsOutside⟩])) = true := by decide +kernel

end OraiV3.RepoTests
