import Verif.Tests.App

/-!
# The repository's integration tests, run on the model: the long ones

The tests of `src/tests` that open hundreds of positions or pools. They are evaluated with `#guard` — Lean's
interpreter, not the kernel: they are tests of the transcription, and no theorem depends on them.
-/

namespace OraiV3.RepoTests

/-- `max_tick_cross` (`tests/max_tick_cross.rs:14-88`). -/
def maxTickCross : Test Unit := do
  basicPool
  approveBoth MAX
  for i in List.range 258 do
    openNow basicKey ((10 * i : Int) - 2560) ((10 * i : Int) - 2550) (liq 10000000)
  check ((← pool basicKey).liquidity = liq 10000000)
  mint tokenX bob 760000
  check ((← balance tokenX bob) = 760000)
  approve tokenX bob 760000
  let before ← pool basicKey
  let q ← quote basicKey true 760000 true MIN_SQRT_PRICE
  check ((← pool basicKey).tick = before.tick)
  check (q.ticks.length = 146)
  ok bob (.swap basicKey true 760000 true MIN_SQRT_PRICE)
  let after ← pool basicKey
  check ((after.tick - before.tick).natAbs / 10 = 146)
  check (some after.tick = (getTickAtSqrtPrice q.targetPrice 10).toOption)

#guard passing (start (10 ^ 10) (pct 1 2)) maxTickCross

/-- `test_create_many_pools_success` (`tests/create_pool.rs:298-340`): a thousand pools of two thousand tokens. -/
def manyPools : Test Unit := do
  ok alice (.addFeeTier basicTier)
  for i in List.range 1000 do
    ok alice (.createPool [1, Fin.ofNat 256 (i / 256), Fin.ofNat 256 (i % 256)]
      [2, Fin.ofNat 256 (i / 256), Fin.ofNat 256 (i % 256)] basicTier (sqrtPriceAt 0) 0)

#guard passing (start (10 ^ 10) (pct 6 3)) manyPools

def halfKey : PoolKey := ⟨tokenX, tokenY, ⟨pct 5 1, 1⟩⟩
def cheapKey : PoolKey := ⟨tokenX, tokenY, ⟨pct 1 2, 1⟩⟩

/-- The whole tickmap after one position of width one in each of `n` chunks, the first at `first`. -/
def chunks (initTick first : Int) (n : Nat) : Test (List (Nat × Nat)) := do
  approveBoth (10 ^ 10)
  addPool halfKey initTick
  for i in List.range n do
    openAbove halfKey (first + 64 * i) (first + 64 * i + 1) 1000
  ask fun s => queryTickmap s halfKey (getMinTick 1) (getMaxTick 1) false

/-- `test_get_tickmap_more_chunks_above` (`tests/get_tickmap.rs:309-370`). -/
def chunksAbove : Test Unit := do
  check ((← chunks 0 6 821) = (List.range 821).map fun (i : Nat) => (3466 + i, 3))
#guard passing (start (10 ^ 10) 0) chunksAbove

/-- `test_get_tickmap_more_chunks_below` (`tests/get_tickmap.rs:373-439`). -/
def chunksBelow : Test Unit := do
  check ((← chunks 0 (-52544) 822) = (List.range 822).map fun (i : Nat) => (2644 + i, 3 * 2 ^ 58))
#guard passing (start (10 ^ 10) 0) chunksBelow

/-- `test_get_tickmap_max_chunks_returned` (`tests/get_tickmap.rs:442-503`). It passes too, but takes more than three
minutes, so it is not part of the build. -/
def chunksMost : Test Unit := do
  check ((← chunks (-200000) 0 1638).length = 1638)

/-- `LIQUIDITY_TICK_LIMIT` (`storage/tick.rs:26,29`). -/
abbrev LIQUIDITY_TICK_LIMIT : Nat := 131072 / (32 + 128 + 8)

/-- One position `[-i·spread, i·spread]` for each `i` from 1 to `n`. -/
def nested (n spread : Nat) : Test Unit := do
  addPool cheapKey 0
  approveBoth (10 ^ 10)
  for i in List.range n do
    openPos cheapKey (-((i + 1) * spread : Nat)) ((i + 1) * spread : Nat) 10

/-- `test_get_liquidity_ticks_limit` (`spread` 1) and `test_get_liquidity_ticks_limit_with_spread` (64)
(`tests/get_liquidity_ticks.rs:183-311`), counted over `[-width, width]`. -/
def liquidityTicksLimit (spread width : Nat) : Test Unit := do
  nested (LIQUIDITY_TICK_LIMIT / 2) spread
  check ((← ask fun s => queryLiquidityTicksAmount s cheapKey (-width) width) = LIQUIDITY_TICK_LIMIT)
  let ts := (List.range (LIQUIDITY_TICK_LIMIT / 2)).flatMap fun (i : Nat) =>
    [(((i + 1) * spread : Nat) : Int), -(((i + 1) * spread : Nat) : Int)]
  check ((← ask fun s => queryLiquidityTicks s cheapKey ts).length = LIQUIDITY_TICK_LIMIT)
#guard passing (start (10 ^ 10) (pct 1 2)) (liquidityTicksLimit 1 LIQUIDITY_TICK_LIMIT)
#guard passing (start (10 ^ 10) (pct 1 2)) (liquidityTicksLimit 64 (LIQUIDITY_TICK_LIMIT * 64 / 2))

/-- `test_get_position_ticks_limit` (`tests/get_position_ticks.rs:74-133`). -/
def positionTicksLimit : Test Unit := do
  nested (POSITION_TICK_LIMIT / 2) 1
  let r ← ask fun s => queryPositionTicks s alice 0
  check (r.length = POSITION_TICK_LIMIT)
  for i in List.range (POSITION_TICK_LIMIT / 2) do
    let lo ← tick cheapKey (-(i + 1 : Nat))
    let hi ← tick cheapKey (i + 1 : Nat)
    check (r[2 * i]? = some ⟨lo.index, lo.outX, lo.outY, lo.secondsOutside⟩)
    check (r[2 * i + 1]? = some ⟨hi.index, hi.outX, hi.outY, hi.secondsOutside⟩)
#guard passing (start (10 ^ 10) (pct 1 2)) positionTicksLimit

end OraiV3.RepoTests
