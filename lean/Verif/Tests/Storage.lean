import Verif.PoolOps
import Verif.State
import Verif.Tests.Arithmetic

/-!
# The repository's own unit tests, run on the model: pools, ticks, positions, bitmap

As in `Verif.Tests.Arithmetic`: the assertions of the `#[test]`s of `storage/*.rs` and `state.rs`, with
their literal arguments, run on `Verif.PoolOps` and `Verif.State`.
-/

namespace OraiV3.RepoTests

/-! ## `storage/pool.rs:196-552` -/

/-- `b"Fee Receiver"`. -/
def feeReceiver : Bytes := [70, 101, 101, 32, 82, 101, 99, 101, 105, 118, 101, 114]

/-- `create`: the first pool, field by field. -/
example : passes [(Pool.create (sqrtPriceAt 100) 100 100 1 feeReceiver,
    .ok { sqrtPrice := sqrtPriceAt 100, tick := 100, startTs := 100, lastTs := 100,
          feeReceiver := feeReceiver })] = true := by decide +kernel

/-- `create`: the current tick of the pools created, the errors of the others. -/
example : passes [
    (Pool.tick <$> Pool.create (sqrtPriceAt 0 + 1) 0 100 3 feeReceiver, .ok 0),
    (Pool.tick <$> Pool.create 1000175003749000000000000 2 100 1 feeReceiver, .error .invalidInitSqrtPrice),
    (Pool.tick <$> Pool.create 1000175003749000000000000 3 100 1 feeReceiver, .ok 3),
    (Pool.tick <$> Pool.create 1000225003749000000000000 0 100 3 feeReceiver, .error .invalidInitSqrtPrice),
    (Pool.tick <$> Pool.create 1000225003749000000000000 3 100 3 feeReceiver, .ok 3),
    (Pool.tick <$> Pool.create (sqrtPriceAt MAX_TICK) MAX_TICK 100 1 feeReceiver, .ok MAX_TICK),
    (Pool.tick <$> Pool.create (sqrtPriceAt MAX_TICK - 1) MAX_TICK 100 1 feeReceiver,
      .error .invalidInitSqrtPrice),
    (Pool.tick <$> Pool.create SPR MAX_TICK 100 1 feeReceiver, .error .invalidInitSqrtPrice),
    (Pool.tick <$> Pool.create (sqrtPriceAt (MAX_TICK - 1)) (MAX_TICK - 1) 100 1 feeReceiver,
      .ok (MAX_TICK - 1))] = true := by decide +kernel

/-- The four fields `test_add_fee` looks at. -/
def fees (p : Pool) : Nat × Nat × Nat × Nat := (p.fgX, p.fgY, p.protoX, p.protoY)

/-- `test_add_fee`. -/
example : passes [
    (fees <$> Pool.addFee { liquidity := 10 * LIQ } 6 true (2 * 10 ^ 11), .ok (4 * 10 ^ 27, 0, 2, 0)),
    (fees <$> Pool.addFee { liquidity := 10 * LIQ } 200 false (2 * 10 ^ 11), .ok (0, 16 * FGR, 0, 40)),
    (fees <$> Pool.addFee { liquidity := 10 * LIQ } 1 true (2 * 10 ^ 11), .ok (0, 0, 1, 0)),
    (fees <$> Pool.addFee { liquidity := MAX } MAX true (10 ^ 12), .ok (0, 0, MAX, 0)),
    (fees <$> Pool.addFee { liquidity := MAX } MAX false (10 ^ 12), .ok (0, 0, 0, MAX)),
    (fees <$> Pool.addFee { liquidity := MAX } MAX true 0, .ok (1000000 * FGR, 0, 0, 0))] = true := by
  decide +kernel

/-- `test_update_liquidity`: the two amounts and the liquidity of the pool afterwards. -/
example : passes [
    ((fun r => (r.2.1, r.2.2, r.1.liquidity)) <$>
      Pool.updateLiquidity { sqrtPrice := 1000140000000000000000000, tick := 2 } (5000000 * LIQ) true 3 0,
      .ok (51, 700, 5000000 * LIQ)),
    ((fun r => (r.2.1, r.2.2, r.1.liquidity)) <$>
      Pool.updateLiquidity { sqrtPrice := 1000140000000000000000000, tick := 2 } (5000000 * LIQ) true 4 0,
      .ok (300, 700, 5000000 * LIQ)),
    ((fun r => (r.2.1, r.2.2, r.1.liquidity)) <$>
      Pool.updateLiquidity { liquidity := LIQ, sqrtPrice := 1000140000000000000000000, tick := 6 }
        (12 * LIQ) true 4 0, .ok (0, 1, LIQ)),
    ((fun r => (r.2.1, r.2.2, r.1.liquidity)) <$>
      Pool.updateLiquidity { liquidity := LIQ, sqrtPrice := 1000140000000000000000000, tick := -2 }
        (12 * LIQ) true 4 0, .ok (1, 0, LIQ)),
    ((fun r => (r.2.1, r.2.2, r.1.liquidity)) <$>
      Pool.updateLiquidity { liquidity := 10 * LIQ, sqrtPrice := 1, tick := 2 } (5 * LIQ) false 3 1,
      .ok (2500375009372499999999997, 5, 5 * LIQ))] = true := by decide +kernel

/-! ## `storage/tick.rs:173-474` -/

/-- `Tick::default()`. -/
def tick0 : Tick := ⟨0, false, 0, 0, 0, 0, 0, 0⟩

/-- `test_cross`. -/
example : passes [
    (Tick.cross { tick0 with outX := 30, outY := 25, index := 3, secondsOutside := 5, change := LIQ }
        { fgX := 45, fgY := 35, liquidity := 4 * LIQ, lastTs := 15, startTs := 4, tick := 7 } 315360015,
      .ok ({ tick0 with outX := 15, outY := 10, index := 3, secondsOutside := 315360006, change := LIQ },
        { fgX := 45, fgY := 35, liquidity := 5 * LIQ, lastTs := 315360015, startTs := 4, tick := 7 })),
    (Tick.cross { tick0 with outX := 42, outY := 14, index := 9, secondsOutside := 41 }
        { fgX := 68, fgY := 59, lastTs := 9, startTs := 34, tick := 4 } 315360000,
      .ok ({ tick0 with outX := 26, outY := 45, index := 9, secondsOutside := 315359925 },
        { fgX := 68, fgY := 59, lastTs := 315360000, startTs := 34, tick := 4 })),
    (Tick.cross { tick0 with outX := 26584, outY := 1256588, index := 45, secondsOutside := 74, change := 10 }
        { fgX := 3402, fgY := 3401, liquidity := 14 * LIQ, lastTs := 9, startTs := 15, tick := 9 } 31536000,
      .ok ({ tick0 with outX := 340282366920938463463374607431768188274,
                        outY := 340282366920938463463374607431766958269,
                        index := 45, secondsOutside := 31535911, change := 10 },
        { fgX := 3402, fgY := 3401, liquidity := 13999990, lastTs := 31536000, startTs := 15, tick := 9 })),
    (Tick.cross { tick0 with outX := 99, outY := 256, index := 45, secondsOutside := 74, change := 10 }
        { fgX := 145, fgY := 364, liquidity := 14, lastTs := 16, startTs := 15, tick := 9 } 315360000,
      .ok ({ tick0 with outX := 46, outY := 108, index := 45, secondsOutside := 315359911, change := 10 },
        { fgX := 145, fgY := 364, liquidity := 4, lastTs := 315360000, startTs := 15, tick := 9 }))] = true := by
  decide +kernel

/-- `test_update_liquidity_change`. -/
example : passes [
    ((fun t => (t.sign, t.change)) <$> { tick0 with sign := true, change := 2 * LIQ }.updateChange (3 * LIQ) true,
      .ok (true, 5 * LIQ)),
    ((fun t => (t.sign, t.change)) <$> { tick0 with sign := false, change := 2 * LIQ }.updateChange (3 * LIQ) false,
      .ok (false, 5 * LIQ)),
    ((fun t => (t.sign, t.change)) <$> { tick0 with sign := true, change := 2 * LIQ }.updateChange (3 * LIQ) false,
      .ok (false, LIQ)),
    ((fun t => (t.sign, t.change)) <$> { tick0 with sign := false, change := 2 * LIQ }.updateChange (3 * LIQ) true,
      .ok (true, LIQ))] = true := by decide +kernel

/-- `test_update`. -/
example : passes [
    ((fun t => (t.sign, t.change, t.gross, t.outX, t.outY)) <$>
      { tick0 with sign := true, change := 2 * LIQ, gross := 2 * LIQ, outX := 2 * FGR, outY := 2 * FGR }.update
        LIQ MAX false true, .ok (true, 3 * LIQ, 3 * LIQ, 2 * FGR, 2 * FGR)),
    ((fun t => (t.sign, t.change, t.gross, t.outX, t.outY)) <$>
      { tick0 with index := 5, sign := true, change := 3 * LIQ, gross := 7 * LIQ, outX := 13 * FGR,
                   outY := 11 * FGR }.update LIQ MAX true true,
      .ok (true, 2 * LIQ, 8 * LIQ, 13 * FGR, 11 * FGR))] = true ∧
    ({ tick0 with index := 5, sign := true, change := 100000 * LIQ, gross := 100000 * LIQ, outX := 1000 * FGR,
                  outY := 1000 * FGR }.update (maxLiquidityPerTick 1 + 1) (maxLiquidityPerTick 1) false true).isOk
      = false := by decide +kernel

/-! ## `storage/pool_key.rs:68-92` -/

/-- `b"token_0"` and `b"token_1"`. -/
def token0 : Bytes := [116, 111, 107, 101, 110, 95, 48]
@[inherit_doc token0] def token1 : Bytes := [116, 111, 107, 101, 110, 95, 49]

/-- `test_key`; the bytes written out: lengths 7, 7 and 10, each before its data. -/
example : passes [(PoolKey.key <$> PoolKey.new token0 token1 ⟨10, 1⟩,
    .ok ([0, 7] ++ token0 ++ [0, 7] ++ token1 ++ [0, 10, 0, 0, 0, 0, 0, 0, 0, 10, 0, 1]))] = true := by
  decide +kernel

/-! ## `storage/position.rs:234-456` -/

/-- `Position::default()`. -/
def position0 : Position := ⟨⟨[], [], ⟨0, 1⟩⟩, 0, 0, 0, 0, 0, 0, 0, 0, []⟩

/-- `test_calculate_new_liquidity`. -/
example : passes [
    ({ position0 with liquidity := LIQ }.newLiquidity false (2 * LIQ), .error .insufficientLiquidity),
    ({ position0 with liquidity := 2 * LIQ }.newLiquidity true (2 * LIQ), .ok (4 * LIQ)),
    ({ position0 with liquidity := 2 * LIQ }.newLiquidity false (2 * LIQ), .ok 0)] = true := by decide +kernel

/-- The fields `test_update` looks at. -/
def owed (p : Position) : Nat × Nat × Nat × Nat × Nat := (p.liquidity, p.fgInX, p.fgInY, p.owedX, p.owedY)

/-- `test_update`. -/
example : passes [
    (owed <$> position0.update true 0 FGR FGR, .error .emptyPositionPokes),
    (owed <$> { position0 with fgInX := 4 * FGR, fgInY := 4 * FGR, owedX := 100, owedY := 100 }.update true LIQ
        (5 * FGR) (5 * FGR), .ok (LIQ, 5 * FGR, 5 * FGR, 100, 100)),
    (owed <$> { position0 with liquidity := LIQ, fgInX := 4 * FGR, fgInY := 4 * FGR, owedX := 100,
                               owedY := 100 }.update true LIQ (5 * FGR) (5 * FGR),
      .ok (2 * LIQ, 5 * FGR, 5 * FGR, 101, 101)),
    (owed <$> { position0 with liquidity := LIQ, fgInX := MAX - 10 * FGR, fgInY := MAX - 10 * FGR, owedX := 100,
                               owedY := 100 }.update true LIQ (10 * FGR) (10 * FGR),
      .ok (2 * LIQ, 10 * FGR, 10 * FGR, 120, 120))] = true := by decide +kernel

/-- `test_modify`. -/
example : passes [
    ((fun r => r.pos.owedX) <$>
      { position0 with liquidity := 123 * LIQ, fgInX := MAX - 1234 * FGR, fgInY := MAX - 1234 * FGR }.modify
        { fgX := 20 * FGR, fgY := 20 * FGR }
        { tick0 with index := -10, outX := 15 * FGR, outY := 15 * FGR, gross := 123 * LIQ }
        { tick0 with index := -20, outX := 20 * FGR, outY := 20 * FGR, gross := 123 * LIQ }
        0 true 1234567890 1, .ok 151167)] = true := by decide +kernel

/-! ## `state.rs:428-1050` -/

/-- The pool of the tests. -/
def key : PoolKey := ⟨token0, token1, ⟨1, 1⟩⟩

/-- The empty storage with the ticks of a list flipped on, for one tick spacing. -/
def flipped (ts : Nat) : List Int → M Store
  | [] => .ok .empty
  | t :: l => do flipBitmap (← flipped ts l) true t ts key

/-- The bitmap of the pool. -/
def bits (s : Store) : Nat → Nat := getChunk s key

/-- `test_get_closer_limit`: the price, and the tick found with its bit. -/
example : passes [
    ((do getCloserLimit (bits (← flipped 1 [0])) (5 * SPR) true 100 1), .ok (5 * SPR, none)),
    ((do getCloserLimit (bits (← flipped 1 [0])) (10 ^ 23) true 100 1), .ok (SPR, some (0, true))),
    ((do getCloserLimit (bits (← flipped 1 [0])) (2 * SPR) false (-5) 1), .ok (SPR, some (0, true))),
    ((do getCloserLimit (bits (← flipped 1 [0])) (10 ^ 23) false (-100) 10), .ok (10 ^ 23, none))] = true := by
  decide +kernel

/-- The bit of a tick before, after switching it on, and after switching it off again. -/
def flips (t : Int) (ts : Nat) : M (Bool × Bool × Bool) := do
  let s1 ← flipBitmap .empty true t ts key
  let s2 ← flipBitmap s1 false t ts key
  pure (← getBitmap .empty t ts key, ← getBitmap s1 t ts key, ← getBitmap s2 t ts key)

/-- `test_flip`. -/
example : passes [
    (flips 0 1, .ok (false, true, false)), (flips 7 1, .ok (false, true, false)),
    (flips (MAX_TICK - 1) 1, .ok (false, true, false)), (flips (MAX_TICK - 40) 1, .ok (false, true, false)),
    (flips 20000 1000, .ok (false, true, false))] = true := by decide +kernel

/-- `next_initialized` with the ticks of a list switched on. -/
def next (ts : Nat) (l : List Int) (t : Int) : M (Option Int) := do nextInitialized (bits (← flipped ts l)) t ts

/-- `prev_initialized` with the ticks of a list switched on. -/
def prev (ts : Nat) (l : List Int) (t : Int) : M (Option Int) := do prevInitialized (bits (← flipped ts l)) t ts

/-- `test_next_initialized_*`. -/
example : passes [
    (next 1 [5] 0, .ok (some 5)), (next 10 [100, 50] 0, .ok (some 50)), (next 10 [100, 50] 50, .ok (some 100)),
    (next 10 [0] 0, .ok none), (next 1 [0] (-TICK_SEARCH_RANGE), .ok (some 0)),
    (next 1 [0] (-TICK_SEARCH_RANGE - 1), .ok none), (next 1 [MAX_TICK - 10] (-MAX_TICK + 1), .ok none),
    (next 4 [] (MAX_TICK - 22), .ok none), (next 4 [] (MAX_TICK - 2), .ok none),
    (next 1 [MAX_TICK - 63] (MAX_TICK - 128), .ok (some (MAX_TICK - 63)))] = true := by decide +kernel

/-- `test_prev_initialized_*`. -/
example : passes [
    (prev 1 [-5] 0, .ok (some (-5))), (prev 10 [-100, -50] 0, .ok (some (-50))),
    (prev 10 [-100, -50] (-50), .ok (some (-50))), (prev 10 [0] 0, .ok (some 0)), (prev 10 [10] 0, .ok none),
    (prev 1 [0] TICK_SEARCH_RANGE, .ok (some 0)), (prev 1 [0] (TICK_SEARCH_RANGE + 1), .ok none),
    (prev 1 [-MAX_TICK + 1] (MAX_TICK - 1), .ok none),
    (prev 1 [-MAX_TICK + 63] (-MAX_TICK + 128), .ok (some (-MAX_TICK + 63)))] = true := by decide +kernel

/-- `test_get_search_limit`. -/
example : passes [
    (getSearchLimit 0 1 true, .ok TICK_SEARCH_RANGE), (getSearchLimit 0 1 false, .ok (-TICK_SEARCH_RANGE)),
    (getSearchLimit 60 12 true, .ok (60 + TICK_SEARCH_RANGE * 12)),
    (getSearchLimit 60 12 false, .ok (60 - TICK_SEARCH_RANGE * 12)),
    (getSearchLimit (MAX_TICK - 22) 5 true, .ok (MAX_TICK - 3)),
    (getSearchLimit (MAX_TICK - 3) 5 true, .ok (MAX_TICK - 3))] = true := by decide +kernel

/-- `test_next_and_prev_initialized`, initialized edges: every spacing from 1 to 10. -/
example : ((List.range 10).all fun n =>
    let ts := n + 1
    let hi : Int := MAX_TICK - MAX_TICK % ts
    let d : Int := TICK_SEARCH_RANGE / ts * ts
    match prev ts [-hi, hi] (-hi + d), next ts [-hi, hi] (hi - d) with
    | .ok (some _), .ok (some _) => true
    | _, _ => false) = true := by decide +kernel

/-- `test_next_and_prev_initialized`, uninitialized edges: every spacing from 1 to 1000. -/
example : ((List.range 1000).all fun n =>
    let ts := n + 1
    let hi : Int := MAX_TICK - MAX_TICK % ts
    let d : Int := TICK_SEARCH_RANGE / ts * ts
    match prev ts [] (-hi + d), next ts [] (hi - d) with
    | .ok none, .ok none => true
    | _, _ => false) = true := by decide +kernel

end OraiV3.RepoTests
