import Verif.Swap

/-!
# Sdk: the client-side swap simulation

Models `/repo/wasm/swap.rs` (`simulate_swap`).  The client library carries its own copies of the
arithmetic (`/repo/wasm/clamm.rs`, `log.rs`, `types/*.rs`) and of the tickmap search
(`/repo/wasm/collections/tickmap.rs`); they are textually the contract's up to error types and are
therefore represented by the same definitions (`computeSwapStep`, `getCloserLimit`, …).
-/

namespace OraiV3

/-- `LiquidityTick` (`/repo/wasm/storage/tick.rs:38-46`). -/
structure LTick where
  index : Int
  change : Nat
  sign : Bool
  deriving DecidableEq, Repr

/-- The part of `Pool` the simulation uses (`/repo/wasm/storage/pool.rs:15-32`). -/
structure SimPool where
  liquidity : Nat
  sqrtPrice : Nat
  tick : Int
  deriving DecidableEq, Repr

/-- Mutable state of the loop of `simulate_swap` (`/repo/wasm/swap.rs:53-61`). -/
structure SimState where
  pool : SimPool
  remaining : Nat
  totalIn : Nat
  totalOut : Nat
  fee : Nat
  crossed : List LTick
  insufficient : Bool
  outdated : Bool
  maxCrossed : Bool
  deriving DecidableEq, Repr

/-- `Tickmap` of the client (`/repo/wasm/collections/tickmap.rs:12-24`), built from the chunks the contract returned; a chunk
that is missing reads as zero (`tickmap.rs:128,174`). -/
def tickmapOf (chunks : List (Nat × Nat)) (c : Nat) : Nat :=
  match chunks.find? (fun e => e.1 = c) with
  | some e => e.2
  | none => 0

/-- `MAX_TICK_CROSS` (`/repo/wasm/consts.rs:14`). -/
abbrev MAX_TICK_CROSS : Nat := 173

/-- `LiquidityTick::cross` (`/repo/wasm/storage/tick.rs:107-126`). -/
def LTick.cross (t : LTick) (p : SimPool) : M SimPool := do
  let liq ←
    if xor (decide (p.tick ≥ t.index)) t.sign then checkedAdd .poolAddTickLiquidityOverflow p.liquidity t.change
    else checkedSub .poolSubTickLiquidityUnderflow p.liquidity t.change
  pure { p with liquidity := liq }

/-- `UpdatePoolTick` (`/repo/wasm/storage/pool.rs:133-138`). -/
inductive SimUpd where
  | noTick
  | init (t : LTick)
  | uninit (i : Int)
  deriving DecidableEq, Repr

/-- Result of the simulation's `update_tick`. -/
structure SimUpdRes where
  pool : SimPool
  total : Nat
  remaining : Nat
  crossed : Bool

/-- `Pool::update_tick` (`/repo/wasm/storage/pool.rs:75-129`): `none` is the error of `cross`, which
the caller turns into `state_outdated`; the other errors are unwrapped, i.e. panic. -/
def SimPool.updateTick (pool : SimPool) (nextPrice swapLimit : Nat) (upd : SimUpd) (remaining : Nat)
    (byAmountIn xToY : Bool) (tier : FeeTier) : M (Option SimUpdRes) :=
  if upd = .noTick ∨ swapLimit ≠ nextPrice then
    match getTickAtSqrtPrice nextPrice tier.spacing with
    | .error _ => .error .panic
    | .ok t => .ok (some ⟨{ pool with tick := t }, 0, remaining, false⟩)
  else
    match isEnoughAmountToChangePrice remaining nextPrice pool.liquidity tier.fee byAmountIn xToY with
    | .error _ => .error .panic
    | .ok enough =>
      match upd with
      | .noTick => .error .panic
      | .uninit i =>
        .ok (some ⟨{ pool with tick := if xToY && enough then i - tier.spacing else i }, 0, remaining, false⟩)
      | .init t =>
        let newTick := if xToY && enough then t.index - tier.spacing else t.index
        if !xToY || enough then
          match t.cross pool with
          | .error _ => .ok none
          | .ok p => .ok (some ⟨{ p with tick := newTick }, 0, remaining, true⟩)
        else if remaining ≠ 0 then
          .ok (some ⟨{ pool with tick := newTick }, if byAmountIn then remaining else 0, 0, false⟩)
        else .ok (some ⟨{ pool with tick := newTick }, 0, remaining, false⟩)

/-- The `tick_update` of the simulation (`/repo/wasm/swap.rs:106-124`): `none` means the tick is
missing from the list. -/
def simUpdOf (ticks : List LTick) (lt : Option (Int × Bool)) : Option SimUpd :=
  match lt with
  | none => some .noTick
  | some (i, true) =>
    match ticks.find? (fun t => t.index = i) with
    | some t => some (.init t)
    | none => none
  | some (i, false) => some (.uninit i)

/-- `crossed_ticks.push(tick)` if a tick was crossed (`/repo/wasm/swap.rs:144-150`). -/
def simPush (crossed : List LTick) (upd : SimUpd) (hasCrossed : Bool) : List LTick :=
  match upd, hasCrossed with
  | .init t, true => crossed ++ [t]
  | _, _ => crossed

/-- One iteration of the loop (`/repo/wasm/swap.rs:63-166`); the Boolean says `break`. -/
def simIter (bm : Nat → Nat) (tier : FeeTier) (ticks : List LTick) (xToY byAmountIn : Bool) (limit : Nat)
    (st : SimState) : M (SimState × Bool) :=
  match getCloserLimit bm limit xToY st.pool.tick tier.spacing with
  | .error .panic => .error .panic
  | .error _ => .ok ({ st with insufficient := true }, true)
  | .ok cl => do
    let r ← computeSwapStep st.pool.sqrtPrice cl.1 st.pool.liquidity st.remaining byAmountIn tier.fee
    let inFee ← add128 r.amountIn r.feeAmount
    let remaining ← if byAmountIn then subP st.remaining inFee else subP st.remaining r.amountOut
    let fee ← add128 st.fee r.feeAmount
    let pool := { st.pool with sqrtPrice := r.nextPrice }
    let totalIn ← add128 st.totalIn inFee
    let totalOut ← add128 st.totalOut r.amountOut
    let st' := { st with pool := pool, remaining := remaining, fee := fee, totalIn := totalIn, totalOut := totalOut }
    if pool.sqrtPrice = limit ∧ remaining ≠ 0 then .ok ({ st' with insufficient := true }, true)
    else
      match simUpdOf ticks cl.2 with
      | none => .ok ({ st' with outdated := true }, true)
      | some upd => do
        let u ← pool.updateTick r.nextPrice cl.1 upd remaining byAmountIn xToY tier
        match u with
        | none => .ok ({ st' with outdated := true }, true)
        | some u => do
          let totalIn ← add128 totalIn u.total
          let crossed := simPush st.crossed upd u.crossed
          let st'' := { st' with pool := u.pool, remaining := u.remaining, totalIn := totalIn, crossed := crossed }
          if u.crossed ∧ crossed.length > MAX_TICK_CROSS then .ok ({ st'' with maxCrossed := true }, true)
          else if reachedTickLimit xToY tier.spacing u.pool.tick then
            .ok ({ st'' with insufficient := true }, true)
          else .ok (st'', false)

/-- The loop of `simulate_swap` (`/repo/wasm/swap.rs:63-166`). -/
def simLoop (bm : Nat → Nat) (tier : FeeTier) (ticks : List LTick) (xToY byAmountIn : Bool) (limit : Nat) :
    Nat → SimState → M SimState
  | 0, st => if st.remaining = 0 then .ok st else .error .outOfFuel
  | n + 1, st =>
    if st.remaining = 0 then .ok st
    else do
      let r ← simIter bm tier ticks xToY byAmountIn limit st
      if r.2 then pure r.1 else simLoop bm tier ticks xToY byAmountIn limit n r.1

/-- `simulate_swap` (`/repo/wasm/swap.rs:19-179`): the final loop state holds all result fields. -/
def simulateSwap (bm : Nat → Nat) (tier : FeeTier) (pool : SimPool) (ticks : List LTick) (xToY : Bool)
    (amount : Nat) (byAmountIn : Bool) (limit : Nat) : M SimState :=
  if amount = 0 then .error .amountIsZero
  else if (xToY ∧ (pool.sqrtPrice ≤ limit ∨ limit > MAX_SQRT_PRICE)) ∨
     (¬ xToY ∧ (pool.sqrtPrice ≥ limit ∨ limit < MIN_SQRT_PRICE)) then .error .wrongLimit
  else if tier.spacing = 0 then .error .panic
  else simLoop bm tier ticks xToY byAmountIn limit swapFuel
    ⟨pool, amount, 0, 0, 0, [], false, false, false⟩

end OraiV3
