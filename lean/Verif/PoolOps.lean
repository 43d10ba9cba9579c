import Verif.State

/-!
# PoolOps: operations on ticks, pools and positions

Paths are relative to `/repo/contracts/oraiswap-v3/src`.  Rust methods taking `&mut` return the new
records here.
-/

namespace OraiV3

/-! ## Ticks -/

/-- `Tick::create` (`storage/tick.rs:60-81`); `calculate_sqrt_price(..).unwrap()` and the timestamp
subtraction panic. -/
def Tick.create (index : Int) (pool : Pool) (now : Nat) : M Tick := do
  let below := decide (index ≤ pool.tick)
  let p ← match calculateSqrtPrice index with | .ok p => pure p | .error _ => .error .panic
  let secs ← if below then subP now pool.startTs else pure 0
  pure { index := index, sign := true, change := 0, gross := 0, sqrtPrice := p,
         outX := if below then pool.fgX else 0,
         outY := if below then pool.fgY else 0,
         secondsOutside := secs }

/-- `Tick::cross` (`storage/tick.rs:83-112`). -/
def Tick.cross (t : Tick) (pool : Pool) (now : Nat) : M (Tick × Pool) := do
  let secs ← checkedSub .timestampSubOverflow now pool.startTs
  let t' := { t with outX := wsub pool.fgX t.outX, outY := wsub pool.fgY t.outY,
                     secondsOutside := (secs + (U64 - t.secondsOutside)) % U64 }
  let liq ←
    if xor (decide (pool.tick ≥ t.index)) t.sign then
      checkedAdd .poolAddTickLiquidityOverflow pool.liquidity t.change
    else checkedSub .poolSubTickLiquidityUnderflow pool.liquidity t.change
  pure (t', { pool with lastTs := now, liquidity := liq })

/-- `Tick::calculate_new_liquidity_gross` (`storage/tick.rs:144-170`). -/
def Tick.newGross (t : Tick) (deposit : Bool) (delta maxL : Nat) : M Nat :=
  if deposit then do
    let n ← checkedAdd .tickAddLiquidityOverflow t.gross delta
    if n ≥ maxL then .error .invalidTickLiquidity else pure n
  else if t.gross < delta then .error .invalidTickLiquidity
  else pure (t.gross - delta)

/-- `Tick::update_liquidity_change` (`storage/tick.rs:131-142`); the addition panics on overflow. -/
def Tick.updateChange (t : Tick) (delta : Nat) (add : Bool) : M Tick :=
  if xor t.sign add then
    if t.change > delta then pure { t with change := t.change - delta }
    else pure { t with change := delta - t.change, sign := !t.sign }
  else do
    let c ← add128 t.change delta
    pure { t with change := c }

/-- `Tick::update` (`storage/tick.rs:114-129`). -/
def Tick.update (t : Tick) (delta maxL : Nat) (isUpper deposit : Bool) : M Tick := do
  let g ← t.newGross deposit delta maxL
  { t with gross := g }.updateChange delta (xor deposit isUpper)

/-! ## Pools -/

/-- `Pool::create` (`storage/pool.rs:42-64`). -/
def Pool.create (price : Nat) (tick : Int) (now : Nat) (ts : Nat) (receiver : Bytes) : M Pool := do
  let ok ← checkTickToSqrtPrice tick ts price
  if !ok then .error .invalidInitSqrtPrice
  else pure { sqrtPrice := price, tick := tick, startTs := now, lastTs := now, feeReceiver := receiver }

/-- `Pool::add_fee` (`storage/pool.rs:66-90`). -/
def Pool.addFee (pool : Pool) (amount : Nat) (inX : Bool) (protocolFee : Nat) : M Pool := do
  let proto ← bigMulUp amount protocolFee PCT
  let poolFee ← subP amount proto
  if (poolFee = 0 ∧ proto = 0) ∨ pool.liquidity = 0 then pure pool
  else do
    let g ← feeGrowthFromFee pool.liquidity poolFee
    if inX then do
      let p ← add128 pool.protoX proto
      pure { pool with fgX := wadd pool.fgX g, protoX := p }
    else do
      let p ← add128 pool.protoY proto
      pure { pool with fgY := wadd pool.fgY g, protoY := p }

/-- `Pool::update_liquidity` (`storage/pool.rs:92-123`): new pool and the two amounts. -/
def Pool.updateLiquidity (pool : Pool) (delta : Nat) (sign : Bool) (upper lower : Int) :
    M (Pool × Nat × Nat) := do
  let r ← calculateAmountDelta pool.tick pool.sqrtPrice delta sign upper lower
  let liq ←
    if r.2.2 then
      if sign then checkedAdd .updateLiquidityPlusOverflow pool.liquidity delta
      else checkedSub .updateLiquidityMinusOverflow pool.liquidity delta
    else pure pool.liquidity
  pure ({ pool with liquidity := liq }, r.1, r.2.1)

/-- `UpdatePoolTick` (`storage/pool.rs:34-39`). -/
inductive TickUpd where
  | noTick
  | init (t : Tick)
  | uninit (i : Int)
  deriving DecidableEq, Repr

/-- Result of `Pool::update_tick`: the pool, the possibly crossed tick, the amount added to the
input, the amount left, and whether a tick was crossed. -/
structure TickUpdRes where
  pool : Pool
  upd : TickUpd
  total : Nat
  remaining : Nat
  crossed : Bool

/-- `Pool::update_tick` (`storage/pool.rs:126-183`).  `tick.cross(..).unwrap()` turns every error of
`cross` into a panic. -/
def Pool.updateTick (pool : Pool) (nextPrice swapLimit : Nat) (upd : TickUpd) (remaining : Nat)
    (byAmountIn xToY : Bool) (now protocolFee : Nat) (tier : FeeTier) : M TickUpdRes :=
  if upd = .noTick ∨ swapLimit ≠ nextPrice then do
    let t ← getTickAtSqrtPrice nextPrice tier.spacing
    pure ⟨{ pool with tick := t }, upd, 0, remaining, false⟩
  else do
    let enough ← isEnoughAmountToChangePrice remaining nextPrice pool.liquidity tier.fee byAmountIn xToY
    match upd with
    | .noTick => .error .panic
    | .uninit i =>
      pure ⟨{ pool with tick := if xToY && enough then i - tier.spacing else i }, upd, 0, remaining, false⟩
    | .init t =>
      let newTick := if xToY && enough then t.index - tier.spacing else t.index
      if !xToY || enough then
        match t.cross pool now with
        | .error _ => .error .panic
        | .ok tp => pure ⟨{ tp.2 with tick := newTick }, .init tp.1, 0, remaining, true⟩
      else if remaining ≠ 0 then
        if byAmountIn then do
          let p ← pool.addFee remaining xToY protocolFee
          pure ⟨{ p with tick := newTick }, upd, remaining, 0, false⟩
        else pure ⟨{ pool with tick := newTick }, upd, 0, 0, false⟩
      else pure ⟨{ pool with tick := newTick }, upd, 0, remaining, false⟩

/-! ## Positions -/

/-- `Position::calculate_new_liquidity` (`storage/position.rs:109-129`). -/
def Position.newLiquidity (p : Position) (sign : Bool) (delta : Nat) : M Nat :=
  if sign then checkedAdd .positionAddLiquidityOverflow p.liquidity delta
  else if p.liquidity < delta then .error .insufficientLiquidity
  else pure (p.liquidity - delta)

/-- `Position::update` (`storage/position.rs:81-107`). -/
def Position.update (p : Position) (sign : Bool) (delta inX inY : Nat) : M Position :=
  if delta = 0 ∧ p.liquidity = 0 then .error .emptyPositionPokes
  else do
    let ox ← feeGrowthToFee (wsub inX p.fgInX) p.liquidity
    let oy ← feeGrowthToFee (wsub inY p.fgInY) p.liquidity
    let l ← p.newLiquidity sign delta
    let ax ← add128 p.owedX ox
    let ay ← add128 p.owedY oy
    pure { p with liquidity := l, fgInX := inX, fgInY := inY, owedX := ax, owedY := ay }

/-- What `Position::modify` changes. -/
structure ModifyRes where
  pos : Position
  pool : Pool
  lower : Tick
  upper : Tick
  x : Nat
  y : Nat

/-- `Position::modify` (`storage/position.rs:37-79`). -/
def Position.modify (p : Position) (pool : Pool) (upper lower : Tick) (delta : Nat) (add : Bool)
    (now ts : Nat) : M ModifyRes := do
  let pool := { pool with lastTs := now }
  let maxL := maxLiquidityPerTick ts
  let lower ← lower.update delta maxL false add
  let upper ← upper.update delta maxL true add
  let inX := feeGrowthInside lower.index lower.outX upper.index upper.outX pool.tick pool.fgX
  let inY := feeGrowthInside lower.index lower.outY upper.index upper.outY pool.tick pool.fgY
  let pos ← p.update add delta inX inY
  let r ← pool.updateLiquidity delta add upper.index lower.index
  pure ⟨pos, r.1, lower, upper, r.2.1, r.2.2⟩

/-- `Position::create` (`storage/position.rs:157-198`). -/
def Position.create (pool : Pool) (k : PoolKey) (lower upper : Tick) (now L lo hi block ts : Nat) :
    M ModifyRes :=
  if pool.sqrtPrice < lo ∨ pool.sqrtPrice > hi then .error .priceLimitReached
  else
    let p : Position := { poolKey := k, liquidity := 0, lower := lower.index, upper := upper.index,
                          fgInX := 0, fgInY := 0, lastBlock := block, owedX := 0, owedY := 0,
                          approvals := [] }
    p.modify pool upper lower L true now ts

/-- `Position::claim_fee` (`storage/position.rs:131-155`): the result's `x`, `y` are the fees paid. -/
def Position.claimFee (p : Position) (pool : Pool) (upper lower : Tick) (now : Nat) : M ModifyRes := do
  let r ← p.modify pool upper lower 0 true now p.poolKey.tier.spacing
  pure { r with pos := { r.pos with owedX := 0, owedY := 0 }, x := r.pos.owedX, y := r.pos.owedY }

/-- `Position::remove` (`storage/position.rs:200-231`): `x`, `y` are principal plus fees; whether the
ticks became empty is `gross = 0` of the returned ticks. -/
def Position.remove (p : Position) (pool : Pool) (now : Nat) (lower upper : Tick) (ts : Nat) :
    M ModifyRes := do
  let r ← p.modify pool upper lower p.liquidity false now ts
  let x ← add128 r.x r.pos.owedX
  let y ← add128 r.y r.pos.owedY
  pure { r with x := x, y := y }

end OraiV3
