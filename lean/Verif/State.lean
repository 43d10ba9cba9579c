import Verif.Types

/-!
# State: storage access, tick bitmap

Paths are relative to `/repo/contracts/oraiswap-v3/src`.
-/

namespace OraiV3

/-- `CHUNK_SIZE` (`storage/tickmap.rs:4`). -/
abbrev CHUNK_SIZE : Int := 64
/-- `MAX_LIMIT` (`state.rs:28`). -/
abbrev MAX_LIMIT : Nat := 100

/-- `CONFIG.load`. -/
def loadConfig (s : Store) : M Config := match s.config with | some c => .ok c | none => .error .std

/-- `get_pool` (`state.rs:30-33`), `POOLS.load(..)?`. -/
def getPool (s : Store) (k : PoolKey) : M Pool :=
  match s.pools.get? k.key with | some p => .ok p | none => .error .std

/-- `POOLS.save`. -/
def savePool (s : Store) (k : PoolKey) (p : Pool) : Store := { s with pools := s.pools.insert k.key p }

/-- `add_tick` (`state.rs:66-81`). -/
def addTick (s : Store) (k : PoolKey) (i : Int) (t : Tick) : M Store :=
  if s.ticks.has (tickKey k i) then .error .tickAlreadyExist
  else .ok { s with ticks := s.ticks.insert (tickKey k i) t }

/-- `update_tick` (`state.rs:83-98`). -/
def updateTick (s : Store) (k : PoolKey) (i : Int) (t : Tick) : M Store :=
  if s.ticks.has (tickKey k i) then .ok { s with ticks := s.ticks.insert (tickKey k i) t }
  else .error .tickNotFound

/-- `remove_tick` (`state.rs:100-113`). -/
def removeTick (s : Store) (k : PoolKey) (i : Int) : M Store :=
  if s.ticks.has (tickKey k i) then .ok { s with ticks := s.ticks.erase (tickKey k i) }
  else .error .tickNotFound

/-- `get_tick` (`state.rs:115-127`). -/
def getTick (s : Store) (k : PoolKey) (i : Int) : M Tick :=
  match s.ticks.get? (tickKey k i) with | some t => .ok t | none => .error .tickNotFound

/-- `get_position_length` (`state.rs:237-241`). -/
def getPositionLength (s : Store) (owner : Bytes) : Nat := (s.posLen.get? owner).getD 0

/-- `add_position` (`state.rs:135-146`); `positions_length + 1` panics on u32 overflow. -/
def addPosition (s : Store) (owner : Bytes) (p : Position) : M Store :=
  let n := getPositionLength s owner
  if n + 1 < U32 then
    .ok { s with positions := s.positions.insert (positionKey owner n) p,
                 posLen := s.posLen.insert owner (n + 1) }
  else .error .panic

/-- `update_position` (`state.rs:148-165`). -/
def updatePosition (s : Store) (owner : Bytes) (i : Nat) (p : Position) : M Store :=
  if i ≥ getPositionLength s owner then .error .positionNotFound
  else .ok { s with positions := s.positions.insert (positionKey owner i) p }

/-- `get_position_by_key` (`state.rs:201-207`). -/
def getPositionByKey (s : Store) (key : Bytes) : M Position :=
  match s.positions.get? key with | some p => .ok p | none => .error .positionNotFound

/-- `get_position` (`state.rs:192-199`). -/
def getPosition (s : Store) (owner : Bytes) (i : Nat) : M Position :=
  getPositionByKey s (positionKey owner i)

/-- `remove_position` (`state.rs:167-190`): the last position takes the freed index; `length - 1`
panics when the account has none. -/
def removePositionAt (s : Store) (owner : Bytes) (i : Nat) : M (Store × Position) := do
  let n ← subP (getPositionLength s owner) 1
  let pos ← getPosition s owner i
  if i < n then
    match s.positions.get? (positionKey owner n) with
    | none => .error .std
    | some last =>
      pure ({ s with positions := (s.positions.erase (positionKey owner n)).insert (positionKey owner i) last,
                     posLen := s.posLen.insert owner n }, pos)
  else
    pure ({ s with positions := s.positions.erase (positionKey owner i),
                   posLen := s.posLen.insert owner n }, pos)

/-! ## Tick bitmap -/

/-- `tick_to_position` (`storage/tickmap.rs:21-41`): chunk and bit; the two assertions panic. -/
def tickToPosition (t : Int) (ts : Nat) : M (Nat × Nat) :=
  if ts = 0 then .error .panic
  else if ¬ (-MAX_TICK ≤ t ∧ t ≤ MAX_TICK) then .error .panic
  else if t.tmod ts ≠ 0 then .error .panic
  else
    let i := (t + MAX_TICK).tdiv ts
    .ok ((i.tdiv CHUNK_SIZE).toNat, (i.tmod CHUNK_SIZE).toNat)

/-- `get_bit_at_position` (`storage/tickmap.rs:49-51`). -/
def bitAt (value pos : Nat) : Nat := value / 2 ^ pos % 2

/-- `flip_bit_at_position` (`storage/tickmap.rs:53-55`). -/
def flipBit (value pos : Nat) : Nat := value ^^^ 2 ^ pos

/-- `get_search_limit` (`storage/tickmap.rs:57-77`); division by a zero spacing panics. -/
def getSearchLimit (t : Int) (ts : Nat) (up : Bool) : M Int :=
  if ts = 0 then .error .panic
  else
    let index := t.tdiv ts
    let limit := if up then min (index + TICK_SEARCH_RANGE) (MAX_TICK.tdiv ts)
      else max (index - TICK_SEARCH_RANGE) ((-MAX_TICK).tdiv ts)
    .ok (limit * ts)

/-- `BITMAP.load(..).unwrap_or(0)`. -/
def getChunk (s : Store) (k : PoolKey) (chunk : Nat) : Nat := (s.bitmap.get? (bitmapKey chunk k)).getD 0

/-- Inner loop of `next_initialized` (`state.rs:271-274`): step to the lowest set bit.  64 iterations
suffice for a non-zero u64. -/
def lowestBit : Nat → Nat → Nat → Nat
  | 0, _, bit => bit
  | n + 1, shifted, bit => if shifted % 2 = 0 then lowestBit n (shifted / 2) (bit + 1) else bit

/-- Outer loop of `next_initialized` (`state.rs:266-298`).  `n` bounds the number of chunks left;
`bm` is the bitmap of the pool. -/
def nextInitLoop (bm : Nat → Nat) (ts limChunk limBit : Nat) : Nat → Nat → Nat → Option Int
  | 0, _, _ => none
  | n + 1, chunk, bit =>
    if chunk < limChunk ∨ (chunk = limChunk ∧ bit ≤ limBit) then
      let shifted := bm chunk / 2 ^ bit
      if shifted ≠ 0 then
        let bit := lowestBit 64 shifted bit
        if chunk < limChunk ∨ (chunk = limChunk ∧ bit ≤ limBit) then
          some (((chunk : Int) * CHUNK_SIZE + bit - MAX_TICK.tdiv ts) * ts)
        else none
      else nextInitLoop bm ts limChunk limBit n (chunk + 1) 0
    else none

/-- `next_initialized` (`state.rs:249-301`).  The `checked_*` operations cannot fail for in-range
ticks and are omitted. -/
def nextInitialized (bm : Nat → Nat) (t : Int) (ts : Nat) : M (Option Int) := do
  let limit ← getSearchLimit t ts true
  if t + ts > MAX_TICK then pure none
  else do
    let c ← tickToPosition (t + ts) ts
    let l ← tickToPosition limit ts
    pure (nextInitLoop bm ts l.1 l.2 (l.1 + 1 - c.1) c.1 c.2)

/-- Inner loop of `prev_initialized` (`state.rs:324-327`): step down to the highest set bit at or
below `bit`. -/
def highestBit : Nat → Nat → Nat
  | value, 0 => if value % 2 = 1 then 0 else 0
  | value, b + 1 => if value / 2 ^ (b + 1) % 2 = 1 then b + 1 else highestBit value b

/-- Outer loop of `prev_initialized` (`state.rs:315-352`); `n` bounds the number of chunks left. -/
def prevInitLoop (bm : Nat → Nat) (ts limChunk limBit : Nat) : Nat → Nat → Nat → Option Int
  | 0, _, _ => none
  | n + 1, chunk, bit =>
    if chunk > limChunk ∨ (chunk = limChunk ∧ bit ≥ limBit) then
      let value := bm chunk
      if value % 2 ^ (bit + 1) > 0 then
        let bit := highestBit value bit
        if chunk > limChunk ∨ (chunk = limChunk ∧ bit ≥ limBit) then
          some (((chunk : Int) * CHUNK_SIZE + bit - MAX_TICK.tdiv ts) * ts)
        else none
      else if chunk = 0 then none
      else prevInitLoop bm ts limChunk limBit n (chunk - 1) 63
    else none

/-- `prev_initialized` (`state.rs:304-355`). -/
def prevInitialized (bm : Nat → Nat) (t : Int) (ts : Nat) : M (Option Int) := do
  let limit ← getSearchLimit t ts false
  let c ← tickToPosition t ts
  let l ← tickToPosition limit ts
  pure (prevInitLoop bm ts l.1 l.2 (c.1 + 1 - l.1) c.1 c.2)

/-- `get_closer_limit` (`state.rs:359-390`). -/
def getCloserLimit (bm : Nat → Nat) (limit : Nat) (xToY : Bool) (cur : Int) (ts : Nat) :
    M (Nat × Option (Int × Bool)) := do
  let closest ← if xToY then prevInitialized bm cur ts else nextInitialized bm cur ts
  let idx ←
    match closest with
    | some i => pure (i, true)
    | none => do
      let i ← getSearchLimit cur ts (!xToY)
      if cur = i then .error .tickLimitReached else pure (i, false)
  let p ← calculateSqrtPrice idx.1
  if (xToY ∧ p > limit) ∨ (¬ xToY ∧ p < limit) then pure (p, some idx)
  else pure (limit, none)

/-- `get_bitmap` (`state.rs:392-396`). -/
def getBitmap (s : Store) (t : Int) (ts : Nat) (k : PoolKey) : M Bool := do
  let c ← tickToPosition t ts
  pure (bitAt (getChunk s k c.1) c.2 = 1)

/-- `flip_bitmap` (`state.rs:408-426`). -/
def flipBitmap (s : Store) (value : Bool) (t : Int) (ts : Nat) (k : PoolKey) : M Store := do
  let c ← tickToPosition t ts
  let v := getChunk s k c.1
  if decide (bitAt v c.2 = 0) ≠ value then .error .tickReInitialize
  else pure { s with bitmap := s.bitmap.insert (bitmapKey c.1 k) (flipBit v c.2) }

end OraiV3
