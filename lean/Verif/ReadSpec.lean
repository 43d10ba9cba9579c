import Verif.Client
import Verif.Sdk

/-!
# Reading a pool from outside

How a client that uses the library and the contract's queries gets hold of a pool's tickmap and ticks.
-/

namespace OraiV3

/-- Read the tickmap upwards from the tick `lower`, with at most `n` queries: as long as a page is full and does not end with the
last chunk, go on at the first tick of the chunk after it. -/
def readTickmap (s : Store) (k : PoolKey) : Nat → Int → M (List (Nat × Nat))
  | 0, _ => .error .outOfFuel
  | n + 1, lower => do
    let page ← queryTickmap s k lower (getMaxTick k.tier.spacing) false
    let top ← clientMaxChunk k.tier.spacing
    match page.getLast? with
    | none => pure page
    | some e =>
      if page.length < clientMaxTickmapQuerySize ∨ e.1 = top then pure page
      else do
        let rest ← readTickmap s k n (clientPositionToTick (e.1 + 1) 0 k.tier.spacing)
        pure (page ++ rest)

/-- The ticks that the chunks of a tickmap show. -/
def decodeTickmap (ts : Nat) (chunks : List (Nat × Nat)) : List Int :=
  chunks.flatMap fun e => ((List.range 64).filter fun b => e.2.testBit b).map fun b => clientPositionToTick e.1 b ts

/-- Read the liquidity of the ticks `idx`, with at most `n` queries of the size the library gives. -/
def readTicks (s : Store) (k : PoolKey) : Nat → List Int → M (List (Int × Nat × Bool))
  | 0, idx => if idx = [] then pure [] else .error .outOfFuel
  | n + 1, idx => do
    let a ← queryLiquidityTicks s k (idx.take clientLiquidityTicksLimit)
    let b ← readTicks s k n (idx.drop clientLiquidityTicksLimit)
    pure (a ++ b)

/-- Read the pools page after page of the size given, as long as the pages are full. -/
def readFullPages (s : Store) (size : Nat) : Nat → Option PoolKey → M (List (PoolKey × Pool))
  | 0, _ => .error .outOfFuel
  | n + 1, start => do
    let page ← queryPools s (some size) start
    match page.getLast? with
    | none => pure page
    | some e =>
      if page.length < size then pure page
      else do
        let rest ← readFullPages s size n (some e.1)
        pure (page ++ rest)

end OraiV3
