import Verif.Events
import Verif.State

/-!
# The flat storage below the maps

The chain gives a contract a single map from byte strings to byte strings.  `cw_storage_plus` puts all the records of the
contract into it: an `Item` under its name, the entry `k` of a `Map` under the name with its length in front,
followed by `k`.  The model has one map per kind of record instead (`Store`).  This file describes the flat storage;
`Props/Raw.lean` shows that it and the maps are the same thing.  Values are kept as records here: their JSON text is
not modelled.
-/

namespace OraiV3

/-- The names of `state.rs:12-27`, and the record of `cw2` (`contract.rs:23`). -/
inductive Area
  | version | config | pools | positions | posLen | ticks | bitmap | operators
deriving DecidableEq

/-- `Item::new(..)`, `Map::new(..)` (`state.rs:12-27`). -/
def Area.name : Area → Bytes
  | .version => ascii "contract_info"
  | .config => ascii "config"
  | .pools => ascii "pools"
  | .positions => ascii "positions"
  | .posLen => ascii "positions_length"
  | .ticks => ascii "ticks"
  | .bitmap => ascii "bitmap"
  | .operators => ascii "operators"

/-- Is it a `Map` (or an `Item`)? -/
def Area.isMap : Area → Bool
  | .version => false
  | .config => false
  | _ => true

/-- `Map::prefix`: what the raw keys of a map begin with. -/
def Area.prefix (a : Area) : Bytes := lenPrefixed a.name

/-- The raw key of an entry of a map, and of an item. -/
def rawKey (a : Area) (k : Bytes) : Bytes := if a.isMap then a.prefix ++ k else a.name

/-- A record in the flat storage. -/
inductive Cell
  | version
  | config (c : Config)
  | pool (p : Pool)
  | position (p : Position)
  | posLen (n : Nat)
  | tick (t : Tick)
  | chunk (n : Nat)
  | operator (e : Expiration)

/-- The record the maps of the model have under a key. -/
def Store.cell (s : Store) (k : Bytes) : Area → Option Cell
  | .version => some .version
  | .config => s.config.map .config
  | .pools => (s.pools.get? k).map .pool
  | .positions => (s.positions.get? k).map .position
  | .posLen => (s.posLen.get? k).map .posLen
  | .ticks => (s.ticks.get? k).map .tick
  | .bitmap => (s.bitmap.get? k).map .chunk
  | .operators => (s.operators.get? k).map .operator

/-- The flat storage holds exactly the records of the maps. -/
def Flat (raw : KV Cell) (s : Store) : Prop :=
  ∀ r v, raw.get? r = some v ↔ ∃ a k, r = rawKey a k ∧ s.cell k a = some v

/-- `increment_last_byte` of `cw_storage_plus`, for a key that does not end in 255: the end of the range of keys that
begin with it. -/
def incLast : Bytes → Bytes
  | [] => []
  | [b] => [Fin.ofNat 256 (b.val + 1)]
  | b :: bs => b :: incLast bs

/-- `Prefix::range_raw` of `cw_storage_plus` without a start: the keys from the prefix up to, but without, its
successor, with the prefix cut off. -/
def scan (raw : KV Cell) (pre : Bytes) : List (Bytes × Cell) :=
  (raw.entries.filter fun e => !bytesLt e.1 pre && bytesLt e.1 (incLast pre)).map fun e => (e.1.drop pre.length, e.2)

end OraiV3
