import Verif.Spec

/-!
# Clock: time spent in a price range

Each tick record carries `seconds_outside` (milliseconds, see `get_block_timestamp`), shown by the
`PositionTicks` query.  This file says what a client computes from it, and which histories have a clock.
-/

namespace OraiV3

/-- Time since the pool was created, at time `now`. -/
def Pool.age (p : Pool) (now : Nat) : Int := (now : Int) - p.startTs

/-- Time the pool is recorded to have spent below a tick. -/
def timeBelow (p : Pool) (now : Nat) (t : Tick) : Int :=
  if t.index ≤ p.tick then t.secondsOutside else p.age now - t.secondsOutside

/-- Time the pool is recorded to have spent at or above a tick. -/
def timeAbove (p : Pool) (now : Nat) (t : Tick) : Int :=
  if t.index ≤ p.tick then p.age now - t.secondsOutside else t.secondsOutside

/-- The clock of a price range: what is left of the age of the pool when the time below the range and
the time above it are taken away. -/
def rangeClock (s : Store) (k : PoolKey) (l u : Int) (now : Nat) : Int :=
  match s.pools.get? k.key, s.ticks.get? (tickKey k l), s.ticks.get? (tickKey k u) with
  | some p, some tl, some tu => p.age now - timeBelow p now tl - timeAbove p now tu
  | _, _, _ => 0

/-- Histories on a chain whose clock does not run backwards: the time in milliseconds, which is a `u64`,
and the storage at that time. -/
inductive TimedReach (c : Chain) : Nat → Store → Prop where
  | init (sender : Bytes) (fee : Nat) (h : fee < U64) (t : Nat) (ht : t < U64) : TimedReach c t (instantiate sender fee)
  | wait {t t' : Nat} {s : Store} : TimedReach c t s → t ≤ t' → t' < U64 → TimedReach c t' s
  | call {t : Nat} {s s' : Store} {env : Env} {info : Info} {msg : Msg} {out : List OutMsg} : TimedReach c t s →
      env.millis = t → execute c env info msg s = .ok (s', out) → TimedReach c t s'

/-- There is a position of the pool in the range. -/
def Held (s : Store) (k : PoolKey) (l u : Int) : Prop := ∃ q ∈ positionsOf s k, q.lower = l ∧ q.upper = u

/-- The pool is in the range. -/
def InRange (s : Store) (k : PoolKey) (l u : Int) : Prop := ∃ p, s.pools.get? k.key = some p ∧ l ≤ p.tick ∧ p.tick < u

/-- A stretch of history from time `t0` and storage `s0`, during which the range is always held, all swaps in the pool
end regularly, and the pool is in the range for `n` milliseconds. -/
inductive Watch (c : Chain) (k : PoolKey) (l u : Int) (t0 : Nat) (s0 : Store) : Nat → Store → Nat → Prop where
  | start : Watch c k l u t0 s0 t0 s0 0
  | inside {t t' : Nat} {s : Store} {n : Nat} : Watch c k l u t0 s0 t s n → t ≤ t' → t' < U64 → InRange s k l u →
      Watch c k l u t0 s0 t' s (n + (t' - t))
  | outside {t t' : Nat} {s : Store} {n : Nat} : Watch c k l u t0 s0 t s n → t ≤ t' → t' < U64 → ¬ InRange s k l u →
      Watch c k l u t0 s0 t' s n
  | call {t : Nat} {s s' : Store} {n : Nat} {env : Env} {info : Info} {msg : Msg} {out : List OutMsg} :
      Watch c k l u t0 s0 t s n → env.millis = t → execute c env info msg s = .ok (s', out) →
      RegularCall c (· = k) env info s s' msg → Held s' k l u → Watch c k l u t0 s0 t s' n

end OraiV3
