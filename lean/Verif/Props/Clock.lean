import Verif.Lemmas.Clock
import Verif.Props.Active

/-!
# C60: the time spent in a price range

False as stated: `C60_false` shows a swap after which the clock of a range jumps by the age of the pool although
no time has passed.  `C60_clock_partial` proves the property when the swaps in the watched stretch of history end regularly.
-/

namespace OraiV3

namespace Demo

/-- The storage after one call. -/
def next (c : Chain) (e : Env) (i : Info) (m : Msg) (s : Store) : Store :=
  match execute c e i m s with | .ok r => r.1 | .error _ => Store.empty

/-- Does the call succeed? -/
def goes (c : Chain) (e : Env) (i : Info) (m : Msg) (s : Store) : Bool := (execute c e i m s).isOk

theorem next_ok {c : Chain} {e : Env} {i : Info} {m : Msg} {s : Store} (h : goes c e i m s = true) :
    ∃ out, execute c e i m s = .ok (next c e i m s, out) := by
  unfold goes at h
  unfold next
  cases hr : execute c e i m s with
  | error e => rw [hr] at h; simp [Except.isOk, Except.toBool] at h
  | ok r => exact ⟨r.2, rfl⟩

theorem run_timed (c : Chain) : ∀ (ms : List (Info × Msg)) (s s' : Store), TimedReach c env.millis s → run c ms s = .ok s' →
    TimedReach c env.millis s'
  | [], s, s', hs, h => by
    have : s = s' := by simpa [run] using h
    exact this ▸ hs
  | (i, m) :: ms, s, s', hs, h => by
    unfold run at h
    cases he : execute c env i m s with
    | error e => rw [he] at h; simp [bind, Except.bind] at h
    | ok r => rw [he] at h; exact run_timed c ms r.1 s' (.call hs rfl he) h

theorem state_timed {c : Chain} {ms : List (Info × Msg)} (h : works c ms = true) : TimedReach c env.millis (state c ms) := by
  unfold works at h
  unfold state
  cases hr : run c ms (instantiate alice 0) with
  | error e => rw [hr] at h; simp [Except.isOk, Except.toBool] at h
  | ok s => exact run_timed c ms _ _ (.init _ _ (by decide) _ (by decide)) hr

/-- A block `ms` milliseconds after `env`. -/
def later (ms : Nat) : Env := ⟨2, 10 ^ 18 + ms * 10 ^ 6⟩

/-- Two positions side by side, the price in the upper one. -/
def clock0 : Store := state chain (crossing.take 4)
/-- Five seconds later a swap leaves the range `[-10, 10)` … -/
def clock1 : Store := next chain (later 5000) (by_ bob) (.swap key true 1000 true MIN_SQRT_PRICE) clock0
/-- … and three seconds later another one comes back. -/
def clock2 : Store := next chain (later 8000) (by_ bob) (.swap key false 700 true MAX_SQRT_PRICE) clock1

theorem held_of {s : Store} {k : PoolKey} {l u : Int}
    (h : (positionsOf s k).any (fun q => decide (q.lower = l ∧ q.upper = u)) = true) : Held s k l u := by
  rw [List.any_eq_true] at h
  obtain ⟨q, h1, h2⟩ := h
  exact ⟨q, h1, of_decide_eq_true h2⟩

theorem inRange_iff {s : Store} {k : PoolKey} {l u : Int} : InRange s k l u ↔
    (match s.pools.get? k.key with | some p => decide (l ≤ p.tick ∧ p.tick < u) | none => false) = true := by
  unfold InRange
  split <;> rename_i h <;> simp [h]

end Demo

/-- Whatever happens, a tick never records more time than the age of its pool, nor is a pool created in the
future. -/
theorem C60_age {c : Chain} {now : Nat} {s : Store} (h : TimedReach c now s) {k : PoolKey} (hk : k.wf) {p : Pool} {i : Int}
    {t : Tick} (hi : i32 i) (hp : s.pools.get? k.key = some p) (ht : s.ticks.get? (tickKey k i) = some t) :
    p.startTs ≤ now ∧ t.secondsOutside ≤ now - p.startTs :=
  ⟨h.inv.pools k p hk hp, h.inv.ticks k p i t hk hi hp ht⟩

/-- A crossed tick that records five seconds of eight. -/
example : (Demo.clock2.ticks.get? (tickKey Demo.key (-10))).map (fun t => t.secondsOutside) = some 3000 ∧
    TimedReach Demo.chain 1000000005000 Demo.clock1 := by
  refine ⟨by decide +kernel, ?_⟩
  obtain ⟨out, h⟩ := Demo.next_ok (c := Demo.chain) (e := Demo.later 5000) (i := Demo.by_ Demo.bob)
    (m := .swap Demo.key true 1000 true MIN_SQRT_PRICE) (s := Demo.clock0) (by decide +kernel)
  exact .call (.wait (t := 1000000000000) (Demo.state_timed (by decide +kernel)) (by decide) (by decide)) (by decide) h

/-- A call that opens a position at a tick not used before starts the tick's record: all time so far counts
as below the tick. -/
theorem C60_new_tick {c : Chain} {env : Env} {info : Info} {msg : Msg} {s s' : Store} {out : List OutMsg}
    (h : TimedReach c env.millis s) (he : execute c env info msg s = .ok (s', out)) {k : PoolKey} (hk : k.wf) {i : Int} (hi : i32 i)
    {t : Tick} (h0 : s.ticks.get? (tickKey k i) = none) (h1 : s'.ticks.get? (tickKey k i) = some t) :
    ∃ p, s'.pools.get? k.key = some p ∧ timeBelow p env.millis t = p.age env.millis := by
  have hm := h.reach.mreach
  by_cases hsw : msg.isSwap = false
  · have hst := TimeStep.quiet hm.struct (execute_quiet hsw he)
    obtain ⟨p, hp, ht⟩ := hst.ticks k i t hk hi h1
    obtain ⟨p', hp', a1, a2⟩ := hst.pools k p hk hp
    refine ⟨p', hp', ?_⟩
    have ei := (((execute_micros he).mreach hm).struct.tick hk hi h1).1
    have hle := h.inv.pools k p hk hp
    rcases ht with ⟨t2, b1, _⟩ | ⟨_, b1⟩
    · rw [h0] at b1; simp at b1
    · unfold timeBelow Pool.age
      rw [ei, b1, a1, a2]
      split
      · omega
      · simp
  · exfalso
    have := swap_ticks_same hm hsw he (tickKey k i)
    rw [h0, h1] at this
    simp at this

example : Demo.goes Demo.chain (Demo.later 5000) (Demo.by_ Demo.bob) (.createPosition Demo.key (-20) 30 1000 0 (10 ^ 30)) Demo.clock0 = true ∧
    (Demo.clock0.ticks.get? (tickKey Demo.key (-20))).isSome = false ∧
    ([-20, 30].map (fun i => ((Demo.next Demo.chain (Demo.later 5000) (Demo.by_ Demo.bob)
      (.createPosition Demo.key (-20) 30 1000 0 (10 ^ 30)) Demo.clock0).ticks.get? (tickKey Demo.key i)).map
        (fun t => t.secondsOutside))) = [some 5000, some 0] := by decide +kernel

/-- While a position holds a price range and all swaps end regularly, the clock of the range advances by
exactly the time the pool is in the range, whatever calls are made. -/
theorem C60_clock_partial {c : Chain} {k : PoolKey} {l u : Int} {t0 t n : Nat} {s0 s : Store} (h0 : TimedReach c t0 s0)
    (hh : Held s0 k l u) (h : Watch c k l u t0 s0 t s n) : rangeClock s k l u t = rangeClock s0 k l u t0 + n := by
  have : TimedReach c t s ∧ Held s k l u ∧ rangeClock s k l u t = rangeClock s0 k l u t0 + n := by
    induction h with
    | start => exact ⟨h0, hh, by simp⟩
    | inside _ hle hlt hin ih =>
      obtain ⟨a1, a2, a3⟩ := ih
      refine ⟨.wait a1 hle hlt, a2, ?_⟩
      rw [(rangeClock_wait a1.reach.mreach a2 hle).1 hin, a3]
      push_cast
      omega
    | outside _ hle hlt hin ih =>
      obtain ⟨a1, a2, a3⟩ := ih
      exact ⟨.wait a1 hle hlt, a2, by rw [(rangeClock_wait a1.reach.mreach a2 hle).2 hin, a3]⟩
    | call _ ht he hreg hh' ih =>
      obtain ⟨a1, a2, a3⟩ := ih
      subst ht
      exact ⟨.call a1 rfl he, hh', by rw [rangeClock_call a1.reach.mreach a1.inv a1.lt he hreg a2 hh', a3]⟩
  exact this.2.2

/-- Out of ten seconds the pool is in the range `[-10, 10)` for seven. -/
theorem Demo.clock_watch : Watch Demo.chain Demo.key (-10) 10 1000000000000 Demo.clock0 1000000010000 Demo.clock2 7000 := by
  obtain ⟨o1, h1⟩ := Demo.next_ok (c := Demo.chain) (e := Demo.later 5000) (i := Demo.by_ Demo.bob)
    (m := .swap Demo.key true 1000 true MIN_SQRT_PRICE) (s := Demo.clock0) (by decide +kernel)
  obtain ⟨o2, h2⟩ := Demo.next_ok (c := Demo.chain) (e := Demo.later 8000) (i := Demo.by_ Demo.bob)
    (m := .swap Demo.key false 700 true MAX_SQRT_PRICE) (s := Demo.clock1) (by decide +kernel)
  have a := Watch.inside (t' := 1000000005000) (Watch.start (c := Demo.chain) (k := Demo.key) (l := -10) (u := 10) (t0 := 1000000000000)
    (s0 := Demo.clock0)) (by decide) (by decide) (Demo.inRange_iff.2 (by decide +kernel))
  have b := Watch.call a (by decide) h1 (fun _ => show RegularEnd Demo.clock1 Demo.key true true MIN_SQRT_PRICE by decide +kernel)
    (Demo.held_of (by decide +kernel))
  have c := Watch.outside (t' := 1000000008000) b (by decide) (by decide) (fun h => absurd (Demo.inRange_iff.1 h) (by decide +kernel))
  have d := Watch.call c (by decide) h2 (fun _ => show RegularEnd Demo.clock2 Demo.key false true MAX_SQRT_PRICE by decide +kernel)
    (Demo.held_of (by decide +kernel))
  exact Watch.inside (t' := 1000000010000) d (by decide) (by decide) (Demo.inRange_iff.2 (by decide +kernel))

example : TimedReach Demo.chain 1000000000000 Demo.clock0 ∧ Held Demo.clock0 Demo.key (-10) 10 ∧
    rangeClock Demo.clock0 Demo.key (-10) 10 1000000000000 = 0 ∧
    rangeClock Demo.clock2 Demo.key (-10) 10 1000000010000 = 7000 ∧
    rangeClock Demo.clock2 Demo.key (-30) (-10) 1000000010000 = 3000 :=
  ⟨Demo.state_timed (by decide +kernel), Demo.held_of (by decide +kernel), by decide +kernel, by decide +kernel, by decide +kernel⟩

/-- False without the condition on swaps.  A swap that ends exactly at its price limit on a tick does not
cross it (see `C01_false_limit_on_tick`): the clock of the range above that tick, which the pool has never entered, jumps by
the age of the pool in a single call, and the clock of the range below falls by as much. -/
theorem C60_false : ∃ c t s env info msg s' out k l u, TimedReach c t s ∧ env.millis = t ∧
    execute c env info msg s = .ok (s', out) ∧ Held s k l u ∧ Held s' k l u ∧
    rangeClock s k l u t = 0 ∧ rangeClock s' k l u t = 60000 := by
  let s := Demo.state Demo.chain (Demo.setup ++ [(Demo.by_ Demo.bob, .createPosition Demo.key 10 30 (10 ^ 12) 0 (10 ^ 30))])
  obtain ⟨out, h⟩ := Demo.next_ok (c := Demo.chain) (e := Demo.later 60000) (i := Demo.by_ Demo.bob)
    (m := .swap Demo.key false 499 false (sqrtPriceAt 10)) (s := s) (by decide +kernel)
  exact ⟨Demo.chain, 1000000060000, s, Demo.later 60000, _, _, _, out, Demo.key, 10, 30,
    .wait (t := 1000000000000) (Demo.state_timed (by decide +kernel)) (by decide) (by decide), by decide, h,
    Demo.held_of (by decide +kernel), Demo.held_of (by decide +kernel), by decide +kernel, by decide +kernel⟩

end OraiV3
