import Verif.Lemmas.Active
import Verif.Props.Swap

/-!
# C01: the active liquidity of a pool

False as stated: the three theorems `C01_false_*` show three different swaps after which the pool trades
against liquidity that is not the liquidity of the positions in range.  `C01_active_partial` proves the property for
every pool in which swaps avoid these three endings (`RegularReach`).
-/

namespace OraiV3

instance (s : Store) (k : PoolKey) (t : Int) : Decidable (UsedTick s k t) :=
  inferInstanceAs (Decidable (∃ p ∈ positionsOf s k, p.lower = t ∨ p.upper = t))

instance (s : Store) (k : PoolKey) (d b : Bool) (limit : Nat) : Decidable (RegularEnd s k d b limit) :=
  decidable_of_iff (∀ p ∈ (s.pools.get? k.key).toList,
    (p.sqrtPrice = sqrtPriceAt p.tick → UsedTick s k p.tick → if d then b = false else p.sqrtPrice ≠ limit) ∧
    (d = true → b = true → UsedTick s k (p.tick + k.tier.spacing) →
      10 ^ 24 ≤ (sqrtPriceAt (p.tick + k.tier.spacing) - p.sqrtPrice) * p.sqrtPrice))
    (by unfold RegularEnd; simp only [Option.mem_toList])

namespace Demo

/-- Run calls one after the other, checking that single swaps in pools of `P` end regularly (routes are not allowed). -/
def runRegular (c : Chain) (P : PoolKey → Bool) : List (Info × Msg) → Store → Bool
  | [], _ => true
  | (i, m) :: ms, s =>
    match execute c env i m s with
    | .error _ => false
    | .ok r => (match m with
        | .swap k d _ b limit => !P k || decide (RegularEnd r.1 k d b limit)
        | .swapRoute _ _ _ _ => false
        | _ => true) && runRegular c P ms r.1

theorem runRegular_reach (c : Chain) (P : PoolKey → Bool) : ∀ (ms : List (Info × Msg)) (s s' : Store), RegularReach c (P · = true) s →
    runRegular c P ms s = true → run c ms s = .ok s' → RegularReach c (P · = true) s'
  | [], s, s', hs, _, h => by
    have : s = s' := by simpa [run] using h
    exact this ▸ hs
  | (i, m) :: ms, s, s', hs, hr, h => by
    unfold run at h
    unfold runRegular at hr
    cases he : execute c env i m s with
    | error e => rw [he] at h; simp [bind, Except.bind] at h
    | ok r =>
      rw [he] at h hr
      simp only [Bool.and_eq_true] at hr
      refine runRegular_reach c P ms r.1 s' (.step hs he ?_) hr.2 h
      have h1 := hr.1
      cases m <;> simp_all [RegularCall]
      intro hk
      simpa [hk] using h1

/-- The state after calls that all succeed and whose swaps in pools of `P` end regularly. -/
theorem state_regular_in {c : Chain} {P : PoolKey → Bool} {ms : List (Info × Msg)} (h : runRegular c P ms (instantiate alice 0) = true)
    (hw : works c ms = true) : RegularReach c (P · = true) (state c ms) := by
  unfold works at hw
  unfold state
  cases hr : run c ms (instantiate alice 0) with
  | error e => rw [hr] at hw; simp [Except.isOk, Except.toBool] at hw
  | ok s => exact runRegular_reach c P ms _ _ (.init _ _ (by decide)) h hr

/-- The state after calls that all succeed and end regularly. -/
theorem state_regular {c : Chain} {ms : List (Info × Msg)} (h : runRegular c (fun _ => true) ms (instantiate alice 0) = true)
    (hw : works c ms = true) : RegularReach c (fun _ => True) (state c ms) :=
  (state_regular_in h hw).mono (fun _ _ => rfl)

/-- A history in which a swap leaves the first position and crosses into a second one, and comes back. -/
def crossing : List (Info × Msg) := setup ++
  [(by_ bob, .createPosition key (-30) (-10) (2 * 10 ^ 12) 0 (10 ^ 30)),
   (by_ bob, .swap key true 1000 true MIN_SQRT_PRICE),
   (by_ bob, .swap key false 700 true MAX_SQRT_PRICE)]

/-- The same, after a swap in another pool that ends on an initialized tick. -/
def awayKey : PoolKey := ⟨[96], [97], tier⟩
def elsewhere : List (Info × Msg) := crossing ++
  [(by_ alice, .createPool [96] [97] tier (10 ^ 24) 0),
   (by_ alice, .createPosition awayKey (-10) 10 (10 ^ 12) 0 (10 ^ 30)),
   (by_ bob, .swap awayKey false 499 false (sqrtPriceAt 10))]

/-- A swap whose price limit is the price of an initialized tick and which ends exactly there. -/
def limitOnTick : List (Info × Msg) := setup ++ [(by_ bob, .swap key false 499 false (sqrtPriceAt 10))]

/-- A swap that crosses a tick and then trades an amount too small to move the price. -/
def stall : List (Info × Msg) := setup ++
  [(by_ bob, .createPosition key (-20) (-10) (10 ^ 33) 0 (10 ^ 30)),
   (by_ bob, .swap key true 800 true MIN_SQRT_PRICE)]

/-- A swap whose computed price falls below the tick it was heading for. -/
def passing : List (Info × Msg) := lowPrice ++ [(by_ bob, .swap key100 true 5559157155198773 true MIN_SQRT_PRICE)]

end Demo

/-- In every state reached by a history of calls whose swaps in a pool all end regularly, the pool's liquidity is
the sum of the liquidity of the open positions whose range contains the current tick. -/
theorem C01_active_partial {c : Chain} {s : Store} {k : PoolKey} (hs : RegularReach c (· = k) s) {p : Pool} (hk : k.wf)
    (hp : s.pools.get? k.key = some p) : p.liquidity = liquidityInRange s k p.tick :=
  active_of (hs.active k hk rfl) hp

/-- The same in one word: there is no error.  This is the condition under which other properties are proved. -/
theorem C01_no_drift_partial {c : Chain} {s : Store} {k : PoolKey} (hs : RegularReach c (· = k) s) (hk : k.wf) : drift s k = 0 :=
  hs.active k hk rfl

/-- A regular history in which swaps cross ticks in both directions. -/
example : RegularReach Demo.chain (fun _ => True) (Demo.state Demo.chain Demo.crossing) :=
  Demo.state_regular (by decide +kernel) (by decide +kernel)

example : (([3, 4, 5, 6].map (fun n => (Demo.state Demo.chain (Demo.crossing.take n)).pools.get? Demo.key.key)).map
    (fun p => p.map (fun p => (p.tick, p.liquidity)))) =
    [some (0, 10 ^ 12), some (0, 10 ^ 12), some (-20, 2 * 10 ^ 12), some (-10, 10 ^ 12)] := by decide +kernel

/-- What is wrong with one pool does not matter for another. -/
example : RegularReach Demo.chain (· = Demo.key) (Demo.state Demo.chain Demo.elsewhere) ∧
    drift (Demo.state Demo.chain Demo.elsewhere) Demo.awayKey = 10 ^ 12 :=
  ⟨(Demo.state_regular_in (P := fun k => decide (k = Demo.key)) (by decide +kernel) (by decide +kernel)).mono
    (fun _ h => decide_eq_true h), by decide +kernel⟩

/-- The statement of C01, for one history. -/
def ActiveLiquidityRight (s : Store) : Prop :=
  ∀ (k : PoolKey) (p : Pool), k.wf → s.pools.get? k.key = some p → p.liquidity = liquidityInRange s k p.tick

theorem not_active_of {s : Store} {k : PoolKey} (hk : k.wf)
    (h : (match s.pools.get? k.key with
      | some p => decide (p.liquidity ≠ liquidityInRange s k p.tick) | none => false) = true) :
    ¬ ActiveLiquidityRight s := by
  intro ha
  split at h
  · rename_i p hp
    exact (of_decide_eq_true h) (ha k p hk hp)
  · simp at h

/-- False, first way.  `get_closer_limit` compares with the limit strictly, so a swap from Y to X whose
limit is the price of an initialized tick, ending exactly there, moves the current tick onto that tick without crossing
it: here the only position `[-10, 10)` is out of range and still counted as active. -/
theorem C01_false_limit_on_tick : ∃ s, Reach Demo.chain s ∧ ¬ ActiveLiquidityRight s :=
  ⟨Demo.state Demo.chain Demo.limitOnTick, Demo.state_reach (by decide +kernel),
    not_active_of (k := Demo.key) (by decide +kernel) (by decide +kernel)⟩

/-- False, second way.  After crossing a tick downwards an exact-input swap trades an amount that is too
small to move the price; the price then still is the price of the crossed tick and the current tick becomes that tick
again, although the liquidity has already been changed. -/
theorem C01_false_stall : ∃ s, Reach Demo.chain s ∧ ¬ ActiveLiquidityRight s :=
  ⟨Demo.state Demo.chain Demo.stall, Demo.state_reach (by decide +kernel),
    not_active_of (k := Demo.key) (by decide +kernel) (by decide +kernel)⟩

/-- False, third way.  The price computed for an exact-input swap from X to Y can lie below the tick the
step was heading for, which then is passed without being crossed. -/
theorem C01_false_passing : ∃ s, Reach Demo.chain s ∧ ¬ ActiveLiquidityRight s :=
  ⟨Demo.state Demo.chain Demo.passing, Demo.state_reach (by decide +kernel),
    not_active_of (k := Demo.key100) (by decide +kernel) (by decide +kernel)⟩

/-- What the three states look like: current tick, active liquidity, liquidity in range. -/
example : ([(Demo.limitOnTick, Demo.key), (Demo.stall, Demo.key), (Demo.passing, Demo.key100)].map (fun x =>
    ((Demo.state Demo.chain x.1).pools.get? x.2.key).map (fun p =>
      (p.tick, p.liquidity, liquidityInRange (Demo.state Demo.chain x.1) x.2 p.tick)))) =
    [some (10, 10 ^ 12, 0), some (-10, 10 ^ 33, 10 ^ 12), some (-200100, 10 ^ 20, 0)] := by decide +kernel

/-! ## The full law

`drift s k` is the error of the pool's liquidity: the difference to the liquidity of the positions in range.  The following
theorems say for every call, in every reachable state, what becomes of it.  C01 claims that it always is zero.
-/

/-- Before the first call there is no error. -/
theorem C01_drift_init (sender : Bytes) (fee : Nat) (k : PoolKey) : drift (instantiate sender fee) k = 0 := by
  unfold drift
  simp [instantiate, Store.empty, KV.get?_empty]

/-- No call other than a swap changes the error of any pool; a new pool starts without. -/
theorem C01_drift_other {c : Chain} {s s' : Store} {env : Env} {info : Info} {msg : Msg} {out : List OutMsg}
    (hr : Reach c s) (he : execute c env info msg s = .ok (s', out)) (hsw : msg.isSwap = false) {k : PoolKey} (hk : k.wf) :
    drift s' k = drift s k :=
  drift_quiet hr.mreach.struct hr.mreach.posInv (execute_quiet hsw he) hk

/-- A swap changes the error of its own pool only, and only in the ways `Missed` lists, by the net liquidity of the tick
missed.  A swap from Y to X that ends at its limit on a tick always misses that tick. -/
theorem C01_drift_swap {c : Chain} {s s' : Store} {env : Env} {info : Info} {k : PoolKey} {d : Bool} {amount : Nat} {b : Bool}
    {limit : Nat} {out : List OutMsg} (hr : Reach c s)
    (he : execute c env info (.swap k d amount b limit) s = .ok (s', out)) :
    (∀ k' : PoolKey, k'.wf → k' ≠ k → drift s' k' = drift s k') ∧
    (drift s' k = drift s k ∨ Missed s' k d b limit (drift s' k - drift s k)) ∧
    (∀ p, s'.pools.get? k.key = some p → d = false → p.sqrtPrice = limit → p.sqrtPrice = sqrtPriceAt p.tick →
      drift s' k = drift s k - netAt s' k p.tick) := by
  obtain ⟨hw, he⟩ := execute_ok.1 he
  simp only [dispatch] at he
  obtain ⟨r, h⟩ := swap_inv he
  obtain ⟨delta, h1, h2, h3⟩ := drift_swap hr.mreach hw.1 h
  have h4 := h2 k hw.1
  rw [if_pos rfl] at h4
  simp only at h4
  refine ⟨fun k' hk' hne => by rw [h2 k' hk', if_neg hne, Int.add_zero], ?_, fun p a b c d => ?_⟩
  · rcases h1 with h1 | h1
    · left; omega
    · right
      have : drift s' k - drift s k = delta := by omega
      rw [this]; exact h1
  · have := h3 p a b c d
    simp only at this
    omega

/-- The hops of a route do the same one after the other. -/
theorem C01_drift_route {c : Chain} {s s' : Store} {env : Env} {info : Info} {amount expected slippage : Nat} {hops : List Hop}
    {out : List OutMsg} (hr : Reach c s)
    (he : execute c env info (.swapRoute amount expected slippage hops) s = .ok (s', out)) {k : PoolKey} (hk : k.wf) :
    MissedOnRoute c info env.millis k hops s amount (drift s' k - drift s k) := by
  obtain ⟨hw, he⟩ := execute_ok.1 he
  simp only [dispatch] at he
  obtain ⟨fin, m, h1, _, _⟩ := swapRoute_inv he
  obtain ⟨delta, h2, h3⟩ := drift_route hr.mreach hw.2.2.2 hw.1 h1 hk
  have : drift s' k - drift s k = delta := by omega
  rw [this]; exact h2

/-- A call whose swaps all end regularly changes no error: a pool whose liquidity is wrong stays wrong, by the same amount. -/
theorem C01_drift_swap_regular {c : Chain} {s s' : Store} {env : Env} {info : Info} {k : PoolKey} {d : Bool} {amount : Nat}
    {b : Bool} {limit : Nat} {out : List OutMsg} (hr : Reach c s)
    (he : execute c env info (.swap k d amount b limit) s = .ok (s', out)) (hreg : RegularEnd s' k d b limit)
    {k' : PoolKey} (hk : k'.wf) : drift s' k' = drift s k' := by
  obtain ⟨h1, h2 | h2, -⟩ := C01_drift_swap hr he
  · by_cases h : k' = k
    · rw [h]; exact h2
    · exact h1 k' hk h
  · exact absurd hreg h2.irregular

/-- The errors of the three states above, and what is missed: the ends of `[-10, 10)` and of `[-20, -10)` with the start of
`[-10, 10)`, and the start of the only position at `-200000`. -/
example : ([(Demo.limitOnTick, Demo.key), (Demo.stall, Demo.key), (Demo.passing, Demo.key100)].map (fun x =>
    drift (Demo.state Demo.chain x.1) x.2)) = [10 ^ 12, 10 ^ 33 - 10 ^ 12, 10 ^ 20] ∧
    [netAt (Demo.state Demo.chain Demo.limitOnTick) Demo.key 10, netAt (Demo.state Demo.chain Demo.stall) Demo.key (-10),
      netAt (Demo.state Demo.chain Demo.passing) Demo.key100 (-200000)] = [- 10 ^ 12, 10 ^ 12 - 10 ^ 33, 10 ^ 20] := by
  decide +kernel

end OraiV3
