import Verif.Lemmas.Trace
import Verif.Props.Local
import Verif.Props.Clock

/-!
# C72: opening and closing a position leaves no trace
-/

namespace OraiV3

/-- **C72.** Opening a position and closing it again leaves every pool's price, liquidity and fees, every tick, the bitmap,
every position, every account's list and all settings as they were; only the time of the pool's last change moves on. -/
theorem C72_no_trace {c : Chain} {s s1 s2 : Store} {env env' : Env} {info info' : Info} {k : PoolKey} {l u : Int} {L lo hi : Nat}
    {out out' : List OutMsg} (hr : Reach c s)
    (h : execute c env info (.createPosition k l u L lo hi) s = .ok (s1, out)) (he : info'.sender = info.sender)
    (h' : execute c env' info' (.removePosition (positionList s info.sender).length) s1 = .ok (s2, out')) : NoTrace s s2 := by
  have hr1 : Reach c s1 := .step hr h
  rw [positionList_length] at h'
  exact open_close hr.mreach hr1.mreach.struct (execute_ok.1 h).1 (execute_ok.1 h).2 he (execute_ok.1 h').2

theorem SR.sameView {E : Expiration → Prop} {n n' : Nat} {s0 s0' s s' : Store} (h0 : NoTrace s0 s0')
    (h : SR false true true E n n' (fun _ => True) (fun _ => True) s0 s0' s s') : SameView s s' := by
  have hor : ∀ {α β : Type} {x y : Option α} {R : α → α → Prop} {f : α → β}, (∀ a b, R a b → f a = f b) → ORel R x y →
      y.map f = x.map f := by
    intro α β x y R f hR h
    cases x <;> cases y
    · rfl
    · exact h.elim
    · exact h.elim
    · exact congrArg some (hR _ _ h).symm
  exact {
    config := h.config
    operators := h.operators
    pools := fun key => by
      by_cases hA : ∀ k : PoolKey, True → key ≠ k.key
      · rw [(h.kPools key hA).1, (h.kPools key hA).2]
        have e := congrArg (Option.map Pool.timeless) (h0.pools key)
        rw [Option.map_map, Option.map_map] at e
        exact e
      · simp only [not_forall, not_not] at hA
        obtain ⟨k, hk, rfl⟩ := hA
        exact hor (fun _ _ h => h.1) (h.pools k hk)
    ticks := fun key => by
      by_cases hA : ∀ (k : PoolKey) (i : Int), True → key ≠ tickKey k i
      · rw [(h.kTicks key hA).1, (h.kTicks key hA).2]
        have e := congrArg (Option.map Tick.timeless) (h0.ticks key)
        rw [Option.map_map, Option.map_map] at e
        exact e
      · simp only [not_forall, not_not] at hA
        obtain ⟨k, i, hk, rfl⟩ := hA
        refine hor (fun a b h => ?_) (h.ticks k i hk)
        obtain ⟨so, sg, rfl, hsg, -⟩ := h.form
        rcases hsg with rfl | ⟨-, hz⟩
        · unfold Tick.plain
          simp only
          split <;> rfl
        · unfold Tick.plain
          simp only [hz, if_true]
          rfl
    bitmap := fun key => by
      by_cases hA : ∀ (k : PoolKey) i, True → key ≠ bitmapKey i k
      · rw [(h.kBitmap key hA).1, (h.kBitmap key hA).2]
        exact h0.bitmap key
      · simp only [not_forall, not_not] at hA
        obtain ⟨k, i, hk, rfl⟩ := hA
        exact (h.bitmap k i hk).1.symm
    positions := fun id => hor (fun _ _ h => h.1) (h.positions id trivial)
    posLen := fun u => (h.posLen u trivial).1 }

/-- Storages without a difference give the same results for ever. -/
theorem NoTrace.future {c : Chain} {s s2 : Store} {env : Env} (hr : TimedReach c env.millis s) (hn : NoTrace s s2)
    (calls : List (Env × Info × Msg)) (hf : Forward (env :: calls.map (·.1))) :
    (runCalls c calls s2).2 = (runCalls c calls s).2 ∧ SameView (runCalls c calls s).1 (runCalls c calls s2).1 := by
  have h0 := hn.related hr.reach.mreach.struct (n := env.millis) hr.inv.pools
  unfold Forward at hf
  rw [List.pairwise_cons] at hf
  have e1 : (calls.map fun x => (x.1, x.1, x.2)).map (fun x : Env × Env × Info × Msg => (x.1, x.2.2)) = calls := by
    rw [List.map_map]; exact List.map_id _
  have e2 : (calls.map fun x => (x.1, x.1, x.2)).map (fun x : Env × Env × Info × Msg => (x.2.1, x.2.2)) = calls := by
    rw [List.map_map]; exact List.map_id _
  have := run_two (c := c) trivial (calls.map fun x => (x.1, x.1, x.2)) h0
    (by
      intro x hx
      obtain ⟨y, hy, rfl⟩ := List.mem_map.1 hx
      have := hf.1 _ (List.mem_map.2 ⟨y, hy, rfl⟩)
      exact ⟨this, this⟩)
    (by unfold Forward; rw [List.map_map]; exact hf.2) (by unfold Forward; rw [List.map_map]; exact hf.2)
    (by
      intro x hx e _
      obtain ⟨y, hy, rfl⟩ := List.mem_map.1 hx
      rfl)
    fun _ _ _ _ => trivial
  rw [e1, e2] at this
  obtain ⟨a, m, m', b⟩ := this
  exact ⟨a, b.sameView hn⟩

/-- **C72.** So nothing that happens later depends on it: every sequence of calls made afterwards, by anybody, gives call by
call the same payments or the same error as without the position, and leads to the same prices, liquidity, fees, positions
and rights. -/
theorem C72_future {c : Chain} {s s1 s2 : Store} {env env' : Env} {info info' : Info} {k : PoolKey} {l u : Int} {L lo hi : Nat}
    {out out' : List OutMsg} (hr : TimedReach c env.millis s)
    (h : execute c env info (.createPosition k l u L lo hi) s = .ok (s1, out)) (he : info'.sender = info.sender)
    (h' : execute c env' info' (.removePosition (positionList s info.sender).length) s1 = .ok (s2, out'))
    (calls : List (Env × Info × Msg)) (hf : Forward (env :: calls.map (·.1))) :
    (runCalls c calls s2).2 = (runCalls c calls s).2 ∧ SameView (runCalls c calls s).1 (runCalls c calls s2).1 := by
  exact (C72_no_trace hr.reach h he h').future hr calls hf

namespace Demo

/-- A position is opened at two ticks, one of them new … -/
def trace1 : Store := next chain (later 1000) (by_ carol) (.createPosition key (-10) 30 (10 ^ 12) 0 (10 ^ 30)) clock0
/-- … and closed. -/
def trace2 : Store := next chain (later 2000) (by_ carol) (.removePosition 0) trace1
/-- What a swap gives. -/
def traded (s : Store) : List (Option (List OutMsg)) :=
  (runCalls chain [(later 3000, by_ bob, .swap key true 1000 true MIN_SQRT_PRICE)] s).2.map (·.toOption)

end Demo

/-- In between the pool and the ticks are different, afterwards a swap gives the same as before. -/
example : TimedReach Demo.chain (Demo.later 1000).millis Demo.clock0 ∧
    Demo.goes Demo.chain (Demo.later 1000) (Demo.by_ Demo.carol) (.createPosition Demo.key (-10) 30 (10 ^ 12) 0 (10 ^ 30)) Demo.clock0 = true ∧
    (positionList Demo.clock0 Demo.carol).length = 0 ∧
    Demo.goes Demo.chain (Demo.later 2000) (Demo.by_ Demo.carol) (.removePosition 0) Demo.trace1 = true ∧
    (Demo.trace1.ticks.get? (tickKey Demo.key 30)).isSome = true ∧ (Demo.clock0.ticks.get? (tickKey Demo.key 30)).isSome = false ∧
    Demo.traded Demo.trace2 = Demo.traded Demo.clock0 ∧ Demo.traded Demo.trace1 ≠ Demo.traded Demo.clock0 := by
  refine ⟨?_, by decide +kernel, by decide +kernel, by decide +kernel, by decide +kernel, by decide +kernel, by decide +kernel,
    by decide +kernel⟩
  exact .wait (t := 1000000000000) (Demo.state_timed (by decide +kernel)) (by decide) (by decide)

end OraiV3
