import Mathlib.Data.Int.Interval
import Verif.Lemmas.SwapTotals
import Verif.Lemmas.SwapBooks

/-!
# Lemmas for C86: counting the steps of a swap
-/

namespace OraiV3

/-- Only purchases of X by exact output can stop between ticks with something left. -/
theorem iter_between {s : Store} {pr : SwapParams} {st st' : SwapState} {i : Int} {ini : Bool} {r : SwapResult}
    {cfg : Config} {p1 : Pool} {rem : Nat} {u : TickUpdRes} (hv : IterView s pr st st' i ini r cfg p1 rem u)
    (h : LoopOk pr.xToY pr.key.tier.spacing pr.limit st.pool st.remaining) (hr : st.remaining ≠ 0) (hrem : rem ≠ 0)
    (c1 : r.nextPrice ≠ sqrtPriceAt i ∨ if pr.xToY then sqrtPriceAt i ≤ pr.limit else pr.limit ≤ sqrtPriceAt i) :
    pr.byAmountIn = false ∧ pr.xToY = false := by
  have hta := target_ahead h hr hv.ok hv.dir
  have hnl : r.nextPrice ≠ pr.limit := fun e => hv.lim ⟨e, hrem⟩
  have hnt : r.nextPrice ≠ stepTarget pr.xToY (sqrtPriceAt i) pr.limit := by
    intro e
    unfold stepTarget at e
    cases hd : pr.xToY
    · rw [hd] at e c1
      simp only [Bool.false_eq_true, if_false] at e c1
      omega
    · rw [hd] at e c1
      simp only [if_true] at e c1
      omega
  have hL : st.pool.liquidity ≠ 0 := by
    intro hz
    have h1 := hv.step
    rw [hz] at h1
    exact hnt (by rw [step_zero h1])
  have hsp := step_price (d := pr.xToY) hv.step hta (sq_ge h.min)
  have hrest := hv.rest
  have hb : pr.byAmountIn = false := by
    cases hb : pr.byAmountIn
    · rfl
    · have := hsp.2 hb hnt
      rw [hb] at hrest
      simp only [if_true] at hrest
      omega
  refine ⟨hb, ?_⟩
  rw [hb] at hrest
  simp only [Bool.false_eq_true, if_false] at hrest
  obtain ⟨v1, -, ⟨out0, v2, v3⟩, -⟩ := step_view hv.step hL
  rw [hb] at v1 v3
  simp only [Bool.false_eq_true, if_false] at v1 v3
  obtain ⟨pre, w1, ⟨-, w2⟩ | ⟨w2, w3⟩⟩ := v1
  · exact absurd w2 hnt
  cases hd : pr.xToY
  · rfl
  · exfalso
    rw [hd] at hta
    simp only [if_true] at hta
    have hdd : decide (st.pool.sqrtPrice ≥ stepTarget pr.xToY (sqrtPriceAt i) pr.limit) = true := by
      rw [hd]; simp; exact hta
    rw [hdd] at w3 v2
    unfold nextSqrtPriceFromOutput at w3
    simp only [if_true] at w3
    obtain ⟨x1, x2, -⟩ := yDown_sub w3
    rw [deltaOut_true] at v2
    obtain ⟨-, -, y2⟩ := getDeltaY_down v2
    rw [absDiff_le x1] at y2
    have : st.remaining < out0 + 1 := by
      have : st.remaining * 10 ^ 30 < (out0 + 1) * 10 ^ 30 := Nat.lt_of_le_of_lt x2 y2
      exact Nat.lt_of_mul_lt_mul_right this
    omega

/-- An iteration that leaves something either crosses a tick in use or passes 256 empty ones. -/
theorem iter_work {s : Store} {pr : SwapParams} {st st' : SwapState} {i : Int} {ini : Bool} {r : SwapResult}
    {cfg : Config} {p1 : Pool} {rem : Nat} {u : TickUpdRes} (hv : IterView s pr st st' i ini r cfg p1 rem u)
    (h : LoopOk pr.xToY pr.key.tier.spacing pr.limit st.pool st.remaining) (hr : st.remaining ≠ 0) (hr' : st'.remaining ≠ 0)
    (hdb : pr.xToY = true ∨ pr.byAmountIn = true) :
    (ini = true ∧ if pr.xToY then i ≤ st.pool.tick ∧ st'.pool.tick < i else st.pool.tick < i ∧ st'.pool.tick = i) ∨
    (if pr.xToY then st'.pool.tick + 256 * pr.key.tier.spacing ≤ st.pool.tick
      else st.pool.tick + 256 * pr.key.tier.spacing ≤ st'.pool.tick) := by
  have hdir := hv.dir
  have hpos := hv.ok.pos
  have hins := hv.inside
  have hfar := hv.far
  unfold reachedTickLimit at hins
  rw [getMinTick_eq] at hins
  rcases hv.fin with ⟨t, c1, c2, upd, hu⟩ | ⟨e, c1, c2, c3, c4, hu⟩ |
    ⟨e, t, tp, c1, c2, c3, c4, c5, c6, c7, c8, hu⟩ | ⟨t, c1, c2, c3, c4, c5, c6, c7, c8⟩
  · exfalso
    have e1 : st'.remaining = rem := by rw [hv.eq, hu]
    rw [e1] at hr'
    obtain ⟨g1, g2⟩ := iter_between hv h hr hr' c1
    rw [g1, g2] at hdb
    simp at hdb
  · right
    have e1 : st'.pool.tick = if pr.xToY && e then i - pr.key.tier.spacing else i := by rw [hv.eq, hu]
    have e2 : u.pool.tick = if pr.xToY && e then i - pr.key.tier.spacing else i := by rw [hu]
    have f := hfar c2
    rw [e2] at hins
    rw [e1]
    cases hd : pr.xToY
    · rw [hd] at f hins
      simp only [Bool.false_eq_true, if_false, Bool.false_and, decide_eq_false_iff_not] at f hins ⊢
      omega
    · rw [hd] at f hins
      simp only [if_true, Bool.true_and, decide_eq_false_iff_not] at f hins ⊢
      cases e
      · simp only [Bool.false_eq_true, if_false] at hins ⊢; omega
      · simp only [if_true] at hins ⊢; omega
  · left
    refine ⟨c2, ?_⟩
    have e1 : st'.pool.tick = if pr.xToY && e then i - pr.key.tier.spacing else i := by rw [hv.eq, hu]
    rw [e1]
    cases hd : pr.xToY
    · rw [hd] at hdir
      simp only [Bool.false_eq_true, if_false, Bool.false_and] at hdir ⊢
      exact ⟨hdir, trivial⟩
    · rw [hd] at hdir
      simp only [if_true, Bool.true_and] at hdir ⊢
      rw [c7 hd]
      simp only [if_true]
      omega
  · exfalso
    apply hr'
    rcases c8 with ⟨d1, d2, p, d3, rfl⟩ | ⟨d1, rfl⟩ <;> rw [hv.eq]

/-- Ticks of the storage above `a` up to `b`. -/
noncomputable def storedTicks (s : Store) (k : PoolKey) (a b : Int) : Finset Int :=
  (Finset.Ioc a b).filter (fun j => (s.ticks.get? (tickKey k j)).isSome = true)

/-- The invariant of the loop while something is left. -/
def WorkInv (s : Store) (k : PoolKey) (d : Bool) (start : Int) (n : Nat) (t : Int) : Prop :=
  (if d then t ≤ start else start ≤ t) ∧ ∃ w : Nat,
    n ≤ (if d then storedTicks s k t start else storedTicks s k start t).card + w ∧
    ((256 * w * k.tier.spacing : Nat) : Int) ≤ if d then start - t else t - start

theorem WorkInv.zero (s : Store) (k : PoolKey) (d : Bool) (t : Int) : WorkInv s k d t 0 t := by
  refine ⟨by cases d <;> simp, 0, by omega, ?_⟩
  cases d <;> simp

theorem WorkInv.next {s : Store} {k : PoolKey} {d : Bool} {start : Int} {n : Nat} {t t' i : Int} {ini : Bool}
    (h : WorkInv s k d start n t) (hset : (s.ticks.get? (tickKey k i)).isSome = ini)
    (hw : (ini = true ∧ if d then i ≤ t ∧ t' < i else t < i ∧ t' = i) ∨
      (if d then t' + 256 * k.tier.spacing ≤ t else t + 256 * k.tier.spacing ≤ t')) : WorkInv s k d start (n + 1) t' := by
  obtain ⟨h1, w, h2, h3⟩ := h
  cases d
  · simp only [Bool.false_eq_true, if_false] at h1 h2 h3 hw
    rcases hw with ⟨hi, a1, a2⟩ | a
    · subst a2
      refine ⟨by simp only [Bool.false_eq_true, if_false]; omega, w, ?_, by simp only [Bool.false_eq_true, if_false]; omega⟩
      simp only [Bool.false_eq_true, if_false]
      have : storedTicks s k start t ⊂ storedTicks s k start t' := by
        refine Finset.ssubset_iff_subset_ne.2 ⟨fun j hj => ?_, fun e => ?_⟩
        · unfold storedTicks at hj ⊢
          rw [Finset.mem_filter, Finset.mem_Ioc] at hj ⊢
          exact ⟨⟨hj.1.1, by omega⟩, hj.2⟩
        · have : t' ∈ storedTicks s k start t' := by
            unfold storedTicks
            rw [Finset.mem_filter, Finset.mem_Ioc]
            exact ⟨⟨by omega, le_refl _⟩, by rw [hset, hi]⟩
          rw [← e] at this
          unfold storedTicks at this
          rw [Finset.mem_filter, Finset.mem_Ioc] at this
          omega
      have := Finset.card_lt_card this
      omega
    · refine ⟨by simp only [Bool.false_eq_true, if_false]; omega, w + 1, ?_, ?_⟩
      · simp only [Bool.false_eq_true, if_false]
        have : storedTicks s k start t ⊆ storedTicks s k start t' := fun j hj => by
          unfold storedTicks at hj ⊢
          rw [Finset.mem_filter, Finset.mem_Ioc] at hj ⊢
          exact ⟨⟨hj.1.1, by omega⟩, hj.2⟩
        have := Finset.card_le_card this
        omega
      · simp only [Bool.false_eq_true, if_false]
        rw [show 256 * (w + 1) * k.tier.spacing = 256 * w * k.tier.spacing + 256 * k.tier.spacing by ring]
        push_cast at h3 ⊢
        omega
  · simp only [if_true] at h1 h2 h3 hw
    rcases hw with ⟨hi, a1, a2⟩ | a
    · refine ⟨by simp only [if_true]; omega, w, ?_, by simp only [if_true]; omega⟩
      simp only [if_true]
      have : storedTicks s k t start ⊂ storedTicks s k t' start := by
        refine Finset.ssubset_iff_subset_ne.2 ⟨fun j hj => ?_, fun e => ?_⟩
        · unfold storedTicks at hj ⊢
          rw [Finset.mem_filter, Finset.mem_Ioc] at hj ⊢
          exact ⟨⟨by omega, hj.1.2⟩, hj.2⟩
        · have : i ∈ storedTicks s k t' start := by
            unfold storedTicks
            rw [Finset.mem_filter, Finset.mem_Ioc]
            exact ⟨⟨by omega, by omega⟩, by rw [hset, hi]⟩
          rw [← e] at this
          unfold storedTicks at this
          rw [Finset.mem_filter, Finset.mem_Ioc] at this
          omega
      have := Finset.card_lt_card this
      omega
    · refine ⟨by simp only [if_true]; omega, w + 1, ?_, ?_⟩
      · simp only [if_true]
        have : storedTicks s k t start ⊆ storedTicks s k t' start := fun j hj => by
          unfold storedTicks at hj ⊢
          rw [Finset.mem_filter, Finset.mem_Ioc] at hj ⊢
          exact ⟨⟨by omega, hj.1.2⟩, hj.2⟩
        have := Finset.card_le_card this
        omega
      · simp only [if_true]
        rw [show 256 * (w + 1) * k.tier.spacing = 256 * w * k.tier.spacing + 256 * k.tier.spacing by ring]
        push_cast at h3 ⊢
        omega

/-- The last iteration: where the tick can end up. -/
theorem iter_last {s : Store} {pr : SwapParams} {st st' : SwapState} {i : Int} {ini : Bool} {r : SwapResult}
    {cfg : Config} {p1 : Pool} {rem : Nat} {u : TickUpdRes} (hv : IterView s pr st st' i ini r cfg p1 rem u)
    (h : LoopOk pr.xToY pr.key.tier.spacing pr.limit st.pool st.remaining) (hr : st.remaining ≠ 0)
    (h' : LoopOk pr.xToY pr.key.tier.spacing pr.limit st'.pool st'.remaining) (hr' : st'.remaining = 0) :
    if pr.xToY then st'.pool.tick ≤ st.pool.tick + pr.key.tier.spacing else st.pool.tick ≤ st'.pool.tick := by
  have hpos := hv.ok.pos
  have hpr := iter_price hv h hr
  rw [← iter_price_eq hv] at hpr
  have h1 := (TickOk_iff.1 h.tick).2.2.2
  have h2 := (TickOk_iff.1 h'.tick).2.2.2
  cases hd : pr.xToY
  · rw [hd] at hpr
    simp only [Bool.false_eq_true, if_false] at hpr ⊢
    by_contra hc
    have g1 := h'.hi' (by omega) (.inl hr')
    have g2 := (h'.tick.add (by omega)).price_le h.tick (dvd_lt_step hpos h'.tick.dvd h.tick.dvd (by omega))
    have g3 := h.lo
    omega
  · rw [hd] at hpr
    simp only [if_true] at hpr ⊢
    by_contra hc
    have g1 := h.hi (by omega)
    have g2 := (h.tick.add (by omega)).price_lt h'.tick (by omega)
    have g3 := h'.lo
    omega

/-- The number of steps, in terms of the storage. -/
theorem swap_work {s : Store} {now : Nat} {k : PoolKey} {d : Bool} {amount : Nat} {b : Bool} {limit : Nat}
    {res : CalcSwapResult} {pool : Pool} (hs : Struct s) (hb : BitInv s) (hk : k.wf)
    (hp : s.pools.get? k.key = some pool) (hok : PoolOk k.tier.spacing pool)
    (h : calculateSwap s now k d amount b limit = .ok res) (hdb : d = true ∨ b = true) :
    swapSteps s now k d amount b limit = 0 ∨ ∃ (n : Nat) (t : Int), TickOk k.tier.spacing t ∧
      swapSteps s now k d amount b limit = n + 1 ∧ WorkInv s k d pool.tick n t ∧
      if d then res.pool.tick ≤ t + k.tier.spacing else t ≤ res.pool.tick := by
  obtain ⟨st, h1, h2, rfl⟩ := swap_count hs hb hk hp hok h
    (fun n st => if st.remaining = 0 then n = 0 ∨ ∃ (m : Nat) (t : Int), TickOk k.tier.spacing t ∧ n = m + 1 ∧
        WorkInv s k d pool.tick m t ∧ if d then st.pool.tick ≤ t + k.tier.spacing else t ≤ st.pool.tick
      else WorkInv s k d pool.tick n st.pool.tick)
    (fun n x y i ini r cfg p1 rem u hv hx hr hy hP => by
      rw [if_neg hr] at hP
      by_cases hr' : y.remaining = 0
      · rw [if_pos hr']
        exact .inr ⟨n, x.pool.tick, hx.tick, rfl, hP, iter_last hv hx hr hy hr'⟩
      · rw [if_neg hr']
        exact hP.next hv.set (iter_work hv hx hr hr' hdb))
    (by
      split
      · exact .inl rfl
      · exact WorkInv.zero s k d pool.tick)
  rw [if_pos h2] at h1
  exact h1

end OraiV3
