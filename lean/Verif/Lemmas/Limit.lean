import Verif.Lemmas.ExactOut
import Verif.Lemmas.Accept
import Verif.Lemmas.SwapTotals

/-!
# Swaps with a looser price limit

An iteration that ends strictly inside its limit would have done the same with a looser one.
-/

namespace OraiV3

theorem closer_two {bm : Nat → Nat} {l l' : Nat} {d : Bool} {cur : Int} {ts : Nat} {cl : Nat × Option (Int × Bool)}
    (h : getCloserLimit bm l d cur ts = .ok cl) (hl : if d then l' ≤ l else l ≤ l') :
    ∃ cl', getCloserLimit bm l' d cur ts = .ok cl' ∧
      (cl' = cl ∨ (cl = (l, none) ∧ if d then cl'.1 ≤ l else l ≤ cl'.1)) := by
  obtain ⟨i, b, h1, h2, h3⟩ := getCloserLimit_inv h
  have hp := calculateSqrtPrice_ok.2 ⟨h2, rfl⟩
  have e : getCloserLimit bm l' d cur ts = .ok (if (d = true ∧ sqrtPriceAt i > l') ∨ (¬ d = true ∧ sqrtPriceAt i < l')
      then (sqrtPriceAt i, some (i, b)) else (l', none)) := by
    unfold getCloserLimit
    cases d
    · simp only [Bool.false_eq_true, if_false] at h1 ⊢
      rcases h1 with ⟨rfl, h1⟩ | ⟨rfl, h1, h4, h5⟩
      · rw [h1, ok_bind]
        simp only [pure_bind]
        rw [hp, ok_bind]
        split <;> rfl
      · rw [h1, ok_bind]
        simp only
        rw [h4, ok_bind, if_neg h5]
        simp only [pure_bind]
        rw [hp, ok_bind]
        split <;> rfl
    · simp only [if_true] at h1 ⊢
      rcases h1 with ⟨rfl, h1⟩ | ⟨rfl, h1, h4, h5⟩
      · rw [h1, ok_bind]
        simp only [pure_bind]
        rw [hp, ok_bind]
        split <;> rfl
      · rw [h1, ok_bind]
        simp only
        rw [h4, ok_bind, if_neg h5]
        simp only [pure_bind]
        rw [hp, ok_bind]
        split <;> rfl
  refine ⟨_, e, ?_⟩
  cases d
  · simp only [Bool.false_eq_true, if_false, false_and, not_false_eq_true, true_and, false_or] at h3 hl ⊢
    rcases h3 with ⟨h3, rfl⟩ | ⟨h3, rfl⟩
    · rw [if_pos (by omega)]; exact .inl rfl
    · split
      · exact .inr ⟨rfl, h3⟩
      · exact .inr ⟨rfl, hl⟩
  · simp only [if_true, true_and, not_true_eq_false, false_and, or_false] at h3 hl ⊢
    rcases h3 with ⟨h3, rfl⟩ | ⟨h3, rfl⟩
    · rw [if_pos (by omega)]; exact .inl rfl
    · split
      · exact .inr ⟨rfl, h3⟩
      · exact .inr ⟨rfl, hl⟩

/-- What an iteration leaves to be traded. -/
def iterRest (b : Bool) (remaining : Nat) (r : SwapResult) : M Nat :=
  if b then do
    let inFee ← add128 r.amountIn r.feeAmount
    checkedSub .sub remaining inFee
  else checkedSub .sub remaining r.amountOut

/-- An iteration, part by part. -/
theorem swapIter_parts {s : Store} {k : PoolKey} {d b : Bool} {l now : Nat} {st : SwapState} :
    swapIter s ⟨k, d, b, l, now⟩ st =
      (getCloserLimit (getChunk s k) l d st.pool.tick k.tier.spacing >>= fun cl =>
        computeSwapStep st.pool.sqrtPrice cl.1 st.pool.liquidity st.remaining b k.tier.fee >>= fun r =>
        iterRest b st.remaining r >>= fun rem =>
        loadConfig s >>= fun cfg =>
        st.pool.addFee r.feeAmount d cfg.protocolFee >>= fun p0 =>
        add128 st.fee r.feeAmount >>= fun fee =>
        add128 r.amountIn r.feeAmount >>= fun inFee =>
        add128 st.totalIn inFee >>= fun ti =>
        add128 st.totalOut r.amountOut >>= fun tt =>
        if r.nextPrice = l ∧ rem ≠ 0 then .error .priceLimitReached
        else
          tickUpdOf s k cl.2 >>= fun upd =>
          Pool.updateTick { p0 with sqrtPrice := r.nextPrice } r.nextPrice cl.1 upd rem b d now cfg.protocolFee k.tier >>= fun u =>
          add128 ti u.total >>= fun ti' =>
          if reachedTickLimit d k.tier.spacing u.pool.tick then .error .tickLimitReached
          else pure { pool := u.pool, remaining := u.remaining, totalIn := ti', totalOut := tt,
                      fee := fee, ticks := pushCrossed st.ticks u.upd u.crossed }) := by
  unfold swapIter iterRest
  cases b
  · rfl
  · simp only [if_true, bind_assoc]

/-- Moving the price further takes no less. -/
theorem deltaIn_further {d : Bool} {cur t t' L x : Nat} (h : deltaIn d cur t L = .ok x)
    (ht : if d then t' ≤ t ∧ t ≤ cur else cur ≤ t ∧ t ≤ t') (hc : MIN_SQRT_PRICE ≤ cur) (hc' : cur ≤ MAX_SQRT_PRICE)
    (h1 : MIN_SQRT_PRICE ≤ t') (h2 : t' ≤ MAX_SQRT_PRICE) (hL : L < U128) :
    ∃ x', deltaIn d cur t' L = .ok x' ∧ x ≤ x' := by
  unfold deltaIn at h ⊢
  cases d
  · simp only [Bool.false_eq_true, if_false] at h ht ⊢
    obtain ⟨x', e⟩ := getDeltaY_up_ok hc' h2 hL
    refine ⟨x', e, ?_⟩
    unfold getDeltaY at h e
    simp only [if_true, cast128_ok] at h e
    rw [absDiff_le ht.1] at h
    rw [absDiff_le (by omega)] at e
    rw [← h.2, ← e.2]
    exact Nat.div_le_div_right (Nat.add_le_add_right (Nat.div_le_div_right (Nat.add_le_add_right (Nat.mul_le_mul_right _ (by omega)) _)) _)
  · simp only [if_true] at h ht ⊢
    obtain ⟨x', e⟩ := getDeltaX_up_ok h1 hc hL
    obtain ⟨x0, e1, e2⟩ := getDeltaX_up_less e ht.1 ht.2
    rw [h, ok_inj] at e1
    exact ⟨x', e, by omega⟩

/-- Moving the price further down pays no less. -/
theorem deltaOut_further {cur t t' L x : Nat} (h : deltaOut true cur t L = .ok x) (ht : t' ≤ t) (hc : t ≤ cur)
    (hc' : cur ≤ MAX_SQRT_PRICE) (h2 : t' ≤ MAX_SQRT_PRICE) (hL : L < U128) :
    ∃ x', deltaOut true cur t' L = .ok x' ∧ x ≤ x' := by
  unfold deltaOut at h ⊢
  simp only [if_true] at h ⊢
  obtain ⟨x', e⟩ := getDeltaY_down_ok h2 hc' hL
  refine ⟨x', e, ?_⟩
  unfold getDeltaY at h e
  simp only [Bool.false_eq_true, if_false, cast128_ok] at h e
  rw [absDiff_le hc] at h
  rw [absDiff_le (by omega)] at e
  rw [← h.2, ← e.2]
  exact Nat.div_le_div_right (Nat.div_le_div_right (Nat.mul_le_mul_right _ (by omega)))

/-- The amount a step computes for its target. -/
def deltaFull (b d : Bool) (cur t L : Nat) : M Nat := if b then deltaIn d cur t L else deltaOut d cur t L

theorem stepNext_further {cur t t' L A fee : Nat} {b d : Bool} {np : Nat × Nat} (h : stepNextPrice cur t L A b fee d = .ok np)
    (hn : np.1 ≠ t) (hm : ∀ x, deltaFull b d cur t L = .ok x → ∃ x', deltaFull b d cur t' L = .ok x' ∧ x ≤ x') :
    ∃ pre, stepNextPrice cur t' L A b fee d = .ok (np.1, pre) := by
  unfold stepNextPrice at h ⊢
  unfold deltaFull deltaIn deltaOut at hm
  cases b
  · simp only [Bool.false_eq_true, if_false] at h hm ⊢
    cases d
    · simp only [Bool.false_eq_true, if_false] at h hm ⊢
      rw [bind_ok] at h
      obtain ⟨x, hx, h⟩ := h
      obtain ⟨x', hx', hle⟩ := hm x hx
      rw [hx', ok_bind]
      split at h
      · rw [pure_ok] at h; rw [← h] at hn; exact absurd rfl hn
      · rw [bind_ok] at h
        obtain ⟨q, hq, h⟩ := h
        rw [pure_ok] at h
        subst h
        rw [if_neg (by omega), hq, ok_bind]
        exact ⟨x', rfl⟩
    · simp only [if_true] at h hm ⊢
      rw [bind_ok] at h
      obtain ⟨x, hx, h⟩ := h
      obtain ⟨x', hx', hle⟩ := hm x hx
      rw [hx', ok_bind]
      split at h
      · rw [pure_ok] at h; rw [← h] at hn; exact absurd rfl hn
      · rw [bind_ok] at h
        obtain ⟨q, hq, h⟩ := h
        rw [pure_ok] at h
        subst h
        rw [if_neg (by omega), hq, ok_bind]
        exact ⟨x', rfl⟩
  · simp only [if_true] at h hm ⊢
    rw [bind_ok] at h
    obtain ⟨aaf, ha, h⟩ := h
    rw [ha, ok_bind]
    cases d
    · simp only [Bool.false_eq_true, if_false] at h hm ⊢
      rw [bind_ok] at h
      obtain ⟨x, hx, h⟩ := h
      obtain ⟨x', hx', hle⟩ := hm x hx
      rw [hx', ok_bind]
      split at h
      · rw [pure_ok] at h; rw [← h] at hn; exact absurd rfl hn
      · rw [bind_ok] at h
        obtain ⟨q, hq, h⟩ := h
        rw [pure_ok] at h
        subst h
        rw [if_neg (by omega), hq, ok_bind]
        exact ⟨x', rfl⟩
    · simp only [if_true] at h hm ⊢
      rw [bind_ok] at h
      obtain ⟨x, hx, h⟩ := h
      obtain ⟨x', hx', hle⟩ := hm x hx
      rw [hx', ok_bind]
      split at h
      · rw [pure_ok] at h; rw [← h] at hn; exact absurd rfl hn
      · rw [bind_ok] at h
        obtain ⟨q, hq, h⟩ := h
        rw [pure_ok] at h
        subst h
        rw [if_neg (by omega), hq, ok_bind]
        exact ⟨x', rfl⟩

/-- A step that does not reach its target does the same with a target further away. -/
theorem step_further {cur t t' L A fee : Nat} {b d : Bool} {r : SwapResult} (h : computeSwapStep cur t L A b fee = .ok r)
    (hd : decide (cur ≥ t) = d) (hd' : decide (cur ≥ t') = d) (hn : r.nextPrice ≠ t) (hn' : r.nextPrice ≠ t')
    (hm : ∀ x, deltaFull b d cur t L = .ok x → ∃ x', deltaFull b d cur t' L = .ok x' ∧ x ≤ x') :
    computeSwapStep cur t' L A b fee = .ok r := by
  by_cases hL : L = 0
  · rw [hL] at h
    exact absurd (congrArg SwapResult.nextPrice (step_zero h)) hn
  · unfold computeSwapStep at h ⊢
    rw [if_neg hL] at h ⊢
    dsimp only at h ⊢
    rw [hd] at h
    rw [hd']
    rw [bind_ok] at h
    obtain ⟨np, h1, h⟩ := h
    have hr : r.nextPrice = np.1 := by
      rw [bind_ok] at h
      obtain ⟨_, _, h⟩ := h
      rw [bind_ok] at h
      obtain ⟨_, _, h⟩ := h
      split at h <;> (rw [bind_ok] at h; obtain ⟨_, _, h⟩ := h; rw [pure_ok] at h; rw [← h])
    rw [hr] at hn hn'
    obtain ⟨pre, e⟩ := stepNext_further h1 hn hm
    rw [e, ok_bind]
    have e1 : decide (t ≠ np.1) = true := by simpa using fun hh => hn hh.symm
    have e2 : decide (t' ≠ np.1) = true := by simpa using fun hh => hn' hh.symm
    rw [e1] at h
    simp only [e2]
    unfold stepAmountIn stepAmountOut at h ⊢
    simpa only [Bool.true_or, if_true] using h

theorem updateTick_next {pool : Pool} {np sl : Nat} {upd : TickUpd} {rem : Nat} {b d : Bool} {now pf : Nat} {tier : FeeTier}
    {u : TickUpdRes} (h : pool.updateTick np sl upd rem b d now pf tier = .ok u) : u.pool.sqrtPrice = pool.sqrtPrice := by
  rcases updateTick_inv h with ⟨_, t, _, rfl⟩ | ⟨_, e, _, ⟨j, rfl, rfl⟩ | ⟨t, rfl, h⟩⟩
  · rfl
  · rfl
  · rcases h with ⟨_, tp, hc, rfl⟩ | ⟨_, _, _, _, p, hp, rfl⟩ | ⟨_, _, _, rfl⟩
    · obtain ⟨liq, _, _, _, e2⟩ := Tick.cross_inv hc
      simp only; rw [e2]
    · exact (addFee_keep hp).2.1
    · rfl

/-- An iteration that ends strictly inside its limit does the same with a looser limit. -/
theorem iter_looser {s : Store} {k : PoolKey} {d b : Bool} {l l' now : Nat} {st st1 : SwapState} (hbi : BitInv s)
    (hk : k.wf) (hv : k.tier.Valid) (hx : b = true ∨ d = true)
    (h : swapIter s ⟨k, d, b, l, now⟩ st = .ok st1) (hl : if d then l' ≤ l else l ≤ l')
    (ho : LoopOk d k.tier.spacing l st.pool st.remaining) (hr : st.remaining ≠ 0) (hL : st.pool.liquidity < U128)
    (hin : if d then l < st1.pool.sqrtPrice else st1.pool.sqrtPrice < l) :
    swapIter s ⟨k, d, b, l', now⟩ st = .ok st1 := by
  rw [swapIter_parts] at h ⊢
  rw [bind_ok] at h
  obtain ⟨cl, h1, h⟩ := h
  obtain ⟨cl', h1', hcl⟩ := closer_two h1 hl
  rw [h1', ok_bind]
  rw [bind_ok] at h
  obtain ⟨r, h2, h⟩ := h
  rw [bind_ok] at h
  obtain ⟨rem, h3, h⟩ := h
  rw [bind_ok] at h
  obtain ⟨cfg, h4, h⟩ := h
  rw [bind_ok] at h
  obtain ⟨p0, h5, h⟩ := h
  rw [bind_ok] at h
  obtain ⟨fee, h6, h⟩ := h
  rw [bind_ok] at h
  obtain ⟨inFee, h7, h⟩ := h
  rw [bind_ok] at h
  obtain ⟨ti, h8, h⟩ := h
  rw [bind_ok] at h
  obtain ⟨tt, h9, h⟩ := h
  rw [ite_error_ok] at h
  obtain ⟨h10, h⟩ := h
  rw [bind_ok] at h
  obtain ⟨upd, h11, h⟩ := h
  rw [bind_ok] at h
  obtain ⟨u, h12, h⟩ := h
  have hnp : st1.pool.sqrtPrice = r.nextPrice := by
    rw [bind_ok] at h
    obtain ⟨_, _, h⟩ := h
    rw [ite_error_ok, pure_ok] at h
    rw [← h.2]
    exact updateTick_next h12
  rw [hnp] at hin
  rcases hcl with rfl | ⟨rfl, hcl⟩
  · rw [h2, ok_bind, h3, ok_bind, h4, ok_bind, h5, ok_bind, h6, ok_bind, h7, ok_bind, h8, ok_bind, h9, ok_bind, if_neg, h11,
      ok_bind, h12, ok_bind]
    · exact h
    · rintro ⟨hh, -⟩
      cases d
      · simp only [Bool.false_eq_true, if_false] at hin hl hh; omega
      · simp only [if_true] at hin hl hh; omega
  · have hlim := ho.lim hr
    have hmin := ho.min
    have hmax := Nat.le_trans ho.le_top (maxTick_ok ho.tick.pos).price_max
    obtain ⟨i, bb, a1, a2, a3, -, -, -, a4⟩ := closer_far (hbi.chunk k) ho.tick h1'
    have hb1 := a1.price_min
    have hb2 := a1.price_max
    have hrange : MIN_SQRT_PRICE ≤ cl'.1 ∧ cl'.1 ≤ MAX_SQRT_PRICE := by
      rcases a4 with ⟨-, rfl⟩ | ⟨a4, rfl⟩
      · exact ⟨hb1, hb2⟩
      · cases d
        · simp only [Bool.false_eq_true, if_false] at a4 hcl hlim ⊢; omega
        · simp only [if_true] at a4 hcl hlim ⊢; omega
    have hupd : ∃ upd', tickUpdOf s k cl'.2 = .ok upd' := by
      rcases a4 with ⟨-, rfl⟩ | ⟨-, rfl⟩
      · cases bb
        · exact ⟨_, rfl⟩
        · have := (hbi.isSome hk hv a1).1 (a3.1 rfl)
          obtain ⟨t, ht⟩ := Option.isSome_iff_exists.1 this
          exact ⟨.init t, by simp only [tickUpdOf]; rw [getTick_ok.2 ht]; rfl⟩
      · exact ⟨_, rfl⟩
    obtain ⟨upd', h11'⟩ := hupd
    have hne : r.nextPrice ≠ cl'.1 ∧ r.nextPrice ≠ l ∧ r.nextPrice ≠ l' ∧ decide (st.pool.sqrtPrice ≥ l) = d ∧
        decide (st.pool.sqrtPrice ≥ cl'.1) = d := by
      cases d
      · simp only [Bool.false_eq_true, if_false] at hin hl hcl hlim
        refine ⟨by omega, by omega, by omega, by simpa using hlim, by simpa using by omega⟩
      · simp only [if_true] at hin hl hcl hlim
        refine ⟨by omega, by omega, by omega, by simpa using by omega, by simpa using by omega⟩
    obtain ⟨n1, n2, n3, n4, n5⟩ := hne
    have h2' : computeSwapStep st.pool.sqrtPrice cl'.1 st.pool.liquidity st.remaining b k.tier.fee = .ok r := by
      refine step_further h2 n4 n5 n2 n1 (fun x hx' => ?_)
      unfold deltaFull at hx' ⊢
      cases b
      · rcases hx with hx | hx
        · cases hx
        · subst hx
          simp only [Bool.false_eq_true, if_false, if_true] at hx' hcl hlim ⊢
          exact deltaOut_further hx' hcl (by omega) hmax hrange.2 hL
      · simp only [if_true] at hx' ⊢
        refine deltaIn_further hx' ?_ hmin hmax hrange.1 hrange.2 hL
        cases d
        · simp only [Bool.false_eq_true, if_false] at hcl hlim ⊢; omega
        · simp only [if_true] at hcl hlim ⊢; omega
    rw [h2', ok_bind, h3, ok_bind, h4, ok_bind, h5, ok_bind, h6, ok_bind, h7, ok_bind, h8, ok_bind, h9, ok_bind,
      if_neg (fun hh => n3 hh.1), h11', ok_bind]
    have hu : upd = .noTick := by
      simp only [tickUpdOf, pure_ok] at h11; exact h11.symm
    subst hu
    unfold Pool.updateTick at h12 ⊢
    rw [if_pos (.inl rfl), bind_ok] at h12
    obtain ⟨t, ht, h12⟩ := h12
    rw [pure_ok] at h12
    subst h12
    rw [if_pos (.inr (fun hh => n1 hh.symm)), ht, ok_bind]
    simp only [pure_bind]
    have hpush : ∀ x, pushCrossed st.ticks x false = st.ticks := fun x => by cases x <;> rfl
    simp only [hpush] at h ⊢
    exact h

/-- The loop of a swap that ends strictly inside its limit does the same with a looser limit. -/
theorem loop_looser {s : Store} {k : PoolKey} {d b : Bool} {l l' now : Nat} (hs : Struct s) (hbi : BitInv s)
    (hk : k.wf) (hv : k.tier.Valid) (hx : b = true ∨ d = true) (hl : if d then l' ≤ l else l ≤ l') :
    ∀ {n : Nat} {st stf : SwapState}, swapLoop s ⟨k, d, b, l, now⟩ n st = .ok stf →
      LoopOk d k.tier.spacing l st.pool st.remaining → st.pool.Bounded → (∀ t ∈ st.ticks, CrossedOf s k t) →
      (if d then l < stf.pool.sqrtPrice else stf.pool.sqrtPrice < l) →
      swapLoop s ⟨k, d, b, l', now⟩ n st = .ok stf
  | 0, st, stf, h, _, _, _, _ => h
  | n + 1, st, stf, h, ho, hb, ht, hin => by
    unfold swapLoop at h ⊢
    by_cases hr : st.remaining = 0
    · rw [if_pos hr] at h ⊢
      exact h
    · rw [if_neg hr] at h ⊢
      rw [bind_ok] at h
      obtain ⟨st1, h1, h⟩ := h
      obtain ⟨i, ini, r, cfg, p1, rem, u, hview⟩ := iter_view (pr := ⟨k, d, b, l, now⟩) hs hbi hk hv ho.tick h1
      have ho1 := iter_ok (pr := ⟨k, d, b, l, now⟩) hview ho hr
      obtain ⟨hb1, ht1⟩ := swapIter_struct (pr := ⟨k, d, b, l, now⟩) hs hk h1 hb ht
      have hmono := (loop_induct (pr := ⟨k, d, b, l, now⟩) hs hbi hk hv
        (fun x => if d then x.pool.sqrtPrice ≤ st1.pool.sqrtPrice else st1.pool.sqrtPrice ≤ x.pool.sqrtPrice)
        (fun x y i ini r cfg p1 rem u hv hx hr hy hP => by
          have e := iter_price hv hx hr
          have e2 : y.pool.sqrtPrice = r.nextPrice := iter_price_eq hv
          dsimp only at hP e ⊢
          cases d
          · simp only [Bool.false_eq_true, if_false] at hP e ⊢; omega
          · simp only [if_true] at hP e ⊢; omega) ho1 (by cases d <;> simp) h).2.1
      rw [iter_looser hbi hk hv hx h1 hl ho hr hb.2.2 (by
        cases d
        · simp only [Bool.false_eq_true, if_false] at hmono hin ⊢; omega
        · simp only [if_true] at hmono hin ⊢; omega), ok_bind]
      exact loop_looser hs hbi hk hv hx hl h ho1 hb1 ht1 hin

/-- A swap that ends strictly inside its limit gives the same result with a looser limit. -/
theorem swap_looser {s : Store} {now : Nat} {k : PoolKey} {d : Bool} {amount : Nat} {b : Bool} {l l' : Nat}
    {res : CalcSwapResult} {pool : Pool} (hs : Struct s) (hbi : BitInv s) (hk : k.wf)
    (hp : s.pools.get? k.key = some pool) (hok : PoolOk k.tier.spacing pool) (hx : b = true ∨ d = true)
    (hl : if d then l' ≤ l else l ≤ l')
    (h : calculateSwap s now k d amount b l = .ok res)
    (hin : if d then l < res.pool.sqrtPrice else res.pool.sqrtPrice < l) :
    calculateSwap s now k d amount b l' = .ok res := by
  obtain ⟨pool', st, h1, h2, h3, h4, h5, h6, h7⟩ := calculateSwap_inv h
  rw [hp, Option.some.injEq] at h2
  subst h2
  have hlim : if d then l < pool.sqrtPrice else pool.sqrtPrice < l := by
    cases d
    · simp only [Bool.false_eq_true, if_false] at h4 ⊢; exact h4.1
    · simp only [if_true] at h4 ⊢; exact h4.1
  have h5' := loop_looser hs hbi hk (hs.tier hk hp) hx hl h5 (hok.loop hlim) (hs.fg _ _ hp) (by simp) (by rw [h7] at hin; exact hin)
  unfold calculateSwap
  rw [if_neg h1, getPool_ok.2 hp, ok_bind, if_neg, if_neg h3, h5', ok_bind, if_neg h6, h7]
  · rfl
  · cases d
    · simp only [Bool.false_eq_true, if_false, false_and, not_false_eq_true, true_and, false_or] at h4 hl ⊢; omega
    · simp only [if_true, true_and, not_true_eq_false, false_and, or_false] at h4 hl ⊢; omega

end OraiV3
