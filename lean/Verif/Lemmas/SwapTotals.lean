import Verif.Lemmas.Price

/-!
# Totals and final price of a swap
-/

namespace OraiV3

/-- In the direction X to Y, an output still wanted is always enough to move the price. -/
theorem enough_out {rem p L fee : Nat} (h : isEnoughAmountToChangePrice rem p L fee false true = .ok false) :
    rem = 0 := by
  unfold isEnoughAmountToChangePrice at h
  split at h
  · simp at h
  · simp only [Bool.false_eq_true, if_false, bind_ok, pure_ok] at h
    obtain ⟨q, h1, h⟩ := h
    unfold nextSqrtPriceFromOutput at h1
    simp only [if_true] at h1
    obtain ⟨h2, h3, h4⟩ := yDown_sub h1
    have : p = q := by simpa using h
    subst this
    rw [Nat.sub_self, Nat.zero_mul] at h3
    have hK : (0 : Nat) < 10 ^ 30 := by norm_num
    generalize (10 : Nat) ^ 30 = K at *
    rcases Nat.eq_zero_or_pos rem with h0 | h0
    · exact h0
    · have := Nat.mul_pos h0 hK; omega

/-- What is left plus what was charged is the offered input. -/
theorem iter_in {s : Store} {pr : SwapParams} {st st' : SwapState} {i : Int} {ini : Bool} {r : SwapResult}
    {cfg : Config} {p1 : Pool} {rem : Nat} {u : TickUpdRes} (hv : IterView s pr st st' i ini r cfg p1 rem u)
    (hb : pr.byAmountIn = true) : st'.remaining + st'.totalIn = st.remaining + st.totalIn := by
  have h1 := hv.rest
  rw [hb] at h1
  simp only [if_true] at h1
  rw [hv.eq]
  simp only
  rcases hv.fin with ⟨t, c1, c2, upd, rfl⟩ | ⟨e, c1, c2, c3, c4, rfl⟩ | ⟨e, t, tp, c1, c2, c3, c4, c5, c6, c7, c8, rfl⟩ |
    ⟨t, c1, c2, c3, c4, c5, c6, c7, c8⟩
  · simp only; omega
  · simp only; omega
  · simp only; omega
  · rcases c8 with ⟨d1, d2, p, d3, rfl⟩ | ⟨d1, rfl⟩
    · simp only; omega
    · rw [hb] at d1
      simp only [Bool.true_eq_false, or_false] at d1
      simp only; omega

/-- What is left plus what was paid is the wanted output. -/
theorem iter_out {s : Store} {pr : SwapParams} {st st' : SwapState} {i : Int} {ini : Bool} {r : SwapResult}
    {cfg : Config} {p1 : Pool} {rem : Nat} {u : TickUpdRes} (hv : IterView s pr st st' i ini r cfg p1 rem u)
    (hb : pr.byAmountIn = false) : st'.remaining + st'.totalOut = st.remaining + st.totalOut := by
  have h1 := hv.rest
  rw [hb] at h1
  simp only [Bool.false_eq_true, if_false] at h1
  rw [hv.eq]
  simp only
  rcases hv.fin with ⟨t, c1, c2, upd, rfl⟩ | ⟨e, c1, c2, c3, c4, rfl⟩ | ⟨e, t, tp, c1, c2, c3, c4, c5, c6, c7, c8, rfl⟩ |
    ⟨t, c1, c2, c3, c4, c5, c6, c7, c8⟩
  · simp only; omega
  · simp only; omega
  · simp only; omega
  · rcases c8 with ⟨d1, d2, p, d3, rfl⟩ | ⟨d1, rfl⟩
    · rw [hb] at d2; simp at d2
    · rw [hb, c4] at c5
      have := enough_out c5
      simp only; omega

/-- A step that pays something charges something. -/
theorem step_no_free {cur target L amount fee : Nat} {b : Bool} {r : SwapResult}
    (h : computeSwapStep cur target L amount b fee = .ok r) (ho : r.amountOut ≠ 0) : r.amountIn ≠ 0 := by
  by_cases hL : L = 0
  · rw [hL] at h
    have := step_zero h
    rw [this] at ho
    simp at ho
  · obtain ⟨-, h1, ⟨out0, h2, h3⟩, -⟩ := step_view h hL
    have ho0 : out0 ≠ 0 := by
      rintro rfl
      apply ho
      rw [h3]; split <;> simp
    intro hi
    rw [hi] at h1
    cases hd : decide (cur ≥ target)
    · rw [hd] at h1 h2
      rw [deltaIn_false] at h1
      rw [deltaOut_false] at h2
      obtain ⟨-, a1, -⟩ := getDeltaY_up h1
      obtain ⟨-, b2, b3, b1, -⟩ := getDeltaX_down h2
      rw [Nat.zero_mul] at a1
      rw [Nat.le_zero.1 a1, Nat.zero_mul] at b1
      have := Nat.mul_pos (Nat.pos_of_ne_zero ho0) (Nat.mul_pos b2 b3)
      omega
    · rw [hd] at h1 h2
      rw [deltaIn_true] at h1
      rw [deltaOut_true] at h2
      obtain ⟨-, b1, -⟩ := getDeltaY_down h2
      unfold getDeltaX at h1
      simp only [if_true] at h1
      obtain ⟨-, -, a1, -⟩ := divToTokenUp_inv h1
      rw [Nat.zero_mul] at a1
      have a2 : absDiff r.nextPrice cur * L < LIQ := by
        have := floor_spec (absDiff r.nextPrice cur * L) LIQ (by norm_num)
        rw [Nat.le_zero.1 a1, Nat.zero_mul] at this
        omega
      have a3 : (10 : Nat) ^ 30 ≤ out0 * 10 ^ 30 := Nat.le_mul_of_pos_left _ (Nat.pos_of_ne_zero ho0)
      have a4 : LIQ ≤ 10 ^ 30 := by norm_num
      omega

theorem iter_price_eq {s : Store} {pr : SwapParams} {st st' : SwapState} {i : Int} {ini : Bool} {r : SwapResult}
    {cfg : Config} {p1 : Pool} {rem : Nat} {u : TickUpdRes} (hv : IterView s pr st st' i ini r cfg p1 rem u) :
    st'.pool.sqrtPrice = r.nextPrice := by
  have hp1 : p1.sqrtPrice = r.nextPrice := by obtain ⟨p0, -, rfl⟩ := hv.fee; rfl
  rw [hv.eq]
  show u.pool.sqrtPrice = _
  rcases hv.fin with ⟨t, c1, c2, upd, rfl⟩ | ⟨e, c1, c2, c3, c4, rfl⟩ | ⟨e, t, tp, c1, c2, c3, c4, c5, c6, c7, c8, rfl⟩ |
    ⟨t, c1, c2, c3, c4, c5, c6, c7, c8⟩
  · exact hp1
  · exact hp1
  · obtain ⟨liq, d1, d2, d3, d4⟩ := Tick.cross_inv c8
    simp only [d4]; exact hp1
  · rcases c8 with ⟨d1, d2, p, d3, rfl⟩ | ⟨d1, rfl⟩
    · simp only [(addFee_keep d3).2.1]; exact hp1
    · exact hp1

/-- The price moves in the direction of the swap and stops at the limit, except that an exact-input swap
from X to Y can end a little below it. -/
theorem swap_price {s : Store} {now : Nat} {k : PoolKey} {d : Bool} {amount : Nat} {b : Bool} {limit : Nat}
    {res : CalcSwapResult} {pool : Pool} (hs : Struct s) (hb : BitInv s) (hk : k.wf)
    (hp : s.pools.get? k.key = some pool) (hok : PoolOk k.tier.spacing pool)
    (h : calculateSwap s now k d amount b limit = .ok res) :
    if d then res.pool.sqrtPrice ≤ pool.sqrtPrice ∧
        (res.pool.sqrtPrice < limit → b = true ∧ (limit - res.pool.sqrtPrice) * limit < SPR)
      else pool.sqrtPrice ≤ res.pool.sqrtPrice ∧ res.pool.sqrtPrice ≤ limit := by
  obtain ⟨st, h1, -, -, -, -, -, rfl⟩ := swap_induct hs hb hk hp hok h
    (fun x => if d then x.pool.sqrtPrice ≤ pool.sqrtPrice ∧
        (x.pool.sqrtPrice < limit → b = true ∧ (limit - x.pool.sqrtPrice) * limit < SPR)
      else pool.sqrtPrice ≤ x.pool.sqrtPrice ∧ x.pool.sqrtPrice ≤ limit)
    (fun x y i ini r cfg p1 rem u hv hx hr hy hP => by
    have h1 := iter_price hv hx hr
    have h3 := hx.lim hr
    have h4 := target_ahead hx hr hv.ok hv.dir
    rw [iter_price_eq hv]
    cases d
    · simp only [Bool.false_eq_true, if_false] at h1 hP ⊢
      omega
    · simp only [if_true, stepTarget] at h1 hP h3 h4 ⊢
      refine ⟨by omega, fun hlt => ?_⟩
      obtain ⟨-, a2, a3, a4⟩ := h1.2 (by omega)
      refine ⟨a2, Nat.lt_of_le_of_lt (Nat.mul_le_mul ?_ ?_) a4⟩ <;> omega) (fun _ hl => by
    cases d
    · simp only [Bool.false_eq_true, if_false] at hl ⊢; omega
    · simp only [if_true] at hl ⊢; omega)
  exact h1

theorem swap_amount_in {s : Store} {now : Nat} {k : PoolKey} {d : Bool} {amount : Nat} {limit : Nat}
    {res : CalcSwapResult} {pool : Pool} (hs : Struct s) (hb : BitInv s) (hk : k.wf)
    (hp : s.pools.get? k.key = some pool) (hok : PoolOk k.tier.spacing pool)
    (h : calculateSwap s now k d amount true limit = .ok res) : res.amountIn = amount := by
  obtain ⟨st, h1, -, h3, -, -, -, rfl⟩ := swap_induct hs hb hk hp hok h (fun x => x.remaining + x.totalIn = amount)
    (fun x y i ini r cfg p1 rem u hv hx hr hy hP => by
      have := iter_in hv rfl
      omega) (fun _ _ => by simp)
  show st.totalIn = amount
  omega

theorem swap_amount_out {s : Store} {now : Nat} {k : PoolKey} {d : Bool} {amount : Nat} {limit : Nat}
    {res : CalcSwapResult} {pool : Pool} (hs : Struct s) (hb : BitInv s) (hk : k.wf)
    (hp : s.pools.get? k.key = some pool) (hok : PoolOk k.tier.spacing pool)
    (h : calculateSwap s now k d amount false limit = .ok res) : res.amountOut = amount := by
  obtain ⟨st, h1, -, h3, -, -, -, rfl⟩ := swap_induct hs hb hk hp hok h (fun x => x.remaining + x.totalOut = amount)
    (fun x y i ini r cfg p1 rem u hv hx hr hy hP => by
      have := iter_out hv rfl
      omega) (fun _ _ => by simp)
  show st.totalOut = amount
  omega

theorem swap_positive {s : Store} {now : Nat} {k : PoolKey} {d : Bool} {amount : Nat} {b : Bool} {limit : Nat}
    {res : CalcSwapResult} {pool : Pool} (hs : Struct s) (hb : BitInv s) (hk : k.wf)
    (hp : s.pools.get? k.key = some pool) (hok : PoolOk k.tier.spacing pool)
    (h : calculateSwap s now k d amount b limit = .ok res) : res.amountIn ≠ 0 ∧ res.amountOut ≠ 0 := by
  obtain ⟨st, h1, -, h3, h4, -, -, rfl⟩ := swap_induct hs hb hk hp hok h (fun x => x.totalOut ≠ 0 → x.totalIn ≠ 0)
    (fun x y i ini r cfg p1 rem u hv hx hr hy hP => by
      have := step_no_free hv.step
      rw [hv.eq]
      simp only
      omega) (fun _ _ => by simp)
  exact ⟨h1 h4, h4⟩

/-! ## Progress -/

theorem xSub_strict {p L x q S : Nat} (hp : 0 < p) (h0 : 0 < x) (hx : p * x < L * S)
    (h : p * L * S ≤ q * (L * S - p * x)) : p < q := by
  by_contra hc
  have h1 : q * (L * S - p * x) ≤ p * (L * S - p * x) := Nat.mul_le_mul_right _ (by omega)
  have h2 : 0 < p * (p * x) := Nat.mul_pos hp (Nat.mul_pos hp h0)
  have e0 : p * (L * S - p * x) = p * (L * S) - p * (p * x) := Nat.mul_sub _ _ _
  rw [e0] at h1
  have e : p * (L * S) = p * L * S := by ring
  have h3 : p * (p * x) ≤ p * (L * S) := Nat.mul_le_mul_left _ (by omega)
  omega

/-- An iteration after which something is left makes progress. -/
theorem iter_progress {s : Store} {pr : SwapParams} {st st' : SwapState} {i : Int} {ini : Bool} {r : SwapResult}
    {cfg : Config} {p1 : Pool} {rem : Nat} {u : TickUpdRes} (hv : IterView s pr st st' i ini r cfg p1 rem u)
    (h : LoopOk pr.xToY pr.key.tier.spacing pr.limit st.pool st.remaining) (hr : st.remaining ≠ 0)
    (h' : LoopOk pr.xToY pr.key.tier.spacing pr.limit st'.pool st'.remaining) (hr' : st'.remaining ≠ 0) :
    if pr.xToY then st'.pool.tick < st.pool.tick
    else st.pool.tick < st'.pool.tick ∨
      (pr.byAmountIn = false ∧ st.pool.tick ≤ st'.pool.tick ∧ st.pool.sqrtPrice < st'.pool.sqrtPrice) := by
  have hp1 : p1.liquidity = st.pool.liquidity := by
    obtain ⟨p0, hp0, rfl⟩ := hv.fee; exact (addFee_keep hp0).1
  have hnp := iter_price_eq hv
  have hpr := iter_price hv h hr
  have hta := target_ahead h hr hv.ok hv.dir
  have hdir := hv.dir
  have hself := hv.self
  have hpos := hv.ok.pos
  rcases hv.fin with ⟨t, c1, c2, upd, hu⟩ | ⟨e, c1, c2, c3, c4, hu⟩ |
    ⟨e, t, tp, c1, c2, c3, c4, c5, c6, c7, c8, hu⟩ | ⟨t, c1, c2, c3, c4, c5, c6, c7, c8⟩
  · -- the price stopped between ticks with something left: exact output, Y to X
    have e1 : st'.remaining = rem := by rw [hv.eq, hu]
    rw [e1] at hr'
    have hnl : r.nextPrice ≠ pr.limit := fun e => hv.lim ⟨e, hr'⟩
    have hnt : r.nextPrice ≠ stepTarget pr.xToY (sqrtPriceAt i) pr.limit := by
      intro e
      unfold stepTarget at e
      cases hd : pr.xToY
      · rw [hd] at e c1
        simp only [Bool.false_eq_true, if_false] at e c1
        omega
      · rw [hd] at e c1
        simp only [if_true] at e c1
        omega
    have hL : st.pool.liquidity ≠ 0 := by
      intro hz
      have h1 := hv.step
      rw [hz] at h1
      exact hnt (by rw [step_zero h1])
    have hsp := step_price (d := pr.xToY) hv.step hta (sq_ge h.min)
    have hrest := hv.rest
    have hb : pr.byAmountIn = false := by
      cases hb : pr.byAmountIn
      · rfl
      · have := hsp.2 hb hnt
        rw [hb] at hrest
        simp only [if_true] at hrest
        omega
    rw [hb] at hrest
    simp only [Bool.false_eq_true, if_false] at hrest
    obtain ⟨v1, -, ⟨out0, v2, v3⟩, -⟩ := step_view hv.step hL
    rw [hb] at v1 v3
    simp only [Bool.false_eq_true, if_false] at v1 v3
    obtain ⟨pre, w1, ⟨-, w2⟩ | ⟨w2, w3⟩⟩ := v1
    · exact absurd w2 hnt
    cases hd : pr.xToY
    · rw [hd] at hta hpr hnt
      simp only [Bool.false_eq_true, if_false] at hta hpr ⊢
      right
      have hdd : decide (st.pool.sqrtPrice ≥ stepTarget pr.xToY (sqrtPriceAt i) pr.limit) = false := by
        rw [hd]; simp; exact hta
      rw [hdd] at w3
      unfold nextSqrtPriceFromOutput at w3
      simp only [Bool.false_eq_true, if_false] at w3
      obtain ⟨-, x1, x2, -⟩ := xUp_sub w3 hr
      have hmin := h.min
      have hM : 0 < MIN_SQRT_PRICE := by norm_num
      have hlt := xSub_strict (by omega) (by omega) x1 x2
      rw [← hnp] at hlt
      refine ⟨hb, ?_, hlt⟩
      by_contra hc
      have h1 := (TickOk_iff.1 h.tick).2.2.2
      have h2 := h'.hi (by omega)
      have h3 := (h'.tick.add (by omega)).price_le h.tick
        (dvd_lt_step hpos h'.tick.dvd h.tick.dvd (by omega))
      have h4 := h.lo
      omega
    · exfalso
      rw [hd] at hta
      simp only [if_true] at hta
      have hdd : decide (st.pool.sqrtPrice ≥ stepTarget pr.xToY (sqrtPriceAt i) pr.limit) = true := by
        rw [hd]; simp; exact hta
      rw [hdd] at w3 v2
      unfold nextSqrtPriceFromOutput at w3
      simp only [if_true] at w3
      obtain ⟨x1, x2, -⟩ := yDown_sub w3
      rw [deltaOut_true] at v2
      obtain ⟨-, -, y2⟩ := getDeltaY_down v2
      rw [absDiff_le x1] at y2
      have : st.remaining < out0 + 1 := by
        have : st.remaining * 10 ^ 30 < (out0 + 1) * 10 ^ 30 := Nat.lt_of_le_of_lt x2 y2
        exact Nat.lt_of_mul_lt_mul_right this
      omega
  · have e1 : st'.pool.tick = if pr.xToY && e then i - pr.key.tier.spacing else i := by rw [hv.eq, hu]
    rw [e1]
    cases hd : pr.xToY
    · rw [hd] at hdir
      simp only [Bool.false_eq_true, if_false, Bool.false_and] at hdir ⊢
      exact .inl hdir
    · rw [hd] at hdir
      simp only [if_true, Bool.true_and] at hdir ⊢
      have := hself c2
      cases e
      · simp only [Bool.false_eq_true, if_false]; omega
      · simp only [if_true]; omega
  · have e1 : st'.pool.tick = if pr.xToY && e then i - pr.key.tier.spacing else i := by rw [hv.eq, hu]
    rw [e1]
    cases hd : pr.xToY
    · rw [hd] at hdir
      simp only [Bool.false_eq_true, if_false, Bool.false_and] at hdir ⊢
      exact .inl hdir
    · rw [hd] at hdir
      simp only [if_true, Bool.true_and] at hdir ⊢
      rw [c7 hd]
      simp only [if_true]; omega
  · exfalso
    apply hr'
    rcases c8 with ⟨d1, d2, p, d3, rfl⟩ | ⟨d1, rfl⟩ <;> rw [hv.eq]

end OraiV3
