import Verif.Lemmas.ExactOut
import Verif.Lemmas.Active

/-!
# Two exact-input swaps that differ in the amount given
-/

namespace OraiV3

/-- `x` is at most `y`; for tokens paid in X up to one unit and a part in `10^14`. -/
def OutLe (d : Bool) (x y : Nat) : Prop := if d then x ≤ y else x * 10 ^ 14 < (y + 1) * 10 ^ 14 + y + 2

theorem OutLe.of_le {d : Bool} {x y : Nat} (h : x ≤ y) : OutLe d x y := by
  unfold OutLe; split <;> omega

theorem OutLe.add {d : Bool} {x y : Nat} (h : OutLe d x y) (t : Nat) : OutLe d (t + x) (t + y) := by
  unfold OutLe at *
  split at h
  · rename_i hd; rw [if_pos hd]; omega
  · rename_i hd; rw [if_neg hd]
    generalize (10 : Nat) ^ 14 = K at *
    rw [Nat.add_mul, Nat.add_assoc t y 1, Nat.add_mul t]
    omega

theorem OutLe.trans {d : Bool} {x y z : Nat} (h : OutLe d x y) (h' : y ≤ z) : OutLe d x z := by
  unfold OutLe at *
  split at h
  · rename_i hd; rw [if_pos hd]; omega
  · rename_i hd; rw [if_neg hd]
    generalize (10 : Nat) ^ 14 = K at *
    have : (y + 1) * K ≤ (z + 1) * K := Nat.mul_le_mul_right _ (by omega)
    omega

/-- More X lowers the price at least as far. -/
theorem xUp_mono {p L x x' q q' : Nat} (h : nextSqrtPriceXUp p L x true = .ok q)
    (h' : nextSqrtPriceXUp p L x' true = .ok q') (hx : x ≤ x') (hp : SPR ≤ p * p) : q' ≤ q ∧ q ≤ p := by
  have le : ∀ {x q}, nextSqrtPriceXUp p L x true = .ok q → q ≤ p := by
    intro x q h
    by_cases h0 : x = 0
    · unfold nextSqrtPriceXUp at h
      rw [if_pos h0, ok_inj] at h
      omega
    · obtain ⟨-, -, h5⟩ := xUp_add h h0
      exact xAdd_le_cur spr_eq hp (by omega) h5
  refine ⟨?_, le h⟩
  by_cases h0 : x = 0
  · unfold nextSqrtPriceXUp at h
    rw [if_pos h0, ok_inj] at h
    subst h
    exact le h'
  · unfold nextSqrtPriceXUp at h h'
    rw [if_neg h0] at h
    rw [if_neg (by omega)] at h'
    simp only [if_true] at h h'
    rw [ite_error_ok] at h h'
    obtain ⟨-, h⟩ := h
    obtain ⟨-, h'⟩ := h'
    obtain ⟨a1, a2, a3, a4⟩ := checkedBigDivUp_inv h
    unfold checkedBigDivUp at h'
    rw [ite_error_ok, cast128_ok] at h'
    obtain ⟨b1, b2, rfl⟩ := h'
    refine ceil_le (by omega) (Nat.le_trans a3 (Nat.mul_le_mul_left _ ?_))
    exact Nat.add_le_add_left (Nat.mul_le_mul_left _ hx) _

/-- More Y raises the price at least as far. -/
theorem yDown_mono {p L y y' q q' : Nat} (h : nextSqrtPriceYDown p L y true = .ok q)
    (h' : nextSqrtPriceYDown p L y' true = .ok q') (hy : y ≤ y') : q ≤ q' := by
  unfold nextSqrtPriceYDown at h h'
  simp only [if_true, bind_ok, checkedAdd_ok] at h h'
  obtain ⟨d, h1, h2, rfl⟩ := h
  obtain ⟨d', h1', h2', rfl⟩ := h'
  unfold checkedBigDiv at h1 h1'
  rw [ite_error_ok, ite_error_ok, cast128_ok] at h1 h1'
  obtain ⟨-, -, -, rfl⟩ := h1
  obtain ⟨-, -, -, rfl⟩ := h1'
  exact Nat.add_le_add_left (Nat.div_le_div_right (Nat.mul_le_mul_right _ (Nat.mul_le_mul_right _ hy))) _

theorem afterFee_mono {A B fee : Nat} (h : A ≤ B) : A * (PCT - fee) / PCT ≤ B * (PCT - fee) / PCT :=
  Nat.div_le_div_right (Nat.mul_le_mul_right _ h)

/-- The amount of X paid is nearly monotone in the price reached. -/
theorem xOut_pure {c n n' x x' W S T m : Nat} (hc : 0 < c) (hn : c ≤ n) (hnn : n ≤ n') (hT : T * m ≤ c * n')
    (h1 : x * (c * n) ≤ (n - c) * W * S) (h2 : (n' - c) * W * S < (x' + 1) * (c * n' + T) + T) :
    x * m < (x' + 1) * m + x' + 2 := by
  obtain ⟨e, rfl⟩ := Nat.exists_eq_add_of_le hn
  obtain ⟨f, rfl⟩ := Nat.exists_eq_add_of_le hnn
  rw [Nat.add_sub_cancel_left] at h1
  rw [show c + e + f - c = e + f by omega] at h2
  -- compare over the common denominator
  have h3 : x * (c * (c + e + f)) ≤ (e + f) * W * S := by
    have hpos : 0 < c * (c + e) := Nat.mul_pos hc (by omega)
    have a : x * (c * (c + e)) * (c * (c + e + f)) ≤ e * W * S * (c * (c + e + f)) := Nat.mul_le_mul_right _ h1
    have b : e * W * S * (c * (c + e + f)) ≤ (e + f) * W * S * (c * (c + e)) := by
      have : (e + f) * W * S * (c * (c + e)) = e * W * S * (c * (c + e + f)) + f * W * S * c * c := by ring
      omega
    refine Nat.le_of_mul_le_mul_right (Nat.le_trans ?_ b) hpos
    calc x * (c * (c + e + f)) * (c * (c + e)) = x * (c * (c + e)) * (c * (c + e + f)) := by ring
      _ ≤ _ := a
  have h4 : x * (c * (c + e + f)) < (x' + 1) * (c * (c + e + f) + T) + T := Nat.lt_of_le_of_lt h3 h2
  generalize c * (c + e + f) = D at *
  by_contra hcon
  push Not at hcon
  -- multiply `hcon` by `D`
  have hD : 0 < D := by
    rcases Nat.eq_zero_or_pos D with h | h
    · subst h
      have : T * m = 0 := by omega
      rcases Nat.mul_eq_zero.1 this with h | h
      · subst h; simp at h4
      · subst h; omega
    · exact h
  have h5 : ((x' + 1) * m + x' + 2) * D ≤ x * m * D := Nat.mul_le_mul_right _ hcon
  have h6 : x * D * m ≤ ((x' + 1) * (D + T) + T) * m := Nat.mul_le_mul_right _ (Nat.le_of_lt h4)
  have h7 : (x' + 2) * (T * m) ≤ (x' + 2) * D := Nat.mul_le_mul_left _ hT
  have e1 : ((x' + 1) * m + x' + 2) * D = (x' + 1) * m * D + (x' + 2) * D := by ring
  have e2 : ((x' + 1) * (D + T) + T) * m = (x' + 1) * m * D + (x' + 2) * (T * m) := by ring
  have e3 : x * D * m = x * m * D := by ring
  -- all are equalities; the strict inequality `h4` times `m` contradicts
  rcases Nat.eq_zero_or_pos m with h | h
  · subst h; omega
  · have h8 : x * D * m < ((x' + 1) * (D + T) + T) * m := Nat.mul_lt_mul_of_pos_right h4 h
    omega

/-- What a step does when more is given: the same, or the smaller one was the last and paid no more. -/
theorem step_more {d : Bool} {cur target L A B fee : Nat} {r r' : SwapResult}
    (h : computeSwapStep cur target L A true fee = .ok r) (h' : computeSwapStep cur target L B true fee = .ok r')
    (ht : if d then target ≤ cur else cur < target) (hc : MIN_SQRT_PRICE ≤ cur) (hd : d = true → SPR ≤ cur) (hAB : A ≤ B) :
    (r' = r ∧ r.nextPrice = target) ∨
      (r.nextPrice ≠ target ∧ r.amountIn + r.feeAmount = A ∧ OutLe d r.amountOut r'.amountOut) := by
  by_cases hL : L = 0
  · subst hL
    have e := step_zero h
    have e' := step_zero h'
    subst e; subst e'
    exact .inl ⟨rfl, rfl⟩
  obtain ⟨h1, h2, ⟨o, h3, h4⟩, h5⟩ := step_view h hL
  obtain ⟨g1, g2, ⟨o', g3, g4⟩, g5⟩ := step_view h' hL
  have hdd : decide (cur ≥ target) = d := by
    cases d
    · simp only [Bool.false_eq_true, if_false] at ht; simpa using ht
    · simp only [if_true] at ht; simpa using ht
  rw [hdd] at h1 h2 h3 g1 g2 g3
  simp only [if_true, true_and] at h1 h4 h5 g1 g4 g5
  have hsq := sq_ge hc
  have same : r.nextPrice = target → r'.nextPrice = target → r' = r := by
    intro e e'
    rw [e] at h2 h3 h5
    rw [e'] at g2 g3 g5
    rw [h2, ok_inj] at g2
    rw [h3, ok_inj] at g3
    rw [if_neg (by simp)] at h5 g5
    cases r; cases r'
    simp_all
  -- how the two prices are ordered
  have hord : (if d then r'.nextPrice ≤ r.nextPrice ∧ target ≤ r'.nextPrice ∧ r.nextPrice ≤ cur
      else r.nextPrice ≤ r'.nextPrice ∧ r'.nextPrice ≤ target ∧ cur ≤ r.nextPrice) := by
    cases d
    · simp only [Bool.false_eq_true, if_false] at ht ⊢
      have a := next_in_yx h1 ht
      have b := next_in_yx g1 ht
      refine ⟨?_, b.2.1, a.1⟩
      obtain ⟨-, pre, p1, p2⟩ := h1
      obtain ⟨-, pre', q1, q2⟩ := g1
      rw [p1, ok_inj] at q1
      subst q1
      have hm := afterFee_mono (fee := fee) hAB
      rcases q2 with ⟨_, q2⟩ | ⟨q2, q3⟩
      · rw [q2]; exact a.2.1
      · rcases p2 with ⟨p2, _⟩ | ⟨p2, p3⟩
        · omega
        · unfold nextSqrtPriceFromInput at p3 q3
          simp only [Bool.false_eq_true, if_false] at p3 q3
          exact yDown_mono p3 q3 hm
    · simp only [if_true] at ht ⊢
      have a := next_in_xy h1 hL ht hsq
      have b := next_in_xy g1 hL ht hsq
      have over : ∀ {np}, (np < target → (target - np) * cur < SPR) → target ≤ np := by
        intro np hh
        by_contra hlt
        have h1 := hh (by omega)
        have h2 : 1 * cur ≤ (target - np) * cur := Nat.mul_le_mul_right _ (by omega)
        have h3 := hd rfl
        omega
      refine ⟨?_, over b.2, a.1⟩
      obtain ⟨-, pre, p1, p2⟩ := h1
      obtain ⟨-, pre', q1, q2⟩ := g1
      rw [p1, ok_inj] at q1
      subst q1
      have hm := afterFee_mono (fee := fee) hAB
      rcases q2 with ⟨_, q2⟩ | ⟨q2, q3⟩
      · rw [q2]; exact over a.2
      · rcases p2 with ⟨p2, _⟩ | ⟨p2, p3⟩
        · omega
        · unfold nextSqrtPriceFromInput at p3 q3
          simp only [if_true] at p3 q3
          exact (xUp_mono p3 q3 hm hsq).1
  by_cases e : r.nextPrice = target
  · refine .inl ⟨same e ?_, e⟩
    cases d
    · simp only [Bool.false_eq_true, if_false] at hord; omega
    · simp only [if_true] at hord; omega
  · refine .inr ⟨e, ?_, ?_⟩
    · rw [if_pos e] at h5; omega
    · rw [h4, g4]
      cases d
      · simp only [Bool.false_eq_true, if_false] at hord ht
        rw [deltaOut_false] at h3 g3
        obtain ⟨-, a1, a2, a3, -⟩ := getDeltaX_down h3
        obtain ⟨-, b1, b2, -, b4⟩ := getDeltaX_down g3
        rw [absDiff_le hord.2.2] at a3
        rw [absDiff_le (by omega)] at b4
        unfold OutLe
        simp only [Bool.false_eq_true, if_false]
        have hT : SPR * 10 ^ 14 ≤ cur * r'.nextPrice := by
          have x1 : SPR * 10 ^ 14 ≤ MIN_SQRT_PRICE * MIN_SQRT_PRICE := by decide +kernel
          exact Nat.le_trans x1 (Nat.mul_le_mul hc (by omega))
        exact xOut_pure a1 hord.2.2 hord.1 hT a3 b4
      · simp only [if_true] at hord ht
        rw [deltaOut_true] at h3 g3
        obtain ⟨-, a1, -⟩ := getDeltaY_down h3
        obtain ⟨-, -, b2⟩ := getDeltaY_down g3
        rw [absDiff_le hord.2.2] at a1
        rw [absDiff_le (by omega)] at b2
        unfold OutLe
        simp only [if_true]
        have : (cur - r.nextPrice) * L ≤ (cur - r'.nextPrice) * L := Nat.mul_le_mul_right _ (by omega)
        have hp : (0 : Nat) < 10 ^ 30 := by norm_num
        have : o * 10 ^ 30 < (o' + 1) * 10 ^ 30 := by omega
        have := Nat.lt_of_mul_lt_mul_right this
        omega

/-- If a rest suffices to move the price down, so does a larger one. -/
theorem enough_mono {A B p L fee : Nat} {e e' : Bool} (h : isEnoughAmountToChangePrice A p L fee true true = .ok e)
    (h' : isEnoughAmountToChangePrice B p L fee true true = .ok e') (hAB : A ≤ B) (hp : SPR ≤ p * p) (he : e = true) : e' = true := by
  unfold isEnoughAmountToChangePrice at h h'
  split at h
  · rename_i hL
    rw [if_pos hL, ok_inj] at h'
    exact h'.symm
  · rename_i hL
    rw [if_neg hL] at h'
    simp only [if_true] at h h'
    rw [bind_ok] at h h'
    obtain ⟨a, h1, h⟩ := h
    obtain ⟨a', g1, h'⟩ := h'
    rw [bind_ok] at h h'
    obtain ⟨q, h2, h3⟩ := h
    obtain ⟨q', g2, g3⟩ := h'
    rw [pure_ok] at h3 g3
    obtain ⟨-, rfl, -⟩ := amountAfterFee_inv h1
    obtain ⟨-, rfl, -⟩ := amountAfterFee_inv g1
    unfold nextSqrtPriceFromInput at h2 g2
    simp only [if_true] at h2 g2
    have := xUp_mono h2 g2 (afterFee_mono hAB) hp
    rw [← g3]
    rw [he] at h3
    simp only [ne_eq, decide_eq_true_eq] at h3 ⊢
    omega

/-- A rest that does not move the price down. -/
theorem not_enough {A p L fee : Nat} (h : isEnoughAmountToChangePrice A p L fee true true = .ok false) :
    L ≠ 0 ∧ nextSqrtPriceXUp p L (A * (PCT - fee) / PCT) true = .ok p := by
  unfold isEnoughAmountToChangePrice at h
  split at h
  · simp at h
  · rename_i hL
    simp only [if_true] at h
    rw [bind_ok] at h
    obtain ⟨a, h1, h⟩ := h
    rw [bind_ok] at h
    obtain ⟨q, h2, h3⟩ := h
    rw [pure_ok] at h3
    obtain ⟨-, rfl, -⟩ := amountAfterFee_inv h1
    unfold nextSqrtPriceFromInput at h2
    simp only [if_true] at h2
    simp only [ne_eq, decide_eq_false_iff_not, not_not] at h3
    rw [← h3] at h2
    exact ⟨hL, h2⟩

theorem stuck_pure {p t L x pre S K T : Nat} (hT : T = K * S) (ht : t < p) (hS : 0 < S) (hpre : pre ≤ x)
    (h1 : p * (L * S + p * x) < (p * L + K) * S + (L * S + p * x)) (h2 : (p - t) * L * S + S ≤ pre * (t * p) + T) :
    (p - t) * L < 2 * K + L := by
  have a : pre * (t * p) ≤ x * (t * p) := Nat.mul_le_mul_right _ hpre
  obtain ⟨e, rfl⟩ : ∃ e, p = t + 1 + e := ⟨p - t - 1, by omega⟩
  rw [show t + 1 + e - t = e + 1 by omega] at h2 ⊢
  have b : (t + 1 + e) * (L * S + (t + 1 + e) * x) =
      (t + 1 + e) * L * S + x * (t * (t + 1 + e)) + (1 + e) * (t + 1 + e) * x := by ring
  have c : (t + 1 + e) * x ≤ (1 + e) * (t + 1 + e) * x := by
    rw [Nat.mul_assoc]; exact Nat.le_mul_of_pos_left _ (by omega)
  have f : ((t + 1 + e) * L + K) * S = (t + 1 + e) * L * S + K * S := by ring
  have g : ((e + 1) * L) * S < (2 * K + L) * S := by
    have : (2 * K + L) * S = 2 * (K * S) + L * S := by ring
    omega
  exact Nat.lt_of_mul_lt_mul_right g

/-- A step with a rest that does not move the price down: it does not reach a target that is far away. -/
theorem step_stuck {p target L A fee : Nat} {r : SwapResult} (h : computeSwapStep p target L A true fee = .ok r)
    (he : isEnoughAmountToChangePrice A p L fee true true = .ok false) (ht : target < p) :
    (r.nextPrice ≠ target ∧ r.amountIn + r.feeAmount = A ∧ r.amountOut = 0) ∨
      (r.nextPrice = target ∧ p < target + 10 ^ 12) := by
  obtain ⟨hL, hx⟩ := not_enough he
  obtain ⟨h1, h2, ⟨o, h3, h4⟩, h5⟩ := step_view h hL
  have hdd : decide (p ≥ target) = true := by simp; omega
  rw [hdd] at h1 h2 h3
  simp only [if_true, true_and] at h1 h4 h5
  obtain ⟨-, pre, p1, p2⟩ := h1
  rcases p2 with ⟨p2, p3⟩ | ⟨p2, p3⟩
  · refine .inr ⟨p3, ?_⟩
    rw [deltaIn_true] at p1
    obtain ⟨-, -, -, q1, -⟩ := getDeltaX_up p1
    rw [absDiff_le (by omega)] at q1
    generalize A * (PCT - fee) / PCT = x at *
    have key : (p - target) * L < 2 * 10 ^ 6 + L := by
      by_cases h0 : x = 0
      · have : pre = 0 := by omega
        subst this
        rw [Nat.zero_mul, Nat.zero_add] at q1
        have : (p - target) * L * 10 ^ 18 < 10 ^ 6 * 10 ^ 18 := by
          have : SPR = 10 ^ 6 * 10 ^ 18 := spr_eq
          omega
        have := Nat.lt_of_mul_lt_mul_right this
        omega
      · obtain ⟨-, -, k1⟩ := xUp_add hx h0
        exact stuck_pure spr_eq ht (by norm_num) p2 k1 q1
    by_contra hcon
    have : 10 ^ 12 * L ≤ (p - target) * L := Nat.mul_le_mul_right _ (by omega)
    omega
  · unfold nextSqrtPriceFromInput at p3
    simp only [if_true] at p3
    rw [hx, ok_inj] at p3
    rw [← p3] at h3 h5
    refine .inl ⟨by omega, ?_, ?_⟩
    · rw [if_pos (by omega)] at h5; omega
    · rw [deltaOut_true] at h3
      obtain ⟨-, k1, -⟩ := getDeltaY_down h3
      rw [absDiff_le (Nat.le_refl _), Nat.sub_self, Nat.zero_mul] at k1
      have hp : (0 : Nat) < 10 ^ 30 := by norm_num
      generalize (10 : Nat) ^ 30 = K at *
      rw [h4]
      rcases Nat.eq_zero_or_pos o with h | h
      · exact h
      · have := Nat.mul_pos h hp; omega

theorem IterEnd.rem_le {s : Store} {pr : SwapParams} {i : Int} {ini : Bool} {r : SwapResult} {pf : Nat} {p1 : Pool} {rem : Nat}
    {u : TickUpdRes} (h : IterEnd s pr i ini r pf p1 rem u) : u.remaining ≤ rem := by
  cases h with
  | between t _ _ hu => obtain ⟨_, rfl⟩ := hu; exact Nat.le_refl _
  | empty e _ _ _ _ hu => subst hu; exact Nat.le_refl _
  | cross e t tp _ _ _ _ _ _ _ _ hu => subst hu; exact Nat.le_refl _
  | stop t _ _ _ _ _ _ _ hu =>
    rcases hu with ⟨_, _, p, _, rfl⟩ | ⟨_, rfl⟩ <;> exact Nat.zero_le _

/-- A smaller swap that has come to an empty tick and cannot go on, while the larger one goes on. -/
structure Apart (s : Store) (pr : SwapParams) (x y : SwapState) : Prop where
  dir : pr.xToY = true
  rem : x.remaining ≤ y.remaining
  pos : y.remaining ≠ 0
  tick : TickOk pr.key.tier.spacing x.pool.tick
  price : x.pool.sqrtPrice = sqrtPriceAt x.pool.tick
  none : s.ticks.get? (tickKey pr.key x.pool.tick) = none
  few : isEnoughAmountToChangePrice x.remaining x.pool.sqrtPrice x.pool.liquidity pr.key.tier.fee true true = .ok false
  tick' : y.pool.tick = x.pool.tick - pr.key.tier.spacing
  price' : y.pool.sqrtPrice = x.pool.sqrtPrice
  liq : y.pool.liquidity = x.pool.liquidity
  out : y.totalOut = x.totalOut
  loop : LoopOk true pr.key.tier.spacing pr.limit x.pool x.remaining
  loop' : LoopOk true pr.key.tier.spacing pr.limit y.pool y.remaining

theorem apart_iter {s : Store} {pr : SwapParams} {x x' y y' : SwapState} (hs : Struct s) (hb : BitInv s)
    (hk : pr.key.wf) (hv : pr.key.tier.Valid) (hbi : pr.byAmountIn = true) (hlow : SPR ≤ pr.limit) (ha : Apart s pr x y)
    (hr : x.remaining ≠ 0) (h : swapIter s pr x = .ok x') (h' : swapIter s pr y = .ok y') :
    x'.remaining = 0 ∧ x'.totalOut ≤ y'.totalOut := by
  obtain ⟨i, ini, r, cfg, p1, rem, u, v⟩ := iter_view hs hb hk hv ha.loop.tick h
  obtain ⟨i', ini', r', cfg', p1', rem', u', v'⟩ := iter_view hs hb hk hv ha.loop'.tick h'
  have hlim := ha.loop.lim hr
  have hst := v.step
  have hst' := v'.step
  have hrest := v.rest
  have hdir := v.dir
  have hdir' := v'.dir
  have hrem := v.fin.rem_le
  rw [hbi] at hst hst'
  rw [ha.dir] at hst hst' hdir hdir'
  rw [ha.price', ha.liq] at hst'
  rw [ha.tick'] at hdir'
  simp only [if_true, hbi] at hrest hlim hdir hdir'
  have hts : 0 < pr.key.tier.spacing := v.ok.pos
  have hii : i < x.pool.tick := by
    rcases lt_or_eq_of_le hdir with h | h
    · exact h
    · exfalso
      have h1 := v.set
      rw [h, ha.none] at h1
      exact v.self h1.symm h
  have g1 := tick_gap v.ok ha.tick hii
  have g2 := tick_gap v'.ok ha.tick (by omega)
  rw [← ha.price] at g1 g2
  simp only [stepTarget, if_true] at hst hst'
  have htlt : max (sqrtPriceAt i) pr.limit < x.pool.sqrtPrice := by omega
  have hout : x'.totalOut = x.totalOut + r.amountOut := by rw [v.eq]
  have hout' : y'.totalOut = x.totalOut + r'.amountOut := by rw [v'.eq, ← ha.out]
  have hxr : x'.remaining = u.remaining := by rw [v.eq]
  rcases step_stuck hst ha.few htlt with ⟨a1, a2, a3⟩ | ⟨a1, a2⟩
  · exact ⟨by omega, by omega⟩
  · have t1 : max (sqrtPriceAt i) pr.limit = pr.limit := by omega
    have t2 : max (sqrtPriceAt i') pr.limit = pr.limit := by omega
    rw [t1] at hst a1
    rw [t2] at hst'
    have hl := v.lim
    have hrem0 : rem = 0 := by
      by_contra hne
      exact hl ⟨a1, hne⟩
    refine ⟨by omega, ?_⟩
    have hc : MIN_SQRT_PRICE ≤ x.pool.sqrtPrice := Nat.le_trans ha.loop.tick.price_min ha.loop.lo
    rcases step_more (d := true) hst hst' (by simp only [if_true]; omega) hc (fun _ => by omega) ha.rem with ⟨b1, _⟩ | ⟨_, _, b3⟩
    · rw [hout, hout', b1]
    · unfold OutLe at b3
      simp only [if_true] at b3
      omega

/-- An iteration when more is given: the same, or the last one of the smaller swap. -/
theorem iter_more {s : Store} {pr : SwapParams} {st st' w' : SwapState} {R : Nat} (hs : Struct s) (hb : BitInv s)
    (hk : pr.key.wf) (hv : pr.key.tier.Valid) (hbi : pr.byAmountIn = true) (hlow : pr.xToY = true → SPR ≤ pr.limit)
    (hl : LoopOk pr.xToY pr.key.tier.spacing pr.limit st.pool st.remaining) (hr : st.remaining ≠ 0) (hR : st.remaining ≤ R)
    (h : swapIter s pr st = .ok st') (h' : swapIter s pr { st with remaining := R } = .ok w') :
    (∃ R', st'.remaining ≤ R' ∧ w' = { st' with remaining := R' }) ∨
    (st'.remaining = 0 ∧ OutLe pr.xToY st'.totalOut w'.totalOut) ∨ Apart s pr st' w' := by
  obtain ⟨i, ini, ⟨r, cfg, p1, rem, u, v⟩, ⟨r', cfg', p1', rem', u', v'⟩⟩ :=
    iter_view_two (w := { st with remaining := R }) hs hb hk hv hl.tick rfl h h'
  have hlR : LoopOk pr.xToY pr.key.tier.spacing pr.limit st.pool R :=
    ⟨hl.tick, hl.lo, hl.hi, fun a b => hl.hi' a (b.imp (fun b => by omega) id), hl.top, fun _ => hl.lim hr⟩
  have hok := iter_ok v hl hr
  have hok' := iter_ok v' hlR (by simp only; omega)
  have hlim := hl.lim hr
  have hst := v.step
  have hst' := v'.step
  have hrest := v.rest
  have hrest' := v'.rest
  have hta := target_ahead hl hr v.ok v.dir
  rw [hbi] at hst hst' hrest hrest'
  simp only [if_true] at hst' hrest hrest'
  have hc : MIN_SQRT_PRICE ≤ st.pool.sqrtPrice := Nat.le_trans hl.tick.price_min hl.lo
  have hcfg : cfg' = cfg := by
    have := v.conf.symm.trans v'.conf
    simpa using this.symm
  subst hcfg
  have hd : pr.xToY = true → SPR ≤ st.pool.sqrtPrice := by
    intro e
    rw [e] at hlim
    simp only [if_true] at hlim
    have := hlow e
    omega
  rcases step_more hst hst' hta hc hd hR with ⟨rfl, b2⟩ | ⟨b1, b2, b3⟩
  · -- the same step
    have hrr : rem ≤ rem' := by omega
    have hp1 : p1' = p1 := by
      obtain ⟨a, a1, a2⟩ := v.fee
      obtain ⟨b, b1, b2⟩ := v'.fee
      simp only at b1
      rw [a1, ok_inj] at b1
      rw [a2, b2, b1]
    subst hp1
    have heq := v.eq
    have heq' := v'.eq
    by_cases hrem0 : rem = 0
    · refine .inr (.inl ⟨?_, ?_⟩)
      · have := v.fin.rem_le
        rw [heq]; simp only; omega
      · rw [heq, heq']; exact OutLe.of_le (Nat.le_refl _)
    · -- the target is the price of the tick
      have hnl : r'.nextPrice ≠ pr.limit := fun e => v.lim ⟨e, hrem0⟩
      have hti : r'.nextPrice = sqrtPriceAt i ∧ (if pr.xToY then pr.limit < sqrtPriceAt i else sqrtPriceAt i < pr.limit) := by
        cases hx : pr.xToY
        · simp only [hx, stepTarget, Bool.false_eq_true, if_false] at b2 ⊢; omega
        · simp only [hx, stepTarget, if_true] at b2 ⊢; omega
      have nob : ¬ (r'.nextPrice ≠ sqrtPriceAt i ∨ if pr.xToY then sqrtPriceAt i ≤ pr.limit else pr.limit ≤ sqrtPriceAt i) := by
        rintro (e | e)
        · exact e hti.1
        · cases hx : pr.xToY
          · simp only [hx, Bool.false_eq_true, if_false] at e hti; omega
          · simp only [hx, if_true] at e hti; omega
      have hsq : SPR ≤ r'.nextPrice * r'.nextPrice := by
        rw [hti.1]; exact sq_ge v.ok.price_min
      cases v.fin with
      | between t c _ _ => exact absurd c nob
      | empty e c1 c2 c3 c4 c5 =>
        cases v'.fin with
        | between t c _ _ => exact absurd c nob
        | cross e' t tp d1 d2 d3 d4 d5 d6 d7 d8 d9 => rw [c2] at d2; cases d2
        | stop t d1 d2 d3 d4 d5 d6 d7 d8 => rw [c2] at d2; cases d2
        | empty e' d1 d2 d3 d4 d5 =>
          rw [c5] at heq
          rw [d5] at heq'
          by_cases hsame : (pr.xToY && e) = (pr.xToY && e')
          · refine .inl ⟨rem', ?_, ?_⟩
            · rw [heq]; exact hrr
            · rw [heq, heq']; simp only [hsame]
          · cases hx : pr.xToY
            · simp [hx] at hsame
            · rw [hbi, hx] at c4 d4
              simp only [hx, Bool.true_and] at hsame
              have he : e = false := by
                cases e
                · rfl
                · have := enough_mono c4 d4 hrr hsq rfl
                  simp [this] at hsame
              have he' : e' = true := by
                cases e'
                · simp [he] at hsame
                · rfl
              subst he he'
              simp only [hx, Bool.and_false, Bool.false_eq_true, if_false, Bool.and_true, if_true] at heq heq'
              have hps : p1'.sqrtPrice = r'.nextPrice := by
                obtain ⟨a, _, a2⟩ := v.fee; rw [a2]
              refine .inr (.inr ⟨hx, ?_, ?_, ?_, ?_, ?_, ?_, ?_, ?_, ?_, ?_, ?_, ?_⟩)
              · rw [heq, heq']; exact hrr
              · rw [heq']; simp only; omega
              · rw [heq]; exact v.ok
              · rw [heq]; simp only; rw [hps, hti.1]
              · rw [heq]; simp only
                have := v.set
                rw [c2] at this
                simpa using this
              · rw [heq]; simp only; rw [hps]; exact c4
              · rw [heq, heq']
              · rw [heq, heq']
              · rw [heq, heq']
              · rw [heq, heq']
              · rw [← hx]; exact hok
              · rw [← hx]; exact hok'
      | cross e t tp c1 c2 c3 c4 c5 c6 c7 c8 c9 =>
        cases v'.fin with
        | between t c _ _ => exact absurd c nob
        | empty e' d1 d2 d3 d4 d5 => rw [c2] at d2; cases d2
        | stop t' d1 d2 d3 d4 d5 d6 d7 d8 =>
          exfalso
          have he := c7 d4
          rw [hbi, d4] at c4 d5
          have := enough_mono c4 d5 hrr hsq he
          cases this
        | cross e' t' tp' d1 d2 d3 d4 d5 d6 d7 d8 d9 =>
          rw [c5, Option.some.injEq] at d5
          subst d5
          rw [c8, ok_inj] at d8
          subst d8
          have hsame : (pr.xToY && e) = (pr.xToY && e') := by
            cases hx : pr.xToY
            · rfl
            · rw [c7 hx, d7 hx]
          rw [c9] at heq
          rw [d9] at heq'
          refine .inl ⟨rem', ?_, ?_⟩
          · rw [heq]; exact hrr
          · rw [heq, heq']; simp only [hsame]
      | stop t c1 c2 c3 c4 c5 c6 c7 c8 =>
        refine .inr (.inl ⟨?_, ?_⟩)
        · rw [heq]
          rcases c8 with ⟨_, _, p, _, rfl⟩ | ⟨_, rfl⟩ <;> rfl
        · rw [heq, heq']; exact OutLe.of_le (Nat.le_refl _)
  · refine .inr (.inl ⟨?_, ?_⟩)
    · have h1 := v.fin.rem_le
      rw [v.eq]; simp only; omega
    · rw [v.eq, v'.eq]
      exact b3.add _

theorem loop_totalOut {s : Store} {pr : SwapParams} : ∀ {n : Nat} {st st1 : SwapState}, swapLoop s pr n st = .ok st1 →
    st.totalOut ≤ st1.totalOut
  | 0, st, st1, h => by
    simp only [swapLoop] at h
    split at h
    · rw [ok_inj] at h; subst h; exact Nat.le_refl _
    · cases h
  | n + 1, st, st1, h => by
    simp only [swapLoop] at h
    split at h
    · rw [ok_inj] at h; subst h; exact Nat.le_refl _
    · simp only [bind_ok] at h
      obtain ⟨x, h1, h2⟩ := h
      obtain ⟨cl, r, cfg, pool1, upd, u, rem, _, _, _, _, _, _, _, _, _, _, _, e⟩ := swapIter_inv h1
      have b := loop_totalOut h2
      have : x.totalOut = st.totalOut + r.amountOut := by rw [e]
      omega

theorem loop_done {s : Store} {pr : SwapParams} {n : Nat} {st st1 : SwapState} (h : swapLoop s pr n st = .ok st1)
    (h0 : st.remaining = 0) : st1 = st := by
  cases n <;> simp only [swapLoop, h0, if_true, ok_inj] at h <;> exact h.symm

/-- The loop when more is given. -/
theorem loop_more {s : Store} {pr : SwapParams} (hs : Struct s) (hb : BitInv s) (hk : pr.key.wf) (hv : pr.key.tier.Valid)
    (hbi : pr.byAmountIn = true) (hlow : pr.xToY = true → SPR ≤ pr.limit) : ∀ {n : Nat} {st st1 w1 : SwapState} {R : Nat},
    LoopOk pr.xToY pr.key.tier.spacing pr.limit st.pool st.remaining → st.remaining ≤ R →
    swapLoop s pr n st = .ok st1 → swapLoop s pr n { st with remaining := R } = .ok w1 →
    OutLe pr.xToY st1.totalOut w1.totalOut
  | n, st, st1, w1, R, hl, hR, h, h' => by
    have hw := loop_totalOut h'
    by_cases h0 : st.remaining = 0
    · rw [loop_done h h0]
      exact OutLe.of_le hw
    · cases n with
      | zero =>
        simp only [swapLoop] at h
        rw [if_neg h0] at h
        cases h
      | succ n =>
        simp only [swapLoop] at h h'
        rw [if_neg h0, bind_ok] at h
        rw [if_neg (by omega), bind_ok] at h'
        obtain ⟨x, h1, h2⟩ := h
        obtain ⟨y, g1, g2⟩ := h'
        rcases iter_more hs hb hk hv hbi hlow hl h0 hR h1 g1 with ⟨R', a1, rfl⟩ | ⟨a1, a2⟩ | ha
        · obtain ⟨i, ini, r, cfg, p1, rem, u, v⟩ := iter_view hs hb hk hv hl.tick h1
          exact loop_more hs hb hk hv hbi hlow (iter_ok v hl h0) a1 h2 g2
        · rw [loop_done h2 a1]
          exact a2.trans (loop_totalOut g2)
        · by_cases hx0 : x.remaining = 0
          · rw [loop_done h2 hx0, ← ha.out]
            exact OutLe.of_le (loop_totalOut g2)
          · cases n with
            | zero =>
              simp only [swapLoop] at h2
              rw [if_neg hx0] at h2
              cases h2
            | succ n =>
              simp only [swapLoop] at h2 g2
              rw [if_neg hx0, bind_ok] at h2
              rw [if_neg ha.pos, bind_ok] at g2
              obtain ⟨x', k1, k2⟩ := h2
              obtain ⟨y', m1, m2⟩ := g2
              obtain ⟨e1, e2⟩ := apart_iter hs hb hk hv hbi (hlow ha.dir) ha hx0 k1 m1
              rw [loop_done k2 e1]
              exact OutLe.of_le (Nat.le_trans e2 (loop_totalOut m2))

end OraiV3
