import Verif.Lemmas.SwapTotals
import Verif.Lemmas.ProtoFee

/-!
# Two exact-output swaps of X for Y that differ in the amount wanted
-/

namespace OraiV3

theorem ceil_le {N D k : Nat} (hD : 0 < D) (h : N ≤ k * D) : (N + (D - 1)) / D ≤ k := by
  have : (N + (D - 1)) / D < k + 1 := by
    rw [Nat.div_lt_iff_lt_mul hD, Nat.succ_mul]
    omega
  omega

theorem yDown_exists {p L y t : Nat} (hp : p < U128) (hL : L ≠ 0) (ht : t ≤ p) (h : y * 10 ^ 30 ≤ (p - t) * L) :
    ∃ q, nextSqrtPriceYDown p L y false = .ok q ∧ t ≤ q ∧ q ≤ p := by
  unfold nextSqrtPriceYDown
  simp only [Bool.false_eq_true, if_false]
  have hS : (0 : Nat) < 10 ^ 18 := by norm_num
  have hden : 0 < L * 10 ^ 18 := Nat.mul_pos (by omega) hS
  have e : y * SPR * SPR = y * 10 ^ 30 * 10 ^ 18 := by
    have : SPR * SPR = 10 ^ 30 * 10 ^ 18 := by norm_num
    rw [Nat.mul_assoc, this, Nat.mul_assoc]
  have h1 : (y * SPR * SPR + (L * 10 ^ 18 - 1)) / (L * 10 ^ 18) ≤ p - t := by
    refine ceil_le hden ?_
    rw [e, ← Nat.mul_assoc]
    exact Nat.mul_le_mul_right _ h
  unfold checkedBigDivUp
  rw [if_neg (by omega)]
  have h2 : cast128 .cast ((y * SPR * SPR + (L * 10 ^ 18 - 1)) / (L * 10 ^ 18)) =
      .ok ((y * SPR * SPR + (L * 10 ^ 18 - 1)) / (L * 10 ^ 18)) := cast128_ok.2 ⟨by omega, rfl⟩
  rw [h2, ok_bind]
  generalize (y * SPR * SPR + (L * 10 ^ 18 - 1)) / (L * 10 ^ 18) = d at *
  exact ⟨p - d, checkedSub_ok.2 ⟨by omega, rfl⟩, by omega, by omega⟩

theorem tokenUp_less {n n' d d' S : Nat} (h0 : 0 < d) (hn : n' ≤ n) (hd : d ≤ d') :
    (n' * S + (d' - 1)) / d' ≤ (n * S + (d - 1)) / d := by
  refine ceil_le (by omega) ?_
  have c1 := (ceil_spec (n * S) d h0).1
  have c2 := Nat.mul_le_mul_right S hn
  have c3 := Nat.mul_le_mul_left ((n * S + (d - 1)) / d) hd
  omega

theorem getDeltaX_up_less {a a' c L x : Nat} (h : getDeltaX a c L true = .ok x) (h1 : a ≤ a') (h2 : a' ≤ c) :
    ∃ x', getDeltaX a' c L true = .ok x' ∧ x' ≤ x := by
  unfold getDeltaX at h ⊢
  simp only [if_true] at h ⊢
  rw [absDiff_le (by omega)] at h
  rw [absDiff_le h2]
  have hn : (c - a') * L / LIQ ≤ (c - a) * L / LIQ := Nat.div_le_div_right (Nat.mul_le_mul_right _ (by omega))
  have hd : a * c / SPR ≤ a' * c / SPR := Nat.div_le_div_right (Nat.mul_le_mul_right _ h1)
  generalize (c - a') * L / LIQ = n' at *
  generalize (c - a) * L / LIQ = n at *
  generalize a * c / SPR = d at *
  generalize a' * c / SPR = d' at *
  unfold divToTokenUp at h ⊢
  simp only [ite_error_ok, cast128_ok] at h
  obtain ⟨g1, g2, g3, g4, rfl⟩ := h
  have hle := tokenUp_less (S := SPR) (by omega) hn hd
  refine ⟨_, ?_, Nat.div_le_div_right (Nat.add_le_add_right hle _)⟩
  simp only [ite_error_ok, cast128_ok]
  refine ⟨by omega, fun h => g2 (Nat.le_trans h hle), fun h => g3 (Nat.le_trans h (Nat.add_le_add_right hle _)), ?_, trivial⟩
  exact Nat.lt_of_le_of_lt (Nat.div_le_div_right (Nat.add_le_add_right hle _)) g4

theorem getDeltaY_down_less {a a' c L y : Nat} (h : getDeltaY a c L false = .ok y) (h1 : a ≤ a') (h2 : a' ≤ c) :
    ∃ y', getDeltaY a' c L false = .ok y' := by
  unfold getDeltaY at h ⊢
  simp only [Bool.false_eq_true, if_false, cast128_ok] at h ⊢
  rw [absDiff_le (by omega)] at h
  rw [absDiff_le h2]
  refine ⟨_, Nat.lt_of_le_of_lt ?_ h.1, rfl⟩
  exact Nat.div_le_div_right (Nat.div_le_div_right (Nat.mul_le_mul_right _ (by omega)))

theorem bigMulUp_less {a a' f r : Nat} (h : bigMulUp a f PCT = .ok r) (h1 : a' ≤ a) :
    ∃ r', bigMulUp a' f PCT = .ok r' ∧ r' ≤ r := by
  unfold bigMulUp at h ⊢
  simp only [cast128_ok] at h ⊢
  obtain ⟨h2, rfl⟩ := h
  have : (a' * f + (PCT - 1)) / PCT ≤ (a * f + (PCT - 1)) / PCT :=
    Nat.div_le_div_right (Nat.add_le_add_right (Nat.mul_le_mul_right _ h1) _)
  exact ⟨_, ⟨by omega, rfl⟩, this⟩

/-- What a step does when less is wanted: the same, or it ends with what is wanted. -/
theorem step_less {cur target L A A' fee : Nat} {r : SwapResult} (h : computeSwapStep cur target L A false fee = .ok r)
    (ht : target ≤ cur) (hc : cur < U128) (hA : A' ≤ A) :
    ∃ r', computeSwapStep cur target L A' false fee = .ok r' ∧
      ((r' = r ∧ r.nextPrice = target ∧ r.amountOut ≤ A') ∨
       (L ≠ 0 ∧ r'.amountOut = A' ∧ A' ≤ r.amountOut ∧ target ≤ r.nextPrice ∧ r.nextPrice ≤ r'.nextPrice ∧ r'.nextPrice ≤ cur ∧ r'.amountIn ≤ r.amountIn ∧
        r'.feeAmount ≤ r.feeAmount)) := by
  by_cases hL : L = 0
  · subst hL
    have := step_zero h
    subst this
    exact ⟨⟨target, 0, 0, 0⟩, rfl, .inl ⟨rfl, rfl, Nat.zero_le _⟩⟩
  · obtain ⟨h1, h2, ⟨out0, h3, h4⟩, h5⟩ := step_view h hL
    have hd : decide (cur ≥ target) = true := by simpa using ht
    rw [hd] at h1 h2 h3
    simp only [Bool.false_eq_true, if_false, false_and] at h1 h4 h5
    have hnp := next_out_xy h1 ht
    obtain ⟨pre, p1, p2⟩ := h1
    rw [deltaOut_true] at p1 h3
    rw [deltaIn_true] at h2
    have hfee : bigMulUp r.amountIn fee PCT = .ok r.feeAmount := by
      unfold computeSwapStep at h
      rw [if_neg hL] at h
      dsimp only at h
      simp only [bind_ok, Bool.false_and, Bool.false_eq_true, if_false, pure_ok] at h
      obtain ⟨np, _, ai, _, ao, _, f, hf, rfl⟩ := h
      exact hf
    unfold computeSwapStep
    rw [if_neg hL, hd]
    dsimp only
    unfold stepNextPrice
    simp only [Bool.false_eq_true, if_false, if_true]
    rw [p1, ok_bind]
    by_cases hpre : pre ≤ A'
    · have hr : r.nextPrice = target := by
        rcases p2 with ⟨_, e⟩ | ⟨e, _⟩
        · exact e
        · omega
      rw [hr] at h2 h3
      rw [p1, ok_inj] at h3
      subst h3
      rw [if_pos (show A' ≥ pre from hpre)]
      simp only [pure_ok, bind_ok]
      refine ⟨r, ⟨_, rfl, r.amountIn, ?_, pre, ?_, ?_⟩, .inl ⟨rfl, hr, by rw [h4]; omega⟩⟩
      · unfold stepAmountIn
        simp only [Bool.not_false, Bool.or_true, if_true]
        exact h2
      · unfold stepAmountOut
        simp
        rfl
      · simp only [Bool.false_and, Bool.false_eq_true, if_false, hfee, ok_bind]
        have e1 : (!false && decide (pre > A')) = false := by
          simp only [Bool.not_false, Bool.true_and, decide_eq_false_iff_not]; omega
        rw [e1, pure_ok]
        obtain ⟨rn, ri, ro, rf⟩ := r
        simp only at h4 hr ⊢
        subst hr
        rw [h4]
        simp only [Bool.false_eq_true, if_false, SwapResult.mk.injEq, true_and, and_true]
        omega
    · rw [if_neg (show ¬ A' ≥ pre from hpre)]
      obtain ⟨g1, g2, g3⟩ := getDeltaY_down p1
      rw [absDiff_le ht] at g2 g3
      have hex : ∃ q, nextSqrtPriceFromOutput cur L A' true = .ok q ∧ r.nextPrice ≤ q ∧ q ≤ cur ∧ target ≤ q := by
        unfold nextSqrtPriceFromOutput
        simp only [if_true]
        rcases p2 with ⟨_, e⟩ | ⟨_, e⟩
        · rw [e]
          have hb : A' * 10 ^ 30 ≤ (cur - target) * L :=
            Nat.le_trans (Nat.mul_le_mul_right _ (by omega)) g2
          obtain ⟨q, q1, q2, q3⟩ := yDown_exists hc hL ht hb
          exact ⟨q, q1, q2, q3, q2⟩
        · unfold nextSqrtPriceFromOutput at e
          simp only [if_true] at e
          obtain ⟨e1, e2, _⟩ := yDown_sub e
          have hb : A' * 10 ^ 30 ≤ (cur - r.nextPrice) * L :=
            Nat.le_trans (Nat.mul_le_mul_right _ hA) e2
          obtain ⟨q, q1, q2, q3⟩ := yDown_exists hc hL e1 hb
          exact ⟨q, q1, q2, q3, by omega⟩
      obtain ⟨q, q1, q2, q3, q4⟩ := hex
      obtain ⟨x', x1, x2⟩ := getDeltaX_up_less h2 q2 q3
      obtain ⟨y', y1⟩ := getDeltaY_down_less p1 q4 q3
      obtain ⟨f', f1, f2⟩ := bigMulUp_less hfee x2
      have hy : A' ≤ y' := by
        have hq1 := q1
        unfold nextSqrtPriceFromOutput at hq1
        simp only [if_true] at hq1
        obtain ⟨_, e2, _⟩ := yDown_sub hq1
        obtain ⟨_, _, e3⟩ := getDeltaY_down y1
        rw [absDiff_le q3] at e3
        have : A' * 10 ^ 30 < (y' + 1) * 10 ^ 30 := Nat.lt_of_le_of_lt e2 e3
        have := Nat.lt_of_mul_lt_mul_right this
        omega
      have hro : A' ≤ r.amountOut := by
        rw [h4]
        rcases p2 with ⟨_, e⟩ | ⟨_, e⟩
        · rw [e, p1, ok_inj] at h3
          omega
        · unfold nextSqrtPriceFromOutput at e
          simp only [if_true] at e
          obtain ⟨_, e2, _⟩ := yDown_sub e
          obtain ⟨_, _, e3⟩ := getDeltaY_down h3
          rw [absDiff_le hnp.2] at e3
          have := Nat.lt_of_mul_lt_mul_right (Nat.lt_of_le_of_lt e2 e3)
          omega
      rw [q1]
      simp only [ok_bind, bind_ok, pure_ok]
      refine ⟨⟨q, x', A', f'⟩, ⟨_, rfl, x', ?_, (if target = q then pre else y'), ?_, ?_⟩,
        .inr ⟨hL, rfl, hro, hnp.1, q2, q3, x2, f2⟩⟩
      · unfold stepAmountIn
        simp only [Bool.not_false, Bool.or_true, if_true]
        exact x1
      · unfold stepAmountOut
        by_cases e : target = q
        · simp [e]; rfl
        · simp [e, y1]
      · simp only [Bool.false_and, Bool.false_eq_true, if_false, f1, ok_bind]
        have e1 : (if (!false && decide ((if target = q then pre else y') > A')) = true then A'
            else (if target = q then pre else y')) = A' := by
          simp only [Bool.not_false, Bool.true_and, decide_eq_true_eq]
          split <;> split <;> omega
        rw [pure_ok, e1]

theorem protoPart_diff {a a' pf : Nat} (h : a' ≤ a) (hp : protoPart a pf ≤ a) :
    protoPart a' pf ≤ a' ∧ a' - protoPart a' pf ≤ a - protoPart a pf ∧ protoPart a' pf ≤ protoPart a pf := by
  by_cases h0 : a = 0
  · have : a' = 0 := by omega
    subst h0 this
    exact ⟨hp, Nat.le_refl _, Nat.le_refl _⟩
  · have hP : 0 < PCT := by norm_num
    have hpf : pf ≤ PCT := by
      by_contra hc
      have h1 : a * (PCT + 1) ≤ a * pf := Nat.mul_le_mul_left _ (by omega)
      have h2 := (ceil_spec (a * pf) PCT hP).1
      have h3 : protoPart a pf * PCT ≤ a * PCT := Nat.mul_le_mul_right _ hp
      unfold protoPart at h3
      rw [Nat.mul_succ] at h1
      omega
    refine ⟨protoPart_le hpf, ?_, ?_⟩
    · have h1 : protoPart a pf ≤ protoPart a' pf + (a - a') := by
        unfold protoPart
        refine ceil_le hP ?_
        have c1 := (ceil_spec (a' * pf) PCT hP).1
        have c2 : (a - a') * pf ≤ (a - a') * PCT := Nat.mul_le_mul_left _ hpf
        have c3 : a * pf = a' * pf + (a - a') * pf := by rw [← Nat.add_mul]; congr 1; omega
        rw [Nat.add_mul]
        omega
      have := protoPart_le (a := a') hpf
      omega
    · unfold protoPart
      exact Nat.div_le_div_right (Nat.add_le_add_right (Nat.mul_le_mul_right _ h) _)

theorem addFee_less {p p1 : Pool} {a a' : Nat} {d : Bool} {pf : Nat} (h : p.addFee a d pf = .ok p1) (ha : a' ≤ a) (hlt : a < U128) :
    ∃ p1', p.addFee a' d pf = .ok p1' := by
  obtain ⟨hle, h3⟩ := Pool.addFee_inv h
  obtain ⟨k1, k2, k3⟩ := protoPart_diff ha hle
  have e1 : bigMulUp a' pf PCT = .ok (protoPart a' pf) := cast128_ok.2 ⟨by change protoPart a' pf < U128; omega, rfl⟩
  have e2 : subP a' (protoPart a' pf) = .ok (a' - protoPart a' pf) := subP_ok.2 ⟨k1, rfl⟩
  unfold Pool.addFee
  rw [e1, ok_bind, e2, ok_bind]
  split
  · exact ⟨_, rfl⟩
  · rename_i hc
    rcases h3 with ⟨h4, rfl⟩ | ⟨h4, h5, g, hg, h6⟩
    · exfalso
      apply hc
      rcases h4 with h4 | h4
      · left; omega
      · right; exact h4
    · unfold feeGrowthFromFee at hg
      rw [if_neg h5] at hg
      rw [cast128_ok] at hg
      have e3 : feeGrowthFromFee p.liquidity (a' - protoPart a' pf) = .ok ((a' - protoPart a' pf) * FGR * LIQ / p.liquidity) := by
        unfold feeGrowthFromFee
        rw [if_neg h5]
        refine cast128_ok.2 ⟨Nat.lt_of_le_of_lt ?_ hg.1, rfl⟩
        exact Nat.div_le_div_right (Nat.mul_le_mul_right _ (Nat.mul_le_mul_right _ (by omega)))
      rw [e3, ok_bind]
      cases d with
      | true =>
        simp only [if_true] at h6 ⊢
        have e4 : add128 p.protoX (protoPart a' pf) = .ok (p.protoX + protoPart a' pf) := add128_ok.2 ⟨by omega, rfl⟩
        rw [e4, ok_bind]
        exact ⟨_, rfl⟩
      | false =>
        simp only [Bool.false_eq_true, if_false] at h6 ⊢
        have e4 : add128 p.protoY (protoPart a' pf) = .ok (p.protoY + protoPart a' pf) := add128_ok.2 ⟨by omega, rfl⟩
        rw [e4, ok_bind]
        exact ⟨_, rfl⟩

/-- An iteration of an exact-output swap succeeds if its parts do. -/
theorem swapIter_out {s : Store} {pr : SwapParams} {st : SwapState} {cl : Nat × Option (Int × Bool)} {r : SwapResult} {cfg : Config}
    {p1 : Pool} {upd : TickUpd} {u : TickUpdRes} (hb : pr.byAmountIn = false)
    (h1 : getCloserLimit (getChunk s pr.key) pr.limit pr.xToY st.pool.tick pr.key.tier.spacing = .ok cl)
    (h2 : computeSwapStep st.pool.sqrtPrice cl.1 st.pool.liquidity st.remaining false pr.key.tier.fee = .ok r)
    (h3 : r.amountOut ≤ st.remaining) (h4 : s.config = some cfg)
    (h5 : st.pool.addFee r.feeAmount pr.xToY cfg.protocolFee = .ok p1)
    (h6 : ¬ (r.nextPrice = pr.limit ∧ st.remaining - r.amountOut ≠ 0)) (h7 : tickUpdOf s pr.key cl.2 = .ok upd)
    (h8 : Pool.updateTick { p1 with sqrtPrice := r.nextPrice } r.nextPrice cl.1 upd (st.remaining - r.amountOut) false
      pr.xToY pr.now cfg.protocolFee pr.key.tier = .ok u)
    (h9 : reachedTickLimit pr.xToY pr.key.tier.spacing u.pool.tick = false)
    (h10 : st.totalIn + (r.amountIn + r.feeAmount) + u.total < U128) (h11 : st.totalOut + r.amountOut < U128)
    (h12 : st.fee + r.feeAmount < U128) :
    swapIter s pr st = .ok ⟨u.pool, u.remaining, st.totalIn + (r.amountIn + r.feeAmount) + u.total,
      st.totalOut + r.amountOut, st.fee + r.feeAmount, pushCrossed st.ticks u.upd u.crossed⟩ := by
  have ecfg : loadConfig s = .ok cfg := by unfold loadConfig; rw [h4]
  unfold swapIter
  rw [hb, h1, ok_bind, h2, ok_bind]
  have d1 : add128 r.amountIn r.feeAmount = .ok (r.amountIn + r.feeAmount) := add128_ok.2 ⟨by omega, rfl⟩
  have d2 : checkedSub .sub st.remaining r.amountOut = .ok (st.remaining - r.amountOut) := checkedSub_ok.2 ⟨h3, rfl⟩
  have d3 : add128 st.fee r.feeAmount = .ok (st.fee + r.feeAmount) := add128_ok.2 ⟨by omega, rfl⟩
  have d4 : add128 st.totalIn (r.amountIn + r.feeAmount) = .ok (st.totalIn + (r.amountIn + r.feeAmount)) :=
    add128_ok.2 ⟨by omega, rfl⟩
  have d5 : add128 st.totalOut r.amountOut = .ok (st.totalOut + r.amountOut) := add128_ok.2 ⟨h11, rfl⟩
  have d6 : add128 (st.totalIn + (r.amountIn + r.feeAmount)) u.total = .ok (st.totalIn + (r.amountIn + r.feeAmount) + u.total) :=
    add128_ok.2 ⟨h10, rfl⟩
  simp only [Bool.false_eq_true, if_false]
  rw [d2, ok_bind, ecfg, ok_bind, h5, ok_bind, d3, ok_bind, d1, ok_bind, d4, ok_bind, d5, ok_bind, if_neg h6, h7, ok_bind, h8, ok_bind,
    d6, ok_bind, h9]
  rfl

theorem getTick_exists {p ts : Nat} (h1 : MIN_SQRT_PRICE ≤ p) (h2 : p ≤ MAX_SQRT_PRICE) (h0 : 0 < ts) :
    ∃ t, getTickAtSqrtPrice p ts = .ok t := by
  obtain ⟨t, a, b, c, d⟩ := exists_tick h1
  exact ⟨_, getTick_eq h1 h2 h0 ⟨a, b, c, d⟩⟩

theorem getTick_ge {p ts : Nat} {t i : Int} (h : getTickAtSqrtPrice p ts = .ok t) (hi : TickOk ts i) (hp : sqrtPriceAt i ≤ p) : i ≤ t := by
  obtain ⟨h1, h2, h3, h4, h5⟩ := getTick_bounds h
  by_contra hc
  have h6 := dvd_lt_step hi.pos h1 hi.dvd (by omega)
  have h7 := h4 (by have := hi.range.2; omega)
  have h8 := sqrtPriceAt_le (t := t + ts) (u := i) (by omega) hi.range.2 h6
  omega

theorem isEnough_less {rem rem' p L fee : Nat} {e : Bool} (hp : p < U128)
    (h : isEnoughAmountToChangePrice rem p L fee false true = .ok e) (hr : rem' ≤ rem) :
    isEnoughAmountToChangePrice rem' p L fee false true = .ok (decide (L = 0 ∨ rem' ≠ 0)) := by
  by_cases hL : L = 0
  · unfold isEnoughAmountToChangePrice
    rw [if_pos hL]
    simp [hL]
  · have h' := h
    unfold isEnoughAmountToChangePrice at h'
    rw [if_neg hL] at h'
    simp only [Bool.false_eq_true, if_false, bind_ok, pure_ok] at h'
    obtain ⟨q, h1, _⟩ := h'
    unfold nextSqrtPriceFromOutput at h1
    simp only [if_true] at h1
    obtain ⟨a1, a2, _⟩ := yDown_sub h1
    obtain ⟨q', b1, b2, b3⟩ := yDown_exists hp hL a1 (Nat.le_trans (Nat.mul_le_mul_right (10 ^ 30) hr) a2)
    have hx : isEnoughAmountToChangePrice rem' p L fee false true = .ok (decide (p ≠ q')) := by
      unfold isEnoughAmountToChangePrice nextSqrtPriceFromOutput
      rw [if_neg hL]
      simp only [Bool.false_eq_true, if_false, if_true]
      rw [b1, ok_bind]
      rfl
    rw [hx]
    congr 1
    by_cases h0 : rem' = 0
    · subst h0
      have := enough_zero hx hL rfl
      simp [hL]
      simpa using this
    · have hne : p ≠ q' := by
        intro e
        apply h0
        refine enough_out (p := p) (L := L) (fee := fee) ?_
        rw [hx]
        simp [e]
      simp [hne, h0]

/-- An iteration when less is wanted: the same, or the last one. -/
theorem iter_less {s : Store} {pr : SwapParams} {st st1 : SwapState} {A' : Nat} (hs : Struct s) (hb : BitInv s) (hk : pr.key.wf)
    (hd : pr.xToY = true) (hbi : pr.byAmountIn = false) (h : swapIter s pr st = .ok st1)
    (hl : LoopOk true pr.key.tier.spacing pr.limit st.pool st.remaining) (hr0 : st.remaining ≠ 0) (hA : A' ≤ st.remaining)
    (hfee : st.fee ≤ st.totalIn) :
    ∃ st1', swapIter s pr { st with remaining := A' } = .ok st1' ∧
      ((∃ R, R ≤ st1.remaining ∧ st1' = { st1 with remaining := R }) ∨
       (st1'.remaining = 0 ∧ st1'.totalIn ≤ st1.totalIn ∧ st1'.ticks = st.ticks)) := by
  obtain ⟨cl, r, cfg, pool1, upd, u, rem, h1, h2, h3, h4, h5, h6, h7, h8, h9, h10, h11, h12⟩ := swapIter_inv h
  obtain ⟨i, b, a1, a2, a3, a4, a5, a6⟩ := closer_view (hb.chunk pr.key) hl.tick h1
  rw [hbi] at h2 h3 h8
  rw [hd] at a2 a6 h8 h9
  simp only [Bool.false_eq_true, if_false, if_true] at h3 a2 a6
  obtain ⟨h3a, rfl⟩ := h3
  have htp := a1.price_le hl.tick a2
  have hlo := hl.lo
  have hlim := hl.lim hr0
  simp only [if_true] at hlim
  have hMIN := a1.price_min
  have htgt : cl.1 ≤ st.pool.sqrtPrice ∧ sqrtPriceAt i ≤ cl.1 := by
    rcases a6 with ⟨b1, rfl⟩ | ⟨b1, rfl⟩ <;> simp only <;> omega
  have hMAX : st.pool.sqrtPrice ≤ MAX_SQRT_PRICE := Nat.le_trans hl.le_top (maxTick_ok a1.pos).price_max
  have hM128 : MAX_SQRT_PRICE < U128 := by decide +kernel
  rw [h12] at h10 h11
  simp only at h10 h11
  obtain ⟨r', g1, g2⟩ := step_less h2 htgt.1 (by omega) hA
  have hkeep := addFee_keep h5
  rcases g2 with ⟨rfl, g2, g3⟩ | ⟨gL, g2, g2', g3, g4, g5, g6, g7⟩
  · -- the same step
    have hcross : ∀ u' : TickUpdRes, Pool.updateTick { pool1 with sqrtPrice := r'.nextPrice } r'.nextPrice cl.1 upd (A' - r'.amountOut) false
        true pr.now cfg.protocolFee pr.key.tier = .ok u' → reachedTickLimit true pr.key.tier.spacing u'.pool.tick = false →
        u'.total = 0 → swapIter s pr { st with remaining := A' } = .ok ⟨u'.pool, u'.remaining,
          st.totalIn + (r'.amountIn + r'.feeAmount) + u'.total,
          st.totalOut + r'.amountOut, st.fee + r'.feeAmount, pushCrossed st.ticks u'.upd u'.crossed⟩ := by
      intro u' e1 e2 e3
      refine swapIter_out (st := { st with remaining := A' }) hbi h1 g1 g3 h4 h5 ?_ h7 ?_ ?_ ?_ h11 ?_
      · rintro ⟨e4, e5⟩
        exact h6 ⟨e4, by simp only at e5; omega⟩
      · rw [hd]; exact e1
      · rw [hd]; exact e2
      · rw [e3]; simp only; omega
      · simp only; omega
    rcases updateTick_inv h8 with ⟨c1, t, c2, c3⟩ | ⟨c1, e, c2, c3⟩
    · have c1' : upd = .noTick := by
        rcases c1 with c1 | c1
        · exact c1
        · exact absurd g2.symm c1
      subst c3
      have hu : Pool.updateTick { pool1 with sqrtPrice := r'.nextPrice } r'.nextPrice cl.1 upd (A' - r'.amountOut) false
          true pr.now cfg.protocolFee pr.key.tier =
          .ok ⟨{ pool1 with sqrtPrice := r'.nextPrice, tick := t }, upd, 0, A' - r'.amountOut, false⟩ := by
        unfold Pool.updateTick
        rw [if_pos (.inl c1'), c2, ok_bind]
        rfl
      refine ⟨_, hcross _ hu h9 rfl, .inl ⟨A' - r'.amountOut, ?_, ?_⟩⟩
      · rw [h12]; simp only; omega
      · rw [h12]
    · have hen := isEnough_less (p := r'.nextPrice) (by omega) c2 (show A' - r'.amountOut ≤ st.remaining - r'.amountOut by omega)
      have hen0 := isEnough_less (p := r'.nextPrice) (by omega) c2 (Nat.le_refl _)
      rw [c2, ok_inj] at hen0
      have hup : ¬ (upd = .noTick ∨ cl.1 ≠ r'.nextPrice) := by
        rintro (e1 | e1)
        · rcases c3 with ⟨j, e2, _⟩ | ⟨t, e2, _⟩ <;> rw [e1] at e2 <;> cases e2
        · exact e1 c1
      by_cases hsame : decide (pool1.liquidity = 0 ∨ A' - r'.amountOut ≠ 0) = e
      · simp only at hen
        rw [hsame] at hen
        rcases c3 with ⟨j, rfl, rfl⟩ | ⟨t, rfl, c3⟩
        · have hu : Pool.updateTick { pool1 with sqrtPrice := r'.nextPrice } r'.nextPrice cl.1 (.uninit j) (A' - r'.amountOut) false
              true pr.now cfg.protocolFee pr.key.tier =
              .ok ⟨{ pool1 with sqrtPrice := r'.nextPrice, tick := if true && e then j - pr.key.tier.spacing else j }, .uninit j, 0,
                A' - r'.amountOut, false⟩ := by
            unfold Pool.updateTick
            rw [if_neg hup, hen, ok_bind]
            rfl
          refine ⟨_, hcross _ hu h9 rfl, .inl ⟨A' - r'.amountOut, ?_, ?_⟩⟩
          · rw [h12]; simp only; omega
          · rw [h12]
        · rcases c3 with ⟨d1, tp, d2, rfl⟩ | ⟨_, _, _, d3, _⟩ | ⟨_, d2, d3, rfl⟩
          · have hu : Pool.updateTick { pool1 with sqrtPrice := r'.nextPrice } r'.nextPrice cl.1 (.init t) (A' - r'.amountOut) false
                true pr.now cfg.protocolFee pr.key.tier =
                .ok ⟨{ tp.2 with tick := if true && e then t.index - pr.key.tier.spacing else t.index }, .init tp.1, 0,
                  A' - r'.amountOut, true⟩ := by
              unfold Pool.updateTick
              rw [if_neg hup, hen, ok_bind]
              simp only
              rw [if_pos d1, d2]
              rfl
            refine ⟨_, hcross _ hu h9 rfl, .inl ⟨A' - r'.amountOut, ?_, ?_⟩⟩
            · rw [h12]; simp only; omega
            · rw [h12]
          · cases d3
          · have hz : st.remaining - r'.amountOut = 0 := by
              rw [d2] at c2
              exact enough_out c2
            have hz' : A' - r'.amountOut = st.remaining - r'.amountOut := by omega
            rw [← hz'] at h8
            refine ⟨_, hcross _ h8 h9 rfl, .inl ⟨0, ?_, ?_⟩⟩
            · omega
            · rw [h12]
      · -- the last iteration
        have e1 : A' - r'.amountOut = 0 ∧ pool1.liquidity ≠ 0 ∧ e = true := by
          simp only at hen0
          rw [hen0] at hsame ⊢
          by_cases z1 : pool1.liquidity = 0
          · simp [z1] at hsame
          · by_cases z2 : A' - r'.amountOut = 0
            · refine ⟨z2, z1, ?_⟩
              by_cases z3 : st.remaining - r'.amountOut = 0
              · simp [z1, z2, z3] at hsame
              · simp [z3]
            · exfalso
              apply hsame
              have z3 : st.remaining - r'.amountOut ≠ 0 := by omega
              simp [z2, z3]
        obtain ⟨e1, e2, rfl⟩ := e1
        have hen' : isEnoughAmountToChangePrice (A' - r'.amountOut) r'.nextPrice pool1.liquidity pr.key.tier.fee false true = .ok false := by
          simp only at hen
          rw [hen]
          simp [e1, e2]
        have hts : 0 < pr.key.tier.spacing := a1.pos
        unfold reachedTickLimit at h9
        simp only [if_true, decide_eq_false_iff_not, Int.not_le] at h9
        rcases c3 with ⟨j, rfl, rfl⟩ | ⟨t, rfl, c3⟩
        · have hu : Pool.updateTick { pool1 with sqrtPrice := r'.nextPrice } r'.nextPrice cl.1 (.uninit j) (A' - r'.amountOut) false
              true pr.now cfg.protocolFee pr.key.tier =
              .ok ⟨{ pool1 with sqrtPrice := r'.nextPrice, tick := j }, .uninit j, 0, A' - r'.amountOut, false⟩ := by
            unfold Pool.updateTick
            rw [if_neg hup, hen', ok_bind]
            rfl
          refine ⟨_, hcross _ hu ?_ rfl, .inr ⟨e1, ?_, rfl⟩⟩
          · unfold reachedTickLimit
            simp only [if_true, decide_eq_false_iff_not, Int.not_le, Bool.and_self] at h9 ⊢
            omega
          · rw [h12]
        · rcases c3 with ⟨d1, tp, d2, rfl⟩ | ⟨_, d2, _⟩ | ⟨_, d2, _⟩
          · have hu : Pool.updateTick { pool1 with sqrtPrice := r'.nextPrice } r'.nextPrice cl.1 (.init t) (A' - r'.amountOut) false
                true pr.now cfg.protocolFee pr.key.tier =
                .ok ⟨{ pool1 with sqrtPrice := r'.nextPrice, tick := t.index }, .init t, 0, 0, false⟩ := by
              unfold Pool.updateTick
              rw [if_neg hup, hen', ok_bind]
              simp only [Bool.not_true, Bool.or_false, Bool.false_eq_true, if_false]
              rw [if_neg (by simpa using e1), e1]
              rfl
            refine ⟨_, hcross _ hu ?_ rfl, .inr ⟨rfl, ?_, rfl⟩⟩
            · unfold reachedTickLimit
              simp only [if_true, decide_eq_false_iff_not, Int.not_le, Bool.and_self] at h9 ⊢
              omega
            · rw [h12]
          · cases d2
          · cases d2
  · -- it ends inside this step
    obtain ⟨p1', k1⟩ := addFee_less h5 g7 (by omega)
    have hk1 := addFee_keep k1
    have hpL : p1'.liquidity ≠ 0 := by rw [hk1.1]; exact gL
    unfold reachedTickLimit at h9
    simp only [if_true, decide_eq_false_iff_not, Int.not_le] at h9
    have hind : (∀ j, upd = .uninit j → j = i) ∧ (∀ t, upd = .init t → t.index = i) := by
      rcases a6 with ⟨b1, rfl⟩ | ⟨b1, rfl⟩
      · rcases tickUpdOf_inv h7 with ⟨d1, d2⟩ | ⟨i', t', d1, d2, d3⟩ | ⟨i', d1, d2⟩
        · cases d1
        · simp only [Option.some.injEq, Prod.mk.injEq] at d1
          rw [← d1.1] at d2
          have := (hs.tick hk a1.i32 d2).1
          exact ⟨(fun _ e => by rw [e] at d3; cases d3), fun _ e => by rw [e] at d3; injection d3 with d3; rw [d3]; exact this⟩
        · simp only [Option.some.injEq, Prod.mk.injEq] at d1
          exact ⟨fun _ e => by rw [e] at d2; injection d2 with d2; rw [d2]; exact d1.1.symm, fun _ e => by rw [e] at d2; cases d2⟩
      · rcases tickUpdOf_inv h7 with ⟨d1, d2⟩ | ⟨i', t', d1, d2, d3⟩ | ⟨i', d1, d2⟩
        · exact ⟨(fun _ e => by rw [e] at d2; cases d2), fun _ e => by rw [e] at d2; cases d2⟩
        · cases d1
        · cases d1
    -- a tick below the new price and above the lowest
    have hj : ∃ j, TickOk pr.key.tier.spacing j ∧ getMinTick pr.key.tier.spacing < j ∧ sqrtPriceAt j ≤ r'.nextPrice ∧
        (r'.nextPrice = cl.1 → upd ≠ .noTick → j ≤ i) := by
      rcases updateTick_inv h8 with ⟨c1, t, c2, rfl⟩ | ⟨c1, e, c2, c3⟩
      · simp only at h9
        rw [getMinTick_eq] at h9
        obtain ⟨t1, t2, t3, t4, t5⟩ := getTick_bounds c2
        have hbd := getMaxTick_bounds pr.key.tier.spacing
        have hok := tickOk_of_dvd a1.pos t1 (by omega) (dvd_le_max a1.pos t1 t2)
        refine ⟨t, hok, by rw [getMinTick_eq]; omega, Nat.le_trans (t3 hok.range.1) g4, ?_⟩
        intro e1 e2
        exfalso
        rcases c1 with c1 | c1
        · exact e2 c1
        · omega
      · refine ⟨i, a1, ?_, by omega, fun _ _ => Int.le_refl _⟩
        have hle : u.pool.tick ≤ i := by
          rcases c3 with ⟨j, e1, rfl⟩ | ⟨t, e1, c3⟩
          · have := hind.1 j e1
            simp only
            split <;> omega
          · have := hind.2 t e1
            rcases c3 with ⟨d1, tp, d2, rfl⟩ | ⟨_, _, _, d3, _⟩ | ⟨_, d2, d3, rfl⟩
            · simp only
              split <;> omega
            · cases d3
            · simp only; omega
        omega
    obtain ⟨j, j1, j2, j3, j4⟩ := hj
    have hfin : ∀ u' : TickUpdRes, Pool.updateTick { p1' with sqrtPrice := r'.nextPrice } r'.nextPrice cl.1 upd 0 false
        true pr.now cfg.protocolFee pr.key.tier = .ok u' → j ≤ u'.pool.tick → u'.total = 0 → u'.remaining = 0 → u'.crossed = false →
        ∃ st1', swapIter s pr { st with remaining := A' } = .ok st1' ∧ (st1'.remaining = 0 ∧ st1'.totalIn ≤ st1.totalIn ∧ st1'.ticks = st.ticks) := by
      intro u' e1 e2 e3 e4 e5
      refine ⟨_, swapIter_out (st := { st with remaining := A' }) hbi h1 g1 (by simp only; omega) h4 k1 ?_ h7 (u := u') ?_ ?_ ?_ ?_ ?_, ?_⟩
      · simp only [g2]; omega
      · rw [hd]; simp only [g2, Nat.sub_self]; exact e1
      · rw [hd]; unfold reachedTickLimit
        simp only [if_true, decide_eq_false_iff_not, Int.not_le]; omega
      · rw [e3]; simp only; omega
      · simp only; omega
      · simp only; omega
      · refine ⟨e4, ?_, ?_⟩
        · rw [h12, e3]; simp only; omega
        · simp only; rw [e5]; cases u'.upd <;> rfl
    suffices hx : ∃ u' : TickUpdRes, Pool.updateTick { p1' with sqrtPrice := r'.nextPrice } r'.nextPrice cl.1 upd 0 false
        true pr.now cfg.protocolFee pr.key.tier = .ok u' ∧ j ≤ u'.pool.tick ∧ u'.total = 0 ∧ u'.remaining = 0 ∧ u'.crossed = false by
      obtain ⟨u', e1, e2, e3, e4, e5⟩ := hx
      obtain ⟨x, x1, x2⟩ := hfin u' e1 e2 e3 e4 e5
      exact ⟨x, x1, .inr x2⟩
    unfold Pool.updateTick
    by_cases hc : upd = .noTick ∨ cl.1 ≠ r'.nextPrice
    · rw [if_pos hc]
      obtain ⟨t, ht⟩ := getTick_exists (p := r'.nextPrice) (ts := pr.key.tier.spacing) (by omega) (by omega) a1.pos
      rw [ht, ok_bind]
      exact ⟨_, rfl, getTick_ge ht j1 j3, rfl, rfl, rfl⟩
    · have hnp : r'.nextPrice = cl.1 := by
        by_contra e
        exact hc (.inr (Ne.symm e))
      have hle := j4 hnp (fun e => hc (.inl e))
      have hen : isEnoughAmountToChangePrice 0 r'.nextPrice p1'.liquidity pr.key.tier.fee false true = .ok false := by
        have hy : nextSqrtPriceYDown r'.nextPrice p1'.liquidity 0 false = .ok r'.nextPrice := by
          obtain ⟨q, y1, y2, y3⟩ := yDown_exists (p := r'.nextPrice) (y := 0) (by omega) hpL (Nat.le_refl _) (by simp)
          rw [y1]
          congr 1
          omega
        unfold isEnoughAmountToChangePrice nextSqrtPriceFromOutput
        rw [if_neg hpL]
        simp only [Bool.false_eq_true, if_false, if_true]
        rw [hy, ok_bind]
        simp
        rfl
      rw [if_neg hc, hen, ok_bind]
      cases upd with
      | noTick => exact absurd (.inl rfl) hc
      | uninit j0 =>
        have := hind.1 j0 rfl
        refine ⟨_, rfl, ?_, rfl, rfl, rfl⟩
        simp only [Bool.and_false, Bool.false_eq_true, if_false]
        omega
      | init t =>
        have := hind.2 t rfl
        refine ⟨_, rfl, ?_, rfl, rfl, rfl⟩
        show j ≤ t.index
        omega

theorem iter_feeLe {s : Store} {pr : SwapParams} {st st1 : SwapState} (h : swapIter s pr st = .ok st1) (hf : st.fee ≤ st.totalIn) :
    st1.fee ≤ st1.totalIn ∧ st.totalIn ≤ st1.totalIn ∧ st.ticks <+: st1.ticks := by
  obtain ⟨cl, r, cfg, pool1, upd, u, rem, h1, h2, h3, h4, h5, h6, h7, h8, h9, h10, h11, rfl⟩ := swapIter_inv h
  refine ⟨by simp only; omega, by simp only; omega, ?_⟩
  simp only
  unfold pushCrossed
  split
  · exact List.prefix_append _ _
  · exact List.prefix_rfl

theorem loop_prefix {s : Store} {pr : SwapParams} : ∀ {n : Nat} {st st1 : SwapState}, swapLoop s pr n st = .ok st1 → st.fee ≤ st.totalIn →
    st.totalIn ≤ st1.totalIn ∧ st.ticks <+: st1.ticks
  | 0, st, st1, h, _ => by
    simp only [swapLoop] at h
    split at h
    · rw [ok_inj] at h; subst h; exact ⟨Nat.le_refl _, List.prefix_rfl⟩
    · cases h
  | n + 1, st, st1, h, hf => by
    simp only [swapLoop] at h
    split at h
    · rw [ok_inj] at h; subst h; exact ⟨Nat.le_refl _, List.prefix_rfl⟩
    · simp only [bind_ok] at h
      obtain ⟨x, h1, h2⟩ := h
      have a := iter_feeLe h1 hf
      have b := loop_prefix h2 a.1
      exact ⟨Nat.le_trans a.2.1 b.1, a.2.2.trans b.2⟩

/-- The loop when less is wanted. -/
theorem loop_less {s : Store} {pr : SwapParams} (hs : Struct s) (hb : BitInv s) (hk : pr.key.wf) (hv : pr.key.tier.Valid)
    (hd : pr.xToY = true) (hbi : pr.byAmountIn = false) : ∀ {n : Nat} {st st1 : SwapState} {A' : Nat}, swapLoop s pr n st = .ok st1 →
    LoopOk true pr.key.tier.spacing pr.limit st.pool st.remaining → st.fee ≤ st.totalIn → A' ≤ st.remaining →
    ∃ st1', swapLoop s pr n { st with remaining := A' } = .ok st1' ∧ st1'.totalIn ≤ st1.totalIn ∧ st1'.ticks <+: st1.ticks
  | n, st, st1, A', h, hl, hf, hA => by
    have hp := loop_prefix h hf
    by_cases h0 : A' = 0
    · refine ⟨{ st with remaining := A' }, ?_, hp.1, hp.2⟩
      cases n <;> simp [swapLoop, h0]
    · cases n with
      | zero =>
        simp only [swapLoop] at h
        rw [if_neg (by omega)] at h
        cases h
      | succ n =>
        simp only [swapLoop] at h ⊢
        rw [if_neg (by omega)] at h
        rw [if_neg h0]
        simp only [bind_ok] at h
        obtain ⟨x, h1, h2⟩ := h
        obtain ⟨x', g1, g2⟩ := iter_less hs hb hk hd hbi h1 hl (by omega) hA hf
        have a := iter_feeLe h1 hf
        rw [g1, ok_bind]
        rcases g2 with ⟨R, r1, rfl⟩ | ⟨r1, r2, r3⟩
        · have hl' : LoopOk true pr.key.tier.spacing pr.limit x.pool x.remaining := by
            obtain ⟨i, ini, r, cfg, p1, rem, u, hview⟩ := iter_view hs hb hk hv hl.tick h1
            have := iter_ok hview (by rw [hd]; exact hl) (by omega)
            rw [hd] at this
            exact this
          exact loop_less hs hb hk hv hd hbi h2 hl' a.1 r1
        · have b := loop_prefix h2 a.1
          refine ⟨x', ?_, Nat.le_trans r2 b.1, ?_⟩
          · cases n <;> simp [swapLoop, r1]
          · rw [r3]; exact a.2.2.trans b.2

end OraiV3
