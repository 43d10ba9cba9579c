import Verif.CurveSpec
import Verif.Lemmas.Impact
import Verif.Lemmas.Offer
import Verif.Lemmas.Shares

/-!
# Swaps follow the price curve
-/

namespace OraiV3

theorem lastDigit_nonneg (x : Bool) (L p : Nat) : 0 ≤ lastDigit x L p := by
  unfold lastDigit exactAmount
  split
  · exact exactX_nonneg _ _ _
  · exact exactY_nonneg _ _ _

theorem lastDigit_y {L p : Nat} (hp : 0 < p) : lastDigit false L p = (L : ℚ) / 10 ^ 30 := by
  unfold lastDigit exactAmount
  rw [if_neg (by decide), exactY_eq, absDiff_le (by omega), show p - (p - 1) = 1 by omega]
  push_cast
  ring

/-- The error of an X amount next to a price that is not the lowest. -/
theorem dust_below {a b : Nat} (ha : MIN_SQRT_PRICE ≤ a) (hb : MIN_SQRT_PRICE ≤ b + 1) :
    (10 : ℚ) ^ 24 ≤ 1 / 10 ^ 14 * ((a : ℚ) * b) := by
  have ha' : (MIN_SQRT_PRICE : ℚ) ≤ a := by exact_mod_cast ha
  have hb' : (MIN_SQRT_PRICE : ℚ) ≤ b + 1 := by exact_mod_cast hb
  have h1 : ((MIN_SQRT_PRICE : Nat) : ℚ) * ((MIN_SQRT_PRICE : Nat) - 1) ≤ a * b :=
    mul_le_mul ha' (by linarith) (by norm_num) (by linarith [show (0 : ℚ) ≤ (MIN_SQRT_PRICE : Nat) by positivity])
  have h2 : (10 : ℚ) ^ 24 ≤ 1 / 10 ^ 14 * (((MIN_SQRT_PRICE : Nat) : ℚ) * ((MIN_SQRT_PRICE : Nat) - 1)) := by norm_num
  exact h2.trans (mul_le_mul_of_nonneg_left h1 (by positivity))

/-- X sold that ends between two prices. -/
theorem rest_x {p L a q : Nat} (h : nextSqrtPriceXUp p L a true = .ok q) (hle : q ≤ p) (hq : MIN_SQRT_PRICE ≤ q) :
    (a : ℚ) ≤ exactX L q p + lastDigit true L q + 1 / 10 ^ 14 := by
  have m0 : 1 < MIN_SQRT_PRICE := by norm_num
  by_cases ha : a = 0
  · rw [ha, Nat.cast_zero]
    have := exactX_nonneg L q p
    have := lastDigit_nonneg true L q
    positivity
  obtain ⟨-, -, h2⟩ := xUp_add h ha
  obtain ⟨g, rfl⟩ : ∃ g, q = g + 1 := ⟨q - 1, by omega⟩
  have hg0 : 0 < g := by omega
  have e : exactX L (g + 1) p + lastDigit true L (g + 1) = exactX L g p := by
    unfold lastDigit exactAmount
    rw [if_pos rfl, Nat.add_sub_cancel, exactX_add (b := g + 1) hg0 (by omega) hle]
    ring
  rw [e, exactX_eq hg0 (by omega), absDiff_le (by omega)]
  have hd := dust_below (a := p) (b := g) (hq.trans hle) hq
  have hg' : (0 : ℚ) < g := by exact_mod_cast hg0
  have hp' : (0 : ℚ) < p := by exact_mod_cast (show 0 < p by omega)
  have h3 : a * (g * p) ≤ (p - g) * L * 10 ^ 18 + 10 ^ 24 := by
    obtain ⟨w, rfl⟩ : ∃ w, p = g + w := ⟨p - g, by omega⟩
    rw [Nat.add_sub_cancel_left]
    have e1 : (g + 1) * (L * 10 ^ 18 + (g + w) * a) = g * (L * 10 ^ 18) + a * (g * (g + w)) + (L * 10 ^ 18 + (g + w) * a) := by ring
    have e2 : ((g + w) * L + 10 ^ 6) * 10 ^ 18 = g * (L * 10 ^ 18) + w * L * 10 ^ 18 + 10 ^ 24 := by ring
    rw [e1, e2] at h2
    generalize (10 : Nat) ^ 18 = S at *
    generalize (10 : Nat) ^ 24 = T at *
    omega
  have h4 : ((a * (g * p) : Nat) : ℚ) ≤ (((p - g) * L * 10 ^ 18 + 10 ^ 24 : Nat) : ℚ) := by exact_mod_cast h3
  rw [Nat.cast_mul, Nat.cast_mul, Nat.cast_add, Nat.cast_mul, Nat.cast_mul, Nat.cast_pow, Nat.cast_pow] at h4
  have hgp : (0 : ℚ) < g * p := by positivity
  rw [← sub_le_iff_le_add, le_div_iff₀ hgp, sub_mul]
  have h5 : (1 : ℚ) / 10 ^ 14 * (g * p) = 1 / 10 ^ 14 * (p * g) := by ring
  rw [h5]
  rw [Nat.cast_ofNat] at h4
  linarith

/-- X bought that ends between two prices. -/
theorem rest_x_out {p L x q : Nat} (h : nextSqrtPriceXUp p L x false = .ok q) (hle : p ≤ q) (hp : MIN_SQRT_PRICE ≤ p) :
    exactX L p q ≤ x + lastDigit true L q + 1 / 10 ^ 14 := by
  have m0 : 1 < MIN_SQRT_PRICE := by norm_num
  have hx0 : (0 : ℚ) ≤ x := Nat.cast_nonneg _
  have hl := lastDigit_nonneg true L q
  rcases Nat.eq_or_lt_of_le hle with rfl | hlt
  · rw [exactX_self]
    positivity
  by_cases hx : x = 0
  · unfold nextSqrtPriceXUp at h
    rw [if_pos hx, ok_inj] at h
    omega
  obtain ⟨-, h1, -, h2⟩ := xUp_sub h hx
  obtain ⟨w, rfl⟩ : ∃ w, q = p + w + 1 := ⟨q - p - 1, by omega⟩
  have e : exactX L p (p + w + 1) = exactX L p (p + w) + lastDigit true L (p + w + 1) := by
    unfold lastDigit exactAmount
    rw [if_pos rfl, Nat.add_sub_cancel, exactX_add (b := p + w) (by omega) (by omega) (by omega)]
  rw [e, exactX_eq (by omega) (by omega), absDiff_le (by omega), Nat.add_sub_cancel_left]
  have hd := dust_below (a := p) (b := p + w) hp (by omega)
  have hp' : (0 : ℚ) < p := by exact_mod_cast (show 0 < p by omega)
  have hg' : (0 : ℚ) < (p + w : Nat) := by exact_mod_cast (show 0 < p + w by omega)
  have h3 : w * L * 10 ^ 18 ≤ x * (p * (p + w)) + 10 ^ 24 := by
    obtain ⟨D, hD⟩ : ∃ D, L * 10 ^ 18 = p * x + D := ⟨L * 10 ^ 18 - p * x, by omega⟩
    rw [show L * 10 ^ 18 - p * x = D by omega] at h2
    have e1 : (p + w + 1) * D = (p + w) * D + D := by ring
    have e2 : (p * L + 10 ^ 6) * 10 ^ 18 = p * (L * 10 ^ 18) + 10 ^ 24 := by ring
    have e3 : w * L * 10 ^ 18 = w * (L * 10 ^ 18) := by ring
    rw [e1, e2, hD] at h2
    rw [e3, hD]
    have e4 : x * (p * (p + w)) = p * (p * x) + w * (p * x) := by ring
    have e5 : (p + w) * D = p * D + w * D := by ring
    rw [e4, Nat.mul_add]
    rw [e5, Nat.mul_add] at h2
    generalize (10 : Nat) ^ 24 = T at *
    omega
  have h4 : ((w * L * 10 ^ 18 : Nat) : ℚ) ≤ ((x * (p * (p + w)) + 10 ^ 24 : Nat) : ℚ) := by exact_mod_cast h3
  rw [Nat.cast_add (x * _), Nat.cast_mul, Nat.cast_mul, Nat.cast_mul x, Nat.cast_mul p, Nat.cast_pow, Nat.cast_pow] at h4
  have hgp : (0 : ℚ) < p * (p + w : Nat) := by positivity
  have : (w : ℚ) * L * 10 ^ 18 / (p * (p + w : Nat)) ≤ x + 1 / 10 ^ 14 := by
    rw [div_le_iff₀ hgp]
    push_cast at h4 hd ⊢
    nlinarith
  linarith

/-- What a step charges at most. -/
theorem step_pay {cur target L amount fee : Nat} {b d : Bool} {r : SwapResult}
    (h : computeSwapStep cur target L amount b fee = .ok r) (hd : if d then target ≤ cur else cur < target) (hf : fee ≤ PCT)
    (hn : if d then r.nextPrice ≤ cur else cur ≤ r.nextPrice) (hc : MIN_SQRT_PRICE ≤ cur) (hm : MIN_SQRT_PRICE ≤ r.nextPrice) :
    ((r.amountIn : ℚ) + r.feeAmount) * (1 - (fee : ℚ) / 10 ^ 12) * (1 - 1 / 10 ^ 14) ≤
        exactOf d L r.nextPrice cur + 2 - 1 / 10 ^ 14 ∨
    (((r.amountIn : ℚ) + r.feeAmount) * (1 - (fee : ℚ) / 10 ^ 12) * (1 - 1 / 10 ^ 14) ≤
        exactOf d L r.nextPrice cur + 2 + lastDigit d L r.nextPrice ∧
      L ≠ 0 ∧ b = true ∧ r.amountIn + r.feeAmount = amount) := by
  by_cases hL : L = 0
  · left
    rw [hL] at h ⊢
    rw [step_zero h, exactOf_zero]
    norm_num
  have hu := step_upper h hd hc hm
  obtain ⟨h1, -, -, h5⟩ := step_view h hL
  have e : decide (cur ≥ target) = d := by
    cases d <;> simp only [Bool.false_eq_true, if_false, if_true] at hd <;> simp <;> omega
  rw [e] at h1
  by_cases hB : b = true ∧ r.nextPrice ≠ target
  · right
    rw [if_pos hB] at h5
    rw [if_pos hB.1] at h1
    obtain ⟨_, pre, _, ⟨_, hh⟩ | ⟨_, hh⟩⟩ := h1
    · exact absurd hh hB.2
    have hsum : r.amountIn + r.feeAmount = amount := by omega
    refine ⟨?_, hL, hB.1, hsum⟩
    have hsum' : (r.amountIn : ℚ) + r.feeAmount = amount := by exact_mod_cast hsum
    rw [hsum']
    have g5 := afterFee_le (a := amount) hf
    have hx : ((amount * (PCT - fee) / PCT : Nat) : ℚ) ≤ exactOf d L r.nextPrice cur + lastDigit d L r.nextPrice + 1 / 10 ^ 14 := by
      unfold nextSqrtPriceFromInput at hh
      generalize amount * (PCT - fee) / PCT = A' at *
      cases d
      · simp only [Bool.false_eq_true, if_false] at hh hn
        have g := yDown_add_le hh
        have m0 : 0 < MIN_SQRT_PRICE := by norm_num
        rw [lastDigit_y (by omega)]
        show _ ≤ exactY L r.nextPrice cur + _ + _
        rw [exactY_symm, exactY_eq, absDiff_le hn, Nat.cast_sub hn]
        have : (0 : ℚ) ≤ 1 / 10 ^ 14 := by positivity
        linarith
      · simp only [if_true] at hh hn
        exact rest_x hh hn hm
    have hl := lastDigit_nonneg d L r.nextPrice
    have h0 : (0 : ℚ) ≤ exactOf d L r.nextPrice cur := by
      unfold exactOf; split
      · exact exactX_nonneg _ _ _
      · exact exactY_nonneg _ _ _
    generalize (amount * (PCT - fee) / PCT : Nat) = N at *
    generalize (amount : ℚ) * (1 - (fee : ℚ) / 10 ^ 12) = T at *
    linarith
  · left
    rw [if_neg hB] at h5
    have := fee_le (a := r.amountIn) hf
    rw [← h5] at this
    generalize ((r.amountIn : ℚ) + r.feeAmount) * (1 - (fee : ℚ) / 10 ^ 12) = T at *
    linarith

/-- What a step gives at least. -/
theorem step_get {cur target L amount fee : Nat} {b d : Bool} {r : SwapResult}
    (h : computeSwapStep cur target L amount b fee = .ok r) (hd : if d then target ≤ cur else cur < target)
    (hn : if d then r.nextPrice ≤ cur else cur ≤ r.nextPrice) (hc : MIN_SQRT_PRICE ≤ cur) (hm : MIN_SQRT_PRICE ≤ r.nextPrice) :
    exactOf (!d) L r.nextPrice cur ≤ (r.amountOut + 1) * (1 + 1 / 10 ^ 13) ∨
    (exactOf (!d) L r.nextPrice cur ≤ (r.amountOut + 1) * (1 + 1 / 10 ^ 13) + lastDigit (!d) L r.nextPrice ∧
      L ≠ 0 ∧ b = false ∧ r.amountOut = amount) := by
  by_cases hL : L = 0
  · left
    rw [hL, exactOf_zero]
    positivity
  obtain ⟨h1, -, ⟨out0, h2, h3⟩, -⟩ := step_view h hL
  have e : decide (cur ≥ target) = d := by
    cases d <;> simp only [Bool.false_eq_true, if_false, if_true] at hd <;> simp <;> omega
  rw [e] at h1 h2
  have key : exactOf (!d) L r.nextPrice cur ≤ (out0 + 1) * (1 + 1 / 10 ^ 13) := by
    have h0 : (0 : ℚ) ≤ (out0 : ℚ) := Nat.cast_nonneg _
    cases d
    · rw [deltaOut_false] at h2
      have b := (deltaX_down_exact h2).2.2.2
      rw [exactX_symm] at b
      have c := dustX_small hc hm
      show exactX L r.nextPrice cur ≤ _
      have : ((out0 : ℚ) + 1) * dustX cur r.nextPrice ≤ (out0 + 1) * (1 / 10 ^ 14) :=
        mul_le_mul_of_nonneg_left (le_of_lt c) (by linarith)
      have e1 : (out0 + 1 : ℚ) * (1 + 1 / 10 ^ 13) = out0 + 1 + (out0 + 1) * (1 / 10 ^ 14) * 10 := by ring
      rw [e1]
      nlinarith
    · rw [deltaOut_true] at h2
      have b := (deltaY_down_exact h2).2
      show exactY L r.nextPrice cur ≤ _
      have : (0 : ℚ) ≤ (out0 + 1) * (1 / 10 ^ 13) := by positivity
      nlinarith
  cases b
  · rw [if_neg (by decide)] at h1 h3
    rcases Nat.le_total out0 amount with g | g
    · left
      rw [Nat.min_eq_left g] at h3
      rw [h3]; exact key
    · rw [Nat.min_eq_right g] at h3
      obtain ⟨pre, g1, ⟨g2, g3⟩ | ⟨g2, g3⟩⟩ := h1
      · left
        rw [g3, g1, ok_inj] at h2
        have : r.amountOut = out0 := by omega
        rw [this]; exact key
      · right
        refine ⟨?_, hL, rfl, h3⟩
        rw [h3]
        unfold nextSqrtPriceFromOutput at g3
        have ha : (0 : ℚ) ≤ amount := Nat.cast_nonneg _
        have hh : exactOf (!d) L r.nextPrice cur ≤ amount + lastDigit (!d) L r.nextPrice + 1 / 10 ^ 14 := by
          cases d
          · simp only [Bool.false_eq_true, if_false] at g3 hn
            have := rest_x_out g3 hn hc
            rw [exactX_symm] at this
            exact this
          · simp only [if_true] at g3 hn
            have g := yDown_sub_le g3
            have m0 : 0 < MIN_SQRT_PRICE := by norm_num
            rw [Bool.not_true, lastDigit_y (by omega)]
            show exactY L r.nextPrice cur ≤ _
            rw [exactY_eq, absDiff_le hn, Nat.cast_sub hn]
            have : (0 : ℚ) ≤ 1 / 10 ^ 14 := by positivity
            linarith
        have : (0 : ℚ) ≤ amount * (1 / 10 ^ 13) := by positivity
        linarith
  · left
    rw [if_pos rfl] at h3
    rw [h3]; exact key

/-- What is taken when it cannot move the price. -/
theorem stall_pay {p L a fee : Nat} (h : isEnoughAmountToChangePrice a p L fee true true = .ok false) (hf : fee ≤ PCT)
    (hp : MIN_SQRT_PRICE ≤ p) :
    (a : ℚ) * (1 - (fee : ℚ) / 10 ^ 12) * (1 - 1 / 10 ^ 14) ≤ lastDigit true L p + 1 + 1 / 10 ^ 14 := by
  unfold isEnoughAmountToChangePrice at h
  split at h
  · simp at h
  · rw [if_pos rfl] at h
    rw [bind_ok] at h
    obtain ⟨aaf, h1, h⟩ := h
    rw [bind_ok] at h
    obtain ⟨np, h2, h3⟩ := h
    rw [pure_ok] at h3
    obtain ⟨-, rfl, -⟩ := amountAfterFee_inv h1
    have e : p = np := by simpa using h3
    subst e
    unfold nextSqrtPriceFromInput at h2
    rw [if_pos rfl] at h2
    have g4 := rest_x h2 (Nat.le_refl _) hp
    rw [exactX_self] at g4
    have g5 := afterFee_le (a := a) hf
    have hl := lastDigit_nonneg true L p
    have h0 : (0 : ℚ) ≤ (a : ℚ) * (1 - (fee : ℚ) / 10 ^ 12) := by
      have e : ((PCT : Nat) : ℚ) = 10 ^ 12 := by norm_num
      have : (fee : ℚ) / 10 ^ 12 ≤ 1 := by
        rw [div_le_one (by positivity), ← e]; exact_mod_cast hf
      exact mul_nonneg (Nat.cast_nonneg _) (by linarith)
    generalize (a * (PCT - fee) / PCT : Nat) = N at *
    generalize (a : ℚ) * (1 - (fee : ℚ) / 10 ^ 12) = T at *
    linarith

/-- What one iteration moves along the curve. -/
theorem iter_curve {s : Store} {pr : SwapParams} {st st' : SwapState} {i : Int} {ini : Bool} {r : SwapResult}
    {cfg : Config} {p1 : Pool} {rem : Nat} {u : TickUpdRes} (hs : Struct s) (ht : TickSum s) (hk : pr.key.wf)
    (hv : IterView s pr st st' i ini r cfg p1 rem u)
    (h : LoopOk pr.xToY pr.key.tier.spacing pr.limit st.pool st.remaining) (hr : st.remaining ≠ 0)
    (h' : LoopOk pr.xToY pr.key.tier.spacing pr.limit st'.pool st'.remaining)
    (ha : st.pool.liquidity = liquidityInRange s pr.key st.pool.tick) :
    (curveIn s pr.key pr.xToY st.pool.sqrtPrice st'.pool.sqrtPrice =
        exactOf pr.xToY st.pool.liquidity r.nextPrice st.pool.sqrtPrice ∧
      curveOut s pr.key pr.xToY st.pool.sqrtPrice st'.pool.sqrtPrice =
        exactOf (!pr.xToY) st.pool.liquidity r.nextPrice st.pool.sqrtPrice) ∨
      (st'.remaining = 0 ∧ ¬ RegularPool s pr.key pr.xToY pr.byAmountIn pr.limit st'.pool) := by
  rcases iter_span hs ht hk hv h hr h' with hsp | hbad
  · left
    have hnp := iter_price_eq hv
    have hpr := iter_price hv h hr
    rw [← hnp] at hpr ⊢
    rw [ha]
    unfold curveIn curveOut held
    cases hd : pr.xToY
    · simp only [hd, Bool.false_eq_true, if_false] at hpr
      obtain ⟨a1, a2⟩ := principal_sum hs (t := st.pool.tick) hpr.1 (fun j hj hu => by
        have := hsp j hj hu
        split <;> rename_i hc
        · rw [if_pos hc] at this; exact this.1
        · rw [if_neg hc] at this; exact this.2)
      rw [Bool.not_false, a1, a2, exactOf_symm, exactOf_symm true]
      simp only [exactOf, Bool.false_eq_true, if_false, if_true]
      constructor <;> ring
    · simp only [hd, if_true] at hpr
      obtain ⟨a1, a2⟩ := principal_sum hs (t := st.pool.tick) hpr.1 (fun j hj hu => by
        have := hsp j hj hu
        split <;> rename_i hc
        · rw [if_pos hc] at this; exact this.2
        · rw [if_neg hc] at this; exact this.1)
      rw [Bool.not_true, a1, a2]
      simp only [exactOf, Bool.false_eq_true, if_false, if_true]
      constructor <;> ring
  · exact .inr hbad

/-- The totals of a swap so far against the curve. -/
structure CurveInv (s : Store) (k : PoolKey) (d : Bool) (p0 : Nat) (n : Nat) (st : SwapState) : Prop where
  active : st.pool.liquidity = liquidityInRange s k st.pool.tick
  inLower : curveIn s k d p0 st.pool.sqrtPrice * (1 + (k.tier.fee : ℚ) / 10 ^ 12) ≤ st.totalIn + 2 / 10 ^ 14 * n
  outUpper : (st.totalOut : ℚ) ≤ curveOut s k d p0 st.pool.sqrtPrice
  rest : ∃ E F : ℚ, (st.remaining ≠ 0 → E = 0 ∧ F = 0) ∧
    (∃ L : Nat, UsedLast s k d st.pool L ∧ E ≤ lastDigit d L st.pool.sqrtPrice ∧ F ≤ lastDigit (!d) L st.pool.sqrtPrice) ∧
    (st.totalIn : ℚ) * (1 - (k.tier.fee : ℚ) / 10 ^ 12) * (1 - 1 / 10 ^ 14) ≤ curveIn s k d p0 st.pool.sqrtPrice + 3 * n + E ∧
    curveOut s k d p0 st.pool.sqrtPrice ≤ (st.totalOut + n) * (1 + 1 / 10 ^ 13) + F

theorem iter_curveInv {s : Store} {now : Nat} {k : PoolKey} {d b : Bool} {limit : Nat} {p0 : Nat}
    (hs : Struct s) (ht : TickSum s) (hk : k.wf) (hf : k.tier.fee ≤ PCT) {n : Nat} {x y : SwapState} {i : Int} {ini : Bool} {r : SwapResult}
    {cfg : Config} {p1 : Pool} {rem : Nat} {u : TickUpdRes} (hv : IterView s ⟨k, d, b, limit, now⟩ x y i ini r cfg p1 rem u)
    (hx : LoopOk d k.tier.spacing limit x.pool x.remaining) (hr : x.remaining ≠ 0)
    (hy : LoopOk d k.tier.spacing limit y.pool y.remaining) (h : CurveInv s k d p0 n x) :
    CurveInv s k d p0 (n + 1) y ∨ (y.remaining = 0 ∧ ¬ RegularPool s k d b limit y.pool) := by
  rcases iter_active hs ht hk hv hx hr hy h.active with ha | hbad
  swap
  · exact .inr hbad
  rcases iter_curve hs ht hk hv hx hr hy h.active with ⟨c1, c2⟩ | hbad
  swap
  · exact .inr hbad
  left
  simp only at c1 c2
  obtain ⟨E, F, h0, -, hi, ho⟩ := h.rest
  obtain ⟨rfl, rfl⟩ := h0 hr
  have e1 : y.totalIn = x.totalIn + (r.amountIn + r.feeAmount) + u.total := by rw [hv.eq]
  have e2 : y.totalOut = x.totalOut + r.amountOut := by rw [hv.eq]
  have e1' : (y.totalIn : ℚ) = x.totalIn + (r.amountIn + r.feeAmount) + u.total := by exact_mod_cast e1
  have e2' : (y.totalOut : ℚ) = x.totalOut + r.amountOut := by exact_mod_cast e2
  have hnp := iter_price_eq hv
  have hpr := iter_price hv hx hr
  have hah := target_ahead hx hr hv.ok hv.dir
  have hmin := hy.min
  rw [hnp] at hmin
  have hdir : if d then r.nextPrice ≤ x.pool.sqrtPrice else x.pool.sqrtPrice ≤ r.nextPrice := by
    cases d <;> simp only [Bool.false_eq_true, if_false, if_true] at hpr ⊢ <;> exact hpr.1
  obtain ⟨s1, s2, -⟩ := step_exact hv.step hah hx.min hmin
  have s5 := step_gross hv.step hah hf hdir hx.min hmin
  have sp := step_pay hv.step hah hf hdir hx.min hmin
  have sg := step_get hv.step hah hdir hx.min hmin
  have k1 : curveIn s k d p0 y.pool.sqrtPrice = curveIn s k d p0 x.pool.sqrtPrice + curveIn s k d x.pool.sqrtPrice y.pool.sqrtPrice := by
    unfold curveIn; ring
  have k2 : curveOut s k d p0 y.pool.sqrtPrice = curveOut s k d p0 x.pool.sqrtPrice + curveOut s k d x.pool.sqrtPrice y.pool.sqrtPrice := by
    unfold curveOut; ring
  have hu0 : (0 : ℚ) ≤ u.total := Nat.cast_nonneg _
  have hrest := hv.rest
  have hit := iter_rest hv
  have hl := fun hc => iter_usedLast ht hk hv hc
  simp only at hrest hit hl
  refine ⟨ha, ?_, ?_, ?_⟩
  · have := h.inLower
    rw [k1, c1, e1', add_mul]
    push_cast
    linarith
  · have := h.outUpper
    rw [k2, c2, e2']
    linarith
  · rw [k1, k2, c1, c2, e1', e2', hnp]
    have hA : (0 : ℚ) ≤ lastDigit d x.pool.liquidity r.nextPrice := lastDigit_nonneg _ _ _
    have hB : (0 : ℚ) ≤ lastDigit (!d) x.pool.liquidity r.nextPrice := lastDigit_nonneg _ _ _
    have hA' : (0 : ℚ) ≤ lastDigit d y.pool.liquidity r.nextPrice := lastDigit_nonneg _ _ _
    have hB' : (0 : ℚ) ≤ lastDigit (!d) y.pool.liquidity r.nextPrice := lastDigit_nonneg _ _ _
    rcases hit with ⟨hz, hrem, hcr⟩ | ⟨hne, hd, hb, hz, hrem, hcr, hen⟩
    · rw [hz, Nat.cast_zero]
      push_cast
      rcases sp with sp | ⟨sp, hL, hb, hsum⟩
      · rcases sg with sg | ⟨sg, hL, hb, hsum⟩
        · exact ⟨0, 0, fun _ => ⟨rfl, rfl⟩, ⟨_, .inl rfl, hA', hB'⟩, by linarith, by linarith⟩
        · subst hb
          simp only [Bool.false_eq_true, if_false] at hrest
          have hr0 : rem = 0 := by omega
          exact ⟨lastDigit d x.pool.liquidity r.nextPrice, lastDigit (!d) x.pool.liquidity r.nextPrice,
            fun hne => absurd (hrem hr0) hne, ⟨_, hl (fun hd => hcr hr0 hd hL), le_refl _, le_refl _⟩, by linarith, by linarith⟩
      · subst hb
        simp only [if_true] at hrest
        have hr0 : rem = 0 := by omega
        refine ⟨lastDigit d x.pool.liquidity r.nextPrice, lastDigit (!d) x.pool.liquidity r.nextPrice,
            fun hne => absurd (hrem hr0) hne, ⟨_, hl (fun hd => hcr hr0 hd hL), le_refl _, le_refl _⟩, by linarith, ?_⟩
        rcases sg with sg | ⟨-, -, sg, -⟩
        · linarith
        · simp at sg
    · subst hd
      subst hb
      have hst := stall_pay hen hf hmin
      refine ⟨lastDigit true x.pool.liquidity r.nextPrice, lastDigit (!true) x.pool.liquidity r.nextPrice,
        fun hne => absurd hrem hne, ⟨_, hl (fun _ => hcr), le_refl _, le_refl _⟩, ?_, ?_⟩
      · rw [hz]
        rcases sp with sp | ⟨-, -, -, sp⟩
        · push_cast
          linarith
        · simp only [if_true] at hrest
          omega
      · push_cast
        rcases sg with sg | ⟨-, -, sg, -⟩
        · linarith
        · simp at sg

/-- The totals of a swap against the curve. -/
theorem swap_curve {s : Store} {now : Nat} {k : PoolKey} {d : Bool} {amount : Nat} {b : Bool} {limit : Nat}
    {res : CalcSwapResult} {pool : Pool} (hs : Struct s) (hb : BitInv s) (ht : TickSum s) (hk : k.wf)
    (hp : s.pools.get? k.key = some pool) (hok : PoolOk k.tier.spacing pool)
    (ha : pool.liquidity = liquidityInRange s k pool.tick)
    (h : calculateSwap s now k d amount b limit = .ok res) (hreg : RegularPool s k d b limit res.pool) :
    ∃ st, CurveInv s k d pool.sqrtPrice (swapSteps s now k d amount b limit) st ∧ st.pool = res.pool ∧
      st.totalIn = res.amountIn ∧ st.totalOut = res.amountOut := by
  obtain ⟨st, h1, -, rfl⟩ := swap_count hs hb hk hp hok h
    (fun n x => CurveInv s k d pool.sqrtPrice n x ∨ (x.remaining = 0 ∧ ¬ RegularPool s k d b limit x.pool))
    (fun n x y i ini r cfg p1 rem u hv hx hr hy hP => by
      rcases hP with hP | hP
      · exact iter_curveInv hs ht hk (hs.tier hk hp).2.2.le hv hx hr hy hP
      · exact absurd hP.1 hr)
    (.inl ⟨ha, by simp [curveIn], by simp [curveOut],
      ⟨0, 0, fun _ => ⟨rfl, rfl⟩, ⟨_, .inl rfl, lastDigit_nonneg _ _ _, lastDigit_nonneg _ _ _⟩, by simp [curveIn], by simp [curveOut]⟩⟩)
  rcases h1 with h1 | h1
  · exact ⟨st, h1, rfl, rfl, rfl⟩
  · exact absurd hreg h1.2

end OraiV3
