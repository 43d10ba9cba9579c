import Verif.Lemmas.LogApprox

/-!
# The tick of a price
-/

namespace OraiV3

theorem spRaw_pos {n : Nat} (h : n < 2 ^ 18) : FIX ≤ spRaw n := by
  have h1 := spRaw_mono (Nat.zero_le n) h
  rw [spRaw_zero] at h1
  exact h1

theorem spRaw_gt0 {n : Nat} (h : n < 2 ^ 18) : 0 < spRaw n :=
  Nat.lt_of_lt_of_le (by norm_num) (spRaw_pos h)

theorem lg_scaled {n : Nat} (h : n < 2 ^ 18) : lg ((spRaw n * 10 ^ 12 : Nat) : ℝ) = lg (spRaw n) + lg FIX := by
  have h1 : (0 : ℝ) < spRaw n := by exact_mod_cast spRaw_gt0 h
  rw [Nat.cast_mul, lg_mul h1 (by norm_num)]

theorem lg_price_one : lg ((SPR : Nat) : ℝ) = 2 * lg FIX := by
  have : ((SPR : Nat) : ℝ) = (FIX : Nat) * (FIX : Nat) := by norm_num
  rw [this, lg_mul (by norm_num) (by norm_num)]; ring

/-- A price above 1: the estimate is the tick or the one below it. -/
theorem near_pos {p n : Nat} (h1 : SPR ≤ p) (h2 : p ≤ MAX_SQRT_PRICE) (hn : n ≤ 221818)
    (h3 : spRaw n * 10 ^ 12 ≤ p) (h4 : p < spRaw (n + 1) * 10 ^ 12) :
    2 ^ 32 ≤ sqrtPriceToX32 p ∧
    log2Mag (sqrtPriceToX32 p) / 309801 ≤ n ∧ n ≤ log2Mag (sqrtPriceToX32 p) / 309801 + 1 := by
  have hX : sqrtPriceToX32 p = p * 2 ^ 32 / SPR := by
    unfold sqrtPriceToX32
    apply Nat.mod_eq_of_lt
    rw [Nat.div_lt_iff_lt_mul (by norm_num)]
    have : p * 2 ^ 32 ≤ MAX_SQRT_PRICE * 2 ^ 32 := Nat.mul_le_mul_right _ h2
    exact Nat.lt_of_le_of_lt this (by decide)
  rw [hX]
  have x1 : 2 ^ 32 ≤ p * 2 ^ 32 / SPR := by
    rw [Nat.le_div_iff_mul_le (by norm_num), Nat.mul_comm]
    exact Nat.mul_le_mul_right _ h1
  have x2 : p * 2 ^ 32 / SPR < 2 ^ 64 := by
    rw [Nat.div_lt_iff_lt_mul (by norm_num)]
    have : p * 2 ^ 32 ≤ MAX_SQRT_PRICE * 2 ^ 32 := Nat.mul_le_mul_right _ h2
    exact Nat.lt_of_le_of_lt this (by decide)
  refine ⟨x1, ?_⟩
  have hfl := floor_real (a := p * 2 ^ 32) (b := SPR) (B := (SPR : Nat)) (by norm_num) rfl
  have hm := log2Mag_spec x1 x2
  generalize p * 2 ^ 32 / SPR = X at *
  have hp0 : (0 : ℝ) < p := by exact_mod_cast (lt_of_lt_of_le (by norm_num) h1 : 0 < p)
  have hX0 : (0 : ℝ) < X := by exact_mod_cast (by omega : 0 < X)
  have hS0 : (0 : ℝ) < (SPR : Nat) := by norm_num
  have e : ((p * 2 ^ 32 : Nat) : ℝ) = p * 2 ^ 32 := by push_cast; ring
  rw [e] at hfl
  have a1 := lg_le (by positivity) hfl.1
  have a2 := lg_floor (z := p * 2 ^ 32 / (SPR : Nat)) x1 (by rw [div_lt_iff₀ hS0]; exact hfl.2) (by positivity)
  rw [lg_mul hX0 hS0, lg_mul hp0 (by norm_num), lg_two32, lg_price_one] at a1
  rw [lg_div (by positivity) hS0, lg_mul hp0 (by norm_num), lg_two32, lg_price_one] at a2
  have b1 : lg ((spRaw n * 10 ^ 12 : Nat) : ℝ) ≤ lg p := by
    apply lg_le
    · exact_mod_cast Nat.mul_pos (spRaw_gt0 (n := n) (by omega)) (by norm_num)
    · exact_mod_cast h3
  have b2 : lg p < lg ((spRaw (n + 1) * 10 ^ 12 : Nat) : ℝ) := lg_lt hp0 (by exact_mod_cast h4)
  rw [lg_scaled (by omega)] at b1 b2
  have c1 := (lg_spRaw (t := n) (by omega)).1
  have c2 := (lg_spRaw (t := n + 1) (by omega)).2
  rw [Nat.cast_add, Nat.cast_one] at c2
  have hn' : (n : ℝ) ≤ 221818 := by exact_mod_cast hn
  generalize lg (FIX : Nat) = F at *
  generalize lg (X : ℝ) = LX at *
  generalize lg (p : ℝ) = Lp at *
  generalize log2Mag X = m at *
  have r1 : (m : ℝ) < 309801 * (n + 1) := by linarith
  have r2 : (309801 : ℝ) * n ≤ m + 309801 := by linarith
  have r1' : m < 309801 * (n + 1) := by exact_mod_cast r1
  have r2' : 309801 * n ≤ m + 309801 := by exact_mod_cast r2
  omega

theorem lg_small : lg (1 + 1 / 65536) ≤ 94560 := by
  unfold lg
  have h3 := Real.log_le_sub_one_of_pos (x := 1 + 1 / 65536) (by norm_num)
  have h4 := Real.log_two_gt_d9
  rw [div_mul_eq_mul_div, div_le_iff₀ log_two_pos]
  norm_num at h3 h4 ⊢
  linarith

theorem lg_small2 : lg (1 + 1 / 10 ^ 7) ≤ 1000 := by
  unfold lg
  have h3 := Real.log_le_sub_one_of_pos (x := 1 + 1 / 10 ^ 7) (by norm_num)
  have h4 := Real.log_two_gt_d9
  rw [div_mul_eq_mul_div, div_le_iff₀ log_two_pos]
  norm_num at h3 h4 ⊢
  linarith

/-- The logarithm of the price of a negative tick. -/
theorem lg_inv {n : Nat} (hn : n ≤ 221818) :
    0 < FIX * FIX / spRaw n * 10 ^ 12 ∧
    lg ((FIX * FIX / spRaw n * 10 ^ 12 : Nat) : ℝ) ≤ 3 * lg FIX - lg (spRaw n) ∧
    3 * lg FIX - lg (spRaw n) - 1000 ≤ lg ((FIX * FIX / spRaw n * 10 ^ 12 : Nat) : ℝ) := by
  have hr := spRaw_range hn
  have h0 : 0 < spRaw n := spRaw_gt0 (by omega)
  have hfl := floor_real (a := FIX * FIX) (b := spRaw n) (B := spRaw n) h0 rfl
  have hq : 10 ^ 7 ≤ FIX * FIX / spRaw n := by
    rw [Nat.le_div_iff_mul_le h0]
    have : 10 ^ 7 * spRaw n ≤ 10 ^ 7 * 65535383934512647 := Nat.mul_le_mul_left _ hr.2
    exact Nat.le_trans this (by norm_num)
  generalize FIX * FIX / spRaw n = q at *
  have hq' : (10 : ℝ) ^ 7 ≤ q := by exact_mod_cast hq
  have hq0 : (0 : ℝ) < q := lt_of_lt_of_le (by norm_num) hq'
  have hr0 : (0 : ℝ) < spRaw n := by exact_mod_cast h0
  have e : lg ((q * 10 ^ 12 : Nat) : ℝ) = lg q + lg FIX := by
    rw [Nat.cast_mul, lg_mul hq0 (by norm_num)]
  have eF : lg ((FIX * FIX : Nat) : ℝ) = 2 * lg FIX := by
    rw [Nat.cast_mul, lg_mul (by norm_num) (by norm_num)]; ring
  refine ⟨by omega, ?_, ?_⟩
  · have := lg_le (by positivity) hfl.1
    rw [lg_mul hq0 hr0, eF] at this
    rw [e]
    generalize lg (FIX : Nat) = F at *
    linarith
  · have h1 : ((FIX * FIX : Nat) : ℝ) ≤ q * (1 + 1 / 10 ^ 7) * spRaw n := by
      have : (1 : ℝ) ≤ q * (1 / 10 ^ 7) := by
        rw [mul_one_div, le_div_iff₀ (by norm_num)]; linarith
      have h2 : (q + 1) * (spRaw n : ℝ) ≤ q * (1 + 1 / 10 ^ 7) * spRaw n := by gcongr; linarith
      exact le_trans (le_of_lt hfl.2) h2
    have h2 := lg_le (by norm_num) h1
    rw [lg_mul (by positivity) hr0, lg_mul hq0 (by norm_num), eF] at h2
    have := lg_small2
    rw [e]
    generalize lg (FIX : Nat) = F at *
    linarith

theorem inv_bounds {X : Nat} (h : X < 2 ^ 32) (h0 : 1 ≤ X) : ∃ Y, 2 ^ 64 / (X + 1) = Y ∧ 2 ^ 32 ≤ Y ∧ Y < 2 ^ 64 ∧
    (Y : ℝ) * (X + 1) ≤ 2 ^ 64 ∧ (2 : ℝ) ^ 64 < (Y + 1) * (X + 1) := by
  have hgl := floor_real (a := 2 ^ 64) (b := X + 1) (B := X + 1) (by omega) (by push_cast; ring)
  have e64 : ((2 ^ 64 : Nat) : ℝ) = 2 ^ 64 := by norm_num
  rw [e64] at hgl
  refine ⟨_, rfl, ?_, Nat.div_lt_self (by norm_num) (by omega), hgl⟩
  rw [Nat.le_div_iff_mul_le (by omega)]
  omega

theorem near_neg_aux {p n X : Nat} (h2 : MIN_SQRT_PRICE ≤ p) (hn : 1 ≤ n) (hn2 : n ≤ 221818)
    (h3 : FIX * FIX / spRaw n * 10 ^ 12 ≤ p) (h4 : p < FIX * FIX / spRaw (n - 1) * 10 ^ 12)
    (x1 : X < 2 ^ 32) (x2 : 65536 ≤ X)
    (hfl : (X : ℝ) * (SPR : Nat) ≤ ((p * 2 ^ 32 : Nat) : ℝ) ∧
      ((p * 2 ^ 32 : Nat) : ℝ) < ((X : ℝ) + 1) * (SPR : Nat)) :
    (log2Mag (2 ^ 64 / (X + 1)) + 300000) / 309801 ≤ n ∧
    n ≤ (log2Mag (2 ^ 64 / (X + 1)) + 300000) / 309801 + 1 := by
  obtain ⟨Y, hY, y1, y2, hgl⟩ := inv_bounds x1 (by omega)
  rw [hY]
  have hm := log2Mag_spec y1 y2
  have hp0 : (0 : ℝ) < p := by exact_mod_cast (lt_of_lt_of_le (by norm_num) h2 : 0 < p)
  have hX0 : (0 : ℝ) < X := by exact_mod_cast (by omega : 0 < X)
  have hX5 : (65536 : ℝ) ≤ X := by exact_mod_cast x2
  have hY0 : (0 : ℝ) < Y := by exact_mod_cast (by omega : 0 < Y)
  have hS0 : (0 : ℝ) < (SPR : Nat) := by norm_num
  have e : ((p * 2 ^ 32 : Nat) : ℝ) = p * 2 ^ 32 := by push_cast; ring
  have l64 : lg (2 ^ 64) = 64 * 2 ^ 32 := by rw [lg_pow, lg_two]; norm_num
  rw [e] at hfl
  -- X + 1 against the price
  have u1 : (p : ℝ) * 2 ^ 32 ≤ (X + 1) * (SPR : Nat) := le_of_lt hfl.2
  have u2 : ((X : ℝ) + 1) * (SPR : Nat) ≤ p * 2 ^ 32 * (1 + 1 / 65536) := by
    have : (X : ℝ) + 1 ≤ X * (1 + 1 / 65536) := by linarith
    calc ((X : ℝ) + 1) * (SPR : Nat) ≤ X * (1 + 1 / 65536) * (SPR : Nat) := by gcongr
      _ = X * (SPR : Nat) * (1 + 1 / 65536) := by ring
      _ ≤ p * 2 ^ 32 * (1 + 1 / 65536) := mul_le_mul_of_nonneg_right hfl.1 (by norm_num)
  have hX1 : (0 : ℝ) < X + 1 := by linarith
  have a1 := lg_le (by positivity) u1
  have a2 := lg_le (by positivity) u2
  rw [lg_mul hX1 hS0, lg_mul hp0 (by norm_num), lg_two32, lg_price_one] at a1
  rw [lg_mul hX1 hS0, lg_mul (by positivity) (by norm_num), lg_mul hp0 (by norm_num), lg_two32, lg_price_one] at a2
  have a3 := lg_le (by positivity) hgl.1
  have a4 := lg_floor (z := 2 ^ 64 / (X + 1)) y1 (by rw [div_lt_iff₀ hX1]; exact hgl.2) (by positivity)
  rw [lg_mul hY0 hX1, l64] at a3
  rw [lg_div (by norm_num) hX1, l64] at a4
  have a5 := lg_small
  -- the price against the tick
  obtain ⟨q0, q1, q2⟩ := lg_inv hn2
  obtain ⟨q0', q1', q2'⟩ := lg_inv (n := n - 1) (by omega)
  have b1 : lg ((FIX * FIX / spRaw n * 10 ^ 12 : Nat) : ℝ) ≤ lg p :=
    lg_le (by exact_mod_cast q0) (by exact_mod_cast h3)
  have b2 : lg p < lg ((FIX * FIX / spRaw (n - 1) * 10 ^ 12 : Nat) : ℝ) := lg_lt hp0 (by exact_mod_cast h4)
  have c1 := (lg_spRaw (t := n - 1) (by omega)).1
  have c2 := (lg_spRaw (t := n) (by omega)).2
  have hn' : (n : ℝ) ≤ 221818 := by exact_mod_cast hn2
  have en : ((n - 1 : Nat) : ℝ) = n - 1 := by push_cast [hn]; ring
  rw [en] at c1
  generalize lg (FIX : Nat) = F at *
  generalize lg ((X : ℝ) + 1) = LX at *
  generalize lg (Y : ℝ) = LY at *
  generalize lg (p : ℝ) = Lp at *
  generalize log2Mag Y = m at *
  have r1 : (m : ℝ) + 300000 < 309801 * (n + 1) := by linarith
  have r2 : (309801 : ℝ) * n ≤ m + 300000 + 309801 := by linarith
  have r1' : m + 300000 < 309801 * (n + 1) := by exact_mod_cast r1
  have r2' : 309801 * n ≤ m + 300000 + 309801 := by exact_mod_cast r2
  omega

/-- A price below 1: the estimate is the tick or the one above it.  Here the tick is `-n`. -/
theorem near_neg {p n : Nat} (h1 : p < SPR) (h2 : MIN_SQRT_PRICE ≤ p) (hn : 1 ≤ n) (hn2 : n ≤ 221818)
    (h3 : FIX * FIX / spRaw n * 10 ^ 12 ≤ p) (h4 : p < FIX * FIX / spRaw (n - 1) * 10 ^ 12) :
    sqrtPriceToX32 p < 2 ^ 32 ∧
    (log2Mag (2 ^ 64 / (sqrtPriceToX32 p + 1)) + 300000) / 309801 ≤ n ∧
    n ≤ (log2Mag (2 ^ 64 / (sqrtPriceToX32 p + 1)) + 300000) / 309801 + 1 := by
  have x1 : p * 2 ^ 32 / SPR < 2 ^ 32 := by
    rw [Nat.div_lt_iff_lt_mul (by norm_num), Nat.mul_comm]
    exact Nat.mul_lt_mul_of_pos_left h1 (by norm_num)
  have hX : sqrtPriceToX32 p = p * 2 ^ 32 / SPR := by
    unfold sqrtPriceToX32
    apply Nat.mod_eq_of_lt
    exact Nat.lt_trans x1 (by decide)
  have x2 : 65536 ≤ p * 2 ^ 32 / SPR := by
    rw [Nat.le_div_iff_mul_le (by norm_num)]
    have : MIN_SQRT_PRICE * 2 ^ 32 ≤ p * 2 ^ 32 := Nat.mul_le_mul_right _ h2
    exact Nat.le_trans (by decide) this
  rw [hX]
  exact ⟨x1, near_neg_aux h2 hn hn2 h3 h4 x1 x2
    (floor_real (a := p * 2 ^ 32) (b := SPR) (B := (SPR : Nat)) (by norm_num) rfl)⟩

theorem alignTick_eq (t : Int) {ts : Nat} (_ : 0 < ts) : alignTick t ts = t - t % ts := by
  unfold alignTick
  split
  · rw [Int.tmod_eq_emod_of_nonneg (by omega)]
  · rfl

theorem align_align (t : Int) {ts : Nat} (_ : 0 < ts) : (t - t % ts) - (t - t % ts) % ts = t - t % (ts : Int) := by
  have : (t - t % ts) % (ts : Int) = 0 := by rw [Int.sub_emod, Int.emod_emod, Int.sub_self, Int.zero_emod]
  rw [this, Int.sub_zero]

/-- `t` is the tick of the price `p`: the greatest tick whose price is at most `p`. -/
structure IsTick (p : Nat) (t : Int) : Prop where
  lo : -MAX_TICK ≤ t
  hi : t ≤ MAX_TICK
  le : sqrtPriceAt t ≤ p
  lt : t < MAX_TICK → p < sqrtPriceAt (t + 1)

theorem calculateSqrtPrice_eq {t : Int} (h1 : -MAX_TICK ≤ t) (h2 : t ≤ MAX_TICK) :
    calculateSqrtPrice t = .ok (sqrtPriceAt t) := by
  unfold calculateSqrtPrice
  rw [if_neg (by omega)]

theorem max_estimate : log2Mag (sqrtPriceToX32 MAX_SQRT_PRICE) / 309801 = 221817 := by decide +kernel

theorem tick_pos {p ts : Nat} {t : Int} (h1 : SPR ≤ p) (h2 : p ≤ MAX_SQRT_PRICE) (hts : 0 < ts) (ht : IsTick p t) :
    getTickAtSqrtPrice p ts = .ok (t - t % ts) := by
  have hM : MAX_TICK = 221818 := rfl
  have h0 : 0 ≤ t := by
    have h3 : sqrtPriceAt 0 = SPR := by decide +kernel
    by_contra hc
    have h4 := ht.lt (by omega)
    have h5 := sqrtPriceAt_le (t := t + 1) (u := 0) (by have := ht.lo; omega) (by omega) (by omega)
    omega
  obtain ⟨n, rfl⟩ : ∃ n : Nat, t = n := ⟨t.toNat, by omega⟩
  have hn : n ≤ 221818 := by have := ht.hi; omega
  have h3 : spRaw n * 10 ^ 12 ≤ p := by
    have := ht.le
    unfold sqrtPriceAt at this
    rwa [if_pos h0] at this
  have h4 : p < spRaw (n + 1) * 10 ^ 12 := by
    by_cases hl : n < 221818
    · have := ht.lt (by omega)
      unfold sqrtPriceAt at this
      rwa [if_pos (by omega)] at this
    · have e : n = 221818 := by omega
      rw [e]
      exact Nat.lt_of_le_of_lt h2 (by decide +kernel)
  obtain ⟨x1, k1, k2⟩ := near_pos h1 h2 hn h3 h4
  have hk3 : log2Mag (sqrtPriceToX32 p) / 309801 < 221818 := by
    by_cases hl : n < 221818
    · omega
    · have e : n = 221818 := by omega
      have : p = MAX_SQRT_PRICE := by
        have := ht.le
        rw [e] at this
        have h7 := sqrtPriceAt_max
        rw [hM] at h7
        have h8 : sqrtPriceAt ((221818 : Nat) : Int) = MAX_SQRT_PRICE := h7
        omega
      rw [this, max_estimate]
      omega
  unfold getTickAtSqrtPrice
  have hmin : ¬ p < MIN_SQRT_PRICE := by
    have : MIN_SQRT_PRICE ≤ SPR := by decide
    omega
  rw [if_neg (by omega), if_neg (by omega)]
  simp only [log2Approx_eq, ge_iff_le, x1, decide_true, if_true, Nat.not_lt.2 x1, if_false]
  generalize log2Mag (sqrtPriceToX32 p) / 309801 = k at *
  rw [alignTick_eq _ hts, alignTick_eq _ hts, calculateSqrtPrice_eq (by omega) (by omega)]
  have hcase : n = k ∨ n = k + 1 := by omega
  have hcmp : sqrtPriceAt ((k : Int) + 1) ≤ p ↔ n = k + 1 := by
    constructor
    · intro h
      rcases hcase with rfl | h'
      · have := ht.lt (by omega)
        omega
      · exact h'
    · intro h
      have := ht.le
      rw [h] at this
      exact this
  split
  · rename_i he
    rcases hcase with h | h
    · rw [h]
    · rw [← he, h]; rfl
  · simp only [bind, Except.bind, pure, Except.pure, hcmp]
    rcases hcase with h | h
    · have : ¬ n = k + 1 := by omega
      rw [if_neg this, ← h]
      split
      · rw [alignTick_eq _ hts, align_align _ hts]
      · rfl
    · rw [if_pos h]
      have e : (n : Int) = k + 1 := by omega
      rw [← e]
      split
      · rw [alignTick_eq _ hts, align_align _ hts]
      · rfl

theorem tick_neg {p ts : Nat} {t : Int} (h1 : p < SPR) (h2 : MIN_SQRT_PRICE ≤ p) (hts : 0 < ts) (ht : IsTick p t) :
    getTickAtSqrtPrice p ts = .ok (t - t % ts) := by
  have hM : MAX_TICK = 221818 := rfl
  have h0 : t < 0 := by
    have h3 : sqrtPriceAt 0 = SPR := by decide +kernel
    by_contra hc
    have h4 := ht.le
    have h5 := sqrtPriceAt_le (t := 0) (u := t) (by omega) ht.hi (by omega)
    omega
  obtain ⟨n, rfl⟩ : ∃ n : Nat, t = -n := ⟨(-t).toNat, by omega⟩
  have hn : n ≤ 221818 := by have := ht.lo; omega
  have hn1 : 1 ≤ n := by omega
  have h3 : FIX * FIX / spRaw n * 10 ^ 12 ≤ p := by
    have := ht.le
    unfold sqrtPriceAt at this
    rw [if_neg (by omega), Int.natAbs_neg, Int.natAbs_natCast] at this
    exact this
  have h4 : p < FIX * FIX / spRaw (n - 1) * 10 ^ 12 := by
    have := ht.lt (by omega)
    have e : (-(n : Int) + 1) = -((n - 1 : Nat) : Int) := by omega
    rw [e] at this
    unfold sqrtPriceAt at this
    rw [Int.natAbs_neg, Int.natAbs_natCast] at this
    by_cases hz : n - 1 = 0
    · rw [hz] at this ⊢
      have e1 : spRaw 0 = FIX := spRaw_zero
      rw [if_pos (by omega), e1] at this
      rw [e1]
      exact this
    · rw [if_neg (by omega)] at this
      exact this
  obtain ⟨x1, k1, k2⟩ := near_neg h1 h2 hn1 hn h3 h4
  unfold getTickAtSqrtPrice
  have hmax : ¬ MAX_SQRT_PRICE < p := by
    have : SPR ≤ MAX_SQRT_PRICE := by decide
    omega
  rw [if_neg (by omega), if_neg (by omega)]
  simp only [log2Approx_eq, ge_iff_le, x1, Nat.not_le.2 x1, decide_false, Bool.false_eq_true, if_true, if_false]
  generalize (log2Mag (2 ^ 64 / (sqrtPriceToX32 p + 1)) + 300000) / 309801 = k at *
  rw [alignTick_eq _ hts, alignTick_eq _ hts, calculateSqrtPrice_eq (by omega) (by omega)]
  have hcase : n = k ∨ n = k + 1 := by omega
  have hcmp : sqrtPriceAt (-(k : Int)) ≤ p ↔ n = k := by
    constructor
    · intro h
      rcases hcase with h' | h'
      · exact h'
      · have := ht.lt (by omega)
        have e : (-(n : Int) + 1) = -(k : Int) := by omega
        rw [e] at this
        omega
    · intro h
      have := ht.le
      rw [h] at this
      exact this
  split
  · rename_i he
    rcases hcase with h | h
    · rw [h]
    · have e : (-(k : Int) - 1) = -(n : Int) := by omega
      rw [e] at he
      rw [he]
  · simp only [bind, Except.bind, pure, Except.pure, hcmp]
    rcases hcase with h | h
    · rw [if_pos h, ← h]
      split
      · rw [alignTick_eq _ hts, align_align _ hts]
      · rfl
    · have : ¬ n = k := by omega
      have e : (-(k : Int) - 1) = -(n : Int) := by omega
      rw [if_neg this, e]
      split
      · rw [alignTick_eq _ hts, align_align _ hts]
      · rfl

/-- The tick computed from a price, for every price in range and every spacing. -/
theorem getTick_eq {p ts : Nat} {t : Int} (h1 : MIN_SQRT_PRICE ≤ p) (h2 : p ≤ MAX_SQRT_PRICE) (hts : 0 < ts)
    (ht : IsTick p t) : getTickAtSqrtPrice p ts = .ok (t - t % ts) := by
  rcases Nat.lt_or_ge p SPR with h | h
  · exact tick_neg h h1 hts ht
  · exact tick_pos h h2 hts ht

theorem getTick_inv {p ts : Nat} {r : Int} (h : getTickAtSqrtPrice p ts = .ok r) :
    MIN_SQRT_PRICE ≤ p ∧ p ≤ MAX_SQRT_PRICE ∧ 0 < ts ∧ ∃ t, IsTick p t ∧ r = t - t % ts := by
  have h0 := h
  unfold getTickAtSqrtPrice at h0
  rw [ite_error_ok] at h0
  have h1 : MIN_SQRT_PRICE ≤ p ∧ p ≤ MAX_SQRT_PRICE := by omega
  have h2 : 0 < ts := by
    rcases Nat.eq_zero_or_pos ts with h3 | h3
    · rw [if_pos h3] at h0; exact absurd h0.2 (by simp)
    · exact h3
  obtain ⟨t, a, b, c, d⟩ := exists_tick h1.1
  refine ⟨h1.1, h1.2, h2, t, ⟨a, b, c, d⟩, ?_⟩
  rw [getTick_eq h1.1 h1.2 h2 ⟨a, b, c, d⟩, ok_inj] at h
  exact h.symm

/-- The computed tick bounds the price from below and is the last multiple of the spacing to do so. -/
theorem getTick_bounds {p ts : Nat} {r : Int} (h : getTickAtSqrtPrice p ts = .ok r) :
    (ts : Int) ∣ r ∧ r ≤ MAX_TICK ∧ (-MAX_TICK ≤ r → sqrtPriceAt r ≤ p) ∧
    (r + ts ≤ MAX_TICK → p < sqrtPriceAt (r + ts)) ∧ -MAX_TICK < r + ts := by
  obtain ⟨h1, h2, hts, t, ht, rfl⟩ := getTick_inv h
  have m1 := Int.emod_nonneg t (b := ts) (by omega)
  have m2 := Int.emod_lt_of_pos t (b := ts) (by omega)
  have := ht.lo
  have := ht.hi
  refine ⟨Int.dvd_self_sub_emod, by omega, fun hl => ?_, fun hu => ?_, by omega⟩
  · exact Nat.le_trans (sqrtPriceAt_le hl ht.hi (by omega)) ht.le
  · exact Nat.lt_of_lt_of_le (ht.lt (by omega)) (sqrtPriceAt_le (by omega) hu (by omega))

end OraiV3
