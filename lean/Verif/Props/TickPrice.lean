import Verif.Lemmas.TickOfPrice

/-!
# C22: conversion between ticks and prices
-/

namespace OraiV3

/-- A price is defined exactly for the ticks from `-221818` to `221818`. -/
theorem C22_domain (t : Int) : (∃ p, calculateSqrtPrice t = .ok p) ↔ -221818 ≤ t ∧ t ≤ 221818 := by
  have hM : MAX_TICK = 221818 := rfl
  constructor
  · rintro ⟨p, h⟩
    unfold calculateSqrtPrice at h
    rw [ite_error_ok] at h
    omega
  · intro h
    exact ⟨_, calculateSqrtPrice_eq (by omega) (by omega)⟩

theorem calculateSqrtPrice_inv {t : Int} {p : Nat} (h : calculateSqrtPrice t = .ok p) :
    -MAX_TICK ≤ t ∧ t ≤ MAX_TICK ∧ p = sqrtPriceAt t := by
  unfold calculateSqrtPrice at h
  rw [ite_error_ok, ok_inj] at h
  exact ⟨by omega, by omega, h.2.symm⟩

/-- The price is strictly increasing in the tick. -/
theorem C22_price_increasing {t u : Int} {p q : Nat} (hp : calculateSqrtPrice t = .ok p)
    (hq : calculateSqrtPrice u = .ok q) : t < u ↔ p < q := by
  obtain ⟨a, b, rfl⟩ := calculateSqrtPrice_inv hp
  obtain ⟨c, d, rfl⟩ := calculateSqrtPrice_inv hq
  exact (sqrtPriceAt_lt_iff a b c d).symm

/-- All prices lie between the minimum and the maximum, which are the prices of the extreme ticks. -/
theorem C22_price_range {t : Int} {p : Nat} (hp : calculateSqrtPrice t = .ok p) :
    MIN_SQRT_PRICE ≤ p ∧ p ≤ MAX_SQRT_PRICE ∧ (p = MIN_SQRT_PRICE ↔ t = -221818) ∧
      (p = MAX_SQRT_PRICE ↔ t = 221818) := by
  obtain ⟨a, b, rfl⟩ := calculateSqrtPrice_inv hp
  have hM : MAX_TICK = 221818 := rfl
  have hr := sqrtPriceAt_range a b
  have e1 := sqrtPriceAt_lt_iff (t := -MAX_TICK) (u := t) (by omega) (by omega) a b
  have e2 := sqrtPriceAt_lt_iff (t := t) (u := MAX_TICK) a b (by omega) (by omega)
  rw [sqrtPriceAt_min] at e1
  rw [sqrtPriceAt_max] at e2
  refine ⟨hr.1, hr.2, ?_, ?_⟩ <;> omega

/-- For every price in the supported range and every spacing the reported tick exists; it is a multiple
of the spacing, and among the multiples of the spacing it separates those whose price is at most the
given one from those whose price is greater. -/
theorem C22_tick_of_price {p ts : Nat} (h1 : MIN_SQRT_PRICE ≤ p) (h2 : p ≤ MAX_SQRT_PRICE) (hts : 0 < ts) :
    ∃ r : Int, getTickAtSqrtPrice p ts = .ok r ∧ (ts : Int) ∣ r ∧
      ∀ t q, (ts : Int) ∣ t → calculateSqrtPrice t = .ok q → (q ≤ p ↔ t ≤ r) := by
  obtain ⟨t0, a, b, c, d⟩ := exists_tick h1
  have hg := getTick_eq h1 h2 hts ⟨a, b, c, d⟩
  refine ⟨_, hg, (getTick_bounds hg).1, fun t q hd hq => ?_⟩
  obtain ⟨e, f, rfl⟩ := calculateSqrtPrice_inv hq
  obtain ⟨-, h4, h5, h6, h7⟩ := getTick_bounds hg
  generalize hr : t0 - t0 % (ts : Int) = r at *
  have hdr : (ts : Int) ∣ r := by rw [← hr]; exact Int.dvd_self_sub_emod
  constructor
  · intro h
    by_contra hc
    have h8 : r + ts ≤ t := by
      obtain ⟨x, hx⟩ := hd
      obtain ⟨y, hy⟩ := hdr
      have hxy : y < x := by
        by_contra hxy
        have : (ts : Int) * x ≤ ts * y := Int.mul_le_mul_of_nonneg_left (by omega) (by omega)
        omega
      have : (ts : Int) * (y + 1) ≤ ts * x := Int.mul_le_mul_of_nonneg_left (by omega) (by omega)
      rw [Int.mul_add, Int.mul_one] at this
      omega
    have h9 := h6 (by omega)
    have := sqrtPriceAt_le (t := r + ts) (u := t) (by omega) f h8
    omega
  · intro h
    exact Nat.le_trans (sqrtPriceAt_le e h4 h) (h5 (by omega))

/-- Outside the range no tick is reported. -/
theorem C22_out_of_range {p ts : Nat} (h : p < MIN_SQRT_PRICE ∨ MAX_SQRT_PRICE < p) :
    getTickAtSqrtPrice p ts = .error .sqrtPriceOutOfRange := by
  unfold getTickAtSqrtPrice
  rw [if_pos (by omega)]

/-- The conversions are inverse to each other. -/
theorem C22_roundtrip {t : Int} {p ts : Nat} (hp : calculateSqrtPrice t = .ok p) (hts : 0 < ts)
    (hd : (ts : Int) ∣ t) : getTickAtSqrtPrice p ts = .ok t := by
  obtain ⟨a, b, rfl⟩ := calculateSqrtPrice_inv hp
  have hr := sqrtPriceAt_range a b
  have : IsTick (sqrtPriceAt t) t := ⟨a, b, Nat.le_refl _, fun h => sqrtPriceAt_lt a (by omega) (by omega)⟩
  rw [getTick_eq hr.1 hr.2 hts this, Int.emod_eq_zero_of_dvd hd, Int.sub_zero]

example : calculateSqrtPrice (-20) = .ok 999000549780000000000000 ∧
    getTickAtSqrtPrice 999000549780000000000000 10 = .ok (-20) ∧
    getTickAtSqrtPrice 999000549779999999999999 10 = .ok (-30) ∧
    getTickAtSqrtPrice 65535383934512646999999999999 1 = .ok 221817 := by decide +kernel

end OraiV3
