import Verif.Props.Bounds
import Verif.Lemmas.Grow

/-!
# C103: Cost and value of a position grow with its liquidity and its range
-/

namespace OraiV3

/-! ## The ranges of openings and closings -/

private theorem opening_ticks {c : Chain} {k : PoolKey} {l u : Int} {P L x y : Nat} (h : Opening c k l u P L x y) :
    TickOk k.tier.spacing l ∧ TickOk k.tier.spacing u := by
  obtain ⟨w, w', env, info, msg, lo, hi, p, a1, a2, a3, a4, rfl, a6, a7, a8, a9, a10, a11⟩ := h
  obtain ⟨out, x1, -⟩ := tx_inv a7
  have y1 : (Msg.createPosition k l u L lo hi).wf ∧
      createPosition c w.store env info k l u L lo hi = .ok (w'.store, out) := by
    rcases a6 with rfl | rfl
    · exact execute_ok.1 x1
    · exact execute_ok.1 x1
  obtain ⟨_, _, _, _, _, _, _, ok1, ok2, -⟩ := createPosition_charge a1.mreach.struct a1.mreach.price y1.1 y1.2
  exact ⟨ok1, ok2⟩

private theorem closing_ticks {c : Chain} {k : PoolKey} {l u : Int} {P L x y : Nat} (h : Closing c k l u P L x y) :
    TickOk k.tier.spacing l ∧ TickOk k.tier.spacing u := by
  obtain ⟨w, _, _, who, i, p, q, a1, a2, a3, a4, a5, rfl, a7, a8, a9⟩ := h
  simp only [Position.what, Prod.mk.injEq] at a4
  obtain ⟨rfl, rfl, rfl, rfl⟩ := a4
  have hok := a1.mreach.struct.positions _ _ a3
  exact ⟨hok.lower, hok.upper⟩

/-- A range that contains another contains, at the same price and with no less liquidity, no less of either token. -/
private theorem exactPosition_grow {L L' a b a' b' P : Nat} (h0 : 0 < a') (h1 : a' ≤ a) (h2 : a ≤ b) (h3 : b ≤ b') (hL : L ≤ L') :
    exactPositionX L a b P ≤ exactPositionX L' a' b' P ∧ exactPositionY L a b P ≤ exactPositionY L' a' b' P := by
  have hl : liqVal L ≤ liqVal L' := by
    unfold liqVal
    have : (L : ℚ) ≤ L' := by exact_mod_cast hL
    linarith
  have sx : ∀ p q, exactX L p q ≤ exactX L' p q := fun p q => mul_le_mul_of_nonneg_right hl (abs_nonneg _)
  have sy : ∀ p q, exactY L p q ≤ exactY L' p q := fun p q => mul_le_mul_of_nonneg_right hl (abs_nonneg _)
  unfold exactPositionX exactPositionY
  have e1 : clampPrice a' b' P ≤ clampPrice a b P ∨ b ≤ clampPrice a' b' P := by unfold clampPrice; omega
  have e2 : a' ≤ clampPrice a' b' P := by unfold clampPrice; omega
  have e3 : clampPrice a' b' P ≤ b' := by unfold clampPrice; omega
  have e4 : a ≤ clampPrice a b P := by unfold clampPrice; omega
  have e5 : clampPrice a b P ≤ b := by unfold clampPrice; omega
  have e6 : clampPrice a b P ≤ clampPrice a' b' P ∨ clampPrice a b P = a := by unfold clampPrice; omega
  have zx : ∀ p, exactX L p p = 0 := fun p => by simp [exactX]
  have zy : ∀ p, exactY L p p = 0 := fun p => by simp [exactY]
  constructor
  · rcases e1 with g | g
    · have j1 := exactX_add (L := L') (a := clampPrice a' b' P) (b := clampPrice a b P) (c := b') (by omega) g (by omega)
      have j2 := exactX_add (L := L') (a := clampPrice a b P) (b := b) (c := b') (by omega) e5 h3
      have := exactX_nonneg L' (clampPrice a' b' P) (clampPrice a b P)
      have := exactX_nonneg L' b b'
      have := sx (clampPrice a b P) b
      linarith
    · have : clampPrice a b P = b := by unfold clampPrice at g ⊢; omega
      rw [this, zx]
      exact exactX_nonneg _ _ _
  · rcases e6 with g | g
    · have j1 := exactY_add (L := L') (a := a') (b := a) (c := clampPrice a' b' P) h1 (by omega)
      have j2 := exactY_add (L := L') (a := a) (b := clampPrice a b P) (c := clampPrice a' b' P) e4 g
      have := exactY_nonneg L' a' a
      have := exactY_nonneg L' (clampPrice a b P) (clampPrice a' b' P)
      have := sy a (clampPrice a b P)
      linarith
    · rw [g, zy]
      exact exactY_nonneg _ _ _

/-- The contents of a range are proportional to its liquidity. -/
private theorem exactPosition_share (L L' a b P : Nat) :
    exactPositionX L a b P * L' = exactPositionX L' a b P * L ∧ exactPositionY L a b P * L' = exactPositionY L' a b P * L := by
  unfold exactPositionX exactPositionY exactX exactY liqVal
  constructor <;> ring

/-! ## Cost -/

/-- **C103, cost.**  Of two openings at the same price, in any states and by anybody, the one with a range that contains the other's
and no less liquidity takes no less Y and, up to a unit and one part in 10^14, no less X. -/
theorem C103_cost {c : Chain} {k : PoolKey} {l u l' u' : Int} {P L L' x y x' y' : Nat}
    (h : Opening c k l u P L x y) (h' : Opening c k l' u' P L' x' y') (hl : l' ≤ l) (hu : u ≤ u') (hL : L ≤ L') :
    y ≤ y' ∧ (x : ℚ) * (1 - 1 / 10 ^ 14) < x' + 1 + 1 / 10 ^ 14 := by
  obtain ⟨⟨p0, p1⟩, a1, a2, a3, a4⟩ := opening_exact h
  obtain ⟨⟨q0, q1⟩, b1, b2, b3, b4⟩ := opening_exact h'
  obtain ⟨t1, t2⟩ := opening_ticks h
  obtain ⟨t3, t4⟩ := opening_ticks h'
  obtain ⟨c1, c2⟩ := exactPosition_grow (P := P) q0 (t3.price_le t1 hl) p1 (t2.price_le t4 hu) hL
  refine ⟨?_, by linarith⟩
  have : (y : ℚ) < ((y' + 1 : Nat) : ℚ) := by push_cast; linarith
  have := Nat.cast_lt.1 this
  omega

/-- **C103, cost of the same range.**  With the same range, more liquidity takes no less of either token. -/
theorem C103_more {c : Chain} {k : PoolKey} {l u : Int} {P L L' x y x' y' : Nat}
    (h : Opening c k l u P L x y) (h' : Opening c k l u P L' x' y') (hL : L ≤ L') : x ≤ x' ∧ y ≤ y' := by
  refine ⟨?_, (C103_cost h h' le_rfl le_rfl hL).1⟩
  obtain ⟨_, _, _, _, _, _, _, _, a1, a2, a3, a4, a5, a6, a7, a8, a9, a10, a11⟩ := h
  obtain ⟨_, _, _, _, _, _, _, _, b1, b2, b3, b4, b5, b6, b7, b8, b9, b10, b11⟩ := h'
  have ha := (opening_view a6 a1 a2 a3 a4 a7 a8 a9 a10 a11).1
  have hb := (opening_view b6 b1 b2 b3 b4 b7 b8 b9 b10 b11).1
  rw [a5] at ha
  rw [b5] at hb
  exact deltaX_more ha hb hL

/-- **C103, everybody pays the same for a unit of liquidity.**  Of two openings of the same range at the same price each takes, for its
liquidity, at most what the other takes for its own, and one unit more (X up to one part in 10^14). -/
theorem C103_rate {c : Chain} {k : PoolKey} {l u : Int} {P L L' x y x' y' : Nat}
    (h : Opening c k l u P L x y) (h' : Opening c k l u P L' x' y') (hL : 0 < L') :
    y * L' < y' * L + L' ∧ (x : ℚ) * (1 - 1 / 10 ^ 14) * L' ≤ (x' + 1 / 10 ^ 14) * L + L' := by
  obtain ⟨⟨p0, p1⟩, a1, a2, a3, a4⟩ := opening_exact h
  obtain ⟨-, b1, b2, b3, b4⟩ := opening_exact h'
  obtain ⟨s1, s2⟩ := exactPosition_share L L' (sqrtPriceAt l) (sqrtPriceAt u) P
  have g : (0 : ℚ) < L' := by exact_mod_cast hL
  have g' : (0 : ℚ) ≤ L := Nat.cast_nonneg L
  constructor
  · have m1 := mul_lt_mul_of_pos_right a4 g
    have m2 := mul_le_mul_of_nonneg_right b3 g'
    have : ((y * L' : Nat) : ℚ) < ((y' * L + L' : Nat) : ℚ) := by push_cast; linarith
    exact Nat.cast_lt.1 this
  · have m1 := mul_le_mul_of_nonneg_right a2 g.le
    have m2 := mul_le_mul_of_nonneg_right b1.le g'
    linarith

/-! ## Value -/

/-- **C103, value.**  Of two positions closed at the same price the one with a range that contains the other's and no less liquidity
pays, besides the fees, no less Y and, up to a unit and one part in 10^14, no less X. -/
theorem C103_value {c : Chain} {k : PoolKey} {l u l' u' : Int} {P L L' x y x' y' : Nat}
    (h : Closing c k l u P L x y) (h' : Closing c k l' u' P L' x' y') (hl : l' ≤ l) (hu : u ≤ u') (hL : L ≤ L') :
    y ≤ y' ∧ (x : ℚ) < (x' + 1) * (1 + 1 / 10 ^ 14) + 1 / 10 ^ 14 := by
  obtain ⟨⟨p0, p1⟩, a1, a2, a3, a4⟩ := closing_exact h
  obtain ⟨⟨q0, q1⟩, b1, b2, b3, b4⟩ := closing_exact h'
  obtain ⟨t1, t2⟩ := closing_ticks h
  obtain ⟨t3, t4⟩ := closing_ticks h'
  obtain ⟨c1, c2⟩ := exactPosition_grow (P := P) q0 (t3.price_le t1 hl) p1 (t2.price_le t4 hu) hL
  refine ⟨?_, by linarith⟩
  have : (y : ℚ) < ((y' + 1 : Nat) : ℚ) := by push_cast; linarith
  have := Nat.cast_lt.1 this
  omega

/-- **C103, value of the same range.**  With the same range, more liquidity pays no less of either token. -/
theorem C103_value_more {c : Chain} {k : PoolKey} {l u : Int} {P L L' x y x' y' : Nat}
    (h : Closing c k l u P L x y) (h' : Closing c k l u P L' x' y') (hL : L ≤ L') : x ≤ x' ∧ y ≤ y' := by
  refine ⟨?_, (C103_value h h' le_rfl le_rfl hL).1⟩
  obtain ⟨_, _, _, _, _, _, q, a1, a2, a3, a4, a5, a6, a7, a8, a9⟩ := h
  obtain ⟨_, _, _, _, _, _, q', b1, b2, b3, b4, b5, b6, b7, b8, b9⟩ := h'
  simp only [Position.what, Prod.mk.injEq] at a4 b4
  obtain ⟨rfl, rfl, rfl, rfl⟩ := a4
  obtain ⟨e1, e2, e3, rfl⟩ := b4
  rw [← e1] at b5 b8 b9
  obtain ⟨x0, y0, g1, g2, g3, g4⟩ := closing_view a1 a2 a3 a5 a7
  obtain ⟨x1, y1, k1, k2, k3, k4⟩ := closing_view b1 b2 b3 b5 b7
  have ex : x0 = x := by omega
  have ex' : x1 = x' := by omega
  subst ex ex'
  rw [a6] at g1
  rw [b6, e2, e3] at k1
  exact deltaX_more g1 k1 hL

/-- **C103, everybody gets the same for a unit of liquidity.**  Of two positions of the same range closed at the same price each gets,
besides the fees and for its liquidity, less than what the other gets for its own with one unit added (X up to one part in 10^14). -/
theorem C103_value_rate {c : Chain} {k : PoolKey} {l u : Int} {P L L' x y x' y' : Nat}
    (h : Closing c k l u P L x y) (h' : Closing c k l u P L' x' y') (hL : 0 < L) :
    y * L' < (y' + 1) * L ∧ (x : ℚ) * L' < ((x' + 1) * (1 + 1 / 10 ^ 14) + 1 / 10 ^ 14) * L := by
  obtain ⟨⟨p0, p1⟩, a1, a2, a3, a4⟩ := closing_exact h
  obtain ⟨-, b1, b2, b3, b4⟩ := closing_exact h'
  obtain ⟨s1, s2⟩ := exactPosition_share L L' (sqrtPriceAt l) (sqrtPriceAt u) P
  have g : (0 : ℚ) < L := by exact_mod_cast hL
  have g' : (0 : ℚ) ≤ L' := Nat.cast_nonneg L'
  constructor
  · have m1 := mul_le_mul_of_nonneg_right a3 g'
    have m2 := mul_lt_mul_of_pos_right b4 g
    have : ((y * L' : Nat) : ℚ) < (((y' + 1) * L : Nat) : ℚ) := by push_cast; linarith
    exact Nat.cast_lt.1 this
  · have m1 := mul_le_mul_of_nonneg_right a1 g'
    have m2 := mul_lt_mul_of_pos_right b2 g
    linarith

/-! ## The hypotheses can be met -/

-- half the range costs half as much
example : Opening Demo.chain Demo.key 0 10 (10 ^ 24 + 4187) (10 ^ 15) 499851 1 ∧
    Opening Demo.chain Demo.key (-10) 10 (10 ^ 24 + 4187) (10 ^ 15) 499851 499851 :=
  ⟨halves_opening (by decide +kernel), halves_opening (by decide +kernel)⟩

-- a thousandth of the liquidity costs a thousandth, rounded up
example : Opening Demo.chain Demo.key (-10) 10 (10 ^ 24 + 4187) (10 ^ 12) 500 500 ∧
    Opening Demo.chain Demo.key (-10) 10 (10 ^ 24 + 4187) (10 ^ 15) 499851 499851 :=
  ⟨offGrid_opening (by decide +kernel), offGrid_opening (by decide +kernel)⟩

example : Closing Demo.chain Demo.key 0 10 (10 ^ 24 + 4187) (10 ^ 15) 499850 0 ∧
    Closing Demo.chain Demo.key (-10) 10 (10 ^ 24 + 4187) (10 ^ 15) 499850 499850 :=
  ⟨halves_closing (i := 1) (by decide +kernel), halves_closing (i := 2) (by decide +kernel)⟩

example : Closing Demo.chain Demo.key (-10) 10 (10 ^ 24 + 4187) (10 ^ 12) 499 499 ∧
    Closing Demo.chain Demo.key (-10) 10 (10 ^ 24 + 4187) (10 ^ 12 + (10 ^ 12 + 1)) 999 999 :=
  ⟨offGrid_closing (i := 0) (by decide +kernel), offGrid_closing (i := 2) (by decide +kernel)⟩

end OraiV3
