import Verif.Lemmas.Literal
import Verif.Lemmas.LogApprox
import Verif.Lemmas.Struct
import Verif.Lemmas.TickPrice
import Mathlib.Data.Nat.Bitwise

/-!
# The literal tick prices and logarithm agree with the model's
-/

namespace OraiV3

/-! ## Prices of ticks -/

theorem bit_iff (t k : Nat) : t &&& 2 ^ k ≠ 0 ↔ t / 2 ^ k % 2 = 1 := by
  rw [Nat.and_two_pow, Nat.testBit_eq_decide_div_mod_eq]
  by_cases h : t / 2 ^ k % 2 = 1
  · simp [h]
  · simp [h]

theorem mulFix {a c : Nat} (hc : c < U128) (h : a * c < U128) : Dec.mul FIXED_POINT FIXED_POINT a c = .ok (a * c / FIX) := by
  have o : Dec.one FIXED_POINT U128 = .ok FIX := Dec.one_eq (by decide)
  unfold Dec.mul
  rw [show FIXED_POINT.under = U128 from rfl, uCast_of hc, orPanic_ok, uMul_of h, orPanic_ok, o, ok_bind, uDiv_of (by decide)]
  rfl

theorem factor_step {tick k bit c acc B B' : Nat} (hb : bit = 2 ^ k) (h : FIX ≤ acc ∧ acc ≤ B) (hc : FIX ≤ c) (hB : B * c < U128)
    (hB' : B * c / FIX ≤ B') :
    Lit.factor tick bit c acc = .ok (spFactor tick bit c acc) ∧
      FIX ≤ spFactor tick bit c acc ∧ spFactor tick bit c acc ≤ B' := by
  subst hb
  obtain ⟨h1, h2⟩ := h
  have hF : 0 < FIX := by decide
  have m : acc * c ≤ B * c := Nat.mul_le_mul_right _ h2
  have lo : acc ≤ acc * c / FIX := by
    rw [Nat.le_div_iff_mul_le hF]; exact Nat.mul_le_mul_left _ hc
  have hi : acc * c / FIX ≤ B' := (Nat.div_le_div_right m).trans hB'
  unfold Lit.factor spFactor
  by_cases hbit : tick / 2 ^ k % 2 = 1
  · rw [if_pos ((bit_iff _ _).2 hbit), if_pos hbit]
    refine ⟨mulFix ?_ (m.trans_lt hB), h1.trans lo, hi⟩
    refine lt_of_le_of_lt ?_ (m.trans_lt hB)
    exact Nat.le_mul_of_pos_left _ (hF.trans_le h1)
  · rw [if_neg (fun x => hbit ((bit_iff _ _).1 x)), if_neg hbit]
    exact ⟨rfl, h1, lo.trans hi⟩

theorem oneFix : Dec.fromInteger FIXED_POINT 1 = .ok FIX := by decide +kernel

theorem fixToSqrt {a : Nat} (h : a * 10 ^ 12 < U128) (e : Err) : Dec.checkedFromDecimal SQRT_PRICE FIXED_POINT e a = .ok (a * 10 ^ 12) := by
  have h0 : a < U128 := (Nat.le_mul_of_pos_right _ (by decide)).trans_lt h
  have e1 : uCast U128 (10 ^ (SQRT_PRICE.scale - FIXED_POINT.scale)) = some (10 ^ 12) := uCast_of (by decide)
  have e2 : uCast U128 (10 ^ 12) = some (10 ^ 12) := uCast_of (by decide)
  unfold Dec.checkedFromDecimal
  rw [if_pos (by decide), show SQRT_PRICE.under = U128 from rfl, uCast_of h0, orErr_ok, e1, orErr_ok, e2, orErr_ok, uMul_of h]
  rfl

theorem divFix {a b : Nat} (h : a * FIX < U128) (hb : 0 < b) (e : Err) : Dec.checkedDiv FIXED_POINT e a b = .ok (a * FIX / b) := by
  have o : Dec.one FIXED_POINT U128 = .ok FIX := Dec.one_eq (by decide)
  unfold Dec.checkedDiv
  rw [show FIXED_POINT.under = U128 from rfl, o, ok_bind, uMul_of h, orErr_ok, uDiv_of hb]
  rfl

theorem spRaw_lit {β : Type} (n : Nat) (g : Nat → M β) (G : M β)
    (hg : ∀ a, a = spRaw n → FIX ≤ a → a ≤ 492128274533526656 → g a = G) :
    (do let a ← Lit.factor n 0x1 1000049998750 FIX
        let a ← Lit.factor n 0x2 1000100000000 a
        let a ← Lit.factor n 0x4 1000200010000 a
        let a ← Lit.factor n 0x8 1000400060004 a
        let a ← Lit.factor n 0x10 1000800280056 a
        let a ← Lit.factor n 0x20 1001601200560 a
        let a ← Lit.factor n 0x40 1003204964963 a
        let a ← Lit.factor n 0x80 1006420201726 a
        let a ← Lit.factor n 0x100 1012881622442 a
        let a ← Lit.factor n 0x200 1025929181080 a
        let a ← Lit.factor n 0x400 1052530684591 a
        let a ← Lit.factor n 0x800 1107820842005 a
        let a ← Lit.factor n 0x1000 1227267017980 a
        let a ← Lit.factor n 0x2000 1506184333421 a
        let a ← Lit.factor n 0x4000 2268591246242 a
        let a ← Lit.factor n 0x8000 5146506242525 a
        let a ← Lit.factor n 0x10000 26486526504348 a
        let a ← Lit.factor n 0x20000 701536086265529 a
        g a) = G := by
  have h0 := factor_step (tick := n) (k := 0) (bit := 0x1) (c := 1000049998750) (B := 1000000000000) (B' := 1000049998750) (by decide)
    (⟨Nat.le_refl _, Nat.le_refl _⟩) (by decide) (by decide) (by decide)
  have h1 := factor_step (tick := n) (k := 1) (bit := 0x2) (c := 1000100000000) (B := 1000049998750) (B' := 1000150003749) (by decide)
    (h0.2) (by decide) (by decide) (by decide)
  have h2 := factor_step (tick := n) (k := 2) (bit := 0x4) (c := 1000200010000) (B := 1000150003749) (B' := 1000350043751) (by decide)
    (h1.2) (by decide) (by decide) (by decide)
  have h3 := factor_step (tick := n) (k := 3) (bit := 0x8) (c := 1000400060004) (B := 1000350043751) (B' := 1000750243793) (by decide)
    (h2.2) (by decide) (by decide) (by decide)
  have h4 := factor_step (tick := n) (k := 4) (bit := 0x10) (c := 1000800280056) (B := 1000750243793) (B' := 1001551124254) (by decide)
    (h3.2) (by decide) (by decide) (by decide)
  have h5 := factor_step (tick := n) (k := 5) (bit := 0x20) (c := 1001601200560) (B := 1001551124254) (B' := 1003154808475) (by decide)
    (h4.2) (by decide) (by decide) (by decide)
  have h6 := factor_step (tick := n) (k := 6) (bit := 0x40) (c := 1003204964963) (B := 1003154808475) (B' := 1006369884488) (by decide)
    (h5.2) (by decide) (by decide) (by decide)
  have h7 := factor_step (tick := n) (k := 7) (bit := 0x80) (c := 1006420201726) (B := 1006369884488) (B' := 1012830982157) (by decide)
    (h6.2) (by decide) (by decide) (by decide)
  have h8 := factor_step (tick := n) (k := 8) (bit := 0x100) (c := 1012881622442) (B := 1012830982157) (B' := 1025877888466) (by decide)
    (h7.2) (by decide) (by decide) (by decide)
  have h9 := factor_step (tick := n) (k := 9) (bit := 0x200) (c := 1025929181080) (B := 1025877888466) (B' := 1052478062002) (by decide)
    (h8.2) (by decide) (by decide) (by decide)
  have h10 := factor_step (tick := n) (k := 10) (bit := 0x400) (c := 1052530684591) (B := 1052478062002) (B' := 1107765455115) (by decide)
    (h9.2) (by decide) (by decide) (by decide)
  have h11 := factor_step (tick := n) (k := 11) (bit := 0x800) (c := 1107820842005) (B := 1107765455115) (B' := 1227205659229) (by decide)
    (h10.2) (by decide) (by decide) (by decide)
  have h12 := factor_step (tick := n) (k := 12) (bit := 0x1000) (c := 1227267017980) (B := 1227205659229) (B' := 1506109029850) (by decide)
    (h11.2) (by decide) (by decide) (by decide)
  have h13 := factor_step (tick := n) (k := 13) (bit := 0x2000) (c := 1506184333421) (B := 1506109029850) (B' := 2268477825183) (by decide)
    (h12.2) (by decide) (by decide) (by decide)
  have h14 := factor_step (tick := n) (k := 14) (bit := 0x4000) (c := 2268591246242) (B := 2268477825183) (B' := 5146248936504) (by decide)
    (h13.2) (by decide) (by decide) (by decide)
  have h15 := factor_step (tick := n) (k := 15) (bit := 0x8000) (c := 5146506242525) (B := 5146248936504) (B' := 26485202277305) (by decide)
    (h14.2) (by decide) (by decide) (by decide)
  have h16 := factor_step (tick := n) (k := 16) (bit := 0x10000) (c := 26486526504348) (B := 26485202277305) (B' := 701501012090856) (by decide)
    (h15.2) (by decide) (by decide) (by decide)
  have h17 := factor_step (tick := n) (k := 17) (bit := 0x20000) (c := 701536086265529) (B := 701501012090856) (B' := 492128274533526656) (by decide)
    (h16.2) (by decide) (by decide) (by decide)
  rw [h0.1, ok_bind, h1.1, ok_bind, h2.1, ok_bind, h3.1, ok_bind, h4.1, ok_bind, h5.1, ok_bind, h6.1, ok_bind, h7.1, ok_bind, h8.1, ok_bind, h9.1, ok_bind, h10.1, ok_bind, h11.1, ok_bind, h12.1, ok_bind, h13.1, ok_bind, h14.1, ok_bind, h15.1, ok_bind, h16.1, ok_bind, h17.1, ok_bind]
  exact hg _ rfl h17.2.1 h17.2.2

theorem calculateSqrtPrice_lit {t : Int} (h : t ≠ -2 ^ 31) : Lit.calculateSqrtPrice t = calculateSqrtPrice t := by
  unfold Lit.calculateSqrtPrice calculateSqrtPrice
  rw [if_neg h]
  by_cases h1 : (t.natAbs : Int) > MAX_TICK
  · rw [if_pos h1, if_pos h1]; exact error_bind _ _
  rw [if_neg h1, if_neg h1]
  dsimp only
  rw [oneFix]
  refine (ok_bind _ _).trans ?_
  refine spRaw_lit _ _ _ fun a e h2 h3 => ?_
  unfold sqrtPriceAt
  rw [← e]
  by_cases h4 : 0 ≤ t
  · rw [if_pos h4, if_pos h4, fixToSqrt ((Nat.mul_le_mul_right _ h3).trans_lt (by decide))]
  · rw [if_neg h4, if_neg h4, ok_bind, divFix (by decide) (lt_of_lt_of_le (by decide) h2), ok_bind, fixToSqrt]
    refine (Nat.mul_le_mul_right _ (Nat.div_le_div_left h2 (by decide))).trans_lt (by decide)
theorem calculateSqrtPrice_lt {t : Int} {p : Nat} (h : calculateSqrtPrice t = .ok p) : p < U128 := by
  obtain ⟨⟨h1, h2⟩, h3⟩ := calculateSqrtPrice_ok.1 h
  exact h3 ▸ (sqrtPriceAt_range h1 h2).2.trans_lt (by decide)

theorem calculateAmountDelta_lit {cur upper lower : Int} {p L : Nat} (hp : p < U128) (hL : L < U128) (hu : upper ≠ -2 ^ 31)
    (hl : lower ≠ -2 ^ 31) (sign : Bool) :
    Lit.calculateAmountDelta cur p L sign upper lower = calculateAmountDelta cur p L sign upper lower := by
  unfold Lit.calculateAmountDelta calculateAmountDelta
  by_cases h1 : upper < lower
  · rw [if_pos h1, if_pos h1]; exact error_bind _ _
  rw [if_neg h1, if_neg h1]
  dsimp only
  rw [calculateSqrtPrice_lit hu, calculateSqrtPrice_lit hl]
  by_cases h2 : cur < lower
  · rw [if_pos h2, if_pos h2]
    refine bind_congr_ok fun pl h3 => bind_congr_ok fun pu h4 => ?_
    rw [getDeltaX_lit (calculateSqrtPrice_lt h3) (calculateSqrtPrice_lt h4) hL]
  rw [if_neg h2, if_neg h2]
  by_cases h3 : cur < upper
  · rw [if_pos h3, if_pos h3]
    refine bind_congr_ok fun pu h4 => ?_
    rw [getDeltaX_lit hp (calculateSqrtPrice_lt h4) hL]
    refine bind_congr_ok fun x _ => bind_congr_ok fun pl h5 => ?_
    rw [getDeltaY_lit (calculateSqrtPrice_lt h5) hp hL]
  · rw [if_neg h3, if_neg h3]
    refine bind_congr_ok fun pl h3 => bind_congr_ok fun pu h4 => ?_
    rw [getDeltaY_lit (calculateSqrtPrice_lt h3) (calculateSqrtPrice_lt h4) hL]

/-! ## Logarithm -/

theorem or_bit (j q : Nat) : 2 ^ (j + 1) * q ||| 2 ^ j = 2 ^ (j + 1) * q + 2 ^ j :=
  (Nat.two_pow_add_eq_or_of_lt (Nat.pow_lt_pow_right (by decide) (Nat.lt_succ_self j)) q).symm

theorem floorStep_lit {j : Nat} {s : Nat × Nat} (h : ∃ q, s.2 = 2 ^ (j + 1) * q) :
    Lit.log2FloorStep (2 ^ j) s = log2FloorStep (2 ^ j) s ∧ ∃ q, (log2FloorStep (2 ^ j) s).2 = 2 ^ j * q := by
  obtain ⟨q, h⟩ := h
  unfold Lit.log2FloorStep log2FloorStep
  rw [Nat.one_shiftLeft, Nat.shiftRight_eq_div_pow, h, or_bit]
  refine ⟨rfl, ?_⟩
  split
  · exact ⟨2 * q + 1, by dsimp only; rw [pow_succ]; ring⟩
  · exact ⟨2 * q, by rw [h, pow_succ]; ring⟩

theorem log2Floor_lit (x : Nat) : Lit.log2Floor x = log2Floor x := by
  have a0 : Lit.log2FloorStep 32 (x, 0) = log2FloorStep 32 (x, 0) ∧ ∃ q, (log2FloorStep 32 (x, 0)).2 = 2 ^ 5 * q :=
    floorStep_lit (j := 5) ⟨0, rfl⟩
  unfold Lit.log2Floor log2Floor
  dsimp only
  rw [a0.1]
  generalize log2FloorStep 32 (x, 0) = s0 at a0
  have a1 : Lit.log2FloorStep 16 s0 = log2FloorStep 16 s0 ∧ ∃ q, (log2FloorStep 16 s0).2 = 2 ^ 4 * q := floorStep_lit (j := 4) a0.2
  rw [a1.1]
  generalize log2FloorStep 16 s0 = s1 at a1
  have a2 : Lit.log2FloorStep 8 s1 = log2FloorStep 8 s1 ∧ ∃ q, (log2FloorStep 8 s1).2 = 2 ^ 3 * q := floorStep_lit (j := 3) a1.2
  rw [a2.1]
  generalize log2FloorStep 8 s1 = s2 at a2
  have a3 : Lit.log2FloorStep 4 s2 = log2FloorStep 4 s2 ∧ ∃ q, (log2FloorStep 4 s2).2 = 2 ^ 2 * q := floorStep_lit (j := 2) a2.2
  rw [a3.1]
  generalize log2FloorStep 4 s2 = s3 at a3
  have a4 : Lit.log2FloorStep 2 s3 = log2FloorStep 2 s3 ∧ ∃ q, (log2FloorStep 2 s3).2 = 2 ^ 1 * q := floorStep_lit (j := 1) a3.2
  rw [a4.1]
  generalize log2FloorStep 2 s3 = s4 at a4
  have a5 : Lit.log2FloorStep 1 s4 = log2FloorStep 1 s4 ∧ ∃ q, (log2FloorStep 1 s4).2 = 2 ^ 0 * q := floorStep_lit (j := 0) a4.2
  rw [← a5.1]
  unfold Lit.log2FloorStep
  split <;> rfl

theorem log2Loop_lit : ∀ (n m y r : Nat), n < m → y < 2 ^ 33 → (∃ q, r = 2 ^ (17 + n) * q) →
    Lit.log2Loop m (2 ^ (16 + n)) y r = .ok (log2Loop n (2 ^ (16 + n)) y r)
  | _, 0, _, _, h, _, _ => absurd h (Nat.not_lt_zero _)
  | 0, m + 1, y, r, _, _, _ => by
    unfold Lit.log2Loop log2Loop
    rw [if_neg (by decide)]
  | n + 1, m + 1, y, r, h, hy, ⟨q, hq⟩ => by
    have hyy : y * y < 2 ^ 66 := by
      have : y * y < 2 ^ 33 * 2 ^ 33 := Nat.mul_lt_mul_of_lt_of_le hy (Nat.le_of_lt hy) (by decide)
      rwa [← pow_add] at this
    have hd : 2 ^ (16 + (n + 1)) > 1 <<< 16 := by
      rw [Nat.one_shiftLeft]; exact Nat.pow_lt_pow_right (by decide) (by omega)
    have e1 : 2 ^ (16 + (n + 1)) / 2 = 2 ^ (16 + n) := by
      rw [← Nat.add_assoc, pow_succ]; exact Nat.mul_div_cancel _ (by decide)
    have y2 : y * y / 2 ^ 32 < 2 ^ 34 := by
      rw [Nat.div_lt_iff_lt_mul (by decide), ← pow_add]; exact hyy
    have hor : r ||| 2 ^ (16 + (n + 1)) = r + 2 ^ (16 + (n + 1)) := by
      rw [hq, show 17 + (n + 1) = 16 + (n + 1) + 1 by omega]; exact or_bit _ _
    unfold Lit.log2Loop log2Loop
    rw [if_pos hd, uMul_of (hyy.trans (by decide)), orPanic_ok]
    dsimp only
    rw [Nat.one_shiftLeft, Nat.one_shiftLeft, Nat.shiftRight_eq_div_pow, Nat.shiftRight_eq_div_pow, pow_one, e1, hor]
    by_cases hc : y * y / 2 ^ 32 ≥ 2 ^ 33
    · rw [if_pos hc, if_pos hc]
      refine log2Loop_lit n m _ _ (by omega) (by omega) ⟨2 * q + 1, ?_⟩
      rw [hq, show 17 + (n + 1) = 17 + n + 1 by omega, show 16 + (n + 1) = 17 + n by omega, pow_succ]; ring
    · rw [if_neg hc, if_neg hc]
      refine log2Loop_lit n m _ _ (by omega) (by omega) ⟨2 * q, ?_⟩
      rw [hq, show 17 + (n + 1) = 17 + n + 1 by omega, pow_succ]; ring

theorem log2Loop_le : ∀ (n y r : Nat), log2Loop n (2 ^ (16 + n)) y r ≤ r + 2 ^ (17 + n)
  | 0, y, r => by unfold log2Loop; exact Nat.le_add_right _ _
  | n + 1, y, r => by
    have e1 : 2 ^ (16 + (n + 1)) / 2 = 2 ^ (16 + n) := by
      rw [← Nat.add_assoc, pow_succ]; exact Nat.mul_div_cancel _ (by decide)
    have e2 : 2 ^ (17 + (n + 1)) = 2 ^ (17 + n) + 2 ^ (17 + n) := by
      rw [← Nat.add_assoc, pow_succ]; omega
    have e3 : 2 ^ (16 + (n + 1)) = 2 ^ (17 + n) := by congr 1; omega
    have e4 := Nat.two_pow_pos (17 + n)
    unfold log2Loop
    dsimp only
    rw [e1]
    split
    · have := log2Loop_le n (y * y / 2 ^ 32 / 2) (r + 2 ^ (16 + (n + 1)))
      omega
    · have := log2Loop_le n (y * y / 2 ^ 32) r
      omega

/-- A literal result that also stays below a bound. -/
theorem log2Approx_lit {x : Nat} (h1 : 1 ≤ x) (h2 : x < 2 ^ 64) :
    Lit.log2Approx x = .ok (log2Approx x) ∧ (log2Approx x).2 ≤ 33 * 2 ^ 32 := by
  have hx : ∃ z, (if x < 2 ^ 32 then 2 ^ 64 / (x + 1) else x) = z ∧ 2 ^ 32 ≤ z ∧ z < 2 ^ 64 ∧
      Lit.log2Invert x = .ok z := by
    unfold Lit.log2Invert
    refine ⟨_, rfl, ?_⟩
    rw [Nat.one_shiftLeft, Nat.one_shiftLeft]
    by_cases hc : x < 2 ^ 32
    · have lo : 2 ^ 32 ≤ 2 ^ 64 / (x + 1) := by
        rw [Nat.le_div_iff_mul_le (Nat.succ_pos _)]
        exact (Nat.mul_le_mul_left _ hc).trans (by decide)
      have hi : 2 ^ 64 / (x + 1) < 2 ^ 64 := by
        rw [Nat.div_lt_iff_lt_mul (Nat.succ_pos _)]
        exact lt_of_lt_of_le (by decide : 2 ^ 64 < 2 ^ 64 * 2) (Nat.mul_le_mul_left _ (Nat.succ_le_succ h1))
      rw [if_pos hc, if_pos hc, uAdd_of (lt_of_le_of_lt (Nat.succ_le_of_lt hc) (by decide)), orPanic_ok, uDiv_of (Nat.succ_pos _),
        orPanic_ok, Nat.mod_eq_of_lt hi]
      exact ⟨lo, hi, rfl⟩
    · rw [if_neg hc, if_neg hc]
      exact ⟨Nat.not_lt.1 hc, h2, rfl⟩
  obtain ⟨z, e, z1, z2, hz⟩ := hx
  have hs := log2Floor_spec (x := z / 2 ^ 32) ((Nat.one_le_div_iff (by decide)).2 z1) ((Nat.div_le_self _ _).trans_lt z2)
  have f32 : log2Floor (z / 2 ^ 32) < 32 := by
    by_contra hc
    have : 2 ^ 32 ≤ 2 ^ log2Floor (z / 2 ^ 32) := Nat.pow_le_pow_right (by decide) (Nat.not_lt.1 hc)
    have h4 : z / 2 ^ 32 < 2 ^ 32 := by
      rw [Nat.div_lt_iff_lt_mul (by decide), ← pow_add]; exact z2
    omega
  have y33 : z / 2 ^ log2Floor (z / 2 ^ 32) < 2 ^ 33 := by
    have h4 := hs.2
    rw [Nat.div_lt_iff_lt_mul (by decide)] at h4
    rw [Nat.div_lt_iff_lt_mul (Nat.two_pow_pos _)]
    refine h4.trans_le (Nat.le_of_eq ?_)
    rw [pow_succ]; ring
  have m64 : log2Floor (z / 2 ^ 32) * 2 ^ 32 < U64 :=
    (Nat.mul_lt_mul_of_lt_of_le f32 (Nat.le_refl _) (by decide)).trans (by decide)
  have hl := log2Loop_lit 15 64 (z / 2 ^ log2Floor (z / 2 ^ 32)) (log2Floor (z / 2 ^ 32) * 2 ^ 32) (by decide) y33
    ⟨log2Floor (z / 2 ^ 32), Nat.mul_comm _ _⟩
  have hb := log2Loop_le 15 (z / 2 ^ log2Floor (z / 2 ^ 32)) (log2Floor (z / 2 ^ 32) * 2 ^ 32)
  have hb' : log2Floor (z / 2 ^ 32) * 2 ^ 32 ≤ 32 * 2 ^ 32 := Nat.mul_le_mul_right _ (Nat.le_of_lt f32)
  unfold Lit.log2Approx log2Approx
  dsimp only
  rw [hz, e, ok_bind, Nat.shiftRight_eq_div_pow, log2Floor_lit, Nat.shiftRight_eq_div_pow, Nat.one_shiftLeft,
    Nat.shiftLeft_eq, Nat.mod_eq_of_lt m64]
  have es : decide (¬ x < 2 ^ 32) = decide (x ≥ 2 ^ 32) := by simp
  rw [es]
  by_cases hy : z / 2 ^ log2Floor (z / 2 ^ 32) = 2 ^ 32
  · rw [if_pos hy, if_pos hy]
    exact ⟨rfl, hb'.trans (by decide)⟩
  · rw [if_neg hy, if_neg hy, show (2 ^ 32) >>> 1 = 2 ^ (16 + 15) by decide, hl]
    refine ⟨rfl, hb.trans ?_⟩
    exact (Nat.add_le_add_right hb' _).trans (by decide)

theorem i32_ok {x : Int} (h1 : -10 ^ 6 ≤ x) (h2 : x ≤ 10 ^ 6) : Lit.i32 x = .ok x := by
  unfold Lit.i32
  rw [if_pos (by omega)]

theorem alignTick_lit {t : Int} {ts : Nat} (h1 : -10 ^ 6 + 2 ^ 16 ≤ t) (h2 : t ≤ 10 ^ 6) (h0 : ts ≠ 0) (hts : ts < 2 ^ 16) :
    Lit.alignTick t ts = .ok (alignTick t ts) := by
  have hp : (0 : Int) < ts := by omega
  have m1 := Int.emod_nonneg t (Int.ne_of_gt hp)
  have m2 := Int.emod_lt_of_pos t hp
  unfold Lit.alignTick alignTick
  rw [if_neg (by omega)]
  split
  · rename_i ht
    rw [Int.tmod_eq_emod_of_nonneg (Int.le_of_lt ht)]
    exact i32_ok (by omega) (by omega)
  · exact i32_ok (by omega) (by omega)

theorem asI32_ok {n : Nat} (h : n < 2 ^ 31) : Lit.asI32 n = n := by
  unfold Lit.asI32
  rw [Nat.mod_eq_of_lt (h.trans (by decide)), if_pos h]

theorem sqrtPriceToX32_lit {p : Nat} (h : p ≤ MAX_SQRT_PRICE) : Lit.sqrtPriceToX32 p = .ok (sqrtPriceToX32 p) := by
  unfold Lit.sqrtPriceToX32 sqrtPriceToX32
  rw [uMul_of ((Nat.mul_le_mul_right _ h).trans_lt (by decide)), orPanic_ok, uDiv_of (by decide), orPanic_ok]
  rfl

theorem x32_pos {p : Nat} (h : MIN_SQRT_PRICE ≤ p) (h2 : p ≤ MAX_SQRT_PRICE) : 1 ≤ sqrtPriceToX32 p := by
  unfold sqrtPriceToX32
  have h3 : p * 2 ^ 32 / SPR < U64 := (Nat.div_le_div_right (Nat.mul_le_mul_right _ h2)).trans_lt (by decide)
  rw [Nat.mod_eq_of_lt h3]
  exact le_trans (by decide) (Nat.div_le_div_right (Nat.mul_le_mul_right _ h))

theorem alignTick_bounds {t : Int} {ts : Nat} (h0 : ts ≠ 0) : t - ts ≤ alignTick t ts ∧ alignTick t ts ≤ t := by
  have hp : (0 : Int) < ts := by omega
  have m1 := Int.emod_nonneg t (Int.ne_of_gt hp)
  have m2 := Int.emod_lt_of_pos t hp
  unfold alignTick
  split
  · rename_i ht
    rw [Int.tmod_eq_emod_of_nonneg (Int.le_of_lt ht)]
    omega
  · omega

theorem alignTick_lit_zero (t : Int) : Lit.alignTick t 0 = .error .panic := if_pos rfl

/-- The last line of `get_tick_at_sqrt_price`. -/
theorem lastAlign_lit {t : Int} {ts : Nat} (h1 : -600000 ≤ t) (h2 : t ≤ 600000) (h0 : ts ≠ 0) (hts : ts < 2 ^ 16) :
    (if ts > 1 then Lit.alignTick t ts else pure t) = (pure (if ts > 1 then alignTick t ts else t) : M Int) := by
  split
  · rw [alignTick_lit (by omega) (by omega) h0 hts]; rfl
  · rfl

theorem getTickAtSqrtPrice_lit {p ts : Nat} (hts : ts < 2 ^ 16) : Lit.getTickAtSqrtPrice p ts = getTickAtSqrtPrice p ts := by
  unfold Lit.getTickAtSqrtPrice getTickAtSqrtPrice
  by_cases h1 : p > MAX_SQRT_PRICE ∨ p < MIN_SQRT_PRICE
  · rw [if_pos h1, if_pos h1]; exact error_bind _ _
  rw [if_neg h1, if_neg h1]
  dsimp only
  have hx1 : 1 ≤ sqrtPriceToX32 p := x32_pos (Nat.not_lt.1 fun h => h1 (.inr h)) (Nat.not_lt.1 fun h => h1 (.inl h))
  have hx2 : sqrtPriceToX32 p < 2 ^ 64 := Nat.mod_lt _ (by decide)
  rw [sqrtPriceToX32_lit (Nat.not_lt.1 fun h => h1 (.inl h)), ok_bind]
  obtain ⟨e1, e2⟩ := log2Approx_lit hx1 hx2
  rw [e1, ok_bind]
  generalize log2Approx (sqrtPriceToX32 p) = lg at e2
  obtain ⟨sign, lg⟩ := lg
  dsimp only at e2 ⊢
  cases sign
  · simp only [Bool.false_eq_true, if_false]
    have ha : (lg + 300000) / 309801 ≤ 500000 := by omega
    rw [uAdd_of (lt_of_le_of_lt (Nat.add_le_add_right e2 _) (by decide)), orPanic_ok, uDiv_of (by decide), orPanic_ok,
      asI32_ok (ha.trans_lt (by decide))]
    generalize (lg + 300000) / 309801 = a at *
    rw [i32_ok (x := -(a : Int)) (by omega) (by omega)]
    refine (ok_bind _ _).trans ?_
    refine (ok_bind _ _).trans ?_
    rw [i32_ok (x := -(a : Int) - 1) (by omega) (by omega)]
    refine (ok_bind _ _).trans ?_
    by_cases h0 : ts = 0
    · rw [if_pos h0, h0]
      exact error_bind _ _
    rw [if_neg h0, alignTick_lit (by omega) (by omega) h0 hts, ok_bind, alignTick_lit (by omega) (by omega) h0 hts, ok_bind]
    split
    · rfl
    rw [calculateSqrtPrice_lit (by omega)]
    refine bind_congr_ok fun np _ => ?_
    have b1 := alignTick_bounds (t := -(a : Int)) h0
    have b2 := alignTick_bounds (t := -(a : Int) - 1) h0
    refine (ok_bind _ _).trans ?_
    refine Eq.trans ?_ (ok_bind _ _).symm
    exact lastAlign_lit (by split <;> omega) (by split <;> omega) h0 hts
  · simp only [if_true]
    have ha : lg / 309801 ≤ 500000 := by omega
    rw [uDiv_of (by decide), orPanic_ok, asI32_ok (ha.trans_lt (by decide))]
    generalize lg / 309801 = a at *
    refine (ok_bind _ _).trans ?_
    rw [i32_ok (x := (a : Int) + 1) (by omega) (by omega)]
    refine (ok_bind _ _).trans ?_
    by_cases h0 : ts = 0
    · rw [if_pos h0, h0]
      exact error_bind _ _
    rw [if_neg h0, alignTick_lit (by omega) (by omega) h0 hts, ok_bind, alignTick_lit (by omega) (by omega) h0 hts, ok_bind]
    split
    · rfl
    rw [calculateSqrtPrice_lit (by omega)]
    refine bind_congr_ok fun np _ => ?_
    have b1 := alignTick_bounds (t := (a : Int)) h0
    have b2 := alignTick_bounds (t := (a : Int) + 1) h0
    refine (ok_bind _ _).trans ?_
    refine Eq.trans ?_ (ok_bind _ _).symm
    exact lastAlign_lit (by split <;> omega) (by split <;> omega) h0 hts

end OraiV3
