import Verif.Lemmas.LogPrice

/-!
# The integer logarithm

`log2Approx` is below the true logarithm by less than `2^17 + 8` (in units of `2^-32`).
-/

namespace OraiV3

theorem log2FloorStep_spec {k x : Nat} {s : Nat × Nat} (h1 : 1 ≤ s.1) (h2 : s.1 < 2 ^ (2 * k))
    (h3 : s.1 * 2 ^ s.2 ≤ x ∧ x < (s.1 + 1) * 2 ^ s.2) :
    1 ≤ (log2FloorStep k s).1 ∧ (log2FloorStep k s).1 < 2 ^ k ∧
      (log2FloorStep k s).1 * 2 ^ (log2FloorStep k s).2 ≤ x ∧
      x < ((log2FloorStep k s).1 + 1) * 2 ^ (log2FloorStep k s).2 := by
  unfold log2FloorStep
  have hk : 0 < 2 ^ k := Nat.two_pow_pos k
  split
  · rename_i hc
    refine ⟨(Nat.le_div_iff_mul_le hk).2 (by omega), ?_, ?_⟩
    · rw [Nat.div_lt_iff_lt_mul hk, ← Nat.pow_add, ← Nat.two_mul]
      exact h2
    · have hf := floor_spec s.1 (2 ^ k) hk
      simp only
      rw [Nat.pow_add]
      generalize s.1 / 2 ^ k = q at *
      generalize 2 ^ k = K at *
      generalize 2 ^ s.2 = P at *
      constructor
      · have : q * K * P ≤ s.1 * P := Nat.mul_le_mul_right _ hf.1
        nlinarith
      · have : (s.1 + 1) * P ≤ (q * K + K) * P := Nat.mul_le_mul_right _ (by omega)
        nlinarith
  · rename_i hc
    exact ⟨h1, by omega, h3⟩

theorem log2Floor_spec {x : Nat} (h1 : 1 ≤ x) (h2 : x < 2 ^ 64) :
    2 ^ log2Floor x ≤ x ∧ x < 2 ^ (log2Floor x + 1) := by
  have a0 := log2FloorStep_spec (k := 32) (x := x) (s := (x, 0)) h1 h2 (by simp)
  have a1 := log2FloorStep_spec (k := 16) a0.1 a0.2.1 a0.2.2
  have a2 := log2FloorStep_spec (k := 8) a1.1 a1.2.1 a1.2.2
  have a3 := log2FloorStep_spec (k := 4) a2.1 a2.2.1 a2.2.2
  have a4 := log2FloorStep_spec (k := 2) a3.1 a3.2.1 a3.2.2
  have a5 := log2FloorStep_spec (k := 1) a4.1 a4.2.1 a4.2.2
  unfold log2Floor
  generalize log2FloorStep 1 (log2FloorStep 2 (log2FloorStep 4 (log2FloorStep 8 (log2FloorStep 16
    (log2FloorStep 32 (x, 0)))))) = s at *
  have : s.1 = 1 := by omega
  rw [this] at a5
  refine ⟨by omega, ?_⟩
  rw [Nat.pow_succ]
  omega

/-- Rounding a number above `2^32` down changes its logarithm by less than 2. -/
theorem lg_floor {q : Nat} {z : ℝ} (hq : 2 ^ 32 ≤ q) (h : z < q + 1) (hz : 0 < z) : lg z ≤ lg q + 2 := by
  have hq' : (2 : ℝ) ^ 32 ≤ q := by exact_mod_cast hq
  have hq0 : (0 : ℝ) < q := lt_of_lt_of_le (by norm_num) hq'
  have h1 : z ≤ q * (1 + 1 / 2 ^ 32) := by
    have : 1 ≤ (q : ℝ) * (1 / 2 ^ 32) := by
      rw [mul_one_div, le_div_iff₀ (by norm_num)]; linarith
    linarith
  have h2 := lg_le hz h1
  rw [lg_mul hq0 (by norm_num)] at h2
  have h3 : lg (1 + 1 / 2 ^ 32) ≤ 2 := by
    unfold lg
    have h3 := Real.log_le_sub_one_of_pos (x := 1 + 1 / 2 ^ 32) (by norm_num)
    have h4 := Real.log_two_gt_d9
    rw [div_mul_eq_mul_div, div_le_iff₀ log_two_pos]
    norm_num at h3 h4 ⊢
    linarith
  linarith

theorem lg_two32 : lg (2 ^ 32) = 32 * 2 ^ 32 := by rw [lg_pow, lg_two]; norm_num

theorem floor_real {a b : Nat} {B : ℝ} (hb : 0 < b) (hB : (b : ℝ) = B) :
    ((a / b : Nat) : ℝ) * B ≤ a ∧ (a : ℝ) < (((a / b : Nat) : ℝ) + 1) * B := by
  subst hB
  have h := floor_spec a b hb
  constructor
  · exact_mod_cast h.1
  · have : a < (a / b + 1) * b := by rw [Nat.succ_mul]; exact h.2
    exact_mod_cast this

theorem log2Loop_spec : ∀ (n y r : Nat), 2 ^ 32 ≤ y → y < 2 ^ 33 →
    (log2Loop n (2 ^ (16 + n)) y r : ℝ) ≤ r + (lg y - 32 * 2 ^ 32) * 2 ^ (17 + n) / 2 ^ 32 ∧
    r + (lg y - 32 * 2 ^ 32) * 2 ^ (17 + n) / 2 ^ 32 <
      log2Loop n (2 ^ (16 + n)) y r + 2 ^ 17 + 4 * 2 ^ (16 + n) / 2 ^ 32
  | 0, y, r, h1, h2 => by
    have hy : (2 : ℝ) ^ 32 ≤ y := by exact_mod_cast h1
    have hy2 : (y : ℝ) < 2 ^ 33 := by exact_mod_cast h2
    have l1 := lg_le (by norm_num) hy
    have l2 := lg_lt (lt_of_lt_of_le (by norm_num) hy) hy2
    rw [lg_two32] at l1
    rw [lg_pow, lg_two] at l2
    unfold log2Loop
    norm_num at l1 l2 ⊢
    constructor <;> linarith
  | n + 1, y, r, h1, h2 => by
    have hy : (2 : ℝ) ^ 32 ≤ y := by exact_mod_cast h1
    have hy0 : (0 : ℝ) < y := lt_of_lt_of_le (by norm_num) hy
    have hk : (2 : Nat) ^ (16 + (n + 1)) / 2 = 2 ^ (16 + n) := by
      rw [← Nat.add_assoc, Nat.pow_succ]; omega
    have hf := floor_spec (y * y) (2 ^ 32) (by norm_num)
    have hyy : 2 ^ 32 * 2 ^ 32 ≤ y * y := Nat.mul_le_mul h1 h1
    have hyy2 : y * y < 2 ^ 33 * 2 ^ 33 := Nat.mul_lt_mul'' h2 h2
    have p1 : (2 : ℝ) ^ (17 + (n + 1)) = 4 * 2 ^ (16 + n) := by rw [pow_add, pow_add, pow_add]; norm_num; ring
    have p2 : (2 : ℝ) ^ (17 + n) = 2 * 2 ^ (16 + n) := by rw [pow_add, pow_add]; norm_num; ring
    have p3 : (2 : ℝ) ^ (16 + (n + 1)) = 2 * 2 ^ (16 + n) := by rw [pow_add, pow_add, pow_add]; norm_num; ring
    have p4 : ((2 ^ (16 + (n + 1)) : Nat) : ℝ) = 2 * 2 ^ (16 + n) := by rw [← p3]; push_cast; ring
    have p0 : (0 : ℝ) < 2 ^ (16 + n) := by positivity
    unfold log2Loop
    dsimp only
    rw [hk]
    split
    · rename_i hc
      -- the digit is one
      have g1 : 2 ^ 32 ≤ y * y / 2 ^ 32 / 2 := by omega
      have g2 : y * y / 2 ^ 32 / 2 < 2 ^ 33 := by omega
      have ih := log2Loop_spec n (y * y / 2 ^ 32 / 2) (r + 2 ^ (16 + (n + 1))) g1 g2
      have u := floor_real (a := y * y) (b := 2 ^ 32 * 2) (B := 2 ^ 32 * 2) (by norm_num) (by norm_num)
      rw [← Nat.div_div_eq_div_mul, Nat.cast_mul] at u
      have u1 := u.1
      have u2 := u.2
      have l2 := lg_floor (z := y * y / (2 ^ 32 * 2)) g1 (by rw [div_lt_iff₀ (by norm_num)]; exact u2) (by positivity)
      generalize y * y / 2 ^ 32 / 2 = q at *
      have hq0 : (0 : ℝ) < q := lt_of_lt_of_le (b := ((2 ^ 32 : Nat) : ℝ)) (by norm_num) (by exact_mod_cast g1)
      have l1 := lg_le (by positivity) u1
      rw [lg_mul hq0 (by norm_num), lg_mul hy0 hy0, lg_mul (by norm_num) (by norm_num), lg_two32, lg_two] at l1
      rw [lg_div (by positivity) (by norm_num), lg_mul hy0 hy0, lg_mul (by norm_num) (by norm_num), lg_two32, lg_two]
        at l2
      rw [Nat.cast_add, p4] at ih
      rw [p2] at ih
      rw [p1, p3]
      generalize (2 : ℝ) ^ (16 + n) = δ at *
      generalize lg (q : ℝ) = a at *
      generalize lg (y : ℝ) = b at *
      have m1 : a * δ ≤ (2 * b - 33 * 2 ^ 32) * δ := by gcongr; linarith
      have m2 : (2 * b - 33 * 2 ^ 32) * δ ≤ (a + 2) * δ := by gcongr; linarith
      constructor <;> linarith
    · rename_i hc
      have g1 : 2 ^ 32 ≤ y * y / 2 ^ 32 := by omega
      have g2 : y * y / 2 ^ 32 < 2 ^ 33 := by omega
      have ih := log2Loop_spec n (y * y / 2 ^ 32) r g1 g2
      have u := floor_real (a := y * y) (b := 2 ^ 32) (B := 2 ^ 32) (by norm_num) (by norm_num)
      rw [Nat.cast_mul] at u
      have u1 := u.1
      have u2 := u.2
      have l2 := lg_floor (z := y * y / (2 ^ 32)) g1 (by rw [div_lt_iff₀ (by norm_num)]; exact u2) (by positivity)
      generalize y * y / 2 ^ 32 = q at *
      have hq0 : (0 : ℝ) < q := lt_of_lt_of_le (b := ((2 ^ 32 : Nat) : ℝ)) (by norm_num) (by exact_mod_cast g1)
      have l1 := lg_le (by positivity) u1
      rw [lg_mul hq0 (by norm_num), lg_mul hy0 hy0, lg_two32] at l1
      rw [lg_div (by positivity) (by norm_num), lg_mul hy0 hy0, lg_two32] at l2
      rw [p2] at ih
      rw [p1, p3]
      generalize (2 : ℝ) ^ (16 + n) = δ at *
      generalize lg (q : ℝ) = a at *
      generalize lg (y : ℝ) = b at *
      have m1 : a * δ ≤ (2 * b - 32 * 2 ^ 32) * δ := by gcongr; linarith
      have m2 : (2 * b - 32 * 2 ^ 32) * δ ≤ (a + 2) * δ := by gcongr; linarith
      constructor <;> linarith

/-- The magnitude part of `log2Approx`, for `x ≥ 2^32`. -/
def log2Mag (x : Nat) : Nat :=
  if x / 2 ^ log2Floor (x / 2 ^ 32) = 2 ^ 32 then log2Floor (x / 2 ^ 32) * 2 ^ 32
  else log2Loop 15 (2 ^ 31) (x / 2 ^ log2Floor (x / 2 ^ 32)) (log2Floor (x / 2 ^ 32) * 2 ^ 32)

theorem log2Approx_eq (x : Nat) : log2Approx x =
    (decide (x ≥ 2 ^ 32), log2Mag (if x < 2 ^ 32 then 2 ^ 64 / (x + 1) else x)) := by
  unfold log2Approx log2Mag
  dsimp only
  split <;> split <;> simp_all

/-- The integer logarithm of `x / 2^32`. -/
theorem log2Mag_spec {x : Nat} (h1 : 2 ^ 32 ≤ x) (h2 : x < 2 ^ 64) :
    (log2Mag x : ℝ) ≤ lg x - 32 * 2 ^ 32 ∧ lg x - 32 * 2 ^ 32 < log2Mag x + 2 ^ 17 + 4 := by
  have hs := log2Floor_spec (x := x / 2 ^ 32) (by omega) (by omega)
  unfold log2Mag
  generalize log2Floor (x / 2 ^ 32) = f at *
  have hp : 0 < 2 ^ f := Nat.two_pow_pos f
  have hx : 2 ^ f * 2 ^ 32 ≤ x ∧ x < 2 ^ f * 2 ^ 33 := by
    have e : 2 ^ (f + 1) = 2 ^ f * 2 := Nat.pow_succ _ _
    rw [e] at hs
    generalize 2 ^ f = F at *
    omega
  have y1 : 2 ^ 32 ≤ x / 2 ^ f := by rw [Nat.le_div_iff_mul_le hp, Nat.mul_comm]; exact hx.1
  have y2 : x / 2 ^ f < 2 ^ 33 := by rw [Nat.div_lt_iff_lt_mul hp, Nat.mul_comm]; exact hx.2
  have hf := floor_spec x (2 ^ f) hp
  have hloop := log2Loop_spec 15 (x / 2 ^ f) (f * 2 ^ 32) y1 y2
  generalize x / 2 ^ f = y at *
  have hx0 : (0 : ℝ) < x := by exact_mod_cast (by omega : 0 < x)
  have hy0 : (0 : ℝ) < y := by exact_mod_cast (by omega : 0 < y)
  have hpf : (0 : ℝ) < 2 ^ f := by positivity
  have v1 : (y : ℝ) * 2 ^ f ≤ x := by exact_mod_cast hf.1
  have v2 : (x : ℝ) < (y + 1) * 2 ^ f := by
    have : x < (y + 1) * 2 ^ f := by rw [Nat.succ_mul]; exact hf.2
    exact_mod_cast this
  have l1 := lg_le (by positivity) v1
  have l2 := lg_floor (z := x / 2 ^ f) y1 (by rw [div_lt_iff₀ hpf]; exact v2) (by positivity)
  rw [lg_mul hy0 hpf, lg_pow, lg_two] at l1
  rw [lg_div hx0 hpf, lg_pow, lg_two] at l2
  split
  · rename_i hy
    have e : (y : ℝ) = 2 ^ 32 := by rw [hy]; norm_num
    have e2 : ((f * 2 ^ 32 : Nat) : ℝ) = f * 2 ^ 32 := by push_cast; ring
    rw [e, lg_two32] at l1 l2
    rw [e2]
    constructor <;> linarith
  · have e2 : ((f * 2 ^ 32 : Nat) : ℝ) = f * 2 ^ 32 := by push_cast; ring
    have e3 : (2 : Nat) ^ (16 + 15) = 2 ^ 31 := rfl
    rw [e2, e3] at hloop
    generalize log2Loop 15 (2 ^ 31) y (f * 2 ^ 32) = R at *
    norm_num at hloop l1 l2 ⊢
    constructor <;> linarith [hloop.1, hloop.2]

end OraiV3
