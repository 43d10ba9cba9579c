import Verif.Lemmas.Step

/-!
# Direction and bounds of one swap step
-/

namespace OraiV3

theorem deltaIn_true (cur np L : Nat) : deltaIn true cur np L = getDeltaX np cur L true := by
  unfold deltaIn; rw [if_pos rfl]
theorem deltaIn_false (cur np L : Nat) : deltaIn false cur np L = getDeltaY cur np L true := by
  unfold deltaIn; rw [if_neg Bool.false_ne_true]
theorem deltaOut_true (cur np L : Nat) : deltaOut true cur np L = getDeltaY np cur L false := by
  unfold deltaOut; rw [if_pos rfl]
theorem deltaOut_false (cur np L : Nat) : deltaOut false cur np L = getDeltaX cur np L false := by
  unfold deltaOut; rw [if_neg Bool.false_ne_true]

/-- Amounts below the rounded-up X amount. -/
theorem getDeltaX_up_lt {a b L x y : Nat} (h : getDeltaX a b L true = .ok x) (hy : y < x) :
    y * (a * b) ≤ absDiff a b * L * 10 ^ 18 + y * SPR := by
  unfold getDeltaX at h
  simp only [if_true] at h
  obtain ⟨h1, -, -, h2⟩ := divToTokenUp_inv h
  have f1 := floor_spec (absDiff a b * L) LIQ (by norm_num)
  have f2 := floor_spec (a * b) SPR (by norm_num)
  generalize absDiff a b * L / LIQ = nom at *
  generalize a * b / SPR = den at *
  generalize absDiff a b * L = d at *
  generalize a * b = ab at *
  have h3 : y * den ≤ nom := by
    have : (y + 1) * den ≤ x * den := Nat.mul_le_mul_right _ hy
    rw [Nat.succ_mul] at this
    omega
  have e := spr_eq
  rw [e] at f2 ⊢
  generalize LIQ = K at *
  generalize (10 : Nat) ^ 18 = S at *
  have h4 : y * ab ≤ y * (den * (K * S) + K * S) := Nat.mul_le_mul_left _ (by omega)
  have h5 : y * den * (K * S) ≤ nom * (K * S) := Nat.mul_le_mul_right _ h3
  have h6 : nom * K * S ≤ d * S := Nat.mul_le_mul_right _ f1.1
  have h7 : y * (den * (K * S) + K * S) = y * den * (K * S) + y * (K * S) := by ring
  have h8 : nom * (K * S) = nom * K * S := by ring
  omega

theorem xAdd_le_cur {p L x q S T K : Nat} (hT : T = K * S) (h0 : T ≤ p * p) (hx : 0 < x)
    (h : q * (L * S + p * x) < (p * L + K) * S + (L * S + p * x)) : q ≤ p := by
  by_contra hc
  have h1 : (p + 1) * (L * S + p * x) ≤ q * (L * S + p * x) := Nat.mul_le_mul_right _ (by omega)
  have h2 : p * p ≤ p * p * x := Nat.le_mul_of_pos_right _ hx
  have e1 : (p + 1) * (L * S + p * x) = p * L * S + p * p * x + (L * S + p * x) := by ring
  have e2 : (p * L + K) * S = p * L * S + K * S := by ring
  omega

theorem xAdd_over {p t L x q S T : Nat} (hL : 0 < L) (hS : 0 < S) (hqt : q < t) (htp : t ≤ p)
    (h1 : p * L * S ≤ q * (L * S + p * x)) (h2 : x * (t * p) ≤ (p - t) * L * S + x * T) : (t - q) * p < T := by
  obtain ⟨e, rfl⟩ : ∃ e, t = q + e := ⟨t - q, by omega⟩
  obtain ⟨g, rfl⟩ : ∃ g, p = q + e + g := ⟨p - (q + e), by omega⟩
  rw [Nat.add_sub_cancel_left]
  rw [Nat.add_sub_cancel_left] at h2
  have he : 0 < e := by omega
  have hpos : 0 < e * L * S := Nat.mul_pos (Nat.mul_pos he hL) hS
  have h3 : x * (e * (q + e + g)) < x * T := by nlinarith
  exact Nat.lt_of_mul_lt_mul_left h3

/-- Exact input, X to Y: the price falls, and passes the target by less than `10^24 / cur`. -/
theorem next_in_xy {cur target L A fee np : Nat} (h : NextIn true cur target L A fee np) (hL : L ≠ 0)
    (ht : target ≤ cur) (hc : SPR ≤ cur * cur) :
    np ≤ cur ∧ (np < target → (target - np) * cur < SPR) := by
  obtain ⟨-, pre, h1, h2⟩ := h
  rcases h2 with ⟨-, rfl⟩ | ⟨h2, h3⟩
  · exact ⟨ht, fun h => absurd h (Nat.lt_irrefl _)⟩
  · unfold nextSqrtPriceFromInput at h3
    simp only [if_true] at h3
    generalize A * (PCT - fee) / PCT = x at *
    by_cases hx : x = 0
    · unfold nextSqrtPriceXUp at h3
      rw [if_pos hx, ok_inj] at h3
      subst h3
      exact ⟨Nat.le_refl _, fun h => by omega⟩
    · obtain ⟨-, h4, h5⟩ := xUp_add h3 hx
      have e : SPR = 10 ^ 6 * 10 ^ 18 := spr_eq
      refine ⟨xAdd_le_cur e hc (by omega) h5, fun hlt => ?_⟩
      have h6 := getDeltaX_up_lt ((deltaIn_true _ _ _).symm.trans h1) h2
      rw [absDiff_le ht] at h6
      exact xAdd_over (by omega) (by norm_num) hlt ht h4 h6

/-- Exact input, Y to X: the price rises to the target at most; it stays below when the input does not
suffice. -/
theorem next_in_yx {cur target L A fee np : Nat} (h : NextIn false cur target L A fee np)
    (ht : cur < target) :
    cur ≤ np ∧ np ≤ target ∧
      ∀ pre, deltaIn false cur target L = .ok pre → A * (PCT - fee) / PCT < pre → np < target := by
  obtain ⟨-, pre, h1, h2⟩ := h
  rcases h2 with ⟨h2, rfl⟩ | ⟨h2, h3⟩
  · refine ⟨by omega, Nat.le_refl _, fun pre' h3 h4 => ?_⟩
    rw [h1, ok_inj] at h3
    omega
  · unfold nextSqrtPriceFromInput at h3
    simp only [Bool.false_eq_true, if_false] at h3
    generalize A * (PCT - fee) / PCT = y at *
    obtain ⟨-, h4, h5, h6⟩ := yDown_add h3
    obtain ⟨-, h7, h8⟩ := getDeltaY_up ((deltaIn_false _ _ _).symm.trans h1)
    rw [absDiff_le (by omega)] at h7 h8
    have key : np < target := by
      by_contra hcon
      have h9 : (target - cur) * L ≤ (np - cur) * L := Nat.mul_le_mul_right _ (by omega)
      generalize (10 : Nat) ^ 30 = K at *
      have h10 : (y + 1) * K ≤ pre * K := Nat.mul_le_mul_right _ h2
      rw [Nat.succ_mul] at h10
      omega
    exact ⟨h4, by omega, fun _ _ _ => key⟩

/-- Exact output, X to Y: the price falls to the target at most. -/
theorem next_out_xy {cur target L A np : Nat} (h : NextOut true cur target L A np)
    (ht : target ≤ cur) : target ≤ np ∧ np ≤ cur := by
  obtain ⟨pre, h1, h2⟩ := h
  rcases h2 with ⟨-, rfl⟩ | ⟨h2, h3⟩
  · exact ⟨Nat.le_refl _, ht⟩
  · unfold nextSqrtPriceFromOutput at h3
    simp only [if_true] at h3
    obtain ⟨h4, h5, h6⟩ := yDown_sub h3
    obtain ⟨-, h7, h8⟩ := getDeltaY_down ((deltaOut_true _ _ _).symm.trans h1)
    rw [absDiff_le ht] at h7 h8
    refine ⟨?_, h4⟩
    by_contra hcon
    have h9 : (cur - target + 1) * L ≤ (cur - np) * L := Nat.mul_le_mul_right _ (by omega)
    rw [Nat.succ_mul] at h9
    generalize (10 : Nat) ^ 30 = K at *
    have h10 : (A + 1) * K ≤ pre * K := Nat.mul_le_mul_right _ h2
    rw [Nat.succ_mul] at h10
    omega

theorem xSub_ge {p L x q S : Nat} (hx : p * x < L * S) (h : p * L * S ≤ q * (L * S - p * x)) : p ≤ q := by
  by_contra hc
  have h1 : (q + 1) * (L * S - p * x) ≤ p * (L * S - p * x) := Nat.mul_le_mul_right _ (by omega)
  have h2 : p * (L * S - p * x) ≤ p * (L * S) := Nat.mul_le_mul_left _ (by omega)
  have e : p * (L * S) = p * L * S := by ring
  rw [Nat.succ_mul] at h1
  omega

theorem xSub_le {p t L x q S T K : Nat} (hT : T = K * S) (h0 : T ≤ p * t) (hx : p * x < L * S) (htp : p ≤ t)
    (h1 : (x + 1) * (p * t) ≤ (t - p) * L * S)
    (h : q * (L * S - p * x) < (p * L + K) * S + (L * S - p * x)) : q ≤ t := by
  by_contra hc
  have h2 : (t + 1) * (L * S - p * x) ≤ q * (L * S - p * x) := Nat.mul_le_mul_right _ (by omega)
  obtain ⟨D, hD⟩ : ∃ D, L * S = p * x + D := ⟨L * S - p * x, by omega⟩
  obtain ⟨g, rfl⟩ : ∃ g, t = p + g := ⟨t - p, by omega⟩
  rw [Nat.add_sub_cancel_left] at h1
  have e1 : L * S - p * x = D := by omega
  rw [e1] at h h2
  have e2 : (p * L + K) * S = p * (L * S) + K * S := by ring
  have e3 : g * L * S = g * (L * S) := by ring
  rw [e2, hD] at h
  rw [e3, hD] at h1
  rw [Nat.succ_mul] at h2
  nlinarith

/-- Exact output, Y to X: the price rises to the target at most. -/
theorem next_out_yx {cur target L A np : Nat} (h : NextOut false cur target L A np)
    (ht : cur < target) (hc : SPR ≤ cur * cur) : cur ≤ np ∧ np ≤ target := by
  obtain ⟨pre, h1, h2⟩ := h
  rcases h2 with ⟨-, rfl⟩ | ⟨h2, h3⟩
  · exact ⟨by omega, Nat.le_refl _⟩
  · unfold nextSqrtPriceFromOutput at h3
    simp only [Bool.false_eq_true, if_false] at h3
    by_cases hx : A = 0
    · unfold nextSqrtPriceXUp at h3
      rw [if_pos hx, ok_inj] at h3
      omega
    · obtain ⟨-, h4, h5, h6⟩ := xUp_sub h3 hx
      obtain ⟨-, -, -, h7, h8⟩ := getDeltaX_down ((deltaOut_false _ _ _).symm.trans h1)
      rw [absDiff_le (by omega)] at h7
      have e : SPR = 10 ^ 6 * 10 ^ 18 := spr_eq
      have h9 : (A + 1) * (cur * target) ≤ (target - cur) * L * 10 ^ 18 :=
        Nat.le_trans (Nat.mul_le_mul_right _ h2) h7
      have h10 : SPR ≤ cur * target := Nat.le_trans hc (Nat.mul_le_mul_left _ (by omega))
      exact ⟨xSub_ge h4 h5, xSub_le e h10 h4 (by omega) h9 h6⟩

theorem fee_fits {A fee pre K : Nat} (hK : 0 < K) (hf : fee ≤ K) (h : pre ≤ A * (K - fee) / K) :
    pre + (pre * fee + (K - 1)) / K ≤ A := by
  have h1 : pre * K ≤ A * (K - fee) := (Nat.le_div_iff_mul_le hK).1 h
  obtain ⟨g, rfl⟩ : ∃ g, K = fee + g := ⟨K - fee, by omega⟩
  rw [Nat.add_sub_cancel_left] at h1
  have hle : pre ≤ A := by
    have : pre * (fee + g) ≤ A * (fee + g) := Nat.le_trans h1 (Nat.mul_le_mul_left _ (by omega))
    exact Nat.le_of_mul_le_mul_right this hK
  obtain ⟨e, rfl⟩ : ∃ e, A = pre + e := ⟨A - pre, by omega⟩
  have h2 : (pre * fee + (fee + g - 1)) / (fee + g) < e + 1 := by
    rw [Nat.div_lt_iff_lt_mul hK]
    have : pre * fee ≤ e * g := by nlinarith
    have : e * g ≤ e * (fee + g) := Nat.mul_le_mul_left _ (by omega)
    rw [Nat.succ_mul]
    omega
  omega

end OraiV3
