import Verif.Lemmas.Refuse
import Verif.Lemmas.Offer

/-!
# When an exact-output swap goes through
-/

namespace OraiV3

/-! ## Price steps -/

/-- An exact-output step whose parts succeed. -/
theorem step_out_of {cur target L A fee np pre i o : Nat} {d : Bool} (hd : decide (cur ≥ target) = d) (hL : L ≠ 0)
    (h2 : deltaOut d cur target L = .ok pre)
    (h3 : (pre ≤ A ∧ np = target) ∨ (A < pre ∧ nextSqrtPriceFromOutput cur L A d = .ok np))
    (h4 : deltaIn d cur np L = .ok i) (h5 : deltaOut d cur np L = .ok o) (h6 : fee ≤ PCT) (h7 : i < U128) :
    ∃ r, computeSwapStep cur target L A false fee = .ok r := by
  have hnp : stepNextPrice cur target L A false fee d = .ok (np, pre) := by
    unfold stepNextPrice
    rw [if_neg (by decide)]
    have hrest : (if A ≥ pre then pure (target, pre)
        else do
          let np ← nextSqrtPriceFromOutput cur L A d
          pure (np, pre) : M (Nat × Nat)) = .ok (np, pre) := by
      rcases h3 with ⟨a, rfl⟩ | ⟨a, b⟩
      · rw [if_pos a]; rfl
      · rw [if_neg (by omega), b, ok_bind]; rfl
    unfold deltaOut at h2
    by_cases hb : d = true
    · rw [if_pos hb] at h2
      simp only [if_pos hb]
      rw [h2, ok_bind]
      exact hrest
    · rw [if_neg hb] at h2
      simp only [if_neg hb]
      rw [h2, ok_bind]
      exact hrest
  unfold computeSwapStep
  rw [if_neg hL]
  simp only [hd]
  rw [hnp, ok_bind]
  have hin : stepAmountIn cur np L pre (decide (target ≠ np) || !false) d = .ok i := by
    unfold stepAmountIn
    rw [if_pos (by simp)]
    rw [← h4]; rfl
  have hout : ∃ o', stepAmountOut cur np L pre (decide (target ≠ np) || false) d = .ok o' := by
    unfold stepAmountOut
    split
    · exact ⟨o, by rw [← h5]; rfl⟩
    · exact ⟨pre, rfl⟩
  obtain ⟨o', hout⟩ := hout
  simp only
  rw [hin, ok_bind, hout, ok_bind]
  have hmul : bigMulUp i fee PCT = .ok ((i * fee + (PCT - 1)) / PCT) := by
    refine cast128_ok.2 ⟨Nat.lt_of_le_of_lt (m := i) ?_ h7, rfl⟩
    exact ceil_le (by norm_num) (Nat.mul_le_mul_left _ h6)
  rw [if_neg (by simp), hmul, ok_bind]
  exact ⟨_, rfl⟩

theorem xUp_sub_of {p L x K : Nat} (hp : p * x < L * 10 ^ 18) (hK : K < U128)
    (h : (p * L + LIQ) * 10 ^ 18 ≤ K * (L * 10 ^ 18 - p * x)) : ∃ q, nextSqrtPriceXUp p L x false = .ok q := by
  unfold nextSqrtPriceXUp
  by_cases hx0 : x = 0
  · rw [if_pos hx0]; exact ⟨p, rfl⟩
  rw [if_neg hx0]
  dsimp only
  rw [if_neg (by decide), if_neg (by omega)]
  unfold checkedBigDivUp
  have hden : 0 < L * 10 ^ 18 - p * x := by omega
  rw [if_neg (by omega)]
  refine ⟨_, cast128_of_lt (Nat.lt_of_le_of_lt (m := K) ?_ hK)⟩
  refine ceil_le hden (Nat.le_trans ?_ h)
  have c1 := ceil_spec (p * L) LIQ (by norm_num)
  have hs : SPR = LIQ * 10 ^ 18 := spr_eq
  generalize (p * L + (LIQ - 1)) / LIQ = c at *
  have g1 : c * LIQ ≤ p * L + LIQ := by linarith
  calc c * SPR = c * LIQ * 10 ^ 18 := by rw [hs]; ring
    _ ≤ (p * L + LIQ) * 10 ^ 18 := Nat.mul_le_mul_right _ g1

/-- Taking less X than a move gives. -/
theorem xUp_sub_step {p t L x pre : Nat} (hp : MIN_SQRT_PRICE ≤ p) (hpt : p < t) (ht : t ≤ MAX_SQRT_PRICE)
    (h : getDeltaX p t L false = .ok pre) (hx : x < pre) : ∃ q, nextSqrtPriceXUp p L x false = .ok q := by
  obtain ⟨-, -, -, g, -⟩ := getDeltaX_down h
  have gd : absDiff p t = t - p := absDiff_le (by omega)
  rw [gd] at g
  have k1 : (x + 1) * (p * t) ≤ pre * (p * t) := Nat.mul_le_mul_right _ hx
  have k2 : SPR ≤ p * t := Nat.le_trans (sq_ge hp) (Nat.mul_le_mul_left _ (by omega))
  have hM : MAX_SQRT_PRICE < U128 := by norm_num
  have hs : SPR = LIQ * 10 ^ 18 := spr_eq
  obtain ⟨w, rfl⟩ : ∃ w, t = p + w := ⟨t - p, by omega⟩
  rw [Nat.add_sub_cancel_left] at g
  have k3 : (x + 1) * (p * (p + w)) ≤ w * L * 10 ^ 18 := by omega
  have hlt : p * x < L * 10 ^ 18 := by
    by_contra hc
    have h1 : (L * 10 ^ 18) * (p + w) ≤ p * x * (p + w) := Nat.mul_le_mul_right _ (by omega)
    have h2 : (x + 1) * (p * (p + w)) = p * x * (p + w) + p * (p + w) := by ring
    have h3 : (L * 10 ^ 18) * (p + w) = w * L * 10 ^ 18 + L * 10 ^ 18 * p := by ring
    have h4 : 0 < SPR := by norm_num
    omega
  refine xUp_sub_of (K := p + w) hlt (by omega) ?_
  obtain ⟨z, hz⟩ : ∃ z, L * 10 ^ 18 = p * x + z := ⟨L * 10 ^ 18 - p * x, by omega⟩
  rw [hz, Nat.add_sub_cancel_left]
  have e1 : (p * L + LIQ) * 10 ^ 18 = p * (L * 10 ^ 18) + LIQ * 10 ^ 18 := by ring
  have e2 : w * L * 10 ^ 18 = w * (L * 10 ^ 18) := by ring
  rw [e1, ← hs, hz]
  rw [e2, hz] at k3
  have e3 : (x + 1) * (p * (p + w)) = (p + w) * (p * x) + p * (p + w) := by ring
  have e4 : (p + w) * (p * x) = p * (p * x) + w * (p * x) := by ring
  have e5 : w * (p * x + z) = w * (p * x) + w * z := by ring
  have e6 : p * (p * x + z) = p * (p * x) + p * z := by ring
  have e7 : (p + w) * z = p * z + w * z := by ring
  omega

theorem step_out_ok {cur target L A fee : Nat} {d : Bool} (hL : L < U128) (hd : if d then target ≤ cur else cur < target)
    (hc : MIN_SQRT_PRICE ≤ cur) (hC : cur ≤ MAX_SQRT_PRICE)
    (ht : MIN_SQRT_PRICE ≤ target) (hT : target ≤ MAX_SQRT_PRICE) (hf : fee ≤ PCT) :
    ∃ r, computeSwapStep cur target L A false fee = .ok r := by
  by_cases h0 : L = 0
  · exact ⟨⟨target, 0, 0, 0⟩, by unfold computeSwapStep; rw [if_pos h0]⟩
  have hM : MAX_SQRT_PRICE < U128 := by norm_num
  cases d
  · rw [if_neg (by decide)] at hd
    obtain ⟨pre, h2⟩ := getDeltaX_down_ok (a := cur) (b := target) (L := L) hc ht hL
    have h2' : deltaOut false cur target L = .ok pre := by rw [deltaOut_buy]; exact h2
    have hnext : ∃ np, (pre ≤ A ∧ np = target) ∨ (A < pre ∧ nextSqrtPriceFromOutput cur L A false = .ok np) := by
      by_cases hle : pre ≤ A
      · exact ⟨target, .inl ⟨hle, rfl⟩⟩
      · obtain ⟨q, hq⟩ := xUp_sub_step hc hd hT h2 (x := A) (by omega)
        exact ⟨q, .inr ⟨by omega, by unfold nextSqrtPriceFromOutput; rw [if_neg (by decide)]; exact hq⟩⟩
    obtain ⟨np, h3⟩ := hnext
    have h8 := next_out_yx (cur := cur) (target := target) (L := L) (A := A) (np := np) ⟨pre, h2', h3⟩ hd
      (sq_ge hc)
    obtain ⟨i, h4⟩ := getDeltaY_up_ok (a := cur) (b := np) (L := L) hC (by omega) hL
    obtain ⟨o, h5⟩ := getDeltaX_down_ok (a := cur) (b := np) (L := L) hc (by omega) hL
    exact step_out_of (decide_eq_false (by omega)) h0 h2' h3 (i := i) (o := o) (by rw [deltaIn_buy]; exact h4)
      (by rw [deltaOut_buy]; exact h5) hf (getDeltaY_up h4).1
  · rw [if_pos rfl] at hd
    obtain ⟨pre, h2⟩ := getDeltaY_down_ok (a := target) (b := cur) (L := L) hT hC hL
    have h2' : deltaOut true cur target L = .ok pre := by rw [deltaOut_sell]; exact h2
    have hnext : ∃ np, (pre ≤ A ∧ np = target) ∨ (A < pre ∧ nextSqrtPriceFromOutput cur L A true = .ok np) := by
      by_cases hle : pre ≤ A
      · exact ⟨target, .inl ⟨hle, rfl⟩⟩
      · obtain ⟨-, g, -⟩ := getDeltaY_down h2
        rw [absDiff_le hd] at g
        obtain ⟨q, hq, -⟩ := yDown_exists (p := cur) (L := L) (y := A) (t := target) (by omega) h0 hd
          (Nat.le_trans (Nat.mul_le_mul_right _ (by omega)) g)
        exact ⟨q, .inr ⟨by omega, by unfold nextSqrtPriceFromOutput; rw [if_pos rfl]; exact hq⟩⟩
    obtain ⟨np, h3⟩ := hnext
    have h8 := next_out_xy (cur := cur) (target := target) (L := L) (A := A) (np := np) ⟨pre, h2', h3⟩ hd
    obtain ⟨i, h4⟩ := getDeltaX_up_ok (a := np) (b := cur) (L := L) (by omega) hc hL
    obtain ⟨o, h5⟩ := getDeltaY_down_ok (a := np) (b := cur) (L := L) (by omega) hC hL
    exact step_out_of (decide_eq_true hd) h0 h2' h3 (i := i) (o := o) (by rw [deltaIn_sell]; exact h4)
      (by rw [deltaOut_sell]; exact h5) hf (getDeltaX_up h4).1

/-! ## Arriving at a tick -/

theorem isEnough_out_sell {A p L fee : Nat} (hp : p < U128) (h : L = 0 ∨ A * 10 ^ 30 ≤ L * p) :
    ∃ e, isEnoughAmountToChangePrice A p L fee false true = .ok e := by
  unfold isEnoughAmountToChangePrice
  by_cases h0 : L = 0
  · rw [if_pos h0]; exact ⟨true, rfl⟩
  · rw [if_neg h0]
    dsimp only
    rw [if_neg (by decide)]
    obtain ⟨q, hq, -⟩ := yDown_exists (p := p) (L := L) (y := A) (t := 0) hp h0 (Nat.zero_le _) (by
      rw [Nat.sub_zero, Nat.mul_comm p]; omega)
    unfold nextSqrtPriceFromOutput
    rw [if_pos rfl, hq, ok_bind]
    exact ⟨_, rfl⟩

theorem isEnough_out_buy {A p L fee : Nat} (hp : p ≤ MAX_SQRT_PRICE) (h : L = 0 ∨ 2 * (A * p) ≤ L * 10 ^ 18) :
    ∃ e, isEnoughAmountToChangePrice A p L fee false false = .ok e := by
  unfold isEnoughAmountToChangePrice
  by_cases h0 : L = 0
  · rw [if_pos h0]; exact ⟨true, rfl⟩
  · rw [if_neg h0]
    dsimp only
    rw [if_neg (by decide)]
    have h' : 2 * (p * A) ≤ L * 10 ^ 18 := by rw [Nat.mul_comm p]; omega
    have hpos : 0 < L * 10 ^ 18 := Nat.mul_pos (by omega) (by norm_num)
    obtain ⟨q, hq⟩ := xUp_sub_of (p := p) (L := L) (x := A) (K := 2 * p + SPR) (by omega)
      (Nat.lt_of_le_of_lt (Nat.add_le_add_right (Nat.mul_le_mul_left 2 hp) _) (by norm_num))
      (by
        obtain ⟨z, hz⟩ : ∃ z, L * 10 ^ 18 = p * A + z := ⟨L * 10 ^ 18 - p * A, by omega⟩
        have hz1 : p * A ≤ z := by omega
        have hz2 : 1 ≤ z := by omega
        have e1 : (p * L + LIQ) * 10 ^ 18 = p * (L * 10 ^ 18) + SPR := by rw [spr_eq]; ring
        rw [e1, hz, Nat.add_sub_cancel_left]
        have e2 : p * (p * A) ≤ p * z := Nat.mul_le_mul_left _ hz1
        have e3 : SPR ≤ SPR * z := Nat.le_mul_of_pos_right _ hz2
        have e4 : (2 * p + SPR) * z = p * z + p * z + SPR * z := by ring
        have e5 : p * (p * A + z) = p * (p * A) + p * z := by ring
        rw [e4, e5]
        omega)
    unfold nextSqrtPriceFromOutput
    rw [if_neg (by decide), hq, ok_bind]
    exact ⟨_, rfl⟩

theorem updateTick_out_ends {pool : Pool} {np sl : Nat} {upd : TickUpd} {rem : Nat} {d : Bool} {now pf : Nat} {tier : FeeTier}
    {P : Err → Prop} (h0 : tier.spacing ≠ 0) (h1 : np ≤ MAX_SQRT_PRICE) (h2 : MIN_SQRT_PRICE ≤ np)
    (h3 : upd ≠ .noTick → sl = np → ∃ e, isEnoughAmountToChangePrice rem np pool.liquidity tier.fee false d = .ok e)
    (h4 : ∀ t, upd = .init t → sl = np → ∃ tp, t.cross pool now = .ok tp) :
    Ends P (pool.updateTick np sl upd rem false d now pf tier) := by
  unfold Pool.updateTick
  by_cases hc : upd = .noTick ∨ sl ≠ np
  · rw [if_pos hc]
    obtain ⟨t, ht⟩ := getTick_exists h2 h1 (Nat.pos_of_ne_zero h0)
    rw [ht]; exact .ok
  · rw [if_neg hc]
    have hu : upd ≠ .noTick := fun hh => hc (.inl hh)
    have hsl : sl = np := by
      by_contra hh; exact hc (.inr hh)
    obtain ⟨e, he⟩ := h3 hu hsl
    rw [he, ok_bind]
    cases upd with
    | noTick => exact absurd rfl hu
    | uninit i => exact .ok
    | init t =>
      dsimp only
      split
      · obtain ⟨tp, htp⟩ := h4 t rfl hsl
        rw [htp]
        exact .ok
      · split
        · rw [if_neg (by decide)]; exact .ok
        · exact .ok

/-! ## Totals -/

/-- More than any swap charges, without the fee, for moving the price from `a` to `b`. -/
def costBound (d : Bool) (a b : Nat) : ℚ :=
  if d then 2 * (U128 : ℚ) * 10 ^ 18 * (1 / (b : ℚ) - 1 / (a : ℚ)) + 2 * ((a : ℚ) - b)
  else 2 * (U128 : ℚ) / 10 ^ 30 * ((b : ℚ) - a)

theorem costBound_self (d : Bool) (a : Nat) : costBound d a a = 0 := by
  unfold costBound
  cases d <;> simp

theorem costBound_add (d : Bool) (a b c : Nat) : costBound d a b + costBound d b c = costBound d a c := by
  unfold costBound
  cases d
  · simp only [Bool.false_eq_true, if_false]; ring
  · simp only [if_true]; ring

theorem costBound_lt {d : Bool} {a b : Nat} (h : if d then b ≤ a else a ≤ b) (h1 : MIN_SQRT_PRICE ≤ a) (h2 : a ≤ MAX_SQRT_PRICE)
    (h3 : MIN_SQRT_PRICE ≤ b) (h4 : b ≤ MAX_SQRT_PRICE) : 7 * costBound d a b < (U128 : ℚ) := by
  have hM : (MAX_SQRT_PRICE : ℚ) ≤ 66 * 10 ^ 27 := by norm_num
  have hb : (b : ℚ) ≤ 66 * 10 ^ 27 := le_trans (by exact_mod_cast h4) hM
  have ha : (a : ℚ) ≤ 66 * 10 ^ 27 := le_trans (by exact_mod_cast h2) hM
  have hb0 : (0 : ℚ) ≤ b := by positivity
  have ha0 : (0 : ℚ) ≤ a := by positivity
  unfold costBound
  cases d
  · simp only [Bool.false_eq_true, if_false]
    have : 2 * (U128 : ℚ) / 10 ^ 30 * ((b : ℚ) - a) ≤ 2 * (U128 : ℚ) / 10 ^ 30 * (66 * 10 ^ 27) :=
      mul_le_mul_of_nonneg_left (by linarith) (by positivity)
    have h6 : 7 * (2 * (U128 : ℚ) / 10 ^ 30 * (66 * 10 ^ 27)) < (U128 : ℚ) := by norm_num
    linarith
  · simp only [if_true]
    have hm : (152 : ℚ) * 10 ^ 17 ≤ b := by
      have : 152 * 10 ^ 17 ≤ b := Nat.le_trans (by norm_num) h3
      exact_mod_cast this
    have hq : 1 / (b : ℚ) ≤ 1 / (152 * 10 ^ 17) := one_div_le_one_div_of_le (by positivity) hm
    have hp : (0 : ℚ) ≤ 1 / (a : ℚ) := by positivity
    have h5 : 2 * (U128 : ℚ) * 10 ^ 18 * (1 / (b : ℚ) - 1 / (a : ℚ)) ≤ 2 * (U128 : ℚ) * 10 ^ 18 * (1 / (152 * 10 ^ 17)) :=
      mul_le_mul_of_nonneg_left (by linarith) (by positivity)
    have h6 : 7 * (2 * (U128 : ℚ) * 10 ^ 18 * (1 / (152 * 10 ^ 17)) + 2 * (66 * 10 ^ 27)) < (U128 : ℚ) := by norm_num
    linarith

theorem getDeltaX_still {a L x : Nat} (h : getDeltaX a a L true = .ok x) : x = 0 := by
  unfold getDeltaX at h
  simp only [if_true] at h
  have e : absDiff a a = 0 := by unfold absDiff; split <;> omega
  rw [e, Nat.zero_mul, Nat.zero_div] at h
  obtain ⟨h0, h1, h2, h3⟩ := divToTokenUp_inv h
  by_contra hc
  have : 1 * (a * a / SPR) ≤ x * (a * a / SPR) := Nat.mul_le_mul_right _ (by omega)
  omega

/-- What an exact-output step charges. -/
theorem step_cost {cur target L A fee : Nat} {r : SwapResult} {d : Bool} (hs : computeSwapStep cur target L A false fee = .ok r)
    (hL : L < U128) (hd : if d then target ≤ cur else cur < target) (hc : MIN_SQRT_PRICE ≤ cur) (ht : MIN_SQRT_PRICE ≤ target)
    (hf : fee ≤ PCT) :
    (r.amountIn : ℚ) ≤ costBound d cur r.nextPrice ∧ r.feeAmount ≤ r.amountIn ∧ (if d then r.nextPrice ≤ cur else cur ≤ r.nextPrice) := by
  have hsp := (step_price hs hd (sq_ge hc)).1
  have hU : (L : ℚ) ≤ (U128 : ℚ) := by exact_mod_cast Nat.le_of_lt hL
  have hU0 : (10 : ℚ) ^ 30 ≤ (U128 : ℚ) := by norm_num
  have hcq : (0 : ℚ) < cur := by
    have : 0 < cur := Nat.lt_of_lt_of_le (by norm_num) hc
    exact_mod_cast this
  by_cases hz : L = 0
  · rw [hz] at hs
    have := step_zero hs
    subst this
    refine ⟨?_, Nat.le_refl _, by cases d <;> simp_all⟩
    unfold costBound
    cases d
    · simp only [Bool.false_eq_true, if_false] at hd ⊢
      have : (cur : ℚ) ≤ target := by exact_mod_cast Nat.le_of_lt hd
      have h1 : (0 : ℚ) ≤ (target : ℚ) - cur := by linarith
      have := mul_nonneg (show (0 : ℚ) ≤ 2 * (U128 : ℚ) / 10 ^ 30 by positivity) h1
      simpa using this
    · simp only [if_true] at hd ⊢
      have h1 : (target : ℚ) ≤ cur := by exact_mod_cast hd
      have h0 : (0 : ℚ) < target := by
        have : 0 < target := Nat.lt_of_lt_of_le (by norm_num) ht
        exact_mod_cast this
      have h2 : 1 / (cur : ℚ) ≤ 1 / (target : ℚ) := one_div_le_one_div_of_le h0 h1
      have h3 := mul_nonneg (show (0 : ℚ) ≤ 2 * (U128 : ℚ) * 10 ^ 18 by positivity) (show (0 : ℚ) ≤ 1 / (target : ℚ) - 1 / (cur : ℚ) by linarith)
      push_cast
      linarith
  · obtain ⟨-, a2, -, a4⟩ := step_view hs hz
    rw [if_neg (fun hh => by cases hh.1)] at a4
    refine ⟨?_, by rw [a4]; exact feeOf_le hf, by cases d <;> simp_all⟩
    unfold costBound
    cases d
    · simp only [Bool.false_eq_true, if_false] at hd hsp ⊢
      rw [decide_eq_false (by omega), deltaIn_buy] at a2
      obtain ⟨-, -, g⟩ := getDeltaY_up a2
      rw [absDiff_le hsp.1] at g
      have hle : (cur : ℚ) ≤ r.nextPrice := by exact_mod_cast hsp.1
      have g' : (r.amountIn : ℚ) * 10 ^ 30 < ((r.nextPrice : ℚ) - cur) * L + 10 ^ 30 := by
        have : ((r.amountIn * 10 ^ 30 : Nat) : ℚ) < (((r.nextPrice - cur) * L + 10 ^ 30 : Nat) : ℚ) := by exact_mod_cast g
        push_cast [Nat.cast_sub hsp.1] at this
        exact this
      rcases Nat.eq_or_lt_of_le hsp.1 with he | hlt
      · rw [← he] at g ⊢
        have : r.amountIn = 0 := by
          rw [Nat.sub_self, Nat.zero_mul, Nat.zero_add] at g
          by_contra hc'
          have : 1 * 10 ^ 30 ≤ r.amountIn * 10 ^ 30 := Nat.mul_le_mul_right _ (by omega)
          omega
        rw [this]; simp
      · have h1 : (1 : ℚ) ≤ (r.nextPrice : ℚ) - cur := by
          have : ((cur + 1 : Nat) : ℚ) ≤ r.nextPrice := by exact_mod_cast hlt
          push_cast at this; linarith
        have e : 2 * (U128 : ℚ) / 10 ^ 30 * ((r.nextPrice : ℚ) - cur) = (2 * (U128 : ℚ) * ((r.nextPrice : ℚ) - cur)) / 10 ^ 30 := by ring
        rw [e, le_div_iff₀ (by positivity)]
        generalize (r.nextPrice : ℚ) - cur = D at *
        have h2 : D * L ≤ D * (U128 : ℚ) := mul_le_mul_of_nonneg_left hU (by linarith)
        have h3 : (U128 : ℚ) * 1 ≤ (U128 : ℚ) * D := mul_le_mul_of_nonneg_left h1 (by positivity)
        generalize (U128 : ℚ) = U at *
        linarith
    · simp only [if_true] at hd hsp ⊢
      rw [decide_eq_true (show cur ≥ target from hd), deltaIn_sell] at a2
      have hnp : MIN_SQRT_PRICE ≤ r.nextPrice := by
        by_contra hh
        have := hsp.2 (by omega)
        cases this.1
      rcases Nat.eq_or_lt_of_le hsp.1 with he | hlt
      · rw [he] at a2 ⊢
        rw [getDeltaX_still a2]; simp
      · obtain ⟨-, -, -, -, g⟩ := getDeltaX_up a2
        rw [absDiff_le hsp.1] at g
        have hW : 10 ^ 26 ≤ r.nextPrice * cur := by
          calc 10 ^ 26 ≤ MIN_SQRT_PRICE * MIN_SQRT_PRICE := by norm_num
            _ ≤ r.nextPrice * cur := Nat.mul_le_mul hnp hc
        have hn0 : (0 : ℚ) < r.nextPrice := by
          have : 0 < r.nextPrice := Nat.lt_of_lt_of_le (by norm_num) hnp
          exact_mod_cast this
        have hS : ((SPR : Nat) : ℚ) = 10 ^ 24 := by norm_num
        have g' : (r.amountIn : ℚ) * (r.nextPrice * cur) ≤ ((cur : ℚ) - r.nextPrice) * L * 10 ^ 18 + r.nextPrice * cur + r.amountIn * 10 ^ 24 := by
          have : ((r.amountIn * (r.nextPrice * cur) : Nat) : ℚ) ≤ (((cur - r.nextPrice) * L * 10 ^ 18 + r.nextPrice * cur + r.amountIn * SPR : Nat) : ℚ) := by
            exact_mod_cast g
          push_cast [Nat.cast_sub hsp.1] at this
          exact this
        have hW' : (10 : ℚ) ^ 26 ≤ (r.nextPrice : ℚ) * cur := by exact_mod_cast hW
        have h1 : (1 : ℚ) ≤ (cur : ℚ) - r.nextPrice := by
          have : ((r.nextPrice + 1 : Nat) : ℚ) ≤ cur := by exact_mod_cast hlt
          push_cast at this; linarith
        have e2 : 1 / (r.nextPrice : ℚ) - 1 / (cur : ℚ) = ((cur : ℚ) - r.nextPrice) / (r.nextPrice * cur) := by
          field_simp
        have hx0 : (0 : ℚ) ≤ r.amountIn := by positivity
        have hWpos : (0 : ℚ) < (r.nextPrice : ℚ) * cur := by positivity
        rw [e2]
        generalize (r.nextPrice : ℚ) * cur = W at *
        generalize (cur : ℚ) - r.nextPrice = D at *
        generalize (r.amountIn : ℚ) = x at *
        have h2 : D * L * 10 ^ 18 ≤ D * (U128 : ℚ) * 10 ^ 18 :=
          mul_le_mul_of_nonneg_right (mul_le_mul_of_nonneg_left hU (by linarith)) (by positivity)
        have h3 : x * 10 ^ 24 ≤ x * (W / 100) := mul_le_mul_of_nonneg_left (by linarith) hx0
        generalize (U128 : ℚ) = U at *
        have h3' : x * (W / 100) = x * W * (1 / 100) := by ring
        have h4 : x * W * (99 / 100) ≤ D * U * 10 ^ 18 + W := by
          rw [h3'] at h3
          linarith
        have h5 : x * W ≤ 2 * (D * U * 10 ^ 18) + 2 * W := by
          have : 0 ≤ x * W := mul_nonneg hx0 (le_of_lt hWpos)
          linarith
        have h6 : x ≤ (2 * (D * U * 10 ^ 18) + 2 * W) / W := by rw [le_div_iff₀ hWpos]; exact h5
        have h7 : (2 * (D * U * 10 ^ 18) + 2 * W) / W = 2 * U * 10 ^ 18 * (D / W) + 2 := by
          field_simp
        rw [h7] at h6
        linarith

/-- The books of an exact-output swap while it runs. -/
structure OutBooks (d : Bool) (p : Pool) (amount : Nat) (st : SwapState) : Prop where
  total : st.remaining + st.totalOut = amount
  dir : if d then st.pool.sqrtPrice ≤ p.sqrtPrice else p.sqrtPrice ≤ st.pool.sqrtPrice
  fee : (st.fee : ℚ) ≤ costBound d p.sqrtPrice st.pool.sqrtPrice
  cost : (st.totalIn : ℚ) ≤ 2 * costBound d p.sqrtPrice st.pool.sqrtPrice
  proto : st.pool.protoOf d ≤ p.protoOf d + st.fee
  start : st.pool.startTs = p.startTs

theorem outBooks_start (d : Bool) (p : Pool) (amount : Nat) : OutBooks d p amount (swapStart p amount) where
  total := Nat.add_zero _
  dir := by unfold swapStart; cases d <;> simp
  fee := by unfold swapStart; simp [costBound_self]
  cost := by unfold swapStart; simp [costBound_self]
  proto := Nat.le_refl _
  start := rfl

theorem OutBooks.next {s : Store} {pr : SwapParams} {st st' : SwapState} {i : Int} {ini : Bool} {r : SwapResult}
    {cfg : Config} {p1 p : Pool} {rem amount : Nat} {u : TickUpdRes} (hv : IterView s pr st st' i ini r cfg p1 rem u)
    (hin : pr.byAmountIn = false)
    (hlo : LoopOk pr.xToY pr.key.tier.spacing pr.limit st.pool st.remaining) (hr : st.remaining ≠ 0)
    (hL : st.pool.liquidity < U128) (hf : pr.key.tier.fee ≤ PCT)
    (h : OutBooks pr.xToY p amount st) : OutBooks pr.xToY p amount st' := by
  obtain ⟨q, hq, hp1⟩ := hv.fee
  have k1 : p1.protoOf pr.xToY ≤ st.pool.protoOf pr.xToY + r.feeAmount := by
    rw [hp1]; exact (Pool.addFee_proto hq :)
  have hu : u.total = 0 ∧ u.pool.protoOf pr.xToY = p1.protoOf pr.xToY := by
    rcases hv.fin with ⟨t, c1, c2, upd, rfl⟩ | ⟨e, c1, c2, c3, c4, rfl⟩ | ⟨e, t, tp, c1, c2, c3, c4, c5, c6, c7, c8, rfl⟩ |
      ⟨t, c1, c2, c3, c4, c5, c6, c7, c8⟩
    · exact ⟨rfl, rfl⟩
    · exact ⟨rfl, rfl⟩
    · exact ⟨rfl, Tick.cross_proto c8 _⟩
    · rcases c8 with ⟨d1, d2, p, d3, rfl⟩ | ⟨d1, rfl⟩
      · rw [hin] at d2; cases d2
      · exact ⟨rfl, rfl⟩
  have e1 := hv.eq
  have hpe := iter_price_eq hv
  have hs := hv.step
  rw [hin] at hs
  obtain ⟨t1, t2⟩ := step_target hlo hr hv.ok hv.dir
  obtain ⟨s1, s2, s3⟩ := step_cost hs hL (target_ahead hlo hr hv.ok hv.dir) hlo.min t1 hf
  have s2' : (r.feeAmount : ℚ) ≤ r.amountIn := by exact_mod_cast s2
  have hcost := costBound_add pr.xToY p.sqrtPrice st.pool.sqrtPrice r.nextPrice
  refine ⟨by rw [iter_out hv hin]; exact h.total, ?_, ?_, ?_, ?_, (iter_start hv).2.trans h.start⟩
  · rw [hpe]
    have := h.dir
    cases hx : pr.xToY
    · rw [hx] at this s3; simp only [Bool.false_eq_true, if_false] at this s3 ⊢; omega
    · rw [hx] at this s3; simp only [if_true] at this s3 ⊢; omega
  · rw [hpe, ← hcost]
    have e2 : st'.fee = st.fee + r.feeAmount := by rw [e1]
    rw [e2, Nat.cast_add]
    linarith [h.fee]
  · rw [hpe, ← hcost]
    have e2 : st'.totalIn = st.totalIn + (r.amountIn + r.feeAmount) := by rw [e1]; simp only; rw [hu.1]; rfl
    rw [e2, Nat.cast_add, Nat.cast_add]
    linarith [h.cost]
  · have e2 : st'.fee = st.fee + r.feeAmount := by rw [e1]
    have e3 : st'.pool = u.pool := by rw [e1]
    rw [e2, e3, hu.2]
    have := h.proto
    omega

/-- The fee of an exact-output step is small compared with the liquidity it is shared by. -/
theorem step_out_fee_le {cur target L A fee : Nat} {r : SwapResult} {d : Bool} (h : computeSwapStep cur target L A false fee = .ok r)
    (hd : if d then target ≤ cur else cur < target)
    (hL : L ≠ 0) (hf : fee ≤ PCT) (h1 : MIN_SQRT_PRICE ≤ cur) (h2 : MIN_SQRT_PRICE ≤ target)
    (h3 : cur ≤ MAX_SQRT_PRICE) (h4 : target ≤ MAX_SQRT_PRICE) : r.feeAmount ≤ 10 ^ 4 * (L + 2) := by
  have hsp := C26_out_target h1 h
  obtain ⟨-, a2, -, a4⟩ := step_view h hL
  rw [if_neg (fun hh => by cases hh.1)] at a4
  have b2 := feeOf_le (a := r.amountIn) (fee := fee) hf
  have hm : 11 * 10 ^ 18 ≤ MIN_SQRT_PRICE := by norm_num
  have : r.amountIn ≤ L + 2 := by
    cases d
    · rw [if_neg (by decide)] at hd
      rw [if_neg (by omega)] at hsp
      rw [decide_eq_false (by omega), deltaIn_buy] at a2
      exact getDeltaY_up_le h3 (by omega) a2
    · rw [if_pos rfl] at hd
      rw [if_pos hd] at hsp
      rw [decide_eq_true (show cur ≥ target from hd), deltaIn_sell] at a2
      exact getDeltaX_up_le (by omega) (by omega) a2
  omega

/-! ## The loop -/

/-- What an exact-output swap needs in order to be refused for the stated reasons only. -/
structure OutFits (s : Store) (k : PoolKey) (p : Pool) (d : Bool) (amount limit now : Nat) : Prop where
  config : ∀ cfg, s.config = some cfg → cfg.protocolFee ≤ PCT
  proto : p.protoOf d < 2 ^ 127
  clock : p.startTs ≤ now
  thin : ∀ i, TickOk k.tier.spacing i →
    if d then limit ≤ sqrtPriceAt i → sqrtPriceAt i ≤ p.sqrtPrice →
      liquidityInRange s k i = 0 ∨ amount * 10 ^ 30 ≤ liquidityInRange s k i * sqrtPriceAt i
    else sqrtPriceAt i ≤ limit → p.sqrtPrice < sqrtPriceAt i →
      liquidityInRange s k (i - k.tier.spacing) = 0 ∨
        2 * (amount * sqrtPriceAt i) ≤ liquidityInRange s k (i - k.tier.spacing) * 10 ^ 18

/-- The limit lies inside the range of prices in which the pool can be traded. -/
def LimitInside (d : Bool) (ts limit : Nat) : Prop :=
  if d then sqrtPriceAt (getMinTick ts + ts) ≤ limit else limit < sqrtPriceAt (getMaxTick ts)

/-- The search for the next tick fails only at the end of the tick range. -/
theorem getCloserLimit_edge {bm : Nat → Nat} (hbm : ∀ c, bm c < 2 ^ 64) {limit : Nat} {d : Bool} {cur : Int} {ts : Nat}
    (hc : TickOk ts cur) {E : Prop} (hE : cur = (if d then -getMaxTick ts else getMaxTick ts) → E) : Ends (fun e => e = .tickLimitReached ∧ E) (getCloserLimit bm limit d cur ts) := by
  have h1 : ∃ r, (if d then prevInitialized bm cur ts else nextInitialized bm cur ts) = .ok r ∧ ∀ i, r = some i → TickOk ts i := by
    cases d
    · obtain ⟨r, e, hr⟩ := nextInitialized_spec hbm hc
      refine ⟨r, e, fun i hi => ?_⟩
      subst hi; exact hr.2.2.1
    · obtain ⟨r, e, hr⟩ := prevInitialized_spec (bm := bm) hc
      refine ⟨r, e, fun i hi => ?_⟩
      subst hi; exact hr.2.2.1
  have h2 : ∃ i, getSearchLimit cur ts (!d) = .ok i ∧ TickOk ts i ∧ (cur = i → E) := by
    have := hc.pos
    cases d
    · exact ⟨_, getSearchLimit_up hc, upLimit_ok hc, fun h => hE (by rw [if_neg (by decide)]; omega)⟩
    · exact ⟨_, getSearchLimit_down hc, downLimit_ok hc, fun h => hE (by rw [if_pos rfl]; omega)⟩
  obtain ⟨r, h1, hr⟩ := h1
  obtain ⟨j, h2, hj, hedge⟩ := h2
  unfold getCloserLimit
  have hend : ∀ idx : Int × Bool, TickOk ts idx.1 → Ends (fun e => e = Err.tickLimitReached ∧ E) (do
      let p ← calculateSqrtPrice idx.1
      if (d ∧ p > limit) ∨ (¬ d ∧ p < limit) then pure (p, some idx) else pure (limit, none) : M (Nat × Option (Int × Bool))) := by
    intro idx hi
    rw [calculateSqrtPrice_ok' hi, ok_bind]
    split
    · exact .ok
    · exact .ok
  by_cases hd : d = true
  · rw [if_pos hd] at h1 ⊢
    rw [h1, ok_bind]
    cases r with
    | some i => exact hend (i, true) (hr i rfl)
    | none =>
      dsimp only
      rw [h2, ok_bind]
      split
      · rename_i hcur
        intro e he; rw [error_bind] at he; cases he; exact ⟨rfl, hedge hcur⟩
      · exact hend (j, false) hj
  · rw [if_neg hd] at h1 ⊢
    rw [h1, ok_bind]
    cases r with
    | some i => exact hend (i, true) (hr i rfl)
    | none =>
      dsimp only
      rw [h2, ok_bind]
      split
      · rename_i hcur
        intro e he; rw [error_bind] at he; cases he; exact ⟨rfl, hedge hcur⟩
      · exact hend (j, false) hj

theorem maxTick_pos {k : PoolKey} (h : k.tier.Valid) : (k.tier.spacing : Int) ≤ getMaxTick k.tier.spacing := by
  have h1 := h.1
  have h2 := h.2.1
  have hM : MAX_TICK = 221818 := rfl
  exact dvd_le_max (by omega) (Int.dvd_refl _) (by omega)

/-- A swap with a limit inside the range stays inside the range. -/
theorem inside_not_reached {k : PoolKey} {d : Bool} {limit np sl rem now pf : Nat} {upd : TickUpd} {i : Int} {pool : Pool}
    {u : TickUpdRes} (hti : k.tier.Valid) (hin : LimitInside d k.tier.spacing limit)
    (hu : pool.updateTick np sl upd rem false d now pf k.tier = .ok u)
    (hupd : upd = .noTick ∨ (((∃ t, upd = .init t ∧ t.index = i) ∨ upd = .uninit i) ∧
      (if d then limit < sqrtPriceAt i else sqrtPriceAt i < limit)) ∨ sl ≠ np)
    (a1 : TickOk k.tier.spacing i)
    (hnp : if d then limit ≤ np ∧ np ≤ sqrtPriceAt (getMaxTick k.tier.spacing)
      else sqrtPriceAt (-getMaxTick k.tier.spacing) ≤ np ∧ np ≤ limit) :
    reachedTickLimit d k.tier.spacing u.pool.tick = false := by
  have hpos := maxTick_pos hti
  have h0 : 0 < k.tier.spacing := by have := hti.1; omega
  have hmx := maxTick_ok h0
  have hmn := minTick_ok h0
  have hmn1 := hmn.add (by omega)
  have hmono := hmn.price_le hmn1 (by omega)
  have key : ∀ tk, ((∃ enough, tk = if d && enough then i - (k.tier.spacing : Int) else i) ∧
      (if d then limit < sqrtPriceAt i else sqrtPriceAt i < limit)) → reachedTickLimit d k.tier.spacing tk = false := by
    rintro tk ⟨⟨en, rfl⟩, hl⟩
    unfold reachedTickLimit
    unfold LimitInside at hin
    rw [getMinTick_eq] at hin ⊢
    cases d
    · simp only [Bool.false_and, Bool.false_eq_true, if_false, decide_eq_false_iff_not] at hin hl ⊢
      intro hge
      have := hmx.price_le a1 hge
      omega
    · simp only [Bool.true_and, if_true, decide_eq_false_iff_not] at hin hl ⊢
      intro hle
      have : i ≤ -getMaxTick k.tier.spacing + k.tier.spacing := by split at hle <;> omega
      have := a1.price_le hmn1 this
      omega
  rcases updateTick_inv hu with ⟨-, t, ht, rfl⟩ | ⟨hsl, e, -, hrest⟩
  · show reachedTickLimit d k.tier.spacing t = false
    unfold reachedTickLimit
    unfold LimitInside at hin
    rw [getMinTick_eq] at hin ⊢
    have hr : TickOk k.tier.spacing t ∧ sqrtPriceAt t ≤ np ∧ (t < getMaxTick k.tier.spacing → np < sqrtPriceAt (t + k.tier.spacing)) ∧
        (t = getMaxTick k.tier.spacing → np = sqrtPriceAt (getMaxTick k.tier.spacing)) := by
      cases d
      · simp only [Bool.false_eq_true, if_false] at hin hnp
        exact recomputed_ok ht h0 hnp.1 (by omega)
      · simp only [if_true] at hin hnp
        exact recomputed_ok ht h0 (by omega) hnp.2
    obtain ⟨r1, r2, r3, r4⟩ := hr
    have r5 := TickOk_iff.1 r1
    cases d
    · simp only [Bool.false_eq_true, if_false, decide_eq_false_iff_not] at hin hnp ⊢
      intro hge
      have := r4 (by omega)
      omega
    · simp only [if_true, decide_eq_false_iff_not] at hin hnp ⊢
      intro hle
      have e1 : t = -getMaxTick k.tier.spacing := by omega
      have := r3 (by omega)
      rw [e1] at this
      omega
  · rcases hupd with h | ⟨h, hl⟩ | h
    · subst h
      rcases hrest with ⟨j, h, -⟩ | ⟨t, h, -⟩ <;> cases h
    · rcases hrest with ⟨j, h1, rfl⟩ | ⟨t, h1, h2⟩
      · rcases h with ⟨t', h, -⟩ | h
        · rw [h] at h1; cases h1
        · rw [h] at h1; cases h1
          exact key _ ⟨⟨e, rfl⟩, hl⟩
      · have hti' : t.index = i := by
          rcases h with ⟨t', h, hi⟩ | h
          · rw [h] at h1; cases h1; exact hi
          · rw [h] at h1; cases h1
        rcases h2 with ⟨-, tp, -, rfl⟩ | ⟨-, -, -, h, -⟩ | ⟨-, -, -, rfl⟩
        · exact key _ ⟨⟨e, by show _ = _; rw [hti']⟩, hl⟩
        · cases h
        · exact key _ ⟨⟨false, by rw [Bool.and_false]; exact hti'⟩, hl⟩
    · exact absurd hsl h

/-- How an exact-output swap with `rem` still to be paid out at price `price` ends if it fails. -/
def OutEnd (s : Store) (k : PoolKey) (d : Bool) (limit price rem : Nat) (e : Err) : Prop :=
  (e = .priceLimitReached ∧ onOffer s k d price limit ≤ rem * (1 + 1 / 10 ^ 13)) ∨
  (e = .tickLimitReached ∧ ¬ LimitInside d k.tier.spacing limit)

theorem iter_out_ends {c : Chain} {s : Store} (hs : Reach c s) {k : PoolKey} (hdr : drift s k = 0) {p : Pool} (hk : k.wf)
    (hp : s.pools.get? k.key = some p) {d : Bool} {limit now amount : Nat} {st : SwapState} (ham : amount < U128)
    (hl : if d then limit < p.sqrtPrice else p.sqrtPrice < limit)
    (hv : SwapVisits s ⟨k, d, false, limit, now⟩ (swapStart p amount) st) (hr : st.remaining ≠ 0)
    (hf : OutFits s k p d amount limit now) (hb : OutBooks d p amount st) :
    Ends (OutEnd s k d limit st.pool.sqrtPrice st.remaining) (swapIter s ⟨k, d, false, limit, now⟩ st) := by
  have hm := hs.mreach
  have hst := hm.struct
  have hbi := hm.bitInv
  have hts := hm.tickSum
  have hti := hst.tier hk hp
  have hprice := hm.price k p hk hp
  obtain ⟨hlo, hact⟩ := visits_ok hst hbi hts hk hp hprice (active_of hdr hp) hl hv
  have hact := hact hr
  have hL : st.pool.liquidity < U128 := by
    rw [hact]; exact Nat.lt_of_le_of_lt inRange_le (total_lt hst hm.cap hk hti)
  have hmax := Nat.le_trans hlo.le_top (maxTick_ok hlo.tick.pos).price_max
  have hrem : st.remaining ≤ amount := by have := hb.total; omega
  have hfee : k.tier.fee ≤ PCT := Nat.le_of_lt hti.2.2
  unfold swapIter
  dsimp only
  have hlimr := hlo.lim hr
  have hmaxt := getMaxTick_bounds k.tier.spacing
  refine Ends.bind ((getCloserLimit_edge (hbi.chunk k) hlo.tick (fun h => h)).mono fun e he => .inr ⟨he.1, fun hin => ?_⟩) fun cl hcl => ?_
  · have he := he.2
    unfold LimitInside at hin
    rw [getMinTick_eq] at hin
    cases d
    · simp only [Bool.false_eq_true, if_false] at he hin hlimr
      have := hlo.top he
      omega
    · simp only [if_true] at he hin hlimr
      have := hlo.hi (by have := hti.1; have := maxTick_pos hti; omega)
      rw [he] at this
      omega
  obtain ⟨i, b, a1, a2, a3, a4, a5, a6⟩ := closer_view (hbi.chunk k) hlo.tick hcl
  have hcl1 : cl.1 = stepTarget d (sqrtPriceAt i) limit := by
    unfold stepTarget
    rcases a6 with ⟨g1, rfl⟩ | ⟨g1, rfl⟩
    · cases d
      · simp only [Bool.false_eq_true, if_false] at g1 ⊢; omega
      · simp only [if_true] at g1 ⊢; omega
    · cases d
      · simp only [Bool.false_eq_true, if_false] at g1 ⊢; omega
      · simp only [if_true] at g1 ⊢; omega
  have hah := target_ahead hlo hr a1 a2
  obtain ⟨t1, t2⟩ := step_target hlo hr a1 a2
  rw [← hcl1] at hah t1 t2
  obtain ⟨r, hstep⟩ := step_out_ok (A := st.remaining) (fee := k.tier.fee) hL hah hlo.min hmax t1 t2 hfee
  rw [hstep, ok_bind]
  obtain ⟨s1, s2, s3⟩ := step_cost hstep hL hah hlo.min t1 hfee
  have hsp := C26_out_target hlo.min hstep
  have hnp : MIN_SQRT_PRICE ≤ r.nextPrice ∧ r.nextPrice ≤ MAX_SQRT_PRICE := by
    have h2 := hlo.min
    split at hsp <;> omega
  have hdir : if d then r.nextPrice ≤ p.sqrtPrice else p.sqrtPrice ≤ r.nextPrice := by
    have := hb.dir
    cases d
    · simp only [Bool.false_eq_true, if_false] at this s3 ⊢; omega
    · simp only [if_true] at this s3 ⊢; omega
  have hbound := costBound_lt hdir hprice.min hprice.max hnp.1 hnp.2
  have hcost := costBound_add d p.sqrtPrice st.pool.sqrtPrice r.nextPrice
  have s2' : (r.feeAmount : ℚ) ≤ r.amountIn := by exact_mod_cast s2
  have hc0 : (0 : ℚ) ≤ costBound d p.sqrtPrice st.pool.sqrtPrice := le_trans (by positivity) hb.fee
  have n1 : st.totalIn + (r.amountIn + r.feeAmount) < U128 := by
    have h1 := hb.cost
    have : ((st.totalIn + (r.amountIn + r.feeAmount) : Nat) : ℚ) < (U128 : ℚ) := by
      rw [Nat.cast_add, Nat.cast_add]
      generalize (U128 : ℚ) = U at *
      linarith
    exact_mod_cast this
  have n2 : 7 * (st.fee + r.feeAmount) < U128 := by
    have h1 := hb.fee
    have : ((7 * (st.fee + r.feeAmount) : Nat) : ℚ) < (U128 : ℚ) := by
      rw [Nat.cast_mul, Nat.cast_add]
      generalize (U128 : ℚ) = U at *
      push_cast
      linarith
    exact_mod_cast this
  rw [if_neg (by decide), checkedSub_ok.2 ⟨C26_out hstep, rfl⟩, ok_bind]
  obtain ⟨cfg, hcfg, -⟩ := hst.cfg
  have hcfg' : loadConfig s = .ok cfg := by unfold loadConfig; rw [hcfg]
  rw [hcfg', ok_bind]
  have hpf := hf.config cfg hcfg
  have hproto := hb.proto
  have hproto0 := hf.proto
  have hfl : r.feeAmount ≤ 10 ^ 4 * (st.pool.liquidity + 2) := by
    by_cases hz : st.pool.liquidity = 0
    · rw [hz] at hstep; rw [step_zero hstep]; exact Nat.zero_le _
    · exact step_out_fee_le hstep hah hz hfee hlo.min t1 hmax t2
  have hU : U128 = 2 * 2 ^ 127 := by norm_num
  obtain ⟨q, hq⟩ := Pool.addFee_ok (p := st.pool) (a := r.feeAmount) (d := d) hpf hfl (by omega)
  rw [hq, ok_bind]
  rw [add128_ok.2 ⟨by omega, rfl⟩, ok_bind]
  rw [add128_ok.2 ⟨by omega, rfl⟩, ok_bind]
  rw [add128_ok.2 ⟨by omega, rfl⟩, ok_bind]
  have hout : st.totalOut + r.amountOut < U128 := by
    have h1 := hb.total
    have h2 := C26_out hstep
    omega
  rw [add128_ok.2 ⟨hout, rfl⟩, ok_bind]
  -- no tick in between is used
  have gap : ∀ j, TickOk k.tier.spacing j → (if d then i < j ∧ j ≤ st.pool.tick else st.pool.tick < j ∧ j < i) → ¬ UsedTick s k j := by
    intro j hj hjj hu
    exact a5 j hj hjj ((hbi.isSome hk hti hj).2 ((hts.used hst hk hj.i32).1 hu))
  split
  · rename_i hreach
    refine .error (.inl ⟨rfl, ?_⟩)
    have hnpl : r.nextPrice = limit := hreach.1
    have hltA : r.amountOut < st.remaining := by
      have h1 : st.remaining - r.amountOut ≠ 0 := hreach.2
      omega
    have hoff := step_offer hst hlo a1 a2 gap (np := r.nextPrice) (by
      have e1 : cl.1 = limit ∨ cl.1 = sqrtPriceAt i := by
        rcases a6 with ⟨-, rfl⟩ | ⟨-, rfl⟩
        · exact .inr rfl
        · exact .inl rfl
      unfold stepTarget at hcl1
      cases d
      · simp only [Bool.false_eq_true, if_false] at hsp hah s3 hcl1 ⊢
        rw [if_neg (by omega)] at hsp
        omega
      · simp only [if_true] at hsp hah s3 hcl1 ⊢
        rw [if_pos hah] at hsp
        omega)
    rw [← hact] at hoff
    have htk := step_taken hstep hah hlo.min hnp.1 hltA
    rw [← hnpl, hoff]
    refine htk.trans (mul_le_mul_of_nonneg_right ?_ (by positivity))
    exact_mod_cast hltA
  obtain ⟨q1, q2, q3⟩ := addFee_keep hq
  have hqs := addFee_start hq
  refine Ends.bind ?_ fun upd hupd => ?_
  · rcases a6 with ⟨-, rfl⟩ | ⟨-, rfl⟩
    · cases b
      · exact .ok
      · have := (hbi.isSome hk hti a1).1 (a3.1 rfl)
        obtain ⟨t, ht⟩ := Option.isSome_iff_exists.1 this
        unfold tickUpdOf
        dsimp only
        rw [getTick_ok.2 ht, ok_bind]
        exact .ok
    · exact .ok
  have hremle : st.remaining - r.amountOut ≤ amount := by omega
  generalize st.remaining - r.amountOut = rem at *
  refine Ends.bind ?_ fun u hu => ?_
  · refine updateTick_out_ends (Nat.ne_of_gt hlo.tick.pos) hnp.2 hnp.1 ?_ ?_
    · intro hn hsl
      show ∃ e, isEnoughAmountToChangePrice rem r.nextPrice q.liquidity k.tier.fee false d = .ok e
      rw [q1, hact]
      have hsome : (if d then limit < sqrtPriceAt i else sqrtPriceAt i < limit) ∧ cl = (sqrtPriceAt i, some (i, b)) := by
        rcases a6 with g | ⟨-, g⟩
        · exact g
        · rw [g] at hupd
          unfold tickUpdOf at hupd
          dsimp only at hupd
          rw [pure_ok] at hupd
          exact absurd hupd.symm hn
      obtain ⟨g1, g2⟩ := hsome
      rw [g2] at hsl
      have hsl : sqrtPriceAt i = r.nextPrice := hsl
      have hthin := hf.thin i a1
      cases d
      · simp only [Bool.false_eq_true, if_false] at a2 gap hthin g1 hdir hah hsl ⊢
        have e1 : liquidityInRange s k st.pool.tick = liquidityInRange s k (i - k.tier.spacing) := by
          have := dvd_lt_step hlo.tick.pos hlo.tick.dvd a1.dvd a2
          refine inRange_const hst (by omega) fun j hj h1 h2 => gap j hj ⟨h1, ?_⟩
          have := hlo.tick.pos
          omega
        have hgt : p.sqrtPrice < sqrtPriceAt i := by
          have h1 := hb.dir
          rw [if_neg (by decide)] at h1
          rw [g2] at hah
          have hah : st.pool.sqrtPrice < sqrtPriceAt i := hah
          omega
        rw [e1]
        refine isEnough_out_buy hnp.2 ?_
        rcases hthin (by omega) hgt with h | h
        · exact .inl h
        · right
          have : rem * r.nextPrice ≤ amount * r.nextPrice := Nat.mul_le_mul_right _ hremle
          rw [hsl] at h
          omega
      · simp only [if_true] at a2 gap hthin g1 hdir hah hsl ⊢
        have e1 : liquidityInRange s k st.pool.tick = liquidityInRange s k i :=
          (inRange_const hst a2 fun j hj h1 h2 => gap j hj ⟨h1, h2⟩).symm
        rw [e1]
        refine isEnough_out_sell (Nat.lt_of_le_of_lt hnp.2 (by norm_num)) ?_
        rcases hthin (by omega) (by omega) with h | h
        · exact .inl h
        · right
          rw [hsl] at h
          exact Nat.le_trans (Nat.mul_le_mul_right _ hremle) h
    · intro t ht hsl
      rcases tickUpdOf_inv hupd with ⟨-, g⟩ | ⟨j, t', g1, g2, g3⟩ | ⟨j, g1, g3⟩
      · rw [g] at ht; cases ht
      · rw [g3] at ht
        cases ht
        have hcl2 : getCloserLimit (getChunk s k) limit d st.pool.tick k.tier.spacing = .ok (cl.1, some (j, true)) := by
          rw [hcl, ← g1]
        exact C27_crossing_partial hs hdr hk hp hl hv hr hcl2 (getTick_ok.2 g2) q1 q3 (by
          show q.startTs ≤ now
          rw [hqs, hb.start]; exact hf.clock)
      · rw [g3] at ht; cases ht
  · have htotal : u.total = 0 := by
      rcases updateTick_inv hu with ⟨-, t, -, rfl⟩ | ⟨-, e, -, ⟨j, -, rfl⟩ | ⟨t, -, ⟨-, tp, -, rfl⟩ | ⟨-, -, -, h, q', -, rfl⟩ | ⟨-, -, -, rfl⟩⟩⟩
      · rfl
      · rfl
      · rfl
      · cases h
      · rfl
    rw [htotal, add128_ok.2 ⟨by omega, rfl⟩, ok_bind]
    split
    · rename_i hreach
      refine .error (.inr ⟨rfl, fun hin => ?_⟩)
      have := inside_not_reached (i := i) hti hin hu ?_ a1 ?_
      · rw [this] at hreach; cases hreach
      · rcases a6 with ⟨g1, rfl⟩ | ⟨-, rfl⟩
        · right; left
          refine ⟨?_, g1⟩
          rcases tickUpdOf_inv hupd with ⟨h, -⟩ | ⟨j, t', g1, g2, g3⟩ | ⟨j, g1, g3⟩
          · cases h
          · cases g1
            exact .inl ⟨t', g3, (hst.tick hk a1.i32 g2).1⟩
          · cases g1
            exact .inr g3
        · left
          rcases tickUpdOf_inv hupd with ⟨-, g⟩ | ⟨j, t', g1, -⟩ | ⟨j, g1, -⟩
          · exact g
          · cases g1
          · cases g1
      · have htop := hlo.le_top
        have hbot := (minTick_ok hlo.tick.pos).price_le hlo.tick (TickOk_iff.1 hlo.tick).2.2.1
        have hlo' := hlo.lo
        unfold stepTarget at hcl1
        cases d
        · simp only [Bool.false_eq_true, if_false] at hsp hah s3 hcl1 ⊢
          rw [if_neg (by omega)] at hsp
          omega
        · simp only [if_true] at hsp hah s3 hcl1 ⊢
          rw [if_pos hah] at hsp
          omega
    · exact .ok

theorem loop_out_ends {c : Chain} {s : Store} (hs : Reach c s) {k : PoolKey} (hdr : drift s k = 0) {p : Pool} (hk : k.wf)
    (hp : s.pools.get? k.key = some p) {d : Bool} {limit now amount : Nat} (ham : amount < U128)
    (hl : if d then limit < p.sqrtPrice else p.sqrtPrice < limit) (hf : OutFits s k p d amount limit now) {n : Nat} {st : SwapState}
    (hend : LoopEnds s ⟨k, d, false, limit, now⟩ n st)
    (hv : SwapVisits s ⟨k, d, false, limit, now⟩ (swapStart p amount) st) (hb : OutBooks d p amount st) :
    Ends (OutEnd s k d limit st.pool.sqrtPrice (st.remaining + loopSteps s ⟨k, d, false, limit, now⟩ n st))
      (swapLoop s ⟨k, d, false, limit, now⟩ n st) ∧
    ∀ st', swapLoop s ⟨k, d, false, limit, now⟩ n st = .ok st' → st'.totalOut = amount := by
  have hm := hs.mreach
  have hst := hm.struct
  have hti := hst.tier hk hp
  induction hend with
  | @done n st h0 =>
    have h2 : swapLoop s ⟨k, d, false, limit, now⟩ n st = .ok st := by
      cases n
      · unfold swapLoop; rw [if_pos h0]
      · unfold swapLoop; rw [if_pos h0]
    rw [h2]
    refine ⟨.ok, fun st' h => ?_⟩
    cases h
    have := hb.total
    omega
  | @fail n st e h =>
    rw [swapLoop]
    split
    · rename_i h0
      refine ⟨.ok, fun st' h => ?_⟩
      cases h
      have := hb.total
      omega
    · rename_i hr
      have hz : loopSteps s ⟨k, d, false, limit, now⟩ (n + 1) st = 0 := by
        rw [loopSteps, if_neg hr, h]
      rw [hz]
      refine ⟨Ends.bind (iter_out_ends hs hdr hk hp ham hl hv hr hf hb) fun a ha => (by rw [h] at ha; cases ha), fun st' h' => ?_⟩
      rw [h, error_bind] at h'
      cases h'
  | @next n st st' h _ ih =>
    rw [swapLoop]
    split
    · rename_i h0
      refine ⟨.ok, fun st' h => ?_⟩
      cases h
      have := hb.total
      omega
    · rename_i hr
      have hz : loopSteps s ⟨k, d, false, limit, now⟩ (n + 1) st = loopSteps s ⟨k, d, false, limit, now⟩ n st' + 1 := by
        rw [loopSteps, if_neg hr, h]
      rw [h, ok_bind, hz]
      obtain ⟨hlo, hact⟩ := visits_ok hst hm.bitInv hm.tickSum hk hp (hm.price k p hk hp) (active_of hdr hp) hl hv
      have hact := hact hr
      have hL : st.pool.liquidity < U128 := by
        rw [hact]; exact Nat.lt_of_le_of_lt inRange_le (total_lt hst hm.cap hk hti)
      obtain ⟨i, ini, r, cfg, p1, rem, u, hview⟩ := iter_view hst hm.bitInv hk hti hlo.tick h
      have hv' := hv.next hr h
      have hb' := hb.next hview rfl hlo hr hL (Nat.le_of_lt hti.2.2)
      obtain ⟨i1, i2⟩ := ih hv' hb'
      refine ⟨?_, i2⟩
      by_cases hr' : st'.remaining = 0
      · have h2 : swapLoop s ⟨k, d, false, limit, now⟩ n st' = .ok st' := by
          cases n
          · unfold swapLoop; rw [if_pos hr']
          · unfold swapLoop; rw [if_pos hr']
        rw [h2]
        exact .ok
      refine i1.mono fun e he => ?_
      rcases he with ⟨he, ho⟩ | he
      · refine .inl ⟨he, ?_⟩
        have hpe := iter_price_eq hview
        have hout := iter_out hview rfl
        have hstep : computeSwapStep st.pool.sqrtPrice (stepTarget d (sqrtPriceAt i) limit) st.pool.liquidity st.remaining false
            k.tier.fee = .ok r := hview.step
        obtain ⟨t1, t2⟩ := step_target hlo hr hview.ok hview.dir
        have hah := target_ahead hlo hr hview.ok hview.dir
        have hsp := C26_out_target hlo.min hstep
        have hmin := hlo.min
        have hb0 := hb.total
        have hb1 := hb'.total
        have hout' : st'.totalOut = st.totalOut + r.amountOut := by rw [hview.eq]
        obtain ⟨gap, -⟩ := iter_used hst hm.tickSum hk hview
        have hoff := step_offer hst hlo hview.ok hview.dir gap (np := r.nextPrice) (by
          unfold stepTarget at hsp hah
          cases d
          · simp only [Bool.false_eq_true, if_false] at hsp hah ⊢
            rw [if_neg (by omega)] at hsp
            omega
          · simp only [if_true] at hsp hah ⊢
            rw [if_pos hah] at hsp
            omega)
        rw [← hact] at hoff
        have htk := step_taken hstep hah hlo.min (by split at hsp <;> omega) (by omega)
        rw [hpe] at ho
        have hsum := onOffer_add s k d st.pool.sqrtPrice r.nextPrice limit
        have hrem : ((st.remaining + (loopSteps s ⟨k, d, false, limit, now⟩ n st' + 1) : Nat) : ℚ) =
            (r.amountOut + 1) + ((st'.remaining + loopSteps s ⟨k, d, false, limit, now⟩ n st' : Nat) : ℚ) := by
          have : st.remaining = st'.remaining + r.amountOut := by omega
          rw [this]
          push_cast
          ring
        rw [hrem, add_mul, ← hsum, hoff]
        exact add_le_add htk ho
      · exact .inr he

/-- How often the price moves before a swap that sells X ends. -/
theorem loopSteps_le {s : Store} {pr : SwapParams} {m : Nat} {st : SwapState} (h : LoopEnds s pr m st) (n : Nat) :
    loopSteps s pr n st ≤ m := by
  induction h generalizing n with
  | @done m st h0 =>
    cases n
    · exact Nat.zero_le _
    · rw [loopSteps, if_pos h0]; exact Nat.zero_le _
  | @fail m st e h =>
    cases n
    · exact Nat.zero_le _
    · rw [loopSteps, h]
      split
      · exact Nat.zero_le _
      · exact Nat.zero_le _
  | @next m st st' h _ ih =>
    cases n with
    | zero => exact Nat.zero_le _
    | succ n =>
      rw [loopSteps, h]
      split
      · exact Nat.zero_le _
      · have := ih n
        show loopSteps s pr n st' + 1 ≤ m + 1
        omega

/-- Why an exact-output swap is refused. -/
def OutRefusal (s : Store) (k : PoolKey) (p : Pool) (d : Bool) (amount limit steps : Nat) (e : Err) : Prop :=
  (e = .amountIsZero ∧ amount = 0) ∨ (e = .wrongLimit ∧ (if d then p.sqrtPrice ≤ limit else limit ≤ p.sqrtPrice)) ∨
    OutEnd s k d limit p.sqrtPrice (amount + steps) e

theorem calculateSwap_out_ends {c : Chain} {s : Store} (hs : Reach c s) {k : PoolKey} (hdr : drift s k = 0) {p : Pool} (hk : k.wf)
    (hp : s.pools.get? k.key = some p) {d : Bool} {limit now amount : Nat} (ham : amount < U128)
    (hf : OutFits s k p d amount limit now) :
    Ends (OutRefusal s k p d amount limit (swapSteps s now k d amount false limit))
      (calculateSwap s now k d amount false limit) := by
  unfold calculateSwap
  split
  · rename_i ha0
    exact .error (.inl ⟨rfl, ha0⟩)
  rename_i ha0
  have hg : getPool s k = .ok p := by unfold getPool; rw [hp]
  rw [hg, ok_bind]
  have hprice := hs.mreach.price k p hk hp
  have hpmin := hprice.min
  have hpmax := hprice.max
  split
  · rename_i hlim
    refine .error (.inr (.inl ⟨rfl, ?_⟩))
    cases d
    · rw [if_neg (by decide)]
      rcases hlim with h | h
      · cases h.1
      · omega
    · rw [if_pos rfl]
      rcases hlim with h | h
      · omega
      · exact absurd rfl h.1
  rename_i hlim
  have hl : if d then limit < p.sqrtPrice else p.sqrtPrice < limit := by
    cases d
    · rw [if_neg (by decide)]
      by_contra hh
      exact hlim (.inr ⟨by decide, .inl (by omega)⟩)
    · rw [if_pos rfl]
      by_contra hh
      exact hlim (.inl ⟨rfl, .inl (by omega)⟩)
  have hti := hs.mreach.struct.tier hk hp
  rw [if_neg (by have := hti.1; omega)]
  have hsteps : swapSteps s now k d amount false limit =
      loopSteps s ⟨k, d, false, limit, now⟩ swapFuel (swapStart p amount) := by
    unfold swapSteps; rw [hp]; rfl
  rw [hsteps]
  obtain ⟨h1, h2⟩ := loop_out_ends hs hdr hk hp ham hl hf (C24_terminates_all hs hk hp d false amount limit now hl) (.refl _)
    (outBooks_start d p amount)
  refine Ends.bind (h1.mono fun e he => .inr (.inr he)) fun st hst => ?_
  rw [if_neg (by rw [h2 st hst]; exact ha0)]
  exact .ok

end OraiV3
