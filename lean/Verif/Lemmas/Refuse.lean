import Verif.Lemmas.Accept
import Verif.Lemmas.ExactOut
import Verif.Lemmas.Mono
import Verif.Lemmas.Clock
import Verif.Props.Cap
import Verif.Props.SwapStep
import Mathlib.Tactic.Linarith
import Mathlib.Tactic.Positivity

/-!
# When an exact-input swap goes through
-/

namespace OraiV3

/-- The computation succeeds or ends with an error of the given kind. -/
def Ends {α : Type} (P : Err → Prop) (x : M α) : Prop := ∀ e, x = .error e → P e

theorem Ends.ok {α : Type} {P : Err → Prop} {a : α} : Ends P (.ok a : M α) := fun _ h => by cases h

theorem Ends.error {α : Type} {P : Err → Prop} {e : Err} (h : P e) : Ends P (.error e : M α) := fun e' h' => by
  cases h'; exact h

theorem Ends.bind {α β : Type} {P : Err → Prop} {x : M α} {f : α → M β} (h1 : Ends P x) (h2 : ∀ a, x = .ok a → Ends P (f a)) :
    Ends P (x >>= f) := by
  cases x with
  | error e => intro e' h; rw [error_bind] at h; cases h; exact h1 e rfl
  | ok a => rw [ok_bind]; exact h2 a rfl

theorem Ends.mono {α : Type} {P Q : Err → Prop} {x : M α} (h : Ends P x) (hm : ∀ e, P e → Q e) : Ends Q x :=
  fun e he => hm e (h e he)

/-! ## Price steps -/

/-- An exact-input step whose parts succeed. -/
theorem step_in_of {cur target L A fee np pre i o aaf : Nat} {d : Bool} (hd : decide (cur ≥ target) = d) (hL : L ≠ 0)
    (h1 : amountAfterFee A fee = .ok aaf) (h2 : deltaIn d cur target L = .ok pre)
    (h3 : (pre ≤ aaf ∧ np = target) ∨ (aaf < pre ∧ nextSqrtPriceFromInput cur L aaf d = .ok np))
    (h4 : deltaIn d cur np L = .ok i) (h5 : deltaOut d cur np L = .ok o) (h6 : fee ≤ PCT) (h7 : i < U128) :
    Ends (fun e => e = .panic ∧ np ≠ target ∧ A < i) (computeSwapStep cur target L A true fee) := by
  have hnp : stepNextPrice cur target L A true fee d = .ok (np, pre) := by
    unfold stepNextPrice
    rw [if_pos rfl, h1, ok_bind]
    have hrest : (if aaf ≥ pre then pure (target, pre)
        else do
          let np ← nextSqrtPriceFromInput cur L aaf d
          pure (np, pre) : M (Nat × Nat)) = .ok (np, pre) := by
      rcases h3 with ⟨a, rfl⟩ | ⟨a, b⟩
      · rw [if_pos a]; rfl
      · rw [if_neg (by omega), b, ok_bind]; rfl
    unfold deltaIn at h2
    by_cases hb : d = true
    · rw [if_pos hb] at h2
      simp only [if_pos hb]
      rw [h2, ok_bind]
      exact hrest
    · rw [if_neg hb] at h2
      simp only [if_neg hb]
      rw [h2, ok_bind]
      exact hrest
  unfold computeSwapStep
  rw [if_neg hL]
  simp only [hd]
  rw [hnp, ok_bind]
  have hin : stepAmountIn cur np L pre (decide (target ≠ np) || !true) d = .ok i := by
    unfold stepAmountIn
    by_cases hn : target = np
    · subst hn
      rw [h2] at h4
      rw [if_neg (by simp)]
      exact h4
    · rw [if_pos (by simp [hn])]
      rw [← h4]; rfl
  have hout : stepAmountOut cur np L pre (decide (target ≠ np) || true) d = .ok o := by
    unfold stepAmountOut
    rw [if_pos (by simp)]
    rw [← h5]; rfl
  simp only
  rw [hin, ok_bind, hout, ok_bind]
  have hmul : bigMulUp i fee PCT = .ok ((i * fee + (PCT - 1)) / PCT) := by
    refine cast128_ok.2 ⟨Nat.lt_of_le_of_lt (m := i) ?_ h7, rfl⟩
    exact ceil_le (by norm_num) (Nat.mul_le_mul_left _ h6)
  by_cases hn : target = np
  · rw [if_neg (by simp [hn]), hmul, ok_bind]
    exact .ok
  · rw [if_pos (by simp [hn])]
    by_cases hi : i ≤ A
    · rw [subP_ok.2 ⟨hi, rfl⟩, ok_bind]
      exact .ok
    · have : subP A i = .error .panic := by
        unfold subP
        rw [if_neg hi]
      rw [this]
      intro e he
      rw [error_bind] at he
      cases he
      exact ⟨rfl, fun e => hn e.symm, by omega⟩

theorem deltaIn_buy (a b L : Nat) : deltaIn false a b L = getDeltaY a b L true := by
  unfold deltaIn
  rw [if_neg (by decide)]

theorem deltaIn_sell (a b L : Nat) : deltaIn true a b L = getDeltaX b a L true := by
  unfold deltaIn
  rw [if_pos rfl]

theorem deltaOut_buy (a b L : Nat) : deltaOut false a b L = getDeltaX a b L false := by
  unfold deltaOut
  rw [if_neg (by decide)]

theorem deltaOut_sell (a b L : Nat) : deltaOut true a b L = getDeltaY b a L false := by
  unfold deltaOut
  rw [if_pos rfl]

theorem amountAfterFee_ok {A fee : Nat} (hA : A < U128) (hf : fee ≤ PCT) :
    amountAfterFee A fee = .ok (A * (PCT - fee) / PCT) := by
  unfold amountAfterFee
  rw [subP_ok.2 ⟨hf, rfl⟩, ok_bind]
  refine cast128_ok.2 ⟨Nat.lt_of_le_of_lt (m := A) ?_ hA, rfl⟩
  exact Nat.div_le_of_le_mul (by rw [Nat.mul_comm]; exact Nat.mul_le_mul_right _ (Nat.sub_le _ _))

theorem yDown_add_ok {p L y : Nat} (hL : L ≠ 0) (hy : y ≤ 10 ^ 29) (h : p * L + y * 10 ^ 30 < U128 * L) :
    ∃ q, nextSqrtPriceYDown p L y true = .ok q := by
  unfold nextSqrtPriceYDown
  dsimp only
  rw [if_pos rfl]
  have e : y * SPR * SPR = y * 10 ^ 30 * 10 ^ 18 := by
    have : SPR * SPR = 10 ^ 30 * 10 ^ 18 := by norm_num
    rw [Nat.mul_assoc, this, Nat.mul_assoc]
  have h0 : p + y * 10 ^ 30 / L < U128 := by
    have h1 := Nat.div_mul_le_self (y * 10 ^ 30) L
    by_contra hc
    have h2 : U128 * L ≤ (p + y * 10 ^ 30 / L) * L := Nat.mul_le_mul_right _ (Nat.not_lt.1 hc)
    rw [Nat.add_mul] at h2
    omega
  have hq : checkedBigDiv (y * SPR) (L * 10 ^ 18) = .ok (y * 10 ^ 30 / L) := by
    unfold checkedBigDiv
    have hlt : y * SPR * SPR < U256 := by
      refine Nat.lt_of_le_of_lt (Nat.mul_le_mul_right _ (Nat.mul_le_mul_right _ hy)) ?_
      norm_num
    rw [if_neg (by omega), if_neg (Nat.mul_ne_zero hL (by norm_num)), e, Nat.mul_div_mul_right _ _ (by norm_num)]
    exact cast128_ok.2 ⟨by omega, rfl⟩
  rw [hq, ok_bind]
  exact ⟨_, checkedAdd_ok.2 ⟨h0, rfl⟩⟩

theorem step_buy_ok {cur target L A fee : Nat} (hL : L < U128) (hc : MIN_SQRT_PRICE ≤ cur) (ht : cur < target)
    (hT : target ≤ MAX_SQRT_PRICE) (hA : A ≤ 10 ^ 29) (hf : fee ≤ PCT) :
    ∃ r, computeSwapStep cur target L A true fee = .ok r := by
  by_cases h0 : L = 0
  · exact ⟨⟨target, 0, 0, 0⟩, by unfold computeSwapStep; rw [if_pos h0]⟩
  have hU : 10 ^ 29 < U128 := by norm_num
  have h1 := amountAfterFee_ok (A := A) (by omega) hf
  have haaf : A * (PCT - fee) / PCT ≤ A := by
    refine Nat.div_le_of_le_mul ?_
    rw [Nat.mul_comm]; exact Nat.mul_le_mul_right _ (Nat.sub_le _ _)
  obtain ⟨pre, h2⟩ := getDeltaY_up_ok (a := cur) (b := target) (L := L) (by omega) hT hL
  have hd : decide (cur ≥ target) = false := decide_eq_false (by omega)
  have h2' : deltaIn false cur target L = .ok pre := by rw [deltaIn_buy]; exact h2
  have hM : MAX_SQRT_PRICE < U128 := by norm_num
  have hnext : ∃ np, ((pre ≤ A * (PCT - fee) / PCT ∧ np = target) ∨
      (A * (PCT - fee) / PCT < pre ∧ nextSqrtPriceFromInput cur L (A * (PCT - fee) / PCT) false = .ok np)) := by
    by_cases hle : pre ≤ A * (PCT - fee) / PCT
    · exact ⟨target, .inl ⟨hle, rfl⟩⟩
    · obtain ⟨q, hq⟩ := yDown_add_ok (p := cur) (L := L) (y := A * (PCT - fee) / PCT) h0 (by omega) (by
        obtain ⟨_, g1, g2⟩ := getDeltaY_up h2
        have g3 : absDiff cur target = target - cur := by unfold absDiff; rw [if_neg (by omega)]
        rw [g3] at g2
        generalize A * (PCT - fee) / PCT = x at *
        have g4 : (x + 1) * 10 ^ 30 ≤ pre * 10 ^ 30 := Nat.mul_le_mul_right _ (by omega)
        have g5 : cur * L + (target - cur) * L = target * L := by rw [← Nat.add_mul]; congr 1; omega
        have g6 : (target + 1) * L ≤ U128 * L := Nat.mul_le_mul_right _ (by omega)
        rw [Nat.add_mul] at g4 g6
        generalize (10 : Nat) ^ 30 = K at *
        generalize U128 * L = U at *
        omega)
      exact ⟨q, .inr ⟨by omega, by unfold nextSqrtPriceFromInput; rw [if_neg (by decide)]; exact hq⟩⟩
  obtain ⟨np, h3⟩ := hnext
  obtain ⟨a1, a2, a3⟩ := next_in_yx (cur := cur) (target := target) (L := L) (A := A) (fee := fee) (np := np) ⟨hf, pre, h2', h3⟩ ht
  obtain ⟨i, h4⟩ := getDeltaY_up_ok (a := cur) (b := np) (L := L) (by omega) (by omega) hL
  obtain ⟨o, h5⟩ := getDeltaX_down_ok (a := cur) (b := np) (L := L) hc (by omega) hL
  have hends := step_in_of hd h0 h1 h2' h3 (i := i) (o := o) (by rw [deltaIn_buy]; exact h4) (by rw [deltaOut_buy]; exact h5) hf (getDeltaY_up h4).1
  cases hs : computeSwapStep cur target L A true fee with
  | ok r => exact ⟨r, rfl⟩
  | error e =>
    exfalso
    obtain ⟨-, h6, h7⟩ := hends e hs
    rcases h3 with h3 | ⟨-, h3⟩
    · exact h6 h3.2
    · unfold nextSqrtPriceFromInput at h3
      rw [if_neg (by decide)] at h3
      obtain ⟨_, b1, b2, -⟩ := yDown_add h3
      obtain ⟨_, g1, g2⟩ := getDeltaY_up h4
      have g3 : absDiff cur np = np - cur := by unfold absDiff; rw [if_neg (by omega)]
      rw [g3] at g2
      generalize A * (PCT - fee) / PCT = x at *
      have g4 : (x + 1) * 10 ^ 30 ≤ i * 10 ^ 30 := Nat.mul_le_mul_right _ (by omega)
      rw [Nat.add_mul] at g4
      generalize (10 : Nat) ^ 30 = K at *
      omega

theorem xUp_add_ok {p L x : Nat} (h1 : MIN_SQRT_PRICE ≤ p) (h2 : p ≤ MAX_SQRT_PRICE) (hL : L < U128) (h0 : L ≠ 0) (hx : x < U128) :
    ∃ q, nextSqrtPriceXUp p L x true = .ok q := by
  unfold nextSqrtPriceXUp
  by_cases hx0 : x = 0
  · rw [if_pos hx0]; exact ⟨p, rfl⟩
  rw [if_neg hx0]
  dsimp only
  rw [if_pos rfl]
  have e1 : L * 10 ^ 18 ≤ U128 * 10 ^ 18 := Nat.mul_le_mul_right _ (Nat.le_of_lt hL)
  have e2 : p * x ≤ MAX_SQRT_PRICE * U128 := Nat.mul_le_mul h2 (Nat.le_of_lt hx)
  have e3 : U128 * 10 ^ 18 + MAX_SQRT_PRICE * U128 < U256 := by norm_num
  rw [if_neg (Nat.not_le.2 (Nat.lt_of_le_of_lt (Nat.add_le_add e1 e2) e3))]
  unfold checkedBigDivUp
  have hden : 0 < L * 10 ^ 18 + p * x := Nat.add_pos_left (Nat.mul_pos (by omega) (by norm_num)) _
  rw [if_neg (by omega)]
  refine ⟨_, cast128_of_lt (Nat.lt_of_le_of_lt (m := p) ?_ (Nat.lt_of_le_of_lt h2 (by norm_num)))⟩
  refine ceil_le hden ?_
  have c1 := ceil_spec (p * L) LIQ (by norm_num)
  have hs : SPR = LIQ * 10 ^ 18 := spr_eq
  have hsq := sq_ge h1
  have hpp : p * p ≤ p * (p * x) := Nat.mul_le_mul_left _ (Nat.le_mul_of_pos_right _ (by omega))
  generalize (p * L + (LIQ - 1)) / LIQ = c at *
  have g1 : c * LIQ ≤ p * L + LIQ := by linarith
  calc c * SPR = c * LIQ * 10 ^ 18 := by rw [hs]; ring
    _ ≤ (p * L + LIQ) * 10 ^ 18 := Nat.mul_le_mul_right _ g1
    _ = p * (L * 10 ^ 18) + SPR := by rw [hs]; ring
    _ ≤ p * (L * 10 ^ 18) + p * (p * x) := Nat.add_le_add_left (Nat.le_trans hsq hpp) _
    _ = p * (L * 10 ^ 18 + p * x) := by ring

theorem aaf_le {A fee : Nat} : A * (PCT - fee) / PCT ≤ A :=
  Nat.div_le_of_le_mul (by rw [Nat.mul_comm]; exact Nat.mul_le_mul_right _ (Nat.sub_le _ _))

/-- With a fee, what a step takes before the target fits into the amount. -/
theorem in_le_amount {cur np L A fee i : Nat} (h1 : 11 * 10 ^ 18 ≤ np) (h2 : np ≤ cur) (hA : A ≠ 0) (hf : fee ≠ 0)
    (hle : fee ≤ PCT) (hq : nextSqrtPriceXUp cur L (A * (PCT - fee) / PCT) true = .ok np) (hi : getDeltaX np cur L true = .ok i) :
    i ≤ A := by
  obtain ⟨-, -, -, -, g⟩ := getDeltaX_up hi
  have gd : absDiff np cur = cur - np := by unfold absDiff; rw [if_neg (by omega)]
  rw [gd] at g
  have hx1 : A * (PCT - fee) / PCT * PCT ≤ A * (PCT - fee) := Nat.div_mul_le_self _ _
  generalize A * (PCT - fee) / PCT = x at *
  have hx2 : x * PCT + A ≤ A * PCT := by
    have e : A * (PCT - fee) + A * fee = A * PCT := by rw [← Nat.mul_add]; congr 1; omega
    have : A ≤ A * fee := Nat.le_mul_of_pos_right _ (by omega)
    linarith
  have hlow : cur * L * 10 ^ 18 ≤ np * (L * 10 ^ 18 + cur * x) := by
    by_cases hx : x = 0
    · unfold nextSqrtPriceXUp at hq
      rw [if_pos hx, ok_inj] at hq
      subst hq; subst hx
      simp [Nat.mul_assoc]
    · exact (xUp_add hq hx).2.1
  have hd : (cur - np) * L * 10 ^ 18 ≤ np * cur * x := by
    have e1 : (cur - np) * L * 10 ^ 18 + np * (L * 10 ^ 18) = cur * L * 10 ^ 18 := by
      obtain ⟨w, rfl⟩ : ∃ w, cur = np + w := ⟨cur - np, by omega⟩
      rw [Nat.add_sub_cancel_left]; ring
    have e2 : np * (L * 10 ^ 18 + cur * x) = np * (L * 10 ^ 18) + np * cur * x := by ring
    linarith
  have hW : 10 ^ 37 ≤ np * cur := by
    calc 10 ^ 37 ≤ (11 * 10 ^ 18) * (11 * 10 ^ 18) := by norm_num
      _ ≤ np * cur := Nat.mul_le_mul h1 (by linarith)
  by_contra hc
  have hxA : x < A := by
    by_contra hh
    have : A * PCT ≤ x * PCT := Nat.mul_le_mul_right _ (by omega)
    omega
  obtain ⟨e, rfl⟩ : ∃ e, A = x + e := ⟨A - x, by omega⟩
  have he : x + e ≤ e * PCT := by
    rw [Nat.add_mul] at hx2; omega
  generalize np * cur = W at *
  have hS : (SPR : Nat) = 10 ^ 24 := by norm_num
  have hP : (PCT : Nat) = 10 ^ 12 := by norm_num
  rw [hS] at g
  rw [hP] at he
  obtain ⟨t, rfl⟩ : ∃ t, i = x + e + 1 + t := ⟨i - (x + e + 1), by omega⟩
  have k1 : (x + e + 1 + t) * W ≤ W * x + W + (x + e + 1 + t) * 10 ^ 24 := by omega
  have k2 : t * 10 ^ 24 ≤ t * W := Nat.mul_le_mul_left _ (by omega)
  have k3 : e * 10 ^ 37 ≤ e * W := Nat.mul_le_mul_left _ hW
  have k4 : (x + e + 1 + t) * W = W * x + W + e * W + t * W := by ring
  have k5 : (x + e + 1 + t) * 10 ^ 24 = (x + e) * 10 ^ 24 + 10 ^ 24 + t * 10 ^ 24 := by ring
  have k6 : (x + e) * 10 ^ 24 ≤ e * 10 ^ 12 * 10 ^ 24 := Nat.mul_le_mul_right _ he
  have k7 : 1 ≤ e := by omega
  generalize e * W = a at *
  generalize t * W = b at *
  generalize W * x + W = c at *
  omega

theorem step_sell_ends {cur target L A fee : Nat} (hL : L < U128) (hc : cur ≤ MAX_SQRT_PRICE) (ht : target ≤ cur)
    (hT : MIN_SQRT_PRICE ≤ target) (hA : A < U128) (hA0 : A ≠ 0) (hf : fee ≤ PCT) :
    Ends (fun e => e = .panic ∧ fee = 0) (computeSwapStep cur target L A true fee) := by
  by_cases h0 : L = 0
  · have : computeSwapStep cur target L A true fee = .ok ⟨target, 0, 0, 0⟩ := by unfold computeSwapStep; rw [if_pos h0]
    rw [this]; exact .ok
  have h1 := amountAfterFee_ok hA hf
  have haaf : A * (PCT - fee) / PCT ≤ A := aaf_le
  obtain ⟨pre, h2⟩ := getDeltaX_up_ok (a := target) (b := cur) (L := L) hT (by omega) hL
  have h2' : deltaIn true cur target L = .ok pre := by rw [deltaIn_sell]; exact h2
  have hnext : ∃ np, ((pre ≤ A * (PCT - fee) / PCT ∧ np = target) ∨
      (A * (PCT - fee) / PCT < pre ∧ nextSqrtPriceFromInput cur L (A * (PCT - fee) / PCT) true = .ok np)) := by
    by_cases hle : pre ≤ A * (PCT - fee) / PCT
    · exact ⟨target, .inl ⟨hle, rfl⟩⟩
    · obtain ⟨q, hq⟩ := xUp_add_ok (p := cur) (L := L) (x := A * (PCT - fee) / PCT) (by omega) hc hL h0 (by omega)
      exact ⟨q, .inr ⟨by omega, by unfold nextSqrtPriceFromInput; rw [if_pos rfl]; exact hq⟩⟩
  obtain ⟨np, h3⟩ := hnext
  obtain ⟨a1, a2⟩ := next_in_xy (cur := cur) (target := target) (L := L) (A := A) (fee := fee) (np := np) ⟨hf, pre, h2', h3⟩ h0 ht
    (sq_ge (by omega))
  have hnp : 11 * 10 ^ 18 ≤ np := by
    by_contra hh
    have hlt : np < target := by
      have : 11 * 10 ^ 18 ≤ MIN_SQRT_PRICE := by norm_num
      omega
    have k1 := a2 hlt
    have k2 : (MIN_SQRT_PRICE - 11 * 10 ^ 18) * MIN_SQRT_PRICE ≤ (target - np) * cur := Nat.mul_le_mul (by omega) (by omega)
    have k3 : SPR ≤ (MIN_SQRT_PRICE - 11 * 10 ^ 18) * MIN_SQRT_PRICE := by norm_num
    omega
  obtain ⟨i, h4⟩ := getDeltaX_up_ok' (a := np) (b := cur) (L := L) (by omega) (by omega) hL
  obtain ⟨o, h5⟩ := getDeltaY_down_ok (a := np) (b := cur) (L := L) (by omega) hc hL
  have hends := step_in_of (decide_eq_true ht) h0 h1 h2' h3 (i := i) (o := o) (by rw [deltaIn_sell]; exact h4)
    (by rw [deltaOut_sell]; exact h5) hf (getDeltaX_up h4).1
  intro e he
  obtain ⟨b1, b2, b3⟩ := hends e he
  refine ⟨b1, ?_⟩
  by_contra hf0
  rcases h3 with h3 | ⟨-, h3⟩
  · exact b2 h3.2
  · unfold nextSqrtPriceFromInput at h3
    rw [if_pos rfl] at h3
    have := in_le_amount hnp a1 hA0 hf0 hf h3 h4
    omega

/-! ## Fees -/

theorem getDeltaX_up_le {a b L x : Nat} (ha : 11 * 10 ^ 18 ≤ a) (hb : 11 * 10 ^ 18 ≤ b) (h : getDeltaX a b L true = .ok x) :
    x ≤ L + 2 := by
  obtain ⟨-, -, -, -, g⟩ := getDeltaX_up h
  have hmm : max a b * min a b = a * b := by
    rcases Nat.le_total a b with h | h
    · rw [Nat.max_eq_right h, Nat.min_eq_left h, Nat.mul_comm]
    · rw [Nat.max_eq_left h, Nat.min_eq_right h]
  have hd : absDiff a b ≤ max a b := by unfold absDiff; split <;> omega
  have h1 : max a b * (11 * 10 ^ 18) ≤ a * b := by
    rw [← hmm]; exact Nat.mul_le_mul_left _ (by omega)
  have h2 : (11 * 10 ^ 18) * (11 * 10 ^ 18) ≤ a * b := Nat.mul_le_mul ha hb
  have hS : (SPR : Nat) = 10 ^ 24 := by norm_num
  rw [hS] at g
  have h3 : absDiff a b * L * 10 ^ 18 ≤ L * (max a b * 10 ^ 18) := by
    calc absDiff a b * L * 10 ^ 18 ≤ max a b * L * 10 ^ 18 := Nat.mul_le_mul_right _ (Nat.mul_le_mul_right _ hd)
      _ = L * (max a b * 10 ^ 18) := by ring
  have h4 : max a b * 10 ^ 18 + 10 ^ 24 ≤ a * b := by linarith
  have h5 : 2 * 10 ^ 24 ≤ a * b := by linarith
  generalize a * b = W at *
  obtain ⟨w, rfl⟩ : ∃ w, W = w + 10 ^ 24 := ⟨W - 10 ^ 24, by omega⟩
  have h6 : L * (max a b * 10 ^ 18) ≤ L * w := Nat.mul_le_mul_left _ (by linarith)
  have h7 : x * w ≤ (L + 2) * w := by
    rw [Nat.mul_add] at g
    have : (L + 2) * w = L * w + 2 * w := by ring
    generalize x * w = a1 at *
    generalize L * w = a2 at *
    omega
  exact Nat.le_of_mul_le_mul_right h7 (by omega)

theorem getDeltaY_up_le {a b L y : Nat} (ha : a ≤ MAX_SQRT_PRICE) (hb : b ≤ MAX_SQRT_PRICE) (h : getDeltaY a b L true = .ok y) :
    y ≤ L + 2 := by
  obtain ⟨-, -, g⟩ := getDeltaY_up h
  have hd : absDiff a b ≤ 10 ^ 30 := by
    have : MAX_SQRT_PRICE ≤ 10 ^ 30 := by norm_num
    unfold absDiff; split <;> omega
  have h1 : absDiff a b * L ≤ 10 ^ 30 * L := Nat.mul_le_mul_right _ hd
  omega

theorem amount_of_aaf {A fee x : Nat} (hf : fee + 10 ^ 8 ≤ PCT) (h : A * (PCT - fee) / PCT < x) : A < x * 10 ^ 4 := by
  have h1 : A * (PCT - fee) < x * PCT := (Nat.div_lt_iff_lt_mul (by norm_num)).1 h
  have h2 : A * 10 ^ 8 ≤ A * (PCT - fee) := Nat.mul_le_mul_left _ (by omega)
  have h3 : (PCT : Nat) = 10 ^ 12 := by norm_num
  rw [h3] at h1
  rw [h3] at h2
  omega

theorem feeOf_le {a fee : Nat} (h : fee ≤ PCT) : feeOf a fee ≤ a := by
  unfold feeOf
  exact ceil_le (by norm_num) (Nat.mul_le_mul_left _ h)

/-- The fee of a step is small compared with the liquidity it is shared by. -/
theorem step_fee_le {cur target L A fee : Nat} {r : SwapResult} (h : computeSwapStep cur target L A true fee = .ok r)
    (hL : L ≠ 0) (hf : fee + 10 ^ 8 ≤ PCT) (h1 : MIN_SQRT_PRICE ≤ cur) (h2 : MIN_SQRT_PRICE ≤ target)
    (h3 : cur ≤ MAX_SQRT_PRICE) (h4 : target ≤ MAX_SQRT_PRICE) : r.feeAmount ≤ 10 ^ 4 * (L + 2) := by
  have hpre : ∀ pre, deltaIn (decide (cur ≥ target)) cur target L = .ok pre → pre ≤ L + 2 := by
    intro pre hp
    have hm : 11 * 10 ^ 18 ≤ MIN_SQRT_PRICE := by norm_num
    by_cases hd : cur ≥ target
    · rw [decide_eq_true hd, deltaIn_sell] at hp
      exact getDeltaX_up_le (by omega) (by omega) hp
    · rw [decide_eq_false hd, deltaIn_buy] at hp
      exact getDeltaY_up_le h3 h4 hp
  obtain ⟨a1, a2, -, a4⟩ := step_view h hL
  rw [if_pos rfl] at a1
  by_cases hn : r.nextPrice = target
  · rw [if_neg (fun hh => hh.2 hn)] at a4
    rw [hn] at a2
    have b1 := hpre _ a2
    have b2 := feeOf_le (a := r.amountIn) (fee := fee) (by omega)
    omega
  · rw [if_pos ⟨rfl, hn⟩] at a4
    obtain ⟨-, pre, b1, b2 | ⟨b2, -⟩⟩ := a1
    · exact absurd b2.2 hn
    · have b3 := hpre _ b1
      have b4 := amount_of_aaf hf b2
      omega

theorem Pool.addFee_ok {p : Pool} {a pf : Nat} {d : Bool} (hpf : pf ≤ PCT) (h : a ≤ 10 ^ 4 * (p.liquidity + 2))
    (hr : p.protoOf d + a < U128) : ∃ q, p.addFee a d pf = .ok q := by
  have hle := protoPart_le (a := a) hpf
  unfold Pool.addFee
  have e1 : bigMulUp a pf PCT = .ok (protoPart a pf) := cast128_of_lt (by
    have : protoPart a pf < U128 := by omega
    exact this)
  rw [e1, ok_bind, subP_ok.2 ⟨hle, rfl⟩, ok_bind]
  split
  · exact ⟨p, rfl⟩
  · rename_i hn
    have hL : p.liquidity ≠ 0 := fun hh => hn (.inr hh)
    have e2 : ∃ g, feeGrowthFromFee p.liquidity (a - protoPart a pf) = .ok g := by
      unfold feeGrowthFromFee
      rw [if_neg hL]
      refine ⟨_, cast128_of_lt ?_⟩
      rw [Nat.div_lt_iff_lt_mul (by omega)]
      have k1 : (a - protoPart a pf) * FGR * LIQ ≤ 10 ^ 4 * (p.liquidity + 2) * FGR * LIQ :=
        Nat.mul_le_mul_right _ (Nat.mul_le_mul_right _ (by omega))
      have k2 : 10 ^ 4 * (p.liquidity + 2) * FGR * LIQ = (p.liquidity + 2) * 10 ^ 38 := by
        have : (FGR : Nat) * LIQ = 10 ^ 34 := by norm_num
        calc 10 ^ 4 * (p.liquidity + 2) * FGR * LIQ = 10 ^ 4 * (p.liquidity + 2) * (FGR * LIQ) := by ring
          _ = _ := by rw [this]; ring
      have k3 : (p.liquidity + 2) * 10 ^ 38 ≤ p.liquidity * (3 * 10 ^ 38) := by
        have : 1 ≤ p.liquidity := Nat.pos_of_ne_zero hL
        linarith
      have k4 : p.liquidity * (3 * 10 ^ 38) < p.liquidity * U128 := Nat.mul_lt_mul_of_pos_left (by norm_num) (by omega)
      rw [Nat.mul_comm U128]
      linarith
    obtain ⟨g, hg⟩ := e2
    rw [hg, ok_bind]
    unfold Pool.protoOf at hr
    cases d
    · rw [if_neg (by decide)] at hr ⊢
      rw [add128_ok.2 ⟨by omega, rfl⟩, ok_bind]
      exact ⟨_, rfl⟩
    · rw [if_pos rfl] at hr ⊢
      rw [add128_ok.2 ⟨by omega, rfl⟩, ok_bind]
      exact ⟨_, rfl⟩

theorem Pool.addFee_proto {p q : Pool} {a pf : Nat} {d : Bool} (h : p.addFee a d pf = .ok q) : q.protoOf d ≤ p.protoOf d + a := by
  obtain ⟨h1, ⟨-, rfl⟩ | ⟨-, -, g, -, h2⟩⟩ := Pool.addFee_inv h
  · omega
  · unfold Pool.protoOf
    cases d
    · simp only [Bool.false_eq_true, if_false] at h2 ⊢; rw [h2.2]; simp only; omega
    · simp only [if_true] at h2 ⊢; rw [h2.2]; simp only; omega

/-! ## Arriving at a tick -/

theorem isEnough_sell_ok {A p L fee : Nat} (h1 : MIN_SQRT_PRICE ≤ p) (h2 : p ≤ MAX_SQRT_PRICE) (hL : L < U128) (hA : A < U128)
    (hf : fee ≤ PCT) : ∃ e, isEnoughAmountToChangePrice A p L fee true true = .ok e := by
  unfold isEnoughAmountToChangePrice
  by_cases h0 : L = 0
  · rw [if_pos h0]; exact ⟨true, rfl⟩
  · rw [if_neg h0]
    dsimp only
    rw [if_pos rfl, amountAfterFee_ok hA hf, ok_bind]
    obtain ⟨q, hq⟩ := xUp_add_ok h1 h2 hL h0 (x := A * (PCT - fee) / PCT) (Nat.lt_of_le_of_lt aaf_le hA)
    unfold nextSqrtPriceFromInput
    rw [if_pos rfl, hq, ok_bind]
    exact ⟨_, rfl⟩

theorem isEnough_buy_ok {A p L fee : Nat} (h2 : p ≤ MAX_SQRT_PRICE) (hA : A ≤ 10 ^ 29) (hf : fee ≤ PCT)
    (hL : L = 0 ∨ A ≤ 3 * 10 ^ 8 * L) : ∃ e, isEnoughAmountToChangePrice A p L fee true false = .ok e := by
  unfold isEnoughAmountToChangePrice
  by_cases h0 : L = 0
  · rw [if_pos h0]; exact ⟨true, rfl⟩
  · rw [if_neg h0]
    dsimp only
    have hU : 10 ^ 29 < U128 := by norm_num
    rw [if_pos rfl, amountAfterFee_ok (by omega) hf, ok_bind]
    have hle : A * (PCT - fee) / PCT ≤ A := aaf_le
    generalize A * (PCT - fee) / PCT = x at *
    obtain ⟨q, hq⟩ := yDown_add_ok (p := p) (L := L) (y := x) h0 (by omega) (by
      have k1 : p * L ≤ MAX_SQRT_PRICE * L := Nat.mul_le_mul_right _ h2
      have k2 : x * 10 ^ 30 ≤ 3 * 10 ^ 8 * L * 10 ^ 30 := Nat.mul_le_mul_right _ (by omega)
      have k3 : MAX_SQRT_PRICE * L + 3 * 10 ^ 8 * L * 10 ^ 30 = (MAX_SQRT_PRICE + 3 * 10 ^ 38) * L := by ring
      have k4 : (MAX_SQRT_PRICE + 3 * 10 ^ 38) * L < U128 * L := Nat.mul_lt_mul_of_pos_right (by norm_num) (by omega)
      omega)
    unfold nextSqrtPriceFromInput
    rw [if_neg (by decide), hq, ok_bind]
    exact ⟨_, rfl⟩

/-- What is too little to move the price is small compared with the liquidity. -/
theorem rest_le {A p L fee : Nat} (hp : MIN_SQRT_PRICE ≤ p) (hf : fee + 10 ^ 8 ≤ PCT)
    (h : isEnoughAmountToChangePrice A p L fee true true = .ok false) : A ≤ 10 ^ 4 * (L + 2) := by
  obtain ⟨-, h2⟩ := not_enough h
  have hx : A * (PCT - fee) / PCT < L + 2 := by
    generalize A * (PCT - fee) / PCT = x at *
    by_cases hx : x = 0
    · omega
    obtain ⟨-, -, g⟩ := xUp_add h2 hx
    by_contra hc
    have e1 : p * (L * 10 ^ 18 + p * x) = p * L * 10 ^ 18 + p * p * x := by ring
    have e2 : (p * L + 10 ^ 6) * 10 ^ 18 = p * L * 10 ^ 18 + 10 ^ 24 := by ring
    rw [e1, e2] at g
    have hm : 11 * 10 ^ 18 ≤ MIN_SQRT_PRICE := by norm_num
    obtain ⟨w, rfl⟩ : ∃ w, p = w + 1 := ⟨p - 1, by omega⟩
    have e3 : (w + 1) * (w + 1) * x = (w + 1) * x + w * (w + 1) * x := by ring
    have e4 : 10 ^ 37 * x ≤ w * (w + 1) * x := by
      refine Nat.mul_le_mul_right _ ?_
      calc 10 ^ 37 ≤ (10 ^ 19) * (10 ^ 19) := by norm_num
        _ ≤ w * (w + 1) := Nat.mul_le_mul (by omega) (by omega)
    have e5 : L + 2 ≤ x := Nat.not_lt.1 hc
    linarith
  have := amount_of_aaf hf hx
  omega

theorem getCloserLimit_ends {bm : Nat → Nat} (hbm : ∀ c, bm c < 2 ^ 64) {limit : Nat} {d : Bool} {cur : Int} {ts : Nat}
    (hc : TickOk ts cur) : Ends (fun e => e = .tickLimitReached) (getCloserLimit bm limit d cur ts) := by
  have h1 : ∃ r, (if d then prevInitialized bm cur ts else nextInitialized bm cur ts) = .ok r ∧ ∀ i, r = some i → TickOk ts i := by
    cases d
    · obtain ⟨r, e, hr⟩ := nextInitialized_spec hbm hc
      refine ⟨r, e, fun i hi => ?_⟩
      subst hi; exact hr.2.2.1
    · obtain ⟨r, e, hr⟩ := prevInitialized_spec (bm := bm) hc
      refine ⟨r, e, fun i hi => ?_⟩
      subst hi; exact hr.2.2.1
  have h2 : ∃ i, getSearchLimit cur ts (!d) = .ok i ∧ TickOk ts i := by
    cases d
    · exact ⟨_, getSearchLimit_up hc, upLimit_ok hc⟩
    · exact ⟨_, getSearchLimit_down hc, downLimit_ok hc⟩
  obtain ⟨r, h1, hr⟩ := h1
  obtain ⟨j, h2, hj⟩ := h2
  unfold getCloserLimit
  have hend : ∀ idx : Int × Bool, TickOk ts idx.1 → Ends (fun e => e = Err.tickLimitReached) (do
      let p ← calculateSqrtPrice idx.1
      if (d ∧ p > limit) ∨ (¬ d ∧ p < limit) then pure (p, some idx) else pure (limit, none) : M (Nat × Option (Int × Bool))) := by
    intro idx hi
    rw [calculateSqrtPrice_ok' hi, ok_bind]
    split
    · exact .ok
    · exact .ok
  by_cases hd : d = true
  · rw [if_pos hd] at h1 ⊢
    rw [h1, ok_bind]
    cases r with
    | some i => exact hend (i, true) (hr i rfl)
    | none =>
      dsimp only
      rw [h2, ok_bind]
      split
      · intro e he; rw [error_bind] at he; cases he; rfl
      · exact hend (j, false) hj
  · rw [if_neg hd] at h1 ⊢
    rw [h1, ok_bind]
    cases r with
    | some i => exact hend (i, true) (hr i rfl)
    | none =>
      dsimp only
      rw [h2, ok_bind]
      split
      · intro e he; rw [error_bind] at he; cases he; rfl
      · exact hend (j, false) hj

/-! ## Totals -/

/-- What has been paid out, against the distance the price has moved from `p0`. -/
def OutOk (d : Bool) (p0 p out : Nat) : Prop :=
  if d then p ≤ p0 ∧ out * 10 ^ 30 ≤ U128 * (p0 - p)
  else p0 ≤ p ∧ (out : ℚ) ≤ (U128 : ℚ) * 10 ^ 18 * (1 / (p0 : ℚ) - 1 / (p : ℚ))

theorem OutOk.lt {d : Bool} {p0 p out : Nat} (h : OutOk d p0 p out) (h1 : MIN_SQRT_PRICE ≤ p0) (h2 : p0 ≤ MAX_SQRT_PRICE) :
    out < U128 := by
  unfold OutOk at h
  cases d
  · rw [if_neg (by decide)] at h
    have hm : ((10 : ℚ) ^ 19) ≤ p0 := by
      have : 10 ^ 19 ≤ p0 := Nat.le_trans (by norm_num) h1
      exact_mod_cast this
    have hp : (0 : ℚ) ≤ 1 / (p : ℚ) := by positivity
    have hq : 1 / (p0 : ℚ) ≤ 1 / 10 ^ 19 := one_div_le_one_div_of_le (by positivity) hm
    have hU : (0 : ℚ) < (U128 : ℚ) := by norm_num
    have h3 : (U128 : ℚ) * 10 ^ 18 * (1 / (p0 : ℚ) - 1 / (p : ℚ)) ≤ (U128 : ℚ) * 10 ^ 18 * (1 / 10 ^ 19) :=
      mul_le_mul_of_nonneg_left (by linarith) (by positivity)
    have h4 : (U128 : ℚ) * 10 ^ 18 * (1 / 10 ^ 19) < (U128 : ℚ) := by norm_num
    have h5 : (out : ℚ) < (U128 : ℚ) := lt_of_le_of_lt (le_trans h.2 h3) h4
    exact_mod_cast h5
  · rw [if_pos rfl] at h
    have h3 : U128 * (p0 - p) ≤ U128 * MAX_SQRT_PRICE := Nat.mul_le_mul_left _ (by omega)
    have h4 : U128 * MAX_SQRT_PRICE < U128 * 10 ^ 30 := by norm_num
    have h5 : out * 10 ^ 30 < U128 * 10 ^ 30 := Nat.lt_of_le_of_lt (Nat.le_trans h.2 h3) h4
    exact Nat.lt_of_mul_lt_mul_right h5

theorem OutOk.step {d : Bool} {p0 cur target L A fee out : Nat} {r : SwapResult} (h : OutOk d p0 cur out)
    (hs : computeSwapStep cur target L A true fee = .ok r) (hL : L < U128) (hd : if d then target ≤ cur else cur < target)
    (hc : MIN_SQRT_PRICE ≤ cur) : OutOk d p0 r.nextPrice (out + r.amountOut) := by
  have hcq : (0 : ℚ) < cur := by
    have : 0 < cur := Nat.lt_of_lt_of_le (by norm_num) hc
    exact_mod_cast this
  have hU : (L : ℚ) ≤ (U128 : ℚ) := by exact_mod_cast Nat.le_of_lt hL
  unfold OutOk at h ⊢
  by_cases hz : L = 0
  · rw [hz] at hs
    rw [step_zero hs]
    cases d
    · rw [if_neg (by decide)] at h hd ⊢
      refine ⟨by simp only; omega, ?_⟩
      have : 1 / (target : ℚ) ≤ 1 / (cur : ℚ) := one_div_le_one_div_of_le hcq (by exact_mod_cast Nat.le_of_lt hd)
      have h1 : (U128 : ℚ) * 10 ^ 18 * (1 / (p0 : ℚ) - 1 / (cur : ℚ)) ≤ (U128 : ℚ) * 10 ^ 18 * (1 / (p0 : ℚ) - 1 / (target : ℚ)) :=
        mul_le_mul_of_nonneg_left (by linarith) (by positivity)
      simp only [Nat.add_zero]
      linarith [h.2]
    · rw [if_pos rfl] at h hd ⊢
      refine ⟨by simp only; omega, ?_⟩
      simp only [Nat.add_zero]
      exact Nat.le_trans h.2 (Nat.mul_le_mul_left _ (by omega))
  · obtain ⟨a1, -, ⟨o, a3, a3'⟩, -⟩ := step_view hs hz
    rw [if_pos rfl] at a1 a3'
    subst a3'
    cases d
    · rw [if_neg (by decide)] at h hd ⊢
      rw [decide_eq_false (by omega)] at a1 a3
      rw [deltaOut_buy] at a3
      obtain ⟨b1, b2, -⟩ := next_in_yx a1 hd
      obtain ⟨-, c1, c2, c3, -⟩ := getDeltaX_down a3
      have e : absDiff cur r.nextPrice = r.nextPrice - cur := by unfold absDiff; rw [if_neg (by omega)]
      rw [e] at c3
      refine ⟨by omega, ?_⟩
      have hn : (0 : ℚ) < r.nextPrice := by exact_mod_cast c2
      have c4 : (r.amountOut : ℚ) * (cur * r.nextPrice) ≤ ((r.nextPrice : ℚ) - cur) * L * 10 ^ 18 := by
        have : ((r.amountOut * (cur * r.nextPrice) : Nat) : ℚ) ≤ (((r.nextPrice - cur) * L * 10 ^ 18 : Nat) : ℚ) := by exact_mod_cast c3
        push_cast [Nat.cast_sub b1] at this
        exact this
      have c5 : (r.amountOut : ℚ) ≤ L * 10 ^ 18 * (1 / (cur : ℚ) - 1 / (r.nextPrice : ℚ)) := by
        have e2 : (1 / (cur : ℚ) - 1 / (r.nextPrice : ℚ)) = ((r.nextPrice : ℚ) - cur) / (cur * r.nextPrice) := by
          field_simp
        rw [e2, ← mul_div_assoc, le_div_iff₀ (by positivity)]
        linarith
      have c6 : 1 / (r.nextPrice : ℚ) ≤ 1 / (cur : ℚ) := one_div_le_one_div_of_le hcq (by exact_mod_cast b1)
      have c7 : L * 10 ^ 18 * (1 / (cur : ℚ) - 1 / (r.nextPrice : ℚ)) ≤
          (U128 : ℚ) * 10 ^ 18 * (1 / (cur : ℚ) - 1 / (r.nextPrice : ℚ)) :=
        mul_le_mul_of_nonneg_right (mul_le_mul_of_nonneg_right hU (by positivity)) (by linarith)
      rw [Nat.cast_add]
      have h3 := h.2
      generalize (U128 : ℚ) * 10 ^ 18 = K at *
      generalize 1 / (r.nextPrice : ℚ) = y at *
      generalize 1 / (cur : ℚ) = z at *
      generalize 1 / (p0 : ℚ) = w at *
      nlinarith
    · rw [if_pos rfl] at h hd ⊢
      rw [decide_eq_true (show cur ≥ target from hd)] at a1 a3
      rw [deltaOut_sell] at a3
      obtain ⟨b1, -⟩ := next_in_xy a1 hz hd (sq_ge hc)
      obtain ⟨-, c1, -⟩ := getDeltaY_down a3
      have e : absDiff r.nextPrice cur = cur - r.nextPrice := by unfold absDiff; rw [if_neg (by omega)]
      rw [e] at c1
      refine ⟨by omega, ?_⟩
      have c2 : (cur - r.nextPrice) * L ≤ U128 * (cur - r.nextPrice) := by
        rw [Nat.mul_comm]; exact Nat.mul_le_mul_right _ (Nat.le_of_lt hL)
      have c3 : U128 * (p0 - r.nextPrice) = U128 * (p0 - cur) + U128 * (cur - r.nextPrice) := by
        rw [← Nat.mul_add]; congr 1; omega
      rw [Nat.add_mul, c3]
      exact Nat.add_le_add h.2 (Nat.le_trans c1 c2)

/-- The books of an exact-input swap while it runs. -/
structure InBooks (d : Bool) (p : Pool) (amount : Nat) (st : SwapState) : Prop where
  total : st.totalIn + st.remaining = amount
  fee : st.fee ≤ st.totalIn
  proto : st.pool.protoOf d + st.remaining ≤ p.protoOf d + amount
  start : st.pool.startTs = p.startTs
  out : OutOk d p.sqrtPrice st.pool.sqrtPrice st.totalOut

theorem inBooks_start (d : Bool) (p : Pool) (amount : Nat) : InBooks d p amount (swapStart p amount) where
  total := Nat.zero_add _
  fee := Nat.le_refl _
  proto := Nat.le_refl _
  start := rfl
  out := by
    unfold OutOk swapStart
    cases d <;> simp

theorem Tick.cross_proto {t : Tick} {p : Pool} {now : Nat} {tp : Tick × Pool} (h : t.cross p now = .ok tp) (d : Bool) :
    tp.2.protoOf d = p.protoOf d := by
  obtain ⟨liq, -, -, -, d4⟩ := Tick.cross_inv h
  rw [d4]
  rfl

theorem InBooks.next {s : Store} {pr : SwapParams} {st st' : SwapState} {i : Int} {ini : Bool} {r : SwapResult}
    {cfg : Config} {p1 p : Pool} {rem amount : Nat} {u : TickUpdRes} (hv : IterView s pr st st' i ini r cfg p1 rem u)
    (hin : pr.byAmountIn = true)
    (hlo : LoopOk pr.xToY pr.key.tier.spacing pr.limit st.pool st.remaining) (hr : st.remaining ≠ 0)
    (hL : st.pool.liquidity < U128)
    (h : InBooks pr.xToY p amount st) : InBooks pr.xToY p amount st' := by
  obtain ⟨q, hq, hp1⟩ := hv.fee
  have k1 : p1.protoOf pr.xToY ≤ st.pool.protoOf pr.xToY + r.feeAmount := by
    rw [hp1]; exact (Pool.addFee_proto hq :)
  have hrest := hv.rest
  rw [hin, if_pos rfl] at hrest
  have hu : u.total + u.remaining = rem ∧ u.pool.protoOf pr.xToY ≤ p1.protoOf pr.xToY + u.total := by
    rcases hv.fin with ⟨t, c1, c2, upd, rfl⟩ | ⟨e, c1, c2, c3, c4, rfl⟩ | ⟨e, t, tp, c1, c2, c3, c4, c5, c6, c7, c8, rfl⟩ |
      ⟨t, c1, c2, c3, c4, c5, c6, c7, c8⟩
    · exact ⟨Nat.zero_add _, Nat.le_refl _⟩
    · exact ⟨Nat.zero_add _, Nat.le_refl _⟩
    · exact ⟨Nat.zero_add _, Nat.le_of_eq (Tick.cross_proto c8 _)⟩
    · rcases c8 with ⟨d1, d2, p, d3, rfl⟩ | ⟨d1, rfl⟩
      · refine ⟨rfl, ?_⟩
        have := Pool.addFee_proto d3
        rw [c4]
        exact this
      · refine ⟨?_, Nat.le_refl _⟩
        rcases d1 with d1 | d1
        · exact d1.symm
        · rw [hin] at d1; cases d1
  have e1 := hv.eq
  have hpe := iter_price_eq hv
  refine ⟨?_, ?_, ?_, (iter_start hv).2.trans h.start, ?_⟩
  · rw [e1]; simp only; have := h.total; omega
  · rw [e1]; simp only; have := h.fee; omega
  · rw [e1]; simp only; have := h.proto; omega
  · rw [hpe]
    have e2 : st'.totalOut = st.totalOut + r.amountOut := by rw [e1]
    rw [e2]
    have hs := hv.step
    rw [hin] at hs
    exact h.out.step hs hL (target_ahead hlo hr hv.ok hv.dir) hlo.min

/-! ## The loop -/

/-- How an exact-input swap may be refused while it runs. -/
def Refusal (d : Bool) (fee : Nat) (e : Err) : Prop :=
  e = .priceLimitReached ∨ e = .tickLimitReached ∨
    (d = true ∧ (e = .sub ∨ e = .sqrtPriceOutOfRange ∨ (e = .panic ∧ fee = 0)))

/-- What an exact-input swap needs in order to be refused for those reasons only. -/
structure SwapFits (s : Store) (k : PoolKey) (p : Pool) (d : Bool) (amount now : Nat) : Prop where
  config : ∀ cfg, s.config = some cfg → cfg.protocolFee ≤ PCT
  fee : k.tier.fee + 10 ^ 8 ≤ PCT
  proto : p.protoOf d + amount < U128
  clock : p.startTs ≤ now
  sell : amount ≤ 10 ^ 38
  buy : d = false → amount ≤ 10 ^ 29 ∧
    ∀ t, p.tick ≤ t → liquidityInRange s k t = 0 ∨ amount ≤ 3 * 10 ^ 8 * liquidityInRange s k t

theorem updateTick_ends {pool : Pool} {np sl : Nat} {upd : TickUpd} {rem : Nat} {d : Bool} {now pf : Nat} {tier : FeeTier}
    {P : Err → Prop} (h0 : tier.spacing ≠ 0)
    (h1 : np ≤ MAX_SQRT_PRICE) (h2 : np < MIN_SQRT_PRICE → (upd = .noTick ∨ sl ≠ np) → P .sqrtPriceOutOfRange)
    (h3 : upd ≠ .noTick → sl = np → ∃ e, isEnoughAmountToChangePrice rem np pool.liquidity tier.fee true d = .ok e)
    (h4 : ∀ t, upd = .init t → sl = np → ∃ tp, t.cross pool now = .ok tp)
    (h5 : ∀ t, upd = .init t → sl = np → d = true →
      isEnoughAmountToChangePrice rem np pool.liquidity tier.fee true true = .ok false → ∃ q, pool.addFee rem true pf = .ok q) :
    Ends P (pool.updateTick np sl upd rem true d now pf tier) := by
  unfold Pool.updateTick
  by_cases hc : upd = .noTick ∨ sl ≠ np
  · rw [if_pos hc]
    refine Ends.bind ?_ (fun _ _ => .ok)
    by_cases hm : np < MIN_SQRT_PRICE
    · unfold getTickAtSqrtPrice
      rw [if_pos (.inr hm)]
      exact .error (h2 hm hc)
    · obtain ⟨t, ht⟩ := getTick_exists (Nat.not_lt.1 hm) h1 (Nat.pos_of_ne_zero h0)
      rw [ht]; exact .ok
  · rw [if_neg hc]
    have hu : upd ≠ .noTick := fun hh => hc (.inl hh)
    have hsl : sl = np := by
      by_contra hh; exact hc (.inr hh)
    obtain ⟨e, he⟩ := h3 hu hsl
    rw [he, ok_bind]
    cases upd with
    | noTick => exact absurd rfl hu
    | uninit i => exact .ok
    | init t =>
      dsimp only
      split
      · obtain ⟨tp, htp⟩ := h4 t rfl hsl
        rw [htp]
        exact .ok
      · rename_i hde
        have hd : d = true := by cases d <;> simp_all
        have he' : e = false := by cases e <;> simp_all
        subst hd; subst he'
        split
        · rw [if_pos rfl]
          obtain ⟨q, hq⟩ := h5 t rfl hsl rfl he
          rw [hq, ok_bind]
          exact .ok
        · exact .ok

theorem step_target {d : Bool} {ts limit : Nat} {p : Pool} {rem : Nat} {i : Int} (h : LoopOk d ts limit p rem)
    (hr : rem ≠ 0) (hi : TickOk ts i) (hd : if d then i ≤ p.tick else p.tick < i) :
    MIN_SQRT_PRICE ≤ stepTarget d (sqrtPriceAt i) limit ∧ stepTarget d (sqrtPriceAt i) limit ≤ MAX_SQRT_PRICE := by
  have h1 := target_ahead h hr hi hd
  have h2 := h.min
  have h3 := Nat.le_trans h.le_top (maxTick_ok h.tick.pos).price_max
  have h4 := hi.price_min
  have h5 := hi.price_max
  unfold stepTarget at *
  cases d
  · simp only [Bool.false_eq_true, if_false] at h1 ⊢; omega
  · simp only [if_true] at h1 ⊢; omega

/-- What a step takes is hardly more than what it is given. -/
theorem step_in_lt {cur target L A fee : Nat} {r : SwapResult} {d : Bool} (hs : computeSwapStep cur target L A true fee = .ok r)
    (hd : if d then target ≤ cur else cur < target) (hc : MIN_SQRT_PRICE ≤ cur) (ht : MIN_SQRT_PRICE ≤ target)
    (hf : fee ≤ PCT) (hA : A ≤ 10 ^ 38) :
    r.amountIn + r.feeAmount < U128 ∧ (d = false → r.amountIn + r.feeAmount ≤ A) := by
  have hU : 3 * 10 ^ 38 < U128 := by norm_num
  cases d
  · rw [if_neg (by decide)] at hd
    have h1 := (C26_in_up hd hs).1
    exact ⟨by omega, fun _ => h1⟩
  · rw [if_pos rfl] at hd
    refine ⟨?_, fun h => by cases h⟩
    obtain ⟨h1, -, h2, -⟩ := C26_in_down_partial hc hd hs
    by_cases hn : r.nextPrice = target
    · have h3 := h2 hn
      have hfee : r.feeAmount ≤ r.amountIn := by
        by_cases hz : L = 0
        · rw [hz] at hs; rw [step_zero hs]
        · obtain ⟨-, -, -, a4⟩ := step_view hs hz
          rw [if_neg (fun hh => hh.2 hn)] at a4
          rw [a4]; exact feeOf_le hf
      have hW : 10 ^ 38 ≤ target * cur := by
        calc 10 ^ 38 ≤ MIN_SQRT_PRICE * MIN_SQRT_PRICE := by norm_num
          _ ≤ target * cur := Nat.mul_le_mul ht hc
      have h4 : (r.amountIn - 1 - A) * 10 ^ 38 ≤ r.amountIn * 10 ^ 24 := Nat.le_trans (Nat.mul_le_mul_left _ hW) h3
      have h5 : r.amountIn < 15 * 10 ^ 37 := by
        by_contra hh
        obtain ⟨w, hw⟩ : ∃ w, r.amountIn = w + 1 + A := ⟨r.amountIn - 1 - A, by omega⟩
        have e : r.amountIn - 1 - A = w := by omega
        rw [e] at h4
        omega
      omega
    · have := h1 hn
      omega

theorem iter_ends {c : Chain} {s : Store} (hs : Reach c s) {k : PoolKey} (hdr : drift s k = 0) {p : Pool} (hk : k.wf)
    (hp : s.pools.get? k.key = some p) {d : Bool} {limit now amount : Nat} {st : SwapState}
    (hl : if d then limit < p.sqrtPrice else p.sqrtPrice < limit)
    (hv : SwapVisits s ⟨k, d, true, limit, now⟩ (swapStart p amount) st) (hr : st.remaining ≠ 0)
    (hf : SwapFits s k p d amount now) (hb : InBooks d p amount st) :
    Ends (Refusal d k.tier.fee) (swapIter s ⟨k, d, true, limit, now⟩ st) := by
  have hm := hs.mreach
  have hst := hm.struct
  have hbi := hm.bitInv
  have hts := hm.tickSum
  have hti := hst.tier hk hp
  have hprice := hm.price k p hk hp
  obtain ⟨hlo, hact⟩ := visits_ok hst hbi hts hk hp hprice (active_of hdr hp) hl hv
  have hact := hact hr
  have hL : st.pool.liquidity < U128 := by
    rw [hact]; exact Nat.lt_of_le_of_lt inRange_le (total_lt hst hm.cap hk hti)
  have hmax := Nat.le_trans hlo.le_top (maxTick_ok hlo.tick.pos).price_max
  have hrem : st.remaining ≤ amount := by have := hb.total; omega
  have hfee : k.tier.fee ≤ PCT := by have := hf.fee; omega
  have hU : 3 * 10 ^ 38 < U128 := by norm_num
  have hsell := hf.sell
  have hA : st.remaining < U128 := by omega
  unfold swapIter
  dsimp only
  refine Ends.bind ((getCloserLimit_ends (hbi.chunk k) hlo.tick).mono fun e he => .inr (.inl he)) fun cl hcl => ?_
  obtain ⟨i, b, a1, a2, a3, a4, a5, a6⟩ := closer_view (hbi.chunk k) hlo.tick hcl
  have hcl1 : cl.1 = stepTarget d (sqrtPriceAt i) limit := by
    unfold stepTarget
    rcases a6 with ⟨g1, rfl⟩ | ⟨g1, rfl⟩
    · cases d
      · simp only [Bool.false_eq_true, if_false] at g1 ⊢; omega
      · simp only [if_true] at g1 ⊢; omega
    · cases d
      · simp only [Bool.false_eq_true, if_false] at g1 ⊢; omega
      · simp only [if_true] at g1 ⊢; omega
  have hah := target_ahead hlo hr a1 a2
  obtain ⟨t1, t2⟩ := step_target hlo hr a1 a2
  rw [← hcl1] at hah t1 t2
  refine Ends.bind ?_ fun r hstep => ?_
  · cases d
    · rw [if_neg (by decide)] at hah
      obtain ⟨r, h⟩ := step_buy_ok (fee := k.tier.fee) hL hlo.min hah t2 (Nat.le_trans hrem (hf.buy rfl).1) hfee
      rw [h]; exact .ok
    · rw [if_pos rfl] at hah
      exact (step_sell_ends hL hmax hah t1 hA hr hfee).mono fun e he => .inr (.inr ⟨rfl, .inr (.inr he)⟩)
  obtain ⟨s1, s2⟩ := step_in_lt hstep hah hlo.min t1 hfee (by omega)
  have hsp := step_price hstep hah (sq_ge hlo.min)
  rw [if_pos rfl, add128_ok.2 ⟨s1, rfl⟩, ok_bind]
  refine Ends.bind ?_ fun rem hrest => ?_
  · by_cases hle : r.amountIn + r.feeAmount ≤ st.remaining
    · rw [checkedSub_ok.2 ⟨hle, rfl⟩]; exact .ok
    · unfold checkedSub
      rw [if_neg hle]
      refine .error (.inr (.inr ⟨?_, .inl rfl⟩))
      cases d
      · exact absurd (s2 rfl) hle
      · rfl
  obtain ⟨hle, hrest⟩ := checkedSub_ok.1 hrest
  obtain ⟨cfg, hcfg, -⟩ := hst.cfg
  have hcfg' : loadConfig s = .ok cfg := by unfold loadConfig; rw [hcfg]
  rw [hcfg', ok_bind]
  have hpf := hf.config cfg hcfg
  have hproto := hb.proto
  have hproto0 := hf.proto
  have hfl : r.feeAmount ≤ 10 ^ 4 * (st.pool.liquidity + 2) := by
    by_cases hz : st.pool.liquidity = 0
    · rw [hz] at hstep; rw [step_zero hstep]; exact Nat.zero_le _
    · exact step_fee_le hstep hz hf.fee hlo.min t1 hmax t2
  obtain ⟨q, hq⟩ := Pool.addFee_ok (p := st.pool) (a := r.feeAmount) (d := d) hpf hfl (by omega)
  rw [hq, ok_bind]
  have htot := hb.total
  have hfb := hb.fee
  rw [add128_ok.2 ⟨by omega, rfl⟩, ok_bind, ok_bind]
  rw [add128_ok.2 ⟨by omega, rfl⟩, ok_bind]
  have hout := (hb.out.step hstep hL hah hlo.min).lt hprice.min hprice.max
  rw [add128_ok.2 ⟨hout, rfl⟩, ok_bind]
  split
  · exact .error (.inl rfl)
  rename_i hnl
  obtain ⟨q1, q2, q3⟩ := addFee_keep hq
  have hqs := addFee_start hq
  have hqp := Pool.addFee_proto hq
  refine Ends.bind ?_ fun upd hupd => ?_
  · rcases a6 with ⟨-, rfl⟩ | ⟨-, rfl⟩
    · cases b
      · exact .ok
      · have := (hbi.isSome hk hti a1).1 (a3.1 rfl)
        obtain ⟨t, ht⟩ := Option.isSome_iff_exists.1 this
        unfold tickUpdOf
        dsimp only
        rw [getTick_ok.2 ht, ok_bind]
        exact .ok
    · exact .ok
  have hnp : r.nextPrice ≤ MAX_SQRT_PRICE ∧ (r.nextPrice < MIN_SQRT_PRICE → d = true) := by
    have h1 := hsp.1
    have h2 := hlo.min
    cases d
    · rw [if_neg (by decide)] at h1
      exact ⟨by omega, fun hh => by omega⟩
    · rw [if_pos rfl] at h1
      exact ⟨by omega, fun _ => rfl⟩
  have hremlt : rem ≤ st.remaining := by omega
  refine Ends.bind ?_ fun u hu => ?_
  · refine updateTick_ends (Nat.ne_of_gt hlo.tick.pos) hnp.1 (fun h1 _ => .inr (.inr ⟨hnp.2 h1, .inr (.inl rfl)⟩)) ?_ ?_ ?_
    · intro hn hsl
      show ∃ e, isEnoughAmountToChangePrice rem r.nextPrice q.liquidity k.tier.fee true d = .ok e
      rw [q1]
      cases d
      · obtain ⟨g1, g2⟩ := hf.buy rfl
        refine isEnough_buy_ok hnp.1 (by omega) hfee ?_
        have htick : p.tick ≤ st.pool.tick := by
          by_contra hh
          have hb1 := hb.out
          unfold OutOk at hb1
          rw [if_neg (by decide)] at hb1
          have e1 := (TickOk_iff.1 hprice.tick).2.2.2
          have e2 := hlo.hi' (by omega) (.inr rfl)
          have e3 := (hlo.tick.add (by omega)).price_le hprice.tick (dvd_lt_step hlo.tick.pos hlo.tick.dvd hprice.tick.dvd (by omega))
          have e4 := hprice.lo
          omega
        rcases g2 _ htick with g3 | g3
        · left; rw [hact]; exact g3
        · right; rw [hact]; omega
      · exact isEnough_sell_ok (by omega) hnp.1 hL (by omega) hfee
    · intro t ht hsl
      rcases tickUpdOf_inv hupd with ⟨-, g⟩ | ⟨j, t', g1, g2, g3⟩ | ⟨j, g1, g3⟩
      · rw [g] at ht; cases ht
      · rw [g3] at ht
        cases ht
        have hcl2 : getCloserLimit (getChunk s k) limit d st.pool.tick k.tier.spacing = .ok (cl.1, some (j, true)) := by
          rw [hcl, ← g1]
        exact C27_crossing_partial hs hdr hk hp hl hv hr hcl2 (getTick_ok.2 g2) q1 q3 (by
          show q.startTs ≤ now
          rw [hqs, hb.start]; exact hf.clock)
      · rw [g3] at ht; cases ht
    · intro t ht hsl hd he
      subst hd
      have he' : isEnoughAmountToChangePrice rem r.nextPrice q.liquidity k.tier.fee true true = .ok false := he
      have g1 := rest_le (by omega) hf.fee he'
      refine Pool.addFee_ok hpf g1 ?_
      show q.protoOf true + rem < U128
      omega
  · have htotal : u.total ≤ rem := by
      rcases updateTick_inv hu with ⟨-, t, -, rfl⟩ | ⟨-, e, -, ⟨j, -, rfl⟩ | ⟨t, -, ⟨-, tp, -, rfl⟩ | ⟨-, -, -, -, q', -, rfl⟩ | ⟨-, -, -, rfl⟩⟩⟩
      · exact Nat.zero_le _
      · exact Nat.zero_le _
      · exact Nat.zero_le _
      · exact Nat.le_refl _
      · exact Nat.zero_le _
    rw [add128_ok.2 ⟨by omega, rfl⟩, ok_bind]
    split
    · exact .error (.inr (.inl rfl))
    · exact .ok

theorem loop_ends {c : Chain} {s : Store} (hs : Reach c s) {k : PoolKey} (hdr : drift s k = 0) {p : Pool} (hk : k.wf)
    (hp : s.pools.get? k.key = some p) {d : Bool} {limit now amount : Nat}
    (hl : if d then limit < p.sqrtPrice else p.sqrtPrice < limit) (hf : SwapFits s k p d amount now) {n : Nat} {st : SwapState}
    (hend : LoopEnds s ⟨k, d, true, limit, now⟩ n st)
    (hv : SwapVisits s ⟨k, d, true, limit, now⟩ (swapStart p amount) st) (hb : InBooks d p amount st) :
    Ends (Refusal d k.tier.fee) (swapLoop s ⟨k, d, true, limit, now⟩ n st) := by
  have hm := hs.mreach
  have hst := hm.struct
  have hti := hst.tier hk hp
  induction hend with
  | @done n st h0 =>
    cases n
    · unfold swapLoop; rw [if_pos h0]; exact .ok
    · unfold swapLoop; rw [if_pos h0]; exact .ok
  | @fail n st e h =>
    rw [swapLoop]
    split
    · exact .ok
    · rename_i hr
      exact Ends.bind (iter_ends hs hdr hk hp hl hv hr hf hb) fun a ha => by rw [h] at ha; cases ha
  | @next n st st' h _ ih =>
    rw [swapLoop]
    split
    · exact .ok
    · rename_i hr
      rw [h, ok_bind]
      obtain ⟨hlo, hact⟩ := visits_ok hst hm.bitInv hm.tickSum hk hp (hm.price k p hk hp) (active_of hdr hp) hl hv
      have hL : st.pool.liquidity < U128 := by
        rw [hact hr]; exact Nat.lt_of_le_of_lt inRange_le (total_lt hst hm.cap hk hti)
      obtain ⟨i, ini, r, cfg, p1, rem, u, hview⟩ := iter_view hst hm.bitInv hk hti hlo.tick h
      exact ih (.next hv hr h) (hb.next hview rfl hlo hr hL)

theorem calculateSwap_ends {c : Chain} {s : Store} (hs : Reach c s) {k : PoolKey} (hdr : drift s k = 0) {p : Pool} (hk : k.wf)
    (hp : s.pools.get? k.key = some p) {d : Bool} {limit now amount : Nat} (hf : SwapFits s k p d amount now) :
    Ends (fun e => e = .amountIsZero ∨ e = .wrongLimit ∨ e = .noGainSwap ∨ Refusal d k.tier.fee e)
      (calculateSwap s now k d amount true limit) := by
  unfold calculateSwap
  split
  · exact .error (.inl rfl)
  have hg : getPool s k = .ok p := by unfold getPool; rw [hp]
  rw [hg, ok_bind]
  split
  · exact .error (.inr (.inl rfl))
  rename_i hlim
  have hl : if d then limit < p.sqrtPrice else p.sqrtPrice < limit := by
    cases d
    · rw [if_neg (by decide)]
      by_contra hh
      exact hlim (.inr ⟨by decide, .inl (by omega)⟩)
    · rw [if_pos rfl]
      by_contra hh
      exact hlim (.inl ⟨rfl, .inl (by omega)⟩)
  have hti := hs.mreach.struct.tier hk hp
  rw [if_neg (by have := hti.1; omega)]
  refine Ends.bind ((loop_ends hs hdr hk hp hl hf (C24_terminates_all hs hk hp d true amount limit now hl) (.refl _)
    (inBooks_start d p amount)).mono fun e he => .inr (.inr (.inr he))) fun st _ => ?_
  split
  · exact .error (.inr (.inr (.inl rfl)))
  · exact .ok

end OraiV3
