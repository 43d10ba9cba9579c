import Verif.Lemmas.Decimal
import Verif.Lemmas.Monad
import Verif.Lemmas.Step
import Verif.Lemmas.Amounts

/-!
# The literal arithmetic agrees with the model's
-/

namespace OraiV3

/-! ## Words -/

theorem words {n W : Nat} (h : n < W * W * W * W) :
    n % W + n / W % W * W + n / (W * W) % W * (W * W) + n / (W * W * W) % W * (W * W * W) = n := by
  have h3 : n / (W * W * W) < W := Nat.div_lt_of_lt_mul h
  rw [Nat.mod_eq_of_lt h3]
  have e1 := Nat.div_add_mod n W
  have e2 := Nat.div_add_mod (n / W) W
  have e3 := Nat.div_add_mod (n / W / W) W
  rw [← Nat.div_div_eq_div_mul n (W * W) W, ← Nat.div_div_eq_div_mul n W W]
  clear h3 h
  generalize n / W / W / W = a at *
  generalize n / W / W % W = b at *
  generalize n / W / W = c at *
  generalize n / W % W = d at *
  generalize n / W = e at *
  generalize n % W = f at *
  rw [← e1, ← e2, ← e3]
  ring

theorem u256ToU320_eq {n : Nat} (h : n < U256) : Lit.u256ToU320 n = n := by
  have := words (n := n) (W := 2 ^ 64) (by rw [← pow_add, ← pow_add, ← pow_add]; exact h)
  rw [← pow_add, ← pow_add] at this
  exact this

theorem u320ToU256_eq (n : Nat) : Lit.u320ToU256 n = if n < U256 then some n else none := by
  unfold Lit.u320ToU256
  by_cases h : n < U256
  · rw [if_pos h, if_neg (by rw [Nat.div_eq_of_lt h]; simp)]
    congr 1
    exact u256ToU320_eq h
  · rw [if_neg h, if_pos]
    exact Nat.pos_iff_ne_zero.1 (Nat.div_pos (Nat.not_lt.1 h) (Nat.two_pow_pos _))

theorem scale_sqrt : 10 ^ SQRT_PRICE.scale = SPR := rfl
theorem scale_liq : 10 ^ LIQUIDITY.scale = LIQ := rfl
theorem SPR_pos : 0 < SPR := Nat.pow_pos (by decide)

theorem lt320 {n : Nat} (h : n < U256) : n < U320 := h.trans (Nat.pow_lt_pow_right (by decide) (by decide))

theorem mul_320 {n d : Nat} (h : n < 2 ^ 240) (hd : d < U256) : n * SPR + d < U320 := by
  have e1 : U320 = 2 ^ 240 * 2 ^ 80 := pow_add 2 240 80
  have e2 : U256 = 2 ^ 240 * 2 ^ 16 := pow_add 2 240 16
  have h3 : n * SPR + d < 2 ^ 240 * SPR + 2 ^ 240 * 2 ^ 16 :=
    Nat.add_lt_add (Nat.mul_lt_mul_of_lt_of_le h (Nat.le_refl _) SPR_pos) (e2 ▸ hd)
  rw [← Nat.mul_add] at h3
  rw [e1]
  exact h3.trans_le (Nat.mul_le_mul_left _ (by decide))

theorem n240_256 {n : Nat} (h : n < 2 ^ 240) : n < U256 := h.trans (by decide)

theorem oneSqrt320 : Dec.one SQRT_PRICE U320 = .ok SPR := Dec.one_eq (lt320 (by decide))
theorem oneSqrt256 : Dec.one SQRT_PRICE U256 = .ok SPR := Dec.one_eq (by decide)
theorem almostSqrt256 : Dec.almostOne SQRT_PRICE U256 = .ok (SPR - 1) := Dec.almostOne_eq (by decide)
theorem oneFg256 : Dec.one FEE_GROWTH U256 = .ok FGR := Dec.one_eq (by decide)
theorem oneLiq256 : Dec.one LIQUIDITY U256 = .ok LIQ := Dec.one_eq (by decide)

theorem mul_320' {n : Nat} (h : n < 2 ^ 240) : n * SPR < U320 :=
  (Nat.le_add_right _ _).trans_lt (mul_320 h (Nat.two_pow_pos 256))

theorem divToToken_lit {nom den : Nat} (hn : nom < 2 ^ 240) (hd : den < U256) : Lit.divToToken nom den = divToToken nom den := by
  unfold Lit.divToToken divToToken
  dsimp only
  rw [u256ToU320_eq (n240_256 hn), u256ToU320_eq hd, oneSqrt320, ok_bind, uMul_of (mul_320' hn), orErr_ok]
  by_cases h0 : den = 0
  · rw [uDiv_zero h0, if_pos h0]; exact error_bind _ _
  rw [uDiv_of (Nat.pos_of_ne_zero h0), if_neg h0, orErr_ok, u320ToU256_eq]
  by_cases h1 : nom * SPR / den < U256
  · rw [if_pos h1, if_neg (Nat.not_le.2 h1), orErr_ok, oneSqrt256, ok_bind, uDiv_of SPR_pos, orErr_ok]
    exact orErr_uCast128 _ _
  · rw [if_neg h1, if_pos (Nat.not_lt.1 h1)]; exact error_bind _ _

theorem divToTokenUp_lit {nom den : Nat} (hn : nom < 2 ^ 240) (hd : den < U256) :
    Lit.divToTokenUp nom den = divToTokenUp nom den := by
  unfold Lit.divToTokenUp divToTokenUp
  dsimp only
  rw [u256ToU320_eq (n240_256 hn), u256ToU320_eq hd, oneSqrt320, ok_bind, uMul_of (mul_320' hn), orErr_ok]
  by_cases h0 : den = 0
  · rw [h0, uSub_not (by decide), if_pos rfl]; exact error_bind _ _
  rw [uSub_of (Nat.pos_of_ne_zero h0), if_neg h0, orPanic_ok, uAdd_of (mul_320 hn ((Nat.sub_le _ _).trans_lt hd)), orErr_ok,
    uDiv_of (Nat.pos_of_ne_zero h0), orErr_ok, u320ToU256_eq]
  by_cases h1 : (nom * SPR + (den - 1)) / den < U256
  · rw [if_pos h1, if_neg (Nat.not_le.2 h1), orErr_ok, almostSqrt256, ok_bind]
    by_cases h2 : (nom * SPR + (den - 1)) / den + (SPR - 1) < U256
    · rw [uAdd_of h2, if_neg (Nat.not_le.2 h2), orErr_ok, oneSqrt256, ok_bind, uDiv_of SPR_pos, orErr_ok]
      exact orErr_uCast128 _ _
    · rw [uAdd_not (Nat.not_lt.1 h2), if_pos (Nat.not_lt.1 h2)]; exact error_bind _ _
  · rw [if_neg h1, if_pos (Nat.not_lt.1 h1)]; exact error_bind _ _

theorem checkedBigDiv_lit (nom den : Nat) : Lit.checkedBigDiv nom den = checkedBigDiv nom den := by
  unfold Lit.checkedBigDiv checkedBigDiv
  rw [oneSqrt256, ok_bind]
  by_cases h1 : nom * SPR < U256
  · rw [uMul_of h1, if_neg (Nat.not_le.2 h1), orErr_ok]
    by_cases h0 : den = 0
    · rw [uDiv_zero h0, if_pos h0]; exact error_bind _ _
    · rw [uDiv_of (Nat.pos_of_ne_zero h0), if_neg h0, orErr_ok]
      exact orErr_uCast128 _ _
  · rw [uMul_not (Nat.not_lt.1 h1), if_pos (Nat.not_lt.1 h1)]; exact error_bind _ _

theorem checkedBigDivUp_lit {nom den : Nat} (hn : nom < 2 ^ 240) (hd : den < U256) :
    Lit.checkedBigDivUp nom den = checkedBigDivUp nom den := by
  unfold Lit.checkedBigDivUp checkedBigDivUp
  dsimp only
  rw [u256ToU320_eq (n240_256 hn), u256ToU320_eq hd, oneSqrt320, ok_bind, uMul_of (mul_320' hn), orErr_ok]
  by_cases h0 : den = 0
  · rw [h0, uSub_not (by decide), if_pos rfl]; exact error_bind _ _
  rw [uSub_of (Nat.pos_of_ne_zero h0), if_neg h0, orErr_ok, uAdd_of (mul_320 hn ((Nat.sub_le _ _).trans_lt hd)), orErr_ok,
    uDiv_of (Nat.pos_of_ne_zero h0), orErr_ok]
  exact orErr_uCast128 _ _

/-! ## Amounts and next prices -/

theorem delta_lit (a b : Nat) : Lit.delta a b = .ok (absDiff a b) := by
  unfold Lit.delta absDiff Dec.sub
  split
  · rw [uSub_of (by omega)]; rfl
  · rw [uSub_of (by omega)]; rfl

theorem absDiff_lt {a b : Nat} (ha : a < U128) (hb : b < U128) : absDiff a b < U128 := by
  unfold absDiff
  split
  · exact (Nat.sub_le _ _).trans_lt ha
  · exact (Nat.sub_le _ _).trans_lt hb

theorem liq_lt {a L : Nat} (ha : a < U128) (hL : L < U128) : (a * L + (LIQ - 1)) / LIQ < 2 ^ 240 := by
  rw [Nat.div_lt_iff_lt_mul (by decide)]
  exact (Nat.add_lt_add_right (u128_mul_lt ha hL) _).trans (by decide)

theorem liq_lt' {a L : Nat} (ha : a < U128) (hL : L < U128) : a * L / LIQ < 2 ^ 240 :=
  (Nat.div_le_div_right (Nat.le_add_right _ _)).trans_lt (liq_lt ha hL)

theorem spr_div_lt {x : Nat} (h : x < U256) : x / SPR < U256 := (Nat.div_le_self _ _).trans_lt h

theorem mulLiq {a L : Nat} (ha : a < U128) (hL : L < U128) :
    Dec.bigMulToValue SQRT_PRICE LIQUIDITY a L = .ok (a * L / LIQ) := Dec.bigMulToValue_eq wide_sqrt wide_liq ha hL
theorem mulLiqUp {a L : Nat} (ha : a < U128) (hL : L < U128) :
    Dec.bigMulToValueUp SQRT_PRICE LIQUIDITY a L = .ok ((a * L + (LIQ - 1)) / LIQ) :=
  Dec.bigMulToValueUp_eq wide_sqrt wide_liq ha hL
theorem mulSqrt {a b : Nat} (ha : a < U128) (hb : b < U128) :
    Dec.bigMulToValue SQRT_PRICE SQRT_PRICE a b = .ok (a * b / SPR) := Dec.bigMulToValue_eq wide_sqrt wide_sqrt ha hb
theorem mulSqrtUp {a b : Nat} (ha : a < U128) (hb : b < U128) :
    Dec.bigMulToValueUp SQRT_PRICE SQRT_PRICE a b = .ok ((a * b + (SPR - 1)) / SPR) :=
  Dec.bigMulToValueUp_eq wide_sqrt wide_sqrt ha hb
theorem mulTok {a b : Nat} (ha : a < U128) (hb : b < U128) :
    Dec.bigMulToValue SQRT_PRICE TOKEN_AMOUNT a b = .ok (a * b) := by
  rw [Dec.bigMulToValue_eq wide_sqrt wide_tok ha hb]
  congr 1
  exact Nat.div_one _

theorem getDeltaX_lit {a b L : Nat} (ha : a < U128) (hb : b < U128) (hL : L < U128) (up : Bool) :
    Lit.getDeltaX a b L up = getDeltaX a b L up := by
  unfold Lit.getDeltaX getDeltaX
  rw [delta_lit, ok_bind, mulLiq (absDiff_lt ha hb) hL, ok_bind]
  cases up
  · rw [if_neg (by decide), if_neg (by decide), mulSqrtUp ha hb, ok_bind]
    exact divToToken_lit (liq_lt' (absDiff_lt ha hb) hL) (spr_div_lt (u128_mul_add_lt ha hb (by decide)))
  · rw [if_pos rfl, if_pos rfl, mulSqrt ha hb, ok_bind]
    exact divToTokenUp_lit (liq_lt' (absDiff_lt ha hb) hL) (spr_div_lt (u128_mul_lt ha hb))

theorem getDeltaY_lit {a b L : Nat} (ha : a < U128) (hb : b < U128) (hL : L < U128) (up : Bool) :
    Lit.getDeltaY a b L up = getDeltaY a b L up := by
  unfold Lit.getDeltaY getDeltaY
  rw [delta_lit, ok_bind]
  cases up
  · rw [if_neg (by decide), if_neg (by decide), mulLiq (absDiff_lt ha hb) hL, ok_bind, oneSqrt256, ok_bind, uDiv_of SPR_pos,
      orErr_ok]
    exact orErr_uCast128 _ _
  · rw [if_pos rfl, if_pos rfl, mulLiqUp (absDiff_lt ha hb) hL, ok_bind, almostSqrt256, ok_bind,
      uAdd_of ((Nat.add_lt_add_right (liq_lt (absDiff_lt ha hb) hL) _).trans (by decide)), orErr_ok, oneSqrt256, ok_bind,
      uDiv_of SPR_pos, orErr_ok]
    exact orErr_uCast128 _ _

theorem toValue_liq {L : Nat} (hL : L < U128) (e : Err) :
    Dec.checkedFromDecimalToValue SQRT_PRICE LIQUIDITY e L = .ok (L * 10 ^ 18) :=
  Dec.checkedFromDecimalToValue_up wide_sqrt (by decide) e hL
theorem toValue_tok {y : Nat} (hy : y < U128) (e : Err) :
    Dec.checkedFromDecimalToValue SQRT_PRICE TOKEN_AMOUNT e y = .ok (y * SPR) :=
  Dec.checkedFromDecimalToValue_up wide_sqrt (by decide) e hy

theorem liq18_lt {L : Nat} (hL : L < U128) : L * 10 ^ 18 < 2 ^ 240 :=
  (Nat.mul_lt_mul_of_lt_of_le hL (Nat.le_refl _) (by decide)).trans (by decide)
theorem tok24_lt {y : Nat} (hy : y < U128) : y * SPR < 2 ^ 240 :=
  (Nat.mul_lt_mul_of_lt_of_le hy (Nat.le_refl _) (by decide)).trans (by decide)

theorem nextSqrtPriceXUp_lit {p L x : Nat} (hp : p < U128) (hL : L < U128) (hx : x < U128) (addX : Bool) :
    Lit.nextSqrtPriceXUp p L x addX = nextSqrtPriceXUp p L x addX := by
  unfold Lit.nextSqrtPriceXUp nextSqrtPriceXUp
  by_cases h0 : x = 0
  · rw [if_pos h0, if_pos h0]
  rw [if_neg h0, if_neg h0, toValue_liq hL, ok_bind, mulTok hp hx, ok_bind]
  dsimp only
  cases addX
  · rw [if_neg (by decide), if_neg (by decide)]
    by_cases h1 : L * 10 ^ 18 < p * x
    · rw [uSub_not h1, if_pos h1]; exact error_bind _ _
    · rw [uSub_of (Nat.not_lt.1 h1), if_neg h1, orErr_ok, mulLiqUp hp hL, ok_bind]
      exact checkedBigDivUp_lit (liq_lt hp hL) ((Nat.sub_le _ _).trans_lt (n240_256 (liq18_lt hL)))
  · rw [if_pos rfl, if_pos rfl]
    by_cases h1 : L * 10 ^ 18 + p * x < U256
    · rw [uAdd_of h1, if_neg (Nat.not_le.2 h1), orErr_ok, mulLiqUp hp hL, ok_bind]
      exact checkedBigDivUp_lit (liq_lt hp hL) h1
    · rw [uAdd_not (Nat.not_lt.1 h1), if_pos (Nat.not_lt.1 h1)]; exact error_bind _ _

theorem nextSqrtPriceYDown_lit {p L y : Nat} (hL : L < U128) (hy : y < U128) (addY : Bool) :
    Lit.nextSqrtPriceYDown p L y addY = nextSqrtPriceYDown p L y addY := by
  unfold Lit.nextSqrtPriceYDown nextSqrtPriceYDown
  rw [toValue_tok hy, ok_bind, toValue_liq hL, ok_bind]
  dsimp only
  cases addY
  · rw [if_neg (by decide), if_neg (by decide), checkedBigDivUp_lit (tok24_lt hy) (n240_256 (liq18_lt hL))]
    congr 1
    funext q
    unfold uSub checkedSub; split <;> rfl
  · rw [if_pos rfl, if_pos rfl, checkedBigDiv_lit]
    congr 1
    funext q
    exact orErr_uCast128 _ _

theorem nextSqrtPriceFromInput_lit {p L a : Nat} (hp : p < U128) (hL : L < U128) (ha : a < U128) (d : Bool) :
    Lit.nextSqrtPriceFromInput p L a d = nextSqrtPriceFromInput p L a d := by
  unfold Lit.nextSqrtPriceFromInput nextSqrtPriceFromInput
  rw [nextSqrtPriceXUp_lit hp hL ha, nextSqrtPriceYDown_lit hL ha]

theorem nextSqrtPriceFromOutput_lit {p L a : Nat} (hp : p < U128) (hL : L < U128) (ha : a < U128) (d : Bool) :
    Lit.nextSqrtPriceFromOutput p L a d = nextSqrtPriceFromOutput p L a d := by
  unfold Lit.nextSqrtPriceFromOutput nextSqrtPriceFromOutput
  rw [nextSqrtPriceXUp_lit hp hL ha, nextSqrtPriceYDown_lit hL ha]

/-! ## Fee growth -/

theorem feeGrowthFromFee_lit {L fee : Nat} (hL : L < U128) (hf : fee < U128) :
    Lit.feeGrowthFromFee L fee = feeGrowthFromFee L fee := by
  unfold Lit.feeGrowthFromFee feeGrowthFromFee
  have h1 : fee * FGR * LIQ < U256 := by
    rw [Nat.mul_assoc]; exact u128_mul_lt hf (by decide)
  rw [oneFg256, ok_bind, uMul_of (u128_mul_lt hf (by decide)), orErr_ok, oneLiq256, ok_bind, uMul_of h1, orErr_ok,
    uCast_of (u128_lt_256 hL), orPanic_ok]
  by_cases h0 : L = 0
  · rw [uDiv_zero h0, if_pos h0]; exact error_bind _ _
  · rw [uDiv_of (Nat.pos_of_ne_zero h0), if_neg h0, orErr_ok]
    exact orErr_uCast128 _ _

theorem feeGrowthToFee_lit {g L : Nat} (hg : g < U128) (hL : L < U128) :
    Lit.feeGrowthToFee g L = feeGrowthToFee g L := by
  unfold Lit.feeGrowthToFee feeGrowthToFee
  have e : uCast U256 (10 ^ (FEE_GROWTH.scale + LIQUIDITY.scale)) = some (10 ^ 34) := uCast_of (by decide)
  rw [uCast_of (u128_lt_256 hL), orPanic_ok, uMul_of (u128_mul_lt hg hL), orErr_ok, e, orPanic_ok,
    uDiv_of (Nat.pow_pos (by decide)), orErr_ok]
  exact orErr_uCast128 _ _

/-! ## Steps -/

theorem bind_congr_ok {α β : Type} {x : M α} {f g : α → M β} (h : ∀ a, x = .ok a → f a = g a) : (x >>= f) = (x >>= g) := by
  cases x with
  | error e => rfl
  | ok a => exact h a rfl

theorem divToToken_lt {n d r : Nat} (h : divToToken n d = .ok r) : r < U128 := by
  unfold divToToken at h
  split at h
  · cases h
  · dsimp only at h
    split at h
    · cases h
    · obtain ⟨h1, h2⟩ := cast128_ok.1 h
      exact h2 ▸ h1

theorem divToTokenUp_lt {n d r : Nat} (h : divToTokenUp n d = .ok r) : r < U128 := by
  unfold divToTokenUp at h
  split at h
  · cases h
  · dsimp only at h
    split at h
    · cases h
    · split at h
      · cases h
      · obtain ⟨h1, h2⟩ := cast128_ok.1 h
        exact h2 ▸ h1

theorem getDeltaX_lt {a b L r : Nat} {up : Bool} (h : getDeltaX a b L up = .ok r) : r < U128 := by
  unfold getDeltaX at h
  dsimp only at h
  split at h
  · exact divToTokenUp_lt h
  · exact divToToken_lt h

theorem getDeltaY_lt {a b L r : Nat} {up : Bool} (h : getDeltaY a b L up = .ok r) : r < U128 := by
  unfold getDeltaY at h
  split at h <;> exact (cast128_ok.1 h).2 ▸ (cast128_ok.1 h).1

theorem checkedBigDivUp_lt {n d r : Nat} (h : checkedBigDivUp n d = .ok r) : r < U128 := by
  unfold checkedBigDivUp at h
  split at h
  · cases h
  · exact (cast128_ok.1 h).2 ▸ (cast128_ok.1 h).1

theorem xUp_lt {p L x r : Nat} {add : Bool} (hp : p < U128) (h : nextSqrtPriceXUp p L x add = .ok r) : r < U128 := by
  unfold nextSqrtPriceXUp at h
  split at h
  · cases h; exact hp
  · dsimp only at h
    split at h
    · split at h
      · cases h
      · exact checkedBigDivUp_lt h
    · split at h
      · cases h
      · exact checkedBigDivUp_lt h

theorem yDown_lt {p L y r : Nat} {add : Bool} (hp : p < U128) (h : nextSqrtPriceYDown p L y add = .ok r) : r < U128 := by
  unfold nextSqrtPriceYDown at h
  dsimp only at h
  cases add
  · rw [if_neg (by decide)] at h
    obtain ⟨q, -, h2⟩ := bind_ok.1 h
    obtain ⟨-, h3⟩ := checkedSub_ok.1 h2
    exact h3 ▸ (Nat.sub_le _ _).trans_lt hp
  · rw [if_pos rfl] at h
    obtain ⟨q, -, h2⟩ := bind_ok.1 h
    obtain ⟨h3, h4⟩ := checkedAdd_ok.1 h2
    exact h4 ▸ h3

theorem fromInput_lt {p L a r : Nat} {d : Bool} (hp : p < U128) (h : nextSqrtPriceFromInput p L a d = .ok r) : r < U128 := by
  unfold nextSqrtPriceFromInput at h
  split at h
  · exact xUp_lt hp h
  · exact yDown_lt hp h

theorem fromOutput_lt {p L a r : Nat} {d : Bool} (hp : p < U128) (h : nextSqrtPriceFromOutput p L a d = .ok r) : r < U128 := by
  unfold nextSqrtPriceFromOutput at h
  split at h
  · exact yDown_lt hp h
  · exact xUp_lt hp h

theorem onePct : Dec.fromInteger PERCENTAGE 1 = .ok PCT := by decide +kernel

theorem sub_lit (a b : Nat) : Dec.sub a b = subP a b := by
  unfold Dec.sub subP uSub; split <;> rfl

theorem u64_lt {n : Nat} (h : n < U64) : n < U128 := h.trans (by decide)

theorem mulPct {a f : Nat} (ha : a < U128) (hf : f < U128) : Dec.bigMul TOKEN_AMOUNT PERCENTAGE a f = bigMul a f PCT := by
  rw [Dec.bigMul_eq wide_tok wide_pct ha hf]
  exact orPanic_uCast128 _

theorem mulPctUp {a f : Nat} (ha : a < U128) (hf : f < U128) : Dec.bigMulUp TOKEN_AMOUNT PERCENTAGE a f = bigMulUp a f PCT := by
  rw [Dec.bigMulUp_eq wide_tok wide_pct ha hf]
  exact orPanic_uCast128 _

theorem bigMul_lt {a f r o : Nat} (h : bigMul a f o = .ok r) : r < U128 := (cast128_ok.1 h).2 ▸ (cast128_ok.1 h).1

/-- `amount.big_mul(Percentage::from_integer(1) - fee)`, literally. -/
theorem afterFee_lit {β : Type} {amount fee : Nat} (ha : amount < U128) (g : Nat → M β) :
    (do let i ← Dec.fromInteger PERCENTAGE 1
        let f ← Dec.sub i fee
        let aaf ← Dec.bigMul TOKEN_AMOUNT PERCENTAGE amount f
        g aaf) = amountAfterFee amount fee >>= g := by
  unfold amountAfterFee
  rw [onePct, ok_bind, sub_lit]
  cases h : subP PCT fee with
  | error e => rfl
  | ok f =>
    obtain ⟨-, h2⟩ := subP_ok.1 h
    have hf : f < U128 := h2 ▸ (Nat.sub_le _ _).trans_lt (by decide)
    rw [ok_bind, ok_bind, mulPct ha hf]

theorem amountAfterFee_lt {amount fee r : Nat} (h : amountAfterFee amount fee = .ok r) : r < U128 := by
  unfold amountAfterFee at h
  obtain ⟨f, -, h2⟩ := bind_ok.1 h
  exact bigMul_lt h2

theorem isEnough_lit {p L amount fee : Nat} (hp : p < U128) (hL : L < U128) (ha : amount < U128) (b d : Bool) :
    Lit.isEnoughAmountToChangePrice amount p L fee b d = isEnoughAmountToChangePrice amount p L fee b d := by
  unfold Lit.isEnoughAmountToChangePrice isEnoughAmountToChangePrice
  by_cases h0 : L = 0
  · rw [if_pos h0, if_pos h0]; rfl
  rw [if_neg h0, if_neg h0]
  cases b
  · simp only [Bool.false_eq_true, if_false]
    rw [nextSqrtPriceFromOutput_lit hp hL ha]
  · simp only [if_true]
    rw [afterFee_lit ha]
    refine bind_congr_ok fun a h => ?_
    rw [nextSqrtPriceFromInput_lit hp hL (amountAfterFee_lt h) d]

theorem calculateMinAmountOut_lit {expected slippage : Nat} (he : expected < U128) :
    Lit.calculateMinAmountOut expected slippage = calculateMinAmountOut expected slippage := by
  unfold Lit.calculateMinAmountOut calculateMinAmountOut
  rw [onePct, ok_bind, sub_lit]
  refine bind_congr_ok fun f h => ?_
  exact mulPctUp he ((subP_ok.1 h).2 ▸ (Nat.sub_le _ _).trans_lt (by decide))

-- Not `rfl` for the simplifier, so that the kernel need not compare whole programs.
theorem ok_step {α β : Type} (a : α) (f : α → M β) : ((Except.ok a : M α) >>= f) = f a := (rfl)
theorem err_step {α β : Type} (e : Err) (f : α → M β) : ((Except.error e : M α) >>= f) = .error e := (rfl)
theorem pure_step {α : Type} (a : α) : (pure a : M α) = .ok a := (rfl)

theorem computeSwapStep_lit {cur target L amount fee : Nat} (hc : cur < U128) (ht : target < U128) (hL : L < U128)
    (ha : amount < U128) (hf : fee < U64) (d : Bool) :
    Lit.computeSwapStep cur target L amount d fee = computeSwapStep cur target L amount d fee := by
  unfold Lit.computeSwapStep computeSwapStep stepNextPrice stepAmountIn stepAmountOut
  by_cases h0 : L = 0
  · rw [if_pos h0, if_pos h0]; rfl
  rw [if_neg h0, if_neg h0]
  dsimp only
  generalize decide (cur ≥ target) = x
  cases d <;> cases x
  · simp only [Bool.false_eq_true, if_false, if_true, Bool.not_false, Bool.or_true, Bool.or_false,Bool.false_and, Bool.true_and]
    rw [getDeltaX_lit hc ht hL]
    cases h1 : getDeltaX cur target L false with
    | error e => simp only [err_step]
    | ok out =>
    by_cases h2 : amount ≥ out
    · simp only [ok_step, if_pos h2, pure_step]
      rw [getDeltaY_lit hc ht hL]
      refine bind_congr_ok fun i h3 => ?_
      simp only [ne_eq, not_true_eq_false, decide_false, Bool.false_eq_true, if_false, ok_step]
      rw [mulPctUp (getDeltaY_lt h3) (u64_lt hf)]
      split <;> rfl
    · simp only [ok_step, if_neg h2, pure_step]
      rw [nextSqrtPriceFromOutput_lit hc hL ha]
      cases h3 : nextSqrtPriceFromOutput cur L amount false with
      | error e => simp only [err_step]
      | ok next =>
      have hn := fromOutput_lt hc h3
      simp only [ok_step]
      rw [getDeltaY_lit hc hn hL]
      refine bind_congr_ok fun i h4 => ?_
      rw [mulPctUp (getDeltaY_lt h4) (u64_lt hf), getDeltaX_lit hc hn hL]
      by_cases h5 : target ≠ next
      · rw [if_pos (decide_eq_true h5), if_pos (decide_eq_true h5)]
        refine bind_congr_ok fun o h6 => ?_
        split <;> rfl
      · have h6 : target = next := by simpa using h5
        subst h6
        simp only [ne_eq, not_true_eq_false, decide_false, Bool.false_eq_true, if_false, ok_step]
        split <;> rfl
  · simp only [Bool.false_eq_true, if_false, if_true, Bool.not_false, Bool.or_true, Bool.or_false,Bool.false_and, Bool.true_and]
    rw [getDeltaY_lit ht hc hL]
    cases h1 : getDeltaY target cur L false with
    | error e => simp only [err_step]
    | ok out =>
    by_cases h2 : amount ≥ out
    · simp only [ok_step, if_pos h2, pure_step]
      rw [getDeltaX_lit ht hc hL]
      refine bind_congr_ok fun i h3 => ?_
      simp only [ne_eq, not_true_eq_false, decide_false, Bool.false_eq_true, if_false, ok_step]
      rw [mulPctUp (getDeltaX_lt h3) (u64_lt hf)]
      split <;> rfl
    · simp only [ok_step, if_neg h2, pure_step]
      rw [nextSqrtPriceFromOutput_lit hc hL ha]
      cases h3 : nextSqrtPriceFromOutput cur L amount true with
      | error e => simp only [err_step]
      | ok next =>
      have hn := fromOutput_lt hc h3
      simp only [ok_step]
      rw [getDeltaX_lit hn hc hL]
      refine bind_congr_ok fun i h4 => ?_
      rw [mulPctUp (getDeltaX_lt h4) (u64_lt hf), getDeltaY_lit hn hc hL]
      by_cases h5 : target ≠ next
      · rw [if_pos (decide_eq_true h5), if_pos (decide_eq_true h5)]
        refine bind_congr_ok fun o h6 => ?_
        split <;> rfl
      · have h6 : target = next := by simpa using h5
        subst h6
        simp only [ne_eq, not_true_eq_false, decide_false, Bool.false_eq_true, if_false, ok_step]
        split <;> rfl
  · simp only [Bool.false_eq_true, if_false, if_true, Bool.not_true, Bool.or_true, Bool.or_false,Bool.false_and, Bool.true_and]
    rw [afterFee_lit ha, bind_assoc]
    refine bind_congr_ok fun aaf h1 => ?_
    rw [getDeltaY_lit hc ht hL, bind_assoc]
    refine bind_congr_ok fun pre h2 => ?_
    by_cases h3 : aaf ≥ pre
    · simp only [ok_step, if_pos h3, pure_step]
      simp only [ne_eq, not_true_eq_false, decide_false, Bool.false_eq_true, if_false, ok_step]
      rw [getDeltaX_lit hc ht hL, mulPctUp (getDeltaY_lt h2) (u64_lt hf)]
    · simp only [if_neg h3, pure_step]
      rw [nextSqrtPriceFromInput_lit hc hL (amountAfterFee_lt h1)]
      cases h4 : nextSqrtPriceFromInput cur L aaf false with
      | error e => simp only [err_step]
      | ok next =>
      have hn := fromInput_lt hc h4
      simp only [ok_step]
      rw [getDeltaY_lit hc hn hL, getDeltaX_lit hc hn hL]
      by_cases h5 : target ≠ next
      · simp only [if_pos (decide_eq_true h5), if_pos (decide_eq_true (Ne.symm h5)), sub_lit]
      · have h6 : target = next := by simpa using h5
        subst h6
        simp only [ne_eq, not_true_eq_false, decide_false, Bool.false_eq_true, if_false, ok_step]
        rw [mulPctUp (getDeltaY_lt h2) (u64_lt hf)]
  · simp only [Bool.false_eq_true, if_false, if_true, Bool.not_true, Bool.or_true, Bool.or_false,Bool.false_and, Bool.true_and]
    rw [afterFee_lit ha, bind_assoc]
    refine bind_congr_ok fun aaf h1 => ?_
    rw [getDeltaX_lit ht hc hL, bind_assoc]
    refine bind_congr_ok fun pre h2 => ?_
    by_cases h3 : aaf ≥ pre
    · simp only [ok_step, if_pos h3, pure_step]
      simp only [ne_eq, not_true_eq_false, decide_false, Bool.false_eq_true, if_false, ok_step]
      rw [getDeltaY_lit ht hc hL, mulPctUp (getDeltaX_lt h2) (u64_lt hf)]
    · simp only [if_neg h3, pure_step]
      rw [nextSqrtPriceFromInput_lit hc hL (amountAfterFee_lt h1)]
      cases h4 : nextSqrtPriceFromInput cur L aaf true with
      | error e => simp only [err_step]
      | ok next =>
      have hn := fromInput_lt hc h4
      simp only [ok_step]
      rw [getDeltaX_lit hn hc hL, getDeltaY_lit hn hc hL]
      by_cases h5 : target ≠ next
      · simp only [if_pos (decide_eq_true h5), if_pos (decide_eq_true (Ne.symm h5)), sub_lit]
      · have h6 : target = next := by simpa using h5
        subst h6
        simp only [ne_eq, not_true_eq_false, decide_false, Bool.false_eq_true, if_false, ok_step]
        rw [mulPctUp (getDeltaX_lt h2) (u64_lt hf)]
end OraiV3
