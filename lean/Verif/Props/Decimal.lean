import Verif.Lemmas.Decimal

/-!
# C50: the decimal library rounds correctly and never wraps

The value of a decimal with raw number `a` is `a / 10^scale`.  An operation rounded down (up) must give the largest (smallest)
raw number whose value is at most (at least) the exact result, or panic if that number does not fit the type.
-/

namespace OraiV3

/-- The value of a decimal. -/
def DecTy.val (T : DecTy) (a : Nat) : ℚ := (a : ℚ) / 10 ^ T.scale

/-- The exact value `x ≥ 0` as a raw number of type `T`, rounded down, or a panic. -/
def DecTy.down (T : DecTy) (x : ℚ) : M Nat := if ⌊x * 10 ^ T.scale⌋₊ < T.under then .ok ⌊x * 10 ^ T.scale⌋₊ else .error .panic
/-- Rounded up. -/
def DecTy.up (T : DecTy) (x : ℚ) : M Nat := if ⌈x * 10 ^ T.scale⌉₊ < T.under then .ok ⌈x * 10 ^ T.scale⌉₊ else .error .panic

theorem floor_nat_div (m n : Nat) : ⌊(m : ℚ) / n⌋₊ = m / n := Nat.floor_div_eq_div m n

theorem ceil_nat_div (m : Nat) {n : Nat} (hn : 0 < n) : ⌈(m : ℚ) / n⌉₊ = (m + (n - 1)) / n := by
  have hn' : (0 : ℚ) < n := by exact_mod_cast hn
  refine Nat.le_antisymm ?_ ?_
  · rw [Nat.ceil_le, div_le_iff₀ hn']
    have := Nat.div_add_mod (m + (n - 1)) n
    have h2 := Nat.mod_lt (m + (n - 1)) hn
    have : m ≤ (m + (n - 1)) / n * n := by rw [Nat.mul_comm]; omega
    exact_mod_cast this
  · rw [Nat.le_iff_lt_add_one, Nat.div_lt_iff_lt_mul hn]
    have h1 : (m : ℚ) / n ≤ ⌈(m : ℚ) / n⌉₊ := Nat.le_ceil _
    rw [div_le_iff₀ hn'] at h1
    have h2 : m ≤ ⌈(m : ℚ) / n⌉₊ * n := by exact_mod_cast h1
    rw [Nat.add_mul]; omega

theorem DecTy.down_eq {T : DecTy} {x : ℚ} {m n : Nat} (h : x * 10 ^ T.scale = (m : ℚ) / n) :
    T.down x = orPanic (uCast T.under (m / n)) := by
  unfold DecTy.down
  rw [h, floor_nat_div, orPanic_uCast]

theorem DecTy.up_eq {T : DecTy} {x : ℚ} {m n : Nat} (hn : 0 < n) (h : x * 10 ^ T.scale = (m : ℚ) / n) :
    T.up x = orPanic (uCast T.under ((m + (n - 1)) / n)) := by
  unfold DecTy.up
  rw [h, ceil_nat_div m hn, orPanic_uCast]

theorem val_mul {S T : DecTy} (a b : Nat) : S.val a * T.val b * 10 ^ S.scale = ((a * b : Nat) : ℚ) / ((10 ^ T.scale : Nat) : ℚ) := by
  unfold DecTy.val; push_cast; field_simp

theorem val_div {S T : DecTy} (a : Nat) {b : Nat} (hb : 0 < b) :
    S.val a / T.val b * 10 ^ S.scale = ((a * 10 ^ T.scale : Nat) : ℚ) / (b : ℚ) := by
  have : (b : ℚ) ≠ 0 := by exact_mod_cast (by omega : b ≠ 0)
  unfold DecTy.val; push_cast; field_simp

/-- The decimal types of the contract. -/
def contractTypes : List DecTy := [SQRT_PRICE, LIQUIDITY, FEE_GROWTH, TOKEN_AMOUNT, FIXED_POINT, PERCENTAGE]


theorem contractTypes_wide {T : DecTy} (h : T ∈ contractTypes) : T.Wide := by
  simp only [contractTypes, List.mem_cons, List.not_mem_nil, or_false] at h
  rcases h with rfl | rfl | rfl | rfl | rfl | rfl
  exacts [wide_sqrt, wide_liq, wide_fg, wide_tok, wide_fix, wide_pct]

section
variable {S T : DecTy} (hS : S ∈ contractTypes) (hT : T ∈ contractTypes) {a b : Nat} (ha : a < S.under) (hb : b < T.under)
include hS hT ha hb

/-- Products, rounded down. -/
theorem C50_big_mul : Dec.bigMul S T a b = S.down (S.val a * T.val b) := by
  have hS := contractTypes_wide hS
  have hT := contractTypes_wide hT
  rw [Dec.bigMul_eq hS hT (hS.lt128 ha) (hT.lt128 hb), DecTy.down_eq (val_mul a b)]

/-- Products, rounded up. -/
theorem C50_big_mul_up : Dec.bigMulUp S T a b = S.up (S.val a * T.val b) := by
  have hS := contractTypes_wide hS
  have hT := contractTypes_wide hT
  rw [Dec.bigMulUp_eq hS hT (hS.lt128 ha) (hT.lt128 hb), DecTy.up_eq (ten_pos _) (val_mul a b)]

/-- Quotients, rounded down; division by zero panics. -/
theorem C50_big_div : Dec.bigDiv S T a b = if b = 0 then .error .panic else S.down (S.val a / T.val b) := by
  have hS := contractTypes_wide hS
  have hT := contractTypes_wide hT
  split
  · rename_i h; rw [h]; exact Dec.bigDiv_zero hS hT (hS.lt128 ha)
  · rename_i h
    have h : 0 < b := by omega
    rw [Dec.bigDiv_eq hS hT (hS.lt128 ha) (hT.lt128 hb) h, DecTy.down_eq (val_div a h)]

/-- Quotients, rounded up. -/
theorem C50_big_div_up : Dec.bigDivUp S T a b = if b = 0 then .error .panic else S.up (S.val a / T.val b) := by
  have hS := contractTypes_wide hS
  have hT := contractTypes_wide hT
  split
  · rename_i h; rw [h]; exact Dec.bigDivUp_zero hS hT (hS.lt128 ha)
  · rename_i h
    have h : 0 < b := by omega
    rw [Dec.bigDivUp_eq hS hT (hS.lt128 ha) (hT.lt128 hb) h, DecTy.up_eq h (val_div a h)]

/-- The product as a number of the big type always exists. -/
theorem C50_big_mul_to_value : Dec.bigMulToValue S T a b = .ok ⌊S.val a * T.val b * 10 ^ S.scale⌋₊ ∧
    Dec.bigMulToValueUp S T a b = .ok ⌈S.val a * T.val b * 10 ^ S.scale⌉₊ := by
  have hS := contractTypes_wide hS
  have hT := contractTypes_wide hT
  rw [Dec.bigMulToValue_eq hS hT (hS.lt128 ha) (hT.lt128 hb), Dec.bigMulToValueUp_eq hS hT (hS.lt128 ha) (hT.lt128 hb),
    val_mul, floor_nat_div, ceil_nat_div _ (ten_pos _)]
  exact ⟨rfl, rfl⟩

end

/-! Sums, differences and conversions -/

theorem val_add {S : DecTy} (a b : Nat) : (S.val a + S.val b) * 10 ^ S.scale = ((a + b : Nat) : ℚ) / ((1 : Nat) : ℚ) := by
  unfold DecTy.val; push_cast; field_simp

theorem val_sub {S : DecTy} {a b : Nat} (h : b ≤ a) : (S.val a - S.val b) * 10 ^ S.scale = ((a - b : Nat) : ℚ) / ((1 : Nat) : ℚ) := by
  unfold DecTy.val; push_cast [h]; field_simp

theorem val_le {S : DecTy} {a b : Nat} : S.val b ≤ S.val a ↔ b ≤ a := by
  unfold DecTy.val
  rw [div_le_div_iff_of_pos_right (by positivity)]
  exact_mod_cast Iff.rfl

theorem val_up {S T : DecTy} (h : T.scale < S.scale) (a : Nat) :
    T.val a * 10 ^ S.scale = ((a * 10 ^ (S.scale - T.scale) : Nat) : ℚ) / ((1 : Nat) : ℚ) := by
  obtain ⟨n, hn⟩ : ∃ n, S.scale = T.scale + n := ⟨S.scale - T.scale, by omega⟩
  unfold DecTy.val; rw [hn, Nat.add_sub_cancel_left]; push_cast; rw [pow_add]; field_simp

theorem val_dn {S T : DecTy} (h : ¬ S.scale > T.scale) (a : Nat) :
    T.val a * 10 ^ S.scale = (a : ℚ) / ((10 ^ (T.scale - S.scale) : Nat) : ℚ) := by
  obtain ⟨n, hn⟩ : ∃ n, T.scale = S.scale + n := ⟨T.scale - S.scale, by omega⟩
  unfold DecTy.val; rw [hn, Nat.add_sub_cancel_left]; push_cast; rw [pow_add]; field_simp

/-- Sums. -/
theorem C50_add {S : DecTy} (a b : Nat) : Dec.add S a b = S.down (S.val a + S.val b) := by
  rw [DecTy.down_eq (val_add a b), Nat.div_one]
  unfold Dec.add uAdd uCast
  rfl

/-- Differences; a negative one panics. -/
theorem C50_sub {S : DecTy} {a : Nat} (ha : a < S.under) (b : Nat) :
    Dec.sub a b = if S.val b ≤ S.val a then S.down (S.val a - S.val b) else .error .panic := by
  unfold Dec.sub
  simp only [val_le]
  split
  · rename_i h
    rw [DecTy.down_eq (val_sub h), Nat.div_one, uSub_of h, uCast_of (by omega)]
  · rename_i h
    rw [uSub_not (by omega)]; rfl

/-- A product that overflows panics in every case. -/
theorem mul_cast {W : Nat} {a m : Nat} (hm : 0 < m) (h : W ≤ a) : orPanic (uCast W (a * m)) = .error .panic := by
  rw [uCast_not (h.trans (Nat.le_mul_of_pos_right _ hm))]; rfl

/-- Integers. -/
theorem C50_from_integer {S : DecTy} (hS : S ∈ contractTypes) (n : Nat) : Dec.fromInteger S n = S.down n := by
  have hS := contractTypes_wide hS
  have e : (n : ℚ) * 10 ^ S.scale = ((n * 10 ^ S.scale : Nat) : ℚ) / ((1 : Nat) : ℚ) := by push_cast; field_simp
  rw [DecTy.down_eq e, Nat.div_one]
  unfold Dec.fromInteger
  by_cases h : n < S.under
  · rw [uCast_of h, Dec.one_eq hS.one]; rfl
  · rw [uCast_not (by omega), mul_cast (ten_pos _) (by omega)]; rfl

section
variable {S T : DecTy} (hS : S ∈ contractTypes) (hT : T ∈ contractTypes) {a : Nat}
include hS hT

/-- Conversions between decimal types, rounded down. -/
theorem C50_from_decimal : Dec.fromDecimal S T a = S.down (T.val a) := by
  have hS := contractTypes_wide hS
  have hT := contractTypes_wide hT
  unfold Dec.fromDecimal
  split
  · rename_i h
    have h1 : 10 ^ (S.scale - T.scale) < S.under := (Nat.pow_le_pow_right (by norm_num) (Nat.sub_le _ _)).trans_lt hS.one
    rw [DecTy.down_eq (val_up h a), Nat.div_one, uCast_of (hS.lt128 h1)]
    simp only [orPanic_some, ok_bind]
    rw [uCast_of h1]
    by_cases h2 : a < S.under
    · rw [uCast_of h2]; rfl
    · rw [uCast_not (by omega), mul_cast (ten_pos _) (by omega)]; rfl
  · rename_i h
    have h1 : 10 ^ (T.scale - S.scale) < T.under := (Nat.pow_le_pow_right (by norm_num) (Nat.sub_le _ _)).trans_lt hT.one
    rw [DecTy.down_eq (val_dn h a), uCast_of (hT.lt128 h1)]
    simp only [orPanic_some, ok_bind]
    rw [uCast_of h1]
    simp only [orPanic_some, ok_bind]
    rw [uDiv_of (ten_pos _)]
    rfl

omit hS hT in
/-- The checked conversion fails exactly when the other panics, with an error. -/
theorem C50_checked_from_decimal (e : Err) :
    Dec.checkedFromDecimal S T e a = (Dec.fromDecimal S T a).mapError (fun _ => e) := by
  have aux : ∀ {α : Type} (o : Option α), orErr e o = (orPanic o).mapError (fun _ => e) := by
    intro α o; cases o <;> rfl
  have bnd : ∀ {α β : Type} (x : M α) (f : α → M β),
      (x >>= f).mapError (fun _ => e) = (x.mapError (fun _ => e)) >>= fun y => (f y).mapError (fun _ => e) := by
    intro α β x f; cases x <;> rfl
  unfold Dec.checkedFromDecimal Dec.fromDecimal
  split <;> simp only [bnd, aux]

/-- Conversions rounded up.  If the target has fewer digits the code first adds to the number, which must not overflow. -/
theorem C50_from_decimal_up : Dec.fromDecimalUp S T a =
    if S.scale > T.scale ∨ a + 10 ^ (T.scale - S.scale) ≤ T.under then S.up (T.val a) else .error .panic := by
  have hS := contractTypes_wide hS
  have hT := contractTypes_wide hT
  unfold Dec.fromDecimalUp
  by_cases h : S.scale > T.scale
  · rw [if_pos h, if_pos (.inl h)]
    have h1 : 10 ^ (S.scale - T.scale) < S.under := (Nat.pow_le_pow_right (by norm_num) (Nat.sub_le _ _)).trans_lt hS.one
    rw [DecTy.up_eq (by norm_num) (val_up h a), Nat.div_one, uCast_of (hS.lt128 h1)]
    simp only [orPanic_some, ok_bind]
    rw [uCast_of h1]
    by_cases h2 : a < S.under
    · rw [uCast_of h2]; rfl
    · rw [uCast_not (by omega), Nat.sub_self, Nat.add_zero, mul_cast (ten_pos _) (by omega)]; rfl
  · rw [if_neg h]
    have h1 : 10 ^ (T.scale - S.scale) < T.under := (Nat.pow_le_pow_right (by norm_num) (Nat.sub_le _ _)).trans_lt hT.one
    have h0 := ten_pos (T.scale - S.scale)
    rw [uCast_of (hT.lt128 h1)]
    simp only [orPanic_some, ok_bind]
    rw [uCast_of h1]
    simp only [orPanic_some, ok_bind]
    rw [uSub_of h0]
    simp only [orPanic_some, ok_bind]
    have e := DecTy.up_eq h0 (val_dn h a)
    generalize 10 ^ (T.scale - S.scale) = m at *
    by_cases h2 : a + m ≤ T.under
    · rw [if_pos (.inr h2), uAdd_of (by omega)]
      simp only [orPanic_some, ok_bind]
      rw [uDiv_of h0, e]
      rfl
    · rw [if_neg (by rintro (h3 | h3); exacts [h h3, h2 h3]), uAdd_not (by omega)]
      rfl

end

/-! Products and quotients computed in the underlying type -/

section
variable {S : DecTy} (hS : S ∈ contractTypes) {a b : Nat} (hb : b < S.under)
include hS hb

/-- `*` between decimals of one type: exact rounding, or a panic if the unscaled product does not fit. -/
theorem C50_mul : Dec.mul S S a b = if a * b < S.under then S.down (S.val a * S.val b) else .error .panic := by
  have hS := contractTypes_wide hS
  unfold Dec.mul
  rw [uCast_of hb, Dec.one_eq hS.one]
  simp only [orPanic_some, ok_bind]
  split
  · rename_i h
    rw [uMul_of h]
    simp only [orPanic_some, ok_bind]
    rw [uDiv_of (ten_pos _), DecTy.down_eq (val_mul a b), uCast_of ((Nat.div_le_self _ _).trans_lt h)]
  · rename_i h
    rw [uMul_not (by omega)]; rfl

/-- `mul_up`. -/
theorem C50_mul_up : Dec.mulUp S S a b =
    if a * b + (10 ^ S.scale - 1) < S.under then S.up (S.val a * S.val b) else .error .panic := by
  have hS := contractTypes_wide hS
  unfold Dec.mulUp
  rw [uCast_of hb, Dec.one_eq hS.one, Dec.almostOne_eq ((Nat.sub_le _ _).trans_lt hS.one)]
  simp only [orPanic_some, ok_bind]
  split
  · rename_i h
    rw [uMul_of (by omega)]
    simp only [orPanic_some, ok_bind]
    rw [uAdd_of h]
    simp only [orPanic_some, ok_bind]
    rw [uDiv_of (ten_pos _), DecTy.up_eq (ten_pos _) (val_mul a b), uCast_of ((Nat.div_le_self _ _).trans_lt h)]
  · rename_i h
    by_cases h2 : a * b < S.under
    · rw [uMul_of h2]
      simp only [orPanic_some, ok_bind]
      rw [uAdd_not (by omega)]; rfl
    · rw [uMul_not (by omega)]; rfl

/-- `/` between decimals of one type. -/
theorem C50_div : Dec.div S S a b =
    if b ≠ 0 ∧ a * 10 ^ S.scale < S.under then S.down (S.val a / S.val b) else .error .panic := by
  have hS := contractTypes_wide hS
  unfold Dec.div
  rw [uCast_of hb, Dec.one_eq hS.one]
  simp only [orPanic_some, ok_bind]
  by_cases h1 : a * 10 ^ S.scale < S.under
  · rw [uMul_of h1]
    simp only [orPanic_some, ok_bind]
    by_cases h2 : b = 0
    · rw [uDiv_zero h2, if_neg (fun h => h.1 h2)]; rfl
    · have h3 : 0 < b := by omega
      rw [uDiv_of h3, if_pos ⟨h2, h1⟩, DecTy.down_eq (val_div a h3), uCast_of ((Nat.div_le_self _ _).trans_lt h1)]
  · rw [uMul_not (by omega), if_neg (fun h => h1 h.2)]; rfl

/-- `div_up`. -/
theorem C50_div_up : Dec.divUp S S a b =
    if b ≠ 0 ∧ a * 10 ^ S.scale + (b - 1) < S.under then S.up (S.val a / S.val b) else .error .panic := by
  have hS := contractTypes_wide hS
  unfold Dec.divUp
  rw [uCast_of hb, Dec.one_eq hS.one]
  simp only [orPanic_some, ok_bind]
  by_cases h1 : a * 10 ^ S.scale < S.under
  · rw [uMul_of h1]
    simp only [orPanic_some, ok_bind]
    by_cases h2 : b = 0
    · rw [uSub_not (by omega), if_neg (fun h => h.1 h2)]; rfl
    · have h3 : 0 < b := by omega
      rw [uSub_of h3]
      simp only [orPanic_some, ok_bind]
      by_cases h4 : a * 10 ^ S.scale + (b - 1) < S.under
      · rw [uAdd_of h4]
        simp only [orPanic_some, ok_bind]
        rw [uDiv_of h3, if_pos ⟨h2, h4⟩, DecTy.up_eq h3 (val_div a h3), uCast_of ((Nat.div_le_self _ _).trans_lt h4)]
      · rw [uAdd_not (by omega), if_neg (fun h => h4 h.2)]; rfl
  · rw [uMul_not (by omega), if_neg (fun h => h1 (by omega))]; rfl

end

/-- Rounding down and up are what they should be: the result is the last (first) decimal not above (below) the exact value. -/
theorem C50_down_spec {S : DecTy} {x : ℚ} (hx : 0 ≤ x) {r : Nat} (h : S.down x = .ok r) :
    S.val r ≤ x ∧ x < S.val (r + 1) := by
  unfold DecTy.down at h
  split at h
  · rw [ok_inj] at h
    subst h
    unfold DecTy.val
    rw [div_le_iff₀ (by positivity), lt_div_iff₀ (by positivity)]
    refine ⟨Nat.floor_le (by positivity), ?_⟩
    push_cast
    exact Nat.lt_floor_add_one _
  · cases h

theorem C50_up_spec {S : DecTy} {x : ℚ} {r : Nat} (h : S.up x = .ok r) :
    x ≤ S.val r ∧ (r ≠ 0 → S.val (r - 1) < x) := by
  unfold DecTy.up at h
  split at h
  · rw [ok_inj] at h
    subst h
    unfold DecTy.val
    rw [le_div_iff₀ (by positivity)]
    refine ⟨Nat.le_ceil _, fun h0 => ?_⟩
    rw [div_lt_iff₀ (by positivity)]
    exact Nat.lt_ceil.1 (by omega)
  · cases h

/-- Concrete cases: `1.5 * 2.000001 = 3.0000015`, exact as a price and rounded as a liquidity; `1 / 3` both ways; a product that
does not fit; a fee growth as an amount of tokens, rounded up. -/
example : Dec.bigMul SQRT_PRICE LIQUIDITY (15 * 10 ^ 23) 2000001 = .ok 3000001500000000000000000 ∧
    Dec.bigMul LIQUIDITY SQRT_PRICE 2000001 (15 * 10 ^ 23) = .ok 3000001 ∧
    Dec.bigMulUp LIQUIDITY SQRT_PRICE 2000001 (15 * 10 ^ 23) = .ok 3000002 ∧
    Dec.bigDiv PERCENTAGE TOKEN_AMOUNT (10 ^ 12) 3 = .ok 333333333333 ∧
    Dec.bigDivUp PERCENTAGE TOKEN_AMOUNT (10 ^ 12) 3 = .ok 333333333334 ∧
    Dec.bigMul TOKEN_AMOUNT TOKEN_AMOUNT (2 ^ 100) (2 ^ 28) = .error .panic ∧
    Dec.fromDecimalUp TOKEN_AMOUNT FEE_GROWTH (10 ^ 28 + 1) = .ok 2 ∧
    Dec.fromDecimal SQRT_PRICE FIXED_POINT 1000049998750 = .ok 1000049998750000000000000 := by decide +kernel

end OraiV3
