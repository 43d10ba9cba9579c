import Verif.Decimal
import Verif.Lemmas.Monad
import Mathlib.Data.Rat.Floor
import Mathlib.Algebra.Order.Floor.Semifield
import Mathlib.Tactic.FieldSimp
import Mathlib.Tactic.Ring
import Mathlib.Tactic.Positivity
import Mathlib.Tactic.Linarith

/-!
# Lemmas about the literal arithmetic
-/

namespace OraiV3

/-! ## Unsigned integers -/

theorem uAdd_of {W a b : Nat} (h : a + b < W) : uAdd W a b = some (a + b) := if_pos h
theorem uAdd_not {W a b : Nat} (h : W ≤ a + b) : uAdd W a b = none := if_neg (by omega)
theorem uSub_of {a b : Nat} (h : b ≤ a) : uSub a b = some (a - b) := if_pos h
theorem uSub_not {a b : Nat} (h : a < b) : uSub a b = none := if_neg (by omega)
theorem uMul_of {W a b : Nat} (h : a * b < W) : uMul W a b = some (a * b) := if_pos h
theorem uMul_not {W a b : Nat} (h : W ≤ a * b) : uMul W a b = none := if_neg (by omega)
theorem uDiv_of {a b : Nat} (h : 0 < b) : uDiv a b = some (a / b) := if_neg (by omega)
theorem uDiv_zero {a b : Nat} (h : b = 0) : uDiv a b = none := if_pos h
theorem uCast_of {W a : Nat} (h : a < W) : uCast W a = some a := if_pos h
theorem uCast_not {W a : Nat} (h : W ≤ a) : uCast W a = none := if_neg (by omega)

@[simp] theorem orPanic_some {α : Type} (x : α) : orPanic (some x) = .ok x := rfl
@[simp] theorem orPanic_none {α : Type} : orPanic (none : Option α) = .error .panic := rfl
@[simp] theorem orErr_some {α : Type} (e : Err) (x : α) : orErr e (some x) = .ok x := rfl
@[simp] theorem orErr_none {α : Type} (e : Err) : orErr e (none : Option α) = .error e := rfl

theorem orErr_ok {α β : Type} (e : Err) (x : α) (f : α → M β) : (orErr e (some x) >>= f) = f x := rfl
theorem orErr_err {α β : Type} (e : Err) (f : α → M β) : (orErr e none >>= f) = .error e := rfl
theorem orPanic_ok {α β : Type} (x : α) (f : α → M β) : (orPanic (some x) >>= f) = f x := rfl
theorem orPanic_err {α β : Type} (f : α → M β) : (orPanic none >>= f) = .error .panic := rfl

theorem orPanic_uCast (W a : Nat) : orPanic (uCast W a) = if a < W then .ok a else .error .panic := by
  unfold uCast; split <;> rfl
theorem orErr_uCast (e : Err) (W a : Nat) : orErr e (uCast W a) = if a < W then .ok a else .error e := by
  unfold uCast; split <;> rfl
theorem orErr_uCast128 (e : Err) (a : Nat) : orErr e (uCast U128 a) = cast128 e a := orErr_uCast e U128 a
theorem orPanic_uCast128 (a : Nat) : orPanic (uCast U128 a) = cast128 .panic a := orPanic_uCast U128 a

/-! ## Decimal types -/

/-- A decimal type as the contract uses them. -/
structure DecTy.Wide (T : DecTy) : Prop where
  one : 10 ^ T.scale < T.under
  under : T.under ≤ U128
  big : T.big = U256

theorem wide_sqrt : SQRT_PRICE.Wide := ⟨by decide, by decide, rfl⟩
theorem wide_liq : LIQUIDITY.Wide := ⟨by decide, by decide, rfl⟩
theorem wide_fg : FEE_GROWTH.Wide := ⟨by decide, by decide, rfl⟩
theorem wide_tok : TOKEN_AMOUNT.Wide := ⟨by decide, by decide, rfl⟩
theorem wide_fix : FIXED_POINT.Wide := ⟨by decide, by decide, rfl⟩
theorem wide_pct : PERCENTAGE.Wide := ⟨by decide, by decide, rfl⟩

theorem u128_sq : U128 * U128 = U256 := by norm_num

theorem u128_mul_lt {a b : Nat} (ha : a < U128) (hb : b < U128) : a * b < U256 := by
  rw [← u128_sq]
  exact Nat.mul_lt_mul_of_lt_of_le ha (Nat.le_of_lt hb) (by norm_num)

theorem u128_lt_256 {a : Nat} (ha : a < U128) : a < U256 := by
  have := u128_mul_lt ha (b := 1) (by norm_num)
  rwa [Nat.mul_one] at this

/-- A product of two 128-bit numbers leaves room for a third. -/
theorem u128_mul_add_lt {a b c : Nat} (ha : a < U128) (hb : b < U128) (hc : c < U128) : a * b + c < U256 := by
  rw [← u128_sq]
  generalize U128 = W at *
  obtain ⟨x, rfl⟩ : ∃ x, W = a + 1 + x := ⟨W - a - 1, by omega⟩
  have h1 : a * b ≤ a * (a + 1 + x) := Nat.mul_le_mul_left _ (by omega)
  have h2 : a * (a + 1 + x) + (a + 1 + x) ≤ (a + 1 + x) * (a + 1 + x) := by nlinarith
  omega

namespace DecTy.Wide
variable {T : DecTy} (h : T.Wide)
include h

theorem one128 : 10 ^ T.scale < U128 := h.one.trans_le h.under
theorem oneBig {S : DecTy} (hS : S.Wide) : 10 ^ T.scale < S.big := by rw [hS.big]; exact u128_lt_256 h.one128
theorem lt128 {a : Nat} (ha : a < T.under) : a < U128 := ha.trans_le h.under
theorem almost : 10 ^ T.scale - 1 < U128 := (Nat.sub_le _ _).trans_lt h.one128

end DecTy.Wide

theorem ten_pos (n : Nat) : 0 < 10 ^ n := Nat.pos_of_ne_zero (by positivity)

namespace Dec

theorem one_eq {T : DecTy} {W : Nat} (h : 10 ^ T.scale < W) : Dec.one T W = .ok (10 ^ T.scale) := by
  unfold Dec.one; rw [uCast_of h]; rfl
theorem almostOne_eq {T : DecTy} {W : Nat} (h : 10 ^ T.scale - 1 < W) : Dec.almostOne T W = .ok (10 ^ T.scale - 1) := by
  unfold Dec.almostOne; rw [uCast_of h]; rfl

theorem bigMulToValue_eq {S T : DecTy} (hS : S.Wide) (hT : T.Wide) {a b : Nat} (ha : a < U128) (hb : b < U128) :
    bigMulToValue S T a b = .ok (a * b / 10 ^ T.scale) := by
  unfold bigMulToValue
  rw [hS.big, uCast_of (u128_lt_256 ha), uCast_of (u128_lt_256 hb), one_eq (u128_lt_256 hT.one128)]
  simp only [orPanic_some, ok_bind]
  rw [uMul_of (u128_mul_lt ha hb)]
  simp only [orPanic_some, ok_bind]
  rw [uDiv_of (ten_pos _)]
  rfl

theorem bigMulToValueUp_eq {S T : DecTy} (hS : S.Wide) (hT : T.Wide) {a b : Nat} (ha : a < U128) (hb : b < U128) :
    bigMulToValueUp S T a b = .ok ((a * b + (10 ^ T.scale - 1)) / 10 ^ T.scale) := by
  unfold bigMulToValueUp
  rw [hS.big, uCast_of (u128_lt_256 ha), uCast_of (u128_lt_256 hb), one_eq (u128_lt_256 hT.one128),
    almostOne_eq (u128_lt_256 hT.almost)]
  simp only [orPanic_some, ok_bind]
  rw [uMul_of (u128_mul_lt ha hb)]
  simp only [orPanic_some, ok_bind]
  rw [uAdd_of (u128_mul_add_lt ha hb hT.almost)]
  simp only [orPanic_some, ok_bind]
  rw [uDiv_of (ten_pos _)]
  rfl

theorem bigMul_eq {S T : DecTy} (hS : S.Wide) (hT : T.Wide) {a b : Nat} (ha : a < U128) (hb : b < U128) :
    bigMul S T a b = orPanic (uCast S.under (a * b / 10 ^ T.scale)) := by
  have h := bigMulToValue_eq hS hT ha hb
  unfold bigMulToValue at h
  unfold bigMul
  simp only [bind_ok] at h
  obtain ⟨a', h1, b', h2, p, h3, o, h4, h5⟩ := h
  rw [h1, ok_bind, h2, ok_bind, h3, ok_bind, h4, ok_bind, h5, ok_bind]

theorem bigMulUp_eq {S T : DecTy} (hS : S.Wide) (hT : T.Wide) {a b : Nat} (ha : a < U128) (hb : b < U128) :
    bigMulUp S T a b = orPanic (uCast S.under ((a * b + (10 ^ T.scale - 1)) / 10 ^ T.scale)) := by
  have h := bigMulToValueUp_eq hS hT ha hb
  unfold bigMulToValueUp at h
  unfold bigMulUp
  simp only [bind_ok] at h
  obtain ⟨a', h1, b', h2, p, h3, r, h6, p', h7, o, h4, h5⟩ := h
  rw [h1, ok_bind, h2, ok_bind, h3, ok_bind, h6, ok_bind, h7, ok_bind, h4, ok_bind, h5, ok_bind]

theorem bigDiv_eq {S T : DecTy} (hS : S.Wide) (hT : T.Wide) {a b : Nat} (ha : a < U128) (hb : b < U128) (h0 : 0 < b) :
    bigDiv S T a b = orPanic (uCast S.under (a * 10 ^ T.scale / b)) := by
  unfold bigDiv
  rw [hS.big, uCast_of (u128_lt_256 ha), uCast_of (u128_lt_256 hb), one_eq (u128_lt_256 hT.one128)]
  simp only [orPanic_some, ok_bind]
  rw [uMul_of (u128_mul_lt ha hT.one128)]
  simp only [orPanic_some, ok_bind]
  rw [uDiv_of h0]
  rfl

theorem bigDivUp_eq {S T : DecTy} (hS : S.Wide) (hT : T.Wide) {a b : Nat} (ha : a < U128) (hb : b < U128) (h0 : 0 < b) :
    bigDivUp S T a b = orPanic (uCast S.under ((a * 10 ^ T.scale + (b - 1)) / b)) := by
  unfold bigDivUp
  rw [hS.big, uCast_of (u128_lt_256 ha), uCast_of (u128_lt_256 hb), one_eq (u128_lt_256 hT.one128)]
  simp only [orPanic_some, ok_bind]
  rw [uMul_of (u128_mul_lt ha hT.one128), uSub_of (show 1 ≤ b by omega)]
  simp only [orPanic_some, ok_bind]
  rw [uAdd_of (u128_mul_add_lt ha hT.one128 (show b - 1 < U128 by omega))]
  simp only [orPanic_some, ok_bind]
  rw [uDiv_of h0]
  rfl

theorem bigDiv_zero {S T : DecTy} (hS : S.Wide) (hT : T.Wide) {a : Nat} (ha : a < U128) : bigDiv S T a 0 = .error .panic := by
  unfold bigDiv
  rw [hS.big, uCast_of (u128_lt_256 ha), uCast_of (show 0 < U256 by norm_num), one_eq (u128_lt_256 hT.one128)]
  simp only [orPanic_some, ok_bind]
  rw [uMul_of (u128_mul_lt ha hT.one128)]
  simp only [orPanic_some, ok_bind]
  rw [uDiv_zero rfl]
  rfl

theorem bigDivUp_zero {S T : DecTy} (hS : S.Wide) (hT : T.Wide) {a : Nat} (ha : a < U128) :
    bigDivUp S T a 0 = .error .panic := by
  unfold bigDivUp
  rw [hS.big, uCast_of (u128_lt_256 ha), uCast_of (show 0 < U256 by norm_num), one_eq (u128_lt_256 hT.one128)]
  simp only [orPanic_some, ok_bind]
  rw [uMul_of (u128_mul_lt ha hT.one128), uSub_not (show 0 < 1 by norm_num)]
  rfl

theorem checkedFromDecimalToValue_up {S T : DecTy} (hS : S.Wide) (hs : S.scale > T.scale) (e : Err) {a : Nat}
    (ha : a < S.under) : checkedFromDecimalToValue S T e a = .ok (a * 10 ^ (S.scale - T.scale)) := by
  have h1 : 10 ^ (S.scale - T.scale) < U128 :=
    (Nat.pow_le_pow_right (by norm_num) (Nat.sub_le _ _)).trans_lt hS.one128
  unfold checkedFromDecimalToValue
  rw [if_pos hs, uCast_of ha, hS.big, uCast_of h1]
  simp only [orErr_some, ok_bind]
  rw [uCast_of (u128_lt_256 (hS.lt128 ha)), uCast_of (u128_lt_256 h1)]
  simp only [orErr_some, ok_bind]
  rw [uMul_of (u128_mul_lt (hS.lt128 ha) h1)]
  rfl

end Dec

end OraiV3
