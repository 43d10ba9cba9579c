import Verif.OfferSpec
import Verif.Lemmas.Principal
import Mathlib.Tactic.Linarith
import Mathlib.Tactic.Positivity

/-!
# The amount on offer along a swap
-/

namespace OraiV3

theorem onOffer_self (s : Store) (k : PoolKey) (d : Bool) (a : Nat) : onOffer s k d a a = 0 := by
  unfold onOffer; exact sub_self _

theorem onOffer_add (s : Store) (k : PoolKey) (d : Bool) (a b c : Nat) :
    onOffer s k d a b + onOffer s k d b c = onOffer s k d a c := by
  unfold onOffer; ring

/-- What a price step that is not cut short takes is little more than what it pays out. -/
theorem step_taken {cur target L amount fee : Nat} {d : Bool} {r : SwapResult}
    (h : computeSwapStep cur target L amount false fee = .ok r) (hd : if d then target ≤ cur else cur < target)
    (hc : MIN_SQRT_PRICE ≤ cur) (hn : MIN_SQRT_PRICE ≤ r.nextPrice) (hlt : r.amountOut < amount) :
    exactOf (!d) L r.nextPrice cur ≤ (r.amountOut + 1) * (1 + 1 / 10 ^ 13) := by
  by_cases hL : L = 0
  · rw [hL, exactOf_zero]
    positivity
  · obtain ⟨-, -, ⟨out0, h2, h3⟩, -⟩ := step_view h hL
    have e : decide (cur ≥ target) = d := by
      cases d <;> simp only [Bool.false_eq_true, if_false, if_true] at hd <;> simp <;> omega
    rw [e] at h2
    rw [if_neg (by decide)] at h3
    have ho : r.amountOut = out0 := by
      rw [h3]
      rw [h3] at hlt
      exact Nat.min_eq_left (by omega)
    rw [ho]
    have h0 : (0 : ℚ) ≤ (out0 : ℚ) := Nat.cast_nonneg _
    cases d
    · rw [deltaOut_false] at h2
      have b := (deltaX_down_exact h2).2.2.2
      rw [exactX_symm] at b
      have c := dustX_small hc hn
      show exactX L r.nextPrice cur ≤ _
      have : ((out0 : ℚ) + 1) * dustX cur r.nextPrice ≤ (out0 + 1) * (1 / 10 ^ 14) :=
        mul_le_mul_of_nonneg_left (le_of_lt c) (by linarith)
      have e1 : (out0 + 1 : ℚ) * (1 + 1 / 10 ^ 13) = out0 + 1 + (out0 + 1) * (1 / 10 ^ 14) * 10 := by ring
      rw [e1]
      nlinarith
    · rw [deltaOut_true] at h2
      have b := (deltaY_down_exact h2).2
      show exactY L r.nextPrice cur ≤ _
      rw [exactY_symm] at b ⊢
      rw [exactY_symm] at b
      have : (0 : ℚ) ≤ (out0 + 1) * (1 / 10 ^ 13) := by positivity
      rw [exactY_symm]
      nlinarith

/-- What the pool offers over a price step, before the next used tick is crossed. -/
theorem step_offer {s : Store} (hst : Struct s) {k : PoolKey} {d : Bool} {limit : Nat} {pl : Pool} {rem : Nat}
    (hlo : LoopOk d k.tier.spacing limit pl rem) {i : Int} (a1 : TickOk k.tier.spacing i)
    (a2 : if d then i ≤ pl.tick else pl.tick < i)
    (gap : ∀ j, TickOk k.tier.spacing j → (if d then i < j ∧ j ≤ pl.tick else pl.tick < j ∧ j < i) → ¬ UsedTick s k j)
    {np : Nat} (hnp : if d then sqrtPriceAt i ≤ np ∧ np ≤ pl.sqrtPrice else pl.sqrtPrice ≤ np ∧ np ≤ sqrtPriceAt i) :
    onOffer s k d pl.sqrtPrice np = exactOf (!d) (liquidityInRange s k pl.tick) np pl.sqrtPrice := by
  have at_ : ∀ j, TickOk k.tier.spacing j → if j ≤ pl.tick then sqrtPriceAt j ≤ pl.sqrtPrice else pl.sqrtPrice ≤ sqrtPriceAt j := by
    intro j hj
    split
    · rename_i hle
      exact Nat.le_trans (hj.price_le hlo.tick hle) hlo.lo
    · rename_i hle
      have hlt : pl.tick < j := by omega
      have hm := (TickOk_iff.1 hj).2.2.2
      have h1 := hlo.hi (by omega)
      exact Nat.le_trans h1 ((hlo.tick.add (by omega)).price_le hj (dvd_lt_step hj.pos hlo.tick.dvd hj.dvd hlt))
  cases d
  · rw [if_neg (by decide)] at a2 hnp
    have := (principal_sum hst (k := k) (t := pl.tick) (P := np) (P' := pl.sqrtPrice) hnp.1 fun j hj hu => by
      have a := at_ j hj
      have g := gap j hj
      rw [if_neg (by decide)] at g
      split at a
      · rename_i c; rw [if_pos c]; exact a
      · rename_i c
        rw [if_neg c]
        have hij : i ≤ j := by
          by_contra hc
          exact g ⟨by omega, by omega⟩ hu
        exact Nat.le_trans hnp.2 (a1.price_le hj hij)).1
    show sumQ s k (fun q => q.principal true pl.sqrtPrice) - sumQ s k (fun q => q.principal true np) =
      exactX (liquidityInRange s k pl.tick) np pl.sqrtPrice
    rw [this, exactX_symm]
    ring
  · rw [if_pos rfl] at a2 hnp
    have := (principal_sum hst (k := k) (t := pl.tick) (P := pl.sqrtPrice) (P' := np) hnp.2 fun j hj hu => by
      have a := at_ j hj
      have g := gap j hj
      rw [if_pos rfl] at g
      split at a
      · rename_i c
        rw [if_pos c]
        have hij : j ≤ i := by
          by_contra hc
          exact g ⟨by omega, by omega⟩ hu
        exact Nat.le_trans (hj.price_le a1 hij) hnp.1
      · rename_i c; rw [if_neg c]; exact a).2
    show sumQ s k (fun q => q.principal false pl.sqrtPrice) - sumQ s k (fun q => q.principal false np) =
      exactY (liquidityInRange s k pl.tick) np pl.sqrtPrice
    rw [this]
    ring

end OraiV3
