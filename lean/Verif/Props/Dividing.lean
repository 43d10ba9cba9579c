import Verif.Lemmas.Parts

/-!
# C97: dividing a trade gains nothing but part of the fee
-/

namespace OraiV3

/-- **C97, a part that holds.**  From a reachable state in which the pool's liquidity is right (C01): somebody could swap `a` for `b`
at once, in `m` price steps, which would bring the pool to `p'`.  Whatever regular swaps are made instead, one after the other,
in the same direction, in whatever mode and by whomever: if together they pay `A` they get, valued at the price where the one swap
would have ended,
* less by what they pay less (or more by what they pay more), without the fee,
* and at most the square of the fee rate of `a` more, because exact-input swaps that end between ticks are charged the fee on
  the gross amount and the others on the net amount (C76),
* and what rounding can make of the one swap: three units paid and one unit received per price step, relative errors of `10^-14` and
  `10^-13`, and what moves the price by one in its last digit (for the liquidity `L` as in C82).
Missing: equality, see `C97_false`, and irregular ends, see C01. -/
theorem C97_dividing_partial {c : Chain} {k : PoolKey} {d : Bool} {w v w' : World} {a b m A B n : Nat} (hr : Reach c w.store)
    (hdr : drift w.store k = 0) (h1 : OneTrade c k d w v a b m) (h : Parts c k d w w' A B n) :
    ∃ p' L, v.store.pools.get? k.key = some p' ∧ (L = p'.liquidity ∨ d = false ∧ (L : Int) = p'.liquidity - netAt w.store k p'.tick) ∧
      (B : ℚ) ≤ (b + m) * (1 + 1 / 10 ^ 13) + lastDigit (!d) L p'.sqrtPrice +
        sellPrice d p'.sqrtPrice * (((A : ℚ) - a) / (1 + feeRate k) + a * (feeRate k ^ 2 + 1 / 10 ^ 14) +
          3 * m + lastDigit d L p'.sqrtPrice + 2 / 10 ^ 14 * n) := by
  obtain ⟨r1, -, -, p, p', L, hp, hp', hL, -, e2, -, e4⟩ := h1.step hr hdr
  obtain ⟨-, -, -, p2, -, f1, f2⟩ := h.curve hr hdr hp
  refine ⟨p', L, hp', hL, ?_⟩
  obtain ⟨k', e, hk', -⟩ := r1.mreach.struct.pools _ _ hp'
  have hok := r1.mreach.price k' p' hk' (by rw [← e]; exact hp')
  have hm0 : 0 < MIN_SQRT_PRICE := by norm_num
  have hP : 0 < p'.sqrtPrice := by have := hok.min; omega
  have ht := curve_tangent hr.mreach.struct k d hP p2.sqrtPrice
  have hS : 0 ≤ sellPrice d p'.sqrtPrice := by
    unfold sellPrice
    split <;> positivity
  have s1 : curveOut w.store k d p.sqrtPrice p2.sqrtPrice =
      curveOut w.store k d p.sqrtPrice p'.sqrtPrice + curveOut w.store k d p'.sqrtPrice p2.sqrtPrice := by unfold curveOut; ring
  have s2 : curveIn w.store k d p.sqrtPrice p2.sqrtPrice =
      curveIn w.store k d p.sqrtPrice p'.sqrtPrice + curveIn w.store k d p'.sqrtPrice p2.sqrtPrice := by unfold curveIn; ring
  have hf : 0 ≤ feeRate k := by unfold feeRate; positivity
  generalize feeRate k = f at *
  generalize sellPrice d p'.sqrtPrice = S at *
  generalize lastDigit d L p'.sqrtPrice = D at *
  generalize lastDigit (!d) L p'.sqrtPrice = D' at *
  generalize curveOut w.store k d p.sqrtPrice p'.sqrtPrice = O at *
  generalize curveOut w.store k d p'.sqrtPrice p2.sqrtPrice = O' at *
  generalize curveIn w.store k d p.sqrtPrice p'.sqrtPrice = I at *
  generalize curveIn w.store k d p'.sqrtPrice p2.sqrtPrice = I' at *
  rw [s1] at f2
  rw [s2] at f1
  have ha : (0 : ℚ) ≤ a := Nat.cast_nonneg a
  have hn : (0 : ℚ) ≤ n := Nat.cast_nonneg n
  have hf1 : 0 < 1 + f := by linarith
  have bound : I' ≤ ((A : ℚ) - a) / (1 + f) + a * (f ^ 2 + 1 / 10 ^ 14) + 3 * m + D + 2 / 10 ^ 14 * n := by
    have g1 : I + I' ≤ (A + 2 / 10 ^ 14 * n) / (1 + f) := by rw [le_div_iff₀ hf1]; exact f1
    have g2 : (A + 2 / 10 ^ 14 * n : ℚ) / (1 + f) = (A - a) / (1 + f) + a / (1 + f) + 2 / 10 ^ 14 * n / (1 + f) := by
      field_simp; ring
    have g3 : (2 / 10 ^ 14 * n : ℚ) / (1 + f) ≤ 2 / 10 ^ 14 * n := div_le_self (by positivity) (by linarith)
    have g4 : (a : ℚ) / (1 + f) ≤ a * (1 - f + f ^ 2) := by
      rw [div_le_iff₀ hf1]
      have : (0 : ℚ) ≤ a * f ^ 3 := by positivity
      nlinarith
    have g5 : 0 ≤ (a : ℚ) * f := by positivity
    nlinarith
  have := mul_le_mul_of_nonneg_left bound hS
  linarith

/-- False as stated.  The fee of the pool is 1 %.  Bob can sell 1000000 units of X at once and gets 989901 units of Y.  Or Bob
buys 989901 units of Y for 999900, sells the other 100 units for 98, and has got 98 more for the same 1000000. -/
theorem C97_false : ∃ w v w' m n, WorldReach Demo.chain w ∧ drift w.store Demo.key = 0 ∧ feeRate Demo.key = 1 / 100 ∧
    OneTrade Demo.chain Demo.key true w v 1000000 989901 m ∧ Parts Demo.chain Demo.key true w w' 1000000 989999 n := by
  obtain ⟨v, w1, h1, h2⟩ : ∃ v w1,
      Sells Demo.chain Demo.env Demo.bob Demo.key 1000000 true MIN_SQRT_PRICE (Demo.world Demo.chain Demo.allFees) 1000000 989901 10000 v ∧
      Sells Demo.chain Demo.env Demo.bob Demo.key 989901 false MIN_SQRT_PRICE (Demo.world Demo.chain Demo.allFees) 999900 989901 9900 w1 := by
    obtain ⟨v, h1⟩ := Demo.sells (c := Demo.chain) (env := Demo.env) (who := Demo.bob) (k := Demo.key) (amount := 1000000) (b := true)
      (limit := MIN_SQRT_PRICE) (w := Demo.world Demo.chain Demo.allFees) (paid := 1000000) (got := 989901) (fee := 10000)
      (by decide +kernel)
    obtain ⟨w1, h2⟩ := Demo.sells (c := Demo.chain) (env := Demo.env) (who := Demo.bob) (k := Demo.key) (amount := 989901) (b := false)
      (limit := MIN_SQRT_PRICE) (w := Demo.world Demo.chain Demo.allFees) (paid := 999900) (got := 989901) (fee := 9900)
      (by decide +kernel)
    exact ⟨v, w1, h1, h2⟩
  have h3 : (match (Demo.world Demo.chain Demo.allFees).tx Demo.chain Demo.env ⟨Demo.bob, []⟩ (.swap Demo.key true 989901 false MIN_SQRT_PRICE) with
    | .ok w1 => (match w1.tx Demo.chain Demo.env ⟨Demo.bob, []⟩ (.swap Demo.key true 100 true MIN_SQRT_PRICE) with
      | .ok w' => decide (w1.ledger.bal (tokenAsset Demo.chain Demo.key.tokenX) Demo.bob =
            w'.ledger.bal (tokenAsset Demo.chain Demo.key.tokenX) Demo.bob + 100 ∧
          w'.ledger.bal (tokenAsset Demo.chain Demo.key.tokenY) Demo.bob = w1.ledger.bal (tokenAsset Demo.chain Demo.key.tokenY) Demo.bob + 98 ∧
          (w'.store.pools.get? Demo.key.key).map (fun p => p.proto true) = (w1.store.pools.get? Demo.key.key).map (fun p => p.proto true + 1) ∧
          RegularEnd w'.store Demo.key true true MIN_SQRT_PRICE)
      | .error _ => false)
    | .error _ => false) = true := by decide +kernel
  rw [h2.tx] at h3
  obtain ⟨w', h4⟩ := Demo.sells (c := Demo.chain) (env := Demo.env) (who := Demo.bob) (k := Demo.key) (amount := 100) (b := true)
    (limit := MIN_SQRT_PRICE) (w := w1) (paid := 100) (got := 98) (fee := 1) h3
  exact ⟨_, v, w', _, _, Demo.allFees_reach, by decide +kernel, by unfold feeRate Demo.key Demo.tier; norm_num,
    h1.oneTrade (by decide), .more (.more (.none _) (h2.oneTrade (by decide))) (h4.oneTrade (by decide))⟩

/-- The hypotheses of the theorem are met by that case.  The bound is 990004 (the square of 1 % of a million is 100). -/
example : ∃ w v w' m n, Reach Demo.chain w.store ∧ drift w.store Demo.key = 0 ∧
    OneTrade Demo.chain Demo.key true w v 1000000 989901 m ∧ Parts Demo.chain Demo.key true w w' 1000000 989999 n := by
  obtain ⟨w, v, w', m, n, h1, h2, -, h3, h4⟩ := C97_false
  exact ⟨w, v, w', m, n, h1.reach, h2, h3, h4⟩

end OraiV3
