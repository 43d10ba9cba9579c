import Verif.Lemmas.Rate
import Verif.Props.Quote
import Verif.Props.Sim
import Mathlib.Tactic.Positivity
import Mathlib.Tactic.FieldSimp

/-!
# C49: no swap trades better than the pool's price
-/

namespace OraiV3

/-- A number of iterations within which the loop ends bounds those it makes. -/
theorem LoopEnds.steps {s : Store} {pr : SwapParams} {n : Nat} {st : SwapState} (h : LoopEnds s pr n st) :
    ∀ m, loopSteps s pr m st ≤ n := by
  induction h with
  | done h =>
    intro m
    cases m
    · exact Nat.zero_le _
    · unfold loopSteps; rw [if_pos h]; exact Nat.zero_le _
  | fail h =>
    intro m
    cases m
    · exact Nat.zero_le _
    · unfold loopSteps; rw [h]; split <;> exact Nat.zero_le _
  | next h _ ih =>
    intro m
    cases m with
    | zero => exact Nat.zero_le _
    | succ m =>
      unfold loopSteps; rw [h]; split
      · exact Nat.zero_le _
      · exact Nat.succ_le_succ (ih m)

/-- The price of one unit of X in units of Y at a square root price as stored (24 decimals). -/
def priceOf (sqrtPrice : Nat) : ℚ := ((sqrtPrice : ℚ) / 10 ^ 24) ^ 2

/-- The fee of a pool as a fraction (stored with 12 decimals). -/
def feeRate (k : PoolKey) : ℚ := (k.tier.fee : ℚ) / 10 ^ 12

theorem rate_sell {o i f P n : Nat} (hn : n ≤ 443637)
    (h : o * 10 ^ 48 * (10 ^ 12 + f) ≤ i * 10 ^ 12 * (P * P) + n * (2 * 10 ^ 36)) :
    (o : ℚ) * (1 + (f : ℚ) / 10 ^ 12) ≤ i * ((P : ℚ) / 10 ^ 24) ^ 2 + 1 / 10 ^ 18 := by
  have h1 : ((o * 10 ^ 48 * (10 ^ 12 + f) : Nat) : ℚ) ≤ ((i * 10 ^ 12 * (P * P) + n * (2 * 10 ^ 36) : Nat) : ℚ) := by
    exact_mod_cast h
  push_cast at h1
  have hn' : (n : ℚ) ≤ 443637 := by exact_mod_cast hn
  have e1 : (o : ℚ) * (1 + (f : ℚ) / 10 ^ 12) = (o * 10 ^ 48 * (10 ^ 12 + f)) / 10 ^ 60 := by field_simp
  have e2 : (i : ℚ) * ((P : ℚ) / 10 ^ 24) ^ 2 + 1 / 10 ^ 18 = (i * 10 ^ 12 * (P * P) + 10 ^ 42) / 10 ^ 60 := by field_simp
  rw [e1, e2]
  refine div_le_div_of_nonneg_right ?_ (by positivity)
  refine h1.trans ?_
  have : (n : ℚ) * (2 * 10 ^ 36) ≤ 443637 * (2 * 10 ^ 36) := mul_le_mul_of_nonneg_right hn' (by positivity)
  linarith

theorem rate_buy {o i f P : Nat} (h : o * (P * P) * (10 ^ 12 + f) ≤ i * 10 ^ 12 * 10 ^ 48) :
    (o : ℚ) * ((P : ℚ) / 10 ^ 24) ^ 2 * (1 + (f : ℚ) / 10 ^ 12) ≤ i := by
  have h1 : ((o * (P * P) * (10 ^ 12 + f) : Nat) : ℚ) ≤ ((i * 10 ^ 12 * 10 ^ 48 : Nat) : ℚ) := by
    exact_mod_cast h
  push_cast at h1
  have e1 : (o : ℚ) * ((P : ℚ) / 10 ^ 24) ^ 2 * (1 + (f : ℚ) / 10 ^ 12) = (o * (P * P) * (10 ^ 12 + f)) / 10 ^ 60 := by field_simp
  rw [e1, div_le_iff₀ (by positivity)]
  refine h1.trans (le_of_eq ?_)
  ring

/-- In every reachable state, what a swap is quoted: for X sold no more Y than the X is worth at the pool's present price,
less the fee (up to `10^-18` units of Y, because of the rounding of the required amount of X); for X bought at least what
the X is worth at that price, and the fee on it. -/
theorem C49_quote {c : Chain} {s : Store} (hr : Reach c s) {env : Env} {k : PoolKey} (hk : k.wf) {d : Bool}
    {amount limit : Nat} {b : Bool} {q : QuoteResult} (h : queryQuote s env k d amount b limit = .ok q) :
    ∃ p, queryPool s k.tokenX k.tokenY k.tier = .ok p ∧
      if d then (q.amountOut : ℚ) * (1 + feeRate k) ≤ q.amountIn * priceOf p.sqrtPrice + 1 / 10 ^ 18
      else (q.amountOut : ℚ) * priceOf p.sqrtPrice * (1 + feeRate k) ≤ q.amountIn := by
  unfold queryQuote at h
  rw [bind_ok] at h
  obtain ⟨res, h1, h2⟩ := h
  rw [pure_ok] at h2
  obtain ⟨pool, st, -, hp, -, h4, -⟩ := calculateSwap_inv h1
  have hm := hr.mreach
  refine ⟨pool, queryPool_of_key hm.struct hk hp, ?_⟩
  have h3 := swap_rate hm.struct hm.bitInv hk hp (hm.price k pool hk hp) h1
  rw [← h2]
  cases d
  · simp only [Bool.false_eq_true, if_false] at h3 ⊢
    exact rate_buy h3
  · simp only [if_true] at h3 h4 ⊢
    have hl := C24_terminates hr hk hp true b amount limit env.millis h4.1 (.inl rfl)
    refine rate_sell (n := swapSteps s env.millis k true amount b limit) ?_ h3
    unfold swapSteps
    rw [hp]
    exact hl.steps _

/-- The same for what a swap does: what the sender pays and what they get. -/
theorem C49_rate {c : Chain} {w w' : World} {env : Env} {info : Info} {k : PoolKey} {d : Bool} {amount limit : Nat}
    {b : Bool} (hr : Reach c w.store) (hne : info.sender ≠ c.self) (hn : (info.funds.map Coin.denom).Nodup)
    (hu : ∀ x ∈ info.funds, x.denom ≠ tokenOut k d)
    (h : w.tx c env info (.swap k d amount b limit) = .ok w') :
    ∃ p paid got, queryPool w.store k.tokenX k.tokenY k.tier = .ok p ∧
      w'.ledger.bal (tokenAsset c (tokenIn k d)) info.sender + paid =
        w.ledger.bal (tokenAsset c (tokenIn k d)) info.sender ∧
      w'.ledger.bal (tokenAsset c (tokenOut k d)) info.sender =
        w.ledger.bal (tokenAsset c (tokenOut k d)) info.sender + got ∧
      if d then (got : ℚ) * (1 + feeRate k) ≤ paid * priceOf p.sqrtPrice + 1 / 10 ^ 18
      else (got : ℚ) * priceOf p.sqrtPrice * (1 + feeRate k) ≤ paid := by
  obtain ⟨q, h1, h2, h3, -, -⟩ := C11_swap_as_quoted hr hne hn hu h
  obtain ⟨res, pool, m1, hk, -⟩ := swap_tx h
  obtain ⟨p, h5, h6⟩ := C49_quote hr hk h1
  exact ⟨p, q.amountIn, q.amountOut, h5, h2, h3, h6⟩

/-- The hypotheses are met by a swap in either direction: at price 1 and with a fee of 1 % Bob gets 989 units for 1000. -/
example : Reach Demo.chain (Demo.state Demo.chain Demo.shared) ∧ [true, false].map (fun d =>
    ((World.tx Demo.chain ⟨Demo.state Demo.chain Demo.shared, Demo.wealthy⟩ Demo.env (Demo.by_ Demo.bob)
      (.swap Demo.key d 1000 true (if d then MIN_SQRT_PRICE else MAX_SQRT_PRICE))).toOption.map (fun w =>
      (w.ledger.bal (.cw20 [97]) Demo.bob, w.ledger.bal (.cw20 [98]) Demo.bob)))) =
    [some (10 ^ 40 - 1000, 10 ^ 40 + 989), some (10 ^ 40 + 989, 10 ^ 40 - 1000)] :=
  ⟨Demo.state_reach (by decide +kernel), by decide +kernel⟩

/-- The bound is nearly reached there: `989 · 1.01 = 998.89 ≤ 1000`. -/
example : feeRate Demo.key = 1 / 100 ∧ priceOf (10 ^ 24) = 1 ∧ (989 : ℚ) * (1 + feeRate Demo.key) = 998.89 := by
  refine ⟨?_, ?_, ?_⟩ <;> norm_num [feeRate, priceOf, Demo.key, Demo.tier]

end OraiV3
