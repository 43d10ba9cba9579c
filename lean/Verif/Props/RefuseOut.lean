import Verif.Lemmas.RefuseOut
import Verif.Props.Refuse
import Verif.Props.Ticks

/-!
# C78: why an exact-output swap is refused, and how much can be had
-/

namespace OraiV3

/-! ## C78: exact-output swaps are refused only for a stated reason -/

/-- No range the swap may pass through is thin compared with the amount asked for.  Selling X: at every
tick boundary between the limit and the current price, the active liquidity is zero or is worth at least the
amount when taken down to price zero.  Buying X: at every tick boundary between the current price and the limit,
the liquidity below it is zero or is worth at least twice the amount when taken up without end. -/
def NoThinRange (s : Store) (k : PoolKey) (sellX : Bool) (price amount limit : Nat) : Prop :=
  ∀ i, ValidTick k.tier.spacing i →
    if sellX then limit ≤ sqrtPriceAt i → sqrtPriceAt i ≤ price →
      liquidityInRange s k i = 0 ∨ amount * 10 ^ 30 ≤ liquidityInRange s k i * sqrtPriceAt i
    else sqrtPriceAt i ≤ limit → price < sqrtPriceAt i →
      liquidityInRange s k (i - k.tier.spacing) = 0 ∨
        2 * (amount * sqrtPriceAt i) ≤ liquidityInRange s k (i - k.tier.spacing) * 10 ^ 18

/-- Outside the cases below, an exact-output quote is refused only because the amount is zero, the price
limit is on the wrong side, the limit is reached before the amount is paid out, or, with a limit
outside the pool's tick range, because the end of the tick range is reached.  If the limit is reached, then what the
pool has on offer up to the limit is no more than the amount asked for plus one unit for each price step (and
one part in 10^13).

The side conditions: the protocol fee is at most 100 %, the protocol's unclaimed fee is below 2^127, and the block
time is not before the creation of the pool.

What is missing: swaps that may pass through a thin range (`C78_dust_false` shows that the condition is needed).  The
condition is about every range up to the limit, even if the swap ends before. -/
theorem C78_refusals_partial {c : Chain} {s : Store} (hs : Reach c s) {k : PoolKey} (hdr : drift s k = 0) (hk : k.wf) {p : Pool}
    (hp : s.pools.get? k.key = some p) {cfg : Config} (hc : s.config = some cfg) {env : Env} {d : Bool} {amount limit : Nat} {e : Err}
    (h1 : cfg.protocolFee ≤ 10 ^ 12) (h2 : (if d then p.protoX else p.protoY) < 2 ^ 127) (h3 : p.startTs ≤ env.millis)
    (h4 : amount < 2 ^ 128) (h5 : NoThinRange s k d p.sqrtPrice amount limit)
    (h : queryQuote s env k d amount false limit = .error e) :
    (e = .amountIsZero ∧ amount = 0) ∨ (e = .wrongLimit ∧ (if d then p.sqrtPrice ≤ limit else limit ≤ p.sqrtPrice)) ∨
      (e = .priceLimitReached ∧ onOffer s k d p.sqrtPrice limit ≤
        ((amount + swapSteps s env.millis k d amount false limit : Nat) : ℚ) * (1 + 1 / 10 ^ 13)) ∨
      (e = .tickLimitReached ∧
        (if d then limit < sqrtPriceAt (getMinTick k.tier.spacing + k.tier.spacing)
          else sqrtPriceAt (getMaxTick k.tier.spacing) ≤ limit)) := by
  have hf : OutFits s k p d amount limit env.millis := by
    refine ⟨fun cfg' h' => ?_, h2, h3, fun i hi => h5 i (validTick_iff.2 hi)⟩
    rw [hc, Option.some.injEq] at h'
    subst h'
    exact h1
  have hq : Ends (OutRefusal s k p d amount limit (swapSteps s env.millis k d amount false limit))
      (queryQuote s env k d amount false limit) := by
    unfold queryQuote
    exact Ends.bind (calculateSwap_out_ends hs hdr hk hp h4 hf) fun _ _ => .ok
  rcases hq e h with h | h | h | ⟨h, h'⟩
  · exact .inl h
  · exact .inr (.inl h)
  · exact .inr (.inr (.inl h))
  · refine .inr (.inr (.inr ⟨h, ?_⟩))
    unfold LimitInside at h'
    cases d
    · simpa using h'
    · simpa using h'

/-- The same for the swap itself, which can also be refused because the caller attached too little. -/
theorem C78_swap_partial {c : Chain} {s : Store} (hs : Reach c s) {k : PoolKey} (hdr : drift s k = 0) {p : Pool}
    (hp : s.pools.get? k.key = some p) {cfg : Config} (hc : s.config = some cfg) {env : Env} {info : Info} {d : Bool}
    {amount limit : Nat} {e : Err} (hw : (Msg.swap k d amount false limit).wf)
    (h1 : cfg.protocolFee ≤ 10 ^ 12) (h2 : (if d then p.protoX else p.protoY) < 2 ^ 127) (h3 : p.startTs ≤ env.millis)
    (h5 : NoThinRange s k d p.sqrtPrice amount limit)
    (h : execute c env info (.swap k d amount false limit) s = .error e) :
    (e = .amountIsZero ∧ amount = 0) ∨ (e = .wrongLimit ∧ (if d then p.sqrtPrice ≤ limit else limit ≤ p.sqrtPrice)) ∨
      (e = .priceLimitReached ∧ onOffer s k d p.sqrtPrice limit ≤
        ((amount + swapSteps s env.millis k d amount false limit : Nat) : ℚ) * (1 + 1 / 10 ^ 13)) ∨
      (e = .tickLimitReached ∧
        (if d then limit < sqrtPriceAt (getMinTick k.tier.spacing + k.tier.spacing)
          else sqrtPriceAt (getMaxTick k.tier.spacing) ≤ limit)) ∨
      (e = .invalidFunds ∧ c.isAddr (tokenIn k d) = false ∧ ∃ q, queryQuote s env k d amount false limit = .ok q) := by
  obtain ⟨a1, a2⟩ := C11_quote_as_swapped (c := c) hs (env := env) (info := info) hw
  cases hq : queryQuote s env k d amount false limit with
  | error e' =>
    rw [a1 e' hq] at h
    cases h
    rcases C78_refusals_partial hs hdr hw.1 hp hc h1 h2 h3 hw.2.1 h5 hq with h | h | h | h
    · exact .inl h
    · exact .inr (.inl h)
    · exact .inr (.inr (.inl h))
    · exact .inr (.inr (.inr (.inl h)))
  | ok q =>
    rcases a2 q hq with ⟨b1, b2, -⟩ | ⟨s', charge, b1, -⟩
    · rw [b2] at h
      cases h
      exact .inr (.inr (.inr (.inr ⟨rfl, b1, q, rfl⟩)))
    · rw [b1] at h
      cases h

/-- **How much can be had.**  Selling X for an exact amount of Y succeeds whenever the pool has the amount on
offer between the current price and the limit, with 443637 units to spare (one for each price step there can be) and
one part in 10^13: the quote is given and pays exactly the amount. -/
theorem C78_accepted_partial {c : Chain} {s : Store} (hs : Reach c s) {k : PoolKey} (hdr : drift s k = 0) (hk : k.wf) {p : Pool}
    (hp : s.pools.get? k.key = some p) {cfg : Config} (hc : s.config = some cfg) {env : Env} {amount limit : Nat}
    (h1 : cfg.protocolFee ≤ 10 ^ 12) (h2 : p.protoX < 2 ^ 127) (h3 : p.startTs ≤ env.millis)
    (h0 : amount ≠ 0) (h4 : amount < 2 ^ 128) (h5 : NoThinRange s k true p.sqrtPrice amount limit)
    (h6 : sqrtPriceAt (getMinTick k.tier.spacing + k.tier.spacing) ≤ limit) (h7 : limit < p.sqrtPrice)
    (h8 : ((amount + 443637 : Nat) : ℚ) * (1 + 1 / 10 ^ 13) < onOffer s k true p.sqrtPrice limit) :
    ∃ q, queryQuote s env k true amount false limit = .ok q ∧ q.amountOut = amount := by
  have hm := hs.mreach
  have hmax := (hm.price k p hk hp).max
  cases hq : queryQuote s env k true amount false limit with
  | error e =>
    exfalso
    rcases C78_refusals_partial hs hdr hk hp hc h1 (d := true) h2 h3 h4 h5 hq with ⟨-, h⟩ | ⟨-, h⟩ | ⟨-, h⟩ | ⟨-, h⟩
    · exact h0 h
    · rw [if_pos rfl] at h
      omega
    · have : swapSteps s env.millis k true amount false limit ≤ 2 * 221818 + 1 := by
        unfold swapSteps
        rw [hp]
        exact loopSteps_le (C24_terminates hs hk hp true false amount limit env.millis h7 (.inl rfl)) _
      have h9 : ((amount + swapSteps s env.millis k true amount false limit : Nat) : ℚ) ≤ ((amount + 443637 : Nat) : ℚ) := by
        exact_mod_cast (by omega)
      have := mul_le_mul_of_nonneg_right h9 (show (0 : ℚ) ≤ 1 + 1 / 10 ^ 13 by positivity)
      linarith
    · rw [if_pos rfl] at h
      omega
  | ok q =>
    refine ⟨q, rfl, ?_⟩
    unfold queryQuote at hq
    rw [bind_ok] at hq
    obtain ⟨r, h9, h10⟩ := hq
    have := swap_amount_out hm.struct hm.bitInv hk hp (hm.price k p hk hp) h9
    rw [pure_ok] at h10
    rw [← h10]
    exact this

/-- No range is thin if every position of the pool is large compared with the amount. -/
theorem noThinRange_of_positions {s : Store} {k : PoolKey} {d : Bool} {price amount limit : Nat}
    (h : ∀ q ∈ positionsOf s k, if d then amount * 10 ^ 30 ≤ q.liquidity * limit else 2 * (amount * limit) ≤ q.liquidity * 10 ^ 18) :
    NoThinRange s k d price amount limit := by
  have key : ∀ (m c : Nat), (∀ q ∈ positionsOf s k, m ≤ q.liquidity * c) → ∀ t : Int,
      liquidityInRange s k t = 0 ∨ m ≤ liquidityInRange s k t * c := by
    intro m c h t
    unfold liquidityInRange sumPositions
    revert h
    induction positionsOf s k with
    | nil => intro _; left; rfl
    | cons q l ih =>
      intro h
      have h0 := h q (List.mem_cons_self ..)
      have h1 := ih fun q' hq' => h q' (List.mem_cons_of_mem _ hq')
      simp only [List.map_cons, List.sum_cons]
      generalize (List.map (fun p : Position => if p.lower ≤ t ∧ t < p.upper then p.liquidity else 0) l).sum = S at *
      split
      · right
        rw [Nat.add_mul]
        omega
      · rw [Nat.zero_add]
        exact h1
  intro i _
  cases d
  · rw [if_neg (by decide)]
    intro hl _
    rcases key _ _ (fun q hq => by have := h q hq; rw [if_neg (by decide)] at this; exact this) (i - k.tier.spacing) with h | h
    · exact .inl h
    · right
      have : amount * sqrtPriceAt i ≤ amount * limit := Nat.mul_le_mul_left _ hl
      omega
  · rw [if_pos rfl]
    intro hl _
    rcases key _ _ (fun q hq => by have := h q hq; rw [if_pos rfl] at this; exact this) i with h | h
    · exact .inl h
    · exact .inr (Nat.le_trans h (Nat.mul_le_mul_left _ hl))

namespace Demo

/-- Two large positions below and around the price. -/
def deep : List (Info × Msg) :=
  [(by_ alice, .addFeeTier tier), (by_ alice, .createPool [97] [98] tier (10 ^ 24) 0),
   (by_ bob, .createPosition key (-1000) 1000 (10 ^ 18) 0 (10 ^ 30)),
   (by_ carol, .createPosition key (-500) (-100) (3 * 10 ^ 17) 0 (10 ^ 30))]

end Demo

/-- A sale that meets the conditions of `C78_accepted_partial` and crosses a tick, and one for more than
there is. -/
example : ∃ p cfg, RegularReach Demo.chain (fun _ => True) (Demo.state Demo.chain Demo.deep) ∧ Demo.key.wf ∧
    (Demo.state Demo.chain Demo.deep).pools.get? Demo.key.key = some p ∧ (Demo.state Demo.chain Demo.deep).config = some cfg ∧
    cfg.protocolFee ≤ 10 ^ 12 ∧ p.protoX < 2 ^ 127 ∧ p.startTs ≤ Demo.env.millis ∧
    NoThinRange (Demo.state Demo.chain Demo.deep) Demo.key true p.sqrtPrice (10 ^ 10) (97 * 10 ^ 22) ∧
    sqrtPriceAt (getMinTick Demo.key.tier.spacing + Demo.key.tier.spacing) ≤ 97 * 10 ^ 22 ∧ 97 * 10 ^ 22 < p.sqrtPrice ∧
    ((10 ^ 10 + 443637 : Nat) : ℚ) * (1 + 1 / 10 ^ 13) < onOffer (Demo.state Demo.chain Demo.deep) Demo.key true p.sqrtPrice (97 * 10 ^ 22) ∧
    (queryQuote (Demo.state Demo.chain Demo.deep) Demo.env Demo.key true (10 ^ 10) false (97 * 10 ^ 22)).toOption.map
      (fun q => (q.amountOut, q.ticks.length)) = some (10 ^ 10, 1) ∧
    NoThinRange (Demo.state Demo.chain Demo.deep) Demo.key true p.sqrtPrice (10 ^ 11) (97 * 10 ^ 22) ∧
    errorOf (queryQuote (Demo.state Demo.chain Demo.deep) Demo.env Demo.key true (10 ^ 11) false (97 * 10 ^ 22)) = some .priceLimitReached := by
  have hr : RegularReach Demo.chain (fun _ => True) (Demo.state Demo.chain Demo.deep) := Demo.state_regular (by decide +kernel) (by decide +kernel)
  have h1 : (match (Demo.state Demo.chain Demo.deep).pools.get? Demo.key.key, (Demo.state Demo.chain Demo.deep).config with
    | some p, some cfg => decide (cfg.protocolFee ≤ 10 ^ 12 ∧ p.protoX < 2 ^ 127 ∧ p.startTs ≤ Demo.env.millis ∧ 97 * 10 ^ 22 < p.sqrtPrice ∧
        ((10 ^ 10 + 443637 : Nat) : ℚ) * (1 + 1 / 10 ^ 13) < onOffer (Demo.state Demo.chain Demo.deep) Demo.key true p.sqrtPrice (97 * 10 ^ 22))
    | _, _ => false) = true := by decide +kernel
  have h2 : ((positionsOf (Demo.state Demo.chain Demo.deep) Demo.key).all
    (fun q => decide (10 ^ 11 * 10 ^ 30 ≤ q.liquidity * (97 * 10 ^ 22)))) = true := by decide +kernel
  have h3 : ∀ q ∈ positionsOf (Demo.state Demo.chain Demo.deep) Demo.key, 10 ^ 11 * 10 ^ 30 ≤ q.liquidity * (97 * 10 ^ 22) :=
    fun q hq => by have := List.all_eq_true.1 h2 q hq; rwa [decide_eq_true_eq] at this
  split at h1
  · rename_i p cfg e1 e2
    rw [decide_eq_true_eq] at h1
    refine ⟨p, cfg, hr, by decide, e1, e2, h1.1, h1.2.1, h1.2.2.1, ?_, by decide +kernel, h1.2.2.2.1, h1.2.2.2.2,
      by decide +kernel, ?_, by decide +kernel⟩
    · exact noThinRange_of_positions fun q hq => by
        rw [if_pos rfl]; exact Nat.le_trans (by decide +kernel) (h3 q hq)
    · exact noThinRange_of_positions fun q hq => by
        rw [if_pos rfl]; exact h3 q hq
  · cases h1

/-- A purchase that meets the conditions of `C78_refusals_partial`. -/
example : ∃ p, RegularReach Demo.chain (fun _ => True) (Demo.state Demo.chain Demo.gap) ∧
    (Demo.state Demo.chain Demo.gap).pools.get? Demo.key.key = some p ∧
    NoThinRange (Demo.state Demo.chain Demo.gap) Demo.key false p.sqrtPrice (10 ^ 5) (2 * 10 ^ 24) ∧
    (queryQuote (Demo.state Demo.chain Demo.gap) Demo.env Demo.key false (10 ^ 5) false (2 * 10 ^ 24)).toOption.map
      (fun q => (q.amountIn, q.amountOut)) = some (101507, 10 ^ 5) := by
  have hr : RegularReach Demo.chain (fun _ => True) (Demo.state Demo.chain Demo.gap) := Demo.state_regular (by decide +kernel) (by decide +kernel)
  have h2 : ((positionsOf (Demo.state Demo.chain Demo.gap) Demo.key).all
    (fun q => decide (2 * (10 ^ 5 * (2 * 10 ^ 24)) ≤ q.liquidity * 10 ^ 18))) = true := by decide +kernel
  have h3 : ((Demo.state Demo.chain Demo.gap).pools.get? Demo.key.key).isSome = true := by decide +kernel
  obtain ⟨p, hp⟩ := Option.isSome_iff_exists.1 h3
  refine ⟨p, hr, hp, noThinRange_of_positions fun q hq => ?_, by decide +kernel⟩
  rw [if_neg (by decide)]
  have := List.all_eq_true.1 h2 q hq
  rwa [decide_eq_true_eq] at this

/-- A deposit of one unit of X blocks a purchase of an exact amount.  Where the pool has a gap in its
liquidity, Carol opens a position of liquidity 0.000001 in the gap, which costs one unit of X.  Buying exactly 10^5 units of
X was possible before and fails with an overflow afterwards. -/
theorem C78_dust_false : ∃ s s', RegularReach Demo.chain (fun _ => True) s ∧
    (queryQuote s Demo.env Demo.key false (10 ^ 5) false MAX_SQRT_PRICE).isOk = true ∧
    execute Demo.chain Demo.env (Demo.by_ Demo.carol) Demo.dust s =
      .ok (s', [.cw20TransferFrom Demo.key.tokenX Demo.carol Demo.chain.self 1]) ∧
    errorOf (queryQuote s' Demo.env Demo.key false (10 ^ 5) false MAX_SQRT_PRICE) = some .bigLiquidityOverflow := by
  have hr : RegularReach Demo.chain (fun _ => True) (Demo.state Demo.chain Demo.gap) := Demo.state_regular (by decide +kernel) (by decide +kernel)
  have h : (match execute Demo.chain Demo.env (Demo.by_ Demo.carol) Demo.dust (Demo.state Demo.chain Demo.gap) with
    | .ok (s', out) => decide (out = [.cw20TransferFrom Demo.key.tokenX Demo.carol Demo.chain.self 1]) &&
        decide (errorOf (queryQuote s' Demo.env Demo.key false (10 ^ 5) false MAX_SQRT_PRICE) = some .bigLiquidityOverflow)
    | .error _ => false) = true := by decide +kernel
  split at h
  · rename_i s' out he
    simp only [Bool.and_eq_true, decide_eq_true_eq] at h
    refine ⟨_, s', hr, by decide +kernel, ?_, h.2⟩
    rw [he, h.1]
  · cases h

end OraiV3
