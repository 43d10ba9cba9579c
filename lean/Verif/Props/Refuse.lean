import Verif.Lemmas.Refuse
import Verif.Props.Quote

/-!
# C65: why an exact-input swap is refused
-/

namespace OraiV3

/-! ## C65: exact-input swaps are refused only for a stated reason -/

/-- Outside the cases below, an exact-input quote is refused only because the amount is zero, the price limit
is on the wrong side, the limit is reached before the amount is used up, the liquidity runs out before it is
used up, or nothing would be paid out.

The side conditions: the protocol fee is at most 100 %, the fee of the pool at most 99.99 %, the protocol's
unclaimed fee and the amount together fit into 128 bits, the block time is not before the creation of the pool, and
the amount is at most 10^38.

What is missing.  Buying X needs two more conditions: the amount is at most 10^29, and in every range from the
current tick upwards that has liquidity at all, the amount is at most 3·10^8 times that liquidity
(`C65_dust_false` shows that the condition is needed).  Selling X has three more ways to fail: input and fee of
a step exceed what is left (`.sub`, `C65_odd_amount_false`), a step passes the lowest price
(`.sqrtPriceOutOfRange`), and, in pools without a fee, input exceeds what is left (`.panic`). -/
theorem C65_refusals_partial {c : Chain} {s : Store} (hs : Reach c s) {k : PoolKey} (hdr : drift s k = 0) (hk : k.wf) {p : Pool}
    (hp : s.pools.get? k.key = some p) {cfg : Config} (hc : s.config = some cfg) {env : Env} {d : Bool} {amount limit : Nat} {e : Err}
    (h1 : cfg.protocolFee ≤ 10 ^ 12) (h2 : k.tier.fee + 10 ^ 8 ≤ 10 ^ 12)
    (h3 : (if d then p.protoX else p.protoY) + amount < 2 ^ 128) (h4 : p.startTs ≤ env.millis) (h5 : amount ≤ 10 ^ 38)
    (h6 : d = false → amount ≤ 10 ^ 29 ∧
      ∀ t, p.tick ≤ t → liquidityInRange s k t = 0 ∨ amount ≤ 3 * 10 ^ 8 * liquidityInRange s k t)
    (h : queryQuote s env k d amount true limit = .error e) :
    e = .amountIsZero ∨ e = .wrongLimit ∨ e = .priceLimitReached ∨ e = .tickLimitReached ∨ e = .noGainSwap ∨
      (d = true ∧ (e = .sub ∨ e = .sqrtPriceOutOfRange ∨ (e = .panic ∧ k.tier.fee = 0))) := by
  have hf : SwapFits s k p d amount env.millis := by
    refine ⟨fun cfg' h' => ?_, h2, h3, h4, h5, h6⟩
    rw [hc, Option.some.injEq] at h'
    subst h'
    exact h1
  have hq : Ends (fun e => e = .amountIsZero ∨ e = .wrongLimit ∨ e = .noGainSwap ∨ Refusal d k.tier.fee e)
      (queryQuote s env k d amount true limit) := by
    unfold queryQuote
    exact Ends.bind (calculateSwap_ends hs hdr hk hp hf) fun _ _ => .ok
  rcases hq e h with h | h | h | h | h | h
  · exact .inl h
  · exact .inr (.inl h)
  · exact .inr (.inr (.inr (.inr (.inl h))))
  · exact .inr (.inr (.inl h))
  · exact .inr (.inr (.inr (.inl h)))
  · exact .inr (.inr (.inr (.inr (.inr h))))

/-- The same for the swap itself, which can also be refused because the caller attached too little. -/
theorem C65_swap_partial {c : Chain} {s : Store} (hs : Reach c s) {k : PoolKey} (hdr : drift s k = 0) {p : Pool}
    (hp : s.pools.get? k.key = some p) {cfg : Config} (hc : s.config = some cfg) {env : Env} {info : Info} {d : Bool}
    {amount limit : Nat} {e : Err} (hw : (Msg.swap k d amount true limit).wf) (hk : k.wf)
    (h1 : cfg.protocolFee ≤ 10 ^ 12) (h2 : k.tier.fee + 10 ^ 8 ≤ 10 ^ 12)
    (h3 : (if d then p.protoX else p.protoY) + amount < 2 ^ 128) (h4 : p.startTs ≤ env.millis) (h5 : amount ≤ 10 ^ 38)
    (h6 : d = false → amount ≤ 10 ^ 29 ∧
      ∀ t, p.tick ≤ t → liquidityInRange s k t = 0 ∨ amount ≤ 3 * 10 ^ 8 * liquidityInRange s k t)
    (h : execute c env info (.swap k d amount true limit) s = .error e) :
    e = .amountIsZero ∨ e = .wrongLimit ∨ e = .priceLimitReached ∨ e = .tickLimitReached ∨ e = .noGainSwap ∨
      (d = true ∧ (e = .sub ∨ e = .sqrtPriceOutOfRange ∨ (e = .panic ∧ k.tier.fee = 0))) ∨
      (e = .invalidFunds ∧ c.isAddr (tokenIn k d) = false ∧ ∃ q, queryQuote s env k d amount true limit = .ok q) := by
  obtain ⟨a1, a2⟩ := C11_quote_as_swapped (c := c) hs (env := env) (info := info) hw
  cases hq : queryQuote s env k d amount true limit with
  | error e' =>
    rw [a1 e' hq] at h
    cases h
    rcases C65_refusals_partial hs hdr hk hp hc h1 h2 h3 h4 h5 h6 hq with h | h | h | h | h | h
    · exact .inl h
    · exact .inr (.inl h)
    · exact .inr (.inr (.inl h))
    · exact .inr (.inr (.inr (.inl h)))
    · exact .inr (.inr (.inr (.inr (.inl h))))
    · exact .inr (.inr (.inr (.inr (.inr (.inl h)))))
  | ok q =>
    rcases a2 q hq with ⟨b1, b2, -⟩ | ⟨s', charge, b1, -⟩
    · rw [b2] at h
      cases h
      exact .inr (.inr (.inr (.inr (.inr (.inr ⟨rfl, b1, q, rfl⟩)))))
    · rw [b1] at h
      cases h

/-- The condition on thin ranges holds when it holds of every position of the pool. -/
theorem thin_of_positions {s : Store} {k : PoolKey} {m : Nat} (h : ∀ q ∈ positionsOf s k, m ≤ 3 * 10 ^ 8 * q.liquidity) (t : Int) :
    liquidityInRange s k t = 0 ∨ m ≤ 3 * 10 ^ 8 * liquidityInRange s k t := by
  unfold liquidityInRange sumPositions
  revert h
  induction positionsOf s k with
  | nil => intro _; left; rfl
  | cons q l ih =>
    intro h
    have h0 := h q (List.mem_cons_self ..)
    have h1 := ih fun q' hq' => h q' (List.mem_cons_of_mem _ hq')
    simp only [List.map_cons, List.sum_cons]
    generalize (List.map (fun p : Position => if p.lower ≤ t ∧ t < p.upper then p.liquidity else 0) l).sum = S at *
    split
    · right; omega
    · omega

namespace Demo

/-- Liquidity up to tick 10 and from tick 50 on, none in between. -/
def gap : List (Info × Msg) := setup ++ [(by_ bob, .createPosition key 50 1000 (10 ^ 18) 0 (10 ^ 30))]

/-- A position of the smallest size in the gap. -/
def dust : Msg := .createPosition key 20 30 1 0 (10 ^ 30)

/-- A pool whose next tick below is reached by 990 units of X. -/
def odd : List (Info × Msg) :=
  [(by_ alice, .addFeeTier tier),
   (by_ alice, .createPool [97] [98] tier 1000253065118935241139610 0),
   (by_ alice, .createPosition key (-10) 10 1314564532976 0 (10 ^ 30)),
   (by_ bob, .createPosition key (-1000) (-10) (10 ^ 15) 0 (10 ^ 30))]

end Demo

/-- A purchase that meets the conditions of `C65_refusals_partial`, over a gap, and is accepted. -/
example : ∃ p cfg, RegularReach Demo.chain (fun _ => True) (Demo.state Demo.chain Demo.gap) ∧ Demo.key.wf ∧
    (Demo.state Demo.chain Demo.gap).pools.get? Demo.key.key = some p ∧ (Demo.state Demo.chain Demo.gap).config = some cfg ∧
    cfg.protocolFee ≤ 10 ^ 12 ∧ Demo.key.tier.fee + 10 ^ 8 ≤ 10 ^ 12 ∧ p.protoY + 10 ^ 9 < 2 ^ 128 ∧ p.startTs ≤ Demo.env.millis ∧
    (∀ t, p.tick ≤ t → liquidityInRange (Demo.state Demo.chain Demo.gap) Demo.key t = 0 ∨
      10 ^ 9 ≤ 3 * 10 ^ 8 * liquidityInRange (Demo.state Demo.chain Demo.gap) Demo.key t) ∧
    ((queryQuote (Demo.state Demo.chain Demo.gap) Demo.env Demo.key false (10 ^ 9) true MAX_SQRT_PRICE).toOption.map
      (fun q => (q.amountIn, q.amountOut))) = some (10 ^ 9, 984090783) ∧
    errorOf (queryQuote (Demo.state Demo.chain Demo.gap) Demo.env Demo.key false (10 ^ 9) true (10 ^ 24 + 1)) = some .priceLimitReached := by
  have hr : RegularReach Demo.chain (fun _ => True) (Demo.state Demo.chain Demo.gap) := Demo.state_regular (by decide +kernel) (by decide +kernel)
  have h1 : (match (Demo.state Demo.chain Demo.gap).pools.get? Demo.key.key, (Demo.state Demo.chain Demo.gap).config with
    | some p, some cfg => decide (cfg.protocolFee ≤ 10 ^ 12 ∧ p.protoY + 10 ^ 9 < 2 ^ 128 ∧ p.startTs ≤ Demo.env.millis)
    | _, _ => false) = true := by decide +kernel
  have h2 : ((positionsOf (Demo.state Demo.chain Demo.gap) Demo.key).all
    (fun q => decide (10 ^ 9 ≤ 3 * 10 ^ 8 * q.liquidity))) = true := by decide +kernel
  split at h1
  · rename_i p cfg e1 e2
    simp only [decide_eq_true_eq] at h1
    refine ⟨p, cfg, hr, by decide, e1, e2, h1.1, by decide, h1.2.1, h1.2.2, fun t _ => ?_, by decide +kernel, by decide +kernel⟩
    exact thin_of_positions (fun q hq => by simpa using List.all_eq_true.1 h2 q hq) t
  · cases h1

/-- A deposit of one unit of X blocks a purchase.  Where the pool has a gap in its liquidity, Carol opens
a position of liquidity 0.000001 in the gap, which costs one unit of X.  A purchase of X for 10^9 units of Y
was possible before and fails with a conversion error afterwards. -/
theorem C65_dust_false : ∃ s s', RegularReach Demo.chain (fun _ => True) s ∧
    (queryQuote s Demo.env Demo.key false (10 ^ 9) true MAX_SQRT_PRICE).isOk = true ∧
    execute Demo.chain Demo.env (Demo.by_ Demo.carol) Demo.dust s =
      .ok (s', [.cw20TransferFrom Demo.key.tokenX Demo.carol Demo.chain.self 1]) ∧
    errorOf (queryQuote s' Demo.env Demo.key false (10 ^ 9) true MAX_SQRT_PRICE) = some .cast := by
  have hr : RegularReach Demo.chain (fun _ => True) (Demo.state Demo.chain Demo.gap) := Demo.state_regular (by decide +kernel) (by decide +kernel)
  have h : (match execute Demo.chain Demo.env (Demo.by_ Demo.carol) Demo.dust (Demo.state Demo.chain Demo.gap) with
    | .ok (s', out) => decide (out = [.cw20TransferFrom Demo.key.tokenX Demo.carol Demo.chain.self 1]) &&
        decide (errorOf (queryQuote s' Demo.env Demo.key false (10 ^ 9) true MAX_SQRT_PRICE) = some .cast)
    | .error _ => false) = true := by decide +kernel
  split at h
  · rename_i s' out he
    simp only [Bool.and_eq_true, decide_eq_true_eq] at h
    refine ⟨_, s', hr, by decide +kernel, ?_, h.2⟩
    rw [he, h.1]
  · cases h

/-- One amount is refused although one unit less and one unit more are accepted. -/
theorem C65_odd_amount_false : ∃ s, RegularReach Demo.chain (fun _ => True) s ∧
    (queryQuote s Demo.env Demo.key true 999 true MIN_SQRT_PRICE).isOk = true ∧
    errorOf (queryQuote s Demo.env Demo.key true 1000 true MIN_SQRT_PRICE) = some .sub ∧
    (queryQuote s Demo.env Demo.key true 1001 true MIN_SQRT_PRICE).isOk = true :=
  ⟨Demo.state Demo.chain Demo.odd, Demo.state_regular (by decide +kernel) (by decide +kernel), by decide +kernel,
    by decide +kernel, by decide +kernel⟩

end OraiV3
