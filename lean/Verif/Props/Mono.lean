import Verif.Lemmas.Mono
import Verif.Props.ExactOut
import Verif.Props.Swap

/-!
# C54: a larger trade and a smaller one

Two quotes from the same state, at the same time, in the same direction and with the same price limit.  The amounts are
`a ≤ b`.  (What a quote answers is what the swap does: `C11_swap_as_quoted` in `Props/Quote.lean`.)
-/

namespace OraiV3

theorem quote_more {c : Chain} {s : Store} {env : Env} {k : PoolKey} {d : Bool} {a b limit : Nat} {q q' : QuoteResult}
    (hr : Reach c s) (hk : k.wf) (hlow : d = true → SPR ≤ limit) (hab : a ≤ b)
    (h : queryQuote s env k d a true limit = .ok q) (h' : queryQuote s env k d b true limit = .ok q') :
    OutLe d q.amountOut q'.amountOut := by
  have hm := hr.mreach
  have hs := hm.struct
  unfold queryQuote at h h'
  simp only [bind_ok, pure_ok] at h h'
  obtain ⟨r, h1, rfl⟩ := h
  obtain ⟨r', h1', rfl⟩ := h'
  obtain ⟨pl, st, _, g2, _, g4, g5, _, rfl⟩ := calculateSwap_inv h1
  obtain ⟨pl', st', _, g2', _, _, g5', _, rfl⟩ := calculateSwap_inv h1'
  rw [g2, Option.some.injEq] at g2'
  subst g2'
  have hok : PoolOk k.tier.spacing pl := hm.price k pl hk g2
  have hl : if d then limit < pl.sqrtPrice else pl.sqrtPrice < limit := by
    cases d
    · simp only [Bool.false_eq_true, if_false] at g4 ⊢; exact g4.1
    · simp only [if_true] at g4 ⊢; exact g4.1
  exact loop_more (pr := ⟨k, d, true, limit, env.millis⟩) hs hm.bitInv hk (hs.tier hk g2) rfl hlow (hok.loop hl) hab g5 g5'

/-- **C54, selling X, a part that holds.** At prices of at least 1 (the limit is a square root price of at least `10^24`,
which stands for 1), whoever sells more X receives at least as much Y. -/
theorem C54_sell_x_partial {c : Chain} {s : Store} {env : Env} {k : PoolKey} {a b limit : Nat} {q q' : QuoteResult}
    (hr : Reach c s) (hk : k.wf) (hlow : 10 ^ 24 ≤ limit) (hab : a ≤ b)
    (h : queryQuote s env k true a true limit = .ok q) (h' : queryQuote s env k true b true limit = .ok q') :
    q.amountOut ≤ q'.amountOut := by
  have := quote_more hr hk (fun _ => hlow) hab h h'
  simpa [OutLe] using this

/-- **C54, selling Y, a part that holds.** At any price, whoever sells more Y receives at least as much X, up to one unit
and one part in `10^14`. -/
theorem C54_sell_y_partial {c : Chain} {s : Store} {env : Env} {k : PoolKey} {a b limit : Nat} {q q' : QuoteResult}
    (hr : Reach c s) (hk : k.wf) (hab : a ≤ b)
    (h : queryQuote s env k false a true limit = .ok q) (h' : queryQuote s env k false b true limit = .ok q') :
    q.amountOut * 10 ^ 14 < (q'.amountOut + 1) * 10 ^ 14 + q'.amountOut + 2 := by
  have := quote_more hr hk (by simp) hab h h'
  simpa only [OutLe, Bool.false_eq_true, if_false] using this

/-- In particular, for amounts below `10^14 - 2` at most one unit is lost. -/
theorem C54_sell_y_small_partial {c : Chain} {s : Store} {env : Env} {k : PoolKey} {a b limit : Nat} {q q' : QuoteResult}
    (hr : Reach c s) (hk : k.wf) (hab : a ≤ b)
    (h : queryQuote s env k false a true limit = .ok q) (h' : queryQuote s env k false b true limit = .ok q')
    (hsmall : q'.amountOut + 2 < 10 ^ 14) : q.amountOut ≤ q'.amountOut + 1 := by
  have := C54_sell_y_partial hr hk hab h h'
  omega

/-- **C54, buying Y, a part that holds.** At any price, whoever buys more Y pays at least as much X. -/
theorem C54_buy_y_partial {c : Chain} {s : Store} {env : Env} {k : PoolKey} {a b limit : Nat} {q q' : QuoteResult}
    (hr : Reach c s) (hk : k.wf) (hab : a ≤ b)
    (h : queryQuote s env k true a false limit = .ok q) (h' : queryQuote s env k true b false limit = .ok q') :
    q.amountIn ≤ q'.amountIn := by
  have hm := hr.mreach
  have hs := hm.struct
  unfold queryQuote at h h'
  simp only [bind_ok, pure_ok] at h h'
  obtain ⟨r, h1, rfl⟩ := h
  obtain ⟨r', h1', rfl⟩ := h'
  obtain ⟨pl, st, _, g2, _, g4, g5, _, rfl⟩ := calculateSwap_inv h1
  obtain ⟨pl', st', _, g2', _, _, g5', _, rfl⟩ := calculateSwap_inv h1'
  rw [g2, Option.some.injEq] at g2'
  subst g2'
  simp only [if_true] at g4
  have hok : PoolOk k.tier.spacing pl := hm.price k pl hk g2
  obtain ⟨w, w1, w2, _⟩ := loop_less (pr := ⟨k, true, false, limit, env.millis⟩) (A' := a) hs hm.bitInv hk (hs.tier hk g2) rfl rfl g5'
    (hok.loop (by simpa using g4.1)) (Nat.le_refl _) hab
  simp only at w1
  rw [g5, ok_inj] at w1
  subst w1
  exact w2

namespace Demo

/-- A pool above the price 1 with two ranges of liquidity; selling X crosses a tick. -/
def high : List (Info × Msg) :=
  [(by_ alice, .addFeeTier tier), (by_ alice, .createPool [97] [98] tier 1002224782724761692891903 40),
   (by_ alice, .createPosition key 30 150000 (10 ^ 12) 0 (10 ^ 30)),
   (by_ alice, .createPosition key 10 30 (10 ^ 13) 0 (10 ^ 30))]

end Demo

/-- Non-vacuity: two sales of X at prices above 1, the larger crosses a tick. -/
example : Demo.works Demo.chain Demo.high = true ∧ Demo.key.wf ∧ (10 : Nat) ^ 24 ≤ 10 ^ 24 ∧
    (queryQuote (Demo.state Demo.chain Demo.high) Demo.env Demo.key true 500 true (10 ^ 24)).toOption.map
      (fun q => (q.amountOut, q.ticks.length)) = some (496, 0) ∧
    (queryQuote (Demo.state Demo.chain Demo.high) Demo.env Demo.key true 5000 true (10 ^ 24)).toOption.map
      (fun q => (q.amountOut, q.ticks.length)) = some (4960, 1) := by
  decide +kernel

/-- Non-vacuity: two sales of Y and two purchases of Y. -/
example : (queryQuote (Demo.state Demo.chain Demo.setup) Demo.env Demo.key false 50 true MAX_SQRT_PRICE).isOk = true ∧
    (queryQuote (Demo.state Demo.chain Demo.setup) Demo.env Demo.key false 500 true MAX_SQRT_PRICE).isOk = true ∧
    (queryQuote (Demo.state Demo.chain Demo.setup) Demo.env Demo.key true 50 false MIN_SQRT_PRICE).isOk = true ∧
    (queryQuote (Demo.state Demo.chain Demo.setup) Demo.env Demo.key true 100 false MIN_SQRT_PRICE).isOk = true := by
  decide +kernel

namespace Demo

def thin100 : List (Info × Msg) :=
  [(by_ alice, .addFeeTier tier100), (by_ alice, .createPool [97] [98] tier100 1002756478538422400077942 0),
   (by_ alice, .createPosition key100 (-1000) 150000 6073490 0 (10 ^ 30))]

def lowY : List (Info × Msg) :=
  [(by_ alice, .addFeeTier tier100),
   (by_ alice, .createPool [97] [98] tier100 45536469000123456789 (-200000)),
   (by_ alice, .createPosition key100 (-200000) (-199900) (10 ^ 30) 0 (10 ^ 30))]

def tierLow : FeeTier := ⟨1, 100⟩
def keyLow : PoolKey := ⟨[97], [98], tierLow⟩

def lowX : List (Info × Msg) :=
  [(by_ alice, .addFeeTier tierLow),
   (by_ alice, .createPool [97] [98] tierLow 45536469000123456789 (-200000)),
   (by_ alice, .createPosition keyLow (-200000) (-199900) (10 ^ 34) 0 (10 ^ 30))]

end Demo

/-- **C54 is false when buying X.** In a thin pool one unit of X costs 17 Y, two units cost 5 Y. -/
theorem C54_false_buy_x : ∃ (c : Chain) (s : Store) (env : Env) (k : PoolKey), Reach c s ∧ k.wf ∧
    (queryQuote s env k false 1 false MAX_SQRT_PRICE).toOption.map (fun q => (q.amountIn, q.amountOut)) = some (17, 1) ∧
    (queryQuote s env k false 2 false MAX_SQRT_PRICE).toOption.map (fun q => (q.amountIn, q.amountOut)) = some (5, 2) := by
  refine ⟨Demo.chain, Demo.state Demo.chain Demo.thin100, Demo.env, Demo.key100, Demo.state_reach (by decide +kernel), ?_⟩
  decide +kernel

/-- **C54 is false when selling Y.** At a low price one more unit of Y buys 10436185647 units of X less. -/
theorem C54_false_sell_y : ∃ (c : Chain) (s : Store) (env : Env) (k : PoolKey), Reach c s ∧ k.wf ∧
    (queryQuote s env k false 47516019863148290 true MAX_SQRT_PRICE).toOption.map (fun q => (q.amountIn, q.amountOut)) =
      some (47516019863148290, 22662516653978964654620808) ∧
    (queryQuote s env k false 47516019863148291 true MAX_SQRT_PRICE).toOption.map (fun q => (q.amountIn, q.amountOut)) =
      some (47516019863148291, 22662516653978954218435161) := by
  refine ⟨Demo.chain, Demo.state Demo.chain Demo.lowY, Demo.env, Demo.key100, Demo.state_reach (by decide +kernel), ?_⟩
  decide +kernel

/-- **C54 is false when selling X below the price 1.** One more unit of X buys 400000 units of Y less. -/
theorem C54_false_sell_x : ∃ (c : Chain) (s : Store) (env : Env) (k : PoolKey), Reach c s ∧ k.wf ∧
    (queryQuote s env k true 550356558365228858793527955475 true MIN_SQRT_PRICE).toOption.map (fun q => (q.amountIn, q.amountOut)) =
      some (550356558365228858793527955475, 1138350001234568290000) ∧
    (queryQuote s env k true 550356558365228858793527955476 true MIN_SQRT_PRICE).toOption.map (fun q => (q.amountIn, q.amountOut)) =
      some (550356558365228858793527955476, 1138350001234567890000) := by
  refine ⟨Demo.chain, Demo.state Demo.chain Demo.lowX, Demo.env, Demo.keyLow, Demo.state_reach (by decide +kernel), ?_⟩
  decide +kernel

end OraiV3
