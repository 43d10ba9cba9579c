import Verif.Lemmas.Limit
import Verif.Lemmas.PoolEvo
import Verif.Query
import Verif.Props.Swap

/-!
# C93: the price limit is only a guard
-/

namespace OraiV3

/-- If a swap succeeds and leaves the pool at a price strictly inside its limit, then in the same state the same swap with any
looser limit succeeds too, moves exactly the same tokens and leaves exactly the same storage.

Full statement, false by `C93_looser_limit_false`: without the hypothesis `hx`, that is, for exact-output swaps from Y to X too. -/
theorem C93_looser_limit_partial {c : Chain} {s s' : Store} {env : Env} {info : Info} {k : PoolKey} {d b : Bool} {amount l l' : Nat}
    {out : List OutMsg} {p' : Pool} (hr : Reach c s) (hx : b = true ∨ d = true)
    (h : execute c env info (.swap k d amount b l) s = .ok (s', out)) (hp : s'.pools.get? k.key = some p')
    (hin : if d then l < p'.sqrtPrice else p'.sqrtPrice < l)
    (hl : if d then l' ≤ l else l ≤ l' ∧ l' < 2 ^ 128) :
    execute c env info (.swap k d amount b l') s = .ok (s', out) := by
  rw [execute_ok] at h ⊢
  obtain ⟨⟨w1, w2, w3⟩, h⟩ := h
  have hU : U128 = 2 ^ 128 := rfl
  have hl2 : (if d then l' ≤ l else l ≤ l') ∧ l' < U128 := by
    cases d
    · simp only [Bool.false_eq_true, if_false] at hl ⊢; omega
    · simp only [if_true] at hl ⊢; omega
  refine ⟨⟨w1, w2, hl2.2⟩, ?_⟩
  unfold dispatch swap at h ⊢
  dsimp only at h ⊢
  obtain ⟨x, h1, h2⟩ := bind_ok.1 h
  rw [pure_ok, Prod.mk.injEq] at h2
  obtain ⟨g1, g2⟩ := h2
  obtain ⟨s1, m1, e1, e2, e3, e4, e5⟩ := swapInternal_inv h1
  have hm := hr.mreach
  obtain ⟨pool, _, _, hpool, _⟩ := calculateSwap_inv e1
  rw [← g1, e3] at hp
  have hp' : x.2.2.pool = p' := by simpa [savePool, KV.get?_insert] using hp
  have e1' := swap_looser hm.struct hm.bitInv w1 hpool (hm.price k pool w1 hpool) hx hl2.1 e1 (by rw [hp']; exact hin)
  unfold swapInternal at h1 ⊢
  rw [e1, ok_bind] at h1
  rw [e1', ok_bind, h1, ok_bind, g1, g2]
  rfl

/-- The same for quotes. -/
theorem C93_looser_quote_partial {c : Chain} {s : Store} {env : Env} {k : PoolKey} {d b : Bool} {amount l l' : Nat} {q : QuoteResult}
    (hr : Reach c s) (hk : k.wf) (hx : b = true ∨ d = true) (h : queryQuote s env k d amount b l = .ok q)
    (hin : if d then l < q.targetPrice else q.targetPrice < l) (hl : if d then l' ≤ l else l ≤ l') :
    queryQuote s env k d amount b l' = .ok q := by
  unfold queryQuote at h ⊢
  obtain ⟨x, h1, h2⟩ := bind_ok.1 h
  rw [pure_ok] at h2
  have hm := hr.mreach
  obtain ⟨pool, _, _, hpool, _⟩ := calculateSwap_inv h1
  rw [swap_looser hm.struct hm.bitInv hk hpool (hm.price k pool hk hpool) hx hl h1 (by rw [← h2] at hin; exact hin), ok_bind, ← h2]
  rfl

namespace Demo

/-- The pool of `lowPrice` with more liquidity. -/
def lowDeep : List (Info × Msg) :=
  [(by_ alice, .addFeeTier tier100),
   (by_ alice, .createPool [97] [98] tier100 45536469000123456789 (-200000)),
   (by_ alice, .createPosition key100 (-200000) (-199900) (10 ^ 26) 0 (10 ^ 30))]

/-- Bob buys about 2408.66 * 10^18 units of token X. -/
def buyExact (limit : Nat) : Msg := .swap key100 false 2408655552924997200000 false limit

end Demo

/-- A looser limit can make a swap fail.  Here a purchase of an exact amount of X succeeds and ends 8 units short of its limit,
and with a limit one unit higher it fails, reporting that the price limit was reached.  The cause is that `get_delta_x` divides by a
product rounded up: one unit more of price makes the computed amount available up to the limit smaller. -/
theorem C93_looser_limit_false :
    ∃ (s s' : Store) (out : List OutMsg) (p' : Pool), Reach Demo.chain s ∧
      execute Demo.chain Demo.env (Demo.by_ Demo.bob) (Demo.buyExact 45586469000123462381) s = .ok (s', out) ∧
      s'.pools.get? Demo.key100.key = some p' ∧ p'.sqrtPrice < 45586469000123462381 ∧
      execute Demo.chain Demo.env (Demo.by_ Demo.bob) (Demo.buyExact 45586469000123462382) s = .error .priceLimitReached := by
  have hw : Demo.works Demo.chain Demo.lowDeep = true := by decide +kernel
  have hq : (match execute Demo.chain Demo.env (Demo.by_ Demo.bob) (Demo.buyExact 45586469000123462381)
        (Demo.state Demo.chain Demo.lowDeep) with
      | .ok r => (match r.1.pools.get? Demo.key100.key with
        | some p' => decide (p'.sqrtPrice < 45586469000123462381) | none => false)
      | .error _ => false) = true := by decide +kernel
  have he : (match execute Demo.chain Demo.env (Demo.by_ Demo.bob) (Demo.buyExact 45586469000123462382)
        (Demo.state Demo.chain Demo.lowDeep) with
      | .ok _ => false
      | .error e => decide (e = .priceLimitReached)) = true := by decide +kernel
  split at hq
  · rename_i r h1
    split at hq
    · rename_i p' h2
      split at he
      · simp at he
      · rename_i e h3
        refine ⟨_, r.1, r.2, p', Demo.state_reach hw, h1, h2, by simpa using hq, ?_⟩
        rw [h3]
        simpa using he
    · simp at hq
  · simp at hq

/-- The hypotheses of `C93_looser_limit_partial` and `C93_looser_quote_partial` are met in each of the three modes: in the pool of the
counterexample a sale of X, a sale of X for an exact amount of Y and a purchase of X end strictly inside their limits. -/
example :
    let s := Demo.state Demo.chain Demo.lowDeep
    Demo.works Demo.chain Demo.lowDeep = true ∧
    ((queryQuote s Demo.env Demo.key100 true (10 ^ 20) true 45530000000000000000).toOption.map fun q =>
      decide (45530000000000000000 < q.targetPrice ∧ 0 < q.amountOut)) = some true ∧
    ((queryQuote s Demo.env Demo.key100 true (10 ^ 9) false 45530000000000000000).toOption.map fun q =>
      decide (45530000000000000000 < q.targetPrice ∧ q.amountOut = 10 ^ 9)) = some true ∧
    ((queryQuote s Demo.env Demo.key100 false (10 ^ 9) true 45550000000000000000).toOption.map fun q =>
      decide (q.targetPrice < 45550000000000000000 ∧ 0 < q.amountOut)) = some true ∧
    ((execute Demo.chain Demo.env (Demo.by_ Demo.bob) (.swap Demo.key100 true (10 ^ 20) true 45530000000000000000) s).toOption.map
      fun r => (r.1.pools.get? Demo.key100.key).map fun p => decide (45530000000000000000 < p.sqrtPrice)) = some (some true) := by
  decide +kernel

namespace Demo
/-- Two overlapping deposits. -/
def twoRanges : List (Info × Msg) :=
  [(by_ alice, .addFeeTier tier), (by_ alice, .createPool [97] [98] tier (10 ^ 24) 0),
   (by_ alice, .createPosition key (-10) 10 (10 ^ 15) 0 (10 ^ 30)), (by_ alice, .createPosition key (-20) 20 (10 ^ 15) 0 (10 ^ 30))]
end Demo

/-- And by a swap that crosses the tick at -10 and ends between it and its limit, the price of tick -18. -/
example :
    let s := Demo.state Demo.chain Demo.twoRanges
    Demo.works Demo.chain Demo.twoRanges = true ∧
    ((execute Demo.chain Demo.env (Demo.by_ Demo.bob) (.swap Demo.key true 1200000 true (sqrtPriceAt (-18))) s).toOption.map
      fun r => (r.1.pools.get? Demo.key.key).map fun p =>
        decide (sqrtPriceAt (-18) < p.sqrtPrice ∧ p.sqrtPrice < sqrtPriceAt (-10) ∧ p.liquidity = 10 ^ 15)) = some (some true) := by
  decide +kernel

end OraiV3
