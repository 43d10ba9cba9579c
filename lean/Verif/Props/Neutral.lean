import Verif.Lemmas.NeutralExec
import Verif.Query
import Verif.Examples

/-!
# C92: the protocol fee is not paid by traders
-/

namespace OraiV3

/-- Make the same calls in the same blocks on two exchanges that differ in the protocol fee they start with and in the
protocol fees that are set on the way.  If the same calls succeed on both, then all pools end at the same prices with the same
liquidity, ticks and positions, and every call that succeeded moved the same tokens on both, unless it pays out earned fees. -/
theorem C92_same_trades (c : Chain) (sender : Bytes) (fee fee' : Nat) (calls calls' : List (Env × Info × Msg))
    (hc : List.Forall₂ (fun a b => a.1 = b.1 ∧ a.2.1 = b.2.1 ∧ a.2.2.SameButRate b.2.2) calls calls')
    (hok : (runCalls c calls (instantiate sender fee)).2.map Except.isOk = (runCalls c calls' (instantiate sender fee')).2.map Except.isOk) :
    SameButFees (runCalls c calls (instantiate sender fee)).1 (runCalls c calls' (instantiate sender fee')).1 ∧
    ∀ (i : Nat) (call : Env × Info × Msg) (out : List OutMsg), calls[i]? = some call → call.2.2.paysFees = false →
      (runCalls c calls (instantiate sender fee)).2[i]? = some (.ok out) →
      (runCalls c calls' (instantiate sender fee')).2[i]? = some (.ok out) := by
  have h0 : SameButFees (instantiate sender fee) (instantiate sender fee') :=
    ⟨rfl, fun _ => rfl, fun _ => rfl, fun _ => rfl, rfl, rfl, rfl⟩
  revert h0 hok
  generalize instantiate sender fee = s
  generalize instantiate sender fee' = s'
  induction hc generalizing s s' with
  | nil => exact fun _ h => ⟨h, fun i call out hi => by simp at hi⟩
  | @cons a b l l' hab _ ih =>
    intro hok h
    obtain ⟨env, info, msg⟩ := a
    obtain ⟨env', info', msg'⟩ := b
    obtain ⟨he, hi, hm⟩ := hab
    obtain rfl : env = env' := he
    obtain rfl : info = info' := hi
    cases h1 : execute c env info msg s with
    | error e =>
      cases h2 : execute c env info msg' s' with
      | error e' =>
        rw [runCalls, h1, runCalls, h2] at hok ⊢
        simp only [List.map_cons, List.cons.injEq] at hok
        obtain ⟨g1, g2⟩ := ih s s' hok.2 h
        refine ⟨g1, fun i call out hi hp ho => ?_⟩
        cases i with
        | zero => simp at ho
        | succ i => exact g2 i call out (by simpa using hi) hp (by simpa using ho)
      | ok r' =>
        rw [runCalls, h1, runCalls, h2] at hok
        simp [Except.isOk, Except.toBool] at hok
    | ok r =>
      cases h2 : execute c env info msg' s' with
      | error e' =>
        rw [runCalls, h1, runCalls, h2] at hok
        simp [Except.isOk, Except.toBool] at hok
      | ok r' =>
        obtain ⟨k1, k2⟩ := h.execute c env info hm r r' h1 h2
        rw [runCalls, h1, runCalls, h2] at hok ⊢
        simp only [List.map_cons, List.cons.injEq] at hok
        obtain ⟨g1, g2⟩ := ih r.1 r'.1 hok.2 k1
        refine ⟨g1, fun i call out hi hp ho => ?_⟩
        cases i with
        | zero =>
          simp only [List.getElem?_cons_zero, Option.some.injEq] at hi ho ⊢
          subst hi
          rw [ok_inj] at ho
          rw [k2 hp, ho]
        | succ i => exact g2 i call out (by simpa using hi) hp (by simpa using ho)

/-- Changing the protocol fee does not change what the next swap takes and gives. -/
theorem C92_next_swap {c : Chain} {s s1 sa sb : Store} {env env' : Env} {info info' : Info} {fee : Nat} {o outA outB : List OutMsg}
    {k : PoolKey} {d b : Bool} {amount lim : Nat} (hf : execute c env info (.changeProtocolFee fee) s = .ok (s1, o))
    (ha : execute c env' info' (.swap k d amount b lim) s = .ok (sa, outA))
    (hb : execute c env' info' (.swap k d amount b lim) s1 = .ok (sb, outB)) : outB = outA ∧ SameButFees sa sb := by
  have h1 : SameButFees s s1 := by
    unfold execute at hf
    split at hf
    · unfold dispatch changeProtocolFee at hf
      obtain ⟨cfg, h1, h2⟩ := bind_ok.1 hf
      obtain ⟨-, h2⟩ := ite_error_ok.1 h2
      rw [pure_ok, Prod.mk.injEq] at h2
      obtain ⟨rfl, -⟩ := h2
      unfold loadConfig at h1
      refine ⟨?_, fun _ => rfl, fun _ => rfl, fun _ => rfl, rfl, rfl, rfl⟩
      cases e : s.config with
      | none => rw [e] at h1; cases h1
      | some x => rw [e] at h1; cases h1; rfl
    · cases hf
  obtain ⟨g1, g2⟩ := h1.execute c env' info' (msg := .swap k d amount b lim) (msg' := .swap k d amount b lim) rfl _ _ ha hb
  exact ⟨g2 rfl, g1⟩

/-- Quotes do not depend on the protocol fee or on the fees earned so far. -/
theorem C92_quote {s s' : Store} (h : SameButFees s s') {env : Env} {k : PoolKey} {d b : Bool} {amount lim : Nat} {r r' : QuoteResult}
    (hr : queryQuote s env k d amount b lim = .ok r) (hr' : queryQuote s' env k d amount b lim = .ok r') :
    r'.amountIn = r.amountIn ∧ r'.amountOut = r.amountOut ∧ r'.targetPrice = r.targetPrice ∧
    r'.ticks.map Tick.feeless = r.ticks.map Tick.feeless := by
  unfold queryQuote at hr hr'
  obtain ⟨x, h1, h2⟩ := bind_ok.1 hr
  obtain ⟨x', h1', h2'⟩ := bind_ok.1 hr'
  have hx := h.calculateSwap _ _ _ _ _ _ _ _ h1 h1'
  rw [pure_ok] at h2 h2'
  subst h2; subst h2'
  refine ⟨hx.amountIn, hx.amountOut, hx.pool.price, ?_⟩
  have key : ∀ {l l' : List Tick}, List.Forall₂ TF l l' → l'.map Tick.feeless = l.map Tick.feeless := by
    intro l l' h
    induction h with
    | nil => rfl
    | cons a _ ih => rw [List.map_cons, List.map_cons, ih, show Tick.feeless _ = Tick.feeless _ from a]
  exact key hx.ticks

/-- Nor do quotes of routes. -/
theorem C92_quote_route {s s' : Store} (h : SameButFees s s') {env : Env} {hops : List Hop} {amount r r' : Nat}
    (hr : queryQuoteRoute s env amount hops = .ok r) (hr' : queryQuoteRoute s' env amount hops = .ok r') : r' = r :=
  h.route env.millis hops amount r r' hr hr'

namespace Demo
/-- A pool, a deposit, a swap, a change of the protocol fee, a second deposit, a swap back, a claim and a withdrawal. -/
def rateCalls (fee : Nat) : List (Env × Info × Msg) :=
  [(env, by_ alice, .addFeeTier tier), (env, by_ alice, .createPool [97] [98] tier (10 ^ 24) 0),
   (env, by_ alice, .createPosition key (-10) 10 (10 ^ 15) 0 (10 ^ 30)), (env, by_ bob, .swap key true 100000 true MIN_SQRT_PRICE),
   (env, by_ alice, .changeProtocolFee fee), (env, by_ carol, .createPosition key (-20) 20 (10 ^ 15) 0 (10 ^ 30)),
   (env, by_ bob, .swap key false 50000 false MAX_SQRT_PRICE), (env, by_ alice, .claimFee 0), (env, by_ alice, .withdrawProtocolFee key)]
end Demo

/-- All calls succeed at 1 percent and then 0, and at 50 percent and then 90; the swaps move the same tokens, the claims and the
withdrawals do not, and the provider's and the protocol's shares of the fees differ. -/
example :
    let a := runCalls Demo.chain (Demo.rateCalls 0) (instantiate Demo.alice (10 ^ 10))
    let b := runCalls Demo.chain (Demo.rateCalls (9 * 10 ^ 11)) (instantiate Demo.alice (5 * 10 ^ 11))
    a.2.map Except.isOk = List.replicate 9 true ∧ b.2.map Except.isOk = List.replicate 9 true ∧
    (a.2[6]?.bind Except.toOption).map List.length = some 2 ∧
    a.2[6]?.bind Except.toOption = b.2[6]?.bind Except.toOption ∧ a.2[7]?.bind Except.toOption ≠ b.2[7]?.bind Except.toOption ∧
    a.2[8]?.bind Except.toOption ≠ b.2[8]?.bind Except.toOption ∧ a.1.pools.get? Demo.key.key ≠ b.1.pools.get? Demo.key.key ∧
    (a.1.pools.get? Demo.key.key).map Pool.feeless = (b.1.pools.get? Demo.key.key).map Pool.feeless := by decide +kernel

example : List.Forall₂ (fun a b => a.1 = b.1 ∧ a.2.1 = b.2.1 ∧ a.2.2.SameButRate b.2.2) (Demo.rateCalls 0) (Demo.rateCalls (9 * 10 ^ 11)) := by
  unfold Demo.rateCalls
  repeat' constructor

/-- A rate above 100 percent, which the administrator may set, does not change what swaps give: it stops them. -/
example :
    let a := runCalls Demo.chain (Demo.rateCalls 0) (instantiate Demo.alice (10 ^ 10))
    let b := runCalls Demo.chain (Demo.rateCalls (2 * 10 ^ 12)) (instantiate Demo.alice (10 ^ 10))
    (a.2[6]?.map Except.isOk) = some true ∧ (b.2[6]?.map Except.isOk) = some false := by decide +kernel

/-- Quotes before and after a change of the rate from 1 to 90 percent. -/
example :
    let a := (runCalls Demo.chain ((Demo.rateCalls 0).take 4) (instantiate Demo.alice (10 ^ 10))).1
    let b := (runCalls Demo.chain ((Demo.rateCalls (9 * 10 ^ 11)).take 5) (instantiate Demo.alice (10 ^ 10))).1
    (queryQuote a Demo.env Demo.key true 1000 true MIN_SQRT_PRICE).toOption.map (·.amountOut) = some 989 ∧
    (queryQuote b Demo.env Demo.key true 1000 true MIN_SQRT_PRICE).toOption.map (·.amountOut) = some 989 ∧
    a.config ≠ b.config := by decide +kernel

end OraiV3
