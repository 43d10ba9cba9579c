import Verif.Lemmas.Route
import Verif.WorldExamples
import Verif.Props.Funds

/-!
# C79: a route does what its hops do one by one

`C79_hops` is about the contract: which routes are accepted, the state they lead to and the messages they send.
`C79_transactions` is about balances as well; it supposes that no coins are attached, since coins attached to a route are
handed over once but counted by every hop (`C29_false`, `C29_route_law`).
-/

namespace OraiV3

open Demo

/-- A route is accepted if and only if its fields fit their types, each hop is accepted as a swap of its own (for the output of
the hop before, with the loosest price limit), the slippage is at most 100 % and the last output is at least the expected
amount less the slippage.  It then leads to the same state and sends the same messages, in the same order. -/
theorem C79_hops {c : Chain} {env : Env} {info : Info} {s s' : Store} {a e sl : Nat} {hops : List Hop} {ms : List OutMsg} :
    execute c env info (.swapRoute a e sl hops) s = .ok (s', ms) ↔
      (a < U128 ∧ e < U128 ∧ sl < U64 ∧ ∀ h ∈ hops, h.poolKey.wf) ∧
        ∃ out, HopByHop c env info hops s a s' out ms ∧ sl ≤ 10 ^ 12 ∧ e * (10 ^ 12 - sl) ≤ out * 10 ^ 12 := by
  rw [execute_ok]
  refine and_congr_right fun hw => ?_
  show swapRoute c s env info a e sl hops = _ ↔ _
  constructor
  · intro h
    obtain ⟨out, m, h1, h2, h3⟩ := swapRoute_inv h
    obtain ⟨ms', h4, h5⟩ := (hops_iff hops s a [] s' out ms hw.2.2.2 hw.1).1 h1
    rw [List.nil_append] at h5
    subst h5
    exact ⟨out, h4, (minOut_iff hw.2.1).1 ⟨m, h2, h3⟩⟩
  · rintro ⟨out, h1, h2⟩
    obtain ⟨m, h3, h4⟩ := (minOut_iff hw.2.1).2 h2
    have h5 := (hops_iff hops s a [] s' out ms hw.2.2.2 hw.1).2 ⟨ms, h1, by simp⟩
    unfold swapRoute
    rw [h5, ok_bind, h3, ok_bind]
    simp only
    rw [if_neg (by omega)]
    rfl

/-- The same with balances, if nothing is attached: as far as anybody can see, the route is the hops as transactions of
their own, one right after the other, except that it is all or nothing. -/
theorem C79_transactions {c : Chain} {env : Env} {info : Info} {w w' : World} {a e sl : Nat} {hops : List Hop}
    (hf : info.funds = []) :
    w.tx c env info (.swapRoute a e sl hops) = .ok w' ↔
      (a < U128 ∧ e < U128 ∧ sl < U64 ∧ ∀ h ∈ hops, h.poolKey.wf) ∧
        ∃ out, TxByTx c env info hops w a w' out ∧ sl ≤ 10 ^ 12 ∧ e * (10 ^ 12 - sl) ≤ out * 10 ^ 12 := by
  rw [tx_nofunds hf]
  simp only [C79_hops, txs_iff hf]
  constructor
  · rintro ⟨ms, ⟨h1, out, h2, h3⟩, h4⟩
    exact ⟨h1, out, ⟨ms, h2, h4⟩, h3⟩
  · rintro ⟨h1, out, ⟨ms, h2, h4⟩, h3⟩
    exact ⟨ms, ⟨h1, out, h2, h3⟩, h4⟩

/-- A route through two hops of the same pool, there and back again, in a pool with one position: it is accepted, and so are
its two hops. -/
example : ∃ w' out, (world chain setup).tx chain env (by_ bob) (.swapRoute 300 0 0 [⟨key, true⟩, ⟨key, false⟩]) = .ok w' ∧
    TxByTx chain env (by_ bob) [⟨key, true⟩, ⟨key, false⟩] (world chain setup) 300 w' out := by
  have h : ((world chain setup).tx chain env (by_ bob) (.swapRoute 300 0 0 [⟨key, true⟩, ⟨key, false⟩])).isOk = true := by
    decide +kernel
  cases hx : (world chain setup).tx chain env (by_ bob) (.swapRoute 300 0 0 [⟨key, true⟩, ⟨key, false⟩]) with
  | error e => rw [hx] at h; cases h
  | ok w' =>
    obtain ⟨_, out, h1, _⟩ := (C79_transactions rfl).1 hx
    exact ⟨w', out, rfl, h1⟩

end OraiV3
