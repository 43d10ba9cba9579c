import Verif.WorldExamples
import Verif.Lemmas.Party

/-!
# C66: nobody else's tokens are touched
-/

namespace OraiV3

/-- **C66**, messages.  Every message of a successful call moves tokens between the sender and the contract, in one of the two
tokens of a pool the call is about; only `SendNft` has another message, the notification of the receiving contract, which
carries the sender, the token id and the payload as given. -/
theorem C66_messages {c : Chain} {env : Env} {info : Info} {msg : Msg} {s s' : Store} {out : List OutMsg}
    (h : execute c env info msg s = .ok (s', out)) :
    (∀ m ∈ out, m.Between c.self info.sender
      (fun t => ∃ k, msg.onPool s info.sender k ∧ (t = k.tokenX ∨ t = k.tokenY))) ∨
    ∃ rcv id data, msg = .sendNft rcv id data ∧ out = [.nftReceive rcv info.sender id data] :=
  messages_between h

/-- The messages of a transaction, with those of `SendNft` left out. -/
theorem tx_between {c : Chain} {w w' : World} {env : Env} {info : Info} {msg : Msg} (h : w.tx c env info msg = .ok w') :
    ∃ out, (∀ m ∈ out, m.Between c.self info.sender
        (fun t => ∃ k, msg.onPool w.store info.sender k ∧ (t = k.tokenX ∨ t = k.tokenY))) ∧
      (∀ a x, (w'.ledger.bal a x : Int) =
        w.ledger.bal a x + fundsDelta c info.sender info.funds a x + outDelta c out a x) ∧
      ∀ x, x ≠ info.sender → ∀ t, w'.ledger.allow t x = w.ledger.allow t x := by
  obtain ⟨out, h1, h2⟩ := tx_inv h
  unfold World.tx at h
  simp only [bind_ok, pure_ok] at h
  obtain ⟨l1, g1, r, g2, l2, g3, rfl⟩ := h
  rw [h1, ok_inj] at g2
  have g2 : r.2 = out := by rw [← g2]
  rw [g2] at g3
  rcases C66_messages h1 with hb | ⟨rcv, id, data, -, rfl⟩
  · exact ⟨out, hb, h2, fun x hx t => by rw [applyAll_allow hx g3 hb t, takeFunds_allow g1]⟩
  · refine ⟨[], by simp, fun a x => ?_, fun x hx t => ?_⟩
    · rw [h2 a x]; simp [outDelta, OutMsg.delta]
    · simp only [Ledger.applyAll, Ledger.apply, bind_ok, ok_inj] at g3
      obtain ⟨_, e1, e2⟩ := g3
      rw [← e2, ← e1, takeFunds_allow g1]

/-- **C66**, third parties.  No transaction changes a balance of an account other than the sender and the contract, nor an
allowance given by anyone but the sender. -/
theorem C66_third_parties {c : Chain} {w w' : World} {env : Env} {info : Info} {msg : Msg}
    (h : w.tx c env info msg = .ok w') {x : Bytes} (hs : x ≠ info.sender) :
    (x ≠ c.self → ∀ a, w'.ledger.bal a x = w.ledger.bal a x) ∧ ∀ t, w'.ledger.allow t x = w.ledger.allow t x := by
  obtain ⟨out, h1, h2, h3⟩ := tx_between h
  refine ⟨fun hc a => ?_, h3 x hs⟩
  have := h2 a x
  rw [fundsDelta_third hs hc, between_third hs hc h1] at this
  omega

/-- **C66**, conservation.  What the sender gains the contract loses, and the other way round, in every asset. -/
theorem C66_conserved {c : Chain} {w w' : World} {env : Env} {info : Info} {msg : Msg}
    (h : w.tx c env info msg = .ok w') (hne : info.sender ≠ c.self) (a : Asset) :
    w'.ledger.bal a info.sender + w'.ledger.bal a c.self = w.ledger.bal a info.sender + w.ledger.bal a c.self := by
  obtain ⟨out, h1, h2, -⟩ := tx_between h
  have e1 := h2 a info.sender
  have e2 := h2 a c.self
  have e3 := fundsDelta_total hne (fs := info.funds) (a := a)
  have e4 := between_total hne (a := a) h1
  omega

/-- **C66**, other tokens.  A transaction does not change any balance in an asset which is neither attached nor a token of a
pool the call is about. -/
theorem C66_other_tokens {c : Chain} {w w' : World} {env : Env} {info : Info} {msg : Msg}
    (h : w.tx c env info msg = .ok w') {a : Asset} (hf : ∀ f ∈ info.funds, f.denom ≠ a.name)
    (hk : ∀ k, msg.onPool w.store info.sender k → a.name ≠ k.tokenX ∧ a.name ≠ k.tokenY) (x : Bytes) :
    w'.ledger.bal a x = w.ledger.bal a x := by
  obtain ⟨out, h1, h2, -⟩ := tx_between h
  have e := h2 a x
  rw [fundsDelta_other hf, between_other (fun ⟨k, k1, k2⟩ => by rcases k2 with k2 | k2 <;> [exact (hk k k1).1 k2; exact (hk k k1).2 k2]) x h1] at e
  omega

-- Bob's swap moves tokens of Bob and of the contract only; Alice's SendNft tells Carol.
example : Demo.worksW Demo.chain (Demo.setup ++ [(Demo.by_ Demo.bob, .swap Demo.key true 100 true MIN_SQRT_PRICE)]) = true ∧
    (Demo.world Demo.chain (Demo.setup ++ [(Demo.by_ Demo.bob, .swap Demo.key true 100 true MIN_SQRT_PRICE)])).ledger.bal
      (.cw20 Demo.key.tokenX) Demo.bob + 100 = (Demo.world Demo.chain Demo.setup).ledger.bal (.cw20 Demo.key.tokenX) Demo.bob ∧
    (Demo.world Demo.chain (Demo.setup ++ [(Demo.by_ Demo.bob, .swap Demo.key true 100 true MIN_SQRT_PRICE)])).ledger.bal
      (.cw20 Demo.key.tokenX) Demo.alice = (Demo.world Demo.chain Demo.setup).ledger.bal (.cw20 Demo.key.tokenX) Demo.alice ∧
    Demo.worksW Demo.chain (Demo.setup ++ [(Demo.by_ Demo.alice, .sendNft Demo.carol (positionKey Demo.alice 0) none)]) = true ∧
    Demo.alice ≠ Demo.bob ∧ Demo.alice ≠ Demo.chain.self := by decide +kernel

end OraiV3
