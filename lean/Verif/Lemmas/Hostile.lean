import Verif.HostileSpec
import Verif.Lemmas.Solvent

/-!
# Dishonest tokens: the invariant
-/

namespace OraiV3

theorem foreign_delta {c : Chain} {T : Bytes → Prop} {m : OutMsg} (hm : m.foreign T) {t : Bytes} (ht : T t) (x : Bytes) :
    m.delta c (tokenAsset c t) x = 0 := by
  have key : ∀ t', ¬ T t' → tokenAsset c t ≠ .cw20 t' := fun t' h e => by
    unfold tokenAsset at e
    split at e
    · rw [Asset.cw20.injEq] at e
      exact h (e ▸ ht)
    · cases e
  cases m with
  | cw20Transfer t' r n => simp [OutMsg.delta, moveDelta, key t' hm]
  | cw20TransferFrom t' o r n => simp [OutMsg.delta, moveDelta, key t' hm]
  | bankSend r d n => exact hm.elim
  | nftReceive _ _ _ _ => rfl

theorem Nested.reach {c : Chain} {T : Bytes → Prop} {w : World} {ms : List OutMsg} {n : Nat} (h : Nested c T w ms n) :
    Reach c w.store := by
  induction h with
  | init sender fee hf l => exact .init sender fee hf
  | call _ _ _ _ h1 _ _ ih => exact .step ih h1
  | deliver _ _ _ ih => exact ih
  | done _ _ ih => exact ih
  | foreign l _ _ _ ih => exact ih

theorem Nested.active {c : Chain} {T : Bytes → Prop} {w : World} {ms : List OutMsg} {n : Nat} (h : Nested c T w ms n) :
    ActiveIn (PoolKey.trades T) w.store := by
  induction h with
  | init sender fee hf l => exact activeIn_init _ sender fee
  | call hh _ _ _ h1 hreg _ ih => exact ih.step hh.reach h1 hreg
  | deliver _ _ _ ih => exact ih
  | done _ _ ih => exact ih
  | foreign l _ _ _ ih => exact ih

/-- What is owed in a token of `T` is covered by the balance and the messages still to be carried out. -/
theorem Nested.solvent {c : Chain} {T : Bytes → Prop} {w : World} {ms : List OutMsg} {n : Nat} (h : Nested c T w ms n) :
    ∀ ks : List PoolKey, ks.Nodup → (∀ k ∈ ks, k.wf) → ∀ t, T t →
      owes w.store ks t ≤ ((w.ledger.bal (tokenAsset c t) c.self + outDelta c ms (tokenAsset c t) c.self : Int) : ℚ) + n / 10 ^ 14 := by
  induction h with
  | init sender fee hf l =>
    intro ks hn hw t _
    have := (History.init (c := c) (T := T) sender fee hf l).solvent ks hn hw t ‹_›
    simpa [outDelta] using this
  | @call w ms n env info msg l s' out hh ho hne hf h1 hreg hd ih =>
    have hr := hh.reach
    obtain ⟨pl, hl, hc⟩ := execute_covered hr.mreach (Reach.mreach (.step hr h1)) hh.active hne h1 hreg hd
    intro ks hn hw t hht
    obtain ⟨ks', a1, a2, a3, a4⟩ := owes_extend s' t pl ks hn hw hl
    have b1 := hc ks' a1 a2 a3 t hht
    have b2 := ih ks' a1 a2 t hht
    have b3 := takeFunds_bal hf (tokenAsset c t) c.self
    simp only
    rw [b3, outDelta_append]
    push_cast at b1 b2 ⊢
    rw [add_div]
    linarith
  | @deliver w m ms n l _ hm ha ih =>
    intro ks hn hw t hht
    have b2 := ih ks hn hw t hht
    have b3 := apply_bal ha (tokenAsset c t) c.self
    simp only
    rw [b3]
    simp only [outDelta, List.map_cons, List.sum_cons] at b2 ⊢
    push_cast at b2 ⊢
    linarith
  | @done w m ms n _ hm ih =>
    intro ks hn hw t hht
    have b2 := ih ks hn hw t hht
    simp only [outDelta, List.map_cons, List.sum_cons, foreign_delta hm hht, zero_add] at b2 ⊢
    exact b2
  | @foreign w ms n l _ _ hl ih =>
    intro ks hn hw t hht
    have b2 := ih ks hn hw t hht
    have b3 : (w.ledger.bal (tokenAsset c t) c.self : ℚ) ≤ l.bal (tokenAsset c t) c.self := by exact_mod_cast hl _ hht
    simp only
    push_cast at b2 ⊢
    linarith

/-- Tokens outside `T` may behave well, too. -/
theorem Nested.deliver_all {c : Chain} {T : Bytes → Prop} {s : Store} : ∀ {ms rest : List OutMsg} {l : Ledger} {n : Nat},
    ∀ (l0 : Ledger), Nested c T ⟨s, l0⟩ (ms ++ rest) n → l0.applyAll c ms = .ok l → Nested c T ⟨s, l⟩ rest n
  | [], rest, l, n, l0, h, ha => by
    simp only [Ledger.applyAll, ok_inj] at ha
    subst ha
    exact h
  | m :: ms, rest, l, n, l0, h, ha => by
    simp only [Ledger.applyAll, bind_ok] at ha
    obtain ⟨l1, h1, h2⟩ := ha
    by_cases hm : m.foreign T
    · have h3 : Nested c T ⟨s, l1⟩ (m :: (ms ++ rest)) n := by
        refine Nested.foreign (w := ⟨s, l0⟩) l1 h hm fun t ht => ?_
        have := apply_bal h1 (tokenAsset c t) c.self
        rw [foreign_delta hm ht] at this
        simp only
        omega
      exact Nested.deliver_all l1 (.done h3 hm) h2
    · exact Nested.deliver_all l1 (Nested.deliver (w := ⟨s, l0⟩) h hm h1) h2

end OraiV3
