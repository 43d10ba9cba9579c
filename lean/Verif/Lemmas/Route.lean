import Verif.RouteSpec
import Verif.Lemmas.Micro
import Verif.Props.Solvency

/-!
# Lemmas/Route: a route is a fold of swaps (for C79)
-/

namespace OraiV3

/-- One hop as a call of its own. -/
theorem hop_call {c : Chain} {env : Env} {info : Info} {h : Hop} {a b : Nat} {s s1 : Store} {m1 : List OutMsg}
    (hw : h.poolKey.wf) (ha : a < U128) :
    (execute c env info (hopCall h a) s = .ok (s1, m1) ∧ hopOutput s env h a = .ok b) ↔
      ∃ r, swapInternal c s info env.millis h.poolKey h.xToY a true (hopLimit h.xToY) = .ok (s1, m1, r) ∧ r.amountOut = b := by
  have hl : hopLimit h.xToY < U128 := by unfold hopLimit; split <;> decide
  have e1 : execute c env info (hopCall h a) s = swap c s env info h.poolKey h.xToY a true (hopLimit h.xToY) := by
    unfold execute
    rw [if_pos (show (hopCall h a).wf from ⟨hw, ha, hl⟩)]
    rfl
  have e2 : hopOutput s env h a =
      (queryQuote s env h.poolKey h.xToY a true (hopLimit h.xToY)).map QuoteResult.amountOut := rfl
  rw [e1, e2]
  unfold swap queryQuote
  constructor
  · rintro ⟨h1, h2⟩
    simp only [bind_ok, pure_ok, Prod.mk.injEq] at h1
    obtain ⟨⟨t, m, r⟩, h3, rfl, rfl⟩ := h1
    refine ⟨r, h3, ?_⟩
    obtain ⟨_, _, h4, _⟩ := swapInternal_inv h3
    rw [h4, ok_bind] at h2
    exact ok_inj.1 h2
  · rintro ⟨r, h1, rfl⟩
    obtain ⟨_, _, h4, _⟩ := swapInternal_inv h1
    rw [h1, ok_bind, h4, ok_bind]
    exact ⟨rfl, rfl⟩

/-- A route does what its hops do. -/
theorem hops_iff {c : Chain} {env : Env} {info : Info} : ∀ (hops : List Hop) (s : Store) (a : Nat) (ms : List OutMsg)
    (s' : Store) (out : Nat) (ms' : List OutMsg), (∀ h ∈ hops, h.poolKey.wf) → a < U128 →
    (swapRouteInternal c info env.millis hops s a ms = .ok (s', out, ms') ↔
      ∃ m, HopByHop c env info hops s a s' out m ∧ ms' = ms ++ m)
  | [], s, a, ms, s', out, ms', _, _ => by
    simp only [swapRouteInternal, ok_inj, Prod.mk.injEq]
    constructor
    · rintro ⟨rfl, rfl, rfl⟩
      exact ⟨[], .nil, by simp⟩
    · rintro ⟨m, h, e⟩
      cases h
      exact ⟨rfl, rfl, by simpa using e.symm⟩
  | h :: hs, s, a, ms, s', out, ms', hw, ha => by
    have hh := hw h (List.mem_cons_self ..)
    have ht : ∀ x ∈ hs, x.poolKey.wf := fun x hx => hw x (List.mem_cons_of_mem _ hx)
    simp only [swapRouteInternal, bind_ok]
    constructor
    · rintro ⟨⟨s1, m1, r⟩, h1, h2⟩
      obtain ⟨m, h3, h4⟩ := (hops_iff hs s1 r.amountOut (ms ++ m1) s' out ms' ht (swapInternal_out_lt h1)).1 h2
      obtain ⟨h5, h6⟩ := (hop_call (b := r.amountOut) hh ha).2 ⟨r, h1, rfl⟩
      exact ⟨m1 ++ m, .cons h5 h6 h3, by rw [h4, List.append_assoc]⟩
    · rintro ⟨m, h1, h2⟩
      cases h1 with
      | cons h3 h4 h5 =>
        obtain ⟨r, h6, rfl⟩ := (hop_call hh ha).1 ⟨h3, h4⟩
        exact ⟨_, h6, (hops_iff hs _ _ _ s' out ms' ht (swapInternal_out_lt h6)).2 ⟨_, h5, by rw [h2, List.append_assoc]⟩⟩

/-- The minimum of a route. -/
theorem minOut_iff {e sl out : Nat} (he : e < U128) :
    (∃ m, calculateMinAmountOut e sl = .ok m ∧ m ≤ out) ↔ sl ≤ PCT ∧ e * (PCT - sl) ≤ out * PCT := by
  unfold calculateMinAmountOut
  constructor
  · rintro ⟨m, h2, h3⟩
    simp only [bigMulUp, bind_ok, subP_ok, cast128_ok] at h2
    obtain ⟨f, ⟨h4, rfl⟩, _, rfl⟩ := h2
    refine ⟨h4, ?_⟩
    have := Nat.div_add_mod (e * (PCT - sl) + (PCT - 1)) PCT
    have hm := Nat.mod_lt (e * (PCT - sl) + (PCT - 1)) (show PCT > 0 by decide)
    have : (e * (PCT - sl) + (PCT - 1)) / PCT * PCT ≤ out * PCT := Nat.mul_le_mul_right _ h3
    generalize e * (PCT - sl) = A at *
    simp only [PCT] at *
    omega
  · rintro ⟨h1, h2⟩
    have hle : (e * (PCT - sl) + (PCT - 1)) / PCT ≤ e := by
      have : e * (PCT - sl) ≤ e * PCT := Nat.mul_le_mul_left _ (Nat.sub_le _ _)
      apply Nat.le_of_lt_succ
      rw [Nat.div_lt_iff_lt_mul (by decide)]
      generalize e * (PCT - sl) = A at *
      simp only [PCT] at *
      omega
    refine ⟨(e * (PCT - sl) + (PCT - 1)) / PCT, ?_, ?_⟩
    · rw [subP_ok.2 ⟨h1, rfl⟩, ok_bind]
      exact cast128_ok.2 ⟨by omega, rfl⟩
    · apply Nat.le_of_lt_succ
      rw [Nat.div_lt_iff_lt_mul (by decide)]
      generalize e * (PCT - sl) = A at *
      simp only [PCT] at *
      omega

/-- Without attached funds a transaction is the call followed by its messages. -/
theorem tx_nofunds {c : Chain} {w w' : World} {env : Env} {info : Info} {msg : Msg} (hf : info.funds = []) :
    w.tx c env info msg = .ok w' ↔
      ∃ ms, execute c env info msg w.store = .ok (w'.store, ms) ∧ w.ledger.applyAll c ms = .ok w'.ledger := by
  unfold World.tx
  rw [hf]
  simp only [Ledger.takeFunds, bind_ok, pure_ok, ok_inj]
  constructor
  · rintro ⟨_, rfl, ⟨t, ms⟩, h1, l, h2, rfl⟩
    exact ⟨ms, h1, h2⟩
  · rintro ⟨ms, h1, h2⟩
    exact ⟨_, rfl, _, h1, _, h2, rfl⟩

/-- Messages sent together, or in two parts. -/
theorem applyAll_append_iff {c : Chain} : ∀ {ms ms' : List OutMsg} {l l' : Ledger},
    l.applyAll c (ms ++ ms') = .ok l' ↔ ∃ l1, l.applyAll c ms = .ok l1 ∧ l1.applyAll c ms' = .ok l'
  | [], ms', l, l' => by simp [Ledger.applyAll]
  | m :: ms, ms', l, l' => by
    simp only [List.cons_append, Ledger.applyAll, bind_ok]
    constructor
    · rintro ⟨l2, h1, h2⟩
      obtain ⟨l1, h3, h4⟩ := applyAll_append_iff.1 h2
      exact ⟨l1, ⟨l2, h1, h3⟩, h4⟩
    · rintro ⟨l1, ⟨l2, h1, h3⟩, h4⟩
      exact ⟨l2, h1, applyAll_append_iff.2 ⟨l1, h3, h4⟩⟩

/-- The hops as transactions. -/
theorem txs_iff {c : Chain} {env : Env} {info : Info} (hf : info.funds = []) :
    ∀ (hops : List Hop) (w w' : World) (a out : Nat),
    (TxByTx c env info hops w a w' out ↔
      ∃ ms, HopByHop c env info hops w.store a w'.store out ms ∧ w.ledger.applyAll c ms = .ok w'.ledger)
  | [], w, w', a, out => by
    constructor
    · intro h
      cases h
      exact ⟨[], .nil, rfl⟩
    · rintro ⟨ms, h, h2⟩
      obtain ⟨s, l⟩ := w
      obtain ⟨s', l'⟩ := w'
      cases h
      simp only [Ledger.applyAll, ok_inj] at h2
      subst h2
      exact .nil
  | h :: hs, w, w', a, out => by
    constructor
    · intro hx
      cases hx with
      | cons h1 h2 h3 =>
        obtain ⟨m1, h4, h5⟩ := (tx_nofunds hf).1 h1
        obtain ⟨m, h6, h7⟩ := (txs_iff hf hs _ _ _ _).1 h3
        exact ⟨m1 ++ m, .cons h4 h2 h6, applyAll_append_iff.2 ⟨_, h5, h7⟩⟩
    · rintro ⟨ms, hx, h2⟩
      cases hx with
      | @cons _ _ _ s1 _ _ b _ m1 m h3 h4 h5 =>
        obtain ⟨l1, h6, h7⟩ := applyAll_append_iff.1 h2
        exact .cons (w1 := ⟨s1, l1⟩) ((tx_nofunds hf).2 ⟨m1, h3, h6⟩) h4 ((txs_iff hf hs _ _ _ _).2 ⟨m, h5, h7⟩)

end OraiV3
