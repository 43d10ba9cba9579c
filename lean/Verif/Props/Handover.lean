import Verif.Lemmas.Handover
import Verif.Props.Permit
import Verif.Props.ClaimFirst

/-!
# C88: a position that changes hands keeps its value
-/

namespace OraiV3

/-- The new holder finds the position at the end of the list. -/
theorem handover_place {c : Chain} {s s1 : Store} {env : Env} {info : Info} {msg : Msg} {A B : Bytes} {i : Nat} {out : List OutMsg}
    (hr : Reach c s) (hm : HandsOver msg info.sender A i B) (h : execute c env info msg s = .ok (s1, out)) :
    ∃ q, (positionList s A)[i]? = some (some q) ∧
      (positionList s1 B)[(positionList s1 B).length - 1]? = some (some { q with approvals := [] }) := by
  obtain ⟨hi, q, sr, hq, h1, h2⟩ := handover_inv hm h
  obtain ⟨-, -, -, -, -, v6, v7, v8, -⟩ := handover_view hr.mreach.posInv hi h1 h2
  refine ⟨q, (listed_iff hr).2 ⟨hi, hq⟩, (listed_iff (hr.step h)).2 ?_⟩
  rw [positionList_length, v6, Nat.add_sub_cancel]
  exact ⟨by omega, by rw [v8, KV.get?_insert, if_pos rfl]⟩

/-- **C88.** After a position was handed over, the new holder can close it exactly if the old holder could have, gets the same
amounts of every token, and leaves the same state. -/
theorem C88_withdraw {c : Chain} {s s1 : Store} {env : Env} {info : Info} {msg : Msg} {A B : Bytes} {i : Nat} {out : List OutMsg}
    (hr : Reach c s) (hA : A ≠ c.self) (hB : B ≠ c.self) (hm : HandsOver msg info.sender A i B)
    (h : execute c env info msg s = .ok (s1, out)) (l : Ledger) (env' : Env) :
    ((∃ w, World.tx c ⟨s, l⟩ env' ⟨A, []⟩ (.removePosition i) = .ok w) ↔
      ∃ w, World.tx c ⟨s1, l⟩ env' ⟨B, []⟩ (.removePosition ((positionList s1 B).length - 1)) = .ok w) ∧
    ∀ w w1, World.tx c ⟨s, l⟩ env' ⟨A, []⟩ (.removePosition i) = .ok w →
      World.tx c ⟨s1, l⟩ env' ⟨B, []⟩ (.removePosition ((positionList s1 B).length - 1)) = .ok w1 →
      SamePayment c l A w B w1 ∧ SameMarket w.store w1.store ∧ ∀ o, positionList w1.store o = positionList w.store o := by
  have hmr := hr.mreach
  have hr1 := hr.step h
  obtain ⟨hi, q, sr, hq, g1, g2⟩ := handover_inv hm h
  obtain ⟨v1, v2, v3, v4, v5, v6, v7, v8, v9⟩ := handover_view hmr.posInv hi g1 g2
  have hlast : (positionList s1 B).length - 1 = getPositionLength sr B := by rw [positionList_length, v6, Nat.add_sub_cancel]
  rw [hlast]
  have hjU : getPositionLength sr B < U32 := by omega
  have l0 : (positionList s A)[i]? = some (some q) := (listed_iff hr).2 ⟨hi, hq⟩
  have l1 : (positionList s1 B)[getPositionLength sr B]? = some (some { q with approvals := [] }) :=
    (listed_iff hr1).2 ⟨hjU, by rw [v8, KV.get?_insert, if_pos rfl]⟩
  have hacc : ∀ x, accrued s1 x { q with approvals := [] } = accrued s x q := fun x =>
    (accrued_congr v2 v3 x _).trans (accrued_same rfl x)
  have live := (C75_withdraw hr env' ⟨A, []⟩ i)
  have live1 := (C75_withdraw hr1 env' ⟨B, []⟩ (getPositionLength sr B))
  have hlive : (∃ s' o, execute c env' ⟨A, []⟩ (.removePosition i) s = .ok (s', o)) ↔
      ∃ s' o, execute c env' ⟨B, []⟩ (.removePosition (getPositionLength sr B)) s1 = .ok (s', o) := by
    rw [live, live1]
    simp only [l0, l1, Option.some.injEq]
    constructor
    · rintro ⟨q', p, a, rfl, x1, x2, x3, x4, x5⟩
      exact ⟨_, p, a, rfl, by rw [v2]; exact x1, x2, x3, by rw [hacc]; exact x4, by rw [hacc]; exact x5⟩
    · rintro ⟨q', p, a, rfl, x1, x2, x3, x4, x5⟩
      rw [hacc] at x4 x5
      rw [v2] at x1
      exact ⟨_, p, a, rfl, x1, x2, x3, x4, x5⟩
  -- both calls make the same payments
  have key : ∀ t o t1 o1, execute c env' ⟨A, []⟩ (.removePosition i) s = .ok (t, o) →
      execute c env' ⟨B, []⟩ (.removePosition (getPositionLength sr B)) s1 = .ok (t1, o1) →
      ∃ dx dy m n, dx ≠ dy ∧ o = assetTransfer c dx m ⟨A, []⟩ ++ assetTransfer c dy n ⟨A, []⟩ ∧
        o1 = assetTransfer c dx m ⟨B, []⟩ ++ assetTransfer c dy n ⟨B, []⟩ ∧ SameMarket t t1 ∧
        ∀ o, positionList t1 o = positionList t o := by
    intro t o t1 o1 e e1
    obtain ⟨-, e⟩ := execute_ok.1 e
    obtain ⟨-, e1⟩ := execute_ok.1 e1
    obtain ⟨k1, k2, k3, k4, k5, -, k6⟩ := handover_remove hmr.struct hr1.mreach.struct hmr.posInv hi g1 g2 e e1
    obtain ⟨pos, pool, a, x1, x2, x3, -, -, rfl⟩ := remove_pays hmr.struct e
    obtain ⟨pos1, pool1, a1, y1, y2, y3, -, -, rfl⟩ := remove_pays hr1.mreach.struct e1
    rw [hq, Option.some.injEq] at x1
    subst x1
    rw [v8, KV.get?_insert, if_pos rfl, Option.some.injEq] at y1
    subst y1
    simp only at y2 y3
    rw [v2, x2, Option.some.injEq] at y2
    subst y2
    have ea : a1 = a := ok_inj.1 (y3.symm.trans x3)
    subst ea
    refine ⟨q.poolKey.tokenX, q.poolKey.tokenY, _, _, swap_tokens_ne hmr.struct (hmr.struct.positions _ _ hq).kwf x2 true, rfl, ?_, ⟨k1, k2, k3, k4, k5⟩, k6⟩
    rw [hacc, hacc]
  constructor
  · constructor
    · rintro ⟨w, hw⟩
      obtain ⟨o, e, a⟩ := tx_ok.1 hw
      obtain ⟨t1, o1, e1⟩ := hlive.1 ⟨_, _, e⟩
      obtain ⟨dx, dy, m, n, hd, rfl, rfl, -⟩ := key _ _ _ _ e e1
      obtain ⟨l', hl⟩ := (pay_either (t := s) (t1 := s) hA hB hd).1.1 ⟨_, a⟩
      exact ⟨⟨t1, l'⟩, tx_ok.2 ⟨_, e1, hl⟩⟩
    · rintro ⟨w, hw⟩
      obtain ⟨o1, e1, a⟩ := tx_ok.1 hw
      obtain ⟨t, o, e⟩ := hlive.2 ⟨_, _, e1⟩
      obtain ⟨dx, dy, m, n, hd, rfl, rfl, -⟩ := key _ _ _ _ e e1
      obtain ⟨l', hl⟩ := (pay_either (t := s) (t1 := s) hA hB hd).1.2 ⟨_, a⟩
      exact ⟨⟨t, l'⟩, tx_ok.2 ⟨_, e, hl⟩⟩
  · intro w w1 hw hw1
    obtain ⟨o, e, a⟩ := tx_ok.1 hw
    obtain ⟨o1, e1, a1⟩ := tx_ok.1 hw1
    obtain ⟨dx, dy, m, n, hd, rfl, rfl, k1, k2⟩ := key _ _ _ _ e e1
    exact ⟨(pay_either (t := w.store) (t1 := w1.store) hA hB hd).2 _ _ a a1, k1, k2⟩

/-- **C88.** And the same for claiming the fees: the new holder can if the old holder could have, gets the same amounts, and the
position is left as the old holder would have left it. -/
theorem C88_claim {c : Chain} {s s1 : Store} {env : Env} {info : Info} {msg : Msg} {A B : Bytes} {i : Nat} {out : List OutMsg}
    (hr : Reach c s) (hA : A ≠ c.self) (hB : B ≠ c.self) (hm : HandsOver msg info.sender A i B)
    (h : execute c env info msg s = .ok (s1, out)) (l : Ledger) (env' : Env) :
    ((∃ w, World.tx c ⟨s, l⟩ env' ⟨A, []⟩ (.claimFee i) = .ok w) ↔
      ∃ w, World.tx c ⟨s1, l⟩ env' ⟨B, []⟩ (.claimFee ((positionList s1 B).length - 1)) = .ok w) ∧
    ∀ w w1, World.tx c ⟨s, l⟩ env' ⟨A, []⟩ (.claimFee i) = .ok w →
      World.tx c ⟨s1, l⟩ env' ⟨B, []⟩ (.claimFee ((positionList s1 B).length - 1)) = .ok w1 →
      SamePayment c l A w B w1 ∧ SameMarket w.store w1.store ∧
      ∃ q, (positionList w.store A)[i]? = some (some q) ∧ Holds w1.store B ((positionList s1 B).length - 1) q := by
  have hmr := hr.mreach
  have hr1 := hr.step h
  obtain ⟨hi, q, sr, hq, g1, g2⟩ := handover_inv hm h
  obtain ⟨v1, v2, v3, v4, v5, v6, v7, v8, v9⟩ := handover_view hmr.posInv hi g1 g2
  have hlast : (positionList s1 B).length - 1 = getPositionLength sr B := by rw [positionList_length, v6, Nat.add_sub_cancel]
  rw [hlast]
  have hjU : getPositionLength sr B < U32 := by omega
  have l0 : (positionList s A)[i]? = some (some q) := (listed_iff hr).2 ⟨hi, hq⟩
  have l1 : (positionList s1 B)[getPositionLength sr B]? = some (some { q with approvals := [] }) :=
    (listed_iff hr1).2 ⟨hjU, by rw [v8, KV.get?_insert, if_pos rfl]⟩
  have hacc : ∀ x, accrued s1 x { q with approvals := [] } = accrued s x q := fun x =>
    (accrued_congr v2 v3 x _).trans (accrued_same rfl x)
  have live := (C75_claim hr env' ⟨A, []⟩ i)
  have live1 := (C75_claim hr1 env' ⟨B, []⟩ (getPositionLength sr B))
  have hlive : (∃ s' o, execute c env' ⟨A, []⟩ (.claimFee i) s = .ok (s', o)) ↔
      ∃ s' o, execute c env' ⟨B, []⟩ (.claimFee (getPositionLength sr B)) s1 = .ok (s', o) := by
    rw [live, live1]
    simp only [l0, l1, Option.some.injEq]
    constructor
    · rintro ⟨q', rfl, x1⟩
      exact ⟨_, rfl, fun x => by rw [hacc]; exact x1 x⟩
    · rintro ⟨q', rfl, x1⟩
      exact ⟨_, rfl, fun x => by rw [← hacc]; exact x1 x⟩
  have key : ∀ t o t1 o1, execute c env' ⟨A, []⟩ (.claimFee i) s = .ok (t, o) →
      execute c env' ⟨B, []⟩ (.claimFee (getPositionLength sr B)) s1 = .ok (t1, o1) →
      ∃ dx dy m n, dx ≠ dy ∧ o = assetTransfer c dx m ⟨A, []⟩ ++ assetTransfer c dy n ⟨A, []⟩ ∧
        o1 = assetTransfer c dx m ⟨B, []⟩ ++ assetTransfer c dy n ⟨B, []⟩ ∧ SameMarket t t1 ∧
        ∃ p p1, t.positions.get? (positionKey A i) = some p ∧ t1.positions.get? (positionKey B (getPositionLength sr B)) = some p1 ∧
          SamePosition p p1 := by
    intro t o t1 o1 e e1
    obtain ⟨-, e⟩ := execute_ok.1 e
    obtain ⟨-, e1⟩ := execute_ok.1 e1
    obtain ⟨k1, k2, k3, k4, k5, k6⟩ := handover_claim hmr.struct hr1.mreach.struct hmr.posInv hi g1 g2 e e1
    obtain ⟨pos, -, pool, -, x1, -, -, -, x2, -, -, rfl, -⟩ := claim_owes hmr.struct e
    obtain ⟨pos1, -, pool1, -, y1, -, -, -, y2, -, -, rfl, -⟩ := claim_owes hr1.mreach.struct e1
    rw [hq, Option.some.injEq] at x1
    subst x1
    rw [v8, KV.get?_insert, if_pos rfl, Option.some.injEq] at y1
    subst y1
    refine ⟨q.poolKey.tokenX, q.poolKey.tokenY, _, _, swap_tokens_ne hmr.struct (hmr.struct.positions _ _ hq).kwf x2 true, rfl, ?_, ⟨k1, k2, k3, k4, k5⟩, k6⟩
    rw [hacc, hacc]
  constructor
  · constructor
    · rintro ⟨w, hw⟩
      obtain ⟨o, e, a⟩ := tx_ok.1 hw
      obtain ⟨t1, o1, e1⟩ := hlive.1 ⟨_, _, e⟩
      obtain ⟨dx, dy, m, n, hd, rfl, rfl, -⟩ := key _ _ _ _ e e1
      obtain ⟨l', hl⟩ := (pay_either (t := s) (t1 := s) hA hB hd).1.1 ⟨_, a⟩
      exact ⟨⟨t1, l'⟩, tx_ok.2 ⟨_, e1, hl⟩⟩
    · rintro ⟨w, hw⟩
      obtain ⟨o1, e1, a⟩ := tx_ok.1 hw
      obtain ⟨t, o, e⟩ := hlive.2 ⟨_, _, e1⟩
      obtain ⟨dx, dy, m, n, hd, rfl, rfl, -⟩ := key _ _ _ _ e e1
      obtain ⟨l', hl⟩ := (pay_either (t := s) (t1 := s) hA hB hd).1.2 ⟨_, a⟩
      exact ⟨⟨t, l'⟩, tx_ok.2 ⟨_, e, hl⟩⟩
  · intro w w1 hw hw1
    obtain ⟨o, e, a⟩ := tx_ok.1 hw
    obtain ⟨o1, e1, a1⟩ := tx_ok.1 hw1
    obtain ⟨dx, dy, m, n, hd, rfl, rfl, k1, p, p1, k2, k3, k4⟩ := key _ _ _ _ e e1
    exact ⟨(pay_either (t := w.store) (t1 := w1.store) hA hB hd).2 _ _ a a1, k1, p, (listed_iff (hr.step e)).2 ⟨hi, k2⟩, p1,
      (listed_iff (hr1.step e1)).2 ⟨hjU, k3⟩, k4⟩

namespace Demo

/-- What an account gains by the last transaction, in both tokens. -/
def gains (who : Bytes) (ms : List (Info × Msg)) (m : Msg) : Option (Nat × Nat) :=
  ((runW chain ms fresh).toOption).bind fun w => ((w.tx chain env (by_ who) m).toOption).map fun w' =>
    (w'.ledger.bal (tokenAsset chain key.tokenX) who - w.ledger.bal (tokenAsset chain key.tokenX) who,
      w'.ledger.bal (tokenAsset chain key.tokenY) who - w.ledger.bal (tokenAsset chain key.tokenY) who)

end Demo

/-- Alice's position has earned fees in both tokens. Carol, who has none, receives it and gets for it what Alice would have. -/
example : Demo.gains Demo.carol (Demo.crossing ++ [(Demo.by_ Demo.alice, .transferPosition 0 Demo.carol)]) (.removePosition 0) =
      Demo.gains Demo.alice Demo.crossing (.removePosition 0) ∧
    Demo.gains Demo.carol (Demo.crossing ++ [(Demo.by_ Demo.alice, .transferNft Demo.carol (positionKey Demo.alice 0))]) (.claimFee 0) =
      Demo.gains Demo.alice Demo.crossing (.claimFee 0) ∧
    (Demo.gains Demo.alice Demo.crossing (.removePosition 0)).any (fun p => decide (0 < p.1 ∧ 0 < p.2)) = true ∧
    (Demo.gains Demo.alice Demo.crossing (.claimFee 0)).any (fun p => decide (0 < p.1 ∧ 0 < p.2)) = true := by
  decide +kernel

end OraiV3
