import Verif.Lemmas.Payout
import Verif.Props.Nft
import Verif.Props.Liveness
import Verif.Props.Clock

/-!
# C75: withdrawals, claims, transfers and approvals are refused only for the stated reasons
-/

namespace OraiV3

/-- The `i`-th position of an account, in the records. -/
theorem listed_iff {c : Chain} {s : Store} (hr : Reach c s) {o : Bytes} {i : Nat} {q : Position} :
    (positionList s o)[i]? = some (some q) ↔ i < U32 ∧ s.positions.get? (positionKey o i) = some q := by
  have hlen := hr.mreach.posInv.len o
  constructor
  · intro h
    obtain ⟨hi, -⟩ := List.getElem?_eq_some_iff.1 h
    rw [positionList_length] at hi
    have hU : i < U32 := by omega
    exact ⟨hU, ((isToken_iff hr).1 ⟨rfl, hU, h⟩).2.2⟩
  · rintro ⟨h1, h2⟩
    exact ((isToken_iff hr).2 ⟨rfl, h1, h2⟩).2.2

/-- **C75.** A withdrawal is accepted exactly if the account has the position, the pool's liquidity covers it if its range is active,
and the amounts to be paid fit into 128 bits. -/
theorem C75_withdraw {c : Chain} {s : Store} (hr : Reach c s) (env : Env) (info : Info) (i : Nat) :
    (∃ s' out, execute c env info (.removePosition i) s = .ok (s', out)) ↔
      ∃ q p a, (positionList s info.sender)[i]? = some (some q) ∧ s.pools.get? q.poolKey.key = some p ∧
        (q.lower ≤ p.tick → p.tick < q.upper → q.liquidity ≤ p.liquidity) ∧
        calculateAmountDelta p.tick p.sqrtPrice q.liquidity false q.upper q.lower = .ok a ∧
        a.1 + accrued s true q / 10 ^ 34 < 2 ^ 128 ∧ a.2.1 + accrued s false q / 10 ^ 34 < 2 ^ 128 := by
  have hm := hr.mreach
  constructor
  · rintro ⟨s', out, h⟩
    obtain ⟨hi, h⟩ := execute_ok.1 h
    obtain ⟨q, p, a, h1, h2, h3, h4, h5, -⟩ := remove_pays hm.struct h
    refine ⟨q, p, a, (listed_iff hr).2 ⟨hi, h1⟩, h2, fun g1 g2 => ?_, h3, h4, h5⟩
    obtain ⟨q0, tl, tu, p0, r, sr, s1, s2, hpos, htl, htu, il, iu, hp, hmod, -, -, jl, ju, -⟩ := removePosition_view hm.struct h
    rw [h1, Option.some.injEq] at hpos
    subst hpos
    rw [h2, Option.some.injEq] at hp
    subst hp
    obtain ⟨q', d1, d2, d3, d4, d5, d6, d7⟩ := Position.modify_inv hmod
    obtain ⟨b, liq, b1, b2, b3⟩ := Pool.updateLiquidity_inv d4
    rw [jl, ju] at b1
    have := amountDelta_inside b1
    rw [decide_eq_true ⟨g1, g2⟩] at this
    rw [this, if_pos rfl, if_neg (by decide)] at b2
    exact b2.1
  · rintro ⟨q, p, a, h1, h2, h3, h4, h5, h6⟩
    obtain ⟨hi, h1⟩ := (listed_iff hr).1 h1
    obtain ⟨t, out, h⟩ := removePosition_ok' (c := c) (env := env) hm.struct hm.posInv hm.tickSum hm.bitInv hm.price hi h1 h2 h3
      (fun a' ha' => by rw [h4, ok_inj] at ha'; subst ha'; exact ⟨h5, h6⟩)
    exact ⟨t, out, execute_ok.2 ⟨hi, h⟩⟩

/-- **C75.** A claim is accepted exactly if the account has the position and the fees fit into 128 bits. -/
theorem C75_claim {c : Chain} {s : Store} (hr : Reach c s) (env : Env) (info : Info) (i : Nat) :
    (∃ s' out, execute c env info (.claimFee i) s = .ok (s', out)) ↔
      ∃ q, (positionList s info.sender)[i]? = some (some q) ∧ ∀ x, accrued s x q / 10 ^ 34 < 2 ^ 128 := by
  have hm := hr.mreach
  constructor
  · rintro ⟨s', out, h⟩
    obtain ⟨hi, h⟩ := execute_ok.1 h
    obtain ⟨pos, tl, tu, pool, r, hpos, htl, htu, il, iu, hp, hmod, -⟩ := claimFee_view hm.struct h
    obtain ⟨o1, o2, -⟩ := modify_owed (hm.struct.positions _ _ hpos) htl htu il iu hp hmod
    obtain ⟨q', d1, d2, d3, -⟩ := Position.modify_inv hmod
    obtain ⟨ox, oy, l, -, -, -, -, u1, u2, u3⟩ := Position.update_inv d3
    refine ⟨pos, (listed_iff hr).2 ⟨hi, hpos⟩, fun x => ?_⟩
    cases x
    · rw [← o2, u3]; exact u2
    · rw [← o1, u3]; exact u1
  · rintro ⟨q, h1, h2⟩
    obtain ⟨hi, h1⟩ := (listed_iff hr).1 h1
    obtain ⟨t, out, h⟩ := claimFee_ok (c := c) (env := env) hm.struct hm.posInv hm.tickSum hm.cap hm.price hi h1 h2
    exact ⟨t, out, execute_ok.2 ⟨hi, h⟩⟩

/-- **C75.** A transfer by number is accepted exactly if the account has the position, the receiver is a valid address, and the
receiver's list has room. -/
theorem C75_transfer {c : Chain} {s : Store} (hr : Reach c s) (env : Env) (info : Info) (i : Nat) (receiver : Bytes) :
    (∃ s' out, execute c env info (.transferPosition i receiver) s = .ok (s', out)) ↔
      i < (positionList s info.sender).length ∧ c.isAddr receiver = true ∧
        (receiver ≠ info.sender → (positionList s receiver).length + 1 < 2 ^ 32) := by
  have hi := hr.mreach.posInv
  simp only [positionList_length]
  constructor
  · rintro ⟨s', out, h⟩
    obtain ⟨hw, h⟩ := execute_ok.1 h
    obtain ⟨pos, s1, h1, h2, h3, h4, -⟩ := transferPosition_inv h
    refine ⟨(hi.iff _ _ hw).1 ⟨_, h1⟩, h3, fun hne => ?_⟩
    obtain ⟨s2, g1, g2⟩ := removePositionAt_exists hi hw h1
    rw [g1, ok_inj, Prod.mk.injEq] at h2
    obtain ⟨rfl, -⟩ := h2
    have := (addPosition_ok.1 h4).1
    rw [g2, if_neg hne] at this
    exact this
  · rintro ⟨h1, h2, h3⟩
    obtain ⟨hU, q, hq⟩ := position_exists hi h1
    obtain ⟨s1, g1, g2⟩ := removePositionAt_exists hi hU hq
    have hlen : getPositionLength s1 receiver + 1 < U32 := by
      rw [g2]
      split
      · have := hi.len info.sender; omega
      · rename_i hne
        exact h3 hne
    have : ∃ t, transferPosition c s info i receiver = .ok (t, []) := by
      unfold transferPosition
      simp only [bind_ok, pure_ok, getPosition_ok, ite_error_ok]
      exact ⟨_, q, hq, _, g1, by simp [h2], _, addPosition_ok.2 ⟨hlen, rfl⟩, rfl⟩
    obtain ⟨t, ht⟩ := this
    exact ⟨t, [], execute_ok.2 ⟨hU, ht⟩⟩

/-- **C75.** An approval of an account for a token is accepted exactly if the token exists, the sender is its owner or an operator
of the owner, and the approval has not expired already; it can be taken back under the first two conditions. -/
theorem C75_approve {c : Chain} {s : Store} (hr : Reach c s) (env : Env) (info : Info) (spender id : Bytes) (ex : Option Expiration) :
    ((∃ s' out, execute c env info (.approve spender id ex) s = .ok (s', out)) ↔
      (∃ owner i q, IsToken s id owner i q ∧ (info.sender = owner ∨ OperatorOf s env owner info.sender)) ∧ (ex.getD .never).ValidAt env) ∧
    ((∃ s' out, execute c env info (.revoke spender id) s = .ok (s', out)) ↔
      ∃ owner i q, IsToken s id owner i q ∧ (info.sender = owner ∨ OperatorOf s env owner info.sender)) := by
  have hcan : ∀ owner, (info.sender = owner ∨ OperatorOf s env owner info.sender) ↔ checkCanApprove s env info owner = .ok () := by
    intro owner
    refine ⟨fun h => ?_, checkCanApprove_ok⟩
    unfold checkCanApprove
    split
    · rfl
    · rename_i hne
      rw [if_pos (isOperator_iff.2 (h.resolve_left hne))]
  have key : (∃ owner i q, IsToken s id owner i q ∧ (info.sender = owner ∨ OperatorOf s env owner info.sender)) ↔
      ∃ owner, tokenOwner id = .ok owner ∧ ∃ q, s.positions.get? id = some q ∧ checkCanApprove s env info owner = .ok () := by
    simp only [hcan]
    constructor
    · rintro ⟨owner, i, q, ht, h⟩
      obtain ⟨rfl, hU, hq⟩ := (isToken_iff hr).1 ht
      exact ⟨owner, tokenOwner_positionKey _ _, q, hq, h⟩
    · rintro ⟨owner, h1, q, h2, h⟩
      obtain ⟨o, i, rfl, hU⟩ := hr.mreach.posInv.key _ _ h2
      rw [tokenOwner_positionKey, ok_inj] at h1
      subst h1
      exact ⟨o, i, q, (isToken_iff hr).2 ⟨rfl, hU, h2⟩, h⟩
  rw [key]
  constructor
  · constructor
    · rintro ⟨s', out, h⟩
      have h := (execute_ok.1 h).2
      simp only [dispatch, updateApprovals, bind_ok, getPositionByKey_ok, if_true, ite_error_ok] at h
      obtain ⟨owner, h1, q, h2, ⟨⟩, h3, h4, -⟩ := h
      exact ⟨⟨owner, h1, q, h2, h3⟩, valid_iff.1 (by simpa using h4)⟩
    · rintro ⟨⟨owner, h1, q, h2, h3⟩, h4⟩
      have : ∃ t, updateApprovals s env info spender id true ex = .ok (t, []) := by
        simp only [updateApprovals, bind_ok, getPositionByKey_ok, if_true, ite_error_ok]
        exact ⟨_, owner, h1, q, h2, (), h3, by simp [valid_iff.2 h4], rfl⟩
      obtain ⟨t, ht⟩ := this
      exact ⟨t, [], execute_ok.2 ⟨trivial, ht⟩⟩
  · constructor
    · rintro ⟨s', out, h⟩
      have h := (execute_ok.1 h).2
      simp only [dispatch, updateApprovals, bind_ok, getPositionByKey_ok] at h
      obtain ⟨owner, h1, q, h2, ⟨⟩, h3, -⟩ := h
      exact ⟨owner, h1, q, h2, h3⟩
    · rintro ⟨owner, h1, q, h2, h3⟩
      have : ∃ t, updateApprovals s env info spender id false none = .ok (t, []) := by
        simp only [updateApprovals, bind_ok, getPositionByKey_ok]
        exact ⟨_, owner, h1, q, h2, (), h3, rfl⟩
      obtain ⟨t, ht⟩ := this
      exact ⟨t, [], execute_ok.2 ⟨trivial, ht⟩⟩

/-- **C75.** Everybody can appoint operators, unless the appointment has expired already, and dismiss them. -/
theorem C75_operators (c : Chain) (s : Store) (env : Env) (info : Info) (o : Bytes) (ex : Option Expiration) :
    ((∃ s' out, execute c env info (.approveAll o ex) s = .ok (s', out)) ↔ (ex.getD .never).ValidAt env) ∧
    (∃ s' out, execute c env info (.revokeAll o) s = .ok (s', out)) := by
  constructor
  · simp only [execute_ok, dispatch, approveAll, ite_error_ok, ok_inj, ← valid_iff]
    simp [Msg.wf]
  · exact ⟨_, _, execute_ok.2 ⟨trivial, rfl⟩⟩

open Demo in
/-- Calls that are accepted, and the same calls with one of the conditions missing. -/
example : works chain shared52 = true ∧
    ([(alice, Msg.removePosition 2), (alice, .removePosition 3), (alice, .claimFee 0), (carol, .claimFee 0),
      (alice, .transferPosition 2 bob), (alice, .transferPosition 3 bob), (alice, .transferPosition 2 alice),
      (carol, .approve [7] (positionKey alice 1) none), (bob, .approve [7] (positionKey alice 1) none),
      (alice, .approve [7] (positionKey alice 3) none), (alice, .approve [7] (positionKey alice 1) (some (.atHeight 1))),
      (alice, .approve [7] (positionKey alice 1) (some (.atHeight 2))),
      (carol, .revoke bob (positionKey alice 0)), (bob, .revoke bob (positionKey alice 0)),
      (bob, .approveAll [7] (some (.atHeight 1))), (bob, .approveAll [7] (some (.atHeight 2))), (bob, .revokeAll [8])].map fun x =>
      (execute chain env (by_ x.1) x.2 (state chain shared52)).isOk) =
    [true, false, true, false, true, false, true, true, false, false, false, true, true, false, false, true, true] := by
  exact ⟨by decide +kernel, by decide +kernel⟩

/-- The withdrawal of `C33_false` fails the condition on the pool's liquidity. -/
example : ∃ q p, (positionList (Demo.state Demo.chain Demo.stuck) Demo.bob)[0]? = some (some q) ∧
    (Demo.state Demo.chain Demo.stuck).pools.get? q.poolKey.key = some p ∧
    q.lower ≤ p.tick ∧ p.tick < q.upper ∧ p.liquidity < q.liquidity := by
  have h : (match (positionList (Demo.state Demo.chain Demo.stuck) Demo.bob)[0]? with
    | some (some q) => match (Demo.state Demo.chain Demo.stuck).pools.get? q.poolKey.key with
      | some p => decide (q.lower ≤ p.tick ∧ p.tick < q.upper ∧ p.liquidity < q.liquidity)
      | none => false
    | _ => false) = true := by decide +kernel
  split at h
  · rename_i q e
    split at h
    · rename_i p e'
      exact ⟨q, p, e, e', of_decide_eq_true h⟩
    · cases h
  · cases h

end OraiV3
