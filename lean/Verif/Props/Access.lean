import Verif.Lemmas.Positions
import Verif.Examples

/-!
# Access control: C13, C14, C15, C18
-/

namespace OraiV3
open Demo

/-! ## C13: slippage protection -/

/-- C13, routes.  A successful route pays the sender, as its last message(s), an amount `fin` of the last
hop's output token with `fin ≥ expected · (100% − slippage)`. -/
theorem C13_route_slippage {c : Chain} {env : Env} {info : Info} {s s' : Store} {out : List OutMsg}
    {a e sl : Nat} {hops : List Hop} {last : Hop}
    (h : execute c env info (.swapRoute a e sl (hops ++ [last])) s = .ok (s', out)) :
    ∃ fin rest, sl ≤ 10 ^ 12 ∧ e * (10 ^ 12 - sl) ≤ fin * 10 ^ 12 ∧
      out = rest ++ assetTransfer c (if last.xToY then last.poolKey.tokenY else last.poolKey.tokenX) fin info := by
  replace h := (execute_ok.1 h).2
  simp only [dispatch] at h
  obtain ⟨fin, m, h1, h2, h3⟩ := swapRoute_inv h
  have key : ∀ (hops : List Hop) (s : Store) (a : Nat) (ms : List OutMsg),
      swapRouteInternal c info env.millis (hops ++ [last]) s a ms = .ok (s', fin, out) →
      ∃ rest, out = rest ++
        assetTransfer c (if last.xToY then last.poolKey.tokenY else last.poolKey.tokenX) fin info := by
    intro hops
    induction hops with
    | nil =>
      intro s a ms h
      simp only [List.nil_append, swapRouteInternal, bind_ok, ok_inj, Prod.mk.injEq] at h
      obtain ⟨x, hx, _, h5, h6⟩ := h
      obtain ⟨_, m1, _, _, _, _, h7⟩ := swapInternal_inv hx
      exact ⟨ms ++ m1, by rw [← h6, h7, h5, List.append_assoc]⟩
    | cons hd tl ih =>
      intro s a ms h
      simp only [List.cons_append, swapRouteInternal, bind_ok] at h
      obtain ⟨x, _, h⟩ := h
      exact ih _ _ _ h
  obtain ⟨rest, hr⟩ := key hops s a [] h1
  refine ⟨fin, rest, ?_, ?_, hr⟩ <;>
    simp only [calculateMinAmountOut, bigMulUp, bind_ok, subP_ok, cast128_ok] at h2 <;>
    obtain ⟨f, ⟨h4, rfl⟩, _, rfl⟩ := h2
  · exact h4
  · have := Nat.div_add_mod (e * (PCT - sl) + (PCT - 1)) PCT
    have hm := Nat.mod_lt (e * (PCT - sl) + (PCT - 1)) (show PCT > 0 by decide)
    have : (e * (PCT - sl) + (PCT - 1)) / PCT * PCT ≤ fin * PCT := Nat.mul_le_mul_right _ h3
    simp only [PCT] at *
    omega

example : works chain (setup ++ [(by_ bob, .swapRoute 300 300 (2 * 10 ^ 10) [⟨key, true⟩])]) = true := by
  decide +kernel

/-- C13, positions.  A position is created only while the pool price is within the caller's bounds. -/
theorem C13_position_price_bounds {c : Chain} {env : Env} {info : Info} {s s' : Store} {out : List OutMsg}
    {k : PoolKey} {l u : Int} {L lo hi : Nat} {msg : Msg}
    (hm : msg = .createPosition k l u L lo hi ∨ msg = .mint k l u L lo hi)
    (h : execute c env info msg s = .ok (s', out)) :
    ∃ pool, s.pools.get? k.key = some pool ∧ lo ≤ pool.sqrtPrice ∧ pool.sqrtPrice ≤ hi := by
  replace h := (execute_ok.1 h).2
  rcases hm with rfl | rfl <;> simp only [dispatch] at h <;>
  · obtain ⟨p0, _, _, _, _, hp0, h1, h2, _⟩ := createPosition_frame h
    exact ⟨p0, hp0, h1, h2⟩

example : works chain setup = true := by decide +kernel

/-! ## C14: administration -/

/-- C14.  Whatever a successful call changes in the configuration or in a fee receiver, it was sent by the
admin; whatever it takes from the recorded protocol fees of a pool, it was sent by that pool's fee
receiver. -/
theorem C14_only_admin_changes_settings {c : Chain} {env : Env} {info : Info} {msg : Msg} {s s' : Store}
    {out : List OutMsg} {cfg : Config} (hc : s.config = some cfg)
    (h : execute c env info msg s = .ok (s', out)) :
    (s'.config ≠ s.config → info.sender = cfg.admin) ∧
    (∀ key p p', s.pools.get? key = some p → s'.pools.get? key = some p' →
      p'.feeReceiver ≠ p.feeReceiver → info.sender = cfg.admin) ∧
    (∀ key p p', s.pools.get? key = some p → s'.pools.get? key = some p' →
      p'.protoX < p.protoX ∨ p'.protoY < p.protoY → info.sender = p.feeReceiver) := by
  refine ⟨fun hne => ?_, fun key p p' hp hp' hne => ?_, fun key p p' hp hp' hlt => ?_⟩
  · by_cases hm : msg.isConfig = true
    · replace h := (execute_ok.1 h).2
      cases msg <;> simp only [Msg.isConfig, Bool.false_eq_true] at hm <;> simp only [dispatch] at h
      case changeAdmin =>
        simp only [changeAdmin, bind_ok, ite_error_ok, loadConfig_ok, hc] at h
        obtain ⟨_, h1, h2, _⟩ := h
        cases h1; simpa using h2
      case changeProtocolFee =>
        simp only [changeProtocolFee, bind_ok, ite_error_ok, loadConfig_ok, hc] at h
        obtain ⟨_, h1, h2, _⟩ := h
        cases h1; simpa using h2
      case addFeeTier =>
        simp only [addFeeTier, bind_ok, ite_error_ok, loadConfig_ok, hc] at h
        obtain ⟨_, h1, h2, _⟩ := h
        cases h1; simpa using h2
      case removeFeeTier =>
        simp only [removeFeeTier, bind_ok, ite_error_ok, loadConfig_ok, hc] at h
        obtain ⟨_, h1, h2, _⟩ := h
        cases h1; simpa using h2
    · exact absurd (execute_config h (by simpa using hm)) hne
  · obtain ⟨q, hq, hr⟩ := execute_pools h key p hp
    rw [hp'] at hq
    cases hq
    rcases hr.2.1 with e | ⟨k, e, _⟩
    · exact absurd e hne
    · subst e
      replace h := (execute_ok.1 h).2
      simp only [dispatch, changeFeeReceiver, bind_ok, ite_error_ok, loadConfig_ok, hc] at h
      obtain ⟨_, h1, h2, _⟩ := h
      cases h1; simpa using h2
  · obtain ⟨q, hq, hr⟩ := execute_pools h key p hp
    rw [hp'] at hq
    cases hq
    rcases hr.2.2.1 with e | ⟨k, e, hk, _⟩
    · omega
    · subst e
      replace h := (execute_ok.1 h).2
      simp only [dispatch, withdrawProtocolFee, bind_ok, ite_error_ok, getPool_ok, hk, hp] at h
      obtain ⟨_, h1, h2, _⟩ := h
      cases h1
      rw [ne_eq, Decidable.not_not] at h2
      exact h2.symm

/-- C14, refusal.  For anyone but the admin the administrative calls fail, whatever their arguments;
withdrawing the protocol fee fails for anyone but the pool's fee receiver. -/
theorem C14_others_are_refused {c : Chain} {env : Env} {info : Info} {s : Store} {cfg : Config}
    (hc : s.config = some cfg) (hs : info.sender ≠ cfg.admin) (msg : Msg)
    (hm : (∃ a, msg = .changeAdmin a) ∨ (∃ f, msg = .changeProtocolFee f) ∨
      (∃ k r, msg = .changeFeeReceiver k r) ∨ (∃ t, msg = .addFeeTier t) ∨ (∃ t, msg = .removeFeeTier t)) :
    ∃ e, execute c env info msg s = .error e := by
  have hc' : loadConfig s = .ok cfg := loadConfig_ok.2 hc
  unfold execute
  split
  · refine ⟨.unauthorized, ?_⟩
    rcases hm with ⟨_, rfl⟩ | ⟨_, rfl⟩ | ⟨_, _, rfl⟩ | ⟨_, rfl⟩ | ⟨_, rfl⟩ <;>
      simp only [dispatch, changeAdmin, changeProtocolFee, changeFeeReceiver, addFeeTier, removeFeeTier, hc',
        ok_bind, if_pos hs]
  · exact ⟨_, rfl⟩

/-- C14, refusal of withdrawals. -/
theorem C14_withdraw_refused {c : Chain} {env : Env} {info : Info} {s : Store} {k : PoolKey} {p : Pool}
    (hp : s.pools.get? k.key = some p) (hs : info.sender ≠ p.feeReceiver) :
    ∃ e, execute c env info (.withdrawProtocolFee k) s = .error e := by
  unfold execute
  split
  · refine ⟨.unauthorized, ?_⟩
    simp only [dispatch, withdrawProtocolFee, getPool_ok.2 hp, ok_bind, if_pos (Ne.symm hs)]
  · exact ⟨_, rfl⟩

-- Alice is the admin of the demo contract and the receiver of its pool's protocol fee, Bob is neither.
example : (state chain setup).config = some ⟨alice, [tier], 0⟩ ∧ bob ≠ alice ∧
    works chain (setup ++ [(by_ alice, .changeProtocolFee 5)]) = true := by decide +kernel
example : ((state chain setup).pools.get? key.key).map (·.feeReceiver) = some alice := by decide +kernel

/-! ## C15: only the owner and whom the owner approved -/

/-- C15.  If the sender is not `owner`, not a live operator of `owner` and holds no live approval for any of
`owner`'s positions, then whatever the call, every position of `owner` stays exactly as it was, under
the same number. -/
theorem C15_strangers_cannot_touch_positions {c : Chain} {env : Env} {info : Info} {msg : Msg} {s s' : Store}
    {out : List OutMsg} {owner : Bytes} (h : execute c env info msg s = .ok (s', out))
    (hs : info.sender ≠ owner) (hop : ¬ OperatorOf s env owner info.sender)
    (hap : ∀ i p, s.positions.get? (positionKey owner i) = some p → ¬ ApprovedFor p env info.sender) :
    getPositionLength s owner ≤ getPositionLength s' owner ∧
    ∀ i < getPositionLength s owner, i < U32 →
      s'.positions.get? (positionKey owner i) = s.positions.get? (positionKey owner i) := by
  have hne : ∀ i j, positionKey owner i ≠ positionKey info.sender j :=
    fun i j e => hs (positionKey_owner e).symm
  have same : s'.positions = s.positions → s'.posLen = s.posLen →
      getPositionLength s owner ≤ getPositionLength s' owner ∧
      ∀ i < getPositionLength s owner, i < U32 →
        s'.positions.get? (positionKey owner i) = s.positions.get? (positionKey owner i) := by
    intro e1 e2
    rw [e1]
    refine ⟨?_, fun _ _ _ => rfl⟩
    unfold getPositionLength
    rw [e2]
  have remove : ∀ i, removePosition c s env info i = .ok (s', out) →
      getPositionLength s owner ≤ getPositionLength s' owner ∧
      ∀ i < getPositionLength s owner, i < U32 →
        s'.positions.get? (positionKey owner i) = s.positions.get? (positionKey owner i) := by
    intro i h
    obtain ⟨pos, p0, liq, s2, _, _, _, hp0, h2, e⟩ := removePosition_frame h
    obtain ⟨a1, a2⟩ := removePositionAt_other h2 (Ne.symm hs)
    rw [e]
    refine ⟨?_, fun j _ _ => a2 j⟩
    show getPositionLength s owner ≤ getPositionLength s2 owner
    omega
  have create : ∀ k l u L lo hi, createPosition c s env info k l u L lo hi = .ok (s', out) →
      getPositionLength s owner ≤ getPositionLength s' owner ∧
      ∀ i < getPositionLength s owner, i < U32 →
        s'.positions.get? (positionKey owner i) = s.positions.get? (positionKey owner i) := by
    intro k l u L lo hi h
    obtain ⟨p0, liq, _, _, _, hp0, _, _, _, e⟩ := createPosition_frame h
    rw [e]
    refine ⟨?_, fun j _ _ => ?_⟩
    · simp only [getPositionLength, KV.get?_insert]
      rw [if_neg (Ne.symm hs)]
    · simp only [KV.get?_insert]
      rw [if_neg (hne _ _)]
  replace h := (execute_ok.1 h).2
  cases msg <;> simp only [dispatch] at h
  case changeAdmin a =>
    simp only [changeAdmin, bind_ok, ite_error_ok, pure_ok, Prod.mk.injEq] at h
    obtain ⟨_, _, _, h, _⟩ := h
    exact same (by rw [← h]) (by rw [← h])
  case withdrawProtocolFee k =>
    simp only [withdrawProtocolFee, bind_ok, ite_error_ok, pure_ok, Prod.mk.injEq, getPool_ok] at h
    obtain ⟨p0, hp0, _, h, _⟩ := h
    exact same (by rw [← h]; rfl) (by rw [← h]; rfl)
  case changeProtocolFee f =>
    simp only [changeProtocolFee, bind_ok, ite_error_ok, pure_ok, Prod.mk.injEq] at h
    obtain ⟨_, _, _, h, _⟩ := h
    exact same (by rw [← h]) (by rw [← h])
  case changeFeeReceiver k r =>
    simp only [changeFeeReceiver, bind_ok, ite_error_ok, pure_ok, Prod.mk.injEq, getPool_ok] at h
    obtain ⟨_, _, _, p0, hp0, h, _⟩ := h
    exact same (by rw [← h]; rfl) (by rw [← h]; rfl)
  case createPosition k l u L lo hi => exact create _ _ _ _ _ _ h
  case mint k l u L lo hi => exact create _ _ _ _ _ _ h
  case swap k d a b l =>
    obtain ⟨r, h⟩ := swap_inv h
    obtain ⟨t, e1⟩ := swapInternal_frame h
    simp only at e1
    exact same (by rw [e1]) (by rw [e1])
  case swapRoute a e sl hops =>
    obtain ⟨fin, m, h1, _, _⟩ := swapRoute_inv h
    obtain ⟨_, _, e⟩ := swapRouteInternal_frame h1
    exact same (by rw [e]) (by rw [e])
  case transferPosition i r =>
    obtain ⟨pos, s1, _, h1, _, h2, _⟩ := transferPosition_inv h
    obtain ⟨a1, a2⟩ := removePositionAt_other h1 (Ne.symm hs)
    obtain ⟨b1, b2⟩ := addPosition_keeps (o' := owner) h2
    rw [a1] at b1 b2
    exact ⟨b1, fun i hi hi' => (b2 i hi hi').trans (a2 i)⟩
  case claimFee i =>
    obtain ⟨pos, p0, liq, _, _, _, hp0, _, e⟩ := claimFee_frame h
    rw [e]
    refine ⟨Nat.le_refl _, fun j _ _ => ?_⟩
    simp only [KV.get?_insert]
    rw [if_neg (hne _ _)]
  case removePosition i => exact remove _ h
  case createPool t0 t1 tier price tick =>
    simp only [createPool, bind_ok, ite_error_ok] at h
    obtain ⟨cfg, _, _, _, _, k, _, hk, h⟩ := h
    split at h
    · simp at h
    · simp at h
    · rw [pure_ok, Prod.mk.injEq] at h
      exact same (by rw [← h.1]; rfl) (by rw [← h.1]; rfl)
  case addFeeTier t =>
    simp only [addFeeTier, bind_ok, ite_error_ok, pure_ok, Prod.mk.injEq] at h
    obtain ⟨_, _, _, _, _, h, _⟩ := h
    exact same (by rw [← h]) (by rw [← h])
  case removeFeeTier t =>
    simp only [removeFeeTier, bind_ok, ite_error_ok, ite_ok_error, pure_ok, Prod.mk.injEq] at h
    obtain ⟨_, _, _, _, h, _⟩ := h
    exact same (by rw [← h]) (by rw [← h])
  case transferNft r id =>
    simp only [transferNft, bind_ok, pure_ok, Prod.mk.injEq] at h
    obtain ⟨_, h1, rfl, _⟩ := h
    exact transferNftInternal_other h1 hs hop hap
  case burn id =>
    obtain ⟨_, _, _, _, _, h⟩ := burn_inv h
    exact remove _ h
  case sendNft ct id m =>
    simp only [sendNft, bind_ok, pure_ok, Prod.mk.injEq] at h
    obtain ⟨_, h1, rfl, _⟩ := h
    exact transferNftInternal_other h1 hs hop hap
  case approve sp id ex =>
    obtain ⟨a, b⟩ := updateApprovals_other h hs hop
    exact ⟨by omega, fun i _ _ => b i⟩
  case revoke sp id =>
    obtain ⟨a, b⟩ := updateApprovals_other h hs hop
    exact ⟨by omega, fun i _ _ => b i⟩
  case approveAll o ex =>
    simp only [approveAll, ite_error_ok, ok_inj, Prod.mk.injEq] at h
    exact same (by rw [← h.2.1]) (by rw [← h.2.1])
  case revokeAll o =>
    simp only [revokeAll, ok_inj, Prod.mk.injEq] at h
    exact same (by rw [← h.1]) (by rw [← h.1])

-- Bob, a stranger to Alice, can act (here: swap) in the demo state, in which Alice has a position.
example : works chain (setup ++ [(by_ bob, .swap key true 100 true MIN_SQRT_PRICE)]) = true ∧
    getPositionLength (state chain setup) alice = 1 ∧
    (state chain setup).operators.get? (operatorKey alice bob) = none ∧
    ((state chain setup).positions.get? (positionKey alice 0)).map (·.approvals) = some [] := by decide +kernel

/-! ## C18: approvals -/

/-- C18, permission and clearing.  A token moves by `TransferNft`/`SendNft` only if the sender owns it, holds a
live approval for this very token, or is a live operator of its owner; and the moved position carries
no approvals at the recipient. -/
theorem C18_transfer_needs_permission_and_clears {c : Chain} {env : Env} {info : Info} {msg : Msg}
    {s s' : Store} {out : List OutMsg} {rcp id : Bytes}
    (hm : msg = .transferNft rcp id ∨ ∃ m, msg = .sendNft rcp id m)
    (h : execute c env info msg s = .ok (s', out)) :
    ∃ owner i pos, id = positionKey owner i ∧ i < U32 ∧ s.positions.get? id = some pos ∧
      (info.sender = owner ∨ ApprovedFor pos env info.sender ∨ OperatorOf s env owner info.sender) ∧
      s'.positions.get? (positionKey rcp (getPositionLength s' rcp - 1)) = some { pos with approvals := [] } := by
  replace h := (execute_ok.1 h).2
  have main : ∀ s', transferNftInternal s env info rcp id = .ok s' →
      ∃ owner i pos, id = positionKey owner i ∧ i < U32 ∧ s.positions.get? id = some pos ∧
      (info.sender = owner ∨ ApprovedFor pos env info.sender ∨ OperatorOf s env owner info.sender) ∧
      s'.positions.get? (positionKey rcp (getPositionLength s' rcp - 1))
        = some { pos with approvals := [] } := by
    intro s' h
    obtain ⟨o, pos, s1, p, h1, h2, h3, h4, h5⟩ := transferNftInternal_inv h
    obtain ⟨e1, e2⟩ := tokenOwner_spec h1
    refine ⟨o, tokenIndex id, pos, e1.symm, e2, h2, checkCanSend_ok h3, ?_⟩
    obtain ⟨_, rfl⟩ := addPosition_ok.1 h5
    simp [getPositionLength, KV.get?_insert]
  rcases hm with rfl | ⟨m, rfl⟩ <;> simp only [dispatch] at h
  · simp only [transferNft, bind_ok, pure_ok, Prod.mk.injEq] at h
    obtain ⟨_, h1, rfl, _⟩ := h
    exact main _ h1
  · simp only [sendNft, bind_ok, pure_ok, Prod.mk.injEq] at h
    obtain ⟨_, h1, rfl, _⟩ := h
    exact main _ h1

/-- C18, clearing for `TransferPosition`. -/
theorem C18_transfer_position_clears {c : Chain} {env : Env} {info : Info} {s s' : Store} {out : List OutMsg}
    {i : Nat} {rcv : Bytes} (h : execute c env info (.transferPosition i rcv) s = .ok (s', out)) :
    ∃ pos, s.positions.get? (positionKey info.sender i) = some pos ∧
      s'.positions.get? (positionKey rcv (getPositionLength s' rcv - 1)) = some { pos with approvals := [] } := by
  replace h := (execute_ok.1 h).2
  simp only [dispatch] at h
  obtain ⟨pos, s1, h1, _, _, h2, _⟩ := transferPosition_inv h
  refine ⟨pos, h1, ?_⟩
  obtain ⟨_, rfl⟩ := addPosition_ok.1 h2
  simp [getPositionLength, KV.get?_insert]

/-- C18, granting and revoking.  `Approve` succeeds only for the owner or a live operator and only with an
expiration still in the future; `Approve`/`Revoke` change nothing but the approvals of that token;
afterwards the spender holds exactly the new approval (or none). -/
theorem C18_approve_and_revoke {c : Chain} {env : Env} {info : Info} {s s' : Store} {out : List OutMsg}
    {sp id : Bytes} {msg : Msg} {new : List Approval}
    (hm : (∃ ex, msg = .approve sp id ex ∧ new = [⟨sp, ex.getD .never⟩]) ∨ (msg = .revoke sp id ∧ new = []))
    (h : execute c env info msg s = .ok (s', out)) :
    ∃ owner i pos, id = positionKey owner i ∧ i < U32 ∧ s.positions.get? id = some pos ∧
      (info.sender = owner ∨ OperatorOf s env owner info.sender) ∧
      (∀ a ∈ new, a.expires.ValidAt env) ∧
      s'.positions.get? id = some { pos with approvals := pos.approvals.filter (fun a => a.spender ≠ sp) ++ new } ∧
      (∀ id', id' ≠ id → s'.positions.get? id' = s.positions.get? id') ∧
      s' = { s with positions := s'.positions } ∧ out = [] := by
  replace h := (execute_ok.1 h).2
  have main : ∀ add ex, updateApprovals s env info sp id add ex = .ok (s', out) →
      new = (if add then [⟨sp, ex.getD .never⟩] else []) →
      ∃ owner i pos, id = positionKey owner i ∧ i < U32 ∧ s.positions.get? id = some pos ∧
      (info.sender = owner ∨ OperatorOf s env owner info.sender) ∧
      (∀ a ∈ new, a.expires.ValidAt env) ∧
      s'.positions.get? id = some { pos with approvals := pos.approvals.filter (fun a => a.spender ≠ sp) ++ new } ∧
      (∀ id', id' ≠ id → s'.positions.get? id' = s.positions.get? id') ∧
      s' = { s with positions := s'.positions } ∧ out = [] := by
    intro add ex h hnew
    obtain ⟨o, pos, h1, h2, h3, h4, h5, rfl⟩ := updateApprovals_inv h
    obtain ⟨e1, e2⟩ := tokenOwner_spec h1
    subst hnew
    refine ⟨o, tokenIndex id, pos, e1.symm, e2, h2, checkCanApprove_ok h3, ?_, ?_, ?_, rfl, h4⟩
    · intro a ha
      cases add
      · simp at ha
      · simp at ha; subst ha; exact valid_iff.1 (h5 rfl)
    · simp [KV.get?_insert]
    · intro id' hne
      simp [KV.get?_insert, hne]
  rcases hm with ⟨ex, rfl, e⟩ | ⟨rfl, e⟩ <;> simp only [dispatch] at h
  · exact main true ex h (by simpa using e)
  · exact main false none h (by simpa using e)

/-- C18, revocation.  After `Revoke` the spender holds no approval for the token. -/
theorem C18_revoked_spender_has_no_approval {c : Chain} {env : Env} {info : Info} {s s' : Store}
    {out : List OutMsg} {sp id : Bytes} (h : execute c env info (.revoke sp id) s = .ok (s', out)) :
    ∃ p, s'.positions.get? id = some p ∧ ∀ env', ¬ ApprovedFor p env' sp := by
  obtain ⟨_, _, pos, _, _, _, _, _, h1, _⟩ := C18_approve_and_revoke (.inr ⟨rfl, rfl⟩) h
  refine ⟨_, h1, ?_⟩
  rintro env' ⟨a, ha, hb, _⟩
  simp [hb] at ha

/-- C18, operators.  `ApproveAll` makes exactly the named account an operator of the sender, with an expiration
in the future; `RevokeAll` takes that away; no other call changes operators. -/
theorem C18_operators {c : Chain} {env : Env} {info : Info} {s s' : Store} {out : List OutMsg} {msg : Msg}
    (h : execute c env info msg s = .ok (s', out)) :
    (∀ o ex, msg = .approveAll o ex → (ex.getD .never).ValidAt env ∧
      s' = { s with operators := s.operators.insert (operatorKey info.sender o) (ex.getD .never) }) ∧
    (∀ o, msg = .revokeAll o →
      s' = { s with operators := s.operators.erase (operatorKey info.sender o) } ∧
      ∀ env', ¬ OperatorOf s' env' info.sender o) ∧
    ((∀ o ex, msg ≠ .approveAll o ex) → (∀ o, msg ≠ .revokeAll o) → s'.operators = s.operators) := by
  refine ⟨?_, ?_, ?_⟩
  · rintro o ex rfl
    replace h := (execute_ok.1 h).2
    simp only [dispatch, approveAll, ite_error_ok, ok_inj, Prod.mk.injEq] at h
    exact ⟨valid_iff.1 (by simpa using h.1), h.2.1.symm⟩
  · rintro o rfl
    replace h := (execute_ok.1 h).2
    simp only [dispatch, revokeAll, ok_inj, Prod.mk.injEq] at h
    refine ⟨h.1.symm, ?_⟩
    rintro env' ⟨ex, hex, _⟩
    rw [← h.1] at hex
    simp [KV.get?_erase] at hex
  · intro h1 h2
    replace h := (execute_ok.1 h).2
    cases msg <;> simp only [dispatch] at h
    case approveAll o ex => exact absurd rfl (h1 o ex)
    case revokeAll o => exact absurd rfl (h2 o)
    case changeAdmin a =>
      simp only [changeAdmin, bind_ok, ite_error_ok, pure_ok, Prod.mk.injEq] at h
      obtain ⟨_, _, _, h, _⟩ := h
      rw [← h]
    case withdrawProtocolFee k =>
      simp only [withdrawProtocolFee, bind_ok, ite_error_ok, pure_ok, Prod.mk.injEq, getPool_ok] at h
      obtain ⟨p0, hp0, _, h, _⟩ := h
      rw [← h]; rfl
    case changeProtocolFee f =>
      simp only [changeProtocolFee, bind_ok, ite_error_ok, pure_ok, Prod.mk.injEq] at h
      obtain ⟨_, _, _, h, _⟩ := h
      rw [← h]
    case changeFeeReceiver k r =>
      simp only [changeFeeReceiver, bind_ok, ite_error_ok, pure_ok, Prod.mk.injEq, getPool_ok] at h
      obtain ⟨_, _, _, p0, hp0, h, _⟩ := h
      rw [← h]; rfl
    case createPosition k l u L lo hi =>
      obtain ⟨p0, liq, _, _, _, hp0, _, _, _, e⟩ := createPosition_frame h
      rw [e]
    case mint k l u L lo hi =>
      obtain ⟨p0, liq, _, _, _, hp0, _, _, _, e⟩ := createPosition_frame h
      rw [e]
    case swap k d a b l =>
      obtain ⟨r, h⟩ := swap_inv h
      obtain ⟨t, e1⟩ := swapInternal_frame h
      simp only at e1
      rw [e1]
    case swapRoute a e sl hops =>
      obtain ⟨fin, m, h1, _, _⟩ := swapRoute_inv h
      obtain ⟨_, _, e⟩ := swapRouteInternal_frame h1
      rw [e]
    case transferPosition i r =>
      obtain ⟨_, _, e⟩ := transferPosition_frame h
      rw [e]
    case claimFee i =>
      obtain ⟨pos, p0, liq, _, _, _, hp0, _, e⟩ := claimFee_frame h
      rw [e]
    case removePosition i =>
      obtain ⟨pos, p0, liq, _, _, _, _, hp0, _, e⟩ := removePosition_frame h
      rw [e]
    case createPool t0 t1 tier price tick =>
      simp only [createPool, bind_ok, ite_error_ok] at h
      obtain ⟨cfg, _, _, _, _, k, _, hk, h⟩ := h
      split at h
      · simp at h
      · simp at h
      · rw [pure_ok, Prod.mk.injEq] at h
        rw [← h.1]; rfl
    case addFeeTier t =>
      simp only [addFeeTier, bind_ok, ite_error_ok, pure_ok, Prod.mk.injEq] at h
      obtain ⟨_, _, _, _, _, h, _⟩ := h
      rw [← h]
    case removeFeeTier t =>
      simp only [removeFeeTier, bind_ok, ite_error_ok, ite_ok_error, pure_ok, Prod.mk.injEq] at h
      obtain ⟨_, _, _, _, h, _⟩ := h
      rw [← h]
    case transferNft r id =>
      simp only [transferNft, bind_ok, pure_ok, Prod.mk.injEq] at h
      obtain ⟨_, h1, rfl, _⟩ := h
      obtain ⟨_, _, e⟩ := transferNftInternal_frame h1
      rw [e]
    case burn id =>
      obtain ⟨_, _, _, _, _, h⟩ := burn_inv h
      obtain ⟨pos, p0, liq, _, _, _, _, hp0, _, e⟩ := removePosition_frame h
      rw [e]
    case sendNft ct id m =>
      simp only [sendNft, bind_ok, pure_ok, Prod.mk.injEq] at h
      obtain ⟨_, h1, rfl, _⟩ := h
      obtain ⟨_, _, e⟩ := transferNftInternal_frame h1
      rw [e]
    case approve sp id ex =>
      obtain ⟨_, _, _, _, _, _, _, e⟩ := updateApprovals_inv h
      rw [e]
    case revoke sp id =>
      obtain ⟨_, _, _, _, _, _, _, e⟩ := updateApprovals_inv h
      rw [e]

/-- C15, operators.  Nobody but the owner changes who is an operator of the owner (accounts are shorter than 65536 bytes). -/
theorem C15_strangers_cannot_appoint {c : Chain} {env : Env} {info : Info} {msg : Msg} {s s' : Store} {out : List OutMsg}
    {owner : Bytes} (h : execute c env info msg s = .ok (s', out)) (hs : info.sender ≠ owner)
    (h1 : owner.length < 2 ^ 16) (h2 : info.sender.length < 2 ^ 16) (env' : Env) (o : Bytes) :
    OperatorOf s' env' owner o ↔ OperatorOf s env' owner o := by
  obtain ⟨a1, a2, a3⟩ := C18_operators h
  have hne : ∀ o', operatorKey owner o ≠ operatorKey info.sender o' :=
    fun o' e => hs (operatorKey_inj h1 h2 e).1.symm
  have key : s'.operators.get? (operatorKey owner o) = s.operators.get? (operatorKey owner o) := by
    by_cases m1 : ∃ o' ex, msg = .approveAll o' ex
    · obtain ⟨o', ex, m1⟩ := m1
      rw [(a1 o' ex m1).2]
      simp only [KV.get?_insert, if_neg (hne o')]
    · by_cases m2 : ∃ o', msg = .revokeAll o'
      · obtain ⟨o', m2⟩ := m2
        rw [(a2 o' m2).1]
        simp only [KV.get?_erase, if_neg (hne o')]
      · rw [a3 (fun o' ex e => m1 ⟨o', ex, e⟩) (fun o' e => m2 ⟨o', e⟩)]
  unfold OperatorOf
  rw [key]

-- Alice appoints Bob; Carol's own appointments and revocations go through and leave Bob appointed.
example : works chain [(by_ alice, .approveAll bob none), (by_ carol, .approveAll bob none), (by_ carol, .revokeAll alice),
    (by_ carol, .revokeAll bob)] = true ∧
    (state chain [(by_ alice, .approveAll bob none), (by_ carol, .approveAll bob none), (by_ carol, .revokeAll alice),
      (by_ carol, .revokeAll bob)]).operators.get? (operatorKey alice bob) = some .never ∧
    carol ≠ alice ∧ alice.length < 2 ^ 16 ∧ carol.length < 2 ^ 16 := by decide +kernel

-- Alice approves Bob for her token, Bob sends it to Carol; approving, revoking and operators all work.
example : works chain (setup ++ [(by_ alice, .approve bob (positionKey alice 0) (some (.atHeight 2))),
    (by_ bob, .transferNft carol (positionKey alice 0))]) = true := by decide +kernel
example : works chain (setup ++ [(by_ alice, .approveAll bob none), (by_ bob, .approve carol (positionKey alice 0) none),
    (by_ bob, .revoke carol (positionKey alice 0)), (by_ alice, .revokeAll bob),
    (by_ alice, .transferPosition 0 carol)]) = true := by decide +kernel

end OraiV3
