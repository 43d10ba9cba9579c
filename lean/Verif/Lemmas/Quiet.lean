import Verif.Lemmas.Micro

/-!
# Calls that are not swaps
-/

namespace OraiV3

def Msg.isSwap : Msg → Bool
  | .swap .. | .swapRoute .. => true
  | _ => false

/-- Elementary changes that are not swaps, in a block `env`. -/
inductive Quiet (c : Chain) (env : Env) : Store → Store → Prop where
  | config {s : Store} {cfg cfg' : Config} (h : s.config = some cfg) (hf : cfg'.protocolFee < U64 ∨
      cfg'.protocolFee = cfg.protocolFee)
      (ht : ∀ t ∈ cfg'.feeTiers, t ∈ cfg.feeTiers ∨ (t.Valid ∧ t.wf)) :
      Quiet c env s { s with config := some cfg' }
  | opers (s : Store) (ops : KV Expiration) : Quiet c env s { s with operators := ops }
  | poolMeta {s : Store} {k : PoolKey} {p : Pool} (rcv : Bytes) {px py : Nat} (hk : k.wf)
      (hp : s.pools.get? k.key = some p) (hx : px ≤ p.protoX) (hy : py ≤ p.protoY) :
      Quiet c env s (savePool s k { p with feeReceiver := rcv, protoX := px, protoY := py })
  | newPool {s s' : Store} {t0 t1 : Bytes} {tier : FeeTier} {price : Nat} {tick : Int}
      {out : List OutMsg} (hw : (Msg.createPool t0 t1 tier price tick).wf)
      (h : createPool s env t0 t1 tier price tick = .ok (s', out)) : Quiet c env s s'
  | create {s s' : Store} {info : Info} {k : PoolKey} {l u : Int} {L lo hi : Nat}
      {out : List OutMsg} (hw : (Msg.createPosition k l u L lo hi).wf)
      (h : createPosition c s env info k l u L lo hi = .ok (s', out)) : Quiet c env s s'
  | claim {s s' : Store} {info : Info} {i : Nat} {out : List OutMsg} (hw : i < U32)
      (h : claimFee c s env info i = .ok (s', out)) : Quiet c env s s'
  | remove {s s' : Store} {info : Info} {i : Nat} {out : List OutMsg} (hw : i < U32)
      (h : removePosition c s env info i = .ok (s', out)) : Quiet c env s s'
  | move {s s1 s2 : Store} {o r : Bytes} {i : Nat} {p : Position} (hw : i < U32)
      (h1 : removePositionAt s o i = .ok (s1, p))
      (h2 : addPosition s1 r { p with approvals := [] } = .ok s2) : Quiet c env s s2
  | appr {s : Store} {id : Bytes} {p : Position} (a : List Approval) (h : s.positions.get? id = some p) :
      Quiet c env s { s with positions := s.positions.insert id { p with approvals := a } }

theorem Quiet.micro {c : Chain} {env : Env} {s s' : Store} (h : Quiet c env s s') : Micro c s s' := by
  cases h with
  | config h hf ht => exact .config h hf ht
  | opers ops => exact .opers _ ops
  | poolMeta rcv hk hp hx hy => exact .poolMeta rcv hk hp hx hy
  | newPool hw h => exact .newPool hw h
  | create hw h => exact .create hw h
  | claim hw h => exact .claim hw h
  | remove hw h => exact .remove hw h
  | move hw h1 h2 => exact .move hw h1 h2
  | appr a h => exact .appr a h

/-- Every call that is not a swap is one such change. -/
theorem execute_quiet {c : Chain} {env : Env} {info : Info} {msg : Msg} {s s' : Store} {out : List OutMsg}
    (hq : msg.isSwap = false)
    (h : execute c env info msg s = .ok (s', out)) : Quiet c env s s' := by
  have hw := (execute_ok.1 h).1
  replace h := (execute_ok.1 h).2
  cases msg <;> simp only [dispatch] at h
  case changeAdmin a =>
    simp only [changeAdmin, bind_ok, ite_error_ok, pure_ok, Prod.mk.injEq, loadConfig_ok] at h
    obtain ⟨cfg, h0, _, h, _⟩ := h
    rw [← h]
    exact (Quiet.config (cfg' := { cfg with admin := a }) h0 (.inr rfl) (fun t ht => .inl ht))
  case withdrawProtocolFee k =>
    simp only [withdrawProtocolFee, bind_ok, ite_error_ok, pure_ok, Prod.mk.injEq, getPool_ok] at h
    obtain ⟨p0, hp0, _, h, _⟩ := h
    rw [← h]
    exact (Quiet.poolMeta p0.feeReceiver hw hp0 (Nat.zero_le _) (Nat.zero_le _))
  case changeProtocolFee f =>
    simp only [changeProtocolFee, bind_ok, ite_error_ok, pure_ok, Prod.mk.injEq, loadConfig_ok] at h
    obtain ⟨cfg, h0, _, h, _⟩ := h
    rw [← h]
    exact (Quiet.config (cfg' := { cfg with protocolFee := f }) h0 (.inl hw) (fun t ht => .inl ht))
  case changeFeeReceiver k r =>
    simp only [changeFeeReceiver, bind_ok, ite_error_ok, pure_ok, Prod.mk.injEq, getPool_ok] at h
    obtain ⟨_, _, _, p0, hp0, h, _⟩ := h
    rw [← h]
    exact (Quiet.poolMeta r hw hp0 (Nat.le_refl _) (Nat.le_refl _))
  case createPosition k l u L lo hi => exact (Quiet.create hw h)
  case mint k l u L lo hi => exact (Quiet.create hw h)
  case swap k d a b l => simp [Msg.isSwap] at hq
  case swapRoute a e sl hops => simp [Msg.isSwap] at hq
  case transferPosition i r =>
    obtain ⟨pos, s1, _, h1, _, h2, _⟩ := transferPosition_inv h
    exact (Quiet.move hw h1 h2)
  case claimFee i => exact (Quiet.claim hw h)
  case removePosition i => exact (Quiet.remove hw h)
  case createPool t0 t1 tier price tick => exact (Quiet.newPool hw h)
  case addFeeTier t =>
    simp only [addFeeTier, bind_ok, ite_error_ok, pure_ok, Prod.mk.injEq, loadConfig_ok] at h
    obtain ⟨cfg, h0, _, h1, h2, h, _⟩ := h
    rw [← h]
    refine (Quiet.config (cfg' := { cfg with feeTiers := cfg.feeTiers ++ [t] }) h0 (.inr rfl) (fun t' ht => ?_))
    rcases List.mem_append.1 ht with ht | ht
    · exact .inl ht
    · rw [List.mem_singleton] at ht
      subst ht
      exact .inr ⟨⟨by omega, by omega, by omega⟩, hw⟩
  case removeFeeTier t =>
    simp only [removeFeeTier, bind_ok, ite_error_ok, ite_ok_error, pure_ok, Prod.mk.injEq, loadConfig_ok] at h
    obtain ⟨cfg, h0, _, _, h, _⟩ := h
    rw [← h]
    exact (Quiet.config (cfg' := { cfg with feeTiers := cfg.feeTiers.erase t }) h0 (.inr rfl)
      (fun t ht => .inl (List.mem_of_mem_erase ht)))
  case transferNft r id =>
    simp only [transferNft, bind_ok, pure_ok, Prod.mk.injEq] at h
    obtain ⟨_, h1, rfl, _⟩ := h
    obtain ⟨o, pos, s1, p, e1, e2, _, e4, e5⟩ := transferNftInternal_inv h1
    have hsp := tokenOwner_spec e1
    obtain ⟨_, _, hp, _⟩ := removePositionAt_inv e4
    rw [hsp.1, e2] at hp
    cases hp
    exact (Quiet.move hsp.2 e4 e5)
  case burn id =>
    obtain ⟨o, _, h1, _, _, h⟩ := burn_inv h
    exact (Quiet.remove (tokenOwner_spec h1).2 h)
  case sendNft ct id m =>
    simp only [sendNft, bind_ok, pure_ok, Prod.mk.injEq] at h
    obtain ⟨_, h1, rfl, _⟩ := h
    obtain ⟨o, pos, s1, p, e1, e2, _, e4, e5⟩ := transferNftInternal_inv h1
    have hsp := tokenOwner_spec e1
    obtain ⟨_, _, hp, _⟩ := removePositionAt_inv e4
    rw [hsp.1, e2] at hp
    cases hp
    exact (Quiet.move hsp.2 e4 e5)
  case approve sp id ex =>
    obtain ⟨_, _, _, hp, _, _, _, e⟩ := updateApprovals_inv h
    rw [e]
    exact (Quiet.appr _ hp)
  case revoke sp id =>
    obtain ⟨_, _, _, hp, _, _, _, e⟩ := updateApprovals_inv h
    rw [e]
    exact (Quiet.appr _ hp)
  case approveAll o ex =>
    simp only [approveAll, ite_error_ok, ok_inj, Prod.mk.injEq] at h
    rw [← h.2.1]
    exact (Quiet.opers _ _)
  case revokeAll o =>
    simp only [revokeAll, ok_inj, Prod.mk.injEq] at h
    rw [← h.1]
    exact (Quiet.opers _ _)

end OraiV3
