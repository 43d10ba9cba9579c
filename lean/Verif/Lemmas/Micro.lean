import Verif.Lemmas.Positions
import Verif.Lemmas.Fees

/-!
# Elementary storage changes

Every successful call is a sequence of elementary changes (only routes need more than one).  Invariants
are proved for these.
-/

namespace OraiV3

/-- A fee tier `AddFeeTier` accepts. -/
def FeeTier.Valid (t : FeeTier) : Prop := 1 ≤ t.spacing ∧ t.spacing ≤ 100 ∧ t.fee < PCT

inductive Micro (c : Chain) : Store → Store → Prop where
  | config {s : Store} {cfg cfg' : Config} (h : s.config = some cfg) (hf : cfg'.protocolFee < U64 ∨
      cfg'.protocolFee = cfg.protocolFee)
      (ht : ∀ t ∈ cfg'.feeTiers, t ∈ cfg.feeTiers ∨ (t.Valid ∧ t.wf)) :
      Micro c s { s with config := some cfg' }
  | opers (s : Store) (ops : KV Expiration) : Micro c s { s with operators := ops }
  | poolMeta {s : Store} {k : PoolKey} {p : Pool} (rcv : Bytes) {px py : Nat} (hk : k.wf)
      (hp : s.pools.get? k.key = some p) (hx : px ≤ p.protoX) (hy : py ≤ p.protoY) :
      Micro c s (savePool s k { p with feeReceiver := rcv, protoX := px, protoY := py })
  | newPool {s s' : Store} {env : Env} {t0 t1 : Bytes} {tier : FeeTier} {price : Nat} {tick : Int}
      {out : List OutMsg} (hw : (Msg.createPool t0 t1 tier price tick).wf)
      (h : createPool s env t0 t1 tier price tick = .ok (s', out)) : Micro c s s'
  | create {s s' : Store} {env : Env} {info : Info} {k : PoolKey} {l u : Int} {L lo hi : Nat}
      {out : List OutMsg} (hw : (Msg.createPosition k l u L lo hi).wf)
      (h : createPosition c s env info k l u L lo hi = .ok (s', out)) : Micro c s s'
  | claim {s s' : Store} {env : Env} {info : Info} {i : Nat} {out : List OutMsg} (hw : i < U32)
      (h : claimFee c s env info i = .ok (s', out)) : Micro c s s'
  | remove {s s' : Store} {env : Env} {info : Info} {i : Nat} {out : List OutMsg} (hw : i < U32)
      (h : removePosition c s env info i = .ok (s', out)) : Micro c s s'
  | move {s s1 s2 : Store} {o r : Bytes} {i : Nat} {p : Position} (hw : i < U32)
      (h1 : removePositionAt s o i = .ok (s1, p))
      (h2 : addPosition s1 r { p with approvals := [] } = .ok s2) : Micro c s s2
  | appr {s : Store} {id : Bytes} {p : Position} (a : List Approval) (h : s.positions.get? id = some p) :
      Micro c s { s with positions := s.positions.insert id { p with approvals := a } }
  | swap {s : Store} {info : Info} {now : Nat} {k : PoolKey} {d : Bool} {amount : Nat}
      {b : Bool} {limit : Nat} {x : Store × List OutMsg × CalcSwapResult} (hk : k.wf) (ha : amount < U128)
      (hl : limit < U128)
      (h : swapInternal c s info now k d amount b limit = .ok x) : Micro c s x.1

/-- Finitely many elementary changes. -/
inductive Micros (c : Chain) : Store → Store → Prop where
  | refl (s : Store) : Micros c s s
  | head {s s1 s2 : Store} : Micro c s s1 → Micros c s1 s2 → Micros c s s2

theorem Micro.one {c : Chain} {s s' : Store} (h : Micro c s s') : Micros c s s' := .head h (.refl _)

theorem swapInternal_out_lt {c : Chain} {s : Store} {info : Info} {now : Nat} {k : PoolKey} {d : Bool}
    {amount : Nat} {b : Bool} {limit : Nat} {x : Store × List OutMsg × CalcSwapResult}
    (h : swapInternal c s info now k d amount b limit = .ok x) : x.2.2.amountOut < U128 := by
  obtain ⟨_, _, h1, _⟩ := swapInternal_inv h
  obtain ⟨pool, st, _, _, _, _, hl, _, hr⟩ := calculateSwap_inv h1
  have := (swapLoop_induct (fun x => x.totalOut < U128) (fun a b _ _ hab => by
    obtain ⟨_, _, _, _, _, _, _, _, _, _, _, _, _, _, _, _, _, hlt, _⟩ := swapIter_inv hab
    exact hlt) _ _ _ (by show 0 < U128; decide) hl).1
  rw [hr]; exact this

theorem swapRouteInternal_micros {c : Chain} {info : Info} {now : Nat} : ∀ {hops : List Hop} {s s' : Store}
    {a fin : Nat} {m out : List OutMsg}, (∀ h ∈ hops, h.poolKey.wf) → a < U128 →
    swapRouteInternal c info now hops s a m = .ok (s', fin, out) → Micros c s s'
  | [], s, s', a, fin, m, out, _, _, h => by
    simp only [swapRouteInternal, ok_inj, Prod.mk.injEq] at h
    exact h.1 ▸ .refl _
  | hh :: hops, s, s', a, fin, m, out, hw, ha, h => by
    simp only [swapRouteInternal, bind_ok] at h
    obtain ⟨x, h1, h2⟩ := h
    refine .head (.swap (hw hh (by simp)) ha ?_ h1)
      (swapRouteInternal_micros (fun h hh => hw h (by simp [hh])) (swapInternal_out_lt h1) h2)
    unfold hopLimit
    split <;> decide

theorem execute_micros {c : Chain} {env : Env} {info : Info} {msg : Msg} {s s' : Store} {out : List OutMsg}
    (h : execute c env info msg s = .ok (s', out)) : Micros c s s' := by
  have hw := (execute_ok.1 h).1
  replace h := (execute_ok.1 h).2
  cases msg <;> simp only [dispatch] at h
  case changeAdmin a =>
    simp only [changeAdmin, bind_ok, ite_error_ok, pure_ok, Prod.mk.injEq, loadConfig_ok] at h
    obtain ⟨cfg, h0, _, h, _⟩ := h
    rw [← h]
    exact Micro.one (Micro.config (cfg' := { cfg with admin := a }) h0 (.inr rfl) (fun t ht => .inl ht))
  case withdrawProtocolFee k =>
    simp only [withdrawProtocolFee, bind_ok, ite_error_ok, pure_ok, Prod.mk.injEq, getPool_ok] at h
    obtain ⟨p0, hp0, _, h, _⟩ := h
    rw [← h]
    exact (Micro.poolMeta p0.feeReceiver hw hp0 (Nat.zero_le _) (Nat.zero_le _)).one
  case changeProtocolFee f =>
    simp only [changeProtocolFee, bind_ok, ite_error_ok, pure_ok, Prod.mk.injEq, loadConfig_ok] at h
    obtain ⟨cfg, h0, _, h, _⟩ := h
    rw [← h]
    exact Micro.one (Micro.config (cfg' := { cfg with protocolFee := f }) h0 (.inl hw) (fun t ht => .inl ht))
  case changeFeeReceiver k r =>
    simp only [changeFeeReceiver, bind_ok, ite_error_ok, pure_ok, Prod.mk.injEq, getPool_ok] at h
    obtain ⟨_, _, _, p0, hp0, h, _⟩ := h
    rw [← h]
    exact (Micro.poolMeta r hw hp0 (Nat.le_refl _) (Nat.le_refl _)).one
  case createPosition k l u L lo hi => exact (Micro.create hw h).one
  case mint k l u L lo hi => exact (Micro.create hw h).one
  case swap k d a b l =>
    obtain ⟨r, h⟩ := swap_inv h
    exact (Micro.swap (x := (s', out, r)) hw.1 hw.2.1 hw.2.2 h).one
  case swapRoute a e sl hops =>
    obtain ⟨fin, m, h1, _, _⟩ := swapRoute_inv h
    exact swapRouteInternal_micros hw.2.2.2 hw.1 h1
  case transferPosition i r =>
    obtain ⟨pos, s1, _, h1, _, h2, _⟩ := transferPosition_inv h
    exact (Micro.move hw h1 h2).one
  case claimFee i => exact (Micro.claim hw h).one
  case removePosition i => exact (Micro.remove hw h).one
  case createPool t0 t1 tier price tick => exact (Micro.newPool hw h).one
  case addFeeTier t =>
    simp only [addFeeTier, bind_ok, ite_error_ok, pure_ok, Prod.mk.injEq, loadConfig_ok] at h
    obtain ⟨cfg, h0, _, h1, h2, h, _⟩ := h
    rw [← h]
    refine Micro.one (Micro.config (cfg' := { cfg with feeTiers := cfg.feeTiers ++ [t] }) h0 (.inr rfl) (fun t' ht => ?_))
    rcases List.mem_append.1 ht with ht | ht
    · exact .inl ht
    · rw [List.mem_singleton] at ht
      subst ht
      exact .inr ⟨⟨by omega, by omega, by omega⟩, hw⟩
  case removeFeeTier t =>
    simp only [removeFeeTier, bind_ok, ite_error_ok, ite_ok_error, pure_ok, Prod.mk.injEq, loadConfig_ok] at h
    obtain ⟨cfg, h0, _, _, h, _⟩ := h
    rw [← h]
    exact Micro.one (Micro.config (cfg' := { cfg with feeTiers := cfg.feeTiers.erase t }) h0 (.inr rfl)
      (fun t ht => .inl (List.mem_of_mem_erase ht)))
  case transferNft r id =>
    simp only [transferNft, bind_ok, pure_ok, Prod.mk.injEq] at h
    obtain ⟨_, h1, rfl, _⟩ := h
    obtain ⟨o, pos, s1, p, e1, e2, _, e4, e5⟩ := transferNftInternal_inv h1
    have hsp := tokenOwner_spec e1
    obtain ⟨_, _, hp, _⟩ := removePositionAt_inv e4
    rw [hsp.1, e2] at hp
    cases hp
    exact (Micro.move hsp.2 e4 e5).one
  case burn id =>
    obtain ⟨o, _, h1, _, _, h⟩ := burn_inv h
    exact (Micro.remove (tokenOwner_spec h1).2 h).one
  case sendNft ct id m =>
    simp only [sendNft, bind_ok, pure_ok, Prod.mk.injEq] at h
    obtain ⟨_, h1, rfl, _⟩ := h
    obtain ⟨o, pos, s1, p, e1, e2, _, e4, e5⟩ := transferNftInternal_inv h1
    have hsp := tokenOwner_spec e1
    obtain ⟨_, _, hp, _⟩ := removePositionAt_inv e4
    rw [hsp.1, e2] at hp
    cases hp
    exact (Micro.move hsp.2 e4 e5).one
  case approve sp id ex =>
    obtain ⟨_, _, _, hp, _, _, _, e⟩ := updateApprovals_inv h
    rw [e]
    exact (Micro.appr _ hp).one
  case revoke sp id =>
    obtain ⟨_, _, _, hp, _, _, _, e⟩ := updateApprovals_inv h
    rw [e]
    exact (Micro.appr _ hp).one
  case approveAll o ex =>
    simp only [approveAll, ite_error_ok, ok_inj, Prod.mk.injEq] at h
    rw [← h.2.1]
    exact (Micro.opers _ _).one
  case revokeAll o =>
    simp only [revokeAll, ok_inj, Prod.mk.injEq] at h
    rw [← h.1]
    exact (Micro.opers _ _).one

theorem Micros.invariant {c : Chain} {P : Store → Prop} (hs : ∀ s s', P s → Micro c s s' → P s') {s s' : Store}
    (h : Micros c s s') : P s → P s' := by
  induction h with
  | refl => exact id
  | head hm _ ih => exact fun hp => ih (hs _ _ hp hm)

/-- An invariant of elementary changes holds in every reachable storage. -/
theorem Reach.invariant {c : Chain} {P : Store → Prop} (h0 : ∀ sender fee, fee < U64 → P (instantiate sender fee))
    (hs : ∀ s s', P s → Micro c s s' → P s') {s : Store} (h : Reach c s) : P s := by
  induction h with
  | init sender fee hf => exact h0 sender fee hf
  | step _ he ih => exact (execute_micros he).invariant hs ih

/-- Storages reached by elementary changes. -/
inductive MReach (c : Chain) : Store → Prop where
  | init (sender : Bytes) (fee : Nat) (h : fee < U64) : MReach c (instantiate sender fee)
  | step {s s' : Store} : MReach c s → Micro c s s' → MReach c s'

theorem Micros.mreach {c : Chain} {s s' : Store} (h : Micros c s s') : MReach c s → MReach c s' := by
  induction h with
  | refl => exact id
  | head hm _ ih => exact fun hp => ih (.step hp hm)

theorem Reach.mreach {c : Chain} {s : Store} (h : Reach c s) : MReach c s := by
  induction h with
  | init sender fee hf => exact .init sender fee hf
  | step _ he ih => exact (execute_micros he).mreach ih

end OraiV3
