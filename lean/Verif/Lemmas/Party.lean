import Verif.Party
import Verif.Lemmas.Ledger
import Verif.Lemmas.Inv
import Verif.Lemmas.PoolEvo

/-!
# Helper lemmas for C66: who is paid and who is charged
-/

namespace OraiV3

theorem OutMsg.Between.mono {self sender : Bytes} {P Q : Bytes → Prop} (hPQ : ∀ t, P t → Q t) {m : OutMsg}
    (h : m.Between self sender P) : m.Between self sender Q := by
  cases m with
  | cw20Transfer t to n => exact ⟨h.1, hPQ _ h.2⟩
  | bankSend to d n => exact ⟨h.1, hPQ _ h.2⟩
  | cw20TransferFrom t o to n => exact ⟨h.1, h.2.1, hPQ _ h.2.2⟩
  | nftReceive _ _ _ _ => exact h

theorem between_pay {c : Chain} {info : Info} {d : Bytes} {n : Nat} {P : Bytes → Prop} (hd : P d) :
    ∀ m ∈ assetTransfer c d n info, m.Between c.self info.sender P := by
  intro m hm
  unfold assetTransfer at hm
  split at hm
  · simp at hm
  · split at hm <;> (rw [List.mem_singleton] at hm; subst hm; exact ⟨rfl, hd⟩)

theorem between_charge {c : Chain} {info : Info} {d : Bytes} {n : Nat} {P : Bytes → Prop} {ms : List OutMsg} (hd : P d)
    (h : assetTransferFrom c d n info = .ok ms) : ∀ m ∈ ms, m.Between c.self info.sender P := by
  intro m hm
  unfold assetTransferFrom at h
  split at h
  · rw [ok_inj] at h; subst h; simp at hm
  · split at h
    · rw [ok_inj] at h; subst h; rw [List.mem_singleton] at hm; subst hm; exact ⟨rfl, rfl, hd⟩
    · split at h
      · split at h
        · split at h
          · rw [ok_inj] at h; subst h; simp at hm
          · rw [ok_inj] at h; subst h; rw [List.mem_singleton] at hm; subst hm; exact ⟨rfl, hd⟩
        · simp at h
      · simp at h

theorem between_append {self sender : Bytes} {P : Bytes → Prop} {a b : List OutMsg}
    (ha : ∀ m ∈ a, m.Between self sender P) (hb : ∀ m ∈ b, m.Between self sender P) :
    ∀ m ∈ a ++ b, m.Between self sender P := by
  intro m hm
  rcases List.mem_append.1 hm with h | h
  · exact ha m h
  · exact hb m h

theorem between_swap {c : Chain} {s : Store} {info : Info} {now : Nat} {k : PoolKey} {d : Bool} {amount : Nat} {b : Bool}
    {limit : Nat} {x : Store × List OutMsg × CalcSwapResult} (h : swapInternal c s info now k d amount b limit = .ok x) :
    ∀ m ∈ x.2.1, m.Between c.self info.sender (fun t => t = k.tokenX ∨ t = k.tokenY) := by
  obtain ⟨s1, m1, -, -, -, h4, h5⟩ := swapInternal_inv h
  rw [h5]
  refine between_append (between_charge ?_ h4) (between_pay ?_) <;> cases d <;> simp

theorem between_route {c : Chain} {info : Info} {now : Nat} {P : Bytes → Prop} : ∀ {hops : List Hop} {s s' : Store}
    {amount fin : Nat} {ms out : List OutMsg}, swapRouteInternal c info now hops s amount ms = .ok (s', fin, out) →
    (∀ h ∈ hops, P h.poolKey.tokenX ∧ P h.poolKey.tokenY) → (∀ m ∈ ms, m.Between c.self info.sender P) →
    ∀ m ∈ out, m.Between c.self info.sender P
  | [], s, s', amount, fin, ms, out, h, _, hm => by
    simp only [swapRouteInternal, ok_inj, Prod.mk.injEq] at h
    rw [← h.2.2]; exact hm
  | hd :: tl, s, s', amount, fin, ms, out, h, hP, hm => by
    simp only [swapRouteInternal, bind_ok] at h
    obtain ⟨r, h1, h2⟩ := h
    refine between_route h2 (fun x hx => hP x (List.mem_cons_of_mem _ hx)) (between_append hm ?_)
    intro m hmm
    refine (between_swap h1 m hmm).mono ?_
    have := hP hd List.mem_cons_self
    rintro t (rfl | rfl)
    · exact this.1
    · exact this.2

theorem between_remove {c : Chain} {s s' : Store} {env : Env} {info : Info} {i : Nat} {out : List OutMsg}
    (h : removePosition c s env info i = .ok (s', out)) :
    ∃ p, s.positions.get? (positionKey info.sender i) = some p ∧
      ∀ m ∈ out, m.Between c.self info.sender (fun t => t = p.poolKey.tokenX ∨ t = p.poolKey.tokenY) := by
  obtain ⟨pos, lower, upper, pool, r, s1, s2, pos', h1, -, -, -, -, h6, h7, h8, h9⟩ := removePosition_inv h
  obtain ⟨_, _, h6⟩ := settleTick_frame h6
  obtain ⟨_, _, h7⟩ := settleTick_frame h7
  obtain ⟨_, _, h8, _⟩ := removePositionAt_inv h8
  subst h7 h6
  have h8 : s.positions.get? (positionKey info.sender i) = some pos' := h8
  rw [h1] at h8
  cases h8
  refine ⟨pos, h1, ?_⟩
  rw [h9]
  exact between_append (between_pay (.inl rfl)) (between_pay (.inr rfl))

/-- Every message of a response moves a token of a pool the call is about between the sender and the contract, or is the
notification of a `SendNft`. -/
theorem messages_between {c : Chain} {env : Env} {info : Info} {msg : Msg} {s s' : Store} {out : List OutMsg}
    (h0 : execute c env info msg s = .ok (s', out)) :
    (∀ m ∈ out, m.Between c.self info.sender
      (fun t => ∃ k, msg.onPool s info.sender k ∧ (t = k.tokenX ∨ t = k.tokenY))) ∨
    ∃ rcv id data, msg = .sendNft rcv id data ∧ out = [.nftReceive rcv info.sender id data] := by
  have nil : out = [] → ∀ m ∈ out, m.Between c.self info.sender
      (fun t => ∃ k, msg.onPool s info.sender k ∧ (t = k.tokenX ∨ t = k.tokenY)) := by
    rintro rfl m hm; simp at hm
  have h := (execute_ok.1 h0).2
  have dep : ∀ {k l u L lo hi}, createPosition c s env info k l u L lo hi = .ok (s', out) →
      ∀ m ∈ out, m.Between c.self info.sender (fun t => t = k.tokenX ∨ t = k.tokenY) := by
    intro k l u L lo hi h
    obtain ⟨_, _, _, _, _, _, m1, m2, _, _, _, _, _, _, _, _, _, h1, h2, h3⟩ := createPosition_inv h
    rw [h3]
    exact between_append (between_charge (.inl rfl) h1) (between_charge (.inr rfl) h2)
  cases msg <;> simp only [dispatch] at h
  case changeAdmin a =>
    simp only [changeAdmin, bind_ok, ite_error_ok, pure_ok, Prod.mk.injEq] at h
    exact .inl (nil h.choose_spec.2.2.2.symm)
  case withdrawProtocolFee k =>
    simp only [withdrawProtocolFee, bind_ok, ite_error_ok, pure_ok, Prod.mk.injEq] at h
    obtain ⟨p0, _, _, _, h⟩ := h
    rw [← h]
    exact .inl (between_append (between_pay ⟨k, rfl, .inl rfl⟩) (between_pay ⟨k, rfl, .inr rfl⟩))
  case changeProtocolFee f =>
    simp only [changeProtocolFee, bind_ok, ite_error_ok, pure_ok, Prod.mk.injEq] at h
    exact .inl (nil h.choose_spec.2.2.2.symm)
  case changeFeeReceiver k r =>
    simp only [changeFeeReceiver, bind_ok, ite_error_ok, pure_ok, Prod.mk.injEq] at h
    obtain ⟨_, _, _, _, _, _, h⟩ := h
    exact .inl (nil h.symm)
  case createPosition k l u L lo hi =>
    exact .inl fun m hm => (dep h m hm).mono fun t ht => ⟨k, rfl, ht⟩
  case mint k l u L lo hi =>
    exact .inl fun m hm => (dep h m hm).mono fun t ht => ⟨k, rfl, ht⟩
  case swap k d a b lim =>
    obtain ⟨r, h⟩ := swap_inv h
    exact .inl fun m hm => (between_swap h m hm).mono fun t ht => ⟨k, rfl, ht⟩
  case swapRoute a e sl hops =>
    obtain ⟨_, _, h, -, -⟩ := swapRoute_inv h
    refine .inl (between_route h (fun x hx => ⟨⟨x.poolKey, ⟨x, hx, rfl⟩, .inl rfl⟩, ⟨x.poolKey, ⟨x, hx, rfl⟩, .inr rfl⟩⟩) ?_)
    intro m hm; simp at hm
  case transferPosition i r =>
    obtain ⟨_, _, _, _, _, _, h⟩ := transferPosition_inv h
    exact .inl (nil h)
  case claimFee i =>
    obtain ⟨pos, _, _, _, _, _, _, h1, _, _, _, _, _, _, _, h⟩ := claimFee_inv h
    rw [h]
    exact .inl (between_append (between_pay ⟨_, ⟨pos, h1, rfl⟩, .inl rfl⟩) (between_pay ⟨_, ⟨pos, h1, rfl⟩, .inr rfl⟩))
  case removePosition i =>
    obtain ⟨p, h1, h2⟩ := between_remove h
    exact .inl fun m hm => (h2 m hm).mono fun t ht => ⟨p.poolKey, ⟨p, h1, rfl⟩, ht⟩
  case createPool t0 t1 tier p t =>
    obtain ⟨_, _, _, _, _, _, _, _, _, _, h⟩ := createPool_inv h
    exact .inl (nil h)
  case addFeeTier t =>
    simp only [addFeeTier, bind_ok, ite_error_ok, pure_ok, Prod.mk.injEq] at h
    obtain ⟨_, _, _, _, _, _, h⟩ := h
    exact .inl (nil h.symm)
  case removeFeeTier t =>
    simp only [removeFeeTier, bind_ok, ite_error_ok] at h
    obtain ⟨_, _, _, h⟩ := h
    split at h
    · rw [pure_ok, Prod.mk.injEq] at h; exact .inl (nil h.2.symm)
    · simp at h
  case transferNft r id =>
    simp only [transferNft, bind_ok, pure_ok, Prod.mk.injEq] at h
    obtain ⟨_, _, _, h⟩ := h
    exact .inl (nil h.symm)
  case burn id =>
    obtain ⟨_, _, _, _, _, h⟩ := burn_inv h
    obtain ⟨p, h1, h2⟩ := between_remove h
    exact .inl fun m hm => (h2 m hm).mono fun t ht => ⟨p.poolKey, ⟨p, h1, rfl⟩, ht⟩
  case sendNft ct id m =>
    simp only [sendNft, bind_ok, pure_ok, Prod.mk.injEq] at h
    obtain ⟨_, _, _, h⟩ := h
    exact .inr ⟨ct, id, m, rfl, h.symm⟩
  case approve sp id ex =>
    obtain ⟨_, _, _, _, _, h, _⟩ := updateApprovals_inv h
    exact .inl (nil h)
  case revoke sp id =>
    obtain ⟨_, _, _, _, _, h, _⟩ := updateApprovals_inv h
    exact .inl (nil h)
  case approveAll o ex =>
    simp only [approveAll, ite_error_ok, ok_inj, Prod.mk.injEq] at h
    exact .inl (nil h.2.2.symm)
  case revokeAll o =>
    simp only [revokeAll, ok_inj, Prod.mk.injEq] at h
    exact .inl (nil h.2.symm)

/-! ## Ledger -/

theorem between_third {c : Chain} {sender : Bytes} {P : Bytes → Prop} {x : Bytes} (hs : x ≠ sender) (hc : x ≠ c.self)
    {a : Asset} {out : List OutMsg} (h : ∀ m ∈ out, m.Between c.self sender P) : outDelta c out a x = 0 := by
  unfold outDelta
  induction out with
  | nil => rfl
  | cons m ms ih =>
    rw [List.map_cons, List.sum_cons, ih (fun y hy => h y (List.mem_cons_of_mem _ hy)), Int.add_zero]
    have hm := h m List.mem_cons_self
    cases m with
    | cw20Transfer t to n => obtain ⟨rfl, _⟩ := hm; simp [OutMsg.delta, moveDelta, hs, hc]
    | bankSend to d n => obtain ⟨rfl, _⟩ := hm; simp [OutMsg.delta, moveDelta, hs, hc]
    | cw20TransferFrom t o to n => obtain ⟨rfl, rfl, _⟩ := hm; simp [OutMsg.delta, moveDelta, hs, hc]
    | nftReceive _ _ _ _ => exact hm.elim

theorem between_total {c : Chain} {sender : Bytes} {P : Bytes → Prop} (hne : sender ≠ c.self)
    {a : Asset} {out : List OutMsg} (h : ∀ m ∈ out, m.Between c.self sender P) :
    outDelta c out a sender + outDelta c out a c.self = 0 := by
  unfold outDelta
  induction out with
  | nil => rfl
  | cons m ms ih =>
    have ih := ih (fun y hy => h y (List.mem_cons_of_mem _ hy))
    rw [List.map_cons, List.sum_cons, List.map_cons, List.sum_cons]
    have hm := h m List.mem_cons_self
    have key : m.delta c a sender + m.delta c a c.self = 0 := by
      have hne' := hne.symm
      cases m with
      | cw20Transfer t to n =>
        obtain ⟨rfl, _⟩ := hm
        by_cases ha : a = .cw20 t <;> simp [OutMsg.delta, moveDelta, ha, hne, hne'] <;> omega
      | bankSend to d n =>
        obtain ⟨rfl, _⟩ := hm
        by_cases ha : a = .native d <;> simp [OutMsg.delta, moveDelta, ha, hne, hne'] <;> omega
      | cw20TransferFrom t o to n =>
        obtain ⟨rfl, rfl, _⟩ := hm
        by_cases ha : a = .cw20 t <;> simp [OutMsg.delta, moveDelta, ha, hne, hne'] <;> omega
      | nftReceive _ _ _ _ => exact hm.elim
    omega

theorem between_other {c : Chain} {sender : Bytes} {P : Bytes → Prop} {a : Asset} (ha : ¬ P a.name) (x : Bytes)
    {out : List OutMsg} (h : ∀ m ∈ out, m.Between c.self sender P) : outDelta c out a x = 0 := by
  unfold outDelta
  induction out with
  | nil => rfl
  | cons m ms ih =>
    rw [List.map_cons, List.sum_cons, ih (fun y hy => h y (List.mem_cons_of_mem _ hy)), Int.add_zero]
    have hm := h m List.mem_cons_self
    cases m with
    | cw20Transfer t to n =>
      have : a ≠ .cw20 t := fun e => ha (by rw [e]; exact hm.2)
      simp [OutMsg.delta, moveDelta, this]
    | bankSend to d n =>
      have : a ≠ .native d := fun e => ha (by rw [e]; exact hm.2)
      simp [OutMsg.delta, moveDelta, this]
    | cw20TransferFrom t o to n =>
      have : a ≠ .cw20 t := fun e => ha (by rw [e]; exact hm.2.2)
      simp [OutMsg.delta, moveDelta, this]
    | nftReceive _ _ _ _ => exact hm.elim

theorem fundsDelta_third {c : Chain} {sender : Bytes} {fs : List Coin} {a : Asset} {x : Bytes} (hs : x ≠ sender) (hc : x ≠ c.self) :
    fundsDelta c sender fs a x = 0 := by
  cases a with
  | cw20 t => rw [fundsDelta_cw20]
  | native d => rw [fundsDelta_native]; simp [hs, hc]

theorem fundsDelta_total {c : Chain} {sender : Bytes} (hne : sender ≠ c.self) {fs : List Coin} {a : Asset} :
    fundsDelta c sender fs a sender + fundsDelta c sender fs a c.self = 0 := by
  cases a with
  | cw20 t => rw [fundsDelta_cw20, fundsDelta_cw20]; rfl
  | native d => rw [fundsDelta_native, fundsDelta_native]; simp [hne, hne.symm]; omega

theorem fundsDelta_other {c : Chain} {sender : Bytes} {fs : List Coin} {a : Asset} (h : ∀ f ∈ fs, f.denom ≠ a.name) (x : Bytes) :
    fundsDelta c sender fs a x = 0 := by
  cases a with
  | cw20 t => rw [fundsDelta_cw20]
  | native d =>
    have : attached fs d = 0 := by
      unfold attached
      rw [List.filter_eq_nil_iff.2 (fun f hf => by simpa [Asset.name] using h f hf)]; rfl
    rw [fundsDelta_native, this]; simp

theorem move_allow {l l' : Ledger} {a : Asset} {src dst : Bytes} {n : Nat} (h : l.move a src dst n = .ok l') :
    l'.allow = l.allow := by
  unfold Ledger.move at h
  rw [ite_error_ok, ok_inj] at h
  obtain ⟨_, rfl⟩ := h
  rfl

theorem takeFunds_allow {c : Chain} {sender : Bytes} : ∀ {fs : List Coin} {l l' : Ledger},
    l.takeFunds c sender fs = .ok l' → l'.allow = l.allow
  | [], l, l', h => by
    simp only [Ledger.takeFunds, ok_inj] at h
    rw [← h]
  | f :: fs, l, l', h => by
    simp only [Ledger.takeFunds, bind_ok] at h
    obtain ⟨l1, h1, h2⟩ := h
    rw [takeFunds_allow h2, move_allow h1]

theorem applyAll_allow {c : Chain} {sender : Bytes} {P : Bytes → Prop} {x : Bytes} (hs : x ≠ sender) :
    ∀ {ms : List OutMsg} {l l' : Ledger}, l.applyAll c ms = .ok l' → (∀ m ∈ ms, m.Between c.self sender P) →
    ∀ t, l'.allow t x = l.allow t x
  | [], l, l', h, _, t => by
    simp only [Ledger.applyAll, ok_inj] at h
    rw [← h]
  | m :: ms, l, l', h, hb, t => by
    simp only [Ledger.applyAll, bind_ok] at h
    obtain ⟨l1, h1, h2⟩ := h
    rw [applyAll_allow hs h2 (fun y hy => hb y (List.mem_cons_of_mem _ hy)) t]
    have hm := hb m List.mem_cons_self
    cases m with
    | cw20Transfer t' to n => rw [move_allow h1]
    | bankSend to d n => rw [move_allow h1]
    | cw20TransferFrom t' o to n =>
      simp only [Ledger.apply, ite_error_ok] at h1
      obtain ⟨rfl, _⟩ := hm
      rw [move_allow h1.2]
      simp only [upd]
      by_cases ht : t = t'
      · subst ht; simp [upd, hs]
      · simp [ht]
    | nftReceive _ _ _ _ => exact hm.elim

end OraiV3
