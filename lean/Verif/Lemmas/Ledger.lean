import Verif.Ledger
import Verif.Lemmas.Monad

/-!
# Balance changes caused by the messages of a response
-/

namespace OraiV3

/-- Change of the balance of `h` in `a` when `n` of `a0` moves from `src` to `dst`. -/
def moveDelta (a0 : Asset) (src dst : Bytes) (n : Nat) (a : Asset) (h : Bytes) : Int :=
  if a = a0 then (if h = dst then (n : Int) else 0) - (if h = src then (n : Int) else 0) else 0

theorem move_bal {l l' : Ledger} {a0 : Asset} {src dst : Bytes} {n : Nat} (h : l.move a0 src dst n = .ok l')
    (a : Asset) (x : Bytes) : (l'.bal a x : Int) = l.bal a x + moveDelta a0 src dst n a x := by
  unfold Ledger.move at h
  rw [ite_error_ok, ok_inj] at h
  obtain ⟨h1, rfl⟩ := h
  unfold moveDelta
  by_cases ha : a = a0
  · subst ha
    simp only [upd, if_true]
    by_cases hd : x = dst
    · by_cases hs : x = src
      · subst hs; subst hd; simp; omega
      · subst hd; simp [hs]
    · by_cases hs : x = src
      · subst hs; simp [hd]; omega
      · simp [hs, hd]
  · simp [upd, ha]

/-- Balance change caused by one message. -/
def OutMsg.delta (c : Chain) (m : OutMsg) (a : Asset) (h : Bytes) : Int :=
  match m with
  | .cw20Transfer t to n => moveDelta (.cw20 t) c.self to n a h
  | .bankSend to d n => moveDelta (.native d) c.self to n a h
  | .cw20TransferFrom t owner to n => moveDelta (.cw20 t) owner to n a h
  | .nftReceive .. => 0

/-- Balance change caused by a list of messages. -/
def outDelta (c : Chain) (ms : List OutMsg) (a : Asset) (h : Bytes) : Int := (ms.map (fun m => m.delta c a h)).sum

theorem outDelta_append (c : Chain) (ms ms' : List OutMsg) (a : Asset) (h : Bytes) :
    outDelta c (ms ++ ms') a h = outDelta c ms a h + outDelta c ms' a h := by
  unfold outDelta; rw [List.map_append, List.sum_append]

/-- Balance change caused by the attached funds. -/
def fundsDelta (c : Chain) (sender : Bytes) (fs : List Coin) (a : Asset) (h : Bytes) : Int :=
  (fs.map (fun x => moveDelta (.native x.denom) sender c.self x.amount a h)).sum

theorem apply_bal {c : Chain} {l l' : Ledger} {m : OutMsg} (h : l.apply c m = .ok l') (a : Asset) (x : Bytes) :
    (l'.bal a x : Int) = l.bal a x + m.delta c a x := by
  cases m with
  | cw20Transfer t to n => exact move_bal h a x
  | bankSend to d n => exact move_bal h a x
  | cw20TransferFrom t o to n =>
    simp only [Ledger.apply, ite_error_ok] at h
    exact move_bal h.2 a x
  | nftReceive _ _ _ _ =>
    simp only [Ledger.apply, ok_inj] at h
    subst h; simp [OutMsg.delta]

theorem applyAll_bal {c : Chain} : ∀ {ms : List OutMsg} {l l' : Ledger}, l.applyAll c ms = .ok l' →
    ∀ (a : Asset) (x : Bytes), (l'.bal a x : Int) = l.bal a x + outDelta c ms a x
  | [], l, l', h, a, x => by
    simp only [Ledger.applyAll, ok_inj] at h
    subst h; simp [outDelta]
  | m :: ms, l, l', h, a, x => by
    simp only [Ledger.applyAll, bind_ok] at h
    obtain ⟨l1, h1, h2⟩ := h
    rw [applyAll_bal h2 a x, apply_bal h1 a x]
    simp only [outDelta, List.map_cons, List.sum_cons]
    omega

theorem takeFunds_bal {c : Chain} {sender : Bytes} : ∀ {fs : List Coin} {l l' : Ledger},
    l.takeFunds c sender fs = .ok l' →
    ∀ (a : Asset) (x : Bytes), (l'.bal a x : Int) = l.bal a x + fundsDelta c sender fs a x
  | [], l, l', h, a, x => by
    simp only [Ledger.takeFunds, ok_inj] at h
    subst h; simp [fundsDelta]
  | f :: fs, l, l', h, a, x => by
    simp only [Ledger.takeFunds, bind_ok] at h
    obtain ⟨l1, h1, h2⟩ := h
    rw [takeFunds_bal h2 a x, move_bal h1 a x]
    simp only [fundsDelta, List.map_cons, List.sum_cons]
    omega

theorem tx_inv {c : Chain} {w w' : World} {env : Env} {info : Info} {msg : Msg}
    (h : w.tx c env info msg = .ok w') :
    ∃ out, execute c env info msg w.store = .ok (w'.store, out) ∧
      ∀ a x, (w'.ledger.bal a x : Int) =
        w.ledger.bal a x + fundsDelta c info.sender info.funds a x + outDelta c out a x := by
  unfold World.tx at h
  simp only [bind_ok, pure_ok] at h
  obtain ⟨l1, h1, r, h2, l2, h3, rfl⟩ := h
  refine ⟨r.2, h2, fun a x => ?_⟩
  rw [applyAll_bal h3 a x, takeFunds_bal h1 a x]

/-- Total of a denomination among attached funds. -/
def attached (fs : List Coin) (d : Bytes) : Nat := ((fs.filter (fun x => x.denom = d)).map Coin.amount).sum

theorem fundsDelta_cw20 (c : Chain) (sender : Bytes) (fs : List Coin) (t : Bytes) (h : Bytes) :
    fundsDelta c sender fs (.cw20 t) h = 0 := by
  unfold fundsDelta
  induction fs with
  | nil => rfl
  | cons f fs ih => rw [List.map_cons, List.sum_cons, ih]; simp [moveDelta]

theorem fundsDelta_native (c : Chain) (sender : Bytes) (fs : List Coin) (d : Bytes) (h : Bytes) :
    fundsDelta c sender fs (.native d) h =
      (if h = c.self then (attached fs d : Int) else 0) - (if h = sender then (attached fs d : Int) else 0) := by
  unfold fundsDelta attached
  induction fs with
  | nil => simp
  | cons f fs ih =>
    rw [List.map_cons, List.sum_cons, ih]
    by_cases hd : f.denom = d
    · simp only [moveDelta, hd, if_true, decide_true, List.filter_cons_of_pos, List.map_cons, List.sum_cons]
      split <;> split <;> push_cast <;> omega
    · have hd' : ¬ d = f.denom := fun e => hd e.symm
      simp [moveDelta, hd, hd']

/-- Funds of the sender never grow by attaching them. -/
theorem fundsDelta_sender {c : Chain} {sender : Bytes} (hne : sender ≠ c.self) (fs : List Coin) (a : Asset) :
    fundsDelta c sender fs a sender ≤ 0 := by
  cases a with
  | cw20 t => rw [fundsDelta_cw20]; exact Int.le_refl _
  | native d => rw [fundsDelta_native]; simp [hne]

/-- Payment of `n` to the sender. -/
theorem assetTransfer_delta (c : Chain) (d : Bytes) (n : Nat) (info : Info) (a : Asset) (h : Bytes) :
    outDelta c (assetTransfer c d n info) a h = moveDelta (tokenAsset c d) c.self info.sender n a h := by
  unfold assetTransfer tokenAsset
  by_cases hn : n = 0
  · subst hn; simp [outDelta, moveDelta]
  · by_cases hc : c.isAddr d
    · simp [hn, hc, outDelta, OutMsg.delta]
    · simp [hn, hc, outDelta, OutMsg.delta]

/-- A charge of `n`: a cw20 transfer, or the refund of what is left of the attached coin. -/
theorem assetTransferFrom_delta {c : Chain} {d : Bytes} {n : Nat} {info : Info} {ms : List OutMsg}
    (h : assetTransferFrom c d n info = .ok ms) (a : Asset) (x : Bytes) :
    (n = 0 ∧ ms = []) ∨
    (c.isAddr d = true ∧ outDelta c ms a x = moveDelta (tokenAsset c d) info.sender c.self n a x) ∨
    (c.isAddr d = false ∧ ∃ coin, info.funds.find? (fun y => y.denom = d) = some coin ∧ n ≤ coin.amount ∧
      outDelta c ms a x = moveDelta (tokenAsset c d) c.self info.sender (coin.amount - n) a x) := by
  unfold assetTransferFrom at h
  by_cases hn : n = 0
  · simp only [hn, if_true, ok_inj] at h; exact .inl ⟨hn, h.symm⟩
  rw [if_neg hn] at h
  right
  by_cases hc : c.isAddr d
  · simp only [hc, if_true, ok_inj] at h
    subst h
    left
    simp [hc, outDelta, OutMsg.delta, tokenAsset]
  · simp only [hc, Bool.false_eq_true, if_false] at h
    right
    refine ⟨by simpa using hc, ?_⟩
    cases hf : info.funds.find? (fun y => y.denom = d) with
    | none => rw [hf] at h; simp at h
    | some coin =>
      rw [hf] at h
      simp only at h
      rw [ite_ok_error] at h
      obtain ⟨h1, h2⟩ := h
      refine ⟨coin, rfl, h1, ?_⟩
      by_cases hz : coin.amount - n = 0
      · simp only [hz, if_true, ok_inj] at h2
        subst h2
        rw [hz]; simp [outDelta, moveDelta]
      · simp only [hz, if_false, ok_inj] at h2
        subst h2
        simp [outDelta, OutMsg.delta, tokenAsset, hc]

theorem attached_find {fs : List Coin} {d : Bytes} {coin : Coin}
    (h : fs.find? (fun y => y.denom = d) = some coin) : coin.amount ≤ attached fs d := by
  unfold attached
  induction fs with
  | nil => simp at h
  | cons f fs ih =>
    rw [List.find?_cons] at h
    by_cases hd : f.denom = d
    · simp only [hd, decide_true, Option.some.injEq] at h
      subst h; simp [hd]
    · simp only [hd, decide_false] at h
      simp [hd]; exact ih h

theorem tokenAsset_inj {c : Chain} {d d' : Bytes} (h : tokenAsset c d = tokenAsset c d') : d = d' := by
  unfold tokenAsset at h
  split at h <;> split at h <;> simp_all

/-- A charge in one token moves no other asset. -/
theorem assetTransferFrom_other {c : Chain} {d : Bytes} {n : Nat} {info : Info} {ms : List OutMsg}
    (h : assetTransferFrom c d n info = .ok ms) {a : Asset} (ha : a ≠ tokenAsset c d) (x : Bytes) :
    outDelta c ms a x = 0 := by
  rcases assetTransferFrom_delta h a x with ⟨_, h⟩ | ⟨_, h⟩ | ⟨_, coin, _, _, h⟩
  · subst h; rfl
  · rw [h]; simp [moveDelta, ha]
  · rw [h]; simp [moveDelta, ha]

/-- The sender pays at least the charge. -/
theorem assetTransferFrom_sender {c : Chain} {d : Bytes} {n : Nat} {info : Info} {ms : List OutMsg}
    (hne : info.sender ≠ c.self) (h : assetTransferFrom c d n info = .ok ms) :
    fundsDelta c info.sender info.funds (tokenAsset c d) info.sender +
      outDelta c ms (tokenAsset c d) info.sender ≤ -(n : Int) := by
  rcases assetTransferFrom_delta h (tokenAsset c d) info.sender with ⟨h0, h⟩ | ⟨hc, h⟩ | ⟨hc, coin, hf, hn, h⟩
  · subst h; subst h0
    have := fundsDelta_sender hne info.funds (tokenAsset c d)
    simp [outDelta]; omega
  · rw [h]
    have := fundsDelta_sender hne info.funds (tokenAsset c d)
    simp [moveDelta, hne]; omega
  · rw [h]
    have e : tokenAsset c d = .native d := by simp [tokenAsset, hc]
    rw [e, fundsDelta_native]
    have := attached_find hf
    simp [moveDelta, hne]; omega

theorem assetTransfer_sender {c : Chain} {d : Bytes} {n : Nat} {info : Info} (hne : info.sender ≠ c.self)
    (a : Asset) : outDelta c (assetTransfer c d n info) a info.sender = if a = tokenAsset c d then (n : Int) else 0 := by
  rw [assetTransfer_delta]; simp [moveDelta, hne]

theorem attached_unique {fs : List Coin} (hn : (fs.map Coin.denom).Nodup) {d : Bytes} :
    attached fs d = match fs.find? (fun y => y.denom = d) with | some c => c.amount | none => 0 := by
  unfold attached
  induction fs with
  | nil => rfl
  | cons f fs ih =>
    simp only [List.map_cons, List.nodup_cons] at hn
    rw [List.find?_cons]
    by_cases hd : f.denom = d
    · have : fs.filter (fun x => x.denom = d) = [] := by
        rw [List.filter_eq_nil_iff]
        intro x hx e
        simp only [decide_eq_true_eq] at e
        exact hn.1 (by rw [hd, ← e]; exact List.mem_map_of_mem hx)
      simp [hd, this]
    · simp only [hd, decide_false]
      rw [List.filter_cons_of_neg (by simp [hd])]
      exact ih hn.2

end OraiV3
