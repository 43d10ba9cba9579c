import Verif.Lemmas.Solvent
import Verif.WorldExamples

/-!
# C04: solvency

False as stated: swaps of the kind excluded by `RegularEnd` make the contract owe more than it has
(`C04_false`), and so do routes that use one attached coin for several hops (`C29_false`).  For all histories without them
the balances cover the obligations (`C04_solvent_partial`).  To know this of a token only swaps in pools that trade it matter.
-/

namespace OraiV3

/-- In every history of calls, with any other transactions in between, for every token of `T` and any set of
pools: what these pools owe in that token, exactly, is at most the contract's balance plus `10^-14` of the smallest unit
for each position opened and each price step taken (the price of rounding the required amount of X with 24 decimals). -/
theorem C04_solvent_partial {c : Chain} {T : Bytes → Prop} {w : World} {n : Nat} (h : History c T w n) {ks : List PoolKey} (hn : ks.Nodup)
    (hw : ∀ k ∈ ks, k.wf) {t : Bytes} (ht : T t) : owes w.store ks t ≤ w.ledger.bal (tokenAsset c t) c.self + n / 10 ^ 14 :=
  h.solvent ks hn hw t ht

/-- In whole units, up to a hundred trillion roundings: the balance covers the obligations. -/
theorem C04_whole_units_partial {c : Chain} {T : Bytes → Prop} {w : World} {n : Nat} (h : History c T w n) (hn : n < 10 ^ 14) {ks : List PoolKey}
    (hk : ks.Nodup) (hw : ∀ k ∈ ks, k.wf) {t : Bytes} (ht : T t) {m : Nat} (hm : (m : ℚ) ≤ owes w.store ks t) :
    m ≤ w.ledger.bal (tokenAsset c t) c.self := by
  have h1 := h.solvent ks hk hw t ht
  have h2 : (n : ℚ) / 10 ^ 14 < 1 := by
    rw [div_lt_one (by positivity)]
    exact_mod_cast hn
  have h3 : (m : ℚ) < w.ledger.bal (tokenAsset c t) c.self + 1 := by linarith
  have : m < w.ledger.bal (tokenAsset c t) c.self + 1 := by exact_mod_cast h3
  omega

theorem move_ok {l : Ledger} {a : Asset} {src dst : Bytes} {n : Nat} (h : n ≤ l.bal a src) : ∃ l', l.move a src dst n = .ok l' := by
  unfold Ledger.move
  rw [if_neg (by omega)]
  exact ⟨_, rfl⟩

theorem applyAll_append {c : Chain} : ∀ {ms ms' : List OutMsg} {l l1 : Ledger}, l.applyAll c ms = .ok l1 →
    l.applyAll c (ms ++ ms') = l1.applyAll c ms'
  | [], ms', l, l1, h => by simp only [Ledger.applyAll, ok_inj] at h; subst h; rfl
  | m :: ms, ms', l, l1, h => by
    simp only [Ledger.applyAll, bind_ok] at h
    obtain ⟨l2, h1, h2⟩ := h
    have := applyAll_append (ms' := ms') h2
    simp only [List.cons_append, Ledger.applyAll, h1]
    exact this

theorem transfer_ok {c : Chain} {l : Ledger} {d : Bytes} {n : Nat} {info : Info} (h : n ≤ l.bal (tokenAsset c d) c.self) :
    ∃ l', l.applyAll c (assetTransfer c d n info) = .ok l' := by
  unfold assetTransfer
  by_cases hn : n = 0
  · rw [if_pos hn]; exact ⟨l, rfl⟩
  · rw [if_neg hn]
    unfold tokenAsset at h
    by_cases hc : c.isAddr d
    · rw [if_pos hc] at h ⊢
      obtain ⟨l', hl⟩ := move_ok (dst := info.sender) h
      refine ⟨l', ?_⟩
      simp only [Ledger.applyAll, Ledger.apply, hl]
      rfl
    · rw [if_neg hc] at h ⊢
      obtain ⟨l', hl⟩ := move_ok (dst := info.sender) h
      refine ⟨l', ?_⟩
      simp only [Ledger.applyAll, Ledger.apply, hl]
      rfl

/-- Is the call one that only pays out? -/
def Msg.isPayout : Msg → Bool
  | .claimFee _ | .removePosition _ | .burn _ | .withdrawProtocolFee _ => true
  | _ => false

/-- What a payout sends, and that the pool owes that much less. -/
theorem payout_shape {c : Chain} {s s' : Store} {env : Env} {who : Bytes} {msg : Msg} {out : List OutMsg} (hr : Reach c s)
    (hm : msg.isPayout = true) (he : execute c env ⟨who, []⟩ msg s = .ok (s', out)) :
    ∃ k x y, out = assetTransfer c k.tokenX x ⟨who, []⟩ ++ assetTransfer c k.tokenY y ⟨who, []⟩ ∧
      PoolStep s s' k (-(x : Nat)) (-(y : Nat)) ∧ k.tokenX ≠ k.tokenY := by
  have hmr := hr.mreach
  have hmr' := Reach.mreach (.step hr he)
  have hw := (execute_ok.1 he).1
  have h := (execute_ok.1 he).2
  cases msg <;> simp only [Msg.isPayout, Bool.false_eq_true] at hm <;> simp only [dispatch] at h
  case withdrawProtocolFee k =>
    simp only [withdrawProtocolFee, bind_ok, ite_error_ok, pure_ok, Prod.mk.injEq, getPool_ok] at h
    obtain ⟨p0, hp0, _, h, ho⟩ := h
    refine ⟨k, p0.protoX, p0.protoY, ho.symm, ?_, swap_tokens_ne hmr.struct hw hp0 true⟩
    rw [← h]
    exact savePool_step (p' := { p0 with protoX := 0, protoY := 0 }) hw hp0 rfl rfl rfl rfl (by simp) (by simp)
  case claimFee i => exact PoolStep.claim hmr.struct h
  case removePosition i => exact PoolStep.remove hmr.struct hmr'.struct hmr.posInv hmr'.tickSum hmr.price hw h
  case burn id =>
    obtain ⟨o, _, h1, _, _, h⟩ := burn_inv h
    exact PoolStep.remove hmr.struct hmr'.struct hmr.posInv hmr'.tickSum hmr.price (tokenOwner_spec h1).2 h

/-- The amounts of a payout are part of what the pool owes. -/
theorem payout_le {s s' : Store} {k : PoolKey} {x y : Nat} (hp : PoolStep s s' k (-(x : Nat)) (-(y : Nat))) (hne : k.tokenX ≠ k.tokenY) :
    (x : ℚ) ≤ owes s [k] k.tokenX ∧ (y : ℚ) ≤ owes s [k] k.tokenY := by
  constructor
  · rw [owes_cons, if_pos rfl, if_neg (Ne.symm hne)]
    have := hp.x
    have := poolOwes_nonneg s' k true
    simp only [owes, List.map_nil, List.sum_nil]
    linarith
  · rw [owes_cons, if_pos rfl, if_neg hne]
    have := hp.y
    have := poolOwes_nonneg s' k false
    simp only [owes, List.map_nil, List.sum_nil]
    linarith

/-- Enough balance for both amounts is enough for the transaction. -/
theorem payout_tx {c : Chain} {w : World} {env : Env} {who : Bytes} {msg : Msg} {s' : Store} {k : PoolKey} {x y : Nat}
    (he : execute c env ⟨who, []⟩ msg w.store =
      .ok (s', assetTransfer c k.tokenX x ⟨who, []⟩ ++ assetTransfer c k.tokenY y ⟨who, []⟩)) (hne : k.tokenX ≠ k.tokenY)
    (hx : x ≤ w.ledger.bal (tokenAsset c k.tokenX) c.self) (hy : y ≤ w.ledger.bal (tokenAsset c k.tokenY) c.self) :
    ∃ w', w.tx c env ⟨who, []⟩ msg = .ok w' := by
  obtain ⟨l1, h1⟩ := transfer_ok (info := ⟨who, []⟩) hx
  have hb : l1.bal (tokenAsset c k.tokenY) c.self = w.ledger.bal (tokenAsset c k.tokenY) c.self := by
    have := applyAll_bal h1 (tokenAsset c k.tokenY) c.self
    rw [assetTransfer_delta] at this
    unfold moveDelta at this
    rw [if_neg (fun e => hne (tokenAsset_inj e).symm)] at this
    omega
  obtain ⟨l2, h2⟩ := transfer_ok (info := ⟨who, []⟩) (hb ▸ hy)
  refine ⟨⟨s', l2⟩, ?_⟩
  unfold World.tx
  simp only [Ledger.takeFunds, bind, Except.bind, he]
  rw [applyAll_append h1, h2]
  rfl

/-- What is nothing need not be there. -/
theorem transfer_tokens {c : Chain} {T : Bytes → Prop} {d : Bytes} {z : Nat} {info : Info}
    (h : ∀ m ∈ assetTransfer c d z info, ∀ t, m.token? = some t → T t) : z = 0 ∨ T d := by
  by_cases h0 : z = 0
  · exact .inl h0
  · right
    unfold assetTransfer at h
    rw [if_neg h0] at h
    split at h
    · exact h _ (List.mem_singleton.2 rfl) d rfl
    · exact h _ (List.mem_singleton.2 rfl) d rfl

/-- A payout in tokens of `T` never fails for lack of tokens: if the contract accepts a claim, a removal, a burn or a
withdrawal of the protocol fee, then the transfers succeed. -/
theorem C04_payout_partial {c : Chain} {T : Bytes → Prop} {w : World} {n : Nat} (h : History c T w n) (hn : n < 10 ^ 14) {env : Env} {who : Bytes}
    {msg : Msg} (hm : msg.isPayout = true) {s' : Store} {out : List OutMsg}
    (he : execute c env ⟨who, []⟩ msg w.store = .ok (s', out)) (hT : ∀ m ∈ out, ∀ t, m.token? = some t → T t) :
    ∃ w', w.tx c env ⟨who, []⟩ msg = .ok w' := by
  obtain ⟨k, x, y, rfl, hp, hne⟩ := payout_shape h.regular.reach hm he
  obtain ⟨e1, e2⟩ := payout_le hp hne
  refine payout_tx he hne ?_ ?_
  · rcases transfer_tokens (fun m hm => hT m (List.mem_append.2 (.inl hm))) with h0 | h0
    · rw [h0]; exact Nat.zero_le _
    · exact C04_whole_units_partial h hn (by simp) (by simpa using hp.wf) h0 e1
  · rcases transfer_tokens (fun m hm => hT m (List.mem_append.2 (.inr hm))) with h0 | h0
    · rw [h0]; exact Nat.zero_le _
    · exact C04_whole_units_partial h hn (by simp) (by simpa using hp.wf) h0 e2

/-- A history with two positions and swaps that cross ticks in both directions; it rounds nine times. -/
example : ∃ n, n < 10 ^ 14 ∧ History Demo.chain (fun _ => True) (Demo.world Demo.chain Demo.crossing) n :=
  ⟨_, by decide +kernel, Demo.world_history (by decide +kernel) (n := (Demo.countW Demo.chain Demo.crossing Demo.fresh).getD 0)
    (by decide +kernel)⟩

/-- In it the obligations are large and the balances just cover them. -/
example : let w := Demo.world Demo.chain Demo.crossing
    (∀ t ∈ [Demo.key.tokenX, Demo.key.tokenY], owes w.store [Demo.key] t ≤ w.ledger.bal (tokenAsset Demo.chain t) [0] ∧
      (w.ledger.bal (tokenAsset Demo.chain t) [0] : ℚ) - 10 < owes w.store [Demo.key] t ∧ 500 < owes w.store [Demo.key] t) := by
  decide +kernel

namespace Demo

/-- Carol has a position far above the price.  Bob buys all of Alice's X up to the price of tick 10 exactly
(see `C01_false_limit_on_tick`): her position is used up, but still counted as active.  He then buys as much again. -/
def drain : List (Info × Msg) := setup ++
  [(by_ carol, .createPosition key 100 200 (3 * 10 ^ 11) 0 (10 ^ 30)),
   (by_ bob, .swap key false 499 false (sqrtPriceAt 10)),
   (by_ bob, .swap key false 499 false (sqrtPriceAt 20))]

end Demo

/-- False as stated.  Three users, one pool, no native coins: the contract has 991 units of X and owes 1488,
all of it the principal of Carol's position, which never was in range.  The contract accepts Carol's request to remove her
position, but the transfer fails. -/
theorem C04_false : ∃ w k t, WorldReach Demo.chain w ∧ k.wf ∧
    (w.ledger.bal (tokenAsset Demo.chain t) Demo.chain.self : ℚ) + 497 ≤ owes w.store [k] t ∧
    (execute Demo.chain Demo.env (Demo.by_ Demo.carol) (.removePosition 0) w.store).isOk = true ∧
    (match w.tx Demo.chain Demo.env (Demo.by_ Demo.carol) (.removePosition 0) with
      | .error e => decide (e = .transferFailed) | .ok _ => false) = true :=
  ⟨Demo.world Demo.chain Demo.drain, Demo.key, Demo.key.tokenX, Demo.world_reach (by decide +kernel), by decide +kernel,
    by decide +kernel, by decide +kernel, by decide +kernel⟩

end OraiV3
