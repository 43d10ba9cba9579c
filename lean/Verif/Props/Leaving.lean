import Verif.Props.Liveness
import Verif.Props.Positions
import Verif.Props.Ticks

/-!
# C101: Everybody can leave

The owners of positions close them, one after the other, in any order and at any times, with any other withdrawals in between.
-/

namespace OraiV3

/-- A run on the contract: any accounts but the contract itself close any of their positions, collect fees or, as fee receiver of a
pool, protocol fees.  Nothing else happens. -/
inductive Leaving (c : Chain) (w : World) : World → Prop where
  | start : Leaving c w w
  | next {w1 w2 : World} {env : Env} {who : Bytes} {msg : Msg} : Leaving c w w1 → who ≠ c.self → msg.isPayout = true →
      w1.tx c env ⟨who, []⟩ msg = .ok w2 → Leaving c w w2

/-- A run is part of the history and rounds nothing in the contract's disfavour. -/
private theorem Leaving.history {c : Chain} {T : Bytes → Prop} {w w' : World} {n : Nat} (h : History c T w n) (hl : Leaving c w w') :
    History c T w' n := by
  induction hl with
  | start => exact h
  | @next w1 w2 env who msg _ hne hm ht ih =>
    have hc : RegularCall c (PoolKey.trades T) env ⟨who, []⟩ w1.store w2.store msg ∧ ChargedOnce c T msg ∧
        roundings c env ⟨who, []⟩ w1.store msg = 0 := by
      cases msg <;> first | exact ⟨trivial, trivial, rfl⟩ | cases hm
    have := History.call ih hne ht hc.1 hc.2.1
    rw [hc.2.2] at this
    exact this

/-- The contract only pays. -/
private theorem payout_bal {c : Chain} {w w' : World} {env : Env} {who : Bytes} {msg : Msg} (hr : Reach c w.store) (hne : who ≠ c.self)
    (hm : msg.isPayout = true) (h : w.tx c env ⟨who, []⟩ msg = .ok w') (t : Bytes) :
    w'.ledger.bal (tokenAsset c t) c.self ≤ w.ledger.bal (tokenAsset c t) c.self := by
  obtain ⟨out, he, hb⟩ := tx_inv h
  obtain ⟨k, x, y, rfl, -, -⟩ := payout_shape hr hm he
  have e := hb (tokenAsset c t) c.self
  rw [outDelta_append, assetTransfer_delta, assetTransfer_delta] at e
  have f : fundsDelta c who ([] : List Coin) (tokenAsset c t) c.self = 0 := by
    rw [show who = (⟨who, []⟩ : Info).sender from rfl, show ([] : List Coin) = (⟨who, []⟩ : Info).funds from rfl, funds_self hne]
    simp [attached]
  simp only [moveDelta, if_neg (Ne.symm hne)] at e f
  rw [f] at e
  split_ifs at e <;> omega

private theorem Leaving.bal {c : Chain} {w w' : World} (hr : Reach c w.store) (hl : Leaving c w w') (t : Bytes) :
    Reach c w'.store ∧ w'.ledger.bal (tokenAsset c t) c.self ≤ w.ledger.bal (tokenAsset c t) c.self := by
  induction hl with
  | start => exact ⟨hr, Nat.le_refl _⟩
  | next _ hne hm ht ih =>
    obtain ⟨out, he, -⟩ := tx_inv ht
    exact ⟨ih.1.step he, (payout_bal ih.1 hne hm ht t).trans ih.2⟩

/-- **C101, nobody comes too late.**  After any history whose swaps in pools that trade a token of `T` end regularly, and after any run:
whoever still has a position in tokens of `T` can close it, at any time, and is paid. -/
theorem C101_next_partial {c : Chain} {T : Bytes → Prop} {w w' : World} {n : Nat} (h : History c T w n) (hn : n < 10 ^ 14)
    (hbal : ∀ t, T t → w.ledger.bal (tokenAsset c t) c.self < 2 ^ 128) (hl : Leaving c w w') {who : Bytes} {i : Nat}
    (hi : i < (positionList w'.store who).length)
    (hT : ∀ q, w'.store.positions.get? (positionKey who i) = some q → T q.poolKey.tokenX ∧ T q.poolKey.tokenY) (env : Env) :
    ∃ w2, w'.tx c env ⟨who, []⟩ (.removePosition i) = .ok w2 := by
  rw [positionList_length] at hi
  refine C33_paid_partial (hl.history h) hn hT (fun q hq t ht => ?_) hi
  have hb := fun t => (hl.bal h.regular.reach t).2
  obtain ⟨h1, h2⟩ := hT q hq
  simp only [List.mem_cons, List.not_mem_nil, or_false] at ht
  rcases ht with rfl | rfl
  · exact Nat.lt_of_le_of_lt (hb _) (hbal _ h1)
  · exact Nat.lt_of_le_of_lt (hb _) (hbal _ h2)

/-- **C101, the protocol.**  The same for the fee receiver of a pool that trades two tokens of `T`. -/
theorem C101_protocol_partial {c : Chain} {T : Bytes → Prop} {w w' : World} {n : Nat} (h : History c T w n) (hn : n < 10 ^ 14)
    (hl : Leaving c w w') {k : PoolKey} (hk : k.wf) {p : Pool} (hp : w'.store.pools.get? k.key = some p) (hT : T k.tokenX ∧ T k.tokenY)
    (env : Env) : ∃ w2, w'.tx c env ⟨p.feeReceiver, []⟩ (.withdrawProtocolFee k) = .ok w2 := by
  have he : ∃ s', execute c env ⟨p.feeReceiver, []⟩ (.withdrawProtocolFee k) w'.store = .ok (s',
      assetTransfer c k.tokenX p.protoX ⟨p.feeReceiver, []⟩ ++ assetTransfer c k.tokenY p.protoY ⟨p.feeReceiver, []⟩) := by
    refine ⟨savePool w'.store k { p with protoX := 0, protoY := 0 }, execute_ok.2 ⟨hk, ?_⟩⟩
    show withdrawProtocolFee c w'.store _ k = _
    unfold withdrawProtocolFee
    rw [getPool_ok.2 hp]
    simp [ok_bind]
    rfl
  obtain ⟨s', he⟩ := he
  refine C04_payout_partial (hl.history h) hn rfl he fun m hm t ht => ?_
  have key : ∀ d z, T d → m ∈ assetTransfer c d z ⟨p.feeReceiver, []⟩ → T t := by
    intro d z hd hm
    unfold assetTransfer at hm
    split at hm
    · cases hm
    · split at hm <;> rw [List.mem_singleton] at hm <;> subst hm <;> simp only [OutMsg.token?, Option.some.injEq] at ht <;> exact ht ▸ hd
  rcases List.mem_append.1 hm with hm | hm
  · exact key _ _ hT.1 hm
  · exact key _ _ hT.2 hm

/-- A withdrawal leaves the positions of other accounts with their owners and gives nobody a new one. -/
private theorem remove_lists {c : Chain} {w w' : World} {env : Env} {who : Bytes} {i : Nat} (hr : Reach c w.store)
    (h : w.tx c env ⟨who, []⟩ (.removePosition i) = .ok w') :
    (allPositions w.store).length = (allPositions w'.store).length + 1 ∧
      ∀ o, o ≠ who → positionList w'.store o = positionList w.store o := by
  obtain ⟨out, he, -⟩ := tx_inv h
  have h1 := C39_supply hr he
  have h2 := C16_list_operations hr he
  simp only [Msg.posOp] at h1 h2
  obtain ⟨p, -, h1⟩ := h1
  refine ⟨by simpa using h1.length_eq, fun o ho => ?_⟩
  rw [h2.2 o, if_neg ho]

/-- **C101, what is left.**  A pool without positions whose liquidity was right has no liquidity, no tick in use and no debts but the
protocol's fees. -/
theorem C101_empty {c : Chain} {s : Store} (hr : Reach c s) {k : PoolKey} (hk : k.wf) {p : Pool} (hp : s.pools.get? k.key = some p)
    (hdr : drift s k = 0) (he : positionsOf s k = []) :
    p.liquidity = 0 ∧ (∀ t, i32 t → ∀ r, getTick s k t ≠ .ok r) ∧ (∀ t, ValidTick k.tier.spacing t → ¬ Initialized s k t) ∧
      ∀ x, poolOwes s k x = p.proto x := by
  have hu : ∀ t, ¬ UsedTick s k t := by
    rintro t ⟨q, hq, -⟩
    rw [he] at hq
    simp at hq
  refine ⟨?_, fun t ht r hg => hu t ((C02_ticks_are_the_positions hr hk ht).1.1 ⟨r, hg⟩),
    fun t ht hi => hu t ((C02_tickmap_is_the_positions hr hk hp ht).1 hi), fun x => ?_⟩
  · rw [active_of hdr hp]
    simp [liquidityInRange, sumPositions, he]
  · unfold poolOwes
    rw [hp]
    simp [sumQ, he]

private theorem Leaving.trans {c : Chain} {w w1 w2 : World} (h1 : Leaving c w w1) (h2 : Leaving c w1 w2) : Leaving c w w2 := by
  induction h2 with
  | start => exact h1
  | next _ hne hm ht ih => exact ih.next hne hm ht

/-- **C101, everybody can leave.**  After any such history and any run, if no position belongs to the contract itself, the run can go on
until nobody has a position in a pool that trades two tokens of `T`.  Such a pool is then empty and owes nothing but the protocol's
fees. -/
theorem C101_all_partial {c : Chain} {T : Bytes → Prop} {w w' : World} {n : Nat} (h : History c T w n) (hn : n < 10 ^ 14)
    (hbal : ∀ t, T t → w.ledger.bal (tokenAsset c t) c.self < 2 ^ 128) (hl : Leaving c w w')
    (hself : positionList w'.store c.self = []) :
    ∃ w2, Leaving c w' w2 ∧ ∀ k, k.wf → T k.tokenX → T k.tokenY → positionsOf w2.store k = [] ∧
      ∀ p, w2.store.pools.get? k.key = some p → p.liquidity = 0 ∧ ∀ x, poolOwes w2.store k x = p.proto x := by
  have main : ∃ w2, Leaving c w' w2 ∧ ∀ k, T k.tokenX → T k.tokenY → positionsOf w2.store k = [] := by
    induction hN : (allPositions w'.store).length using Nat.strong_induction_on generalizing w' with
    | _ N ih =>
      by_cases hk : ∀ k, T k.tokenX → T k.tokenY → positionsOf w'.store k = []
      · exact ⟨w', .start, hk⟩
      · push Not at hk
        obtain ⟨k, h1, h2, hk⟩ := hk
        obtain ⟨q, hq⟩ := List.exists_mem_of_ne_nil _ hk
        obtain ⟨hv, rfl⟩ := mem_positionsOf.1 hq
        obtain ⟨id, hid⟩ := memPos hv
        have hr := (hl.bal h.regular.reach []).1
        obtain ⟨who, i, rfl, hg⟩ := (C16_no_gaps hr).2 _ _ hid
        have hi : i < (positionList w'.store who).length := (List.getElem?_eq_some_iff.1 hg).1
        have hne : who ≠ c.self := by
          rintro rfl
          rw [hself] at hi
          exact absurd hi (by simp)
        obtain ⟨w1, ht⟩ := C101_next_partial h hn hbal hl hi (fun q' hq' => by rw [hid] at hq'; cases hq'; exact ⟨h1, h2⟩) ⟨0, 0⟩
        obtain ⟨g1, g2⟩ := remove_lists hr ht
        obtain ⟨w2, l2, e2⟩ := ih _ (by omega) (hl.next hne rfl ht) (by rw [g2 _ (Ne.symm hne)]; exact hself) rfl
        exact ⟨w2, Leaving.trans (.next .start hne rfl ht) l2, e2⟩
  obtain ⟨w2, l2, e2⟩ := main
  refine ⟨w2, l2, fun k hk h1 h2 => ⟨e2 k h1 h2, fun p hp => ?_⟩⟩
  have h3 := (hl.trans l2).history h
  have := C101_empty h3.regular.reach hk hp (h3.regular.active _ hk (.inl h1)) (e2 k h1 h2)
  exact ⟨this.1, this.2.2.2⟩

/-! ## The hypotheses can be met -/

/-- The hypotheses hold after the swaps of `Demo.crossing`, at the beginning of a run. -/
example : ∃ n, n < 10 ^ 14 ∧ History Demo.chain (fun t => t = [97] ∨ t = [98]) (Demo.world Demo.chain Demo.crossing) n ∧
    (∀ t, t = [97] ∨ t = [98] → (Demo.world Demo.chain Demo.crossing).ledger.bal (tokenAsset Demo.chain t) Demo.chain.self < 2 ^ 128) ∧
    Leaving Demo.chain (Demo.world Demo.chain Demo.crossing) (Demo.world Demo.chain Demo.crossing) ∧
    (Demo.key.tokenX = [97] ∧ Demo.key.tokenY = [98]) ∧
    (positionsOf (Demo.world Demo.chain Demo.crossing).store Demo.key).length = 2 ∧
    positionList (Demo.world Demo.chain Demo.crossing).store Demo.chain.self = [] := by
  refine ⟨_, by decide +kernel, Demo.world_history (by decide +kernel) (n := (Demo.countW Demo.chain Demo.crossing Demo.fresh).getD 0)
    (by decide +kernel), ?_, .start, by decide, by decide +kernel, ?_⟩
  · rintro t (rfl | rfl) <;> decide +kernel
  · apply List.eq_nil_of_length_eq_zero
    decide +kernel

/-- Alice and Bob leave, in either order; the pool is then empty but for what is recorded for the protocol. -/
example : [[Demo.alice, Demo.bob], [Demo.bob, Demo.alice]].map (fun order =>
    (Demo.runW Demo.chain (Demo.crossing ++ order.map fun who => (⟨who, []⟩, .removePosition 0)) Demo.fresh).toOption.map fun w =>
      ((positionsOf w.store Demo.key).length, (w.store.pools.get? Demo.key.key).map fun p => p.liquidity)) =
    [some (0, some 0), some (0, some 0)] := by
  decide +kernel

end OraiV3
