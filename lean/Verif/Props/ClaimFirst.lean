import Verif.Lemmas.ClaimFirst
import Verif.Props.Payout
import Verif.Lemmas.Active

/-!
# C87: claiming before withdrawing makes no difference
-/

namespace OraiV3

/-- After a claim the same withdrawal is possible, leaves the same storage and pays the fees less. -/
theorem claim_then_remove {c : Chain} {s t : Store} {env env' : Env} {info : Info} {i : Nat} {o : List OutMsg} (hm : MReach c s)
    (hw : i < U32) (h : removePosition c s env' info i = .ok (t, o))
    (hstep : ∀ s1 o1, claimFee c s env info i = .ok (s1, o1) → MReach c s1) :
    ∃ pos px py s1, s.positions.get? (positionKey info.sender i) = some pos ∧ pos.poolKey.tokenX ≠ pos.poolKey.tokenY ∧
      o = assetTransfer c pos.poolKey.tokenX (px + accrued s true pos / 10 ^ 34) info ++
        assetTransfer c pos.poolKey.tokenY (py + accrued s false pos / 10 ^ 34) info ∧
      claimFee c s env info i = .ok (s1, assetTransfer c pos.poolKey.tokenX (accrued s true pos / 10 ^ 34) info ++
        assetTransfer c pos.poolKey.tokenY (accrued s false pos / 10 ^ 34) info) ∧
      removePosition c s1 env' info i = .ok (t, assetTransfer c pos.poolKey.tokenX px info ++
        assetTransfer c pos.poolKey.tokenY py info) := by
  have hs := hm.struct
  obtain ⟨pos, pool, a, hpos, hp, ha, b1, b2, rfl⟩ := remove_pays hs h
  have hok := hs.positions _ _ hpos
  have hd : pos.poolKey.tokenX ≠ pos.poolKey.tokenY := swap_tokens_ne hs hok.kwf hp true
  obtain ⟨s1, o1, hc⟩ := claimFee_ok (c := c) (env := env) (info := info) hs hm.posInv hm.tickSum hm.cap hm.price hw hpos
    (fun x => by cases x <;> omega)
  have hm1 := hstep s1 o1 hc
  obtain ⟨pos', pos1, pool', pool1, x1, x2, x3, x4, x5, x6, x7, x8, x9, -⟩ := claim_owes hs hc
  rw [hpos, Option.some.injEq] at x1
  subst x1
  rw [hp, Option.some.injEq] at x5
  subst x5
  have hpos1 : s1.positions.get? (positionKey info.sender i) = some pos1 := by rw [x2, KV.get?_insert, if_pos rfl]
  obtain ⟨k1, k2, k3, k4⟩ : pos1.poolKey = pos.poolKey ∧ pos1.lower = pos.lower ∧ pos1.upper = pos.upper ∧
      pos1.liquidity = pos.liquidity := by
    simpa [Position.what] using x3
  have hp1 : s1.pools.get? pos1.poolKey.key = some pool1 := by rw [k1, x6, KV.get?_insert, if_pos rfl]
  have hact : pos1.lower ≤ pool1.tick → pool1.tick < pos1.upper → pos1.liquidity ≤ pool1.liquidity := by
    rw [k2, k3, k4, x7]
    obtain ⟨pos0, tl0, tu0, pool0, r0, sr, sa, sb, y1, y2, y3, y4, y5, y6, y7, -, -, y8, y9, -⟩ := removePosition_view hs h
    rw [hpos, Option.some.injEq] at y1
    subst y1
    rw [hp, Option.some.injEq] at y6
    subst y6
    obtain ⟨q0, -, -, -, e4, -⟩ := Position.modify_inv y7
    rw [y8, y9] at e4
    obtain ⟨b, liq, g1, g2, -⟩ := Pool.updateLiquidity_inv e4
    intro l1 l2
    have hb : b.2.2 = true := by rw [amountDelta_inside g1]; exact decide_eq_true ⟨l1, l2⟩
    rw [hb] at g2
    simp only [if_true, Bool.false_eq_true, if_false] at g2
    exact g2.1
  obtain ⟨t1, o2, hr⟩ := removePosition_ok' (c := c) (env := env') (info := info) hm1.struct hm1.posInv hm1.tickSum hm1.bitInv hm1.price
    hw hpos1 hp1 hact (by
      intro b hb
      rw [k2, k3, k4, x7] at hb
      rw [show b = a from ok_inj.1 (hb.symm.trans ha), x9, x9]
      omega)
  have ht := claim_remove_store hw hs hm1.struct hm.posInv hc h hr
  subst ht
  obtain ⟨pos2, pool2, a2, y1, y2, y3, -, -, rfl⟩ := remove_pays hm1.struct hr
  rw [hpos1, Option.some.injEq] at y1
  subst y1
  rw [hp1, Option.some.injEq] at y2
  subst y2
  rw [k2, k3, k4, x7] at y3
  have e : a2 = a := ok_inj.1 (y3.symm.trans ha)
  subst e
  refine ⟨pos, a2.1, a2.2.1, s1, hpos, hd, rfl, by rw [hc, x8], ?_⟩
  rw [hr, k1, x9, x9]
  rfl

theorem tx_ok {c : Chain} {w w' : World} {env : Env} {who : Bytes} {msg : Msg} :
    w.tx c env ⟨who, []⟩ msg = .ok w' ↔ ∃ o, execute c env ⟨who, []⟩ msg w.store = .ok (w'.store, o) ∧
      w.ledger.applyAll c o = .ok w'.ledger := by
  unfold World.tx
  simp only [Ledger.takeFunds, bind_ok, pure_ok, ok_inj]
  constructor
  · rintro ⟨l, rfl, r, h, l', h', rfl⟩
    exact ⟨r.2, h, h'⟩
  · rintro ⟨o, h, h'⟩
    exact ⟨_, rfl, _, h, _, h', rfl⟩

/-- **C87.** Whoever can close a position can also claim its fees first and then close it, with the same result: the same
storage, and the same balances of everybody in every token. -/
theorem C87_claim_first {c : Chain} {w w' : World} {env' : Env} {who : Bytes} {i : Nat} (hr : Reach c w.store) (hne : who ≠ c.self)
    (h : w.tx c env' ⟨who, []⟩ (.removePosition i) = .ok w') (env : Env) :
    ∃ w1, w.tx c env ⟨who, []⟩ (.claimFee i) = .ok w1 ∧ w1.tx c env' ⟨who, []⟩ (.removePosition i) = .ok w' := by
  obtain ⟨o, h1, h2⟩ := tx_ok.1 h
  obtain ⟨hw, h1⟩ := execute_ok.1 h1
  obtain ⟨pos, px, py, s1, hpos, hd, rfl, hc, hrm⟩ := claim_then_remove (env := env) hr.mreach hw h1
    (fun s1 o1 hc => (Reach.step hr (execute_ok.2 ⟨hw, hc⟩ : execute c env ⟨who, []⟩ (.claimFee i) w.store = _)).mreach)
  obtain ⟨l1, a1, a2⟩ := (pay_split (fun e => hne e.symm) hd).1 h2
  exact ⟨⟨s1, l1⟩, tx_ok.2 ⟨_, execute_ok.2 ⟨hw, hc⟩, a1⟩, tx_ok.2 ⟨_, execute_ok.2 ⟨hw, hrm⟩, a2⟩⟩

/-- **C87.** And whoever has claimed the fees and then closed the position could have closed it at once, with the same result,
unless the two payments together do not fit into 128 bits. -/
theorem C87_at_once {c : Chain} {w w1 w' : World} {env env' : Env} {who : Bytes} {i : Nat} (hr : Reach c w.store) (hne : who ≠ c.self)
    (h : w.tx c env ⟨who, []⟩ (.claimFee i) = .ok w1) (h' : w1.tx c env' ⟨who, []⟩ (.removePosition i) = .ok w')
    (hfit : ∀ a, w'.ledger.bal a who < w.ledger.bal a who + 2 ^ 128) :
    w.tx c env' ⟨who, []⟩ (.removePosition i) = .ok w' := by
  have hm := hr.mreach
  have hs := hm.struct
  obtain ⟨o, h1, h2⟩ := tx_ok.1 h
  obtain ⟨o', h3, h4⟩ := tx_ok.1 h'
  have hm1 := (Reach.step hr h1).mreach
  obtain ⟨hw, h1⟩ := execute_ok.1 h1
  obtain ⟨-, h3⟩ := execute_ok.1 h3
  obtain ⟨pos, pos1, pool, pool1, x1, x2, x3, x4, x5, x6, x7, rfl, x9, -⟩ := claim_owes hs h1
  obtain ⟨pos2, pool2, a, y1, y2, y3, y4, y5, rfl⟩ := remove_pays hm1.struct h3
  rw [x2, KV.get?_insert, if_pos rfl, Option.some.injEq] at y1
  subst y1
  have hd : pos.poolKey.tokenX ≠ pos.poolKey.tokenY := swap_tokens_ne hs (hs.positions _ _ x1).kwf x5 true
  obtain ⟨k1, k2, k3, k4⟩ : pos1.poolKey = pos.poolKey ∧ pos1.lower = pos.lower ∧ pos1.upper = pos.upper ∧
      pos1.liquidity = pos.liquidity := by
    simpa [Position.what] using x3
  rw [k1, x6, KV.get?_insert, if_pos rfl, Option.some.injEq] at y2
  subst y2
  rw [k2, k3, k4, x7] at y3
  rw [x9, x9, k1, Nat.zero_div, Nat.add_zero, Nat.add_zero] at h4
  have hpay := (pay_split (fun e => hne e.symm) hd).2 ⟨_, h2, h4⟩
  obtain ⟨-, -, -, hb⟩ := (pay_two (fun e => hne e.symm) hd).1 hpay
  have pw : ∀ f n, paidOn c.self who f n who = f who + n := fun f n => by
    unfold paidOn; rw [if_neg hne, if_pos rfl]
  have f1 := hfit (tokenAsset c pos.poolKey.tokenX)
  have f2 := hfit (tokenAsset c pos.poolKey.tokenY)
  rw [hb, if_pos rfl, pw] at f1
  rw [hb, if_neg (fun e => hd (tokenAsset_inj e).symm), if_pos rfl, pw] at f2
  have hU : U128 = 2 ^ 128 := rfl
  have hact : pos.lower ≤ pool.tick → pool.tick < pos.upper → pos.liquidity ≤ pool.liquidity := by
    obtain ⟨pos0, tl0, tu0, pool0, r0, sr, sa, sb, y1, y2, y3, y4, y5, y6, y7, -, -, y8, y9, -⟩ := removePosition_view hm1.struct h3
    rw [x2, KV.get?_insert, if_pos rfl, Option.some.injEq] at y1
    subst y1
    rw [k1, x6, KV.get?_insert, if_pos rfl, Option.some.injEq] at y6
    subst y6
    obtain ⟨q0, -, -, -, e4, -⟩ := Position.modify_inv y7
    rw [y8, y9, k2, k3, k4, x7] at e4
    obtain ⟨b, liq, g1, g2, -⟩ := Pool.updateLiquidity_inv e4
    intro l1 l2
    have hb : b.2.2 = true := by rw [amountDelta_inside g1]; exact decide_eq_true ⟨l1, l2⟩
    rw [hb] at g2
    simp only [if_true, Bool.false_eq_true, if_false] at g2
    exact g2.1
  obtain ⟨t, o2, hrm⟩ := removePosition_ok' (c := c) (env := env') (info := ⟨who, []⟩) hs hm.posInv hm.tickSum hm.bitInv hm.price
    hw x1 x5 hact (by
      intro b hb
      rw [show b = a from ok_inj.1 (hb.symm.trans y3)]
      omega)
  have ht := claim_remove_store hw hs hm1.struct hm.posInv h1 hrm h3
  obtain ⟨pos3, pool3, a3, z1, z2, z3, -, -, rfl⟩ := remove_pays hs hrm
  rw [x1, Option.some.injEq] at z1
  subst z1
  rw [x5, Option.some.injEq] at z2
  subst z2
  rw [show a3 = a from ok_inj.1 (z3.symm.trans y3)] at hrm
  rw [← ht] at hrm
  exact tx_ok.2 ⟨_, execute_ok.2 ⟨hw, hrm⟩, hpay⟩

namespace Demo

/-- What Alice holds of the two tokens, and has as positions, after some transactions. -/
def outcome (ms : List (Info × Msg)) : Option (Nat × Nat × Nat) :=
  ((runW chain ms fresh).toOption).map fun w =>
    (w.ledger.bal (tokenAsset chain key.tokenX) alice, w.ledger.bal (tokenAsset chain key.tokenY) alice, (positionList w.store alice).length)

end Demo

/-- Alice's position has earned fees in both tokens: closing it at once gives the same as claiming and closing, and less is
paid for the claim alone. -/
example : Demo.outcome (Demo.crossing ++ [(Demo.by_ Demo.alice, .removePosition 0)]) =
      Demo.outcome (Demo.crossing ++ [(Demo.by_ Demo.alice, .claimFee 0), (Demo.by_ Demo.alice, .removePosition 0)]) ∧
    (Demo.outcome (Demo.crossing ++ [(Demo.by_ Demo.alice, .removePosition 0)])).isSome = true ∧
    Demo.outcome (Demo.crossing ++ [(Demo.by_ Demo.alice, .claimFee 0)]) ≠ Demo.outcome Demo.crossing ∧
    Demo.outcome (Demo.crossing ++ [(Demo.by_ Demo.alice, .claimFee 0)]) ≠
      Demo.outcome (Demo.crossing ++ [(Demo.by_ Demo.alice, .removePosition 0)]) := by
  decide +kernel

end OraiV3
