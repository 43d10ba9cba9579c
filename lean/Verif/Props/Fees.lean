import Verif.Lemmas.FeeBooks
import Verif.WorldExamples

/-!
# C05 and C32: fees of positions
-/

namespace OraiV3

/-! ## C05: no more fees than traders paid -/

/-- In every history whose swaps in pools of `P` end regularly, for every such pool and each of its tokens: the fees its positions and the protocol
can still claim, together with all fees paid out so far, are at most the fees charged to traders, up to `10^-14` of the
smallest unit for every price step.  (The fee charged by a swap is what the trader pays beyond the exact amount of the input
token that the price move adds to the positions.) -/
theorem C05_fees_partial {c : Chain} {P : PoolKey → Prop} {s : Store} {n : Nat} {charged : PoolKey → Bool → ℚ} {paid : PoolKey → Bool → Nat}
    (h : FeeHistory c P s n charged paid) {k : PoolKey} (hk : k.wf) (hP : P k) (x : Bool) :
    claimable s k x + paid k x ≤ charged k x + n / 10 ^ 14 :=
  h.bound hk hP x

/-- One swap in a pool whose liquidity is right (C01).  There is a number `G` (the fee per unit of liquidity) such that for every position of the pool:
nothing is earned in the output token; nothing at all is earned if the range was left or not yet entered throughout the
swap; and a position in range throughout earns `G` for each unit of its liquidity (the counter of fees per unit of
liquidity is kept modulo `2^128`).  Positions of other pools earn nothing. -/
theorem C05_earn_partial {c : Chain} {s s' : Store} (hr : Reach c s) {env : Env} {info : Info} {k : PoolKey} (hdr : drift s k = 0) {d : Bool}
    {amount : Nat} {b : Bool} {limit : Nat} {out : List OutMsg}
    (h : execute c env info (.swap k d amount b limit) s = .ok (s', out)) (hreg : RegularEnd s' k d b limit) :
    ∃ p p' G, s.pools.get? k.key = some p ∧ s'.pools.get? k.key = some p' ∧
      (∀ q ∈ s.positions.vals, q.poolKey ≠ k → ∀ x, accrued s' x q = accrued s x q) ∧
      ∀ q ∈ positionsOf s k, accrued s' (!d) q = accrued s (!d) q ∧
        ((p.tick < q.lower ∧ p'.tick < q.lower ∨ q.upper ≤ p.tick ∧ q.upper ≤ p'.tick) → accrued s' d q = accrued s d q) ∧
        (q.lower ≤ p.tick ∧ p.tick < q.upper ∧ q.lower ≤ p'.tick ∧ p'.tick < q.upper →
          ∃ u, accrued s d q = u * q.liquidity ∧ u < U128 ∧ accrued s' d q = (u + G) % U128 * q.liquidity) := by
  have hw := (execute_ok.1 h).1
  obtain ⟨r, h⟩ := swap_inv (execute_ok.1 h).2
  have hk := hw.1
  have hm := hr.mreach
  obtain ⟨s1, m1, h1, h2, h3, h4, h5⟩ := swapInternal_inv h
  obtain ⟨pool, st0, _, hp, _⟩ := calculateSwap_inv h1
  obtain ⟨t, e1⟩ := swapInternal_frame h
  simp only at h1 h2 h3 e1
  have epos : s'.positions = s.positions := by rw [e1]
  have hp' : s'.pools.get? k.key = some r.pool := by rw [e1]; exact KV.get?_insert_same _ _ _
  have hrg := hreg r.pool hp'
  have hu : ∀ j, UsedTick s' k j ↔ UsedTick s k j := fun j => by unfold UsedTick positionsOf; rw [epos]
  rw [hu, hu] at hrg
  obtain ⟨G, left, st, hB, b1, b2, b3, b4, b5⟩ := swap_books hm.struct hm.bitInv hm.tickSum hk hp (hm.price k pool hk hp)
    (active_of hdr hp) h1 hrg
  have htk : s'.ticks = withTicks s.ticks k st.ticks := by
    rw [h3, b2, ← saveTicks_withTicks h2]
    rfl
  refine ⟨pool, r.pool, G, hp, hp', ?_, ?_⟩
  · intro q hq hne x
    obtain ⟨id, hid⟩ := memPos hq
    have hok := hm.struct.positions _ _ hid
    obtain ⟨f1, f2, _⟩ := swapInternal_frame' hok.kwf hk hne h
    exact (worth_same f1 (outAt_get (f2 _) _) (outAt_get (f2 _) _)).1
  · intro q hq
    have hqk := (mem_positionsOf.1 hq).2
    obtain ⟨g1, g2, g3⟩ := hB.earn q hq
    have a' : ∀ x, accrued s' x q = wsub (growthInside (withTicks s.ticks k st.ticks) k st.pool x q.lower q.upper) (q.fgIn x) * q.liquidity := by
      intro x
      unfold accrued accruedIn
      rw [hqk, hp', htk, b1]
    have a0 : ∀ x, accrued s x q = wsub (growthInside s.ticks k pool x q.lower q.upper) (q.fgIn x) * q.liquidity := by
      intro x
      unfold accrued accruedIn
      rw [hqk, hp]
    refine ⟨by rw [a', a0, g1], fun hout => ?_, fun hin => ?_⟩
    · rw [a', a0, g2]
      rw [b1]
      cases d
      · simp only [Bool.false_eq_true, if_false]
        omega
      · simp only [if_true]
        omega
    · refine ⟨_, a0 d, ?_, ?_⟩
      · unfold wsub
        exact Nat.mod_lt _ (by decide)
      · rw [a', g3]
        · unfold wsub wadd
          generalize growthInside s.ticks k pool d q.lower q.upper = g
          generalize q.fgIn d = f
          congr 1
          rw [Nat.mod_add_mod, Nat.mod_add_mod]
          congr 1
          omega
        · rw [b1]
          cases d
          · simp only [Bool.false_eq_true, if_false]
            omega
          · simp only [if_true]
            omega

/-- Calls that are not swaps change nothing about what the positions they do not touch have earned. -/
theorem C05_isolated {c : Chain} {s s' : Store} (hr : Reach c s) {env : Env} {info : Info} {msg : Msg} {out : List OutMsg}
    (h : execute c env info msg s = .ok (s', out)) (hm : msg.isSwap = false) {q : Position}
    (hq : q ∈ s.positions.vals) (hq' : q ∈ s'.positions.vals) (x : Bool) : accrued s' x q = accrued s x q := by
  have hmr := hr.mreach
  have hmr' := Reach.mreach (.step hr h)
  have hquiet := execute_quiet hm h
  obtain ⟨id, hid⟩ := memPos hq
  have hok := hmr.struct.positions _ _ hid
  cases hquiet with
  | config hc hf ht => rfl
  | opers ops => rfl
  | @poolMeta k p rcv px py hk hp hx hy =>
    by_cases e : q.poolKey = k
    · subst e
      exact (worth_frame (s := s) (s' := savePool s q.poolKey { p with feeReceiver := rcv, protoX := px, protoY := py }) (x := x) (q := q) (p := p) hp (KV.get?_insert_same _ _ _) rfl rfl (by cases x <;> rfl) rfl rfl).1
    · exact (worth_same (s := s) (s' := savePool s k { p with feeReceiver := rcv, protoX := px, protoY := py }) (x := x) (q := q) (KV.get?_insert_other _ _ (key_ne hok.kwf hk e)) rfl rfl).1
  | @newPool _ t0 t1 tier price tick out hw h =>
    obtain ⟨cfg, k, pool, h1, h2, h3, h4, h5, h6, rfl, _⟩ := createPool_inv h
    have hne : q.poolKey.key ≠ k.key := by
      intro e
      obtain ⟨p, hp⟩ := hok.pool
      rw [e, h5] at hp
      simp at hp
    exact (worth_same (s := s) (s' := savePool s k pool) (x := x) (q := q) (KV.get?_insert_other _ _ hne) rfl rfl).1
  | @create _ info k l u L lo hi out hw h => exact (create_kept hmr.struct hmr.tickSum hw h hq x).1
  | @claim _ info i out hw h => exact (claim_kept hmr.struct h hq x).1
  | @remove _ info i out hw h => exact (remove_kept hmr.struct hmr'.struct hmr.posInv hmr'.tickSum hw h hq' x).1
  | @move s1 _ o r i p hw h1 h2 =>
    obtain ⟨a, b, e1⟩ := removePositionAt_frame h1
    obtain ⟨a', b', e2⟩ := addPosition_frame h2
    exact (worth_same (by rw [e2, e1]) (by rw [e2, e1]) (by rw [e2, e1])).1
  | @appr id p a h => rfl

namespace Demo

/-- The calls with their ends checked, together with fees charged and paid. -/
def feesW (c : Chain) : List (Info × Msg) → Store → Option (Nat × ℚ × Nat)
  | [], _ => some (0, 0, 0)
  | (i, m) :: ms, s =>
    match execute c env i m s with
    | .error _ => none
    | .ok r => if regularMsg r.1 m then (feesW c ms r.1).map (fun x =>
        (roundings c env i s m + x.1, feesCharged c env i s m key false + x.2.1, feesPaid i s m key false + x.2.2)) else none

theorem feesW_history (c : Chain) (Q : PoolKey → Prop) : ∀ (ms : List (Info × Msg)) (s s' : Store) (n : Nat) (F : PoolKey → Bool → ℚ) (P : PoolKey → Bool → Nat)
    (x : Nat × ℚ × Nat), FeeHistory c Q s n F P → feesW c ms s = some x → run c ms s = .ok s' →
    ∃ F' P', FeeHistory c Q s' (n + x.1) F' P' ∧ F' key false = F key false + x.2.1 ∧ P' key false = P key false + x.2.2
  | [], s, s', n, F, P, x, hs, hc, h => by
    have : s = s' := by simpa [run] using h
    simp only [feesW, Option.some.injEq] at hc
    subst hc
    exact ⟨F, P, this ▸ hs, by simp, by simp⟩
  | (i, msg) :: ms, s, s', n, F, P, x, hs, hc, h => by
    unfold run at h
    unfold feesW at hc
    cases he : execute c env i msg s with
    | error e => rw [he] at h; simp [bind, Except.bind] at h
    | ok r =>
      rw [he] at h hc
      simp only at hc
      split at hc
      · rename_i hreg
        rw [Option.map_eq_some_iff] at hc
        obtain ⟨y, h1, h2⟩ := hc
        obtain ⟨F', P', a1, a2, a3⟩ := feesW_history c Q ms r.1 s' _ _ _ y (.step hs he (by cases msg <;> simp_all [RegularCall, regularMsg])) h1 h
        rw [← h2]
        refine ⟨F', P', ?_, ?_, ?_⟩
        · simp only; rw [← Nat.add_assoc]; exact a1
        · simp only; rw [a2]; ring
        · simp only; rw [a3]; ring
      · simp at hc

/-- A history with swaps in both directions that ends with claims by both owners. -/
def claiming : List (Info × Msg) := crossing ++ [(by_ alice, .claimFee 0), (by_ bob, .claimFee 0)]

end Demo

/-- A history that meets the hypothesis: between 8 and 9 units of Y were charged as fees and 8 have been paid out. -/
example : ∃ s n F P, FeeHistory Demo.chain (fun _ => True) s n F P ∧ 8 ≤ F Demo.key false ∧ F Demo.key false < 9 ∧ P Demo.key false = 8 := by
  cases hf : Demo.feesW Demo.chain Demo.claiming (instantiate Demo.alice 0) with
  | none =>
    have : (Demo.feesW Demo.chain Demo.claiming (instantiate Demo.alice 0)).isSome = true := by decide +kernel
    rw [hf] at this
    simp at this
  | some x =>
    have hx : (match Demo.feesW Demo.chain Demo.claiming (instantiate Demo.alice 0) with
      | some x => decide (8 ≤ x.2.1 ∧ x.2.1 < 9 ∧ x.2.2 = 8) | none => false) = true := by decide +kernel
    rw [hf] at hx
    simp only [decide_eq_true_eq] at hx
    cases hr : Demo.run Demo.chain Demo.claiming (instantiate Demo.alice 0) with
    | error e =>
      have : (Demo.run Demo.chain Demo.claiming (instantiate Demo.alice 0)).isOk = true := by decide +kernel
      rw [hr] at this
      simp [Except.isOk, Except.toBool] at this
    | ok s =>
      obtain ⟨F, P, a1, a2, a3⟩ := Demo.feesW_history Demo.chain (fun _ => True) Demo.claiming _ s 0 _ _ x (.init _ _ (by decide)) hf hr
      refine ⟨s, _, F, P, a1, ?_, ?_, ?_⟩
      · rw [a2]; linarith [hx.1]
      · rw [a2]; linarith [hx.2.1]
      · rw [a3]; omega

namespace Demo

/-- Alice has a second position below the price, Bob a large one that starts at tick 10.  Carol buys X up to the price of
tick 10 exactly and then some more. -/
def feeTheft : List (Info × Msg) := setup ++
  [(by_ alice, .createPosition key (-20) (-10) (10 ^ 15) 0 (10 ^ 30)),
   (by_ bob, .createPosition key 10 20 (10 ^ 15) 0 (10 ^ 30)),
   (by_ carol, .swap key false 499 false (sqrtPriceAt 10)),
   (by_ carol, .swap key false 400 false (sqrtPriceAt 20))]

end Demo

/-- False as stated.  Carol is the only one who ever traded; she paid 913 units of Y in total, price and fee.
Bob then claims fees of 11000 units of Y: they come out of Alice's deposit. -/
theorem C05_false : ∃ ms w w', Demo.runW Demo.chain ms Demo.fresh = .ok w ∧
    (∀ m ∈ ms, m.2.isSwap = true → m.1.sender = Demo.carol) ∧
    w.tx Demo.chain Demo.env (Demo.by_ Demo.bob) (.claimFee 0) = .ok w' ∧
    Demo.fresh.ledger.bal (.cw20 Demo.key.tokenY) Demo.carol = w.ledger.bal (.cw20 Demo.key.tokenY) Demo.carol + 913 ∧
    w'.ledger.bal (.cw20 Demo.key.tokenY) Demo.bob = w.ledger.bal (.cw20 Demo.key.tokenY) Demo.bob + 11000 := by
  have h : Demo.worksW Demo.chain Demo.feeTheft = true := by decide +kernel
  have h' : Demo.worksW Demo.chain (Demo.feeTheft ++ [(Demo.by_ Demo.bob, .claimFee 0)]) = true := by decide +kernel
  have h3 : (match (Demo.world Demo.chain Demo.feeTheft).tx Demo.chain Demo.env (Demo.by_ Demo.bob) (.claimFee 0) with
    | .ok w' => decide (w'.ledger.bal (.cw20 Demo.key.tokenY) Demo.bob =
        (Demo.world Demo.chain Demo.feeTheft).ledger.bal (.cw20 Demo.key.tokenY) Demo.bob + 11000)
    | .error _ => false) = true := by decide +kernel
  cases ht : (Demo.world Demo.chain Demo.feeTheft).tx Demo.chain Demo.env (Demo.by_ Demo.bob) (.claimFee 0) with
  | error e => rw [ht] at h3; simp at h3
  | ok w' =>
    rw [ht] at h3
    exact ⟨Demo.feeTheft, _, w', Demo.world_run h, by decide +kernel, ht, by decide +kernel, of_decide_eq_true h3⟩

/-! ## C32: claiming -/

/-- A successful claim by someone other than the contract itself, without attached funds: the position keeps its pool,
range, liquidity and approvals, the sender receives exactly the whole units of what the position has earned since the last
payment, in both tokens, and afterwards the position has earned nothing. -/
theorem C32_claim {c : Chain} {w w' : World} {env : Env} {who : Bytes} {i : Nat} (hr : Reach c w.store) (hne : who ≠ c.self)
    (h : w.tx c env ⟨who, []⟩ (.claimFee i) = .ok w') :
    ∃ q q', w.store.positions.get? (positionKey who i) = some q ∧ w'.store.positions.get? (positionKey who i) = some q' ∧
      q'.what = q.what ∧ q'.approvals = q.approvals ∧ (∀ x, accrued w'.store x q' = 0) ∧
      w'.ledger.bal (tokenAsset c q.poolKey.tokenX) who =
        w.ledger.bal (tokenAsset c q.poolKey.tokenX) who + accrued w.store true q / 10 ^ 34 ∧
      w'.ledger.bal (tokenAsset c q.poolKey.tokenY) who =
        w.ledger.bal (tokenAsset c q.poolKey.tokenY) who + accrued w.store false q / 10 ^ 34 := by
  obtain ⟨out, h1, h2⟩ := tx_inv h
  have he := (execute_ok.1 h1).2
  simp only [dispatch] at he
  have hm := hr.mreach
  obtain ⟨pos, pos', pool, pool', hpos, hpos', hwhat, happ, hp, hpools, hpe, ho, hacc, hworth⟩ := claim_owes hm.struct he
  have hk := (hm.struct.positions _ _ hpos).kwf
  have hd : pos.poolKey.tokenX ≠ pos.poolKey.tokenY := swap_tokens_ne hm.struct hk hp true
  have hz : ∀ a x, fundsDelta c who [] a x = 0 := fun _ _ => rfl
  refine ⟨pos, pos', hpos, by rw [hpos', KV.get?_insert_same], hwhat, happ, hacc, ?_, ?_⟩
  · have := h2 (tokenAsset c pos.poolKey.tokenX) who
    rw [hz, ho, outDelta_append, assetTransfer_sender (info := ⟨who, []⟩) hne, assetTransfer_sender (info := ⟨who, []⟩) hne, if_pos rfl,
      if_neg (fun e => hd (tokenAsset_inj e))] at this
    generalize accrued w.store true pos / 10 ^ 34 = n at this ⊢
    omega
  · have := h2 (tokenAsset c pos.poolKey.tokenY) who
    rw [hz, ho, outDelta_append, assetTransfer_sender (info := ⟨who, []⟩) hne, assetTransfer_sender (info := ⟨who, []⟩) hne, if_pos rfl,
      if_neg (fun e => hd (tokenAsset_inj e).symm)] at this
    generalize accrued w.store false pos / 10 ^ 34 = n at this ⊢
    omega

/-- A second claim right after the first one pays nothing: no balance changes. -/
theorem C32_second_claim {c : Chain} {w w' w'' : World} {env env' : Env} {who : Bytes} {i : Nat} (hr : Reach c w.store)
    (h : w.tx c env ⟨who, []⟩ (.claimFee i) = .ok w') (h' : w'.tx c env' ⟨who, []⟩ (.claimFee i) = .ok w'') (a : Asset) (x : Bytes) :
    w''.ledger.bal a x = w'.ledger.bal a x := by
  obtain ⟨out, h1, -⟩ := tx_inv h
  have he := (execute_ok.1 h1).2
  simp only [dispatch] at he
  obtain ⟨pos, pos', pool, pool', hpos, hpos', hwhat, happ, hp, hpools, hpe, ho, hacc, hworth⟩ := claim_owes hr.mreach.struct he
  have hr' : Reach c w'.store := .step hr h1
  obtain ⟨out', h1', h2'⟩ := tx_inv h'
  have he' := (execute_ok.1 h1').2
  simp only [dispatch] at he'
  obtain ⟨qos, _, _, _, gpos, _, _, _, _, _, _, go, _, _⟩ := claim_owes hr'.mreach.struct he'
  have e : qos = pos' := by
    simp only at gpos hpos'
    rw [hpos', KV.get?_insert_same] at gpos
    exact (Option.some.inj gpos).symm
  rw [e, hacc, hacc, Nat.zero_div] at go
  have hout : out' = [] := by
    rw [go]
    simp [assetTransfer]
  have := h2' a x
  rw [hout] at this
  have z1 : fundsDelta c who [] a x = 0 := rfl
  have z2 : outDelta c [] a x = 0 := rfl
  rw [z2] at this
  simp only at this
  rw [z1] at this
  omega

/-- A claim changes neither the liquidity of a position, a pool or a tick nor a price, and no settings. -/
theorem C32_isolated {c : Chain} {s s' : Store} {env : Env} {info : Info} {i : Nat} {out : List OutMsg} (hr : Reach c s)
    (h : execute c env info (.claimFee i) s = .ok (s', out)) :
    (∀ id q, s.positions.get? id = some q → ∃ q', s'.positions.get? id = some q' ∧ q'.what = q.what ∧
      (id ≠ positionKey info.sender i → q' = q)) ∧
    (∀ id, s.positions.get? id = none → s'.positions.get? id = none) ∧
    (∀ key p, s.pools.get? key = some p → ∃ ts, s'.pools.get? key = some { p with lastTs := ts }) ∧
    (∀ key, s.pools.get? key = none → s'.pools.get? key = none) ∧
    (∀ key t, s.ticks.get? key = some t → ∃ t', s'.ticks.get? key = some t' ∧ t'.index = t.index ∧ t'.gross = t.gross ∧
      t'.net = t.net ∧ t'.outX = t.outX ∧ t'.outY = t.outY) ∧
    (∀ key, s.ticks.get? key = none → s'.ticks.get? key = none) ∧
    s'.bitmap = s.bitmap ∧ s'.config = s.config ∧ s'.operators = s.operators ∧ s'.posLen = s.posLen := by
  have he := (execute_ok.1 h).2
  simp only [dispatch] at he
  have hs := hr.mreach.struct
  obtain ⟨pos, pos', pool, pool', hpos, hpos', hwhat, happ, hp, hpools, hpe, -, -, -⟩ := claim_owes hs he
  obtain ⟨pos2, tl, tu, pool2, r, hpos2, htl, htu, il, iu, hp2, hmod, e1, e2, e3, e4, -, -, -, htk, -⟩ := claimFee_view hs he
  have e : pos2 = pos := Option.some.inj (hpos2.symm.trans hpos)
  subst e
  obtain ⟨q', d1, d2, _⟩ := Position.modify_inv hmod
  have f1 := Tick.update_inv d1
  have f2 := Tick.update_inv d2
  have g1 : r.lower.gross = tl.gross := by simpa using f1.2.2.2.2.2.1.1
  have g2 : r.upper.gross = tu.gross := by simpa using f2.2.2.2.2.2.1.1
  have n1 : r.lower.net = tl.net := by simpa using f1.2.2.2.2.2.2.1
  have n2 : r.upper.net = tu.net := by simpa using f2.2.2.2.2.2.2.1
  refine ⟨fun id q hq => ?_, fun id hq => ?_, fun key p hk => ?_, fun key hk => ?_, fun key t ht => ?_, fun key ht => ?_, e3, e1, e2, e4⟩
  · rw [hpos']
    by_cases e : id = positionKey info.sender i
    · subst e
      rw [KV.get?_insert_same]
      have : q = pos2 := Option.some.inj (hq.symm.trans hpos)
      subst this
      exact ⟨pos', rfl, hwhat, fun e => absurd rfl e⟩
    · rw [KV.get?_insert_other _ _ e]
      exact ⟨q, hq, rfl, fun _ => rfl⟩
  · rw [hpos', KV.get?_insert_other]
    · exact hq
    · intro e; rw [e, hpos] at hq; simp at hq
  · rw [hpools]
    by_cases e : key = pos2.poolKey.key
    · subst e
      rw [KV.get?_insert_same, hpe]
      have : p = pool := Option.some.inj (hk.symm.trans hp)
      subst this
      exact ⟨_, rfl⟩
    · rw [KV.get?_insert_other _ _ e]
      exact ⟨p.lastTs, hk⟩
  · rw [hpools, KV.get?_insert_other]
    · exact hk
    · intro e; rw [e, hp] at hk; simp at hk
  · rw [htk]
    by_cases c1 : key = tickKey pos2.poolKey pos2.lower
    · rw [if_pos c1]
      rw [c1, htl] at ht
      cases ht
      exact ⟨_, rfl, f1.1, g1, n1, f1.2.2.1, f1.2.2.2.1⟩
    · rw [if_neg c1]
      by_cases c2 : key = tickKey pos2.poolKey pos2.upper
      · rw [if_pos c2]
        rw [c2, htu] at ht
        cases ht
        exact ⟨_, rfl, f2.1, g2, n2, f2.2.2.1, f2.2.2.2.1⟩
      · rw [if_neg c2]
        exact ⟨t, ht, rfl, rfl, rfl, rfl, rfl⟩
  · rw [htk, if_neg, if_neg]
    · exact ht
    · intro e; rw [e, htu] at ht; simp at ht
    · intro e; rw [e, htl] at ht; simp at ht

namespace Demo

def claimTwice : List (Info × Msg) := crossing ++ [(by_ alice, .claimFee 0), (by_ alice, .claimFee 0)]

/-- What Alice has gained of X and Y after the first `n` calls. -/
def gainA (n : Nat) : Int × Int :=
  let w := world chain (claimTwice.take n)
  ((w.ledger.bal (.cw20 key.tokenX) alice : Int) - 10 ^ 30, (w.ledger.bal (.cw20 key.tokenY) alice : Int) - 10 ^ 30)

end Demo


/-- Alice claims after the swaps of `Demo.crossing`, twice. -/
example : Demo.worksW Demo.chain Demo.claimTwice = true ∧
    [0, 1, 2].map (fun n => Demo.gainA (Demo.crossing.length + n)) = [(-500, -500), (-494, -497), (-494, -497)] := by decide +kernel

end OraiV3
