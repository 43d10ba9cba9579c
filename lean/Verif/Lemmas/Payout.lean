import Verif.PayoutSpec
import Verif.Lemmas.Liveness
import Verif.Lemmas.FeeBooks
import Verif.Lemmas.Frame

/-!
# While nobody trades
-/

namespace OraiV3

/-- Price and tick of a pool. -/
def place (s : Store) (k : PoolKey) : Option (Nat × Int) := (s.pools.get? k.key).map fun p => (p.sqrtPrice, p.tick)

theorem accrued_same {s : Store} {q q' : Position} (h : SamePosition q q') (x : Bool) : accrued s x q' = accrued s x q := by
  unfold SamePosition at h
  cases q; cases q'
  simp only [Position.mk.injEq] at h
  obtain ⟨rfl, rfl, rfl, rfl, rfl, rfl, rfl, rfl, rfl, -⟩ := h
  rfl

theorem outAt_unchanged {m m' : KV Tick} {k : PoolKey} {i : Int} (h : m'.get? (tickKey k i) = m.get? (tickKey k i)) (x : Bool) :
    outAt m' k x i = outAt m k x i := by
  unfold outAt
  rw [h]

theorem quiet_place {c : Chain} {env : Env} {s s' : Store} (hs : Struct s) (h : Quiet c env s s') {k : PoolKey} {p : Pool}
    (hp : s.pools.get? k.key = some p) : place s' k = place s k := by
  have key : ∀ {k' : PoolKey} {q q' : Pool}, s.pools.get? k'.key = some q → (q'.sqrtPrice = q.sqrtPrice ∧ q'.tick = q.tick) →
      s'.pools = s.pools.insert k'.key q' → place s' k = place s k := by
    intro k' q q' h1 h2 h3
    unfold place
    rw [h3, KV.get?_insert]
    split
    · rename_i e
      rw [e, h1, Option.map_some, Option.map_some, h2.1, h2.2]
    · rfl
  cases h with
  | config => rfl
  | opers => rfl
  | @poolMeta k' p' rcv px py hk hp' hx hy => exact key (q' := { p' with feeReceiver := rcv, protoX := px, protoY := py }) hp' ⟨rfl, rfl⟩ rfl
  | newPool hw h =>
    obtain ⟨cfg, k', pool, h1, h2, h3, h4, h5, h6, rfl, _⟩ := createPool_inv h
    unfold place
    have hne : k.key ≠ k'.key := by
      intro e
      rw [e, h5] at hp
      cases hp
    rw [show (savePool s k' pool).pools = s.pools.insert k'.key pool from rfl, KV.get?_insert_other _ _ hne]
  | create hw h =>
    obtain ⟨pool, tl, tu, r, rl, m1, m2, hp', -, -, -, -, -, -, -, -, -, -, -, hm, -, -, e, -⟩ := createPosition_view hs hw h
    obtain ⟨q, -, -, -, d4, d5, -⟩ := Position.modify_inv hm
    obtain ⟨a, liq, -, -, g3⟩ := Pool.updateLiquidity_inv d4
    exact key hp' (by rw [d5, g3]; exact ⟨rfl, rfl⟩) e
  | claim hw h =>
    obtain ⟨pos, tl, tu, pool, r, -, -, -, -, -, hp', hm, -, -, -, -, e, -⟩ := claimFee_view hs h
    obtain ⟨q, -, -, -, d4, d5, -⟩ := Position.modify_inv hm
    obtain ⟨a, liq, -, -, g3⟩ := Pool.updateLiquidity_inv d4
    exact key hp' (by rw [d5, g3]; exact ⟨rfl, rfl⟩) e
  | remove hw h =>
    obtain ⟨pos, tl, tu, pool, r, sr, s1, s2, -, -, -, -, -, hp', hm, -, -, -, -, -, -, -, -, -, -, e, -⟩ := removePosition_view hs h
    obtain ⟨q, -, -, -, d4, d5, -⟩ := Position.modify_inv hm
    obtain ⟨a, liq, -, -, g3⟩ := Pool.updateLiquidity_inv d4
    exact key hp' (by rw [d5, g3]; exact ⟨rfl, rfl⟩) e
  | move hw h1 h2 =>
    obtain ⟨a, b, e1⟩ := removePositionAt_frame h1
    obtain ⟨a', b', e2⟩ := addPosition_frame h2
    unfold place
    rw [e2, e1]
  | appr a h => rfl

/-- What one call leaves alone. -/
theorem untraded_step {c : Chain} {s s' : Store} (hr : Reach c s) {env : Env} {info : Info} {msg : Msg} {out : List OutMsg}
    (h : execute c env info msg s = .ok (s', out)) {q q' : Position} (hm : ¬ msg.tradesIn q.poolKey)
    (hq : q ∈ s.positions.vals) (hq' : q' ∈ s'.positions.vals) (hs : SamePosition q q') :
    (∀ x, accrued s' x q = accrued s x q) ∧ place s' q.poolKey = place s q.poolKey := by
  have hmr := hr.mreach
  have hmr' := Reach.mreach (.step hr h)
  obtain ⟨id, hid⟩ := memPos hq
  have hok := hmr.struct.positions _ _ hid
  obtain ⟨p, hp⟩ := hok.pool
  have frame : PoolFrame q.poolKey s s' → (∀ x, accrued s' x q = accrued s x q) ∧ place s' q.poolKey = place s q.poolKey := by
    intro f
    refine ⟨fun x => (worth_same f.1 (outAt_unchanged (f.2.1 _) x) (outAt_unchanged (f.2.1 _) x)).1, ?_⟩
    unfold place
    rw [f.1]
  by_cases hsw : msg.isSwap = false
  · have hquiet := execute_quiet hsw h
    refine ⟨fun x => ?_, quiet_place hmr.struct hquiet hp⟩
    cases hquiet with
    | config hc hf ht => rfl
    | opers ops => rfl
    | @poolMeta k p rcv px py hk hp hx hy =>
      by_cases e : q.poolKey = k
      · subst e
        exact (worth_frame (s := s) (s' := savePool s q.poolKey { p with feeReceiver := rcv, protoX := px, protoY := py }) (x := x) (q := q) (p := p) hp (KV.get?_insert_same _ _ _) rfl rfl (by cases x <;> rfl) rfl rfl).1
      · exact (worth_same (s := s) (s' := savePool s k { p with feeReceiver := rcv, protoX := px, protoY := py }) (x := x) (q := q) (KV.get?_insert_other _ _ (key_ne hok.kwf hk e)) rfl rfl).1
    | @newPool _ t0 t1 tier price tick out hw h =>
      obtain ⟨cfg, k, pool, h1, h2, h3, h4, h5, h6, rfl, _⟩ := createPool_inv h
      have hne : q.poolKey.key ≠ k.key := by
        intro e
        rw [e, h5] at hp
        cases hp
      exact (worth_same (s := s) (s' := savePool s k pool) (x := x) (q := q) (KV.get?_insert_other _ _ hne) rfl rfl).1
    | @create _ info k l u L lo hi out hw h => exact (create_kept hmr.struct hmr.tickSum hw h hq x).1
    | @claim _ info i out hw h => exact (claim_kept hmr.struct h hq x).1
    | @remove _ info i out hw h =>
      have := (remove_kept hmr.struct hmr'.struct hmr.posInv hmr'.tickSum hw h hq' x).1
      rw [accrued_same hs, accrued_same hs] at this
      exact this
    | @move s1 _ o r i p hw h1 h2 =>
      obtain ⟨a, b, e1⟩ := removePositionAt_frame h1
      obtain ⟨a', b', e2⟩ := addPosition_frame h2
      exact (worth_same (by rw [e2, e1]) (by rw [e2, e1]) (by rw [e2, e1])).1
    | @appr id p a h => rfl
  · have h0 := h
    have hw := (execute_ok.1 h0).1
    replace h := (execute_ok.1 h0).2
    cases msg <;> simp only [Msg.isSwap, not_true] at hsw <;> simp only [dispatch] at h
    case swap k d a b l =>
      obtain ⟨r, h⟩ := swap_inv h
      exact frame (swapInternal_frame' (x := (s', out, r)) hok.kwf hw.1 (fun e => hm e.symm) h)
    case swapRoute a e sl hops =>
      obtain ⟨fin, m, h1, _, _⟩ := swapRoute_inv h
      exact frame (swapRouteInternal_frame' hok.kwf hw.2.2.2 (fun y hy e => hm ⟨y, hy, e.symm⟩) h1)

theorem Holds.get {c : Chain} {s : Store} (hr : Reach c s) {owner : Bytes} {i : Nat} {q : Position} (h : Holds s owner i q) :
    i < U32 ∧ ∃ q', s.positions.get? (positionKey owner i) = some q' ∧ SamePosition q q' := by
  obtain ⟨q', h, hs⟩ := h
  rw [positionList_getElem?] at h
  split at h
  · rename_i hl
    rw [Option.some.injEq] at h
    have := hr.mreach.posInv.len owner
    exact ⟨by omega, q', h, hs⟩
  · cases h

theorem SamePosition.symm {q q' : Position} (h : SamePosition q q') : SamePosition q' q := Eq.symm h

theorem SamePosition.trans {q q' q'' : Position} (h : SamePosition q q') (h' : SamePosition q' q'') : SamePosition q q'' := Eq.trans h' h

theorem SamePosition.fields {q q' : Position} (h : SamePosition q q') :
    q'.poolKey = q.poolKey ∧ q'.lower = q.lower ∧ q'.upper = q.upper ∧ q'.liquidity = q.liquidity := by
  have : ∀ {α : Type} (f : Position → α), f { q' with approvals := [] } = f { q with approvals := [] } := fun f => congrArg f h
  exact ⟨this (·.poolKey), this (·.lower), this (·.upper), this (·.liquidity)⟩

/-- What calls that do not trade in the pool leave alone. -/
theorem Untraded.kept {c : Chain} {owner : Bytes} {i : Nat} {q : Position} {s s' : Store} (hr : Reach c s) (h0 : Holds s owner i q)
    (h : Untraded c owner i q s s') :
    Reach c s' ∧ Holds s' owner i q ∧ (∀ x, accrued s' x q = accrued s x q) ∧ place s' q.poolKey = place s q.poolKey := by
  induction h with
  | refl => exact ⟨hr, h0, fun _ => rfl, rfl⟩
  | step _ he hn hh ih =>
    obtain ⟨hr1, h1, a1, a2⟩ := ih
    obtain ⟨-, q1, g1, e1⟩ := h1.get hr1
    have hr2 : Reach c _ := .step hr1 he
    obtain ⟨-, q2, g2, e2⟩ := hh.get hr2
    have f := e1.fields.1
    obtain ⟨b1, b2⟩ := untraded_step hr1 he (q := q1) (q' := q2) (by rw [f]; exact hn) ((mem_vals _ _).2 ⟨_, g1⟩)
      ((mem_vals _ _).2 ⟨_, g2⟩) (e1.symm.trans e2)
    refine ⟨hr2, hh, fun x => ?_, ?_⟩
    · have := b1 x
      rw [accrued_same e1, accrued_same e1] at this
      rw [this, a1]
    · rw [← f, b2, f, a2]

/-- What a withdrawal pays. -/
theorem remove_pays {c : Chain} {s s' : Store} {env : Env} {info : Info} {i : Nat} {out : List OutMsg} (hs : Struct s)
    (h : removePosition c s env info i = .ok (s', out)) :
    ∃ pos pool a, s.positions.get? (positionKey info.sender i) = some pos ∧ s.pools.get? pos.poolKey.key = some pool ∧
      calculateAmountDelta pool.tick pool.sqrtPrice pos.liquidity false pos.upper pos.lower = .ok a ∧
      a.1 + accrued s true pos / 10 ^ 34 < U128 ∧ a.2.1 + accrued s false pos / 10 ^ 34 < U128 ∧
      out = assetTransfer c pos.poolKey.tokenX (a.1 + accrued s true pos / 10 ^ 34) info ++
        assetTransfer c pos.poolKey.tokenY (a.2.1 + accrued s false pos / 10 ^ 34) info := by
  obtain ⟨pos, tl, tu, pool, r, sr, s1, s2, hpos, htl, htu, il, iu, hp, hm, x1, x2, jl, ju, _, _, hr, e1, e2, e3, e5, e6, e7,
      htk, ho⟩ := removePosition_view hs h
  have hok := hs.positions _ _ hpos
  obtain ⟨o1, o2, -⟩ := modify_owed hok htl htu il iu hp hm
  obtain ⟨q', d1, d2, d3, d4, d5, d6, d7⟩ := Position.modify_inv hm
  obtain ⟨b, liq, b1, b2, b3⟩ := Pool.updateLiquidity_inv d4
  simp only at b1
  rw [jl, ju] at b1
  have ex : r.x = b.1 := by rw [d6, b3]
  have ey : r.y = b.2.1 := by rw [d7, b3]
  rw [o1, ex] at x1
  rw [o2, ey] at x2
  rw [o1, o2, ex, ey] at ho
  exact ⟨pos, pool, b, hpos, hp, b1, x1, x2, ho⟩

end OraiV3
