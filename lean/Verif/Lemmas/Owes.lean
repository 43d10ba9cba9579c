import Verif.Lemmas.SwapBooks

/-!
# What each operation does to what the pools owe
-/

namespace OraiV3

/-! ## Sums -/

theorem perm_sumQ {a b : List ℚ} (h : a.Perm b) : a.sum = b.sum := by
  induction h with
  | nil => rfl
  | cons x _ ih => simp [ih]
  | swap x y l => simp only [List.sum_cons]; ring
  | trans _ _ h1 h2 => exact h1.trans h2

theorem sumQ_cons {s s' : Store} {p : Position} (h : s'.positions.vals.Perm (p :: s.positions.vals))
    (k : PoolKey) (f : Position → ℚ) :
    sumQ s' k f = (if p.poolKey = k then f p else 0) + sumQ s k f := by
  unfold sumQ positionsOf
  rw [perm_sumQ ((h.filter _).map f)]
  by_cases e : p.poolKey = k <;> simp [e]

theorem sumQ_congr {s s' : Store} (h : s'.positions = s.positions) (k : PoolKey) (f : Position → ℚ) :
    sumQ s' k f = sumQ s k f := by
  unfold sumQ positionsOf; rw [h]

theorem sumQ_ext {s : Store} {k : PoolKey} {f g : Position → ℚ}
    (h : ∀ p ∈ positionsOf s k, f p = g p) : sumQ s k f = sumQ s k g := by
  unfold sumQ
  rw [List.map_congr_left h]

theorem sumQ_nonneg {s : Store} {k : PoolKey} {f : Position → ℚ} (h : ∀ p ∈ positionsOf s k, 0 ≤ f p) : 0 ≤ sumQ s k f := by
  unfold sumQ
  generalize positionsOf s k = l at *
  induction l with
  | nil => simp
  | cons p l ih =>
    simp only [List.map_cons, List.sum_cons]
    have a := h p (by simp)
    have b := ih (fun q hq => h q (by simp [hq]))
    linarith

theorem sumQ_edit {s s' : Store} {id : Bytes} {p p' : Position} (hp : s.positions.get? id = some p)
    (h : s'.positions = s.positions.insert id p') (k : PoolKey) (f : Position → ℚ)
    (hk : p'.poolKey = p.poolKey) :
    sumQ s' k f = sumQ s k f + if p.poolKey = k then f p' - f p else 0 := by
  obtain ⟨rest, b1, b2⟩ := updatePosition_vals (p' := p') hp
  rw [← h] at b2
  unfold sumQ positionsOf
  rw [perm_sumQ ((b1.filter _).map f), perm_sumQ ((b2.filter _).map f)]
  by_cases e : p.poolKey = k
  · simp only [List.filter_cons, e, hk, decide_true, if_true, List.map_cons, List.sum_cons]; ring
  · simp [e, hk]

theorem sumQ_move {s s1 s2 : Store} {o r : Bytes} {i : Nat} {p : Position} (hi : PosInv s) (hw : i < U32)
    (h1 : removePositionAt s o i = .ok (s1, p)) (h2 : addPosition s1 r { p with approvals := [] } = .ok s2)
    (k : PoolKey) (f : Position → ℚ) (hf : f { p with approvals := [] } = f p) :
    sumQ s2 k f = sumQ s k f := by
  rw [sumQ_cons (addPosition_vals (hi.remove hw h1).2 h2),
    sumQ_cons (removePositionAt_vals hi hw h1), hf]

theorem sumQ_cast (s : Store) (k : PoolKey) (f : Position → Nat) (c : ℚ) :
    sumQ s k (fun q => (f q : ℚ) / c) = (sumPositions s k f : ℚ) / c := by
  unfold sumQ sumPositions
  induction positionsOf s k with
  | nil => simp
  | cons p l ih => simp only [List.map_cons, List.sum_cons]; rw [ih]; push_cast; ring

theorem mem_positionsOf {s : Store} {k : PoolKey} {q : Position} : q ∈ positionsOf s k ↔ q ∈ s.positions.vals ∧ q.poolKey = k := by
  unfold positionsOf; simp

/-! ## Worth -/

theorem principal_nonneg (q : Position) (x : Bool) (p : Nat) : 0 ≤ q.principal x p := by
  unfold Position.principal
  cases x
  · exact exactY_nonneg _ _ _
  · exact exactX_nonneg _ _ _

theorem worth_nonneg (s : Store) (x : Bool) (q : Position) : 0 ≤ worth s x q := by
  unfold worth
  split
  · exact le_refl _
  · have := principal_nonneg q x (by assumption : Pool).sqrtPrice
    positivity

theorem poolOwes_nonneg (s : Store) (k : PoolKey) (x : Bool) : 0 ≤ poolOwes s k x := by
  unfold poolOwes
  split
  · exact le_refl _
  · have := sumQ_nonneg (s := s) (k := k) (fun q _ => worth_nonneg s x q)
    positivity

theorem sumQ_worth {s : Store} {k : PoolKey} {p : Pool} (hp : s.pools.get? k.key = some p) (x : Bool) :
    sumQ s k (worth s x) = sumQ s k (fun q => q.principal x p.sqrtPrice) + (totalAccrued s k x : ℚ) / 10 ^ 34 := by
  rw [totalAccrued, ← sumQ_cast]
  apply sumQ_sub
  intro q hq
  have := (mem_positionsOf.1 hq).2
  unfold worth
  rw [this, hp]

/-- Nothing relevant to a position has changed. -/
theorem worth_frame {s s' : Store} {x : Bool} {q : Position} {p p' : Pool} (h : s.pools.get? q.poolKey.key = some p)
    (h' : s'.pools.get? q.poolKey.key = some p') (e1 : p'.tick = p.tick) (e2 : p'.sqrtPrice = p.sqrtPrice) (e3 : p'.fg x = p.fg x)
    (e4 : outAt s'.ticks q.poolKey x q.lower = outAt s.ticks q.poolKey x q.lower)
    (e5 : outAt s'.ticks q.poolKey x q.upper = outAt s.ticks q.poolKey x q.upper) :
    accrued s' x q = accrued s x q ∧ worth s' x q = worth s x q := by
  have : accrued s' x q = accrued s x q := by
    unfold accrued accruedIn
    simp only [growthInside_code]
    rw [h, h']
    simp only
    rw [e1, e3, e4, e5]
  refine ⟨this, ?_⟩
  unfold worth
  rw [h, h', this]
  simp only
  rw [e2]

theorem worth_same {s s' : Store} {x : Bool} {q : Position} (h : s'.pools.get? q.poolKey.key = s.pools.get? q.poolKey.key)
    (e4 : outAt s'.ticks q.poolKey x q.lower = outAt s.ticks q.poolKey x q.lower)
    (e5 : outAt s'.ticks q.poolKey x q.upper = outAt s.ticks q.poolKey x q.upper) :
    accrued s' x q = accrued s x q ∧ worth s' x q = worth s x q := by
  have : accrued s' x q = accrued s x q := by
    unfold accrued accruedIn
    simp only [growthInside_code]
    rw [h]
    split
    · rw [e4, e5]
    · rfl
  refine ⟨this, ?_⟩
  unfold worth
  rw [h, this]

theorem outAt_eq {m m' : KV Tick} {k : PoolKey} {i : Int} {t t' : Tick} (h : m.get? (tickKey k i) = some t)
    (h' : m'.get? (tickKey k i) = some t') (e1 : t'.outX = t.outX) (e2 : t'.outY = t.outY) (x : Bool) :
    outAt m' k x i = outAt m k x i := by
  unfold outAt
  rw [h, h']
  cases x
  · exact e2
  · exact e1

theorem outAt_get {m m' : KV Tick} {k : PoolKey} {i : Int} (h : m'.get? (tickKey k i) = m.get? (tickKey k i)) (x : Bool) :
    outAt m' k x i = outAt m k x i := by
  unfold outAt
  rw [h]

/-! ## Amounts of a deposit or withdrawal -/

theorem principal_cases {q : Position} {ts : Nat} {p : Pool} (hok : PoolOk ts p) (h1 : TickOk ts q.lower) (h2 : TickOk ts q.upper)
    (h3 : q.lower < q.upper) :
    (p.tick < q.lower → q.principal true p.sqrtPrice = exactX q.liquidity (sqrtPriceAt q.lower) (sqrtPriceAt q.upper) ∧
      q.principal false p.sqrtPrice = 0) ∧
    (q.lower ≤ p.tick → p.tick < q.upper → q.principal true p.sqrtPrice = exactX q.liquidity p.sqrtPrice (sqrtPriceAt q.upper) ∧
      q.principal false p.sqrtPrice = exactY q.liquidity (sqrtPriceAt q.lower) p.sqrtPrice) ∧
    (q.upper ≤ p.tick → q.principal true p.sqrtPrice = 0 ∧
      q.principal false p.sqrtPrice = exactY q.liquidity (sqrtPriceAt q.lower) (sqrtPriceAt q.upper)) := by
  have hlu := h1.price_le h2 (by omega)
  have below : ∀ j, TickOk ts j → j ≤ p.tick → sqrtPriceAt j ≤ p.sqrtPrice := fun j hj hle =>
    Nat.le_trans (hj.price_le hok.tick hle) hok.lo
  have above : ∀ j, TickOk ts j → p.tick < j → p.sqrtPrice ≤ sqrtPriceAt j := by
    intro j hj hlt
    have hm := (TickOk_iff.1 hj).2.2.2
    have h1 := hok.hi (by omega)
    exact Nat.le_trans (Nat.le_of_lt h1) ((hok.tick.add (by omega)).price_le hj (dvd_lt_step hj.pos hok.tick.dvd hj.dvd hlt))
  unfold Position.principal
  simp only [if_true, Bool.false_eq_true, if_false]
  refine ⟨fun a => ?_, fun a b => ?_, fun a => ?_⟩
  · have := above _ h1 a
    rw [show max (sqrtPriceAt q.lower) (min p.sqrtPrice (sqrtPriceAt q.upper)) = sqrtPriceAt q.lower by omega]
    exact ⟨rfl, exactY_self _ _⟩
  · have := below _ h1 a
    have := above _ h2 b
    rw [show max (sqrtPriceAt q.lower) (min p.sqrtPrice (sqrtPriceAt q.upper)) = p.sqrtPrice by omega]
    exact ⟨rfl, rfl⟩
  · have := below _ h2 a
    rw [show max (sqrtPriceAt q.lower) (min p.sqrtPrice (sqrtPriceAt q.upper)) = sqrtPriceAt q.upper by omega]
    exact ⟨exactX_self _ _, rfl⟩

/-- What is charged for a position covers it; what is paid for it is covered by it. -/
theorem amountDelta_principal {q : Position} {ts : Nat} {p : Pool} (hok : PoolOk ts p) (h1 : TickOk ts q.lower)
    (h2 : TickOk ts q.upper) (h3 : q.lower < q.upper) {sign : Bool} {r : Nat × Nat × Bool}
    (h : calculateAmountDelta p.tick p.sqrtPrice q.liquidity sign q.upper q.lower = .ok r) :
    if sign then q.principal true p.sqrtPrice ≤ r.1 + 1 / 10 ^ 14 ∧ q.principal false p.sqrtPrice ≤ r.2.1
    else (r.1 : ℚ) ≤ q.principal true p.sqrtPrice ∧ (r.2.1 : ℚ) ≤ q.principal false p.sqrtPrice := by
  obtain ⟨c1, c2, c3⟩ := principal_cases hok h1 h2 h3
  have hε : (0 : ℚ) ≤ 1 / 10 ^ 14 := by positivity
  have m1 := h1.price_min
  have m2 := h2.price_min
  have m3 := hok.min
  have key : ∀ (a b L x y : Nat), MIN_SQRT_PRICE ≤ a → MIN_SQRT_PRICE ≤ b →
      (getDeltaX a b L sign = .ok x → if sign then exactX L a b ≤ x + 1 / 10 ^ 14 else (x : ℚ) ≤ exactX L a b) ∧
      (getDeltaY a b L sign = .ok y → if sign then exactY L a b ≤ y else (y : ℚ) ≤ exactY L a b) := by
    intro a b L x y ha hb
    cases sign
    · exact ⟨fun hx => (deltaX_down_exact hx).2.2.1, fun hy => (deltaY_down_exact hy).1⟩
    · refine ⟨fun hx => ?_, fun hy => (deltaY_up_exact hy).1⟩
      simp only [if_true]
      have a1 := (deltaX_up_exact hx).2.2.1
      have a2 := dustX_small ha hb
      linarith
  unfold calculateAmountDelta at h
  rw [if_neg (by omega)] at h
  by_cases d1 : p.tick < q.lower
  · simp only [if_pos d1, bind_ok, pure_ok, calculateSqrtPrice_ok] at h
    obtain ⟨pl, ⟨-, rfl⟩, pu, ⟨-, rfl⟩, x, hx, rfl⟩ := h
    obtain ⟨e1, e2⟩ := c1 d1
    have k1 := (key _ _ _ x 0 m1 m2).1 hx
    rw [e1, e2]
    cases sign
    · exact ⟨k1, by simp⟩
    · exact ⟨k1, by simp⟩
  · rw [if_neg d1] at h
    by_cases d2 : p.tick < q.upper
    · simp only [if_pos d2, bind_ok, pure_ok, calculateSqrtPrice_ok] at h
      obtain ⟨pl, ⟨-, rfl⟩, x, hx, pu, ⟨-, rfl⟩, y, hy, rfl⟩ := h
      obtain ⟨e1, e2⟩ := c2 (by omega) d2
      have k1 := (key _ _ _ x 0 m3 m2).1 hx
      have k2 := (key _ _ _ 0 y m1 m3).2 hy
      rw [e1, e2]
      cases sign
      · exact ⟨k1, k2⟩
      · exact ⟨k1, k2⟩
    · simp only [if_neg d2, bind_ok, pure_ok, calculateSqrtPrice_ok] at h
      obtain ⟨pl, ⟨-, rfl⟩, pu, ⟨-, rfl⟩, y, hy, rfl⟩ := h
      obtain ⟨e1, e2⟩ := c3 (by omega)
      have k2 := (key _ _ _ 0 y m1 m2).2 hy
      rw [e1, e2]
      cases sign
      · exact ⟨by simp, k2⟩
      · exact ⟨by simp, k2⟩

/-! ## Opening a position -/

theorem usedOf {s : Store} {q : Position} (hq : q ∈ s.positions.vals) :
    q ∈ positionsOf s q.poolKey ∧ UsedTick s q.poolKey q.lower ∧ UsedTick s q.poolKey q.upper := by
  have h : q ∈ positionsOf s q.poolKey := mem_positionsOf.2 ⟨hq, rfl⟩
  exact ⟨h, ⟨q, h, .inl rfl⟩, ⟨q, h, .inr rfl⟩⟩

theorem memPos {s : Store} {q : Position} (hq : q ∈ s.positions.vals) : ∃ id, s.positions.get? id = some q := (mem_vals _ _).1 hq

/-- The positions `q` keeps its worth. -/
def Kept (s s' : Store) (q : Position) : Prop := ∀ x, accrued s' x q = accrued s x q ∧ worth s' x q = worth s x q

theorem kept_of {s s' : Store} (hs : Struct s) {q : Position} (hq : q ∈ s.positions.vals)
    (hpool : ∀ p, s.pools.get? q.poolKey.key = some p → ∃ p', s'.pools.get? q.poolKey.key = some p' ∧ p'.tick = p.tick ∧
      p'.sqrtPrice = p.sqrtPrice ∧ p'.fgX = p.fgX ∧ p'.fgY = p.fgY)
    (hout : ∀ j, i32 j → j = q.lower ∨ j = q.upper → ∀ x, outAt s'.ticks q.poolKey x j = outAt s.ticks q.poolKey x j) : Kept s s' q := by
  obtain ⟨id, hid⟩ := memPos hq
  have hok := hs.positions _ _ hid
  obtain ⟨p, hp⟩ := hok.pool
  obtain ⟨p', hp', e1, e2, e3, e4⟩ := hpool p hp
  intro x
  refine worth_frame hp hp' e1 e2 ?_ (hout _ hok.lower.i32 (.inl rfl) x) (hout _ hok.upper.i32 (.inr rfl) x)
  cases x
  · exact e4
  · exact e3

theorem create_kept {c : Chain} {s s' : Store} {env : Env} {info : Info} {k : PoolKey}
    {l u : Int} {L lo hi : Nat} {out : List OutMsg} (hs : Struct s) (ht : TickSum s)
    (hw : (Msg.createPosition k l u L lo hi).wf)
    (h : createPosition c s env info k l u L lo hi = .ok (s', out)) {q : Position} (hq : q ∈ s.positions.vals) : Kept s s' q := by
  obtain ⟨pool, tl, tu, r, rl, m1, m2, hp, hL, hlu, vl, vu, il, iu, _, _, _, _, _, hm, e1, e2, e3, e4, e5, hU, htk, _⟩ :=
    createPosition_view hs hw h
  obtain ⟨hk, hl, hu, _⟩ := hw
  obtain ⟨id, hid⟩ := memPos hq
  have hok := hs.positions _ _ hid
  obtain ⟨q', d1, d2, _⟩ := Position.modify_inv hm
  have f1 := Tick.update_inv d1
  have f2 := Tick.update_inv d2
  obtain ⟨g1, g2, g3, g4, -⟩ := modify_liquidity hm
  refine kept_of hs hq (fun p hp' => ?_) (fun j hj hje x => ?_)
  · rw [e3, KV.get?_insert]
    by_cases e : q.poolKey.key = k.key
    · rw [if_pos e]
      rw [e, hp] at hp'
      cases hp'
      exact ⟨_, rfl, g1, g2, g3, g4⟩
    · rw [if_neg e]; exact ⟨p, hp', rfl, rfl, rfl, rfl⟩
  · have hused : UsedTick s q.poolKey j := by
      rcases hje with rfl | rfl
      · exact (usedOf hq).2.1
      · exact (usedOf hq).2.2
    rw [ht.used hs hok.kwf hj] at hused
    have hcases : ∀ {i : Int} {t t' : Tick}, i32 i → tickKey q.poolKey j = tickKey k i → TickUsed s k pool env.millis i t →
        t'.outX = t.outX → t'.outY = t.outY → s'.ticks.get? (tickKey q.poolKey j) = some t' →
        outAt s'.ticks q.poolKey x j = outAt s.ticks q.poolKey x j := by
      intro i t t' hi' he hv o1 o2 hg
      rw [he] at hused
      rcases hv with hv | ⟨hv, _⟩
      · rw [← he] at hv
        exact outAt_eq hv hg o1 o2 x
      · rw [hv] at hused; simp at hused
    have hg := htk (tickKey q.poolKey j)
    by_cases c1 : tickKey q.poolKey j = tickKey k u
    · rw [if_pos c1] at hg
      exact hcases hu c1 vu f2.2.2.1 f2.2.2.2.1 hg
    · rw [if_neg c1] at hg
      by_cases c2 : tickKey q.poolKey j = tickKey k l
      · rw [if_pos c2] at hg
        exact hcases hl c2 vl f1.2.2.1 f1.2.2.2.1 hg
      · rw [if_neg c2] at hg
        exact outAt_get hg x

theorem wsub_self {a : Nat} (h : a < U128) : wsub a a = 0 := by
  unfold wsub
  rw [Nat.add_sub_cancel' (Nat.le_of_lt h), Nat.mod_self]

/-- Growth inside the range of a position, from the ticks themselves. -/
theorem growthInside_eq {m : KV Tick} {k : PoolKey} {p : Pool} {x : Bool} {l u : Int} {tl tu : Tick}
    (h1 : m.get? (tickKey k l) = some tl) (h2 : m.get? (tickKey k u) = some tu) :
    growthInside m k p x l u = feeGrowthInside l (tl.out x) u (tu.out x) p.tick (p.fg x) := by
  simp only [growthInside_code]
  unfold outAt
  rw [h1, h2]

/-- A position just brought up to date has nothing accrued. -/
theorem accrued_fresh {s : Store} {q : Position} {p : Pool} {x : Bool} (hp : s.pools.get? q.poolKey.key = some p)
    (h : q.fgIn x = growthInside s.ticks q.poolKey p x q.lower q.upper) : accrued s x q = 0 := by
  unfold accrued accruedIn
  rw [hp]
  simp only
  rw [h, wsub_self (growthInside_lt _ _ _ _ _ _), Nat.zero_mul]

theorem worth_fresh {s : Store} {q : Position} {p : Pool} {x : Bool} (hp : s.pools.get? q.poolKey.key = some p)
    (h : accrued s x q = 0) : worth s x q = q.principal x p.sqrtPrice := by
  unfold worth
  rw [hp, h]
  simp

/-- Opening a position. -/
theorem create_owes {c : Chain} {s s' : Store} {env : Env} {info : Info} {k : PoolKey}
    {l u : Int} {L lo hi : Nat} {out : List OutMsg} (hs : Struct s) (hs' : Struct s') (hi' : PosInv s) (hpr : PriceInv s)
    (hw : (Msg.createPosition k l u L lo hi).wf)
    (h : createPosition c s env info k l u L lo hi = .ok (s', out)) :
    ∃ p pool pool' m1 m2 x y, p.what = (k, l, u, L) ∧ s'.positions.vals.Perm (p :: s.positions.vals) ∧
      s.pools.get? k.key = some pool ∧ s'.pools = s.pools.insert k.key pool' ∧ (∀ z, pool'.proto z = pool.proto z) ∧
      assetTransferFrom c k.tokenX x info = .ok m1 ∧ assetTransferFrom c k.tokenY y info = .ok m2 ∧ out = m1 ++ m2 ∧
      (∀ z, accrued s' z p = 0) ∧ worth s' true p ≤ x + 1 / 10 ^ 14 ∧ worth s' false p ≤ y := by
  obtain ⟨pool, tl, tu, r, rl, m1, m2, hp, hL, hlu, vl, vu, il, iu, _, _, _, _, _, hm, e1, e2, e3, e4, e5, hU, htk, a1, a2, a3⟩ :=
    createPosition_view hs hw h
  obtain ⟨hk, hl, hu, _⟩ := hw
  obtain ⟨q', d1, d2, d3, d4, d5, d6, d7⟩ := Position.modify_inv hm
  obtain ⟨ox, oy, l', _, _, _, w, _, _, e⟩ := Position.update_inv d3
  simp only [if_true, Nat.zero_add] at w
  have w2 := w.2
  have f1 := Tick.update_inv d1
  have f2 := Tick.update_inv d2
  obtain ⟨g1, g2, g3, g4, -⟩ := modify_liquidity hm
  have hpos : s'.positions.get? (positionKey info.sender (getPositionLength s info.sender)) = some r.pos := by
    rw [e4, KV.get?_insert_same]
  have hok := hs'.positions _ _ hpos
  have k1 : r.pos.poolKey = k := by rw [e]
  have k2 : r.pos.lower = l := by rw [e]
  have k3 : r.pos.upper = u := by rw [e]
  have k4 : r.pos.liquidity = L := by rw [e]; exact w2
  have hperm : s'.positions.vals.Perm (r.pos :: s.positions.vals) := by
    obtain ⟨p1, s1, hp1, h1, h2⟩ := createPosition_effect hs ⟨hk, hl, hu, ‹_›⟩ h
    have hv := addPosition_vals hi' h1
    rw [← h2.1] at hv
    have hg := (addPosition_ok.1 h1).2
    have : s'.positions = s.positions.insert (positionKey info.sender (getPositionLength s info.sender)) p1 := by
      rw [h2.1, hg]
    rw [this, KV.get?_insert_same, Option.some.injEq] at hpos
    rw [← hpos]; exact hv
  have hpool' : s'.pools.get? r.pos.poolKey.key = some r.pool := by rw [k1, e3, KV.get?_insert_same]
  have hne : tickKey k l ≠ tickKey k u := fun e => hlu (tickKey_inj hk hk hl hu e).2
  have tl' : s'.ticks.get? (tickKey k l) = some r.lower := by rw [htk, if_neg hne, if_pos rfl]
  have tu' : s'.ticks.get? (tickKey k u) = some r.upper := by rw [htk, if_pos rfl]
  have jl : r.lower.index = l := f1.1.trans il
  have ju : r.upper.index = u := f2.1.trans iu
  have hfresh : ∀ z, accrued s' z r.pos = 0 := by
    intro z
    refine accrued_fresh hpool' ?_
    rw [k1, k2, k3, growthInside_eq tl' tu', g1]
    cases z
    · simp only [Position.fgIn, Tick.out, Pool.fg, Bool.false_eq_true, if_false]
      rw [g4, e, jl, ju]
    · simp only [Position.fgIn, Tick.out, Pool.fg, if_true]
      rw [g3, e, jl, ju]
  obtain ⟨b, liq, b1, b2, b3⟩ := Pool.updateLiquidity_inv d4
  simp only at b1
  rw [jl, ju, ← k2, ← k3, ← k4] at b1
  have hpo := hpr k pool hk hp
  have t1 := hok.lower
  have t2 := hok.upper
  rw [k1] at t1 t2
  have am := amountDelta_principal hpo t1 t2 hok.lt b1
  simp only [if_true] at am
  have ex : r.x = b.1 := by rw [d6, b3]
  have ey : r.y = b.2.1 := by rw [d7, b3]
  refine ⟨r.pos, pool, r.pool, m1, m2, r.x, r.y, ?_, hperm, hp, e3, ?_, a1, a2, a3, hfresh, ?_, ?_⟩
  · unfold Position.what; rw [k1, k2, k3, k4]
  · intro z; rw [d5, b3]; cases z <;> rfl
  · rw [worth_fresh hpool' (hfresh true), g2, ex]; exact am.1
  · rw [worth_fresh hpool' (hfresh false), g2, ey]; exact am.2

/-! ## Claiming -/

theorem claim_kept {c : Chain} {s s' : Store} {env : Env} {info : Info} {i : Nat} {out : List OutMsg}
    (hs : Struct s) (h : claimFee c s env info i = .ok (s', out)) {q : Position} (hq : q ∈ s.positions.vals) : Kept s s' q := by
  obtain ⟨pos, tl, tu, pool, r, hpos, htl, htu, il, iu, hp, hm, _, _, _, _, e3, hp', _, htk, _⟩ := claimFee_view hs h
  obtain ⟨q', d1, d2, _⟩ := Position.modify_inv hm
  have f1 := Tick.update_inv d1
  have f2 := Tick.update_inv d2
  obtain ⟨g1, g2, g3, g4, -⟩ := modify_liquidity hm
  refine kept_of hs hq (fun p hp' => ?_) (fun j hj hje x => ?_)
  · rw [e3, KV.get?_insert]
    by_cases e : q.poolKey.key = pos.poolKey.key
    · rw [if_pos e]
      rw [e, hp] at hp'
      cases hp'
      exact ⟨_, rfl, g1, g2, g3, g4⟩
    · rw [if_neg e]; exact ⟨p, hp', rfl, rfl, rfl, rfl⟩
  · have hg := htk (tickKey q.poolKey j)
    by_cases c1 : tickKey q.poolKey j = tickKey pos.poolKey pos.lower
    · rw [if_pos c1] at hg
      rw [← c1] at htl
      exact outAt_eq htl hg f1.2.2.1 f1.2.2.2.1 x
    · rw [if_neg c1] at hg
      by_cases c2 : tickKey q.poolKey j = tickKey pos.poolKey pos.upper
      · rw [if_pos c2] at hg
        rw [← c2] at htu
        exact outAt_eq htu hg f2.2.2.1 f2.2.2.2.1 x
      · rw [if_neg c2] at hg
        exact outAt_get hg x

/-- The fees `modify` credits are what has accrued, rounded down. -/
theorem modify_owed {s : Store} {pos : Position} {pool : Pool} {tl tu : Tick} {delta : Nat} {add : Bool} {now ts : Nat} {r : ModifyRes}
    (hok : PositionOk s pos) (htl : s.ticks.get? (tickKey pos.poolKey pos.lower) = some tl)
    (htu : s.ticks.get? (tickKey pos.poolKey pos.upper) = some tu) (il : tl.index = pos.lower) (iu : tu.index = pos.upper)
    (hp : s.pools.get? pos.poolKey.key = some pool) (hm : pos.modify pool tu tl delta add now ts = .ok r) :
    r.pos.owedX = accrued s true pos / 10 ^ 34 ∧ r.pos.owedY = accrued s false pos / 10 ^ 34 ∧
    ∀ z, r.pos.fgIn z = growthInside s.ticks pos.poolKey pool z pos.lower pos.upper := by
  obtain ⟨q', d1, d2, d3, _⟩ := Position.modify_inv hm
  have f1 := Tick.update_inv d1
  have f2 := Tick.update_inv d2
  obtain ⟨ox, oy, l', _, p2, p3, _, _, _, e⟩ := Position.update_inv d3
  unfold feeGrowthToFee at p2 p3
  rw [cast128_ok] at p2 p3
  have gr : ∀ z, growthInside s.ticks pos.poolKey pool z pos.lower pos.upper =
      feeGrowthInside r.lower.index (r.lower.out z) r.upper.index (r.upper.out z) pool.tick (pool.fg z) := by
    intro z
    rw [growthInside_eq htl htu, f1.1, f2.1, il, iu]
    have a1 : r.lower.out z = tl.out z := by
      cases z
      · exact f1.2.2.2.1
      · exact f1.2.2.1
    have a2 : r.upper.out z = tu.out z := by
      cases z
      · exact f2.2.2.2.1
      · exact f2.2.2.1
    rw [a1, a2]
  have hx := gr true
  have hy := gr false
  simp only [Tick.out, Pool.fg, if_true] at hx
  simp only [Tick.out, Pool.fg, Bool.false_eq_true, if_false] at hy
  rw [← hx] at p2
  rw [← hy] at p3
  refine ⟨?_, ?_, fun z => ?_⟩
  · rw [e]
    simp only
    rw [hok.owedX, Nat.zero_add, ← p2.2]
    unfold accrued accruedIn
    rw [hp]
    rfl
  · rw [e]
    simp only
    rw [hok.owedY, Nat.zero_add, ← p3.2]
    unfold accrued accruedIn
    rw [hp]
    rfl
  · cases z
    · rw [hy, e]; rfl
    · rw [hx, e]; rfl

/-- Claiming the fees of a position. -/
theorem claim_owes {c : Chain} {s s' : Store} {env : Env} {info : Info} {i : Nat} {out : List OutMsg}
    (hs : Struct s) (h : claimFee c s env info i = .ok (s', out)) :
    ∃ pos pos' pool pool', s.positions.get? (positionKey info.sender i) = some pos ∧
      s'.positions = s.positions.insert (positionKey info.sender i) pos' ∧ pos'.what = pos.what ∧ pos'.approvals = pos.approvals ∧
      s.pools.get? pos.poolKey.key = some pool ∧ s'.pools = s.pools.insert pos.poolKey.key pool' ∧
      pool' = { pool with lastTs := env.millis } ∧
      out = assetTransfer c pos.poolKey.tokenX (accrued s true pos / 10 ^ 34) info ++
        assetTransfer c pos.poolKey.tokenY (accrued s false pos / 10 ^ 34) info ∧
      (∀ z, accrued s' z pos' = 0) ∧
      (∀ z, worth s z pos = worth s' z pos' + (accrued s z pos : ℚ) / 10 ^ 34) := by
  obtain ⟨pos, tl, tu, pool, r, hpos, htl, htu, il, iu, hp, hm, _, _, _, _, e3, hp', _, htk, ho⟩ := claimFee_view hs h
  have hok := hs.positions _ _ hpos
  have hk := hok.kwf
  obtain ⟨o1, o2, o3⟩ := modify_owed hok htl htu il iu hp hm
  obtain ⟨q', d1, d2, d3, d4, d5, d6, d7⟩ := Position.modify_inv hm
  have f1 := Tick.update_inv d1
  have f2 := Tick.update_inv d2
  obtain ⟨g1, g2, g3, g4, g5⟩ := modify_liquidity hm
  obtain ⟨ox, oy, l', _, _, _, w, _, _, e⟩ := Position.update_inv d3
  simp only [if_true, Nat.add_zero] at w
  have hl' : r.pos.liquidity = pos.liquidity := by rw [e]; exact w.2
  have hpool' : s'.pools.get? pos.poolKey.key = some r.pool := by rw [e3, KV.get?_insert_same]
  have hpe : r.pool = { pool with lastTs := env.millis } := by
    obtain ⟨b, liq, b1, b2, b3⟩ := Pool.updateLiquidity_inv d4
    simp only [if_true, Nat.add_zero] at b2
    have : liq = pool.liquidity := by
      split at b2
      · exact b2.2
      · exact b2
    rw [d5, b3, this]
  have kk : r.pos.poolKey = pos.poolKey ∧ r.pos.lower = pos.lower ∧ r.pos.upper = pos.upper := by rw [e]; exact ⟨rfl, rfl, rfl⟩
  have hkept := claim_kept hs h ((mem_vals _ _).2 ⟨_, hpos⟩)
  have hfresh : ∀ z, accrued s' z { r.pos with owedX := 0, owedY := 0 } = 0 := by
    intro z
    refine accrued_fresh (p := r.pool) (by simp only; rw [kk.1]; exact hpool') ?_
    show r.pos.fgIn z = growthInside s'.ticks r.pos.poolKey r.pool z r.pos.lower r.pos.upper
    rw [o3 z, kk.1, kk.2.1, kk.2.2]
    have tl' : s'.ticks.get? (tickKey pos.poolKey pos.lower) = some r.lower := by rw [htk, if_pos rfl]
    have hne : tickKey pos.poolKey pos.upper ≠ tickKey pos.poolKey pos.lower := fun e => by
      have := (tickKey_inj hk hk hok.upper.i32 hok.lower.i32 e).2
      have := hok.lt
      omega
    have tu' : s'.ticks.get? (tickKey pos.poolKey pos.upper) = some r.upper := by rw [htk, if_neg hne, if_pos rfl]
    rw [growthInside_eq htl htu, growthInside_eq tl' tu', g1]
    cases z
    · simp only [Tick.out, Pool.fg, Bool.false_eq_true, if_false]
      rw [g4, f1.2.2.2.1, f2.2.2.2.1]
    · simp only [Tick.out, Pool.fg, if_true]
      rw [g3, f1.2.2.1, f2.2.2.1]
  refine ⟨pos, { r.pos with owedX := 0, owedY := 0 }, pool, r.pool, hpos, hp', ?_, ?_, hp, e3, hpe, ?_, hfresh, fun z => ?_⟩
  · unfold Position.what; simp only; rw [kk.1, kk.2.1, kk.2.2, hl']
  · simp only; rw [e]
  · rw [ho, o1, o2]
  · rw [worth_fresh (p := r.pool) (by simp only; rw [kk.1]; exact hpool') (hfresh z)]
    have : ({ r.pos with owedX := 0, owedY := 0 } : Position).principal z r.pool.sqrtPrice = pos.principal z pool.sqrtPrice := by
      unfold Position.principal
      simp only
      rw [kk.2.1, kk.2.2, hl', g2]
    rw [this]
    unfold worth
    rw [hp]

/-! ## Closing -/

theorem remove_kept {c : Chain} {s s' : Store} {env : Env} {info : Info} {i : Nat} {out : List OutMsg}
    (hs : Struct s) (hs' : Struct s') (hi : PosInv s) (ht' : TickSum s') (hw : i < U32)
    (h : removePosition c s env info i = .ok (s', out)) {q : Position} (hq : q ∈ s'.positions.vals) : Kept s s' q := by
  obtain ⟨p0, _, hperm⟩ := removePosition_sum hs hi hw h
  have hqs : q ∈ s.positions.vals := hperm.symm.subset (by simp [hq])
  obtain ⟨pos, tl, tu, pool, r, sr, s1, s2, hpos, htl, htu, il, iu, hp, hm, _, _, jl, ju, _, _, hr, e1, e2, e3, e5, e6, e7,
      htk, _⟩ := removePosition_view hs h
  obtain ⟨id, hid⟩ := memPos hqs
  have hok := hs.positions _ _ hid
  obtain ⟨q', d1, d2, _⟩ := Position.modify_inv hm
  have f1 := Tick.update_inv d1
  have f2 := Tick.update_inv d2
  obtain ⟨g1, g2, g3, g4, -⟩ := modify_liquidity hm
  refine kept_of hs hqs (fun p hp' => ?_) (fun j hj hje x => ?_)
  · rw [e5, KV.get?_insert]
    by_cases e : q.poolKey.key = pos.poolKey.key
    · rw [if_pos e]
      rw [e, hp] at hp'
      cases hp'
      exact ⟨_, rfl, g1, g2, g3, g4⟩
    · rw [if_neg e]; exact ⟨p, hp', rfl, rfl, rfl, rfl⟩
  · have hused : UsedTick s' q.poolKey j := by
      rcases hje with rfl | rfl
      · exact (usedOf hq).2.1
      · exact (usedOf hq).2.2
    rw [ht'.used hs' hok.kwf hj] at hused
    have hg := htk (tickKey q.poolKey j)
    by_cases c1 : tickKey q.poolKey j = tickKey pos.poolKey pos.upper
    · rw [if_pos c1] at hg
      split at hg
      · rw [hg] at hused; simp at hused
      · rw [← c1] at htu
        exact outAt_eq htu hg f2.2.2.1 f2.2.2.2.1 x
    · rw [if_neg c1] at hg
      by_cases c2 : tickKey q.poolKey j = tickKey pos.poolKey pos.lower
      · rw [if_pos c2] at hg
        split at hg
        · rw [hg] at hused; simp at hused
        · rw [← c2] at htl
          exact outAt_eq htl hg f1.2.2.1 f1.2.2.2.1 x
      · rw [if_neg c2] at hg
        exact outAt_get hg x

/-- Closing a position. -/
theorem remove_owes {c : Chain} {s s' : Store} {env : Env} {info : Info} {i : Nat} {out : List OutMsg}
    (hs : Struct s) (hi : PosInv s) (hpr : PriceInv s) (hw : i < U32) (h : removePosition c s env info i = .ok (s', out)) :
    ∃ pos pool pool' x y, s.positions.get? (positionKey info.sender i) = some pos ∧ s.positions.vals.Perm (pos :: s'.positions.vals) ∧
      s.pools.get? pos.poolKey.key = some pool ∧ s'.pools = s.pools.insert pos.poolKey.key pool' ∧ (∀ z, pool'.proto z = pool.proto z) ∧
      out = assetTransfer c pos.poolKey.tokenX (x + accrued s true pos / 10 ^ 34) info ++
        assetTransfer c pos.poolKey.tokenY (y + accrued s false pos / 10 ^ 34) info ∧
      (x : ℚ) ≤ pos.principal true pool.sqrtPrice ∧ (y : ℚ) ≤ pos.principal false pool.sqrtPrice := by
  obtain ⟨p0, hp0, hperm⟩ := removePosition_sum hs hi hw h
  obtain ⟨pos, tl, tu, pool, r, sr, s1, s2, hpos, htl, htu, il, iu, hp, hm, _, _, jl, ju, _, _, hr, e1, e2, e3, e5, e6, e7,
      htk, ho⟩ := removePosition_view hs h
  have hpe : p0 = pos := by rw [hpos] at hp0; exact (Option.some.inj hp0).symm
  rw [hpe] at hperm
  have hok := hs.positions _ _ hpos
  obtain ⟨o1, o2, -⟩ := modify_owed hok htl htu il iu hp hm
  obtain ⟨q', d1, d2, d3, d4, d5, d6, d7⟩ := Position.modify_inv hm
  obtain ⟨b, liq, b1, b2, b3⟩ := Pool.updateLiquidity_inv d4
  simp only at b1
  rw [jl, ju] at b1
  have am := amountDelta_principal (hpr _ pool hok.kwf hp) hok.lower hok.upper hok.lt b1
  simp only [Bool.false_eq_true, if_false] at am
  have ex : r.x = b.1 := by rw [d6, b3]
  have ey : r.y = b.2.1 := by rw [d7, b3]
  refine ⟨pos, pool, r.pool, r.x, r.y, hpos, hperm, hp, e5, fun z => ?_, ?_, by rw [ex]; exact am.1, by rw [ey]; exact am.2⟩
  · rw [d5, b3]; cases z <;> rfl
  · rw [ho, o1, o2]

end OraiV3
