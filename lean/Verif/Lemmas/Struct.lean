import Verif.Lemmas.PosInv

/-!
# Shape of the stored records
-/

namespace OraiV3

/-- A tick index positions may use. -/
def TickOk (ts : Nat) (t : Int) : Prop := checkTick t ts = .ok ()

theorem getMaxTick_bounds (ts : Nat) : 0 ≤ getMaxTick ts ∧ getMaxTick ts ≤ MAX_TICK := by
  unfold getMaxTick
  have h1 := Int.mul_tdiv_add_tmod MAX_TICK ts
  have h2 : 0 ≤ MAX_TICK.tmod ts := Int.tmod_nonneg _ (by decide)
  have h3 : 0 ≤ MAX_TICK.tdiv ts := Int.tdiv_nonneg (by decide) (by omega)
  rw [Int.mul_comm] at h1
  exact ⟨Int.mul_nonneg h3 (by omega), by omega⟩

theorem getMinTick_eq (ts : Nat) : getMinTick ts = -getMaxTick ts := by
  unfold getMinTick getMaxTick
  rw [Int.neg_tdiv, Int.neg_mul]

theorem TickOk_iff {ts : Nat} {t : Int} :
    TickOk ts t ↔ ts ≠ 0 ∧ t.tmod ts = 0 ∧ -getMaxTick ts ≤ t ∧ t ≤ getMaxTick ts := by
  unfold TickOk checkTick
  rw [getMinTick_eq]
  simp only [ite_error_ok, and_true]
  constructor
  · rintro ⟨h1, h2, h3⟩
    refine ⟨h1, by simpa using h2, by omega, by omega⟩
  · rintro ⟨h1, h2, h3, h4⟩
    exact ⟨h1, by simpa using h2, by omega⟩

theorem TickOk.range {ts : Nat} {t : Int} (h : TickOk ts t) : -MAX_TICK ≤ t ∧ t ≤ MAX_TICK := by
  have := TickOk_iff.1 h
  have := getMaxTick_bounds ts
  omega

theorem TickOk.i32 {ts : Nat} {t : Int} (h : TickOk ts t) : i32 t := by
  have := h.range
  unfold OraiV3.i32
  have : MAX_TICK = 221818 := rfl
  omega

/-- A stored position. -/
structure PositionOk (s : Store) (p : Position) : Prop where
  kwf : p.poolKey.wf
  pool : ∃ pool, s.pools.get? p.poolKey.key = some pool
  lower : TickOk p.poolKey.tier.spacing p.lower
  upper : TickOk p.poolKey.tier.spacing p.upper
  lt : p.lower < p.upper
  liq : 0 < p.liquidity
  liqlt : p.liquidity < U128
  owedX : p.owedX = 0
  owedY : p.owedY = 0
  fgX : p.fgInX < U128
  fgY : p.fgInY < U128

/-- A stored tick. -/
structure TickRecOk (s : Store) (k : PoolKey) (t : Tick) : Prop where
  kwf : k.wf
  pool : ∃ pool, s.pools.get? k.key = some pool
  ok : TickOk k.tier.spacing t.index
  price : t.sqrtPrice = sqrtPriceAt t.index
  outX : t.outX < U128
  outY : t.outY < U128
  gross : t.gross < U128
  change : t.change < U128

/-- Shape of a storage. -/
structure Struct (s : Store) : Prop where
  cfg : ∃ cfg, s.config = some cfg ∧ cfg.protocolFee < U64 ∧ ∀ t ∈ cfg.feeTiers, t.Valid ∧ t.wf
  pools : ∀ key p, s.pools.get? key = some p → ∃ k : PoolKey, key = k.key ∧ k.wf ∧ k.tier.Valid ∧
    bytesLt k.tokenX k.tokenY = true
  fg : ∀ key p, s.pools.get? key = some p → p.fgX < U128 ∧ p.fgY < U128 ∧ p.liquidity < U128
  positions : ∀ key p, s.positions.get? key = some p → PositionOk s p
  ticks : ∀ key t, s.ticks.get? key = some t → ∃ k : PoolKey, key = tickKey k t.index ∧ TickRecOk s k t

theorem Struct.tier {s : Store} (h : Struct s) {k : PoolKey} {p : Pool} (hk : k.wf)
    (hp : s.pools.get? k.key = some p) : k.tier.Valid := by
  obtain ⟨k', e, hk', hv, _⟩ := h.pools _ _ hp
  rw [PoolKey.key_inj hk hk' e]; exact hv

theorem Struct.tick {s : Store} (h : Struct s) {k : PoolKey} (hk : k.wf) {i : Int} (hi : i32 i) {t : Tick}
    (ht : s.ticks.get? (tickKey k i) = some t) : t.index = i ∧ TickRecOk s k t := by
  obtain ⟨k', e, hr⟩ := h.ticks _ _ ht
  obtain ⟨e1, e2⟩ := tickKey_inj hk hr.kwf hi hr.ok.i32 e
  subst e1
  exact ⟨e2.symm, hr⟩

theorem PositionOk.mono {s s' : Store} {p : Position} (h : PositionOk s p)
    (hp : ∀ key p, s.pools.get? key = some p → ∃ p', s'.pools.get? key = some p') : PositionOk s' p :=
  { h with pool := by obtain ⟨q, hq⟩ := h.pool; exact hp _ _ hq }

theorem TickRecOk.mono {s s' : Store} {k : PoolKey} {t : Tick} (h : TickRecOk s k t)
    (hp : ∀ key p, s.pools.get? key = some p → ∃ p', s'.pools.get? key = some p') : TickRecOk s' k t :=
  { h with pool := by obtain ⟨q, hq⟩ := h.pool; exact hp _ _ hq }

/-- Pools are only added. -/
def PoolsGrow (s s' : Store) : Prop := ∀ key p, s.pools.get? key = some p → ∃ p', s'.pools.get? key = some p'

theorem poolsGrow_insert {s s' : Store} {key : Bytes} {p : Pool} (h : s'.pools = s.pools.insert key p) :
    PoolsGrow s s' := by
  intro k q hq
  rw [h, KV.get?_insert]
  split
  · exact ⟨_, rfl⟩
  · exact ⟨_, hq⟩

/-! ## What the tick operations do to one record -/

/-- Liquidity added (or taken, if negative) when the price crosses the tick upwards. -/
def Tick.net (t : Tick) : Int := if t.sign then (t.change : Int) else -(t.change : Int)

theorem Tick.update_inv {t t' : Tick} {delta maxL : Nat} {isUpper deposit : Bool}
    (h : t.update delta maxL isUpper deposit = .ok t') :
    t'.index = t.index ∧ t'.sqrtPrice = t.sqrtPrice ∧ t'.outX = t.outX ∧ t'.outY = t.outY ∧
    t'.secondsOutside = t.secondsOutside ∧
    (if deposit then t'.gross = t.gross + delta ∧ t'.gross < U128 ∧ t'.gross < maxL
      else delta ≤ t.gross ∧ t'.gross = t.gross - delta) ∧
    t'.net = (if xor deposit isUpper then t.net + delta else t.net - delta) ∧
    (t.change < U128 → delta < U128 → t'.change < U128) := by
  unfold Tick.update at h
  rw [bind_ok] at h
  obtain ⟨g, hg, h⟩ := h
  have hg' : if deposit then g = t.gross + delta ∧ g < U128 ∧ g < maxL else delta ≤ t.gross ∧ g = t.gross - delta := by
    unfold Tick.newGross at hg
    cases deposit
    · simp only [Bool.false_eq_true, if_false, ite_error_ok, pure_ok] at hg ⊢
      omega
    · simp only [if_true, bind_ok, checkedAdd_ok, ite_error_ok, pure_ok] at hg ⊢
      omega
  unfold Tick.updateChange at h
  obtain ⟨ti, tsg, tch, tgr, tsp, tox, toy, tso⟩ := t
  simp only at h
  split at h
  · rename_i hx
    split at h
    · rename_i hc
      rw [pure_ok] at h
      subst h
      refine ⟨rfl, rfl, rfl, rfl, rfl, hg', ?_, fun h1 h2 => by simp only at h1 ⊢; omega⟩
      simp only [Tick.net]
      cases tsg <;> cases hd : (xor deposit isUpper) <;> simp [hd] at hx ⊢ <;> omega
    · rename_i hc
      rw [pure_ok] at h
      subst h
      refine ⟨rfl, rfl, rfl, rfl, rfl, hg', ?_, fun h1 h2 => by simp only at h1 ⊢; omega⟩
      simp only [Tick.net]
      cases tsg <;> cases hd : (xor deposit isUpper) <;> simp [hd] at hx ⊢ <;> omega
  · rename_i hx
    rw [bind_ok] at h
    obtain ⟨c, hc, h⟩ := h
    rw [add128_ok] at hc
    rw [pure_ok] at h
    subst h
    obtain ⟨hc1, rfl⟩ := hc
    refine ⟨rfl, rfl, rfl, rfl, rfl, hg', ?_, fun h1 h2 => hc1⟩
    simp only [Tick.net]
    cases tsg <;> cases hd : (xor deposit isUpper) <;> simp [hd] at hx ⊢ <;> omega

theorem Tick.create_inv {i : Int} {pool : Pool} {now : Nat} {t : Tick} (h : Tick.create i pool now = .ok t) :
    t.index = i ∧ t.sqrtPrice = sqrtPriceAt i ∧ t.gross = 0 ∧ t.net = 0 ∧ t.change = 0 ∧
    t.outX = (if i ≤ pool.tick then pool.fgX else 0) ∧ t.outY = (if i ≤ pool.tick then pool.fgY else 0) := by
  have hc : calculateSqrtPrice i = .ok (sqrtPriceAt i) ∨ ∃ e, calculateSqrtPrice i = .error e := by
    unfold calculateSqrtPrice
    split
    · exact .inr ⟨_, rfl⟩
    · exact .inl rfl
  unfold Tick.create at h
  rcases hc with hc | ⟨e, hc⟩
  · rw [hc] at h
    by_cases hb : i ≤ pool.tick
    · simp only [hb, decide_true, if_true, bind_ok, pure_ok] at h
      obtain ⟨p, rfl, secs, _, rfl⟩ := h
      simp [Tick.net, hb]
    · simp only [hb, decide_false, Bool.false_eq_true, if_false, bind_ok, pure_ok] at h
      obtain ⟨p, rfl, secs, _, rfl⟩ := h
      simp [Tick.net, hb]
  · rw [hc] at h
    simp [error_bind] at h

/-! ## The tick map after creating a position -/

/-- The tick record used: the stored one, or a new one. -/
def TickUsed (s : Store) (k : PoolKey) (pool : Pool) (now : Nat) (i : Int) (t : Tick) : Prop :=
  s.ticks.get? (tickKey k i) = some t ∨
  (s.ticks.get? (tickKey k i) = none ∧ TickOk k.tier.spacing i ∧ Tick.create i pool now = .ok t)

theorem getOrCreateTick_view {s : Store} {now : Nat} {k : PoolKey} {i : Int} {r : Store × Tick} {pool : Pool}
    (hp : s.pools.get? k.key = some pool) (h : getOrCreateTick s now k i = .ok r) :
    TickUsed s k pool now i r.2 ∧
    (∀ key, r.1.ticks.get? key = if key = tickKey k i then some r.2 else s.ticks.get? key) ∧
    ((s.ticks.get? (tickKey k i) = some r.2 ∧ r.1.bitmap = s.bitmap) ∨
     (s.ticks.get? (tickKey k i) = none ∧ ∃ c, tickToPosition i k.tier.spacing = .ok c ∧
        bitAt (getChunk s k c.1) c.2 = 0 ∧
        r.1.bitmap = s.bitmap.insert (bitmapKey c.1 k) (flipBit (getChunk s k c.1) c.2))) := by
  rcases getOrCreateTick_inv h with ⟨h1, h2⟩ | ⟨h1, h2⟩
  · refine ⟨.inl h1, fun key => ?_, .inl ⟨h1, by rw [h2]⟩⟩
    rw [h2]
    split
    · rename_i e; rw [e]; exact h1
    · rfl
  · obtain ⟨pool', c, h3, h4, h5, h6, h7, h8, h9⟩ := createTick_inv h2
    rw [hp] at h4; cases h4
    refine ⟨.inr ⟨h1, h3, h5⟩, fun key => ?_, .inr ⟨h1, c, h7, h8, by rw [h9]⟩⟩
    rw [h9]
    exact KV.get?_insert _ _ _ _

theorem TickUsed.index {s : Store} (hs : Struct s) {k : PoolKey} (hk : k.wf) {pool : Pool} {now : Nat} {i : Int}
    (hi : i32 i) {t : Tick} (h : TickUsed s k pool now i t) :
    t.index = i ∧ TickOk k.tier.spacing i ∧ t.sqrtPrice = sqrtPriceAt i ∧ t.change < U128 := by
  rcases h with h | ⟨_, h1, h2⟩
  · obtain ⟨e, hr⟩ := hs.tick hk hi h
    subst e
    exact ⟨rfl, hr.ok, hr.price, hr.change⟩
  · obtain ⟨e, e2, _, _, e3, _⟩ := Tick.create_inv h2
    exact ⟨e, h1, e2, by rw [e3]; decide⟩

/-- What creating a position does. -/
theorem createPosition_view {c : Chain} {s s' : Store} {env : Env} {info : Info} {k : PoolKey}
    {l u : Int} {L lo hi : Nat} {out : List OutMsg} (hs : Struct s)
    (hw : (Msg.createPosition k l u L lo hi).wf)
    (h : createPosition c s env info k l u L lo hi = .ok (s', out)) :
    ∃ pool tl tu r rl m1 m2, s.pools.get? k.key = some pool ∧ L ≠ 0 ∧ l ≠ u ∧
      TickUsed s k pool env.millis l tl ∧ TickUsed s k pool env.millis u tu ∧
      tl.index = l ∧ tu.index = u ∧
      getOrCreateTick s env.millis k l = .ok rl ∧ rl.2 = tl ∧
      (∃ ru, getOrCreateTick rl.1 env.millis k u = .ok ru ∧ ru.2 = tu ∧ s'.bitmap = ru.1.bitmap) ∧
      lo ≤ pool.sqrtPrice ∧ pool.sqrtPrice ≤ hi ∧
      Position.modify { poolKey := k, liquidity := 0, lower := l, upper := u,
                        fgInX := 0, fgInY := 0, lastBlock := env.height, owedX := 0, owedY := 0,
                        approvals := [] } pool tu tl L true env.millis k.tier.spacing = .ok r ∧
      s'.config = s.config ∧ s'.operators = s.operators ∧
      s'.pools = s.pools.insert k.key r.pool ∧
      s'.positions = s.positions.insert (positionKey info.sender (getPositionLength s info.sender)) r.pos ∧
      s'.posLen = s.posLen.insert info.sender (getPositionLength s info.sender + 1) ∧
      getPositionLength s info.sender + 1 < U32 ∧
      (∀ key, s'.ticks.get? key = if key = tickKey k u then some r.upper else
        if key = tickKey k l then some r.lower else s.ticks.get? key) ∧
      assetTransferFrom c k.tokenX r.x info = .ok m1 ∧ assetTransferFrom c k.tokenY r.y info = .ok m2 ∧
      out = m1 ++ m2 := by
  obtain ⟨hk, hl, hu, hL, hlo, hhi⟩ := hw
  obtain ⟨pool, rl, ru, r, s1, s2, m1, m2, hL0, hlu, hp, h1, h2, h3, h4, h5, h6, h7, h8, h9⟩ := createPosition_inv h
  obtain ⟨v1, w1, b1⟩ := getOrCreateTick_view hp h1
  obtain ⟨t1, bm1, e1⟩ := getOrCreateTick_frame h1
  have hp1 : rl.1.pools.get? k.key = some pool := by rw [e1]; exact hp
  obtain ⟨v2, w2, b2⟩ := getOrCreateTick_view hp1 h2
  obtain ⟨t2, bm2, e2⟩ := getOrCreateTick_frame h2
  have hne : tickKey k u ≠ tickKey k l := fun e => hlu (tickKey_inj hk hk hu hl e).2.symm
  have v2' : TickUsed s k pool env.millis u ru.2 := by
    have : rl.1.ticks.get? (tickKey k u) = s.ticks.get? (tickKey k u) := by rw [w1, if_neg hne]
    unfold TickUsed at v2 ⊢
    rw [this] at v2
    exact v2
  have il := (v1.index hs hk hl).1
  have iu := (v2'.index hs hk hu).1
  obtain ⟨c1, c2, c3⟩ := Position.create_inv h3
  rw [il, iu] at c3
  obtain ⟨q, d1, d2, _⟩ := Position.modify_inv c3
  have jl : r.lower.index = l := (Tick.update_inv d1).1.trans il
  have ju : r.upper.index = u := (Tick.update_inv d2).1.trans iu
  rw [addPosition_ok] at h4
  rw [updateTick_ok] at h5 h6
  rw [jl] at h5
  rw [ju] at h6
  have eL : getPositionLength (savePool ru.1 k r.pool) info.sender = getPositionLength s info.sender := by
    rw [e2, e1]; rfl
  rw [eL] at h4
  refine ⟨pool, rl.2, ru.2, r, rl, m1, m2, hp, hL0, hlu, v1, v2', il, iu, h1, rfl, ⟨ru, h2, rfl, ?_⟩, c1, c2, c3,
    ?_, ?_, ?_, ?_, ?_, h4.1, fun key => ?_, h7, h8, h9⟩
  · rw [h6.2, h5.2, h4.2]; rfl
  · rw [h6.2, h5.2, h4.2, e2, e1]; rfl
  · rw [h6.2, h5.2, h4.2, e2, e1]; rfl
  · rw [h6.2, h5.2, h4.2, e2, e1]; rfl
  · rw [h6.2, h5.2, h4.2, e2, e1]; rfl
  · rw [h6.2, h5.2, h4.2, e2, e1]; rfl
  · rw [h6.2]
    simp only [KV.get?_insert]
    split
    · rfl
    · rename_i hku
      rw [h5.2]
      simp only [KV.get?_insert]
      split
      · rfl
      · rename_i hkl
        rw [h4.2]
        show ru.1.ticks.get? key = _
        rw [w2, if_neg hku, w1, if_neg hkl]

/-- What claiming fees does. -/
theorem claimFee_view {c : Chain} {s s' : Store} {env : Env} {info : Info} {i : Nat} {out : List OutMsg}
    (hs : Struct s) (h : claimFee c s env info i = .ok (s', out)) :
    ∃ pos tl tu pool r, s.positions.get? (positionKey info.sender i) = some pos ∧
      s.ticks.get? (tickKey pos.poolKey pos.lower) = some tl ∧
      s.ticks.get? (tickKey pos.poolKey pos.upper) = some tu ∧
      tl.index = pos.lower ∧ tu.index = pos.upper ∧
      s.pools.get? pos.poolKey.key = some pool ∧
      pos.modify pool tu tl 0 true env.millis pos.poolKey.tier.spacing = .ok r ∧
      s'.config = s.config ∧ s'.operators = s.operators ∧ s'.bitmap = s.bitmap ∧ s'.posLen = s.posLen ∧
      s'.pools = s.pools.insert pos.poolKey.key r.pool ∧
      s'.positions = s.positions.insert (positionKey info.sender i) { r.pos with owedX := 0, owedY := 0 } ∧
      i < getPositionLength s info.sender ∧
      (∀ key, s'.ticks.get? key = if key = tickKey pos.poolKey pos.lower then some r.lower else
        if key = tickKey pos.poolKey pos.upper then some r.upper else s.ticks.get? key) ∧
      out = assetTransfer c pos.poolKey.tokenX r.pos.owedX info ++
        assetTransfer c pos.poolKey.tokenY r.pos.owedY info := by
  obtain ⟨pos, lower, upper, pool, r, s1, s2, hp, hl, hu, hpool, h1, h2, h3, h4, h5⟩ := claimFee_inv h
  have hpos := hs.positions _ _ hp
  have il := (hs.tick hpos.kwf hpos.lower.i32 hl).1
  have iu := (hs.tick hpos.kwf hpos.upper.i32 hu).1
  obtain ⟨q, c1, c2⟩ := Position.claimFee_inv h1
  obtain ⟨_, d1, d2, _⟩ := Position.modify_inv c1
  have jl : r.lower.index = pos.lower := by rw [c2]; exact (Tick.update_inv d1).1.trans il
  have ju : r.upper.index = pos.upper := by rw [c2]; exact (Tick.update_inv d2).1.trans iu
  rw [updatePosition_ok] at h2
  rw [updateTick_ok] at h3 h4
  rw [ju] at h3
  rw [jl] at h4
  refine ⟨pos, lower, upper, pool, q, hp, hl, hu, il, iu, hpool, c1, ?_, ?_, ?_, ?_, ?_, ?_, h2.1,
    fun key => ?_, ?_⟩
  · rw [h4.2, h3.2, h2.2]; rfl
  · rw [h4.2, h3.2, h2.2]; rfl
  · rw [h4.2, h3.2, h2.2]; rfl
  · rw [h4.2, h3.2, h2.2]; rfl
  · rw [h4.2, h3.2, h2.2, c2]; rfl
  · rw [h4.2, h3.2, h2.2, c2]; rfl
  · rw [h4.2]
    simp only [KV.get?_insert]
    split
    · rw [c2]
    · rw [h3.2]
      simp only [KV.get?_insert]
      split
      · rw [c2]
      · rw [h2.2]; rfl
  · rw [h5, c2]

/-- What settling a tick does to the tick map. -/
theorem settleTick_view {s s' : Store} {k : PoolKey} {i : Int} {t : Tick} (hi : t.index = i)
    (h : settleTick s k i t = .ok s') :
    (∀ key, s'.ticks.get? key = if key = tickKey k i then (if t.gross = 0 then none else some t)
      else s.ticks.get? key) ∧
    s' = { s with ticks := s'.ticks, bitmap := s'.bitmap } ∧
    (if t.gross = 0 then ∃ c, tickToPosition i k.tier.spacing = .ok c ∧ bitAt (getChunk s k c.1) c.2 ≠ 0 ∧
        s'.bitmap = s.bitmap.insert (bitmapKey c.1 k) (flipBit (getChunk s k c.1) c.2)
      else s'.bitmap = s.bitmap) := by
  rcases settleTick_inv h with ⟨h0, h1⟩ | ⟨h0, h1⟩
  · obtain ⟨_, c, h2, h3, h4, h5⟩ := removeTickAndFlip_inv h1
    rw [hi] at h2 h5
    refine ⟨fun key => ?_, by rw [h5], ?_⟩
    · rw [h5, if_pos h0]
      exact KV.get?_erase _ _ _
    · rw [if_pos h0]
      exact ⟨c, h2, h3, by rw [h5]⟩
  · obtain ⟨_, h2⟩ := updateTick_ok.1 h1
    refine ⟨fun key => ?_, by rw [h2], ?_⟩
    · rw [h2, if_neg h0]
      exact KV.get?_insert _ _ _ _
    · rw [if_neg h0, h2]

/-- What removing a position does. -/
theorem removePosition_view {c : Chain} {s s' : Store} {env : Env} {info : Info} {i : Nat}
    {out : List OutMsg} (hs : Struct s) (h : removePosition c s env info i = .ok (s', out)) :
    ∃ pos tl tu pool r sr s1 s2, s.positions.get? (positionKey info.sender i) = some pos ∧
      s.ticks.get? (tickKey pos.poolKey pos.lower) = some tl ∧
      s.ticks.get? (tickKey pos.poolKey pos.upper) = some tu ∧
      tl.index = pos.lower ∧ tu.index = pos.upper ∧
      s.pools.get? pos.poolKey.key = some pool ∧
      pos.modify pool tu tl pos.liquidity false env.millis pos.poolKey.tier.spacing = .ok r ∧
      r.x + r.pos.owedX < U128 ∧ r.y + r.pos.owedY < U128 ∧
      r.lower.index = pos.lower ∧ r.upper.index = pos.upper ∧
      settleTick (savePool s pos.poolKey r.pool) pos.poolKey pos.lower r.lower = .ok s1 ∧
      settleTick s1 pos.poolKey pos.upper r.upper = .ok s2 ∧
      removePositionAt s info.sender i = .ok (sr, pos) ∧
      s'.config = s.config ∧ s'.operators = s.operators ∧ s'.bitmap = s2.bitmap ∧
      s'.pools = s.pools.insert pos.poolKey.key r.pool ∧
      s'.positions = sr.positions ∧ s'.posLen = sr.posLen ∧
      (∀ key, s'.ticks.get? key =
        if key = tickKey pos.poolKey pos.upper then (if r.upper.gross = 0 then none else some r.upper) else
        if key = tickKey pos.poolKey pos.lower then (if r.lower.gross = 0 then none else some r.lower) else
        s.ticks.get? key) ∧
      out = assetTransfer c pos.poolKey.tokenX (r.x + r.pos.owedX) info ++
        assetTransfer c pos.poolKey.tokenY (r.y + r.pos.owedY) info := by
  obtain ⟨pos, lower, upper, pool, r, s1, s2, pos', hp, hl, hu, hpool, h1, h2, h3, h4, h5⟩ := removePosition_inv h
  have hpos := hs.positions _ _ hp
  have il := (hs.tick hpos.kwf hpos.lower.i32 hl).1
  have iu := (hs.tick hpos.kwf hpos.upper.i32 hu).1
  obtain ⟨q, c1, c2, c3, c4⟩ := Position.remove_inv h1
  obtain ⟨_, d1, d2, _⟩ := Position.modify_inv c1
  have jl : q.lower.index = pos.lower := (Tick.update_inv d1).1.trans il
  have ju : q.upper.index = pos.upper := (Tick.update_inv d2).1.trans iu
  have c4' : r.pool = q.pool ∧ r.lower = q.lower ∧ r.upper = q.upper ∧ r.x = q.x + q.pos.owedX ∧
      r.y = q.y + q.pos.owedY := by rw [c4]; exact ⟨rfl, rfl, rfl, rfl, rfl⟩
  obtain ⟨g1, g2, g3, g4, g5⟩ := c4'
  rw [g1, g2] at h2
  rw [g3] at h3
  obtain ⟨v1, e1, _⟩ := settleTick_view jl h2
  obtain ⟨v2, e2, _⟩ := settleTick_view ju h3
  have p1 : s1.positions = s.positions := by rw [e1]; rfl
  have p2 : s2.positions = s.positions := by rw [e2]; exact p1
  have l1 : s1.posLen = s.posLen := by rw [e1]; rfl
  have l2 : s2.posLen = s.posLen := by rw [e2]; exact l1
  obtain ⟨sr, r1, r2, r3⟩ := removePositionAt_congr p2 l2 h4
  obtain ⟨_, _, hp', _⟩ := removePositionAt_inv r1
  rw [hp] at hp'
  cases hp'
  obtain ⟨ps, pl, e4⟩ := removePositionAt_frame h4
  refine ⟨pos, lower, upper, pool, q, sr, s1, s2, hp, hl, hu, il, iu, hpool, c1, c2, c3, jl, ju, h2, h3, r1,
    ?_, ?_, ?_, ?_, r2.symm, r3.symm, fun key => ?_, ?_⟩
  · rw [e4]; show s2.config = _; rw [e2]; show s1.config = _; rw [e1]; rfl
  · rw [e4]; show s2.operators = _; rw [e2]; show s1.operators = _; rw [e1]; rfl
  · rw [e4]
  · rw [e4]; show s2.pools = _; rw [e2]; show s1.pools = _; rw [e1]; rfl
  · rw [e4]
    show s2.ticks.get? key = _
    rw [v2]
    split
    · rfl
    · rw [v1]; rfl
  · rw [h5, g4, g5]

/-! ## Swaps and ticks -/

/-- The fields of a tick a swap never changes. -/
def Tick.core (t : Tick) : Int × Bool × Nat × Nat × Nat := (t.index, t.sign, t.change, t.gross, t.sqrtPrice)

theorem calculateSqrtPrice_ok {i : Int} {p : Nat} :
    calculateSqrtPrice i = .ok p ↔ (-MAX_TICK ≤ i ∧ i ≤ MAX_TICK) ∧ p = sqrtPriceAt i := by
  unfold calculateSqrtPrice
  rw [ite_error_ok, ok_inj]
  constructor
  · rintro ⟨h, h2⟩; exact ⟨by omega, h2.symm⟩
  · rintro ⟨h, h2⟩; exact ⟨by omega, h2.symm⟩

theorem getCloserLimit_inv {bm : Nat → Nat} {limit : Nat} {d : Bool} {cur : Int} {ts : Nat}
    {cl : Nat × Option (Int × Bool)} (h : getCloserLimit bm limit d cur ts = .ok cl) :
    ∃ i b, ((b = true ∧ (if d then prevInitialized bm cur ts else nextInitialized bm cur ts) = .ok (some i)) ∨
        (b = false ∧ (if d then prevInitialized bm cur ts else nextInitialized bm cur ts) = .ok none ∧
          getSearchLimit cur ts (!d) = .ok i ∧ cur ≠ i)) ∧
      (-MAX_TICK ≤ i ∧ i ≤ MAX_TICK) ∧
      (((if d then limit < sqrtPriceAt i else sqrtPriceAt i < limit) ∧ cl = (sqrtPriceAt i, some (i, b))) ∨
       ((if d then sqrtPriceAt i ≤ limit else limit ≤ sqrtPriceAt i) ∧ cl = (limit, none))) := by
  unfold getCloserLimit at h
  have key : ∃ i b, ((b = true ∧ (if d then prevInitialized bm cur ts else nextInitialized bm cur ts) = .ok (some i)) ∨
        (b = false ∧ (if d then prevInitialized bm cur ts else nextInitialized bm cur ts) = .ok none ∧
          getSearchLimit cur ts (!d) = .ok i ∧ cur ≠ i)) ∧
      (do let p ← calculateSqrtPrice i
          if (d ∧ p > limit) ∨ (¬ d ∧ p < limit) then pure (p, some (i, b)) else pure (limit, none) :
        M (Nat × Option (Int × Bool))) = .ok cl := by
    cases d <;>
    · simp only [if_true, Bool.false_eq_true, if_false, Bool.not_true, Bool.not_false] at h ⊢
      rw [bind_ok] at h
      obtain ⟨o, ho, h⟩ := h
      cases o with
      | some j =>
        simp only [pure_bind] at h
        exact ⟨j, true, .inl ⟨rfl, ho⟩, h⟩
      | none =>
        simp only at h
        rw [bind_ok] at h
        obtain ⟨j, hj, h⟩ := h
        split at h
        · simp [error_bind] at h
        · rename_i hne
          simp only [pure_bind] at h
          exact ⟨j, false, .inr ⟨rfl, ho, hj, hne⟩, h⟩
  obtain ⟨i, b, h1, h2⟩ := key
  refine ⟨i, b, h1, ?_⟩
  rw [bind_ok] at h2
  obtain ⟨p, hp, h2⟩ := h2
  rw [calculateSqrtPrice_ok] at hp
  obtain ⟨hr, rfl⟩ := hp
  refine ⟨hr, ?_⟩
  split at h2
  · rename_i hc
    rw [pure_ok] at h2
    left
    refine ⟨?_, h2.symm⟩
    cases d <;> simp at hc ⊢ <;> exact hc
  · rename_i hc
    rw [pure_ok] at h2
    right
    refine ⟨?_, h2.symm⟩
    cases d <;> simp at hc ⊢ <;> exact hc

/-- A crossed tick, relative to the storage before the swap. -/
def CrossedOf (s : Store) (k : PoolKey) (t : Tick) : Prop :=
  ∃ t0, s.ticks.get? (tickKey k t.index) = some t0 ∧ t.core = t0.core ∧ t.outX < U128 ∧ t.outY < U128

theorem wsub_lt (a b : Nat) : wsub a b < U128 := Nat.mod_lt _ (by decide)
theorem wadd_lt (a b : Nat) : wadd a b < U128 := Nat.mod_lt _ (by decide)

theorem tickUpdOf_inv {s : Store} {k : PoolKey} {lt : Option (Int × Bool)} {u : TickUpd}
    (h : tickUpdOf s k lt = .ok u) :
    (lt = none ∧ u = .noTick) ∨ (∃ i t, lt = some (i, true) ∧ s.ticks.get? (tickKey k i) = some t ∧ u = .init t) ∨
    (∃ i, lt = some (i, false) ∧ u = .uninit i) := by
  unfold tickUpdOf at h
  split at h
  · rw [pure_ok] at h; exact .inl ⟨rfl, h.symm⟩
  · rename_i i
    simp only [bind_ok, getTick_ok, pure_ok] at h
    obtain ⟨t, h1, h2⟩ := h
    exact .inr (.inl ⟨i, t, rfl, h1, h2.symm⟩)
  · rw [pure_ok] at h; exact .inr (.inr ⟨_, rfl, h.symm⟩)

/-- The pool's bounded fields. -/
def Pool.Bounded (p : Pool) : Prop := p.fgX < U128 ∧ p.fgY < U128 ∧ p.liquidity < U128

theorem addFee_bounded {pool p : Pool} {amount : Nat} {d : Bool} {pf : Nat}
    (h : pool.addFee amount d pf = .ok p) (hb : pool.Bounded) : p.Bounded := by
  obtain ⟨_, ⟨_, rfl⟩ | ⟨_, _, g, _, h⟩⟩ := Pool.addFee_inv h
  · exact hb
  · cases d
    · simp only [Bool.false_eq_true, if_false] at h
      rw [h.2]; exact ⟨hb.1, wadd_lt _ _, hb.2.2⟩
    · simp only [if_true] at h
      rw [h.2]; exact ⟨wadd_lt _ _, hb.2.1, hb.2.2⟩

theorem swapIter_struct {s : Store} {pr : SwapParams} {st st' : SwapState} (hs : Struct s) (hk : pr.key.wf)
    (h : swapIter s pr st = .ok st') (hb : st.pool.Bounded) (ht : ∀ t ∈ st.ticks, CrossedOf s pr.key t) :
    st'.pool.Bounded ∧ ∀ t ∈ st'.ticks, CrossedOf s pr.key t := by
  obtain ⟨cl, r, cfg, pool1, upd, u, rem, h1, h2, h3, h4, h5, h6, h7, h8, h9, h10, h11, rfl⟩ := swapIter_inv h
  have b1 := addFee_bounded h5 hb
  obtain ⟨i, b, hi, hr, hcl⟩ := getCloserLimit_inv h1
  rcases updateTick_inv h8 with ⟨_, t, _, rfl⟩ | ⟨_, e, _, ⟨j, rfl, rfl⟩ | ⟨t, rfl, h⟩⟩
  · exact ⟨b1, by cases upd <;> exact ht⟩
  · exact ⟨b1, by simp only [pushCrossed]; exact ht⟩
  · rcases h with ⟨_, tp, hc, rfl⟩ | ⟨_, _, _, _, p, hp, rfl⟩ | ⟨_, _, _, rfl⟩
    · obtain ⟨liq, _, hl, e1, e2⟩ := Tick.cross_inv hc
      have hli : liq < U128 := by
        have := b1.2.2
        split at hl
        · omega
        · change _ ∧ liq = pool1.liquidity - _ at hl; omega
      refine ⟨by simp only; rw [e2]; exact ⟨b1.1, b1.2.1, hli⟩, ?_⟩
      simp only [pushCrossed, List.mem_append, List.mem_singleton]
      rintro t' (h' | rfl)
      · exact ht _ h'
      · rcases tickUpdOf_inv h7 with ⟨_, h7⟩ | ⟨i', t', h7, h7', h7''⟩ | ⟨_, _, h7⟩
        · simp at h7
        · simp only [TickUpd.init.injEq] at h7''
          subst h7''
          have hi32 : i32 i' := by
            rcases hcl with ⟨_, hcl⟩ | ⟨_, hcl⟩
            · rw [hcl] at h7
              simp only [Option.some.injEq, Prod.mk.injEq] at h7
              unfold i32; have : MAX_TICK = 221818 := rfl; omega
            · rw [hcl] at h7; simp at h7
          have := (hs.tick hk hi32 h7').1
          refine ⟨t, ?_, ?_, ?_, ?_⟩
          · rw [e1]; show s.ticks.get? (tickKey pr.key t.index) = _; rw [this]; exact h7'
          · rw [e1]; rfl
          · rw [e1]; exact wsub_lt _ _
          · rw [e1]; exact wsub_lt _ _
        · simp at h7
    · have := addFee_bounded hp (show Pool.Bounded { pool1 with sqrtPrice := r.nextPrice } from b1)
      exact ⟨this, by simp only [pushCrossed]; exact ht⟩
    · exact ⟨b1, by simp only [pushCrossed]; exact ht⟩

theorem saveTicks_view {k : PoolKey} : ∀ {l : List Tick} {s s' : Store}, saveTicks s k l = .ok s' →
    ∀ key, (s'.ticks.get? key = s.ticks.get? key ∧ ∀ t ∈ l, key ≠ tickKey k t.index) ∨
      ∃ t ∈ l, key = tickKey k t.index ∧ s'.ticks.get? key = some t
  | [], s, s', h, key => by
    simp only [saveTicks, ok_inj] at h; subst h; exact .inl ⟨rfl, by simp⟩
  | t :: l, s, s', h, key => by
    simp only [saveTicks, bind_ok, updateTick_ok] at h
    obtain ⟨s1, ⟨_, h1⟩, h2⟩ := h
    rcases saveTicks_view h2 key with ⟨h3, h4⟩ | ⟨t', h3, h4, h5⟩
    · by_cases e : key = tickKey k t.index
      · right
        refine ⟨t, by simp, e, ?_⟩
        rw [h3, h1, e]; simp [KV.get?_insert]
      · left
        refine ⟨?_, ?_⟩
        · rw [h3, h1]; simp [KV.get?_insert, e]
        · simp only [List.mem_cons, forall_eq_or_imp]; exact ⟨e, h4⟩
    · exact .inr ⟨t', by simp [h3], h4, h5⟩

theorem swapInternal_view {c : Chain} {s : Store} {info : Info} {now : Nat} {k : PoolKey} {d : Bool}
    {amount : Nat} {b : Bool} {limit : Nat} {x : Store × List OutMsg × CalcSwapResult} (hs : Struct s)
    (hk : k.wf) (h : swapInternal c s info now k d amount b limit = .ok x) :
    ∃ pool, s.pools.get? k.key = some pool ∧ x.1.config = s.config ∧ x.1.operators = s.operators ∧
      x.1.bitmap = s.bitmap ∧ x.1.posLen = s.posLen ∧ x.1.positions = s.positions ∧
      x.1.pools = s.pools.insert k.key x.2.2.pool ∧ x.2.2.pool.Bounded ∧
      (∀ t ∈ x.2.2.ticks, CrossedOf s k t) ∧
      ∀ key, (x.1.ticks.get? key = s.ticks.get? key ∧ ∀ t ∈ x.2.2.ticks, key ≠ tickKey k t.index) ∨
        ∃ t ∈ x.2.2.ticks, key = tickKey k t.index ∧ x.1.ticks.get? key = some t := by
  obtain ⟨s1, m1, h1, h2, h3, _, _⟩ := swapInternal_inv h
  obtain ⟨pool, st, _, hp, _, _, hl, _, hr⟩ := calculateSwap_inv h1
  have := (swapLoop_induct (fun x => x.pool.Bounded ∧ ∀ t ∈ x.ticks, CrossedOf s k t) (fun a b hab _ hit =>
    swapIter_struct hs hk hit hab.1 hab.2) _ _ _ ⟨hs.fg _ _ hp, by simp⟩ hl).1
  obtain ⟨tk, e⟩ := saveTicks_frame h2
  refine ⟨pool, hp, ?_, ?_, ?_, ?_, ?_, ?_, ?_, ?_, ?_⟩
  · rw [h3, e]; rfl
  · rw [h3, e]; rfl
  · rw [h3, e]; rfl
  · rw [h3, e]; rfl
  · rw [h3, e]; rfl
  · rw [h3, e]; rfl
  · rw [hr]; exact this.1
  · rw [hr]; exact this.2
  · rw [h3]; exact fun key => saveTicks_view h2 key

/-- A swap keeps the core of every tick. -/
theorem swapInternal_core {c : Chain} {s : Store} {info : Info} {now : Nat} {k : PoolKey} {d : Bool}
    {amount : Nat} {b : Bool} {limit : Nat} {x : Store × List OutMsg × CalcSwapResult} (hs : Struct s)
    (hk : k.wf) (h : swapInternal c s info now k d amount b limit = .ok x) (key : Bytes) :
    (x.1.ticks.get? key).map Tick.core = (s.ticks.get? key).map Tick.core := by
  obtain ⟨_, _, _, _, _, _, _, _, _, hc, hv⟩ := swapInternal_view hs hk h
  rcases hv key with ⟨h1, _⟩ | ⟨t, h1, rfl, h3⟩
  · rw [h1]
  · obtain ⟨t0, h4, h5, _⟩ := hc t h1
    rw [h3, h4]; simp [h5]

/-! ## Preservation -/

theorem feeGrowthInside_lt (a : Int) (b : Nat) (c : Int) (d : Nat) (e : Int) (f : Nat) :
    feeGrowthInside a b c d e f < U128 := wsub_lt _ _

theorem updateLiquidity_lt {pool : Pool} {delta : Nat} {sign : Bool} {upper lower : Int}
    {q : Pool × Nat × Nat} (h : pool.updateLiquidity delta sign upper lower = .ok q)
    (hb : pool.Bounded) : q.1.Bounded ∧ lower ≤ upper := by
  obtain ⟨r, liq, h1, h2, rfl⟩ := Pool.updateLiquidity_inv h
  refine ⟨⟨hb.1, hb.2.1, ?_⟩, ?_⟩
  · have := hb.2.2
    show liq < U128
    split at h2
    · split at h2 <;> omega
    · omega
  · unfold calculateAmountDelta at h1
    rw [ite_error_ok] at h1
    omega

theorem PositionOk.appr {s : Store} {p : Position} (h : PositionOk s p) (a : List Approval) :
    PositionOk s { p with approvals := a } :=
  ⟨h.kwf, h.pool, h.lower, h.upper, h.lt, h.liq, h.liqlt, h.owedX, h.owedY, h.fgX, h.fgY⟩

theorem removePositionAt_get {s s' : Store} {o : Bytes} {i : Nat} {p : Position}
    (h : removePositionAt s o i = .ok (s', p)) {key : Bytes} {q : Position} (hq : s'.positions.get? key = some q) :
    ∃ key', s.positions.get? key' = some q := by
  simp only [removePositionAt, bind_ok, getPosition_ok] at h
  obtain ⟨n, _, pos, hpos, h⟩ := h
  split at h
  · split at h
    · simp at h
    · rename_i last hl
      rw [pure_ok, Prod.mk.injEq] at h
      rw [← h.1] at hq
      simp only [KV.get?_insert] at hq
      split at hq
      · exact ⟨_, hl.trans hq⟩
      · rw [KV.get?_erase] at hq
        split at hq
        · simp at hq
        · exact ⟨_, hq⟩
  · rw [pure_ok, Prod.mk.injEq] at h
    rw [← h.1] at hq
    simp only [KV.get?_erase] at hq
    split at hq
    · simp at hq
    · exact ⟨_, hq⟩

theorem Struct.micro {c : Chain} {s s' : Store} (hs : Struct s) (hm : Micro c s s') : Struct s' := by
  cases hm with
  | @config cfg cfg' hc hf ht =>
    obtain ⟨cfg0, e, h1, h2⟩ := hs.cfg
    rw [hc] at e; cases e
    refine ⟨⟨cfg', rfl, ?_, fun t h => ?_⟩, hs.pools, hs.fg, fun key p h => (hs.positions key p h).mono (fun _ p h => ⟨p, h⟩),
      fun key p h => ?_⟩
    · rcases hf with hf | hf
      · exact hf
      · rw [hf]; exact h1
    · rcases ht t h with h | h
      · exact h2 t h
      · exact h
    · obtain ⟨k, h3, h4⟩ := hs.ticks key p h
      exact ⟨k, h3, h4.mono (fun _ p h => ⟨p, h⟩)⟩
  | opers ops =>
    exact ⟨hs.cfg, hs.pools, hs.fg, fun key p h => (hs.positions key p h).mono (fun _ p h => ⟨p, h⟩),
      fun key p h => by
        obtain ⟨k, h3, h4⟩ := hs.ticks key p h
        exact ⟨k, h3, h4.mono (fun _ p h => ⟨p, h⟩)⟩⟩
  | @poolMeta k p rcv px py hk hp hx hy =>
    have hg : PoolsGrow s (savePool s k { p with feeReceiver := rcv, protoX := px, protoY := py }) :=
      poolsGrow_insert rfl
    refine ⟨hs.cfg, fun key q h => ?_, fun key q h => ?_, fun key p h => (hs.positions key p h).mono hg,
      fun key t h => ?_⟩
    · rw [show (savePool s k _).pools = s.pools.insert k.key _ from rfl, KV.get?_insert] at h
      split at h
      · rename_i e; rw [e]; exact hs.pools _ _ hp
      · exact hs.pools _ _ h
    · rw [show (savePool s k _).pools = s.pools.insert k.key _ from rfl, KV.get?_insert] at h
      split at h
      · rw [Option.some.injEq] at h; subst h; have := hs.fg _ _ hp; exact this
      · exact hs.fg _ _ h
    · obtain ⟨k, h3, h4⟩ := hs.ticks key t h
      exact ⟨k, h3, h4.mono hg⟩
  | @newPool _ env t0 t1 tier price tick out hw h =>
    obtain ⟨cfg, k, pool, h0, h1, h2, h3, h4, h5, rfl, _⟩ := createPool_inv h
    have hg : PoolsGrow s (savePool s k pool) := poolsGrow_insert rfl
    obtain ⟨cfg0, e, e1, e2⟩ := hs.cfg
    rw [h0] at e; cases e
    have hk : k.wf ∧ k.tier = tier ∧ bytesLt k.tokenX k.tokenY = true := by
      unfold PoolKey.new at h3
      obtain ⟨w1, w2, w3, _⟩ := hw
      split at h3
      · simp at h3
      · rename_i hne
        split at h3
        · rename_i hlt
          rw [ok_inj] at h3; subst h3; exact ⟨⟨w1, w2, w3⟩, rfl, hlt⟩
        · rename_i hlt
          rw [ok_inj] at h3; subst h3; exact ⟨⟨w2, w1, w3⟩, rfl, by rw [bytesLt_flip hne]; simp [hlt]⟩
    refine ⟨hs.cfg, fun key q h => ?_, fun key q h => ?_, fun key p h => (hs.positions key p h).mono hg,
      fun key t h => ?_⟩
    · rw [show (savePool s k _).pools = s.pools.insert k.key _ from rfl, KV.get?_insert] at h
      split at h
      · rename_i e
        exact ⟨k, e, hk.1, by rw [hk.2.1]; exact (e2 _ h1).1, hk.2.2⟩
      · exact hs.pools _ _ h
    · rw [show (savePool s k _).pools = s.pools.insert k.key _ from rfl, KV.get?_insert] at h
      split at h
      · rw [Option.some.injEq] at h; subst h
        unfold Pool.create at h5
        rw [bind_ok] at h5
        obtain ⟨b, _, h5⟩ := h5
        rw [ite_error_ok, pure_ok] at h5
        rw [← h5.2]
        have h0 : 0 < U128 := by decide
        exact ⟨h0, h0, h0⟩
      · exact hs.fg _ _ h
    · obtain ⟨k, h3, h4⟩ := hs.ticks key t h
      exact ⟨k, h3, h4.mono hg⟩
  | @create _ env info k l u L lo hi out hw h =>
    obtain ⟨pool, tl, tu, r, rl, m1, m2, hp, hL, hlu, vl, vu, il, iu, _, _, _, _, _, hm, e1, e2, e3, e4, e5, _, ht, _, _, _⟩ :=
      createPosition_view hs hw h
    obtain ⟨hk, hl, hu, hLt, _, _⟩ := hw
    have hg : PoolsGrow s s' := poolsGrow_insert e3
    obtain ⟨q, d1, d2, d3, d4, d5, _, _⟩ := Position.modify_inv hm
    obtain ⟨f1, f2, f3, f4, _, f6, _, f7⟩ := Tick.update_inv d1
    obtain ⟨g1, g2, g3, g4, _, g6, _, g7⟩ := Tick.update_inv d2
    obtain ⟨bq, ho⟩ := updateLiquidity_lt d4 (have := hs.fg _ _ hp; this)
    obtain ⟨il', okl, prl, chl⟩ := vl.index hs hk hl
    obtain ⟨iu', oku, pru, chu⟩ := vu.index hs hk hu
    rw [f1, g1, il, iu] at ho
    have hpool' : ∃ p, s'.pools.get? k.key = some p := hg _ _ hp
    have out_lt : ∀ {i : Int} {t : Tick}, i32 i → TickUsed s k pool env.millis i t → t.outX < U128 ∧ t.outY < U128 := by
      intro i t hi v
      rcases v with v | ⟨_, _, v⟩
      · have := (hs.tick hk hi v).2; exact ⟨this.outX, this.outY⟩
      · obtain ⟨_, _, _, _, _, v1, v2⟩ := Tick.create_inv v
        have := hs.fg _ _ hp
        rw [v1, v2]
        constructor <;> split <;> first | exact this.1 | exact this.2.1 | decide
    have chl' := f7 chl hLt
    have chu' := g7 chu hLt
    simp only [if_true] at f6 g6
    have rlow : TickRecOk s' k r.lower :=
      ⟨hk, hpool', by rw [f1, il]; exact okl, by rw [f2, f1, il, prl], by rw [f3]; exact (out_lt hl vl).1,
        by rw [f4]; exact (out_lt hl vl).2, f6.2.1, chl'⟩
    have rupp : TickRecOk s' k r.upper :=
      ⟨hk, hpool', by rw [g1, iu]; exact oku, by rw [g2, g1, iu, pru], by rw [g3]; exact (out_lt hu vu).1,
        by rw [g4]; exact (out_lt hu vu).2, g6.2.1, chu'⟩
    refine ⟨by rw [e1]; exact hs.cfg, fun key p h => ?_, fun key p h => ?_, fun key p h => ?_, fun key t h => ?_⟩
    · rw [e3, KV.get?_insert] at h
      split at h
      · rename_i e; rw [e]; exact hs.pools _ _ hp
      · exact hs.pools _ _ h
    · rw [e3, KV.get?_insert] at h
      split at h
      · rw [Option.some.injEq] at h; subst h; rw [d5]; exact bq
      · exact hs.fg _ _ h
    · rw [e4, KV.get?_insert] at h
      split at h
      · rw [Option.some.injEq] at h; subst h
        obtain ⟨ox, oy, l', p1, p2, p3, p4, p5, p6, p7⟩ := Position.update_inv d3
        simp only [Nat.mul_zero, feeGrowthToFee, Nat.zero_div, cast128_ok] at p2 p3
        simp only [if_true, Nat.zero_add] at p4
        rw [p7]
        refine ⟨hk, hpool', okl, oku, by show l < u; omega, by show 0 < l'; omega, by show l' < U128; omega, ?_, ?_,
          feeGrowthInside_lt _ _ _ _ _ _, feeGrowthInside_lt _ _ _ _ _ _⟩
        · show 0 + ox = 0; omega
        · show 0 + oy = 0; omega
      · exact (hs.positions _ _ h).mono hg
    · rw [ht] at h
      split at h
      · rename_i e
        rw [Option.some.injEq] at h; subst h
        exact ⟨k, by rw [g1, iu]; exact e, rupp⟩
      · split at h
        · rename_i e
          rw [Option.some.injEq] at h; subst h
          exact ⟨k, by rw [f1, il]; exact e, rlow⟩
        · obtain ⟨k', h3, h4⟩ := hs.ticks key t h
          exact ⟨k', h3, h4.mono hg⟩
  | @claim _ env info i out hw h =>
    obtain ⟨pos, tl, tu, pool, r, hpos, htl, htu, il, iu, hp, hm, e1, e2, e3, e4, e5, e6, _, ht, _⟩ := claimFee_view hs h
    have hg : PoolsGrow s s' := poolsGrow_insert e5
    obtain ⟨q, d1, d2, d3, d4, d5, _, _⟩ := Position.modify_inv hm
    obtain ⟨f1, f2, f3, f4, _, f6, _, f7⟩ := Tick.update_inv d1
    obtain ⟨g1, g2, g3, g4, _, g6, _, g7⟩ := Tick.update_inv d2
    obtain ⟨bq, _⟩ := updateLiquidity_lt d4 (have := hs.fg _ _ hp; this)
    have hpo := hs.positions _ _ hpos
    have hrl := (hs.tick hpo.kwf hpo.lower.i32 htl).2
    have hru := (hs.tick hpo.kwf hpo.upper.i32 htu).2
    have hpool' : ∃ p, s'.pools.get? pos.poolKey.key = some p := hg _ _ hp
    simp only [if_true] at f6 g6
    have rlow : TickRecOk s' pos.poolKey r.lower :=
      ⟨hpo.kwf, hpool', by rw [f1]; exact hrl.ok, by rw [f2, f1]; exact hrl.price, by rw [f3]; exact hrl.outX,
        by rw [f4]; exact hrl.outY, f6.2.1, f7 hrl.change (by decide)⟩
    have rupp : TickRecOk s' pos.poolKey r.upper :=
      ⟨hpo.kwf, hpool', by rw [g1]; exact hru.ok, by rw [g2, g1]; exact hru.price, by rw [g3]; exact hru.outX,
        by rw [g4]; exact hru.outY, g6.2.1, g7 hru.change (by decide)⟩
    refine ⟨by rw [e1]; exact hs.cfg, fun key p h => ?_, fun key p h => ?_, fun key p h => ?_, fun key t h => ?_⟩
    · rw [e5, KV.get?_insert] at h
      split at h
      · rename_i e; rw [e]; exact hs.pools _ _ hp
      · exact hs.pools _ _ h
    · rw [e5, KV.get?_insert] at h
      split at h
      · rw [Option.some.injEq] at h; subst h; rw [d5]; exact bq
      · exact hs.fg _ _ h
    · rw [e6, KV.get?_insert] at h
      split at h
      · rw [Option.some.injEq] at h; subst h
        obtain ⟨ox, oy, l', p1, p2, p3, p4, p5, p6, p7⟩ := Position.update_inv d3
        simp only [if_true, Nat.add_zero] at p4
        rw [p7, p4.2]
        exact ⟨hpo.kwf, hpool', hpo.lower, hpo.upper, hpo.lt, hpo.liq, hpo.liqlt, rfl, rfl,
          feeGrowthInside_lt _ _ _ _ _ _, feeGrowthInside_lt _ _ _ _ _ _⟩
      · exact (hs.positions _ _ h).mono hg
    · rw [ht] at h
      split at h
      · rename_i e
        rw [Option.some.injEq] at h; subst h
        exact ⟨pos.poolKey, by rw [f1, il]; exact e, rlow⟩
      · split at h
        · rename_i e
          rw [Option.some.injEq] at h; subst h
          exact ⟨pos.poolKey, by rw [g1, iu]; exact e, rupp⟩
        · obtain ⟨k', h3, h4⟩ := hs.ticks key t h
          exact ⟨k', h3, h4.mono hg⟩
  | @remove _ env info i out hw h =>
    obtain ⟨pos, tl, tu, pool, r, sr, s1, s2, hpos, htl, htu, il, iu, hp, hm, _, _, jl, ju, _, _, hr, e1, e2, e3, e5, e6, e7,
      ht, _⟩ := removePosition_view hs h
    have hg : PoolsGrow s s' := poolsGrow_insert e5
    obtain ⟨q, d1, d2, d3, d4, d5, _, _⟩ := Position.modify_inv hm
    obtain ⟨f1, f2, f3, f4, _, f6, _, f7⟩ := Tick.update_inv d1
    obtain ⟨g1, g2, g3, g4, _, g6, _, g7⟩ := Tick.update_inv d2
    obtain ⟨bq, _⟩ := updateLiquidity_lt d4 (have := hs.fg _ _ hp; this)
    have hpo := hs.positions _ _ hpos
    have hrl := (hs.tick hpo.kwf hpo.lower.i32 htl).2
    have hru := (hs.tick hpo.kwf hpo.upper.i32 htu).2
    have hpool' : ∃ p, s'.pools.get? pos.poolKey.key = some p := hg _ _ hp
    simp only [Bool.false_eq_true, if_false] at f6 g6
    have hLt := hpo.liqlt
    have rlow : TickRecOk s' pos.poolKey r.lower :=
      ⟨hpo.kwf, hpool', by rw [f1]; exact hrl.ok, by rw [f2, f1]; exact hrl.price, by rw [f3]; exact hrl.outX,
        by rw [f4]; exact hrl.outY, by have := hrl.gross; omega, f7 hrl.change hLt⟩
    have rupp : TickRecOk s' pos.poolKey r.upper :=
      ⟨hpo.kwf, hpool', by rw [g1]; exact hru.ok, by rw [g2, g1]; exact hru.price, by rw [g3]; exact hru.outX,
        by rw [g4]; exact hru.outY, by have := hru.gross; omega, g7 hru.change hLt⟩
    refine ⟨by rw [e1]; exact hs.cfg, fun key p h => ?_, fun key p h => ?_, fun key p h => ?_, fun key t h => ?_⟩
    · rw [e5, KV.get?_insert] at h
      split at h
      · rename_i e; rw [e]; exact hs.pools _ _ hp
      · exact hs.pools _ _ h
    · rw [e5, KV.get?_insert] at h
      split at h
      · rw [Option.some.injEq] at h; subst h; rw [d5]; exact bq
      · exact hs.fg _ _ h
    · rw [e6] at h
      obtain ⟨key', h'⟩ := removePositionAt_get hr h
      exact (hs.positions _ _ h').mono hg
    · rw [ht] at h
      split at h
      · rename_i e
        split at h
        · simp at h
        · rw [Option.some.injEq] at h; subst h
          exact ⟨pos.poolKey, by rw [ju]; exact e, rupp⟩
      · split at h
        · rename_i e
          split at h
          · simp at h
          · rw [Option.some.injEq] at h; subst h
            exact ⟨pos.poolKey, by rw [jl]; exact e, rlow⟩
        · obtain ⟨k', h3, h4⟩ := hs.ticks key t h
          exact ⟨k', h3, h4.mono hg⟩
  | @move s1 _ o r i p hw h1 h2 =>
    obtain ⟨ps, pl, e1⟩ := removePositionAt_frame h1
    obtain ⟨_, h2⟩ := addPosition_ok.1 h2
    have hg : PoolsGrow s s' := fun key q h => ⟨q, by rw [h2, e1]; exact h⟩
    refine ⟨by rw [h2, e1]; exact hs.cfg, fun key q h => ?_, fun key q h => ?_, fun key q h => ?_, fun key t h => ?_⟩
    · rw [h2, e1] at h; exact hs.pools _ _ h
    · rw [h2, e1] at h; exact hs.fg _ _ h
    · rw [h2] at h
      simp only [KV.get?_insert] at h
      split at h
      · rw [Option.some.injEq] at h; subst h
        obtain ⟨_, _, hp, _⟩ := removePositionAt_inv h1
        exact ((hs.positions _ _ hp).appr []).mono hg
      · obtain ⟨key', h'⟩ := removePositionAt_get h1 h
        exact (hs.positions _ _ h').mono hg
    · rw [h2, e1] at h
      obtain ⟨k', h3, h4⟩ := hs.ticks key t h
      exact ⟨k', h3, h4.mono hg⟩
  | @appr id p a h =>
    have hg : PoolsGrow s { s with positions := s.positions.insert id { p with approvals := a } } :=
      fun key q h => ⟨q, h⟩
    refine ⟨hs.cfg, hs.pools, hs.fg, fun key q h' => ?_, fun key t h => ?_⟩
    · simp only [KV.get?_insert] at h'
      split at h'
      · rw [Option.some.injEq] at h'; subst h'
        exact ((hs.positions _ _ h).appr a).mono hg
      · exact (hs.positions _ _ h').mono hg
    · obtain ⟨k', h3, h4⟩ := hs.ticks key t h
      exact ⟨k', h3, h4.mono hg⟩
  | @swap info now k d amount b limit x hk ha hl h =>
    obtain ⟨pool, hp, e1, e2, e3, e4, e5, e6, hb, hc, hv⟩ := swapInternal_view hs hk h
    have hg : PoolsGrow s x.1 := poolsGrow_insert e6
    refine ⟨by rw [e1]; exact hs.cfg, fun key p h => ?_, fun key p h => ?_, fun key p h => ?_, fun key t h => ?_⟩
    · rw [e6, KV.get?_insert] at h
      split at h
      · rename_i e; rw [e]; exact hs.pools _ _ hp
      · exact hs.pools _ _ h
    · rw [e6, KV.get?_insert] at h
      split at h
      · rw [Option.some.injEq] at h; subst h; exact hb
      · exact hs.fg _ _ h
    · rw [e5] at h
      exact (hs.positions _ _ h).mono hg
    · rcases hv key with ⟨h1, _⟩ | ⟨t', h1, h2, h3⟩
      · rw [h1] at h
        obtain ⟨k', h3, h4⟩ := hs.ticks key t h
        exact ⟨k', h3, h4.mono hg⟩
      · rw [h3, Option.some.injEq] at h
        subst h
        obtain ⟨t0, h4, h5, h6, h7⟩ := hc _ h1
        obtain ⟨k', h8, h9⟩ := hs.ticks _ _ h4
        simp only [Tick.core, Prod.mk.injEq] at h5
        obtain ⟨c1, c2, c3, c4, c5⟩ := h5
        have hkk : k' = k := by
          rw [c1] at h8
          unfold tickKey at h8
          exact (PoolKey.key_inj hk h9.kwf (List.append_cancel_right h8)).symm
        subst hkk
        exact ⟨k', h2, h9.kwf, hg _ _ hp, by rw [c1]; exact h9.ok, by rw [c5, c1]; exact h9.price, h6, h7,
          by rw [c4]; exact h9.gross, by rw [c3]; exact h9.change⟩

theorem MReach.struct {c : Chain} {s : Store} (h : MReach c s) : Struct s := by
  induction h with
  | init sender fee hf =>
    refine ⟨⟨_, rfl, hf, by simp⟩, ?_, ?_, ?_, ?_⟩ <;> intro key p h <;> simp [instantiate, Store.empty, KV.get?_empty] at h
  | step _ hm ih => exact ih.micro hm

end OraiV3
