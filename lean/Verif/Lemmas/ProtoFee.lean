import Verif.Lemmas.SwapInv

/-!
# Two swaps that differ in the protocol fee only
-/

namespace OraiV3

/-- Equal up to what fees change. -/
structure PoolSame (p q : Pool) : Prop where
  liquidity : q.liquidity = p.liquidity
  sqrtPrice : q.sqrtPrice = p.sqrtPrice
  tick : q.tick = p.tick
  startTs : q.startTs = p.startTs

/-- The counter a swap adds to. -/
def Pool.protoOf (p : Pool) (d : Bool) : Nat := if d then p.protoX else p.protoY

theorem protoPart_le {a pf : Nat} (h : pf ≤ PCT) : protoPart a pf ≤ a := by
  unfold protoPart
  have h1 : a * pf ≤ a * PCT := Nat.mul_le_mul_left a h
  have h0 : PCT = 1000000000000 := rfl
  rw [h0] at h1 ⊢
  omega

theorem protoPart_mono {a p q : Nat} (h : p ≤ q) : protoPart a p ≤ protoPart a q := by
  unfold protoPart
  exact Nat.div_le_div_right (Nat.add_le_add_right (Nat.mul_le_mul_left a h) _)

theorem Pool.addFee_more {p p' q : Pool} {a pf pf' : Nat} {d : Bool} (h : p.addFee a d pf = .ok p') (hs : PoolSame p q)
    (h1 : pf ≤ pf') (h2 : pf' ≤ PCT) (hr : q.protoOf d + a < U128) :
    ∃ q', q.addFee a d pf' = .ok q' ∧ PoolSame p' q' ∧ q'.protoOf d ≤ q.protoOf d + a := by
  obtain ⟨_, h3⟩ := Pool.addFee_inv h
  have hle := protoPart_le (a := a) h2
  have hmono := protoPart_mono (a := a) h1
  have e1 : bigMulUp a pf' PCT = .ok (protoPart a pf') := cast128_ok.2 ⟨by change protoPart a pf' < U128; omega, rfl⟩
  have e2 : subP a (protoPart a pf') = .ok (a - protoPart a pf') := subP_ok.2 ⟨hle, rfl⟩
  unfold Pool.addFee
  rw [e1, ok_bind, e2, ok_bind]
  rcases h3 with ⟨h4, rfl⟩ | ⟨h4, h5, g, hg, h6⟩
  · have hc : (a - protoPart a pf' = 0 ∧ protoPart a pf' = 0) ∨ q.liquidity = 0 := by
      rcases h4 with h4 | h4
      · left; omega
      · right; rw [hs.liquidity]; exact h4
    rw [if_pos hc]
    exact ⟨q, rfl, hs, by omega⟩
  · have hc : ¬ ((a - protoPart a pf' = 0 ∧ protoPart a pf' = 0) ∨ q.liquidity = 0) := by
      rw [hs.liquidity]; omega
    rw [if_neg hc]
    have hsame : PoolSame p p' := by
      split at h6
      · rw [h6.2]; exact ⟨rfl, rfl, rfl, rfl⟩
      · rw [h6.2]; exact ⟨rfl, rfl, rfl, rfl⟩
    unfold feeGrowthFromFee at hg
    rw [if_neg h5] at hg
    rw [cast128_ok] at hg
    have e3 : feeGrowthFromFee q.liquidity (a - protoPart a pf') = .ok ((a - protoPart a pf') * FGR * LIQ / q.liquidity) := by
      unfold feeGrowthFromFee
      rw [hs.liquidity, if_neg h5]
      refine cast128_ok.2 ⟨Nat.lt_of_le_of_lt ?_ hg.1, rfl⟩
      exact Nat.div_le_div_right (Nat.mul_le_mul_right _ (Nat.mul_le_mul_right _ (by omega)))
    rw [e3, ok_bind]
    cases d with
    | true =>
      simp only [if_true]
      have hr' : q.protoX + a < U128 := hr
      have e4 : add128 q.protoX (protoPart a pf') = .ok (q.protoX + protoPart a pf') := add128_ok.2 ⟨by omega, rfl⟩
      rw [e4, ok_bind]
      refine ⟨_, rfl, ⟨hs.liquidity.trans hsame.liquidity.symm, hs.sqrtPrice.trans hsame.sqrtPrice.symm,
        hs.tick.trans hsame.tick.symm, hs.startTs.trans hsame.startTs.symm⟩, ?_⟩
      show q.protoX + protoPart a pf' ≤ q.protoX + a
      omega
    | false =>
      simp only [Bool.false_eq_true, if_false]
      have hr' : q.protoY + a < U128 := hr
      have e4 : add128 q.protoY (protoPart a pf') = .ok (q.protoY + protoPart a pf') := add128_ok.2 ⟨by omega, rfl⟩
      rw [e4, ok_bind]
      refine ⟨_, rfl, ⟨hs.liquidity.trans hsame.liquidity.symm, hs.sqrtPrice.trans hsame.sqrtPrice.symm,
        hs.tick.trans hsame.tick.symm, hs.startTs.trans hsame.startTs.symm⟩, ?_⟩
      show q.protoY + protoPart a pf' ≤ q.protoY + a
      omega

theorem Tick.cross_same {t t' : Tick} {p p' q : Pool} {now : Nat} (h : t.cross p now = .ok (t', p')) (hs : PoolSame p q) :
    ∃ u q', t.cross q now = .ok (u, q') ∧ u.index = t'.index ∧ PoolSame p' q' ∧ ∀ d, q'.protoOf d = q.protoOf d := by
  obtain ⟨liq, h1, h2, h3, h4⟩ := Tick.cross_inv h
  simp only at h3 h4
  subst h3 h4
  unfold Tick.cross
  rw [hs.startTs]
  have e1 : checkedSub .timestampSubOverflow now p.startTs = .ok (now - p.startTs) := checkedSub_ok.2 ⟨h1, rfl⟩
  rw [e1, ok_bind, hs.tick, hs.liquidity]
  split at h2
  · rename_i hx
    have e2 : checkedAdd .poolAddTickLiquidityOverflow p.liquidity t.change = .ok liq := checkedAdd_ok.2 ⟨h2.1, h2.2.symm⟩
    simp only [hx, if_true, e2, ok_bind]
    exact ⟨_, _, rfl, rfl, ⟨rfl, hs.sqrtPrice, rfl, rfl⟩, fun d => rfl⟩
  · rename_i hx
    have e2 : checkedSub .poolSubTickLiquidityUnderflow p.liquidity t.change = .ok liq := checkedSub_ok.2 ⟨h2.1, h2.2.symm⟩
    simp only [hx, Bool.false_eq_true, if_false, e2, ok_bind]
    exact ⟨_, _, rfl, rfl, ⟨rfl, hs.sqrtPrice, rfl, rfl⟩, fun d => rfl⟩

/-- The ticks handed on agree in their indexes. -/
def TickUpd.index : TickUpd → Option Int
  | .init t => some t.index
  | _ => none

theorem Pool.updateTick_more {p q : Pool} {np lim : Nat} {upd : TickUpd} {rem : Nat} {b d : Bool} {now pf pf' : Nat} {tier : FeeTier}
    {u : TickUpdRes} (h : p.updateTick np lim upd rem b d now pf tier = .ok u) (hs : PoolSame p q) (h1 : pf ≤ pf') (h2 : pf' ≤ PCT)
    (hr : q.protoOf d + u.total < U128) :
    ∃ w, q.updateTick np lim upd rem b d now pf' tier = .ok w ∧ PoolSame u.pool w.pool ∧ w.total = u.total ∧
      w.remaining = u.remaining ∧ w.crossed = u.crossed ∧ w.upd.index = u.upd.index ∧
      w.pool.protoOf d ≤ q.protoOf d + u.total := by
  unfold Pool.updateTick at h ⊢
  by_cases hc : upd = .noTick ∨ lim ≠ np
  · rw [if_pos hc] at h ⊢
    simp only [bind_ok, pure_ok] at h
    obtain ⟨t, e, rfl⟩ := h
    rw [e, ok_bind]
    exact ⟨_, rfl, ⟨by first | rfl | exact hs.liquidity, hs.sqrtPrice, rfl, hs.startTs⟩, rfl, rfl, rfl, rfl, Nat.le_add_right _ _⟩
  · rw [if_neg hc] at h ⊢
    simp only [bind_ok] at h
    obtain ⟨en, e1, h⟩ := h
    rw [hs.liquidity, e1, ok_bind]
    cases upd with
    | noTick => cases h
    | uninit i =>
      simp only [pure_ok] at h
      subst h
      exact ⟨_, rfl, ⟨by first | rfl | exact hs.liquidity, hs.sqrtPrice, rfl, hs.startTs⟩, rfl, rfl, rfl, rfl, Nat.le_add_right _ _⟩
    | init t =>
      simp only at h ⊢
      by_cases hx : (!d || en) = true
      · rw [if_pos hx] at h ⊢
        cases hcr : t.cross p now with
        | error e => rw [hcr] at h; cases h
        | ok tp =>
          rw [hcr] at h
          simp only [pure_ok] at h
          subst h
          obtain ⟨v, q', e2, e3, e4, e5⟩ := Tick.cross_same (t' := tp.1) (p' := tp.2) hcr hs
          rw [e2]
          refine ⟨_, rfl, ⟨e4.liquidity, e4.sqrtPrice, rfl, e4.startTs⟩, rfl, rfl, rfl, ?_, ?_⟩
          · show some v.index = some tp.1.index
            rw [e3]
          · exact Nat.le_of_eq (e5 d)
      · rw [if_neg hx] at h ⊢
        by_cases hz : rem ≠ 0
        · rw [if_pos hz] at h ⊢
          cases b with
          | false =>
            simp only [Bool.false_eq_true, if_false, pure_ok] at h ⊢
            subst h
            exact ⟨_, rfl, ⟨by first | rfl | exact hs.liquidity, hs.sqrtPrice, rfl, hs.startTs⟩, rfl, rfl, rfl, rfl, Nat.le_add_right _ _⟩
          | true =>
            simp only [if_true, bind_ok, pure_ok] at h ⊢
            obtain ⟨p', e2, rfl⟩ := h
            simp only at hr
            obtain ⟨q', e3, e4, e5⟩ := Pool.addFee_more e2 hs h1 h2 hr
            exact ⟨_, ⟨q', e3, rfl⟩, ⟨e4.liquidity, e4.sqrtPrice, rfl, e4.startTs⟩, rfl, rfl, rfl, rfl, e5⟩
        · rw [if_neg hz] at h ⊢
          simp only [pure_ok] at h
          subst h
          exact ⟨_, rfl, ⟨by first | rfl | exact hs.liquidity, hs.sqrtPrice, rfl, hs.startTs⟩, rfl, rfl, rfl, rfl, Nat.le_add_right _ _⟩

/-- Two swaps in the same place. -/
structure SwapSame (pr : SwapParams) (P0 : Nat) (st w : SwapState) : Prop where
  pool : PoolSame st.pool w.pool
  remaining : w.remaining = st.remaining
  totalIn : w.totalIn = st.totalIn
  totalOut : w.totalOut = st.totalOut
  fee : w.fee = st.fee
  ticks : w.ticks.map Tick.index = st.ticks.map Tick.index
  proto : w.pool.protoOf pr.xToY ≤ P0 + st.totalIn
  feeLe : st.fee ≤ st.totalIn

theorem pushCrossed_index {l l' : List Tick} {u w : TickUpd} {cr : Bool} (hl : l'.map Tick.index = l.map Tick.index)
    (hu : w.index = u.index) : (pushCrossed l' w cr).map Tick.index = (pushCrossed l u cr).map Tick.index := by
  cases cr with
  | false =>
    have e : ∀ (l : List Tick) u, pushCrossed l u false = l := fun l u => by cases u <;> rfl
    rw [e, e, hl]
  | true =>
    cases u <;> cases w <;> simp_all [TickUpd.index, pushCrossed]

theorem swapIter_more {s s' : Store} {pr : SwapParams} {cfg cfg' : Config} (hc : s.config = some cfg) (hc' : s'.config = some cfg')
    (hb : s'.bitmap = s.bitmap) (ht : s'.ticks = s.ticks) (h1 : cfg.protocolFee ≤ cfg'.protocolFee) (h2 : cfg'.protocolFee ≤ PCT)
    {P0 : Nat} {st st' w : SwapState} (h : swapIter s pr st = .ok st') (hr : SwapSame pr P0 st w) (hP : P0 + st'.totalIn < U128) :
    ∃ w', swapIter s' pr w = .ok w' ∧ SwapSame pr P0 st' w' := by
  obtain ⟨cl, r, cfg0, p1, upd, u, rem, a1, a2, a3, a4, a5, a6, a7, a8, a9, a10, a11, rfl⟩ := swapIter_inv h
  rw [hc, Option.some.injEq] at a4
  subst a4
  simp only at hP a10 a11
  have hproto := hr.proto
  have hfee := hr.feeLe
  obtain ⟨q1, b1, b2, b3⟩ := Pool.addFee_more a5 hr.pool h1 h2 (by omega)
  have hs1 : PoolSame { p1 with sqrtPrice := r.nextPrice } { q1 with sqrtPrice := r.nextPrice } :=
    ⟨b2.liquidity, rfl, b2.tick, b2.startTs⟩
  have eq1 : ∀ n, ({ q1 with sqrtPrice := n } : Pool).protoOf pr.xToY = q1.protoOf pr.xToY := fun n => rfl
  obtain ⟨w, c1, c2, c3, c4, c5, c6, c7⟩ := Pool.updateTick_more a8 hs1 h1 h2 (by rw [eq1]; omega)
  rw [eq1] at c7
  have ech : getChunk s' pr.key = getChunk s pr.key := by funext x; unfold getChunk; rw [hb]
  have eupd : tickUpdOf s' pr.key cl.2 = .ok upd := by
    rw [← a7]; unfold tickUpdOf getTick; rw [ht]
  have ecfg : loadConfig s' = .ok cfg' := by unfold loadConfig; rw [hc']
  unfold swapIter
  rw [ech, hr.pool.tick, a1, ok_bind, hr.pool.sqrtPrice, hr.pool.liquidity, hr.remaining, a2, ok_bind]
  have d1 : add128 r.amountIn r.feeAmount = .ok (r.amountIn + r.feeAmount) := add128_ok.2 ⟨by omega, rfl⟩
  have d2 : (if pr.byAmountIn then checkedSub .sub st.remaining (r.amountIn + r.feeAmount)
      else checkedSub .sub st.remaining r.amountOut) = .ok rem := by
    split at a3
    · rename_i hb; rw [if_pos hb]; exact checkedSub_ok.2 ⟨a3.1, a3.2.symm⟩
    · rename_i hb; rw [if_neg hb]; exact checkedSub_ok.2 ⟨a3.1, a3.2.symm⟩
  have d3 : add128 st.fee r.feeAmount = .ok (st.fee + r.feeAmount) := add128_ok.2 ⟨by omega, rfl⟩
  have d4 : add128 st.totalIn (r.amountIn + r.feeAmount) = .ok (st.totalIn + (r.amountIn + r.feeAmount)) :=
    add128_ok.2 ⟨by omega, rfl⟩
  have d5 : add128 st.totalOut r.amountOut = .ok (st.totalOut + r.amountOut) := add128_ok.2 ⟨a11, rfl⟩
  have d6 : add128 (st.totalIn + (r.amountIn + r.feeAmount)) u.total = .ok (st.totalIn + (r.amountIn + r.feeAmount) + u.total) :=
    add128_ok.2 ⟨a10, rfl⟩
  have hfin : ¬ reachedTickLimit pr.xToY pr.key.tier.spacing w.pool.tick = true := by
    rw [c2.tick]; simpa using a9
  cases hbi : pr.byAmountIn
  all_goals
    simp only [hbi, Bool.false_eq_true, if_false, if_true] at d2 c1 ⊢
    first | rw [d2, ok_bind] | rw [d1, ok_bind, d2, ok_bind]
    rw [ecfg, ok_bind, b1, ok_bind, hr.fee, d3, ok_bind]
    try rw [d1]
    rw [ok_bind, hr.totalIn, d4, ok_bind, hr.totalOut, d5, ok_bind]
    rw [if_neg a6, eupd, ok_bind, c1, ok_bind, c3, d6, ok_bind, if_neg hfin]
    refine ⟨_, rfl, c2, c4, rfl, rfl, rfl, ?_, ?_, ?_⟩
    · simp only
      rw [c5]
      exact pushCrossed_index hr.ticks c6
    · show w.pool.protoOf pr.xToY ≤ P0 + (st.totalIn + (r.amountIn + r.feeAmount) + u.total)
      omega
    · show st.fee + r.feeAmount ≤ st.totalIn + (r.amountIn + r.feeAmount) + u.total
      omega

theorem swapLoop_totalIn {s : Store} {pr : SwapParams} : ∀ {n : Nat} {st st' : SwapState}, swapLoop s pr n st = .ok st' →
    st.totalIn ≤ st'.totalIn
  | 0, st, st', h => by
    simp only [swapLoop] at h
    split at h
    · rw [ok_inj] at h; exact Nat.le_of_eq (by rw [h])
    · cases h
  | n + 1, st, st', h => by
    simp only [swapLoop] at h
    split at h
    · rw [ok_inj] at h; exact Nat.le_of_eq (by rw [h])
    · simp only [bind_ok] at h
      obtain ⟨x, h1, h2⟩ := h
      refine Nat.le_trans ?_ (swapLoop_totalIn h2)
      obtain ⟨cl, r, cfg0, p1, upd, u, rem, _, _, _, _, _, _, _, _, _, _, _, rfl⟩ := swapIter_inv h1
      simp only
      omega

theorem swapLoop_more {s s' : Store} {pr : SwapParams} {cfg cfg' : Config} (hc : s.config = some cfg) (hc' : s'.config = some cfg')
    (hb : s'.bitmap = s.bitmap) (ht : s'.ticks = s.ticks) (h1 : cfg.protocolFee ≤ cfg'.protocolFee) (h2 : cfg'.protocolFee ≤ PCT)
    {P0 : Nat} : ∀ {n : Nat} {st st' w : SwapState}, swapLoop s pr n st = .ok st' → SwapSame pr P0 st w → P0 + st'.totalIn < U128 →
    ∃ w', swapLoop s' pr n w = .ok w' ∧ SwapSame pr P0 st' w'
  | 0, st, st', w, h, hr, _ => by
    simp only [swapLoop] at h ⊢
    rw [hr.remaining]
    split at h
    · rename_i h0
      rw [ok_inj] at h
      rw [if_pos h0]
      exact ⟨w, rfl, h ▸ hr⟩
    · cases h
  | n + 1, st, st', w, h, hr, hP => by
    simp only [swapLoop] at h ⊢
    rw [hr.remaining]
    split at h
    · rename_i h0
      rw [ok_inj] at h
      rw [if_pos h0]
      exact ⟨w, rfl, h ▸ hr⟩
    · rename_i h0
      rw [if_neg h0]
      simp only [bind_ok] at h
      obtain ⟨x, h3, h4⟩ := h
      have := swapLoop_totalIn h4
      obtain ⟨y, h5, h6⟩ := swapIter_more hc hc' hb ht h1 h2 h3 hr (by omega)
      rw [h5, ok_bind]
      exact swapLoop_more hc hc' hb ht h1 h2 h4 h6 hP

end OraiV3
