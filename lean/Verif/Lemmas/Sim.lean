import Verif.Lemmas.SwapInv
import Verif.Lemmas.Struct
import Verif.Sdk
import Verif.Query
import Verif.Lemmas.Tickmap

/-!
# The client's simulation follows the contract's loop
-/

namespace OraiV3

/-- What the client knows of a tick. -/
def Tick.toL (t : Tick) : LTick := ⟨t.index, t.change, t.sign⟩
/-- What the client knows of a pool. -/
def Pool.toSim (p : Pool) : SimPool := ⟨p.liquidity, p.sqrtPrice, p.tick⟩
/-- The same for the update of a tick. -/
def TickUpd.toSim : TickUpd → SimUpd
  | .noTick => .noTick
  | .init t => .init t.toL
  | .uninit i => .uninit i

theorem Tick.cross_sim {t t' : Tick} {p p' : Pool} {now : Nat} (h : t.cross p now = .ok (t', p')) :
    t.toL.cross p.toSim = .ok p'.toSim ∧ t'.toL = t.toL := by
  unfold Tick.cross at h
  unfold LTick.cross
  by_cases hx : (decide (p.tick ≥ t.index) ^^ t.sign) = true
  · simp only [hx, if_true, bind_ok, pure_ok, Prod.mk.injEq] at h
    obtain ⟨secs, h1, liq, h2, rfl, rfl⟩ := h
    refine ⟨?_, rfl⟩
    have hx' : (decide (p.toSim.tick ≥ t.toL.index) ^^ t.toL.sign) = true := hx
    have h2' : checkedAdd .poolAddTickLiquidityOverflow p.toSim.liquidity t.toL.change = .ok liq := h2
    rw [if_pos hx', h2']
    rfl
  · simp only [hx, Bool.false_eq_true, if_false, bind_ok, pure_ok, Prod.mk.injEq] at h
    obtain ⟨secs, h1, liq, h2, rfl, rfl⟩ := h
    refine ⟨?_, rfl⟩
    have hx' : ¬ (decide (p.toSim.tick ≥ t.toL.index) ^^ t.toL.sign) = true := hx
    have h2' : checkedSub .poolSubTickLiquidityUnderflow p.toSim.liquidity t.toL.change = .ok liq := h2
    rw [if_neg hx', h2']
    rfl

theorem Pool.updateTick_sim {p : Pool} {np lim : Nat} {upd : TickUpd} {rem : Nat} {b d : Bool} {now pf : Nat} {tier : FeeTier}
    {u : TickUpdRes} (h : p.updateTick np lim upd rem b d now pf tier = .ok u) :
    p.toSim.updateTick np lim upd.toSim rem b d tier = .ok (some ⟨u.pool.toSim, u.total, u.remaining, u.crossed⟩) ∧
    (u.crossed = true → ∃ t t', upd = .init t ∧ u.upd = .init t' ∧ t'.toL = t.toL) := by
  unfold Pool.updateTick at h
  unfold SimPool.updateTick
  by_cases hc : upd = .noTick ∨ lim ≠ np
  · rw [if_pos hc] at h
    have hc' : upd.toSim = .noTick ∨ lim ≠ np := by
      rcases hc with rfl | hc
      · exact .inl rfl
      · exact .inr hc
    rw [if_pos hc']
    simp only [bind_ok, pure_ok] at h
    obtain ⟨t, h1, rfl⟩ := h
    rw [h1]
    exact ⟨rfl, fun h => by cases h⟩
  · rw [if_neg hc] at h
    have hc' : ¬ (upd.toSim = .noTick ∨ lim ≠ np) := by
      rintro (e | e)
      · cases upd with
        | noTick => exact hc (.inl rfl)
        | init t => cases e
        | uninit i => cases e
      · exact hc (.inr e)
    rw [if_neg hc']
    simp only [bind_ok] at h
    obtain ⟨en, h1, h⟩ := h
    have h1' : isEnoughAmountToChangePrice rem np p.toSim.liquidity tier.fee b d = .ok en := h1
    rw [h1']
    cases upd with
    | noTick => cases h
    | uninit i =>
      simp only [pure_ok] at h
      subst h
      exact ⟨rfl, fun h => by cases h⟩
    | init t =>
      simp only at h
      simp only [TickUpd.toSim]
      by_cases hx : (!d || en) = true
      · rw [if_pos hx] at h
        rw [if_pos hx]
        cases hcr : t.cross p now with
        | error e => rw [hcr] at h; cases h
        | ok tp =>
          rw [hcr] at h
          simp only [pure_ok] at h
          subst h
          obtain ⟨e1, e2⟩ := Tick.cross_sim (t := t) (t' := tp.1) (p := p) (p' := tp.2) hcr
          rw [e1]
          exact ⟨rfl, fun _ => ⟨t, tp.1, rfl, rfl, e2⟩⟩
      · rw [if_neg hx] at h
        rw [if_neg hx]
        by_cases hz : rem ≠ 0
        · rw [if_pos hz] at h
          rw [if_pos hz]
          cases b with
          | false =>
            simp only [Bool.false_eq_true, if_false, pure_ok] at h
            subst h
            exact ⟨rfl, fun h => by cases h⟩
          | true =>
            simp only [if_true, bind_ok, pure_ok] at h
            obtain ⟨q, h2, rfl⟩ := h
            refine ⟨?_, fun h => by cases h⟩
            obtain ⟨_, h3 | ⟨_, _, g, _, h3⟩⟩ := Pool.addFee_inv h2
            · rw [h3.2]; rfl
            · split at h3
              · rw [h3.2]; rfl
              · rw [h3.2]; rfl
        · rw [if_neg hz] at h
          rw [if_neg hz]
          simp only [pure_ok] at h
          subst h
          exact ⟨rfl, fun h => by cases h⟩

/-- The client's ticks are the contract's. -/
def TicksAgree (s : Store) (k : PoolKey) (ticks : List LTick) : Prop :=
  ∀ i t, -MAX_TICK ≤ i → i ≤ MAX_TICK → s.ticks.get? (tickKey k i) = some t → ticks.find? (fun x => x.index = i) = some t.toL

theorem tickUpdOf_sim {s : Store} {k : PoolKey} {ticks : List LTick} (ha : TicksAgree s k ticks) {lt : Option (Int × Bool)}
    (hlt : ∀ i b, lt = some (i, b) → -MAX_TICK ≤ i ∧ i ≤ MAX_TICK) {upd : TickUpd} (h : tickUpdOf s k lt = .ok upd) : simUpdOf ticks lt = some upd.toSim := by
  unfold tickUpdOf at h
  unfold simUpdOf
  match lt with
  | none =>
    simp only [pure_ok] at h
    subst h; rfl
  | some (i, false) =>
    simp only [pure_ok] at h
    subst h; rfl
  | some (i, true) =>
    simp only [bind_ok, pure_ok] at h
    obtain ⟨t, h1, rfl⟩ := h
    unfold getTick at h1
    split at h1
    · rename_i t' ht
      rw [ok_inj] at h1
      subst h1
      simp only [ha i t' (hlt i true rfl).1 (hlt i true rfl).2 ht]
      rfl
    · cases h1

/-- The two loops are in the same place. -/
structure SimRel (st : SwapState) (sst : SimState) : Prop where
  pool : sst.pool = st.pool.toSim
  remaining : sst.remaining = st.remaining
  totalIn : sst.totalIn = st.totalIn
  totalOut : sst.totalOut = st.totalOut
  fee : sst.fee = st.fee
  crossed : sst.crossed = st.ticks.map Tick.toL
  insufficient : sst.insufficient = false
  outdated : sst.outdated = false
  maxCrossed : sst.maxCrossed = false
  short : st.ticks.length ≤ MAX_TICK_CROSS
  feeLe : st.fee ≤ st.totalIn

theorem add128_of_lt {a b : Nat} (h : a + b < U128) : add128 a b = .ok (a + b) := add128_ok.2 ⟨h, rfl⟩

theorem pushCrossed_sim {ticks : List Tick} {upd upd' : TickUpd} {cr : Bool}
    (h : cr = true → ∃ t t', upd = .init t ∧ upd' = .init t' ∧ t'.toL = t.toL) :
    simPush (ticks.map Tick.toL) upd.toSim cr = (pushCrossed ticks upd' cr).map Tick.toL := by
  cases cr with
  | false =>
    have e1 : pushCrossed ticks upd' false = ticks := by cases upd' <;> rfl
    rw [e1]
    cases upd <;> rfl
  | true =>
    obtain ⟨t, t', rfl, rfl, e⟩ := h rfl
    simp only [TickUpd.toSim, simPush, pushCrossed, List.map_append, List.map_cons, List.map_nil, e]

theorem swapIter_sim {s : Store} {pr : SwapParams} {bm : Nat → Nat} (hbm : ∀ c, c ≤ getMaxChunk pr.key.tier.spacing → bm c = getChunk s pr.key c)
    {ticks : List LTick} (ha : TicksAgree s pr.key ticks)
    {st st' : SwapState} {sst : SimState} (hr : SimRel st sst) (h : swapIter s pr st = .ok st') :
    ∃ sst' brk, simIter bm pr.key.tier ticks pr.xToY pr.byAmountIn pr.limit sst = .ok (sst', brk) ∧
      ((brk = true ∧ sst'.maxCrossed = true ∧ MAX_TICK_CROSS < st'.ticks.length) ∨ (brk = false ∧ SimRel st' sst')) := by
  obtain ⟨cl, r, cfg, p1, upd, u, rem, h1, h2, h3, _, h5, h6, h7, h8, h9, h10, h11, rfl⟩ := swapIter_inv h
  obtain ⟨e1, e2⟩ := Pool.updateTick_sim h8
  have hp1 : ({ p1 with sqrtPrice := r.nextPrice } : Pool).toSim = { st.pool.toSim with sqrtPrice := r.nextPrice } := by
    obtain ⟨_, h3 | ⟨_, _, g, _, h3⟩⟩ := Pool.addFee_inv h5
    · rw [h3.2]; rfl
    · split at h3
      · rw [h3.2]; rfl
      · rw [h3.2]; rfl
  rw [hp1] at e1
  simp only at h10 h11
  have b1 : add128 r.amountIn r.feeAmount = .ok (r.amountIn + r.feeAmount) := add128_of_lt (by omega)
  have b2 : add128 sst.fee r.feeAmount = .ok (st.fee + r.feeAmount) := by
    rw [hr.fee]; exact add128_of_lt (by have := hr.feeLe; omega)
  have b3 : add128 sst.totalIn (r.amountIn + r.feeAmount) = .ok (st.totalIn + (r.amountIn + r.feeAmount)) := by
    rw [hr.totalIn]; exact add128_of_lt (by omega)
  have b4 : add128 sst.totalOut r.amountOut = .ok (st.totalOut + r.amountOut) := by
    rw [hr.totalOut]; exact add128_of_lt h11
  have b5 : add128 (st.totalIn + (r.amountIn + r.feeAmount)) u.total =
      .ok (st.totalIn + (r.amountIn + r.feeAmount) + u.total) := add128_of_lt h10
  have b6 : (if pr.byAmountIn then subP sst.remaining (r.amountIn + r.feeAmount) else subP sst.remaining r.amountOut) = .ok rem := by
    rw [hr.remaining]
    split at h3
    · rename_i hb
      rw [if_pos hb]; exact subP_ok.2 ⟨h3.1, h3.2.symm⟩
    · rename_i hb
      rw [if_neg hb]; exact subP_ok.2 ⟨h3.1, h3.2.symm⟩
  have c1 : getCloserLimit bm pr.limit pr.xToY sst.pool.tick pr.key.tier.spacing = .ok cl := by
    rw [getCloserLimit_congr hbm, hr.pool]; exact h1
  have c2 : computeSwapStep sst.pool.sqrtPrice cl.1 sst.pool.liquidity sst.remaining pr.byAmountIn pr.key.tier.fee = .ok r := by
    rw [hr.pool, hr.remaining]; exact h2
  have hlt : ∀ i b, cl.2 = some (i, b) → -MAX_TICK ≤ i ∧ i ≤ MAX_TICK := by
    obtain ⟨i, b, _, hr, ⟨_, e⟩ | ⟨_, e⟩⟩ := getCloserLimit_inv h1
    · intro j b' hj
      rw [e] at hj
      simp only [Option.some.injEq, Prod.mk.injEq] at hj
      rw [← hj.1]; exact hr
    · intro j b' hj
      rw [e] at hj
      cases hj
  have c3 := tickUpdOf_sim ha hlt h7
  have hpush := pushCrossed_sim (ticks := st.ticks) e2
  have hlen : (pushCrossed st.ticks u.upd u.crossed).length ≤ MAX_TICK_CROSS ∨
      (u.crossed = true ∧ MAX_TICK_CROSS < (pushCrossed st.ticks u.upd u.crossed).length) := by
    cases hcr : u.crossed with
    | false =>
      have e1 : pushCrossed st.ticks u.upd false = st.ticks := by cases u.upd <;> rfl
      rw [e1]; exact .inl hr.short
    | true =>
      rcases Nat.lt_or_ge MAX_TICK_CROSS (pushCrossed st.ticks u.upd true).length with h | h
      · exact .inr ⟨rfl, h⟩
      · exact .inl h
  have hfin : ¬ reachedTickLimit pr.xToY pr.key.tier.spacing u.pool.toSim.tick = true := by
    simpa [Pool.toSim] using h9
  have hfee := hr.feeLe
  unfold simIter
  simp only [c1, c2, ok_bind, b1]
  cases hb : pr.byAmountIn
  all_goals
    simp only [hb, Bool.false_eq_true, if_false, if_true] at b6 e1 ⊢
    rw [b6]
    simp only [ok_bind, b2, b3, b4]
    rw [if_neg h6]
    simp only [c3, hr.pool, hr.crossed]
    rw [e1]
    simp only [ok_bind, b5]
    rw [hpush]
    simp only [List.length_map]
    rcases hlen with hlen | ⟨hc, hlen⟩
    · rw [if_neg (by omega), if_neg hfin]
      refine ⟨_, false, rfl, .inr ⟨rfl, ?_⟩⟩
      exact ⟨rfl, rfl, rfl, rfl, rfl, rfl, hr.insufficient, hr.outdated, hr.maxCrossed, hlen, by
        show st.fee + r.feeAmount ≤ st.totalIn + (r.amountIn + r.feeAmount) + u.total
        omega⟩
    · rw [if_pos ⟨hc, hlen⟩]
      exact ⟨_, true, rfl, .inl ⟨rfl, rfl, hlen⟩⟩

theorem swapIter_ticks {s : Store} {pr : SwapParams} {st st' : SwapState} (h : swapIter s pr st = .ok st') :
    st.ticks.length ≤ st'.ticks.length := by
  obtain ⟨cl, r, cfg, p1, upd, u, rem, h1, h2, h3, _, h5, h6, h7, h8, h9, h10, h11, rfl⟩ := swapIter_inv h
  simp only
  unfold pushCrossed
  split <;> simp

theorem swapLoop_ticks {s : Store} {pr : SwapParams} : ∀ {n : Nat} {st st' : SwapState}, swapLoop s pr n st = .ok st' →
    st.ticks.length ≤ st'.ticks.length
  | 0, st, st', h => by
    simp only [swapLoop] at h
    split at h
    · rw [ok_inj] at h; exact Nat.le_of_eq (by rw [h])
    · cases h
  | n + 1, st, st', h => by
    simp only [swapLoop] at h
    split at h
    · rw [ok_inj] at h; exact Nat.le_of_eq (by rw [h])
    · simp only [bind_ok] at h
      obtain ⟨x, h1, h2⟩ := h
      exact Nat.le_trans (swapIter_ticks h1) (swapLoop_ticks h2)

theorem swapLoop_sim {s : Store} {pr : SwapParams} {bm : Nat → Nat} (hbm : ∀ c, c ≤ getMaxChunk pr.key.tier.spacing → bm c = getChunk s pr.key c)
    {ticks : List LTick} (ha : TicksAgree s pr.key ticks) :
    ∀ {n : Nat} {st st' : SwapState} {sst : SimState}, SimRel st sst → swapLoop s pr n st = .ok st' →
    ∃ sst', simLoop bm pr.key.tier ticks pr.xToY pr.byAmountIn pr.limit n sst = .ok sst' ∧
      ((sst'.maxCrossed = true ∧ MAX_TICK_CROSS < st'.ticks.length) ∨ SimRel st' sst')
  | 0, st, st', sst, hr, h => by
    simp only [swapLoop] at h
    simp only [simLoop]
    split at h
    · rename_i h0
      rw [ok_inj] at h
      rw [if_pos (by rw [hr.remaining]; exact h0)]
      exact ⟨sst, rfl, .inr (h ▸ hr)⟩
    · cases h
  | n + 1, st, st', sst, hr, h => by
    simp only [swapLoop] at h
    simp only [simLoop]
    split at h
    · rename_i h0
      rw [ok_inj] at h
      rw [if_pos (by rw [hr.remaining]; exact h0)]
      exact ⟨sst, rfl, .inr (h ▸ hr)⟩
    · rename_i h0
      rw [if_neg (by rw [hr.remaining]; exact h0)]
      simp only [bind_ok] at h
      obtain ⟨x, h1, h2⟩ := h
      obtain ⟨y, brk, h3, ⟨rfl, hm, hl⟩ | ⟨rfl, hr'⟩⟩ := swapIter_sim hbm ha hr h1
      · rw [h3]
        exact ⟨y, rfl, .inl ⟨hm, Nat.lt_of_lt_of_le hl (swapLoop_ticks h2)⟩⟩
      · rw [h3]
        exact swapLoop_sim hbm ha hr' h2

end OraiV3
