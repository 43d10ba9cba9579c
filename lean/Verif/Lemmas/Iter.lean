import Verif.Lemmas.StepDir
import Verif.Lemmas.TickOfPrice
import Verif.Lemmas.Search

/-!
# One iteration of the swap loop: the tick aimed at, the price reached, the new tick
-/

namespace OraiV3

/-! ## Multiples of the spacing -/

theorem TickOk.dvd {ts : Nat} {t : Int} (h : TickOk ts t) : (ts : Int) ∣ t :=
  Int.dvd_of_tmod_eq_zero (TickOk_iff.1 h).2.1

theorem TickOk.pos {ts : Nat} {t : Int} (h : TickOk ts t) : 0 < ts := by have := (TickOk_iff.1 h).1; omega

theorem tickOk_of_dvd {ts : Nat} {t : Int} (h0 : 0 < ts) (hd : (ts : Int) ∣ t) (h1 : -getMaxTick ts ≤ t)
    (h2 : t ≤ getMaxTick ts) : TickOk ts t :=
  TickOk_iff.2 ⟨by omega, Int.tmod_eq_zero_of_dvd hd, h1, h2⟩

theorem dvd_maxTick (ts : Nat) : (ts : Int) ∣ getMaxTick ts := by
  rw [getMaxTick_half]; exact Int.dvd_mul_left _ _

theorem dvd_lt_step {ts : Nat} {a b : Int} (_ : 0 < ts) (ha : (ts : Int) ∣ a) (hb : (ts : Int) ∣ b) (h : a < b) :
    a + ts ≤ b := by
  have hd : (ts : Int) ∣ b - a := Int.dvd_sub hb ha
  have := Int.le_of_dvd (by omega) hd
  omega

theorem dvd_le_max {ts : Nat} {a : Int} (h0 : 0 < ts) (ha : (ts : Int) ∣ a) (h : a ≤ MAX_TICK) : a ≤ getMaxTick ts := by
  by_contra hc
  have h1 := dvd_lt_step h0 (dvd_maxTick ts) ha (by omega)
  have h2 := (halfTicks_spec h0).2
  have h3 : ((221818 : Nat) : Int) < (((halfTicks ts + 1) * ts : Nat) : Int) := by exact_mod_cast h2
  rw [getMaxTick_half] at h1
  rw [Nat.cast_mul, Nat.cast_add, Int.add_mul] at h3
  have hM : MAX_TICK = 221818 := rfl
  push_cast at h3
  omega

theorem TickOk.add {ts : Nat} {t : Int} (h : TickOk ts t) (hl : t < getMaxTick ts) : TickOk ts (t + ts) := by
  have := (TickOk_iff.1 h)
  exact tickOk_of_dvd h.pos (Int.dvd_add h.dvd (Int.dvd_refl _)) (by omega)
    (dvd_lt_step h.pos h.dvd (dvd_maxTick ts) hl)

theorem TickOk.sub {ts : Nat} {t : Int} (h : TickOk ts t) (hl : -getMaxTick ts < t) : TickOk ts (t - ts) := by
  have := (TickOk_iff.1 h)
  have h2 := dvd_lt_step h.pos (Int.dvd_neg.2 (dvd_maxTick ts)) h.dvd hl
  exact tickOk_of_dvd h.pos (Int.dvd_sub h.dvd (Int.dvd_refl _)) (by omega) (by omega)

theorem maxTick_ok {ts : Nat} (h : 0 < ts) : TickOk ts (getMaxTick ts) := by
  have := getMaxTick_bounds ts
  exact tickOk_of_dvd h (dvd_maxTick ts) (by omega) (by omega)

theorem minTick_ok {ts : Nat} (h : 0 < ts) : TickOk ts (-getMaxTick ts) := by
  have := getMaxTick_bounds ts
  exact tickOk_of_dvd h (Int.dvd_neg.2 (dvd_maxTick ts)) (by omega) (by omega)

theorem TickOk.price_le {ts : Nat} {a b : Int} (ha : TickOk ts a) (hb : TickOk ts b) (h : a ≤ b) :
    sqrtPriceAt a ≤ sqrtPriceAt b := sqrtPriceAt_le ha.range.1 hb.range.2 h

theorem TickOk.price_lt {ts : Nat} {a b : Int} (ha : TickOk ts a) (hb : TickOk ts b) (h : a < b) :
    sqrtPriceAt a < sqrtPriceAt b := sqrtPriceAt_lt ha.range.1 hb.range.2 h

theorem TickOk.price_inj {ts : Nat} {a b : Int} (ha : TickOk ts a) (hb : TickOk ts b)
    (h : sqrtPriceAt a = sqrtPriceAt b) : a = b := by
  rcases lt_trichotomy a b with h1 | h1 | h1
  · have := ha.price_lt hb h1; omega
  · exact h1
  · have := hb.price_lt ha h1; omega

/-! ## The tick aimed at -/

/-- What `get_closer_limit` returns. -/
theorem closer_far {bm : Nat → Nat} (hbm : ∀ c, bm c < 2 ^ 64) {limit : Nat} {d : Bool} {cur : Int} {ts : Nat}
    {cl : Nat × Option (Int × Bool)} (hc : TickOk ts cur) (h : getCloserLimit bm limit d cur ts = .ok cl) :
    ∃ i b, TickOk ts i ∧ (if d then i ≤ cur else cur < i) ∧ (b = true ↔ tickSet bm ts i) ∧
      (b = false → i ≠ cur) ∧
      (b = false → if d then i + 256 * ts ≤ cur ∨ i = -getMaxTick ts else cur + 256 * ts ≤ i ∨ i = getMaxTick ts) ∧
      (∀ j, TickOk ts j → (if d then i < j ∧ j ≤ cur else cur < j ∧ j < i) → ¬ tickSet bm ts j) ∧
      (((if d then limit < sqrtPriceAt i else sqrtPriceAt i < limit) ∧ cl = (sqrtPriceAt i, some (i, b))) ∨
       ((if d then sqrtPriceAt i ≤ limit else limit ≤ sqrtPriceAt i) ∧ cl = (limit, none))) := by
  obtain ⟨i, b, h1, -, h2⟩ := getCloserLimit_inv h
  refine ⟨i, b, ?_⟩
  cases d
  · simp only [Bool.false_eq_true, if_false, Bool.not_false] at h1 h2 ⊢
    obtain ⟨r, e, hr⟩ := nextInitialized_spec hbm hc
    rcases h1 with ⟨rfl, h1⟩ | ⟨rfl, h1, h3, h4⟩
    · rw [e, ok_inj] at h1
      subst h1
      obtain ⟨a1, a2, a3, a4, a5⟩ := hr
      exact ⟨a3, a1, ⟨fun _ => a4, fun _ => rfl⟩, (by simp), (by simp), fun j hj hj2 => a5 j hj hj2.1 hj2.2, h2⟩
    · rw [e, ok_inj] at h1
      subst h1
      rw [getSearchLimit_up hc, ok_inj] at h3
      subst h3
      have hlt : cur < min (cur + 256 * ts) (getMaxTick ts) := by
        have h5 := (TickOk_iff.1 hc).2.2.2
        have := hc.pos
        omega
      refine ⟨upLimit_ok hc, hlt, ⟨by simp, fun hh => ?_⟩, fun _ => Ne.symm h4, fun _ => by omega, fun j hj hj2 => ?_, h2⟩
      · exact absurd hh (hr _ (upLimit_ok hc) hlt (Int.le_refl _))
      · exact hr j hj hj2.1 (by omega)
  · simp only [if_true, Bool.not_true] at h1 h2 ⊢
    obtain ⟨r, e, hr⟩ := prevInitialized_spec (bm := bm) hc
    rcases h1 with ⟨rfl, h1⟩ | ⟨rfl, h1, h3, h4⟩
    · rw [e, ok_inj] at h1
      subst h1
      obtain ⟨a1, a2, a3, a4, a5⟩ := hr
      exact ⟨a3, a1, ⟨fun _ => a4, fun _ => rfl⟩, (by simp), (by simp), fun j hj hj2 => a5 j hj hj2.1 hj2.2, h2⟩
    · rw [e, ok_inj] at h1
      subst h1
      rw [getSearchLimit_down hc, ok_inj] at h3
      subst h3
      have hlt : max (cur - 256 * ts) (-getMaxTick ts) ≤ cur := by
        have h5 := (TickOk_iff.1 hc).2.2.1
        omega
      refine ⟨downLimit_ok hc, hlt, ⟨by simp, fun hh => ?_⟩, fun _ => Ne.symm h4, fun _ => by omega, fun j hj hj2 => ?_, h2⟩
      · exact absurd hh (hr _ (downLimit_ok hc) hlt (Int.le_refl _))
      · exact hr j hj hj2.2 (by omega)

theorem closer_view {bm : Nat → Nat} (hbm : ∀ c, bm c < 2 ^ 64) {limit : Nat} {d : Bool} {cur : Int} {ts : Nat}
    {cl : Nat × Option (Int × Bool)} (hc : TickOk ts cur) (h : getCloserLimit bm limit d cur ts = .ok cl) :
    ∃ i b, TickOk ts i ∧ (if d then i ≤ cur else cur < i) ∧ (b = true ↔ tickSet bm ts i) ∧
      (b = false → i ≠ cur) ∧
      (∀ j, TickOk ts j → (if d then i < j ∧ j ≤ cur else cur < j ∧ j < i) → ¬ tickSet bm ts j) ∧
      (((if d then limit < sqrtPriceAt i else sqrtPriceAt i < limit) ∧ cl = (sqrtPriceAt i, some (i, b))) ∨
       ((if d then sqrtPriceAt i ≤ limit else limit ≤ sqrtPriceAt i) ∧ cl = (limit, none))) := by
  obtain ⟨i, b, a1, a2, a3, a4, -, a5, a6⟩ := closer_far hbm hc h
  exact ⟨i, b, a1, a2, a3, a4, a5, a6⟩

/-! ## The price reached -/

/-- Not enough to move the price when nothing is left, unless there is no liquidity. -/
theorem enough_zero {p L fee : Nat} {b d e : Bool} (h : isEnoughAmountToChangePrice 0 p L fee b d = .ok e)
    (hL : L ≠ 0) : d = true → e = false := by
  intro hd
  subst hd
  unfold isEnoughAmountToChangePrice at h
  rw [if_neg hL] at h
  cases b
  · simp only [Bool.false_eq_true, if_false, bind_ok, pure_ok] at h
    obtain ⟨q, h1, rfl⟩ := h
    unfold nextSqrtPriceFromOutput at h1
    simp only [if_true] at h1
    obtain ⟨h2, -, h3⟩ := yDown_sub h1
    have : q = p := by
      by_contra hc
      have : L ≤ (p - q) * L := Nat.le_mul_of_pos_left _ (by omega)
      omega
    simp [this]
  · simp only [if_true] at h
    rw [bind_ok] at h
    obtain ⟨a, h1, h⟩ := h
    rw [bind_ok] at h
    obtain ⟨q, h2, h⟩ := h
    rw [pure_ok] at h
    subst h
    obtain ⟨-, rfl, -⟩ := amountAfterFee_inv h1
    rw [Nat.zero_mul, Nat.zero_div] at h2
    unfold nextSqrtPriceFromInput nextSqrtPriceXUp at h2
    simp only [if_true, ok_inj] at h2
    simp [h2]

/-- The bounds on the price reached by a step towards a target in the direction of the swap. -/
theorem step_price {cur target L amount fee : Nat} {b d : Bool} {r : SwapResult}
    (h : computeSwapStep cur target L amount b fee = .ok r) (hd : if d then target ≤ cur else cur < target)
    (hc : SPR ≤ cur * cur) :
    (if d then r.nextPrice ≤ cur ∧ (r.nextPrice < target → b = true ∧ L ≠ 0 ∧ (target - r.nextPrice) * cur < SPR)
      else cur ≤ r.nextPrice ∧ r.nextPrice ≤ target) ∧
    (b = true → r.nextPrice ≠ target → r.amountIn + r.feeAmount = amount) := by
  by_cases hL : L = 0
  · unfold computeSwapStep at h
    rw [if_pos hL, ok_inj] at h
    subst h
    refine ⟨?_, fun _ h => absurd rfl h⟩
    cases d
    · simp only [Bool.false_eq_true, if_false] at hd ⊢; omega
    · simp only [if_true] at hd ⊢; exact ⟨hd, fun h => absurd h (Nat.lt_irrefl _)⟩
  · obtain ⟨h1, h2, h3, h4⟩ := step_view h hL
    have hdd : decide (cur ≥ target) = d := by
      cases d
      · simp only [Bool.false_eq_true, if_false] at hd; simp; omega
      · simp only [if_true] at hd; simp; omega
    rw [hdd] at h1
    refine ⟨?_, ?_⟩
    · cases d
      · simp only [Bool.false_eq_true, if_false] at hd ⊢
        cases b
        · simp only [Bool.false_eq_true, if_false] at h1
          exact next_out_yx h1 hd hc
        · simp only [if_true] at h1
          have := next_in_yx h1 hd
          exact ⟨this.1, this.2.1⟩
      · simp only [if_true] at hd ⊢
        cases b
        · simp only [Bool.false_eq_true, if_false] at h1
          have := next_out_xy h1 hd
          exact ⟨this.2, fun h => by omega⟩
        · simp only [if_true] at h1
          have := next_in_xy h1 hL hd hc
          exact ⟨this.1, fun h => ⟨rfl, hL, this.2 h⟩⟩
    · intro hb hne
      rw [if_pos ⟨hb, hne⟩] at h4
      omega

/-! ## One iteration -/

theorem BitInv.isSome {s : Store} (hb : BitInv s) {k : PoolKey} (hk : k.wf) (hv : k.tier.Valid) {i : Int}
    (hi : TickOk k.tier.spacing i) :
    tickSet (getChunk s k) k.tier.spacing i ↔ (s.ticks.get? (tickKey k i)).isSome = true := by
  obtain ⟨h0, hq, h1, h2⟩ := hi.bits
  unfold tickSet
  rw [hb.bit k _ hk (by omega) hv.2.1 (bitOfTick_lt h2), tickOfBit_bitOfTick hq h1]

/-- The price an iteration aims at: the nearer of the tick and the limit. -/
def stepTarget (d : Bool) (p limit : Nat) : Nat := if d then max p limit else min p limit

/-- What an iteration does after the price has been computed. -/
inductive IterEnd (s : Store) (pr : SwapParams) (i : Int) (ini : Bool) (r : SwapResult) (pf : Nat) (p1 : Pool)
    (rem : Nat) (u : TickUpdRes) : Prop where
  /-- the tick is recomputed from the price -/
  | between (t : Int) : (r.nextPrice ≠ sqrtPriceAt i ∨ if pr.xToY then sqrtPriceAt i ≤ pr.limit else pr.limit ≤ sqrtPriceAt i) →
      getTickAtSqrtPrice r.nextPrice pr.key.tier.spacing = .ok t →
      (∃ upd, u = ⟨{ p1 with tick := t }, upd, 0, rem, false⟩) → IterEnd s pr i ini r pf p1 rem u
  /-- an empty tick is reached -/
  | empty (e : Bool) : r.nextPrice = sqrtPriceAt i → ini = false → r.nextPrice ≠ pr.limit →
      isEnoughAmountToChangePrice rem r.nextPrice p1.liquidity pr.key.tier.fee pr.byAmountIn pr.xToY = .ok e →
      u = ⟨{ p1 with tick := if pr.xToY && e then i - pr.key.tier.spacing else i }, .uninit i, 0, rem, false⟩ →
      IterEnd s pr i ini r pf p1 rem u
  /-- a tick is crossed -/
  | cross (e : Bool) (t : Tick) (tp : Tick × Pool) : r.nextPrice = sqrtPriceAt i → ini = true →
      r.nextPrice ≠ pr.limit →
      isEnoughAmountToChangePrice rem r.nextPrice p1.liquidity pr.key.tier.fee pr.byAmountIn pr.xToY = .ok e →
      s.ticks.get? (tickKey pr.key i) = some t → t.index = i → (pr.xToY = true → e = true) →
      t.cross p1 pr.now = .ok tp →
      u = ⟨{ tp.2 with tick := if pr.xToY && e then i - pr.key.tier.spacing else i }, .init tp.1, 0, rem, true⟩ →
      IterEnd s pr i ini r pf p1 rem u
  /-- a tick is reached from above and the rest is too little to go on -/
  | stop (t : Tick) : r.nextPrice = sqrtPriceAt i → ini = true → r.nextPrice ≠ pr.limit → pr.xToY = true →
      isEnoughAmountToChangePrice rem r.nextPrice p1.liquidity pr.key.tier.fee pr.byAmountIn pr.xToY = .ok false →
      s.ticks.get? (tickKey pr.key i) = some t → t.index = i →
      ((rem ≠ 0 ∧ pr.byAmountIn = true ∧ ∃ p, p1.addFee rem true pf = .ok p ∧
        u = ⟨{ p with tick := i }, .init t, rem, 0, false⟩) ∨
       ((rem = 0 ∨ pr.byAmountIn = false) ∧ u = ⟨{ p1 with tick := i }, .init t, 0, 0, false⟩)) →
      IterEnd s pr i ini r pf p1 rem u

/-- One successful iteration of the swap loop. -/
structure IterView (s : Store) (pr : SwapParams) (st st' : SwapState) (i : Int) (ini : Bool) (r : SwapResult)
    (cfg : Config) (p1 : Pool) (rem : Nat) (u : TickUpdRes) : Prop where
  ok : TickOk pr.key.tier.spacing i
  dir : if pr.xToY then i ≤ st.pool.tick else st.pool.tick < i
  set : (s.ticks.get? (tickKey pr.key i)).isSome = ini
  self : ini = false → i ≠ st.pool.tick
  far : ini = false → if pr.xToY then i + 256 * pr.key.tier.spacing ≤ st.pool.tick ∨ i = -getMaxTick pr.key.tier.spacing
    else st.pool.tick + 256 * pr.key.tier.spacing ≤ i ∨ i = getMaxTick pr.key.tier.spacing
  gap : ∀ j, TickOk pr.key.tier.spacing j →
    (if pr.xToY then i < j ∧ j ≤ st.pool.tick else st.pool.tick < j ∧ j < i) →
    s.ticks.get? (tickKey pr.key j) = none
  step : computeSwapStep st.pool.sqrtPrice (stepTarget pr.xToY (sqrtPriceAt i) pr.limit) st.pool.liquidity
    st.remaining pr.byAmountIn pr.key.tier.fee = .ok r
  rest : if pr.byAmountIn then r.amountIn + r.feeAmount ≤ st.remaining ∧
      rem = st.remaining - (r.amountIn + r.feeAmount)
    else r.amountOut ≤ st.remaining ∧ rem = st.remaining - r.amountOut
  conf : s.config = some cfg
  fee : ∃ p0, st.pool.addFee r.feeAmount pr.xToY cfg.protocolFee = .ok p0 ∧ p1 = { p0 with sqrtPrice := r.nextPrice }
  lim : ¬ (r.nextPrice = pr.limit ∧ rem ≠ 0)
  fin : IterEnd s pr i ini r cfg.protocolFee p1 rem u
  inside : reachedTickLimit pr.xToY pr.key.tier.spacing u.pool.tick = false
  inLt : st'.totalIn < U128
  outLt : st'.totalOut < U128
  eq : st' = { pool := u.pool, remaining := u.remaining,
               totalIn := st.totalIn + (r.amountIn + r.feeAmount) + u.total,
               totalOut := st.totalOut + r.amountOut, fee := st.fee + r.feeAmount,
               ticks := pushCrossed st.ticks u.upd u.crossed }

/-- The next tick an iteration looks at, as the search finds it. -/
structure Closer (s : Store) (pr : SwapParams) (cur : Int) (cl : Nat × Option (Int × Bool)) (i : Int) (b : Bool) : Prop where
  ok : TickOk pr.key.tier.spacing i
  dir : if pr.xToY then i ≤ cur else cur < i
  set : b = true ↔ tickSet (getChunk s pr.key) pr.key.tier.spacing i
  self : b = false → i ≠ cur
  far : b = false → if pr.xToY then i + 256 * pr.key.tier.spacing ≤ cur ∨ i = -getMaxTick pr.key.tier.spacing
    else cur + 256 * pr.key.tier.spacing ≤ i ∨ i = getMaxTick pr.key.tier.spacing
  gap : ∀ j, TickOk pr.key.tier.spacing j → (if pr.xToY then i < j ∧ j ≤ cur else cur < j ∧ j < i) →
    ¬ tickSet (getChunk s pr.key) pr.key.tier.spacing j
  eq : ((if pr.xToY then pr.limit < sqrtPriceAt i else sqrtPriceAt i < pr.limit) ∧ cl = (sqrtPriceAt i, some (i, b))) ∨
    ((if pr.xToY then sqrtPriceAt i ≤ pr.limit else pr.limit ≤ sqrtPriceAt i) ∧ cl = (pr.limit, none))

theorem iter_view_of {s : Store} {pr : SwapParams} {st st' : SwapState} (hs : Struct s) (hb : BitInv s)
    (hk : pr.key.wf) (hv : pr.key.tier.Valid) {cl : Nat × Option (Int × Bool)} {i : Int} {b : Bool}
    (hcl : getCloserLimit (getChunk s pr.key) pr.limit pr.xToY st.pool.tick pr.key.tier.spacing = .ok cl)
    (hcv : Closer s pr st.pool.tick cl i b)
    (h : swapIter s pr st = .ok st') : ∃ r cfg p1 rem u, IterView s pr st st' i b r cfg p1 rem u := by
  obtain ⟨cl', r, cfg, pool1, upd, u, rem, h1, h2, h3, h4, h5, h6, h7, h8, h9, h10, h11, h12⟩ := swapIter_inv h
  rw [hcl, ok_inj] at h1
  subst h1
  obtain ⟨a1, a2, a3, a4, a4', a5, a6⟩ := hcv
  rw [hb.isSome hk hv a1] at a3
  have hini : (s.ticks.get? (tickKey pr.key i)).isSome = b := by
    cases b
    · cases hx : (s.ticks.get? (tickKey pr.key i)).isSome
      · rfl
      · exact absurd (a3.2 hx) (by simp)
    · exact a3.1 rfl
  have htc : cl.1 = stepTarget pr.xToY (sqrtPriceAt i) pr.limit := by
    unfold stepTarget
    cases hd : pr.xToY <;> simp only [hd, Bool.false_eq_true, if_false, if_true] at a6 ⊢ <;>
    · rcases a6 with ⟨a, rfl⟩ | ⟨a, rfl⟩ <;> simp only <;> omega
  refine ⟨r, cfg, _, rem, u, a1, a2, hini, a4, a4', ?_, by rw [← htc]; exact h2, h3, h4, ⟨pool1, h5, rfl⟩, h6, ?_,
    h9, h10, h11, h12⟩
  · intro j hj hjj
    have := a5 j hj hjj
    rw [hb.isSome hk hv hj] at this
    simpa using this
  · rcases a6 with ⟨b1, b2⟩ | ⟨b1, b2⟩
    · rw [b2] at h7 h8
      have hnl : sqrtPriceAt i ≠ pr.limit := by
        cases hd : pr.xToY <;> simp only [hd, Bool.false_eq_true, if_false, if_true] at b1 <;> omega
      rcases updateTick_inv h8 with ⟨c1, t, c2, c3⟩ | ⟨c1, e, c2, ⟨j, c3, c4⟩ | ⟨t, c3, c4⟩⟩
      · rcases c1 with c1 | c1
        · rcases tickUpdOf_inv h7 with ⟨d1, d2⟩ | ⟨i', t', d1, d2, d3⟩ | ⟨i', d1, d2⟩
          · simp at d1
          · rw [c1] at d3; simp at d3
          · rw [c1] at d2; simp at d2
        · exact .between t (.inl (Ne.symm c1)) c2 ⟨_, c3⟩
      · simp only at c1
        rcases tickUpdOf_inv h7 with ⟨d1, d2⟩ | ⟨i', t', d1, d2, d3⟩ | ⟨i', d1, d2⟩
        · simp at d1
        · rw [c3] at d3; simp at d3
        · simp only [Option.some.injEq, Prod.mk.injEq] at d1
          rw [c3, TickUpd.uninit.injEq] at d2
          obtain ⟨rfl, rfl⟩ := d1
          subst d2
          rw [c3] at c4
          exact .empty e c1.symm rfl (by rw [← c1]; exact hnl) c2 c4
      · simp only at c1
        rcases tickUpdOf_inv h7 with ⟨d1, d2⟩ | ⟨i', t', d1, d2, d3⟩ | ⟨i', d1, d2⟩
        · simp at d1
        · simp only [Option.some.injEq, Prod.mk.injEq] at d1
          rw [c3, TickUpd.init.injEq] at d3
          obtain ⟨rfl, rfl⟩ := d1
          subst d3
          have hti := (hs.tick hk a1.i32 d2).1
          rcases c4 with ⟨e1, tp, e2, e3⟩ | ⟨e1, e2, e3, e4, p, e5, e6⟩ | ⟨e1, e2, e3, e4⟩
          · rw [hti] at e3
            refine .cross e t tp c1.symm rfl (by rw [← c1]; exact hnl) c2 d2 hti (fun hd => ?_) e2 e3
            rw [hd] at e1; simpa using e1
          · subst e2
            rw [hti] at e6
            rw [e1] at e5
            rw [c3] at e6
            exact .stop t c1.symm rfl (by rw [← c1]; exact hnl) e1 c2 d2 hti (.inl ⟨e3, e4, p, e5, e6⟩)
          · subst e2
            rw [hti] at e4
            rw [c3] at e4
            exact .stop t c1.symm rfl (by rw [← c1]; exact hnl) e1 c2 d2 hti (.inr ⟨e3, e4⟩)
        · rw [c3] at d2; simp at d2
    · rw [b2] at h7 h8
      have hu : upd = .noTick := by
        rcases tickUpdOf_inv h7 with ⟨d1, d2⟩ | ⟨i', t', d1, d2, d3⟩ | ⟨i', d1, d2⟩
        · exact d2
        · simp at d1
        · simp at d1
      rcases updateTick_inv h8 with ⟨c1, t, c2, c3⟩ | ⟨c1, e, c2, ⟨j, c3, c4⟩ | ⟨t, c3, c4⟩⟩
      · exact .between t (.inr b1) c2 ⟨_, c3⟩
      · rw [c3] at hu; simp at hu
      · rw [c3] at hu; simp at hu

theorem iter_view {s : Store} {pr : SwapParams} {st st' : SwapState} (hs : Struct s) (hb : BitInv s)
    (hk : pr.key.wf) (hv : pr.key.tier.Valid) (hc : TickOk pr.key.tier.spacing st.pool.tick)
    (h : swapIter s pr st = .ok st') : ∃ i ini r cfg p1 rem u, IterView s pr st st' i ini r cfg p1 rem u := by
  obtain ⟨cl, _, _, _, _, _, _, h1, _⟩ := swapIter_inv h
  obtain ⟨i, b, a1, a2, a3, a4, a4', a5, a6⟩ := closer_far (hb.chunk pr.key) hc h1
  exact ⟨i, b, iter_view_of hs hb hk hv h1 ⟨a1, a2, a3, a4, a4', a5, a6⟩ h⟩

/-- Two iterations from the same tick look at the same next tick. -/
theorem iter_view_two {s : Store} {pr : SwapParams} {st st' w w' : SwapState} (hs : Struct s) (hb : BitInv s)
    (hk : pr.key.wf) (hv : pr.key.tier.Valid) (hc : TickOk pr.key.tier.spacing st.pool.tick) (ht : w.pool.tick = st.pool.tick)
    (h : swapIter s pr st = .ok st') (h' : swapIter s pr w = .ok w') :
    ∃ i ini, (∃ r cfg p1 rem u, IterView s pr st st' i ini r cfg p1 rem u) ∧
      (∃ r cfg p1 rem u, IterView s pr w w' i ini r cfg p1 rem u) := by
  obtain ⟨cl, _, _, _, _, _, _, h1, _⟩ := swapIter_inv h
  obtain ⟨i, b, a1, a2, a3, a4, a4', a5, a6⟩ := closer_far (hb.chunk pr.key) hc h1
  have hcv : Closer s pr st.pool.tick cl i b := ⟨a1, a2, a3, a4, a4', a5, a6⟩
  exact ⟨i, b, iter_view_of hs hb hk hv h1 hcv h, iter_view_of hs hb hk hv (by rw [ht]; exact h1) (by rw [ht]; exact hcv) h'⟩

end OraiV3
