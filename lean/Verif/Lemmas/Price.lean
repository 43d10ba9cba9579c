import Verif.Lemmas.Iter

/-!
# Price and tick of a pool agree in every reachable state
-/

namespace OraiV3

/-- The price of the pool lies in the tick range `[tick, tick + spacing)`. -/
structure PoolOk (ts : Nat) (p : Pool) : Prop where
  tick : TickOk ts p.tick
  lo : sqrtPriceAt p.tick ≤ p.sqrtPrice
  hi : p.tick < getMaxTick ts → p.sqrtPrice < sqrtPriceAt (p.tick + ts)
  top : p.tick = getMaxTick ts → p.sqrtPrice = sqrtPriceAt (getMaxTick ts)

/-- The same inside the loop: going down, the upper bound may be attained while there is something left. -/
structure LoopOk (d : Bool) (ts limit : Nat) (p : Pool) (rem : Nat) : Prop where
  tick : TickOk ts p.tick
  lo : sqrtPriceAt p.tick ≤ p.sqrtPrice
  hi : p.tick < getMaxTick ts → p.sqrtPrice ≤ sqrtPriceAt (p.tick + ts)
  hi' : p.tick < getMaxTick ts → rem = 0 ∨ d = false → p.sqrtPrice < sqrtPriceAt (p.tick + ts)
  top : p.tick = getMaxTick ts → p.sqrtPrice = sqrtPriceAt (getMaxTick ts)
  lim : rem ≠ 0 → if d then limit < p.sqrtPrice else p.sqrtPrice < limit

theorem TickOk.price_min {ts : Nat} {t : Int} (h : TickOk ts t) : MIN_SQRT_PRICE ≤ sqrtPriceAt t :=
  (sqrtPriceAt_range h.range.1 h.range.2).1

theorem TickOk.price_max {ts : Nat} {t : Int} (h : TickOk ts t) : sqrtPriceAt t ≤ MAX_SQRT_PRICE :=
  (sqrtPriceAt_range h.range.1 h.range.2).2

theorem sq_ge {p : Nat} (h : MIN_SQRT_PRICE ≤ p) : SPR ≤ p * p := by
  have h1 : SPR ≤ MIN_SQRT_PRICE * MIN_SQRT_PRICE := by decide +kernel
  exact Nat.le_trans h1 (Nat.mul_le_mul h h)

theorem LoopOk.min {d : Bool} {ts limit : Nat} {p : Pool} {rem : Nat} (h : LoopOk d ts limit p rem) :
    MIN_SQRT_PRICE ≤ p.sqrtPrice := Nat.le_trans h.tick.price_min h.lo

theorem LoopOk.le_top {d : Bool} {ts limit : Nat} {p : Pool} {rem : Nat} (h : LoopOk d ts limit p rem) :
    p.sqrtPrice ≤ sqrtPriceAt (getMaxTick ts) := by
  have h1 := (TickOk_iff.1 h.tick).2.2.2
  rcases Int.lt_or_eq_of_le h1 with h2 | h2
  · have h3 := h.hi h2
    have h4 := (h.tick.add h2).price_le (maxTick_ok h.tick.pos) (TickOk_iff.1 (h.tick.add h2)).2.2.2
    omega
  · exact Nat.le_of_eq (h.top h2)

theorem PoolOk.min {ts : Nat} {p : Pool} (h : PoolOk ts p) : MIN_SQRT_PRICE ≤ p.sqrtPrice :=
  Nat.le_trans h.tick.price_min h.lo

theorem PoolOk.le_top {ts : Nat} {p : Pool} (h : PoolOk ts p) : p.sqrtPrice ≤ sqrtPriceAt (getMaxTick ts) := by
  have h1 := (TickOk_iff.1 h.tick).2.2.2
  rcases Int.lt_or_eq_of_le h1 with h2 | h2
  · have h3 := h.hi h2
    have h4 := (h.tick.add h2).price_le (maxTick_ok h.tick.pos) (TickOk_iff.1 (h.tick.add h2)).2.2.2
    omega
  · exact Nat.le_of_eq (h.top h2)

theorem PoolOk.max {ts : Nat} {p : Pool} (h : PoolOk ts p) : p.sqrtPrice ≤ MAX_SQRT_PRICE :=
  Nat.le_trans h.le_top (maxTick_ok h.tick.pos).price_max

/-- The tick recomputed from a price. -/
theorem recomputed_ok {p ts : Nat} {t : Int} (h : getTickAtSqrtPrice p ts = .ok t) (h0 : 0 < ts)
    (hlo : sqrtPriceAt (-getMaxTick ts) ≤ p) (hhi : p ≤ sqrtPriceAt (getMaxTick ts)) :
    TickOk ts t ∧ sqrtPriceAt t ≤ p ∧ (t < getMaxTick ts → p < sqrtPriceAt (t + ts)) ∧
    (t = getMaxTick ts → p = sqrtPriceAt (getMaxTick ts)) := by
  obtain ⟨h1, h2, h3, h4, h5⟩ := getTick_bounds h
  have hb := getMaxTick_bounds ts
  have h6 := dvd_le_max h0 h1 h2
  have h7 : -getMaxTick ts ≤ t := by
    by_contra hc
    have h8 := dvd_lt_step h0 h1 (Int.dvd_neg.2 (dvd_maxTick ts)) (by omega)
    have h9 := h4 (by omega)
    have h10 := sqrtPriceAt_le (t := t + ts) (u := -getMaxTick ts) (by omega) (by omega) h8
    omega
  have hok := tickOk_of_dvd h0 h1 h7 h6
  have h9 := h3 hok.range.1
  refine ⟨hok, h9, fun hl => ?_, fun he => ?_⟩
  · exact h4 ((hok.add hl).range.2)
  · rw [he] at h9; omega

/-- The target of an iteration lies ahead. -/
theorem target_ahead {d : Bool} {ts limit : Nat} {p : Pool} {rem : Nat} {i : Int} (h : LoopOk d ts limit p rem)
    (hr : rem ≠ 0) (hi : TickOk ts i) (hd : if d then i ≤ p.tick else p.tick < i) :
    if d then stepTarget d (sqrtPriceAt i) limit ≤ p.sqrtPrice else p.sqrtPrice < stepTarget d (sqrtPriceAt i) limit := by
  have hl := h.lim hr
  cases d
  · simp only [Bool.false_eq_true, if_false, stepTarget] at hl hd ⊢
    have h1 := (TickOk_iff.1 hi).2.2.2
    have h2 := h.hi' (by omega) (.inr rfl)
    have h3 := (h.tick.add (by omega)).price_le hi (dvd_lt_step h.tick.pos h.tick.dvd hi.dvd hd)
    omega
  · simp only [if_true, stepTarget] at hl hd ⊢
    have h1 := hi.price_le h.tick hd
    have h2 := h.lo
    omega

theorem addFee_keep {pool p : Pool} {amount : Nat} {d : Bool} {pf : Nat} (h : pool.addFee amount d pf = .ok p) :
    p.liquidity = pool.liquidity ∧ p.sqrtPrice = pool.sqrtPrice ∧ p.tick = pool.tick := by
  obtain ⟨_, ⟨_, rfl⟩ | ⟨_, _, g, _, h⟩⟩ := Pool.addFee_inv h
  · exact ⟨rfl, rfl, rfl⟩
  · cases d
    · simp only [Bool.false_eq_true, if_false] at h; rw [h.2]; exact ⟨rfl, rfl, rfl⟩
    · simp only [if_true] at h; rw [h.2]; exact ⟨rfl, rfl, rfl⟩

/-- What the price does in an iteration. -/
theorem iter_price {s : Store} {pr : SwapParams} {st st' : SwapState} {i : Int} {ini : Bool} {r : SwapResult}
    {cfg : Config} {p1 : Pool} {rem : Nat} {u : TickUpdRes} (hv : IterView s pr st st' i ini r cfg p1 rem u)
    (h : LoopOk pr.xToY pr.key.tier.spacing pr.limit st.pool st.remaining) (hr : st.remaining ≠ 0) :
    if pr.xToY then r.nextPrice ≤ st.pool.sqrtPrice ∧
        (r.nextPrice < max (sqrtPriceAt i) pr.limit →
          rem = 0 ∧ pr.byAmountIn = true ∧ st.pool.liquidity ≠ 0 ∧
          (max (sqrtPriceAt i) pr.limit - r.nextPrice) * st.pool.sqrtPrice < SPR)
      else st.pool.sqrtPrice ≤ r.nextPrice ∧ r.nextPrice ≤ min (sqrtPriceAt i) pr.limit := by
  have h1 := step_price hv.step (target_ahead h hr hv.ok hv.dir) (sq_ge h.min)
  cases hd : pr.xToY
  · rw [hd] at h1
    simp only [Bool.false_eq_true, if_false, stepTarget] at h1 ⊢
    exact h1.1
  · rw [hd] at h1
    simp only [if_true, stepTarget] at h1 ⊢
    refine ⟨h1.1.1, fun hlt => ?_⟩
    obtain ⟨a1, a2, a3⟩ := h1.1.2 hlt
    have h2 := h1.2 a1 (by omega)
    have h3 := hv.rest
    rw [a1] at h3
    simp only [if_true] at h3
    exact ⟨by omega, a1, a2, a3⟩

theorem step_zero {cur target amount fee : Nat} {b : Bool} {r : SwapResult}
    (h : computeSwapStep cur target 0 amount b fee = .ok r) : r = ⟨target, 0, 0, 0⟩ := by
  unfold computeSwapStep at h
  rw [if_pos rfl, ok_inj] at h
  exact h.symm

/-- If there is enough to go below the tick, something is left. -/
theorem enough_rem {s : Store} {pr : SwapParams} {st st' : SwapState} {i : Int} {ini : Bool} {r : SwapResult}
    {cfg : Config} {p1 : Pool} {rem : Nat} {u : TickUpdRes} (hv : IterView s pr st st' i ini r cfg p1 rem u)
    (hr : st.remaining ≠ 0) (hd : pr.xToY = true)
    (he : isEnoughAmountToChangePrice rem r.nextPrice p1.liquidity pr.key.tier.fee pr.byAmountIn pr.xToY = .ok true) :
    rem ≠ 0 := by
  intro h0
  subst h0
  obtain ⟨p0, hp, rfl⟩ := hv.fee
  have hl := (addFee_keep hp).1
  by_cases hz : st.pool.liquidity = 0
  · have h1 := hv.step
    rw [hz] at h1
    have := step_zero h1
    have h2 := hv.rest
    rw [this] at h2
    simp only [Nat.add_zero, Nat.sub_zero] at h2
    split at h2 <;> omega
  · have := enough_zero he (by show p0.liquidity ≠ 0; rw [hl]; exact hz) hd
    simp at this

theorem iter_ok {s : Store} {pr : SwapParams} {st st' : SwapState} {i : Int} {ini : Bool} {r : SwapResult}
    {cfg : Config} {p1 : Pool} {rem : Nat} {u : TickUpdRes} (hv : IterView s pr st st' i ini r cfg p1 rem u)
    (h : LoopOk pr.xToY pr.key.tier.spacing pr.limit st.pool st.remaining) (hr : st.remaining ≠ 0) :
    LoopOk pr.xToY pr.key.tier.spacing pr.limit st'.pool st'.remaining := by
  have hpr := iter_price hv h hr
  have hin := hv.inside
  have htop := h.le_top
  have hp0 : 0 < pr.key.tier.spacing := hv.ok.pos
  have hp1 : p1.sqrtPrice = r.nextPrice := by obtain ⟨p0, -, rfl⟩ := hv.fee; rfl
  have hlim : rem ≠ 0 → if pr.xToY then pr.limit < r.nextPrice else r.nextPrice < pr.limit := by
    intro hrem
    have h1 := hv.lim
    cases hd : pr.xToY
    · rw [hd] at hpr
      simp only [Bool.false_eq_true, if_false] at hpr ⊢
      omega
    · rw [hd] at hpr
      simp only [if_true] at hpr ⊢
      by_contra hc
      have : r.nextPrice ≠ pr.limit := fun e => h1 ⟨e, hrem⟩
      exact hrem (hpr.2 (by omega)).1
  -- reaching the tick `i`
  have reach : ∀ (pl : Pool) (rm : Nat) (e : Bool), r.nextPrice = sqrtPriceAt i →
      pl.sqrtPrice = r.nextPrice → pl.tick = (if pr.xToY && e then i - pr.key.tier.spacing else i) →
      reachedTickLimit pr.xToY pr.key.tier.spacing pl.tick = false →
      (rm ≠ 0 → rm = rem) → (pr.xToY = true → e = true → rm ≠ 0) →
      LoopOk pr.xToY pr.key.tier.spacing pr.limit pl rm := by
    intro pl rm e e1 e2 e3 e4 e5 e6
    have hip := TickOk_iff.1 hv.ok
    unfold reachedTickLimit at e4
    have hin' : i < getMaxTick pr.key.tier.spacing → sqrtPriceAt i < sqrtPriceAt (i + pr.key.tier.spacing) :=
      fun hh => hv.ok.price_lt (hv.ok.add hh) (by omega)
    cases hd : pr.xToY
    · rw [hd] at e3 e4 hlim
      simp only [Bool.false_and, Bool.false_eq_true, if_false, decide_eq_false_iff_not] at e3 e4 hlim
      refine ⟨by rw [e3]; exact hv.ok, by rw [e3]; omega, ?_, ?_, ?_, ?_⟩
      · rw [e3]; intro hh; have := hin' hh; omega
      · rw [e3]; intro hh; have := hin' hh; omega
      · rw [e3]; intro hh; rw [← hh]; omega
      · intro hh; simp only [Bool.false_eq_true, if_false]
        have := e5 hh; rw [this] at hh; have := hlim hh; omega
    · rw [hd] at e3 e4 hlim e6
      simp only [Bool.true_and, if_true, decide_eq_false_iff_not, Int.not_le] at e3 e4 hlim
      rw [getMinTick_eq] at e4
      have hl : rm ≠ 0 → if true = true then pr.limit < pl.sqrtPrice else pl.sqrtPrice < pr.limit := by
        intro hh; simp only [if_true]
        have := e5 hh; rw [this] at hh; have := hlim hh; omega
      cases e
      · simp only [Bool.false_eq_true, if_false] at e3
        refine ⟨by rw [e3]; exact hv.ok, by rw [e3]; omega, ?_, ?_, ?_, hl⟩
        · rw [e3]; intro hh; have := hin' hh; omega
        · rw [e3]; intro hh _; have := hin' hh; omega
        · rw [e3]; intro hh; rw [← hh]; omega
      · simp only [if_true] at e3
        have hrm := e6 rfl rfl
        have hmin : -getMaxTick pr.key.tier.spacing < i := by omega
        have hok := hv.ok.sub hmin
        have hlt := hok.price_lt hv.ok (by omega)
        have hsub : i - (pr.key.tier.spacing : Int) + pr.key.tier.spacing = i := by omega
        refine ⟨by rw [e3]; exact hok, by rw [e3]; omega, ?_, ?_, ?_, hl⟩
        · rw [e3, hsub]; intro _; omega
        · rintro _ (hh | hh)
          · exact absurd hh hrm
          · simp at hh
        · intro hh; omega
  rw [hv.eq]
  show LoopOk _ _ _ u.pool u.remaining
  rcases hv.fin with ⟨t, c1, c2, upd, rfl⟩ | ⟨e, c1, c2, c3, c4, rfl⟩ | ⟨e, t, tp, c1, c2, c3, c4, c5, c6, c7, c8, rfl⟩ |
    ⟨t, c1, c2, c3, c4, c5, c6, c7, c8⟩
  · -- recomputed
    simp only at hin ⊢
    have hb := getMaxTick_bounds pr.key.tier.spacing
    have hlo : sqrtPriceAt (-getMaxTick pr.key.tier.spacing) ≤ r.nextPrice := by
      unfold reachedTickLimit at hin
      cases hd : pr.xToY
      · rw [hd] at hpr
        simp only [Bool.false_eq_true, if_false] at hpr
        have h1 := (minTick_ok hp0).price_le h.tick (TickOk_iff.1 h.tick).2.2.1
        have h2 := h.lo
        omega
      · rw [hd] at hin
        simp only [if_true, decide_eq_false_iff_not, Int.not_le] at hin
        rw [getMinTick_eq] at hin
        have h1 := getTick_bounds c2
        have h2 := h1.2.2.1 (by omega)
        have h3 := sqrtPriceAt_le (t := -getMaxTick pr.key.tier.spacing) (u := t) (by omega) h1.2.1 (by omega)
        omega
    have hhi : r.nextPrice ≤ sqrtPriceAt (getMaxTick pr.key.tier.spacing) := by
      cases hd : pr.xToY
      · rw [hd] at hpr
        simp only [Bool.false_eq_true, if_false] at hpr
        have := hv.ok.price_le (maxTick_ok hp0) (TickOk_iff.1 hv.ok).2.2.2
        omega
      · rw [hd] at hpr
        simp only [if_true] at hpr
        omega
    obtain ⟨q1, q2, q3, q4⟩ := recomputed_ok c2 hp0 hlo hhi
    rw [← hp1] at q2 q3 q4 hlim
    exact ⟨q1, q2, fun hh => Nat.le_of_lt (q3 hh), fun hh _ => q3 hh, q4, hlim⟩
  · exact reach _ _ e c1 hp1 rfl hin (fun _ => rfl) (fun hd he => by
      rw [he] at c4; exact enough_rem hv hr hd c4)
  · obtain ⟨liq, d1, d2, d3, d4⟩ := Tick.cross_inv c8
    refine reach _ _ e c1 (by simp only [d4]; exact hp1) rfl hin (fun _ => rfl) (fun hd he => by
      rw [he] at c4; exact enough_rem hv hr hd c4)
  · rcases c8 with ⟨d1, d2, p, d3, rfl⟩ | ⟨d1, rfl⟩
    · exact reach _ _ false c1 (by simp only [(addFee_keep d3).2.1]; exact hp1) (by simp) hin (fun h => absurd rfl h)
        (fun _ he => by simp at he)
    · exact reach _ _ false c1 hp1 (by simp) hin (fun h => absurd rfl h) (fun _ he => by simp at he)

/-! ## The whole loop -/

/-- Induction over the iterations of a swap, with everything known about an iteration. -/
theorem loop_induct {s : Store} {pr : SwapParams} (hs : Struct s) (hb : BitInv s) (hk : pr.key.wf)
    (hv : pr.key.tier.Valid) (P : SwapState → Prop)
    (hstep : ∀ a b i ini r cfg p1 rem u, IterView s pr a b i ini r cfg p1 rem u →
      LoopOk pr.xToY pr.key.tier.spacing pr.limit a.pool a.remaining → a.remaining ≠ 0 →
      LoopOk pr.xToY pr.key.tier.spacing pr.limit b.pool b.remaining → P a → P b)
    {n : Nat} {st st' : SwapState} (h0 : LoopOk pr.xToY pr.key.tier.spacing pr.limit st.pool st.remaining)
    (hP : P st) (h : swapLoop s pr n st = .ok st') :
    LoopOk pr.xToY pr.key.tier.spacing pr.limit st'.pool st'.remaining ∧ P st' ∧ st'.remaining = 0 := by
  have := swapLoop_induct
    (fun x => LoopOk pr.xToY pr.key.tier.spacing pr.limit x.pool x.remaining ∧ P x) (fun a b ha hr hab => ?_) n st st'
    ⟨h0, hP⟩ h
  · exact ⟨this.1.1, this.1.2, this.2⟩
  · obtain ⟨i, ini, r, cfg, p1, rem, u, hview⟩ := iter_view hs hb hk hv ha.1.tick hab
    have := iter_ok hview ha.1 hr
    exact ⟨this, hstep a b i ini r cfg p1 rem u hview ha.1 hr this ha.2⟩

theorem PoolOk.loop {ts : Nat} {p : Pool} {d : Bool} {limit rem : Nat} (h : PoolOk ts p)
    (hl : if d then limit < p.sqrtPrice else p.sqrtPrice < limit) : LoopOk d ts limit p rem :=
  ⟨h.tick, h.lo, fun hh => Nat.le_of_lt (h.hi hh), fun hh _ => h.hi hh, h.top, fun _ => hl⟩

theorem LoopOk.pool {ts : Nat} {p : Pool} {d : Bool} {limit : Nat} (h : LoopOk d ts limit p 0) : PoolOk ts p :=
  ⟨h.tick, h.lo, fun hh => h.hi' hh (.inl rfl), h.top⟩

/-- Induction over the iterations of a successful swap computation. -/
theorem swap_induct {s : Store} {now : Nat} {k : PoolKey} {d : Bool} {amount : Nat} {b : Bool} {limit : Nat}
    {res : CalcSwapResult} {pool : Pool} (hs : Struct s) (hb : BitInv s) (hk : k.wf)
    (hp : s.pools.get? k.key = some pool) (hok : PoolOk k.tier.spacing pool)
    (h : calculateSwap s now k d amount b limit = .ok res) (P : SwapState → Prop)
    (hstep : ∀ x y i ini r cfg p1 rem u, IterView s ⟨k, d, b, limit, now⟩ x y i ini r cfg p1 rem u →
      LoopOk d k.tier.spacing limit x.pool x.remaining → x.remaining ≠ 0 →
      LoopOk d k.tier.spacing limit y.pool y.remaining → P x → P y)
    (h0 : amount ≠ 0 → (if d then limit < pool.sqrtPrice else pool.sqrtPrice < limit) →
      P { pool := pool, remaining := amount, totalIn := 0, totalOut := 0, fee := 0, ticks := [] }) :
    ∃ st, P st ∧ PoolOk k.tier.spacing st.pool ∧ st.remaining = 0 ∧ st.totalOut ≠ 0 ∧ amount ≠ 0 ∧
      (if d then limit < pool.sqrtPrice else pool.sqrtPrice < limit) ∧
      res = { amountIn := st.totalIn, amountOut := st.totalOut, startPrice := pool.sqrtPrice,
              targetPrice := st.pool.sqrtPrice, fee := st.fee, pool := st.pool, ticks := st.ticks } := by
  obtain ⟨pool', st, h1, h2, h3, h4, h5, h6, h7⟩ := calculateSwap_inv h
  rw [hp, Option.some.injEq] at h2
  subst h2
  have hl : if d then limit < pool.sqrtPrice else pool.sqrtPrice < limit := by
    cases d
    · simp only [Bool.false_eq_true, if_false] at h4 ⊢; exact h4.1
    · simp only [if_true] at h4 ⊢; exact h4.1
  obtain ⟨a1, a2, a3⟩ := loop_induct (pr := ⟨k, d, b, limit, now⟩) hs hb hk (hs.tier hk hp) P hstep
    (hok.loop hl) (h0 h1 hl) h5
  rw [a3] at a1
  exact ⟨st, a2, a1.pool, a3, h6, h1, hl, h7⟩

/-! ## All reachable states -/

/-- Price and tick agree in every pool. -/
def PriceInv (s : Store) : Prop := ∀ (k : PoolKey) (p : Pool), k.wf → s.pools.get? k.key = some p → PoolOk k.tier.spacing p

theorem PoolOk.congr {ts : Nat} {p p' : Pool} (h : PoolOk ts p) (h1 : p'.tick = p.tick)
    (h2 : p'.sqrtPrice = p.sqrtPrice) : PoolOk ts p' :=
  ⟨by rw [h1]; exact h.tick, by rw [h1, h2]; exact h.lo, by rw [h1, h2]; exact h.hi, by rw [h1, h2]; exact h.top⟩

theorem PriceInv.insert {s s' : Store} (h : PriceInv s) {k : PoolKey} {p : Pool} (hk : k.wf)
    (e : s'.pools = s.pools.insert k.key p) (hp : PoolOk k.tier.spacing p) : PriceInv s' := by
  intro k' q hk' hq
  rw [e, KV.get?_insert] at hq
  split at hq
  · rename_i he
    rw [Option.some.injEq] at hq
    subst hq
    rw [PoolKey.key_inj hk' hk he]
    exact hp
  · exact h k' q hk' hq

theorem create_poolOk {price : Nat} {tick : Int} {now ts : Nat} {admin : Bytes} {p : Pool}
    (hc : TickOk ts tick) (h : Pool.create price tick now ts admin = .ok p) : PoolOk ts p := by
  unfold Pool.create at h
  rw [bind_ok] at h
  obtain ⟨b, h1, h⟩ := h
  have hb : b = true := by
    cases b
    · simp at h
    · rfl
  subst hb
  simp only [Bool.not_true, Bool.false_eq_true, if_false, pure_ok] at h
  subst h
  unfold checkTickToSqrtPrice at h1
  have hb := getMaxTick_bounds ts
  have hr := TickOk_iff.1 hc
  split at h1
  · rename_i hgt
    rw [calculateSqrtPrice_eq (by omega) (by omega)] at h1
    simp only [ok_bind, pure_ok, decide_eq_true_eq] at h1
    have htop : tick = getMaxTick ts := by
      by_contra hne
      have := (hc.add (by omega)).range
      omega
    exact ⟨hc, by show sqrtPriceAt tick ≤ price; rw [htop, h1], fun hh => by
      have hh' : tick < getMaxTick ts := hh
      omega, fun _ => h1⟩
  · rename_i hgt
    have := hc.range
    have := hc.pos
    rw [calculateSqrtPrice_eq (by omega) (by omega), ok_bind, calculateSqrtPrice_eq (by omega) (by omega), ok_bind] at h1
    simp only [pure_ok, decide_eq_true_eq, not_or, Nat.not_le, Nat.not_lt, ge_iff_le] at h1
    refine ⟨hc, h1.2, fun _ => h1.1, fun hh => ?_⟩
    have hh' : tick = getMaxTick ts := hh
    have := dvd_le_max hc.pos (Int.dvd_add hc.dvd (Int.dvd_refl _)) (Int.not_lt.1 hgt)
    omega

theorem PriceInv.micro {c : Chain} {s s' : Store} (hs : Struct s) (hb : BitInv s) (h : PriceInv s)
    (hm : Micro c s s') : PriceInv s' := by
  cases hm with
  | @config cfg cfg' hc hf ht => exact h
  | opers ops => exact h
  | @poolMeta k p rcv px py hk hp hx hy => exact h.insert hk rfl ((h k p hk hp).congr rfl rfl)
  | @newPool _ env t0 t1 tier price tick out hw hh =>
    obtain ⟨cfg, k, pool, h1, h2, h3, h4, h5, h6, rfl, _⟩ := createPool_inv hh
    have hk : k.wf ∧ k.tier = tier := by
      unfold PoolKey.new at h4
      obtain ⟨w1, w2, w3, _⟩ := hw
      split at h4
      · simp at h4
      · split at h4
        · rw [ok_inj] at h4; subst h4; exact ⟨⟨w1, w2, w3⟩, rfl⟩
        · rw [ok_inj] at h4; subst h4; exact ⟨⟨w2, w1, w3⟩, rfl⟩
    exact h.insert hk.1 rfl (by rw [hk.2]; exact create_poolOk h3 h6)
  | @create _ env info k l u L lo hi' out hw hh =>
    obtain ⟨pool, liq, pos, ticks, bm, hp, _, _, _, rfl⟩ := createPosition_frame hh
    exact h.insert hw.1 rfl ((h k pool hw.1 hp).congr rfl rfl)
  | @claim _ env info i out hw hh =>
    obtain ⟨pos, pool, liq, pos', ticks, h1, hp, _, rfl⟩ := claimFee_frame hh
    have hk := (hs.positions _ _ h1).kwf
    exact h.insert hk rfl ((h _ pool hk hp).congr rfl rfl)
  | @remove _ env info i out hw hh =>
    obtain ⟨pos, pool, liq, s2, ticks, bm, h1, hp, _, rfl⟩ := removePosition_frame hh
    have hk := (hs.positions _ _ h1).kwf
    exact h.insert hk rfl ((h _ pool hk hp).congr rfl rfl)
  | @move s1 _ o r i p hw h1 h2 =>
    obtain ⟨_, rfl⟩ := addPosition_ok.1 h2
    obtain ⟨_, _, rfl⟩ := removePositionAt_frame h1
    exact h
  | @appr id p a h' => exact h
  | @swap info now k d amount b limit x hk ha hl hh =>
    obtain ⟨s1, m1, h1, h2, h3, _, _⟩ := swapInternal_inv hh
    obtain ⟨pool, st, _, hp, _⟩ := calculateSwap_inv h1
    obtain ⟨st, -, h5, -, -, -, -, h6⟩ := swap_induct hs hb hk hp (h k pool hk hp) h1 (fun _ => True)
      (fun _ _ _ _ _ _ _ _ _ _ _ _ _ _ => trivial) (fun _ _ => trivial)
    obtain ⟨t, e1⟩ := swapInternal_frame hh
    refine h.insert hk (p := x.2.2.pool) (by rw [e1]) ?_
    rw [h6]; exact h5

theorem MReach.price {c : Chain} {s : Store} (h : MReach c s) : PriceInv s := by
  induction h with
  | init sender fee _ => intro k p _ h; simp [instantiate, Store.empty, KV.get?_empty] at h
  | step hr hm ih => exact ih.micro hr.struct hr.bitInv hm

end OraiV3
