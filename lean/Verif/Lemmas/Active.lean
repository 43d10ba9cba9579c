import Verif.Lemmas.SwapTotals
import Verif.Lemmas.Quiet

/-!
# Active liquidity: the liquidity of a pool and the positions around its tick
-/

namespace OraiV3

/-! ## Liquidity in range as a function of the tick -/

theorem sumPositions_ext {s : Store} {k : PoolKey} {f g : Position → Nat}
    (h : ∀ p ∈ positionsOf s k, f p = g p) : sumPositions s k f = sumPositions s k g := by
  unfold sumPositions
  rw [List.map_congr_left h]

theorem sumPositions_add {s : Store} {k : PoolKey} {f g : Position → Nat} :
    sumPositions s k f + sumPositions s k g = sumPositions s k (fun p => f p + g p) := by
  unfold sumPositions
  induction positionsOf s k with
  | nil => rfl
  | cons p l ih => simp only [List.map_cons, List.sum_cons]; omega

theorem Struct.posOf {s : Store} (hs : Struct s) {k : PoolKey} {p : Position} (h : p ∈ positionsOf s k) :
    p.poolKey = k ∧ TickOk k.tier.spacing p.lower ∧ TickOk k.tier.spacing p.upper ∧ p.lower < p.upper := by
  unfold positionsOf at h
  rw [List.mem_filter, decide_eq_true_eq] at h
  obtain ⟨key, hk⟩ := (mem_vals _ _).1 h.1
  have := hs.positions key p hk
  obtain ⟨_, rfl⟩ := h
  exact ⟨rfl, this.lower, this.upper, this.lt⟩

theorem inRange_const {s : Store} (hs : Struct s) {k : PoolKey} {a b : Int} (hab : a ≤ b)
    (h : ∀ j, TickOk k.tier.spacing j → a < j → j ≤ b → ¬ UsedTick s k j) :
    liquidityInRange s k a = liquidityInRange s k b := by
  refine sumPositions_ext fun p hp => ?_
  obtain ⟨-, h1, h2, h3⟩ := hs.posOf hp
  have n1 : ¬ (a < p.lower ∧ p.lower ≤ b) := fun hh => h _ h1 hh.1 hh.2 ⟨p, hp, .inl rfl⟩
  have n2 : ¬ (a < p.upper ∧ p.upper ≤ b) := fun hh => h _ h2 hh.1 hh.2 ⟨p, hp, .inr rfl⟩
  by_cases c : p.lower ≤ a ∧ a < p.upper
  · rw [if_pos c, if_pos (by omega)]
  · rw [if_neg c, if_neg (by omega)]

theorem inRange_step {s : Store} (hs : Struct s) {k : PoolKey} {i : Int} (hi : TickOk k.tier.spacing i) :
    liquidityInRange s k i + liquidityEndingAt s k i =
      liquidityInRange s k (i - k.tier.spacing) + liquidityStartingAt s k i := by
  unfold liquidityInRange liquidityEndingAt liquidityStartingAt
  rw [sumPositions_add, sumPositions_add]
  refine sumPositions_ext fun p hp => ?_
  obtain ⟨-, h1, h2, h3⟩ := hs.posOf hp
  have p0 := hi.pos
  have a1 : p.lower < i → p.lower + k.tier.spacing ≤ i := dvd_lt_step p0 h1.dvd hi.dvd
  have a2 : i - k.tier.spacing < p.upper → i - k.tier.spacing + k.tier.spacing ≤ p.upper :=
    dvd_lt_step p0 (Int.dvd_sub hi.dvd (Int.dvd_refl _)) h2.dvd
  split_ifs <;> omega

/-- Stored ticks are the used ones. -/
theorem TickSum.used {s : Store} (ht : TickSum s) (hs : Struct s) {k : PoolKey} (hk : k.wf) {i : Int} (hi : i32 i) :
    UsedTick s k i ↔ (s.ticks.get? (tickKey k i)).isSome = true := by
  rw [usedTick_iff hs]
  have := ht k i hk hi
  unfold TickSumAt tickVal at this
  cases h : s.ticks.get? (tickKey k i) with
  | none => rw [h] at this; simp only [Option.map_none] at this; simp [this.1, this.2]
  | some t =>
    rw [h] at this
    simp only [Option.map_some] at this
    simp only [Option.isSome_some, iff_true]
    rw [← this.2.1]; exact this.1

theorem TickSum.net {s : Store} (ht : TickSum s) {k : PoolKey} (hk : k.wf) {i : Int} (hi : i32 i) {t : Tick}
    (h : s.ticks.get? (tickKey k i) = some t) :
    t.net = (liquidityStartingAt s k i : Int) - liquidityEndingAt s k i := by
  have := ht k i hk hi
  unfold TickSumAt tickVal at this
  rw [h] at this
  exact this.2.2

/-! ## One iteration -/

/-- `RegularEnd` for a given pool. -/
def RegularPool (s : Store) (k : PoolKey) (d b : Bool) (limit : Nat) (p : Pool) : Prop :=
  (p.sqrtPrice = sqrtPriceAt p.tick → UsedTick s k p.tick → if d then b = false else p.sqrtPrice ≠ limit) ∧
    (d = true → b = true → UsedTick s k (p.tick + k.tier.spacing) →
      10 ^ 24 ≤ (sqrtPriceAt (p.tick + k.tier.spacing) - p.sqrtPrice) * p.sqrtPrice)

/-- `Missed` for a given pool. -/
def Miss (s : Store) (k : PoolKey) (d b : Bool) (limit : Nat) (p : Pool) (delta : Int) : Prop :=
  (d = false ∧ p.sqrtPrice = limit ∧ p.sqrtPrice = sqrtPriceAt p.tick ∧ UsedTick s k p.tick ∧ delta = - netAt s k p.tick) ∨
  (d = true ∧ b = true ∧ p.sqrtPrice = sqrtPriceAt p.tick ∧ UsedTick s k p.tick ∧ delta = - netAt s k p.tick) ∨
  (d = true ∧ b = true ∧ UsedTick s k (p.tick + k.tier.spacing) ∧
    (sqrtPriceAt (p.tick + k.tier.spacing) - p.sqrtPrice) * p.sqrtPrice < 10 ^ 24 ∧
    delta = netAt s k (p.tick + k.tier.spacing))

theorem Miss.irregular {s : Store} {k : PoolKey} {d b : Bool} {limit : Nat} {p : Pool} {delta : Int}
    (h : Miss s k d b limit p delta) : ¬ RegularPool s k d b limit p := by
  intro hr
  rcases h with ⟨rfl, h1, h2, h3, -⟩ | ⟨rfl, rfl, h1, h2, -⟩ | ⟨rfl, rfl, h1, h2, -⟩
  · have := hr.1 h2 h3
    simp only [Bool.false_eq_true, if_false] at this
    exact this h1
  · have := hr.1 h1 h2
    simp at this
  · have := hr.2 rfl rfl h1
    omega

theorem netAt_step {s : Store} (hs : Struct s) {k : PoolKey} {i : Int} (hi : TickOk k.tier.spacing i) :
    (liquidityInRange s k i : Int) = liquidityInRange s k (i - k.tier.spacing) + netAt s k i := by
  have := inRange_step hs hi
  unfold netAt
  omega

theorem step_same {cur target L amount fee : Nat} {r : SwapResult} (ht : target ≤ cur)
    (h : computeSwapStep cur target L amount false fee = .ok r) (hn : r.nextPrice = cur) : r.amountOut = 0 := by
  by_cases hL : L = 0
  · rw [hL] at h; rw [step_zero h]
  · obtain ⟨-, -, ⟨out0, h1, h2⟩, -⟩ := step_view h hL
    rw [decide_eq_true (show cur ≥ target from ht), deltaOut_true, hn] at h1
    have h3 := (getDeltaY_down h1).2.1
    have h4 : absDiff cur cur = 0 := by unfold absDiff; split <;> omega
    rw [h4, Nat.zero_mul] at h3
    simp only [Bool.false_eq_true, if_false] at h2
    have : out0 = 0 := by
      have hp : (0 : Nat) < 10 ^ 30 := by norm_num
      generalize (10 : Nat) ^ 30 = K at *
      rcases Nat.eq_zero_or_pos out0 with h | h
      · exact h
      · have := Nat.mul_pos h hp; omega
    omega

/-- Neighbouring tick prices are far apart. -/
theorem tick_gap {ts : Nat} {a b : Int} (ha : TickOk ts a) (hb : TickOk ts b) (h : a < b) :
    sqrtPriceAt a + 10 ^ 12 ≤ sqrtPriceAt b := by
  have h1 := ha.price_lt hb h
  obtain ⟨x, hx⟩ := sqrtPriceAt_dvd a
  obtain ⟨y, hy⟩ := sqrtPriceAt_dvd b
  omega

theorem small_gap {g p : Nat} (hp : MIN_SQRT_PRICE ≤ p) (h : g * p < SPR) : g < 10 ^ 12 := by
  by_contra hc
  have h1 : 10 ^ 12 * MIN_SQRT_PRICE ≤ g * p := Nat.mul_le_mul (by omega) hp
  have h2 : SPR ≤ 10 ^ 12 * MIN_SQRT_PRICE := by decide +kernel
  omega

/-- No position starts or ends between two ticks. -/
def SameRegion (s : Store) (k : PoolKey) (a b : Int) : Prop :=
  ∀ j, TickOk k.tier.spacing j → (a < j ∧ j ≤ b) ∨ (b < j ∧ j ≤ a) → ¬ UsedTick s k j

theorem SameRegion.inRange {s : Store} (hs : Struct s) {k : PoolKey} {a b : Int} (h : SameRegion s k a b) :
    liquidityInRange s k a = liquidityInRange s k b := by
  rcases Int.le_total a b with hab | hab
  · exact inRange_const hs hab (fun j hj h1 h2 => h j hj (.inl ⟨h1, h2⟩))
  · exact (inRange_const hs hab (fun j hj h1 h2 => h j hj (.inr ⟨h1, h2⟩))).symm

/-- The ticks stored between the current tick and the one aimed at. -/
theorem iter_used {s : Store} {pr : SwapParams} {st st' : SwapState} {i : Int} {ini : Bool} {r : SwapResult}
    {cfg : Config} {p1 : Pool} {rem : Nat} {u : TickUpdRes} (hs : Struct s) (ht : TickSum s) (hk : pr.key.wf)
    (hv : IterView s pr st st' i ini r cfg p1 rem u) :
    (∀ j, TickOk pr.key.tier.spacing j →
      (if pr.xToY then i < j ∧ j ≤ st.pool.tick else st.pool.tick < j ∧ j < i) → ¬ UsedTick s pr.key j) ∧
    (UsedTick s pr.key i ↔ ini = true) := by
  have used : ∀ j, TickOk pr.key.tier.spacing j → (UsedTick s pr.key j ↔ (s.ticks.get? (tickKey pr.key j)).isSome = true) :=
    fun j hj => ht.used hs hk hj.i32
  refine ⟨fun j hj hjj hu => ?_, by rw [used i hv.ok, hv.set]⟩
  rw [used j hj, hv.gap j hj hjj] at hu
  simp at hu

/-- An iteration that crosses no tick stays between the same ticks, unless it is the last one and ends irregularly. -/
theorem iter_region {s : Store} {pr : SwapParams} {st st' : SwapState} {i : Int} {ini : Bool} {r : SwapResult}
    {cfg : Config} {p1 : Pool} {rem : Nat} {u : TickUpdRes} (hs : Struct s) (ht : TickSum s) (hk : pr.key.wf)
    (hv : IterView s pr st st' i ini r cfg p1 rem u)
    (h : LoopOk pr.xToY pr.key.tier.spacing pr.limit st.pool st.remaining) (hr : st.remaining ≠ 0)
    (h' : LoopOk pr.xToY pr.key.tier.spacing pr.limit st'.pool st'.remaining) (hcr : u.crossed = false) :
    SameRegion s pr.key st.pool.tick st'.pool.tick ∨
      (st'.remaining = 0 ∧ ∃ delta, Miss s pr.key pr.xToY pr.byAmountIn pr.limit st'.pool delta ∧
        (liquidityInRange s pr.key st'.pool.tick : Int) + delta = liquidityInRange s pr.key st.pool.tick) := by
  have hpr := iter_price hv h hr
  have hprog := iter_progress hv h hr h'
  have hnp := iter_price_eq hv
  have p0 := hv.ok.pos
  obtain ⟨gap, usedi⟩ := iter_used hs ht hk hv
  have e1 : st'.pool = u.pool := by rw [hv.eq]
  have e2 : st'.remaining = u.remaining := by rw [hv.eq]
  have t' := h'.tick
  have lo' := h'.lo
  have hi' := h'.hi
  rw [e1] at t' lo' hi' hnp hprog ⊢
  rw [e2] at hprog ⊢
  have hdir := hv.dir
  -- from a used tick list to the region
  have upTo : pr.xToY = false → ∀ t, TickOk pr.key.tier.spacing t → st.pool.tick ≤ t → t ≤ i → (t = i → ini = false) →
      SameRegion s pr.key st.pool.tick t := by
    intro hd t tok h1 h2 h3 j hj hjj hu
    simp only [hd, Bool.false_eq_true, if_false] at gap
    rcases hjj with ⟨a, b⟩ | ⟨a, b⟩
    · by_cases hji : j = i
      · have := h3 (by omega)
        rw [hji, usedi, this] at hu
        simp at hu
      · exact gap j hj ⟨a, by omega⟩ hu
    · omega
  have downTo : pr.xToY = true → ∀ t, i ≤ t → t ≤ st.pool.tick → SameRegion s pr.key st.pool.tick t := by
    intro hd t h1 h2 j hj hjj hu
    simp only [hd, if_true] at gap
    rcases hjj with ⟨a, b⟩ | ⟨a, b⟩
    · omega
    · exact gap j hj ⟨by omega, b⟩ hu
  have below : pr.xToY = true → ini = false → SameRegion s pr.key st.pool.tick (i - pr.key.tier.spacing) := by
    intro hd hi0 j hj hjj hu
    simp only [hd, if_true] at gap hdir
    rcases hjj with ⟨a, b⟩ | ⟨a, b⟩
    · omega
    · by_cases hji : j = i
      · rw [hji, usedi, hi0] at hu; simp at hu
      · refine gap j hj ⟨?_, b⟩ hu
        by_contra hc
        have := dvd_lt_step p0 hj.dvd hv.ok.dvd (by omega)
        omega
  rcases hv.fin with ⟨t, c1, c2, upd, rfl⟩ | ⟨e, c1, c2, c3, c4, rfl⟩ | ⟨e, t, tp, c1, c2, c3, c4, c5, c6, c7, c8, rfl⟩ |
    ⟨t, c1, c2, c3, c4, c5, c6, c7, c8⟩
  · -- recomputed
    simp only at t' lo' hi' hnp hprog ⊢
    rw [hnp] at lo' hi'
    cases hd : pr.xToY
    · simp only [hd, Bool.false_eq_true, if_false] at hpr hprog c1 hdir
      -- not below the old tick
      have hge : st.pool.tick ≤ t := by
        by_contra hc
        have := (TickOk_iff.1 h.tick).2.2.2
        have h1 := hi' (by omega)
        have h2 := h'.hi' (by rw [e1]; show t < _; omega) (.inr hd)
        rw [e1] at h2
        simp only at h2
        rw [hnp] at h2
        have h3 := (t'.add (by omega)).price_le h.tick (dvd_lt_step p0 t'.dvd h.tick.dvd (by omega))
        have := h.lo
        omega
      by_cases hlt : t < i
      · left
        exact upTo hd t t' hge (by omega) (by omega)
      · have h1 := hv.ok.price_le t' (by omega)
        have hpi : r.nextPrice = sqrtPriceAt i := by omega
        have hti : t = i := t'.price_inj hv.ok (by omega)
        subst hti
        by_cases hu : ini = true
        · right
          have hl : r.nextPrice = pr.limit := by omega
          refine ⟨by by_contra hc; exact hv.lim ⟨hl, hc⟩, _,
            .inl ⟨rfl, hnp.trans hl, by simp only [hnp]; exact hpi, usedi.2 hu, rfl⟩, ?_⟩
          have hst := netAt_step hs hv.ok
          have hlt : st.pool.tick < t := hdir
          have := dvd_lt_step p0 h.tick.dvd hv.ok.dvd hlt
          simp only [hd, Bool.false_eq_true, if_false] at gap
          rw [inRange_const hs (a := st.pool.tick) (b := t - pr.key.tier.spacing) (by omega)
            (fun j hj a b => gap j hj ⟨a, by omega⟩)]
          simp only
          omega
        · left
          exact upTo hd t t' hge (by omega) (fun _ => by simpa using hu)
    · simp only [hd, if_true] at hpr hprog c1 hdir
      by_cases hgt : st.pool.tick < t
      · -- the price did not move after a tick had been crossed
        have hm := (TickOk_iff.1 t').2.2.2
        have h1 := h.hi (by omega)
        have hs1 := dvd_lt_step p0 h.tick.dvd t'.dvd hgt
        have h2 := (h.tick.add (by omega)).price_le t' hs1
        have hpe : r.nextPrice = st.pool.sqrtPrice := by omega
        have hte : t = st.pool.tick + pr.key.tier.spacing :=
          t'.price_inj (h.tick.add (by omega)) (by omega)
        have hrem : rem = 0 := by
          by_contra hc
          have := hprog hc
          omega
        have hb : pr.byAmountIn = true := by
          by_contra hc
          have hb : pr.byAmountIn = false := by simpa using hc
          have h3 := hv.step
          have h4 := hv.rest
          rw [hb] at h3 h4
          simp only [Bool.false_eq_true, if_false] at h4
          have h5 := target_ahead h hr hv.ok hv.dir
          rw [hd] at h5 h3
          simp only [if_true] at h5
          have := step_same h5 h3 hpe
          omega
        by_cases hu : UsedTick s pr.key t
        · right
          refine ⟨hrem, _, .inr (.inl ⟨rfl, hb, by simp only [hnp]; omega, hu, rfl⟩), ?_⟩
          have hst := netAt_step hs t'
          have e3 : t - pr.key.tier.spacing = st.pool.tick := by omega
          rw [e3] at hst
          simp only
          omega
        · left
          intro j hj hjj
          rcases hjj with ⟨a, b⟩ | ⟨a, b⟩
          · have := dvd_lt_step p0 h.tick.dvd hj.dvd a
            have : j = t := by omega
            rw [this]; exact hu
          · omega
      · by_cases hlt : t < i
        · -- the price passed the tick
          have hs1 := dvd_lt_step p0 t'.dvd hv.ok.dvd hlt
          have hm := (TickOk_iff.1 hv.ok).2.2.2
          have h1 := h'.hi' (by rw [e1]; show t < _; omega)
          rw [e1, e2] at h1
          simp only at h1
          rw [hnp] at h1
          have h2 : r.nextPrice < sqrtPriceAt i := by
            have h3 := hi' (by omega)
            have h4 := (t'.add (by omega)).price_le hv.ok hs1
            by_contra hc
            -- then the price is that of the next tick, so something is left
            have hte : t + pr.key.tier.spacing = i := (t'.add (by omega)).price_inj hv.ok (by omega)
            have := (recomputed_ok c2 p0 (Nat.le_trans ((minTick_ok p0).price_le t' (TickOk_iff.1 t').2.2.1) lo')
              (by have := (t'.add (by omega)).price_le (maxTick_ok p0) (by omega); omega)).2.2.1 (by omega)
            omega
          obtain ⟨b1, b2, -, b4⟩ := hpr.2 (by omega)
          have hge : st.pool.sqrtPrice ≥ r.nextPrice := hpr.1
          have h5 : (sqrtPriceAt i - r.nextPrice) * r.nextPrice < SPR :=
            Nat.lt_of_le_of_lt (Nat.mul_le_mul (by omega) hge) b4
          have hmin : MIN_SQRT_PRICE ≤ r.nextPrice := Nat.le_trans t'.price_min lo'
          have h6 := small_gap hmin h5
          have hte : i = t + pr.key.tier.spacing := by
            by_contra hne
            have hlt2 : t + pr.key.tier.spacing < i := by omega
            have h7 := tick_gap (t'.add (by omega)) hv.ok hlt2
            have h8 := hi' (by omega)
            omega
          by_cases hu : UsedTick s pr.key i
          · right
            have hS : SPR = 10 ^ 24 := rfl
            refine ⟨b1, _, .inr (.inr ⟨rfl, b2, by simp only []; rw [← hte]; exact hu,
              by simp only []; rw [hnp, ← hte, ← hS]; exact h5, rfl⟩), ?_⟩
            have hst := netAt_step hs hv.ok
            have e3 : i - pr.key.tier.spacing = t := by omega
            rw [e3] at hst
            rw [(downTo hd i (by omega) hdir).inRange hs]
            simp only
            rw [← hte]
            omega
          · left
            have hi0 : ini = false := by
              cases hini : ini
              · rfl
              · exact absurd (usedi.2 hini) hu
            have := below hd hi0
            have e3 : i - pr.key.tier.spacing = t := by omega
            rwa [e3] at this
        · left
          exact downTo hd t (by omega) (by omega)
  · left
    simp only
    cases hd : pr.xToY <;> simp only [hd, Bool.false_eq_true, if_false, if_true, Bool.false_and, Bool.true_and] at hdir ⊢
    · exact upTo hd i hv.ok (by omega) (by omega) (fun _ => c2)
    · cases e
      · exact downTo hd i (by omega) hdir
      · exact below hd c2
  · simp at hcr
  · left
    simp only [c4, if_true] at hdir
    rcases c8 with ⟨d1, d2, p, d3, rfl⟩ | ⟨d1, rfl⟩ <;> exact downTo c4 i (by omega) hdir

/-- An iteration that crosses no tick keeps the liquidity. -/
theorem iter_keep_liquidity {s : Store} {pr : SwapParams} {st st' : SwapState} {i : Int} {ini : Bool} {r : SwapResult}
    {cfg : Config} {p1 : Pool} {rem : Nat} {u : TickUpdRes} (hv : IterView s pr st st' i ini r cfg p1 rem u)
    (hcr : u.crossed = false) : st'.pool.liquidity = st.pool.liquidity := by
  have hp1 : p1.liquidity = st.pool.liquidity := by
    obtain ⟨q, hq, rfl⟩ := hv.fee
    exact (addFee_keep hq).1
  have e1 : st'.pool = u.pool := by rw [hv.eq]
  rw [e1]
  rcases hv.fin with ⟨t, c1, c2, upd, rfl⟩ | ⟨e, c1, c2, c3, c4, rfl⟩ | ⟨e, t, tp, c1, c2, c3, c4, c5, c6, c7, c8, rfl⟩ |
    ⟨t, c1, c2, c3, c4, c5, c6, c7, c8⟩
  · exact hp1
  · exact hp1
  · simp at hcr
  · rcases c8 with ⟨d1, d2, p, d3, rfl⟩ | ⟨d1, rfl⟩
    · exact ((addFee_keep d3).1).trans hp1
    · exact hp1

/-- An iteration keeps the difference between the pool's liquidity and that of the positions in range, unless it is the
last one and misses a tick. -/
theorem iter_drift {s : Store} {pr : SwapParams} {st st' : SwapState} {i : Int} {ini : Bool} {r : SwapResult}
    {cfg : Config} {p1 : Pool} {rem : Nat} {u : TickUpdRes} (hs : Struct s) (ht : TickSum s) (hk : pr.key.wf)
    (hv : IterView s pr st st' i ini r cfg p1 rem u)
    (h : LoopOk pr.xToY pr.key.tier.spacing pr.limit st.pool st.remaining) (hr : st.remaining ≠ 0)
    (h' : LoopOk pr.xToY pr.key.tier.spacing pr.limit st'.pool st'.remaining)
    {dr : Int} (ha : (st.pool.liquidity : Int) = liquidityInRange s pr.key st.pool.tick + dr) :
    (st'.pool.liquidity : Int) = liquidityInRange s pr.key st'.pool.tick + dr ∨
      (st'.remaining = 0 ∧ ∃ delta, Miss s pr.key pr.xToY pr.byAmountIn pr.limit st'.pool delta ∧
        (st'.pool.liquidity : Int) = liquidityInRange s pr.key st'.pool.tick + dr + delta) := by
  have hp1 : p1.liquidity = st.pool.liquidity ∧ p1.tick = st.pool.tick := by
    obtain ⟨q, hq, rfl⟩ := hv.fee
    exact ⟨(addFee_keep hq).1, (addFee_keep hq).2.2⟩
  cases hcr : u.crossed
  · have hl := iter_keep_liquidity hv hcr
    rcases iter_region hs ht hk hv h hr h' hcr with hreg | ⟨hrem, delta, hmiss, hd⟩
    · left
      rw [← hreg.inRange hs, ← ha, hl]
    · exact .inr ⟨hrem, delta, hmiss, by rw [hl, ha]; omega⟩
  · left
    have e1 : st'.pool = u.pool := by rw [hv.eq]
    rw [e1]
    have p0 := hv.ok.pos
    obtain ⟨gap, usedi⟩ := iter_used hs ht hk hv
    have hstep := inRange_step hs hv.ok
    -- the liquidity around the tick reached
    have ati : if pr.xToY then (liquidityInRange s pr.key i : Int) + dr = st.pool.liquidity
        else (liquidityInRange s pr.key (i - pr.key.tier.spacing) : Int) + dr = st.pool.liquidity := by
      have hdir := hv.dir
      cases hd : pr.xToY
      · simp only [hd, Bool.false_eq_true, if_false] at hdir gap ⊢
        rw [ha]
        have := dvd_lt_step p0 h.tick.dvd hv.ok.dvd hdir
        rw [inRange_const hs (a := st.pool.tick) (b := i - pr.key.tier.spacing) (by omega) (fun j hj a b => gap j hj ⟨a, by omega⟩)]
      · simp only [hd, if_true] at hdir gap ⊢
        rw [ha]
        rw [inRange_const hs hdir (fun j hj a b => gap j hj ⟨a, b⟩)]
    rcases hv.fin with ⟨t, c1, c2, upd, rfl⟩ | ⟨e, c1, c2, c3, c4, rfl⟩ | ⟨e, t, tp, c1, c2, c3, c4, c5, c6, c7, c8, rfl⟩ |
      ⟨t, c1, c2, c3, c4, c5, c6, c7, c8⟩
    · simp at hcr
    · simp at hcr
    · obtain ⟨liq, -, d2, -, d4⟩ := Tick.cross_inv c8
      simp only [d4]
      have hnet := ht.net hk hv.ok.i32 c5
      unfold Tick.net at hnet
      rw [hp1.1, hp1.2, c6] at d2
      have hdir := hv.dir
      cases hd : pr.xToY <;> simp only [hd, Bool.false_eq_true, if_false, if_true, Bool.false_and, Bool.true_and] at ati hdir c7 ⊢
      · rw [decide_eq_false (by omega)] at d2
        cases hsg : t.sign <;> simp only [hsg, Bool.xor_false, Bool.xor_true, Bool.not_false, Bool.false_eq_true, if_false, if_true] at d2 hnet <;> omega
      · have he := c7 trivial
        rw [decide_eq_true (by omega)] at d2
        rw [he]
        simp only [if_true]
        cases hsg : t.sign <;> simp only [hsg, Bool.xor_false, Bool.xor_true, Bool.not_true, Bool.false_eq_true, if_false, if_true] at d2 hnet <;> omega
    · rcases c8 with ⟨d1, d2, p, d3, rfl⟩ | ⟨d1, rfl⟩ <;> simp at hcr

theorem iter_active {s : Store} {pr : SwapParams} {st st' : SwapState} {i : Int} {ini : Bool} {r : SwapResult}
    {cfg : Config} {p1 : Pool} {rem : Nat} {u : TickUpdRes} (hs : Struct s) (ht : TickSum s) (hk : pr.key.wf)
    (hv : IterView s pr st st' i ini r cfg p1 rem u)
    (h : LoopOk pr.xToY pr.key.tier.spacing pr.limit st.pool st.remaining) (hr : st.remaining ≠ 0)
    (h' : LoopOk pr.xToY pr.key.tier.spacing pr.limit st'.pool st'.remaining)
    (ha : st.pool.liquidity = liquidityInRange s pr.key st.pool.tick) :
    st'.pool.liquidity = liquidityInRange s pr.key st'.pool.tick ∨
      (st'.remaining = 0 ∧ ¬ RegularPool s pr.key pr.xToY pr.byAmountIn pr.limit st'.pool) := by
  rcases iter_drift hs ht hk hv h hr h' (dr := 0) (by omega) with h1 | ⟨h1, delta, h2, -⟩
  · left; omega
  · exact .inr ⟨h1, h2.irregular⟩

theorem netAt_unused {s : Store} {k : PoolKey} {t : Int} (h : ¬ UsedTick s k t) : netAt s k t = 0 := by
  have h1 : ∀ p ∈ positionsOf s k, ¬ (p.lower = t ∨ p.upper = t) := fun p hp hh => h ⟨p, hp, hh⟩
  have h2 : liquidityStartingAt s k t = sumPositions s k (fun _ => 0) :=
    sumPositions_ext fun p hp => if_neg (fun e => h1 p hp (.inl e))
  have h3 : liquidityEndingAt s k t = sumPositions s k (fun _ => 0) :=
    sumPositions_ext fun p hp => if_neg (fun e => h1 p hp (.inr e))
  unfold netAt
  rw [h2, h3, Int.sub_self]

/-- An iteration from Y to X that ends at the limit, on a tick, never counts that tick. -/
theorem iter_drift_up {s : Store} {pr : SwapParams} {st st' : SwapState} {i : Int} {ini : Bool} {r : SwapResult}
    {cfg : Config} {p1 : Pool} {rem : Nat} {u : TickUpdRes} (hs : Struct s) (ht : TickSum s) (hk : pr.key.wf)
    (hv : IterView s pr st st' i ini r cfg p1 rem u)
    (h : LoopOk pr.xToY pr.key.tier.spacing pr.limit st.pool st.remaining) (hr : st.remaining ≠ 0)
    (h' : LoopOk pr.xToY pr.key.tier.spacing pr.limit st'.pool st'.remaining)
    {dr : Int} (ha : (st.pool.liquidity : Int) = liquidityInRange s pr.key st.pool.tick + dr)
    (hd : pr.xToY = false) (hl : st'.pool.sqrtPrice = pr.limit) (hl' : st'.pool.sqrtPrice = sqrtPriceAt st'.pool.tick) :
    (st'.pool.liquidity : Int) = liquidityInRange s pr.key st'.pool.tick + dr - netAt s pr.key st'.pool.tick := by
  have hnp := iter_price_eq hv
  have hlim := h.lim hr
  simp only [hd, Bool.false_eq_true, if_false] at hlim
  have hlt : st.pool.tick < st'.pool.tick := by
    by_contra hc
    have h1 := h'.tick.price_le h.tick (by omega)
    have h2 := h.lo
    omega
  have hcr : u.crossed = false := by
    rcases hv.fin with ⟨t, c1, c2, upd, rfl⟩ | ⟨e, c1, c2, c3, c4, rfl⟩ | ⟨e, t, tp, c1, c2, c3, c4, c5, c6, c7, c8, rfl⟩ |
      ⟨t, c1, c2, c3, c4, c5, c6, c7, c8⟩
    · rfl
    · rfl
    · exact absurd (hnp.symm.trans hl) c3
    · rw [hd] at c4; simp at c4
  rcases iter_drift hs ht hk hv h hr h' ha with h1 | ⟨-, delta, hm, h1⟩
  · rcases iter_region hs ht hk hv h hr h' hcr with hreg | ⟨-, delta, hm, h2⟩
    · rw [netAt_unused (hreg _ h'.tick (.inl ⟨hlt, Int.le_refl _⟩)), h1]
      omega
    · rcases hm with ⟨-, -, -, -, rfl⟩ | ⟨h3, -⟩ | ⟨h3, -⟩
      · have := iter_keep_liquidity hv hcr
        omega
      · rw [hd] at h3; simp at h3
      · rw [hd] at h3; simp at h3
  · rcases hm with ⟨-, -, -, -, rfl⟩ | ⟨h3, -⟩ | ⟨h3, -⟩
    · omega
    · rw [hd] at h3; simp at h3
    · rw [hd] at h3; simp at h3

/-! ## Whole swaps -/

/-- A swap keeps the difference between the pool's liquidity and that of the positions in range, unless it misses a tick. -/
theorem swap_drift {s : Store} {now : Nat} {k : PoolKey} {d : Bool} {amount : Nat} {b : Bool} {limit : Nat}
    {res : CalcSwapResult} {pool : Pool} (hs : Struct s) (hb : BitInv s) (ht : TickSum s) (hk : k.wf)
    (hp : s.pools.get? k.key = some pool) (hok : PoolOk k.tier.spacing pool)
    {dr : Int} (ha : (pool.liquidity : Int) = liquidityInRange s k pool.tick + dr)
    (h : calculateSwap s now k d amount b limit = .ok res) :
    ∃ delta, (delta = 0 ∨ Miss s k d b limit res.pool delta) ∧
      (res.pool.liquidity : Int) = liquidityInRange s k res.pool.tick + dr + delta ∧
      (d = false → res.pool.sqrtPrice = limit → res.pool.sqrtPrice = sqrtPriceAt res.pool.tick →
        delta = - netAt s k res.pool.tick) := by
  obtain ⟨st, h1, -, -, -, -, -, rfl⟩ := swap_induct hs hb hk hp hok h
    (fun x => ((x.pool.liquidity : Int) = liquidityInRange s k x.pool.tick + dr ∨
      (x.remaining = 0 ∧ ∃ delta, Miss s k d b limit x.pool delta ∧
        (x.pool.liquidity : Int) = liquidityInRange s k x.pool.tick + dr + delta)) ∧
      (d = false → x.pool.sqrtPrice = limit → x.pool.sqrtPrice = sqrtPriceAt x.pool.tick →
        (x.pool.liquidity : Int) = liquidityInRange s k x.pool.tick + dr - netAt s k x.pool.tick))
    (fun x y i ini r cfg p1 rem u hv hx hr hy hP => by
      rcases hP.1 with hP | hP
      · exact ⟨iter_drift hs ht hk hv hx hr hy hP, fun a b c => iter_drift_up hs ht hk hv hx hr hy hP a b c⟩
      · exact absurd hP.1 hr)
    (fun _ hl => ⟨.inl ha, fun a b _ => by
      simp only [a, Bool.false_eq_true, if_false] at hl
      simp only at b
      omega⟩)
  obtain ⟨h1, h3⟩ := h1
  rcases h1 with h1 | ⟨-, delta, h1, h2⟩
  · refine ⟨0, .inl rfl, by rw [Int.add_zero]; exact h1, fun a b c => ?_⟩
    have := h3 a b c
    simp only
    omega
  · refine ⟨delta, .inr h1, h2, fun a b c => ?_⟩
    have := h3 a b c
    simp only
    omega

theorem swap_active {s : Store} {now : Nat} {k : PoolKey} {d : Bool} {amount : Nat} {b : Bool} {limit : Nat}
    {res : CalcSwapResult} {pool : Pool} (hs : Struct s) (hb : BitInv s) (ht : TickSum s) (hk : k.wf)
    (hp : s.pools.get? k.key = some pool) (hok : PoolOk k.tier.spacing pool)
    (ha : pool.liquidity = liquidityInRange s k pool.tick)
    (h : calculateSwap s now k d amount b limit = .ok res) (hreg : RegularPool s k d b limit res.pool) :
    res.pool.liquidity = liquidityInRange s k res.pool.tick := by
  obtain ⟨delta, h1 | h1, h2, -⟩ := swap_drift hs hb ht hk hp hok (dr := 0) (by omega) h
  · omega
  · exact absurd hreg h1.irregular

/-! ## All calls -/

/-- The liquidity of every pool of `P` is that of its positions in range. -/
def ActiveIn (P : PoolKey → Prop) (s : Store) : Prop := ∀ k : PoolKey, k.wf → P k → drift s k = 0

theorem drift_same {s s' : Store} (h1 : s'.pools = s.pools)
    (h2 : ∀ k t, liquidityInRange s' k t = liquidityInRange s k t) (k : PoolKey) : drift s' k = drift s k := by
  unfold drift
  rw [h1]
  cases s.pools.get? k.key with
  | none => rfl
  | some p => simp only [h2]

theorem drift_insert {s s' : Store} {k : PoolKey} {p : Pool} (hk : k.wf)
    (e : s'.pools = s.pools.insert k.key p)
    (h2 : ∀ k' t, k'.wf → k' ≠ k → liquidityInRange s' k' t = liquidityInRange s k' t)
    {dr : Int} (hp : (p.liquidity : Int) = liquidityInRange s' k p.tick + dr) {k' : PoolKey} (hk' : k'.wf) :
    drift s' k' = if k' = k then dr else drift s k' := by
  unfold drift
  rw [e, KV.get?_insert]
  by_cases he : k' = k
  · rw [if_pos (by rw [he]), if_pos he, he]
    simp only
    omega
  · rw [if_neg (fun h => he (PoolKey.key_inj hk' hk h)), if_neg he]
    cases s.pools.get? k'.key with
    | none => rfl
    | some q => simp only [h2 k' _ hk' he]

theorem drift_of {s : Store} {k : PoolKey} {p : Pool} (hp : s.pools.get? k.key = some p) :
    (p.liquidity : Int) = liquidityInRange s k p.tick + drift s k := by
  unfold drift
  rw [hp]
  simp only
  omega

/-- As `drift_insert`, for a pool whose difference stays the same. -/
theorem drift_keep {s s' : Store} {k : PoolKey} {p : Pool} (hk : k.wf)
    (e : s'.pools = s.pools.insert k.key p)
    (h2 : ∀ k' t, k'.wf → k' ≠ k → liquidityInRange s' k' t = liquidityInRange s k' t)
    (hp : (p.liquidity : Int) = liquidityInRange s' k p.tick + drift s k) {k' : PoolKey} (hk' : k'.wf) :
    drift s' k' = drift s k' := by
  rw [drift_insert hk e h2 hp hk']
  split
  · rename_i h; rw [h]
  · rfl

theorem amountDelta_inside {t : Int} {p L : Nat} {sg : Bool} {u l : Int} {r : Nat × Nat × Bool}
    (h : calculateAmountDelta t p L sg u l = .ok r) : r.2.2 = decide (l ≤ t ∧ t < u) := by
  unfold calculateAmountDelta at h
  split at h
  · simp at h
  · split at h
    · simp only [bind_ok, pure_ok] at h
      obtain ⟨_, _, _, _, _, _, rfl⟩ := h
      simp; omega
    · split at h
      · simp only [bind_ok, pure_ok] at h
        obtain ⟨_, _, _, _, _, _, _, _, rfl⟩ := h
        simp; omega
      · simp only [bind_ok, pure_ok] at h
        obtain ⟨_, _, _, _, _, _, rfl⟩ := h
        simp; omega

/-- What adding or removing liquidity does to the pool. -/
theorem modify_liquidity {pos : Position} {pool : Pool} {tu tl : Tick} {delta : Nat} {add : Bool} {now ts : Nat} {r : ModifyRes}
    (h : pos.modify pool tu tl delta add now ts = .ok r) :
    r.pool.tick = pool.tick ∧ r.pool.sqrtPrice = pool.sqrtPrice ∧ r.pool.fgX = pool.fgX ∧ r.pool.fgY = pool.fgY ∧
    (if tl.index ≤ pool.tick ∧ pool.tick < tu.index then
      (if add then r.pool.liquidity = pool.liquidity + delta else delta ≤ pool.liquidity ∧ r.pool.liquidity = pool.liquidity - delta)
      else r.pool.liquidity = pool.liquidity) := by
  obtain ⟨q, d1, d2, -, d3, e, -, -⟩ := Position.modify_inv h
  obtain ⟨a, liq, h1, h2, h3⟩ := Pool.updateLiquidity_inv d3
  have h4 := amountDelta_inside h1
  rw [(Tick.update_inv d1).1, (Tick.update_inv d2).1] at h4
  simp only at h4
  rw [e, h3]
  refine ⟨rfl, rfl, rfl, rfl, ?_⟩
  rw [h4] at h2
  simp only [decide_eq_true_eq] at h2 ⊢
  split
  · rename_i hc
    rw [if_pos hc] at h2
    split
    · rename_i ha; rw [if_pos ha] at h2; exact h2.2
    · rename_i ha; rw [if_neg ha] at h2; exact h2
  · rename_i hc
    rw [if_neg hc] at h2
    exact h2

theorem drift_quiet {c : Chain} {env : Env} {s s' : Store} (hs : Struct s) (hi : PosInv s)
    (hm : Quiet c env s s') {k0 : PoolKey} (hk0 : k0.wf) : drift s' k0 = drift s k0 := by
  cases hm with
  | @config cfg cfg' hc hf ht => exact drift_same rfl (fun _ _ => rfl) k0
  | opers ops => exact drift_same rfl (fun _ _ => rfl) k0
  | @poolMeta k p rcv px py hk hp hx hy =>
    refine drift_keep (p := { p with protoX := px, protoY := py, feeReceiver := rcv }) hk (by rfl) (fun _ _ _ _ => by rfl) ?_ hk0
    exact (drift_of hp :)
  | @newPool _ t0 t1 tier price tick out hw hh =>
    obtain ⟨cfg, k, pool, h1, h2, h3, h4, h5, h6, rfl, _⟩ := createPool_inv hh
    have hk : k.wf := by
      unfold PoolKey.new at h4
      obtain ⟨w1, w2, w3, _⟩ := hw
      split at h4
      · simp at h4
      · split at h4
        · rw [ok_inj] at h4; subst h4; exact ⟨w1, w2, w3⟩
        · rw [ok_inj] at h4; subst h4; exact ⟨w2, w1, w3⟩
    refine drift_keep (p := pool) hk (by rfl) (fun _ _ _ _ => by rfl) ?_ hk0
    have hdr : drift s k = 0 := by unfold drift; rw [h5]
    have hl : pool.liquidity = 0 := by
      unfold Pool.create at h6
      rw [bind_ok] at h6
      obtain ⟨b, -, h6⟩ := h6
      cases b
      · simp at h6
      · simp only [Bool.not_true, Bool.false_eq_true, if_false, pure_ok] at h6
        rw [← h6]
    rw [hl, hdr, Int.add_zero]
    refine congrArg (Nat.cast (R := Int)) ?_
    symm
    show sumPositions s k _ = 0
    have : positionsOf s k = [] := by
      rw [List.eq_nil_iff_forall_not_mem]
      intro p hp
      unfold positionsOf at hp
      rw [List.mem_filter, decide_eq_true_eq] at hp
      obtain ⟨key, hkk⟩ := (mem_vals _ _).1 hp.1
      obtain ⟨q, hq⟩ := (hs.positions key p hkk).pool
      rw [hp.2, h5] at hq
      simp at hq
    unfold sumPositions
    rw [this]; rfl
  | @create _ info k l u L lo hi' out hw hh =>
    obtain ⟨p, hwhat, hperm⟩ := createPosition_sum hs hi hw hh
    obtain ⟨pool, tl, tu, r, rl, m1, m2, hp, hL, hlu, vl, vu, il, iu, _, _, _, _, _, hm, e1, e2, e3, _⟩ :=
      createPosition_view hs hw hh
    simp only [Position.what, Prod.mk.injEq] at hwhat
    obtain ⟨w1, w2, w3, w4⟩ := hwhat
    obtain ⟨m1, -, -, -, m2⟩ := modify_liquidity hm
    have hsum : ∀ k' t, liquidityInRange s' k' t =
        (if k = k' then if l ≤ t ∧ t < u then L else 0 else 0) + liquidityInRange s k' t := by
      intro k' t
      unfold liquidityInRange
      rw [sumPositions_cons hperm, w1, w2, w3, w4]
    refine drift_keep hw.1 e3 (fun k' t _ hne => by rw [hsum, if_neg (Ne.symm hne), Nat.zero_add]) ?_ hk0
    have h1 := drift_of hp
    rw [hsum, if_pos rfl, m1]
    rw [il, iu] at m2
    simp only [if_true] at m2
    split at m2 <;> rename_i hc
    · rw [if_pos hc]; omega
    · rw [if_neg hc]; omega
  | @claim _ info i out hw hh =>
    obtain ⟨pos, tl, tu, pool, r, hpos, htl, htu, il, iu, hp, hm, _, _, _, _, e3, hp', _⟩ := claimFee_view hs hh
    have hk := (hs.positions _ _ hpos).kwf
    obtain ⟨q, d1, d2, d3, _⟩ := Position.modify_inv hm
    obtain ⟨ox, oy, l', _, _, _, w, _, _, e⟩ := Position.update_inv d3
    simp only [if_true, Nat.add_zero] at w
    have hsum : ∀ k' t, liquidityInRange s' k' t = liquidityInRange s k' t := fun k' t =>
      sumPositions_edit hpos hp' _ _ (by rw [e]) (by rw [e, w.2])
    obtain ⟨m1, -, -, -, m2⟩ := modify_liquidity hm
    refine drift_keep hk e3 (fun k' t _ _ => hsum k' t) ?_ hk0
    rw [hsum, m1, ← drift_of hp]
    simp only [if_true, Nat.add_zero, ite_self] at m2
    rw [m2]
  | @remove _ info i out hw hh =>
    obtain ⟨p, hpos', hperm⟩ := removePosition_sum hs hi hw hh
    obtain ⟨pos, tl, tu, pool, r, sr, s1, s2, hpos, htl, htu, il, iu, hp, hm, _, _, jl, ju, _, _, hr, _, _, _, e5, _⟩ :=
      removePosition_view hs hh
    have hpe : p = pos := by rw [hpos] at hpos'; exact (Option.some.inj hpos').symm
    rw [hpe] at hperm
    have hk := (hs.positions _ _ hpos).kwf
    obtain ⟨m1, -, -, -, m2⟩ := modify_liquidity hm
    have hsum : ∀ k' t, liquidityInRange s k' t =
        (if pos.poolKey = k' then if pos.lower ≤ t ∧ t < pos.upper then pos.liquidity else 0 else 0) +
          liquidityInRange s' k' t := by
      intro k' t
      unfold liquidityInRange
      rw [sumPositions_cons hperm]
    refine drift_keep hk e5 (fun k' t _ hne => by rw [hsum, if_neg (Ne.symm hne), Nat.zero_add]) ?_ hk0
    have h1 := drift_of hp
    rw [hsum, if_pos rfl] at h1
    rw [m1]
    rw [il, iu] at m2
    simp only [Bool.false_eq_true, if_false] at m2
    split at m2 <;> rename_i hc
    · rw [if_pos hc] at h1; omega
    · rw [if_neg hc] at h1; omega
  | @move s1 _ o r i p hw h1 h2 =>
    refine drift_same ?_ (fun k t => sumPositions_move hi hw h1 h2 _ _ rfl) k0
    obtain ⟨_, rfl⟩ := addPosition_ok.1 h2
    obtain ⟨_, _, rfl⟩ := removePositionAt_frame h1
    rfl
  | @appr id p a h' =>
    refine drift_same (by rfl) (fun k t => ?_) k0
    exact sumPositions_edit
      (s' := { s with positions := s.positions.insert id { p with approvals := a } }) h' rfl _ _ rfl rfl

theorem drift_swap {c : Chain} {s : Store} {info : Info} {now : Nat} {k : PoolKey} {d : Bool} {amount : Nat}
    {b : Bool} {limit : Nat} {x : Store × List OutMsg × CalcSwapResult} (hr : MReach c s) (hk : k.wf)
    (hh : swapInternal c s info now k d amount b limit = .ok x) :
    ∃ delta, (delta = 0 ∨ Missed x.1 k d b limit delta) ∧
      (∀ k' : PoolKey, k'.wf → drift x.1 k' = drift s k' + if k' = k then delta else 0) ∧
      (∀ p, x.1.pools.get? k.key = some p → d = false → p.sqrtPrice = limit → p.sqrtPrice = sqrtPriceAt p.tick →
        delta = - netAt x.1 k p.tick) := by
  obtain ⟨s1, m1, h1, h2, h3, _, _⟩ := swapInternal_inv hh
  obtain ⟨pool, st, _, hp, _⟩ := calculateSwap_inv h1
  obtain ⟨t, e1⟩ := swapInternal_frame hh
  have epos : x.1.positions = s.positions := by rw [e1]
  have ep : x.1.pools = s.pools.insert k.key x.2.2.pool := by rw [e1]
  have hu : ∀ j, UsedTick x.1 k j ↔ UsedTick s k j := fun j => by unfold UsedTick positionsOf; rw [epos]
  have hn : ∀ j, netAt x.1 k j = netAt s k j := fun j => by
    unfold netAt liquidityStartingAt liquidityEndingAt
    rw [sumPositions_congr epos, sumPositions_congr epos]
  have hsum : ∀ k' t, liquidityInRange x.1 k' t = liquidityInRange s k' t := fun k' t => sumPositions_congr epos _ _
  obtain ⟨delta, h4, h5, h6⟩ := swap_drift hr.struct hr.bitInv hr.tickSum hk hp (hr.price k pool hk hp) (drift_of hp) h1
  refine ⟨delta, h4.imp id (fun h => ⟨x.2.2.pool, by rw [ep]; exact KV.get?_insert_same _ _ _, ?_⟩), fun k' hk' => ?_, fun p hp' => ?_⟩
  · unfold Miss at h
    simp only [← hu, ← hn] at h
    exact h
  · rw [drift_insert hk ep (fun k' t _ _ => hsum k' t) (dr := drift s k + delta) (by rw [hsum, h5]; omega) hk']
    split
    · rename_i h; rw [h]
    · omega
  · rw [ep, KV.get?_insert_same, Option.some.injEq] at hp'
    rw [← hp', hn]
    exact h6

theorem Missed.irregular {s : Store} {k : PoolKey} {d b : Bool} {limit : Nat} {delta : Int}
    (h : Missed s k d b limit delta) : ¬ RegularEnd s k d b limit := by
  obtain ⟨p, hp, h⟩ := h
  exact fun hr => Miss.irregular h (hr p hp)

theorem ActiveIn.swap {c : Chain} {P : PoolKey → Prop} {s : Store} {info : Info} {now : Nat} {k : PoolKey} {d : Bool} {amount : Nat}
    {b : Bool} {limit : Nat} {x : Store × List OutMsg × CalcSwapResult} (hr : MReach c s) (h : ActiveIn P s) (hk : k.wf)
    (hh : swapInternal c s info now k d amount b limit = .ok x) (hreg : P k → RegularEnd x.1 k d b limit) : ActiveIn P x.1 := by
  obtain ⟨delta, h1, h2, -⟩ := drift_swap hr hk hh
  intro k' hk' ht
  rw [h2 k' hk', h k' hk' ht]
  by_cases e : k' = k
  · rcases h1 with h1 | h1
    · rw [h1]; simp
    · exact absurd (hreg (e ▸ ht)) h1.irregular
  · rw [if_neg e]; rfl

theorem drift_route {c : Chain} {info : Info} {now : Nat} : ∀ {hops : List Hop} {s s' : Store}
    {a fin : Nat} {m out : List OutMsg}, MReach c s → (∀ h ∈ hops, h.poolKey.wf) → a < U128 →
    swapRouteInternal c info now hops s a m = .ok (s', fin, out) → ∀ {k : PoolKey}, k.wf →
    ∃ delta, MissedOnRoute c info now k hops s a delta ∧ drift s' k = drift s k + delta
  | [], s, s', a, fin, m, out, _, _, _, h, k, _ => by
    simp only [swapRouteInternal, ok_inj, Prod.mk.injEq] at h
    exact ⟨0, rfl, by rw [h.1]; omega⟩
  | hh :: hops, s, s', a, fin, m, out, hr, hw, ha, h, k, hk0 => by
    simp only [swapRouteInternal, bind_ok] at h
    obtain ⟨x, h1, h2⟩ := h
    have hk := hw hh (by simp)
    have hm : Micro c s x.1 := .swap hk ha (by unfold hopLimit; split <;> decide) h1
    obtain ⟨d1, a1, a2, -⟩ := drift_swap hr hk h1
    obtain ⟨d2, b1, b2⟩ := drift_route (.step hr hm) (fun h hh => hw h (by simp [hh])) (swapInternal_out_lt h1) h2 hk0
    refine ⟨_, ⟨x, if k = hh.poolKey then d1 else 0, d2, h1, ?_, b1, rfl⟩, ?_⟩
    · split
      · rename_i he; rw [he]; exact a1.imp id (fun h => ⟨rfl, h⟩)
      · exact .inl rfl
    · rw [b2, a2 k hk0]; omega

theorem ActiveIn.route {c : Chain} {P : PoolKey → Prop} {info : Info} {now : Nat} : ∀ {hops : List Hop} {s s' : Store}
    {a fin : Nat} {m out : List OutMsg}, MReach c s → ActiveIn P s → (∀ h ∈ hops, h.poolKey.wf) → a < U128 →
    swapRouteInternal c info now hops s a m = .ok (s', fin, out) → RegularRoute c P info now hops s a → ActiveIn P s'
  | [], s, s', a, fin, m, out, _, h0, _, _, h, _ => by
    simp only [swapRouteInternal, ok_inj, Prod.mk.injEq] at h
    exact h.1 ▸ h0
  | hh :: hops, s, s', a, fin, m, out, hr, h0, hw, ha, h, hreg => by
    simp only [swapRouteInternal, bind_ok] at h
    obtain ⟨x, h1, h2⟩ := h
    obtain ⟨g1, g2⟩ := hreg x h1
    have hk := hw hh (by simp)
    have hm : Micro c s x.1 := .swap hk ha (by unfold hopLimit; split <;> decide) h1
    exact ActiveIn.route (.step hr hm) (h0.swap hr hk h1 g1) (fun h hh => hw h (by simp [hh]))
      (swapInternal_out_lt h1) h2 g2

theorem ActiveIn.step {c : Chain} {P : PoolKey → Prop} {s s' : Store} {env : Env} {info : Info} {msg : Msg} {out : List OutMsg}
    (hr : Reach c s) (h : ActiveIn P s) (he : execute c env info msg s = .ok (s', out)) (hreg : RegularCall c P env info s s' msg) :
    ActiveIn P s' := by
  have hm := hr.mreach
  by_cases hsw : msg.isSwap = false
  · intro k hk ht
    rw [drift_quiet hm.struct hm.posInv (execute_quiet hsw he) hk]
    exact h k hk ht
  · have hw := (execute_ok.1 he).1
    replace he := (execute_ok.1 he).2
    cases msg <;> simp only [Msg.isSwap, not_true] at hsw
    case swap k d a b l =>
      simp only [dispatch] at he
      obtain ⟨r, h1⟩ := swap_inv he
      exact h.swap hm hw.1 h1 hreg
    case swapRoute a e sl hops =>
      simp only [dispatch] at he
      obtain ⟨fin, m, h1, _, _⟩ := swapRoute_inv he
      exact ActiveIn.route hm h hw.2.2.2 hw.1 h1 hreg

/-- One pool. -/
theorem drift_step {c : Chain} {k : PoolKey} {s s' : Store} {env : Env} {info : Info} {msg : Msg} {out : List OutMsg}
    (hr : Reach c s) (hk : k.wf) (h : drift s k = 0) (he : execute c env info msg s = .ok (s', out))
    (hreg : RegularCall c (· = k) env info s s' msg) : drift s' k = 0 :=
  ActiveIn.step (P := (· = k)) hr (fun _ _ e => e ▸ h) he hreg k hk rfl

theorem RegularReach.reach {c : Chain} {P : PoolKey → Prop} {s : Store} (h : RegularReach c P s) : Reach c s := by
  induction h with
  | init sender fee hf => exact .init sender fee hf
  | step _ he _ ih => exact .step ih he

theorem activeIn_init (P : PoolKey → Prop) (sender : Bytes) (fee : Nat) : ActiveIn P (instantiate sender fee) := by
  intro k _ _
  simp [drift, instantiate, Store.empty, KV.get?_empty]

theorem RegularReach.active {c : Chain} {P : PoolKey → Prop} {s : Store} (h : RegularReach c P s) : ActiveIn P s := by
  induction h with
  | init sender fee hf => exact activeIn_init P sender fee
  | step hr he hreg ih => exact ih.step hr.reach he hreg

theorem active_of {s : Store} {k : PoolKey} {p : Pool} (h : drift s k = 0) (hp : s.pools.get? k.key = some p) :
    p.liquidity = liquidityInRange s k p.tick := by
  have := drift_of hp
  omega

/-! Fewer pools demand less. -/

theorem RegularRoute.mono {c : Chain} {P Q : PoolKey → Prop} (hPQ : ∀ k, Q k → P k) {info : Info} {now : Nat} :
    ∀ {hops : List Hop} {s : Store} {a : Nat}, RegularRoute c P info now hops s a → RegularRoute c Q info now hops s a
  | [], _, _, _ => trivial
  | _ :: _, _, _, h => fun r hr => ⟨fun hq => (h r hr).1 (hPQ _ hq), RegularRoute.mono hPQ (h r hr).2⟩

theorem RegularCall.mono {c : Chain} {P Q : PoolKey → Prop} (hPQ : ∀ k, Q k → P k) {env : Env} {info : Info} {s s' : Store} {msg : Msg}
    (h : RegularCall c P env info s s' msg) : RegularCall c Q env info s s' msg := by
  cases msg <;> first | trivial | skip
  case swap k d a b l => exact fun hq => h (hPQ _ hq)
  case swapRoute a e sl hops => exact RegularRoute.mono hPQ h

theorem RegularReach.mono {c : Chain} {P Q : PoolKey → Prop} (hPQ : ∀ k, Q k → P k) {s : Store} (h : RegularReach c P s) :
    RegularReach c Q s := by
  induction h with
  | init sender fee hf => exact .init sender fee hf
  | step _ he hreg ih => exact .step ih he (hreg.mono hPQ)

end OraiV3
