import Verif.Lemmas.Principal

/-!
# The books of a pool during a swap
-/

namespace OraiV3

/-! ## Counting the iterations -/

theorem swapLoop_count {s : Store} {pr : SwapParams} (P : Nat → SwapState → Prop)
    (hstep : ∀ n a b, P n a → a.remaining ≠ 0 → swapIter s pr a = .ok b → P (n + 1) b) :
    ∀ (n m : Nat) (st st' : SwapState), P m st → swapLoop s pr n st = .ok st' →
      P (m + loopSteps s pr n st) st' ∧ st'.remaining = 0
  | 0, m, st, st', h0, h => by
    unfold swapLoop at h
    rw [ite_ok_error, ok_inj] at h
    exact h.2 ▸ ⟨h0, h.1⟩
  | n + 1, m, st, st', h0, h => by
    unfold swapLoop at h
    unfold loopSteps
    split at h
    · rename_i hz
      rw [ok_inj] at h; subst h
      rw [if_pos hz]
      exact ⟨h0, hz⟩
    · rename_i hz
      rw [bind_ok] at h
      obtain ⟨b, hb, h⟩ := h
      rw [if_neg hz, hb]
      have := swapLoop_count P hstep n (m + 1) b st' (hstep m st b h0 hz hb) h
      rwa [show m + 1 + loopSteps s pr n b = m + (loopSteps s pr n b + 1) by omega] at this

theorem swap_count {s : Store} {now : Nat} {k : PoolKey} {d : Bool} {amount : Nat} {b : Bool} {limit : Nat}
    {res : CalcSwapResult} {pool : Pool} (hs : Struct s) (hb : BitInv s) (hk : k.wf)
    (hp : s.pools.get? k.key = some pool) (hok : PoolOk k.tier.spacing pool)
    (h : calculateSwap s now k d amount b limit = .ok res) (P : Nat → SwapState → Prop)
    (hstep : ∀ n x y i ini r cfg p1 rem u, IterView s ⟨k, d, b, limit, now⟩ x y i ini r cfg p1 rem u →
      LoopOk d k.tier.spacing limit x.pool x.remaining → x.remaining ≠ 0 →
      LoopOk d k.tier.spacing limit y.pool y.remaining → P n x → P (n + 1) y)
    (h0 : P 0 { pool := pool, remaining := amount, totalIn := 0, totalOut := 0, fee := 0, ticks := [] }) :
    ∃ st, P (swapSteps s now k d amount b limit) st ∧ st.remaining = 0 ∧
      res = { amountIn := st.totalIn, amountOut := st.totalOut, startPrice := pool.sqrtPrice,
              targetPrice := st.pool.sqrtPrice, fee := st.fee, pool := st.pool, ticks := st.ticks } := by
  obtain ⟨pool', st, h1, h2, h3, h4, h5, h6, h7⟩ := calculateSwap_inv h
  rw [hp, Option.some.injEq] at h2
  subst h2
  have hl : if d then limit < pool.sqrtPrice else pool.sqrtPrice < limit := by
    cases d
    · simp only [Bool.false_eq_true, if_false] at h4 ⊢; exact h4.1
    · simp only [if_true] at h4 ⊢; exact h4.1
  have := swapLoop_count (pr := ⟨k, d, b, limit, now⟩)
    (fun n x => LoopOk d k.tier.spacing limit x.pool x.remaining ∧ P n x) (fun n a b ha hr hab => ?_) swapFuel 0 _ st
    ⟨hok.loop hl, h0⟩ h5
  · refine ⟨st, ?_, this.2, h7⟩
    unfold swapSteps
    rw [hp]
    have := this.1.2
    rwa [Nat.zero_add] at this
  · obtain ⟨i, ini, r, cfg, p1, rem, u, hview⟩ := iter_view hs hb hk (hs.tier hk hp) ha.1.tick hab
    have := iter_ok hview ha.1 hr
    exact ⟨this, hstep n a b i ini r cfg p1 rem u hview ha.1 hr this ha.2⟩

/-! ## What has accrued -/

theorem wsub_wadd_le (a f δ : Nat) : wsub (wadd a δ) f ≤ wsub a f + δ := by
  unfold wsub wadd
  generalize hM : U128 = M
  generalize (M - f) = z
  have e : ((a + δ) % M + z) % M = ((a + z) % M + δ) % M := by
    rw [Nat.mod_add_mod, Nat.mod_add_mod]
    congr 1; omega
  rw [e]
  exact Nat.mod_le _ _

theorem growthInside_lt (m : KV Tick) (k : PoolKey) (p : Pool) (x : Bool) (l u : Int) : growthInside m k p x l u < U128 := by
  simp only [growthInside_code]
  unfold feeGrowthInside
  exact wsub_lt _ _

theorem sumPositions_le {s : Store} {k : PoolKey} {f g : Position → Nat} (h : ∀ q ∈ positionsOf s k, f q ≤ g q) :
    sumPositions s k f ≤ sumPositions s k g := by
  unfold sumPositions
  generalize positionsOf s k = l at *
  induction l with
  | nil => exact Nat.le_refl _
  | cons p l ih =>
    simp only [List.map_cons, List.sum_cons]
    exact Nat.add_le_add (h p (by simp)) (ih (fun q hq => h q (by simp [hq])))

theorem sumPositions_mul (s : Store) (k : PoolKey) (c : Nat) (f : Position → Nat) :
    sumPositions s k (fun q => c * f q) = c * sumPositions s k f := by
  unfold sumPositions
  induction positionsOf s k with
  | nil => simp
  | cons p l ih => simp only [List.map_cons, List.sum_cons]; rw [ih]; ring

/-- One iteration: what has accrued grows by at most the fee growth times the liquidity in range. -/
theorem iter_accrued {s : Store} {pr : SwapParams} {st st' : SwapState} {δ fees : Nat} (hs : Struct s)
    (h : IterFees s pr st st' δ fees) (x : Bool) :
    sumPositions s pr.key (accruedIn (withTicks s.ticks pr.key st'.ticks) st'.pool x) ≤
      sumPositions s pr.key (accruedIn (withTicks s.ticks pr.key st.ticks) st.pool x) +
        (if x = pr.xToY then δ else 0) * liquidityInRange s pr.key st.pool.tick ∧
    (x ≠ pr.xToY → sumPositions s pr.key (accruedIn (withTicks s.ticks pr.key st'.ticks) st'.pool x) =
      sumPositions s pr.key (accruedIn (withTicks s.ticks pr.key st.ticks) st.pool x)) := by
  have key : ∀ q ∈ positionsOf s pr.key, accruedIn (withTicks s.ticks pr.key st'.ticks) st'.pool x q =
      wsub (wadd (growthInside (withTicks s.ticks pr.key st.ticks) pr.key st.pool x q.lower q.upper)
        (if x = pr.xToY ∧ q.lower ≤ st.pool.tick ∧ st.pool.tick < q.upper then δ else 0)) (q.fgIn x) * q.liquidity := by
    intro q hq
    obtain ⟨hk, h1, h2, h3⟩ := hs.posOf hq
    unfold accruedIn
    rw [hk, h.inside x _ _ h1 h2 ⟨q, hq, .inl rfl⟩ ⟨q, hq, .inr rfl⟩ h3]
  constructor
  · rw [liquidityInRange, ← sumPositions_mul, sumPositions_add]
    apply sumPositions_le
    intro q hq
    obtain ⟨hk, -⟩ := hs.posOf hq
    rw [key q hq]
    unfold accruedIn
    rw [hk]
    refine Nat.le_trans (Nat.mul_le_mul_right _ (wsub_wadd_le _ _ _)) ?_
    rw [Nat.add_mul]
    apply Nat.add_le_add_left
    by_cases e : x = pr.xToY
    · by_cases c : q.lower ≤ st.pool.tick ∧ st.pool.tick < q.upper
      · rw [if_pos ⟨e, c⟩, if_pos e, if_pos c]
      · rw [if_neg (fun hh => c hh.2), Nat.zero_mul]; exact Nat.zero_le _
    · rw [if_neg (fun hh => e hh.1), Nat.zero_mul]; exact Nat.zero_le _
  · intro hx
    apply sumPositions_ext
    intro q hq
    obtain ⟨hk, -⟩ := hs.posOf hq
    rw [key q hq, if_neg (fun hh => hx hh.1), wadd_zero (growthInside_lt _ _ _ _ _ _)]
    unfold accruedIn
    rw [hk]

theorem sum_map_le {l : List Position} {f g : Position → Nat} (h : ∀ q ∈ l, f q ≤ g q) : (l.map f).sum ≤ (l.map g).sum := by
  induction l with
  | nil => exact Nat.le_refl _
  | cons p l ih =>
    simp only [List.map_cons, List.sum_cons]
    exact Nat.add_le_add (h p (by simp)) (ih (fun q hq => h q (by simp [hq])))

theorem sum_map_sublist {l l' : List Position} (f : Position → Nat) (h : l.Sublist l') : (l.map f).sum ≤ (l'.map f).sum := by
  induction h with
  | slnil => exact Nat.le_refl _
  | cons a _ ih => simp only [List.map_cons, List.sum_cons]; omega
  | cons_cons a _ ih => simp only [List.map_cons, List.sum_cons]; omega

/-- The same for some of the positions: what has accrued to them grows by at most the fee growth times the liquidity of all
positions in range. -/
theorem iter_accrued_part {s : Store} {pr : SwapParams} {st st' : SwapState} {δ fees : Nat} (hs : Struct s)
    (h : IterFees s pr st st' δ fees) {l : List Position} (hl : l.Sublist (positionsOf s pr.key)) :
    (l.map (accruedIn (withTicks s.ticks pr.key st'.ticks) st'.pool pr.xToY)).sum ≤
      (l.map (accruedIn (withTicks s.ticks pr.key st.ticks) st.pool pr.xToY)).sum +
        δ * liquidityInRange s pr.key st.pool.tick := by
  have key : ∀ q ∈ l, accruedIn (withTicks s.ticks pr.key st'.ticks) st'.pool pr.xToY q ≤
      accruedIn (withTicks s.ticks pr.key st.ticks) st.pool pr.xToY q +
        δ * (if q.lower ≤ st.pool.tick ∧ st.pool.tick < q.upper then q.liquidity else 0) := by
    intro q hq
    have hq := hl.subset hq
    obtain ⟨hk, h1, h2, h3⟩ := hs.posOf hq
    unfold accruedIn
    rw [hk, h.inside pr.xToY _ _ h1 h2 ⟨q, hq, .inl rfl⟩ ⟨q, hq, .inr rfl⟩ h3]
    refine Nat.le_trans (Nat.mul_le_mul_right _ (wsub_wadd_le _ _ _)) ?_
    rw [Nat.add_mul]
    apply Nat.add_le_add_left
    by_cases c : q.lower ≤ st.pool.tick ∧ st.pool.tick < q.upper
    · rw [if_pos ⟨rfl, c⟩, if_pos c]
    · rw [if_neg (fun hh => c hh.2), Nat.zero_mul]; exact Nat.zero_le _
  refine Nat.le_trans (sum_map_le key) ?_
  have e : ∀ (l : List Position) (f g : Position → Nat), (l.map (fun q => f q + δ * g q)).sum = (l.map f).sum + δ * (l.map g).sum := by
    intro l f g
    induction l with
    | nil => simp
    | cons a l ih => simp only [List.map_cons, List.sum_cons, ih]; ring
  rw [e]
  apply Nat.add_le_add_left
  exact Nat.mul_le_mul_left _ (sum_map_sublist _ hl)

/-! ## The whole swap -/

/-- The books after some iterations of a swap that started with `pool`: `n` iterations, fee growth `G` so far, and `left`
taken from the input beyond the reported fee. -/
structure SwapBooks (s : Store) (k : PoolKey) (d b : Bool) (pool : Pool) (n : Nat) (x : SwapState) (G left : Nat) : Prop where
  active : x.pool.liquidity = liquidityInRange s k x.pool.tick
  cross : CrossInv s k d x
  fees : sumPositions s k (accruedIn (withTicks s.ticks k x.ticks) x.pool d) + x.pool.proto d * 10 ^ 34 ≤
    sumPositions s k (accruedIn s.ticks pool d) + (pool.proto d + (x.fee + left)) * 10 ^ 34
  parts : ∀ l : List Position, l.Sublist (positionsOf s k) →
    (l.map (accruedIn (withTicks s.ticks k x.ticks) x.pool d)).sum + x.pool.proto d * 10 ^ 34 ≤
    (l.map (accruedIn s.ticks pool d)).sum + (pool.proto d + (x.fee + left)) * 10 ^ 34
  other : sumPositions s k (accruedIn (withTicks s.ticks k x.ticks) x.pool (!d)) = sumPositions s k (accruedIn s.ticks pool (!d))
  proto : pool.proto d ≤ x.pool.proto d
  protoOther : x.pool.proto (!d) = pool.proto (!d)
  last : left ≠ 0 → x.remaining = 0 ∧ d = true ∧ b = true
  total : x.fee + left ≤ x.totalIn
  pin : sumQ s k (fun q => q.principal d x.pool.sqrtPrice) + (x.fee + left : Nat) ≤
    sumQ s k (fun q => q.principal d pool.sqrtPrice) + x.totalIn + n * (if d then 1 / 10 ^ 14 else 0)
  pout : sumQ s k (fun q => q.principal (!d) x.pool.sqrtPrice) + x.totalOut ≤ sumQ s k (fun q => q.principal (!d) pool.sqrtPrice)
  grow : x.pool.fg d = wadd (pool.fg d) G
  growOther : x.pool.fg (!d) = pool.fg (!d)
  path : ∀ j, TickOk k.tier.spacing j → UsedTick s k j →
    if d then pool.tick < j → x.pool.tick < j else j ≤ pool.tick → j ≤ x.pool.tick
  earn : ∀ q ∈ positionsOf s k,
    growthInside (withTicks s.ticks k x.ticks) k x.pool (!d) q.lower q.upper = growthInside s.ticks k pool (!d) q.lower q.upper ∧
    ((if d then q.upper ≤ x.pool.tick ∨ pool.tick < q.lower else x.pool.tick < q.lower ∨ q.upper ≤ pool.tick) →
      growthInside (withTicks s.ticks k x.ticks) k x.pool d q.lower q.upper = growthInside s.ticks k pool d q.lower q.upper) ∧
    ((if d then q.lower ≤ x.pool.tick ∧ pool.tick < q.upper else q.lower ≤ pool.tick ∧ x.pool.tick < q.upper) →
      growthInside (withTicks s.ticks k x.ticks) k x.pool d q.lower q.upper =
        wadd (growthInside s.ticks k pool d q.lower q.upper) G)

theorem books_fees {a a' b0 o o' o0 δ L f u fee left S : Nat} (h1 : a + o * S ≤ b0 + (o0 + (fee + left)) * S) (h2 : a' ≤ a + δ * L)
    (h3 : δ * L + o' * S ≤ (o + (f + u)) * S) (hl : left = 0) : a' + o' * S ≤ b0 + (o0 + (fee + f + u)) * S := by
  subst hl
  nlinarith

theorem iter_books {s : Store} {now : Nat} {k : PoolKey} {d b : Bool} {limit : Nat} {pool : Pool}
    (hs : Struct s) (ht : TickSum s) (hk : k.wf) {n : Nat} {x y : SwapState} {i : Int} {ini : Bool} {r : SwapResult}
    {cfg : Config} {p1 : Pool} {rem : Nat} {u : TickUpdRes} (hv : IterView s ⟨k, d, b, limit, now⟩ x y i ini r cfg p1 rem u)
    (hx : LoopOk d k.tier.spacing limit x.pool x.remaining) (hr : x.remaining ≠ 0)
    (hy : LoopOk d k.tier.spacing limit y.pool y.remaining) {G left : Nat} (h : SwapBooks s k d b pool n x G left) :
    (∃ G left, SwapBooks s k d b pool (n + 1) y G left) ∨ (y.remaining = 0 ∧ ¬ RegularPool s k d b limit y.pool) := by
  rcases iter_active hs ht hk hv hx hr hy h.active with ha | hbad
  swap
  · exact .inr hbad
  rcases iter_fees hs ht hk hv hx hr hy h.cross with ⟨δ, hf⟩ | hbad
  swap
  · exact .inr hbad
  rcases iter_principal hs ht hk hv hx hr hy h.active with ⟨hp1, hp2⟩ | hbad
  swap
  · exact .inr hbad
  left
  have hl0 : left = 0 := by
    by_contra hne
    exact hr (h.last hne).1
  have acc := iter_accrued hs hf
  simp only at acc hp1 hp2
  have e1 : y.fee = x.fee + r.feeAmount := by rw [hv.eq]
  have e2 : y.totalIn = x.totalIn + (r.amountIn + r.feeAmount) + u.total := by rw [hv.eq]
  have e3 : y.totalOut = x.totalOut + r.amountOut := by rw [hv.eq]
  have fgrow := hf.grow
  have fother := hf.other
  have fpo := hf.protoOther
  have fpr := hf.proto
  have fb := hf.bound
  have fpath := hf.path
  have fin := hf.inside
  simp only at fgrow fother fpo fpr fb fpath fin
  refine ⟨G + δ, u.total, ⟨ha, hf.cross, ?_, ?_, ?_, Nat.le_trans h.proto fpr, fpo.trans h.protoOther, ?_, ?_, ?_, ?_, ?_, ?_, ?_, ?_⟩⟩
  · have a1 := (acc d).1
    rw [if_pos rfl, ← h.active] at a1
    rw [e1]
    exact books_fees h.fees a1 fb hl0
  · intro l hl
    have a1 := iter_accrued_part hs hf hl
    simp only at a1
    rw [← h.active] at a1
    rw [e1]
    exact books_fees (h.parts l hl) a1 fb hl0
  · rw [(acc (!d)).2 (by cases d <;> simp)]
    exact h.other
  · intro hne
    rcases hv.fin with ⟨t, c1, c2, upd, rfl⟩ | ⟨e, c1, c2, c3, c4, rfl⟩ | ⟨e, t, tp, c1, c2, c3, c4, c5, c6, c7, c8, rfl⟩ |
      ⟨t, c1, c2, c3, c4, c5, c6, c7, c8⟩
    · exact absurd rfl hne
    · exact absurd rfl hne
    · exact absurd rfl hne
    · rcases c8 with ⟨d1, d2, p, d3, rfl⟩ | ⟨d1, rfl⟩
      · exact ⟨by rw [hv.eq], c4, d2⟩
      · exact absurd rfl hne
  · rw [e1, e2]
    have := h.total
    omega
  · have := h.pin
    rw [e1, e2]
    rw [hl0] at this
    push_cast at this ⊢
    linarith
  · have := h.pout
    rw [e3]
    push_cast
    linarith
  · rw [fgrow, h.grow, wadd_wadd]
  · rw [fother, h.growOther]
  · intro j hj hu
    have a := h.path j hj hu
    have b := fpath j hj hu
    cases d <;> simp only [Bool.false_eq_true, if_false, if_true] at a b ⊢ <;> exact fun hh => b (a hh)
  · intro q hq
    obtain ⟨hqk, h1, h2, h3⟩ := hs.posOf hq
    have ul : UsedTick s k q.lower := ⟨q, hq, .inl rfl⟩
    have uu : UsedTick s k q.upper := ⟨q, hq, .inr rfl⟩
    obtain ⟨i1, i2, i3⟩ := h.earn q hq
    have fl := fpath _ h1 ul
    have fu := fpath _ h2 uu
    have pl := h.path _ h1 ul
    have pu := h.path _ h2 uu
    refine ⟨?_, fun hc => ?_, fun hc => ?_⟩
    · rw [fin _ _ _ h1 h2 ul uu h3, if_neg (by cases d <;> simp), wadd_zero (growthInside_lt _ _ _ _ _ _)]
      exact i1
    · rw [fin _ _ _ h1 h2 ul uu h3, if_neg, wadd_zero (growthInside_lt _ _ _ _ _ _)]
      · apply i2
        cases d <;> simp only [Bool.false_eq_true, if_false, if_true] at fl fu pl pu hc ⊢ <;> omega
      · rintro ⟨-, hh⟩
        cases d <;> simp only [Bool.false_eq_true, if_false, if_true] at fl fu pl pu hc <;> omega
    · rw [fin _ _ _ h1 h2 ul uu h3, if_pos]
      · rw [i3, wadd_wadd]
        cases d <;> simp only [Bool.false_eq_true, if_false, if_true] at fl fu pl pu hc ⊢ <;> omega
      · refine ⟨rfl, ?_⟩
        cases d <;> simp only [Bool.false_eq_true, if_false, if_true] at fl fu pl pu hc <;> omega

/-- The books after a regular swap. -/
theorem swap_books {s : Store} {now : Nat} {k : PoolKey} {d : Bool} {amount : Nat} {b : Bool} {limit : Nat}
    {res : CalcSwapResult} {pool : Pool} (hs : Struct s) (hb : BitInv s) (ht : TickSum s) (hk : k.wf)
    (hp : s.pools.get? k.key = some pool) (hok : PoolOk k.tier.spacing pool)
    (ha : pool.liquidity = liquidityInRange s k pool.tick)
    (h : calculateSwap s now k d amount b limit = .ok res) (hreg : RegularPool s k d b limit res.pool) :
    ∃ G left st, SwapBooks s k d b pool (swapSteps s now k d amount b limit) st G left ∧ st.pool = res.pool ∧
      st.ticks = res.ticks ∧ st.totalIn = res.amountIn ∧ st.totalOut = res.amountOut ∧ st.fee = res.fee := by
  obtain ⟨st, h1, -, rfl⟩ := swap_count hs hb hk hp hok h
    (fun n x => (∃ G left, SwapBooks s k d b pool n x G left) ∨ (x.remaining = 0 ∧ ¬ RegularPool s k d b limit x.pool))
    (fun n x y i ini r cfg p1 rem u hv hx hr hy hP => by
      rcases hP with ⟨G, left, hP⟩ | hP
      · exact iter_books hs ht hk hv hx hr hy hP
      · exact absurd hP.1 hr)
    (.inl ⟨0, 0, ⟨ha, ⟨hs.fg _ _ hp, by simp, fun x i => hs.outAt_lt k x i⟩, Nat.le_refl _, fun l _ => Nat.le_refl _, rfl, Nat.le_refl _, rfl,
      by simp, Nat.le_refl _, by simp, by simp, (wadd_zero (Pool.Bounded.fg (hs.fg _ _ hp) d)).symm, rfl,
      fun j _ _ => by cases d <;> simp, fun q hq => ⟨rfl, fun _ => rfl, fun _ => (wadd_zero (growthInside_lt _ _ _ _ _ _)).symm⟩⟩⟩)
  rcases h1 with ⟨G, left, h1⟩ | h1
  · exact ⟨G, left, st, h1, rfl, rfl, rfl, rfl, rfl⟩
  · exact absurd hreg h1.2

end OraiV3
