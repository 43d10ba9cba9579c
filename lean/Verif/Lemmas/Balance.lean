import Verif.Lemmas.Curve
import Verif.Lemmas.Principal
import Verif.Lemmas.Solvent
import Verif.Lemmas.SplitCalls
import Verif.Props.Shares

/-!
# What a pool owes before and after a call, from both sides
-/

namespace OraiV3

/-- The moves of a regular swap in a pool whose liquidity is right make up the way along the curve. -/
theorem swap_moves_curve {s : Store} {now : Nat} {k : PoolKey} {d : Bool} {amount : Nat} {b : Bool} {limit : Nat}
    {res : CalcSwapResult} {pool : Pool} (hs : Struct s) (hb : BitInv s) (ht : TickSum s) (hk : k.wf)
    (hp : s.pools.get? k.key = some pool) (hok : PoolOk k.tier.spacing pool) (hdr : drift s k = 0)
    (h : calculateSwap s now k d amount b limit = .ok res) (hreg : RegularPool s k d b limit res.pool) :
    ∃ ms st, Moves s k d pool (drift s k) st ms ∧ st.pool = res.pool ∧
      st.ticks = res.ticks ∧ st.totalIn = res.amountIn ∧ st.totalOut = res.amountOut ∧
      ms.length = swapSteps s now k d amount b limit ∧
      curveIn s k d pool.sqrtPrice res.pool.sqrtPrice = (ms.map (fun m => exactAmount d m.liquidity m.price m.next)).sum := by
  obtain ⟨st, h1, -, rfl⟩ := swap_count hs hb hk hp hok h
    (fun n x => (∃ ms, Moves s k d pool (drift s k) x ms ∧ ms.length = n ∧
      curveIn s k d pool.sqrtPrice x.pool.sqrtPrice = (ms.map (fun m => exactAmount d m.liquidity m.price m.next)).sum) ∨
      (x.remaining = 0 ∧ ¬ RegularPool s k d b limit x.pool))
    (fun n x y i ini r cfg p1 rem u hv hx hr hy hP => by
      rcases hP with ⟨ms, hM, hl, hc⟩ | hP
      · rcases iter_moves hs ht hk (hs.tier hk hp).2.2.le hv hx hr hy hM with ⟨δ, hM'⟩ | hbad
        swap
        · exact .inr hbad
        have ha : x.pool.liquidity = liquidityInRange s k x.pool.tick := by
          have := hM.active
          rw [hdr] at this
          omega
        rcases iter_curve hs ht hk hv hx hr hy ha with ⟨c1, -⟩ | hbad
        swap
        · exact .inr hbad
        refine .inl ⟨_, hM', by rw [List.length_append, hl]; rfl, ?_⟩
        rw [List.map_append, List.sum_append, List.map_singleton, List.sum_singleton, ← hc]
        simp only at c1
        have e : exactAmount d (moveOf x y r u d δ).liquidity (moveOf x y r u d δ).price (moveOf x y r u d δ).next =
            exactOf d x.pool.liquidity r.nextPrice x.pool.sqrtPrice := by
          rw [exactAmount_eq, exactOf_symm, ← iter_price_eq hv]
          rfl
        rw [e, ← c1]
        unfold curveIn
        ring
      · exact absurd hP.1 hr)
    (.inl ⟨[], ⟨drift_of hp, ⟨hs.fg _ _ hp, by simp, fun x i => hs.outAt_lt k x i⟩, by simp, rfl, rfl, rfl, rfl, rfl,
      fun q hq => ⟨rfl, (wadd_zero (growthInside_lt _ _ _ _ _ _)).symm⟩⟩, rfl, by simp [curveIn]⟩)
  rcases h1 with ⟨ms, h1, h2, h3⟩ | h1
  · exact ⟨ms, st, h1, rfl, rfl, rfl, rfl, h2, h3⟩
  · exact absurd hreg h1.2

/-- Inputs of moves against the curve. -/
theorem moves_inputs {s : Store} {k : PoolKey} {d : Bool} {dr : Int} {ms : List PriceMove} (h : ∀ m ∈ ms, MoveOk s k d dr m) :
    (((ms.map PriceMove.input).sum : Nat) : ℚ) * (1 - 1 / 10 ^ 14) ≤
      (ms.map (fun m => exactAmount d m.liquidity m.price m.next)).sum + ms.length := by
  induction ms with
  | nil => simp
  | cons m ms ih =>
    have i := ih fun v hv => h v (List.mem_cons_of_mem _ hv)
    have j := (h m List.mem_cons_self).inUpper
    simp only [List.map_cons, List.sum_cons, List.length_cons]
    push_cast at i ⊢
    linarith

theorem moves_liquidity {s : Store} {k : PoolKey} {d : Bool} {ms : List PriceMove} (h : ∀ m ∈ ms, MoveOk s k d 0 m) {M : Nat}
    (hM : ∀ t, liquidityInRange s k t ≤ M) : (ms.map PriceMove.liquidity).sum ≤ ms.length * M := by
  induction ms with
  | nil => simp
  | cons m ms ih =>
    have i := ih fun v hv => h v (List.mem_cons_of_mem _ hv)
    have j := (h m List.mem_cons_self).active
    have := hM m.tick
    simp only [List.map_cons, List.sum_cons, List.length_cons, Nat.add_mul]
    omega

theorem sum_input_fee (ms : List PriceMove) :
    (ms.map (fun m => m.input + m.fee)).sum = (ms.map PriceMove.input).sum + (ms.map PriceMove.fee).sum := by
  induction ms with
  | nil => rfl
  | cons m ms ih => simp only [List.map_cons, List.sum_cons, ih]; omega

/-- What any position earns by a swap is paid for. -/
theorem earned_le {s : Store} {k : PoolKey} {q : Position} (hq : q ∈ positionsOf s k) {ms : List PriceMove} :
    earned ms q.lower q.upper * q.liquidity ≤ sumPositions s k (fun q => earned ms q.lower q.upper * q.liquidity) := by
  unfold sumPositions
  exact List.le_sum_of_mem (List.mem_map.2 ⟨q, hq, rfl⟩)

/-- What a pool owes: what its positions consist of, unpaid fees, the protocol's part. -/
theorem poolOwes_parts {s : Store} {k : PoolKey} {p : Pool} (hp : s.pools.get? k.key = some p) (z : Bool) :
    poolOwes s k z = held s k z p.sqrtPrice + (totalAccrued s k z : ℚ) / 10 ^ 34 + p.proto z := by
  rw [poolOwes_some hp, sumQ_worth hp]
  rfl

theorem moves_exact {s : Store} {k : PoolKey} {d : Bool} {dr : Int} {ms : List PriceMove} (h : ∀ m ∈ ms, MoveOk s k d dr m) :
    (ms.map (fun m => exactAmount d m.liquidity m.price m.next)).sum ≤ (((ms.map PriceMove.input).sum : Nat) : ℚ) + ms.length / 10 ^ 14 := by
  induction ms with
  | nil => simp
  | cons m ms ih =>
    have i := ih fun v hv => h v (List.mem_cons_of_mem _ hv)
    have j := (h m List.mem_cons_self).inLower
    simp only [List.map_cons, List.sum_cons, List.length_cons]
    push_cast at i ⊢
    linarith

/-- Opening a position adds exactly what it consists of. -/
theorem create_equal {c : Chain} {s s' : Store} {env : Env} {info : Info} {k : PoolKey}
    {l u : Int} {L lo hi : Nat} {out : List OutMsg} (hs : Struct s) (hs' : Struct s') (hi' : PosInv s) (ht : TickSum s) (hpr : PriceInv s)
    (hw : (Msg.createPosition k l u L lo hi).wf) (h : createPosition c s env info k l u L lo hi = .ok (s', out)) {pool : Pool}
    (hp : s.pools.get? k.key = some pool) :
    poolOwes s' k true = poolOwes s k true + exactPositionX L (sqrtPriceAt l) (sqrtPriceAt u) pool.sqrtPrice ∧
      poolOwes s' k false = poolOwes s k false + exactPositionY L (sqrtPriceAt l) (sqrtPriceAt u) pool.sqrtPrice := by
  obtain ⟨p, pool0, pool', m1, m2, x, y, hwhat, hperm, hp0, hpools, hproto, -, -, -, hacc, -, -⟩ := create_owes hs hs' hi' hpr hw h
  obtain rfl : pool0 = pool := by rw [hp] at hp0; exact (Option.some.inj hp0).symm
  unfold Position.what at hwhat
  simp only [Prod.mk.injEq] at hwhat
  obtain ⟨hpk, rfl, rfl, rfl⟩ := hwhat
  have hkept : ∀ z k', sumQ s k' (worth s' z) = sumQ s k' (worth s z) := fun z k' =>
    sumQ_ext (fun q hq => (create_kept hs ht hw h (mem_positionsOf.1 hq).1 z).2)
  have hp' : s'.pools.get? k.key = some pool' := by rw [hpools, KV.get?_insert_same]
  have hprice : pool'.sqrtPrice = pool0.sqrtPrice := by
    obtain ⟨pool1, tl, tu, r, rl, m1, m2, hp1, _, _, _, _, _, _, _, _, _, _, _, hm, _, _, e2, _⟩ := createPosition_view hs hw h
    obtain rfl : pool1 = pool0 := by rw [hp] at hp1; exact (Option.some.inj hp1).symm
    rw [e2, KV.get?_insert_same] at hp'
    obtain rfl := Option.some.inj hp'
    exact (modify_liquidity hm).2.1
  have hw' : ∀ z, worth s' z p = p.principal z pool0.sqrtPrice := fun z => by
    unfold worth
    rw [hpk, hp']
    simp only [hacc z, hprice]
    simp
  constructor
  · rw [poolOwes_some hp, poolOwes_some hp', sumQ_cons hperm, if_pos hpk, hkept, hproto, hw']
    simp only [Position.principal, if_true, exactPositionX, clampPrice]
    ring
  · rw [poolOwes_some hp, poolOwes_some hp', sumQ_cons hperm, if_pos hpk, hkept, hproto, hw']
    simp only [Position.principal, Bool.false_eq_true, if_false, exactPositionY, clampPrice]
    ring

/-- A claim takes exactly the unpaid fees of the position. -/
theorem claim_equal {c : Chain} {s s' : Store} {env : Env} {info : Info} {i : Nat} {out : List OutMsg}
    (hs : Struct s) (h : claimFee c s env info i = .ok (s', out)) :
    ∃ k a b, k.tokenX ≠ k.tokenY ∧ (∀ k', k'.wf → k' ≠ k → ∀ z, poolOwes s' k' z = poolOwes s k' z) ∧
      out = assetTransfer c k.tokenX (a / 10 ^ 34) info ++ assetTransfer c k.tokenY (b / 10 ^ 34) info ∧
      poolOwes s k true = poolOwes s' k true + ((a : Nat) : ℚ) / 10 ^ 34 ∧
      poolOwes s k false = poolOwes s' k false + ((b : Nat) : ℚ) / 10 ^ 34 := by
  obtain ⟨k0, x0, y0, -, hst, -⟩ := PoolStep.claim hs h
  obtain ⟨pos, pos', pool, pool', hpos, hpos', hwhat, _, hp, hpools, he, ho, hacc, hworth⟩ := claim_owes hs h
  have hok := hs.positions _ _ hpos
  have hk := hok.kwf
  have hpk : pos'.poolKey = pos.poolKey := by unfold Position.what at hwhat; exact (Prod.mk.inj hwhat).1
  have hkept : ∀ z k', sumQ s k' (worth s' z) = sumQ s k' (worth s z) := fun z k' =>
    sumQ_ext (fun q hq => (claim_kept hs h (mem_positionsOf.1 hq).1 z).2)
  have hp' : s'.pools.get? pos.poolKey.key = some pool' := by rw [hpools, KV.get?_insert_same]
  have hproto : ∀ z, pool'.proto z = pool.proto z := fun z => by rw [he]; rfl
  have hself : ∀ z, worth s' z pos = worth s z pos := fun z => (claim_kept hs h ((mem_vals _ _).2 ⟨_, hpos⟩) z).2
  have key : ∀ z, poolOwes s pos.poolKey z = poolOwes s' pos.poolKey z + (accrued s z pos : ℚ) / 10 ^ 34 := by
    intro z
    rw [poolOwes_some hp, poolOwes_some hp', sumQ_edit hpos hpos' _ _ hpk, if_pos rfl, hkept, hproto, hself]
    have := hworth z
    linarith
  refine ⟨pos.poolKey, _, _, swap_tokens_ne hs hk hp true, fun k' hk' hne z => ?_, ho, key true, key false⟩
  refine poolOwes_kept (by rw [hpools, KV.get?_insert_other _ _ (key_ne hk' hk hne)]) ?_
  rw [sumQ_edit hpos hpos' _ _ hpk, if_neg (fun e => hne e.symm), hkept, add_zero]

theorem floor_gt (a : Nat) : (a : ℚ) / 10 ^ 34 < ((a / 10 ^ 34 : Nat) : ℚ) + 1 := by
  rw [div_lt_iff₀ (by positivity)]
  have h := Nat.div_add_mod a (10 ^ 34)
  have h2 := Nat.mod_lt a (show 0 < 10 ^ 34 by positivity)
  have : a < (a / 10 ^ 34 + 1) * 10 ^ 34 := by omega
  exact_mod_cast this

/-- Closing a position takes what it is worth. -/
theorem remove_equal {c : Chain} {s s' : Store} {env : Env} {info : Info} {i : Nat} {out : List OutMsg}
    (hs : Struct s) (hs' : Struct s') (hi : PosInv s) (ht' : TickSum s') (hpr : PriceInv s) (hw : i < U32)
    (h : removePosition c s env info i = .ok (s', out)) :
    ∃ (k : PoolKey) (x y : Nat), k.tokenX ≠ k.tokenY ∧ (∀ k', k'.wf → k' ≠ k → ∀ z, poolOwes s' k' z = poolOwes s k' z) ∧
      out = assetTransfer c k.tokenX x info ++ assetTransfer c k.tokenY y info ∧
      poolOwes s' k true + x ≤ poolOwes s k true ∧ poolOwes s k true < poolOwes s' k true + (x + 2) * (1 + 1 / 10 ^ 13) ∧
      poolOwes s' k false + y ≤ poolOwes s k false ∧ poolOwes s k false < poolOwes s' k false + y + 2 := by
  obtain ⟨pos, pool, pool', -, -, hpos, hperm, hp, hpools, hproto, -, -, -⟩ := remove_owes hs hi hpr hw h
  obtain ⟨pos1, pool1, x, y, hpos1, hp1, -, -, -, -, g1, g2, ho⟩ := removePosition_payment hs hpr h
  obtain rfl : pos1 = pos := by rw [hpos] at hpos1; exact (Option.some.inj hpos1).symm
  obtain rfl : pool1 = pool := by rw [hp] at hp1; exact (Option.some.inj hp1).symm
  have hok := hs.positions _ _ hpos
  have hk := hok.kwf
  have hkept : ∀ z k', sumQ s' k' (worth s' z) = sumQ s' k' (worth s z) := fun z k' =>
    sumQ_ext (fun q hq => (remove_kept hs hs' hi ht' hw h (mem_positionsOf.1 hq).1 z).2)
  have hp' : s'.pools.get? pos1.poolKey.key = some pool' := by rw [hpools, KV.get?_insert_same]
  have key : ∀ z, poolOwes s pos1.poolKey z =
      poolOwes s' pos1.poolKey z + pos1.principal z pool1.sqrtPrice + (accrued s z pos1 : ℚ) / 10 ^ 34 := by
    intro z
    rw [poolOwes_some hp, poolOwes_some hp', sumQ_cons hperm, if_pos rfl, hkept, hproto]
    have e : worth s z pos1 = pos1.principal z pool1.sqrtPrice + (accrued s z pos1 : ℚ) / 10 ^ 34 := by unfold worth; rw [hp]
    rw [e]
    ring
  have hm0 : 0 < MIN_SQRT_PRICE := by norm_num
  obtain ⟨-, -, d1, d2⟩ := deltaX_down_exact g1
  have hd := dustX_small (hok.lower.clamp_min pos1.upper pool1.sqrtPrice) hok.upper.price_min
  obtain ⟨d3, d4⟩ := deltaY_down_exact g2
  have kx := key true
  have ky := key false
  have ex : pos1.principal true pool1.sqrtPrice =
    exactX pos1.liquidity (clampPrice (sqrtPriceAt pos1.lower) (sqrtPriceAt pos1.upper) pool1.sqrtPrice) (sqrtPriceAt pos1.upper) := rfl
  have ey : pos1.principal false pool1.sqrtPrice =
    exactY pos1.liquidity (sqrtPriceAt pos1.lower) (clampPrice (sqrtPriceAt pos1.lower) (sqrtPriceAt pos1.upper) pool1.sqrtPrice) := rfl
  rw [ex] at kx
  rw [ey] at ky
  have f1 := floor_le_q (accrued s true pos1)
  have f2 := floor_gt (accrued s true pos1)
  have f3 := floor_le_q (accrued s false pos1)
  have f4 := floor_gt (accrued s false pos1)
  have hx : (0 : ℚ) ≤ x := Nat.cast_nonneg x
  have hax : (0 : ℚ) ≤ ((accrued s true pos1 / 10 ^ 34 : Nat) : ℚ) := Nat.cast_nonneg _
  refine ⟨pos1.poolKey, _, _, swap_tokens_ne hs hk hp true, fun k' hk' hne z => ?_, ho, ?_, ?_, ?_, ?_⟩
  · refine poolOwes_kept (by rw [hpools, KV.get?_insert_other _ _ (key_ne hk' hk hne)]) ?_
    rw [sumQ_cons hperm, if_neg (fun e => hne e.symm), hkept, zero_add]
  · rw [Nat.cast_add]; linarith
  · rw [Nat.cast_add]; nlinarith
  · rw [Nat.cast_add]; linarith
  · rw [Nat.cast_add]; linarith

/-- A pool record is rewritten without touching what its positions are worth. -/
theorem meta_equal {s s' : Store} {k : PoolKey} {p p' : Pool} (hk : k.wf) (hp : s.pools.get? k.key = some p)
    (h1 : s'.pools = s.pools.insert k.key p') (h2 : s'.ticks = s.ticks) (h3 : s'.positions = s.positions)
    (e1 : p'.tick = p.tick) (e2 : p'.sqrtPrice = p.sqrtPrice) (e3 : p'.fgX = p.fgX) (e4 : p'.fgY = p.fgY) :
    (∀ z, poolOwes s' k z + p.proto z = poolOwes s k z + p'.proto z) ∧
      ∀ k', k'.wf → k' ≠ k → ∀ z, poolOwes s' k' z = poolOwes s k' z := by
  have hp' : s'.pools.get? k.key = some p' := by rw [h1, KV.get?_insert_same]
  have hw : ∀ z q, q ∈ positionsOf s k → worth s' z q = worth s z q := by
    intro z q hq
    have hqk := (mem_positionsOf.1 hq).2
    refine (worth_frame (p := p) (p' := p') (by rw [hqk]; exact hp) (by rw [hqk]; exact hp') e1 e2 ?_ (by rw [h2]) (by rw [h2])).2
    cases z
    · exact e4
    · exact e3
  refine ⟨fun z => ?_, fun k' hk' hne z => poolOwes_frame ?_ (fun i => by rw [h2]) h3 z⟩
  · rw [poolOwes_some hp, poolOwes_some hp', sumQ_congr h3, sumQ_ext (hw z)]
    ring
  · rw [h1, KV.get?_insert_other _ _ (key_ne hk' hk hne)]

end OraiV3
