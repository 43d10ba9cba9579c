import Verif.Lemmas.Cap
import Verif.Lemmas.Solvent

/-!
# Liveness: withdrawals and claims succeed
-/

namespace OraiV3

theorem bind_of_ok {α β : Type} {m : M α} {f : α → M β} {a : α} {b : β} (h : m = .ok a) (h' : f a = .ok b) : (m >>= f) = .ok b := by
  rw [h]; exact h'

theorem cast128_of_lt {e : Err} {n : Nat} (h : n < U128) : cast128 e n = .ok n := cast128_ok.2 ⟨h, rfl⟩

/-! ## Amounts -/

theorem getDeltaX_down_ok {a b L : Nat} (ha : MIN_SQRT_PRICE ≤ a) (hb : MIN_SQRT_PRICE ≤ b) (hL : L < U128) :
    ∃ x, getDeltaX a b L false = .ok x := by
  unfold getDeltaX
  simp only [Bool.false_eq_true, if_false]
  have hpos : 0 < a * b := Nat.mul_pos (Nat.lt_of_lt_of_le (by norm_num) ha) (Nat.lt_of_lt_of_le (by norm_num) hb)
  have c1 := floor_spec (absDiff a b * L) LIQ (by norm_num)
  have c2 := ceil_spec (a * b) SPR (by norm_num)
  have hd : absDiff a b ≤ max a b := by unfold absDiff; split <;> omega
  have hmm : max a b * min a b = a * b := by
    rcases Nat.le_total a b with h | h
    · rw [Nat.max_eq_right h, Nat.min_eq_left h, Nat.mul_comm]
    · rw [Nat.max_eq_left h, Nat.min_eq_right h]
  have hmin : 10 ^ 18 ≤ min a b := by
    have : 10 ^ 18 ≤ MIN_SQRT_PRICE := by norm_num
    omega
  have hmax : 0 < max a b := by
    rcases Nat.eq_zero_or_pos (max a b) with h | h
    · rw [h] at hmm; omega
    · exact h
  have hs : SPR = LIQ * 10 ^ 18 := spr_eq
  generalize absDiff a b * L / LIQ = nom at *
  generalize (a * b + (SPR - 1)) / SPR = den at *
  have hden : 0 < den := by
    rcases Nat.eq_zero_or_pos den with h | h
    · rw [h] at c2; omega
    · exact h
  have f1 := floor_spec nom den hden
  have hx : nom / den ≤ L := by
    generalize nom / den = x at *
    have e1 : x * (max a b * min a b) ≤ x * (den * SPR) := Nat.mul_le_mul_left _ (by rw [hmm]; exact c2.1)
    have e2 : x * den * SPR ≤ nom * SPR := Nat.mul_le_mul_right _ f1.1
    have e3 : nom * LIQ * 10 ^ 18 ≤ absDiff a b * L * 10 ^ 18 := Nat.mul_le_mul_right _ c1.1
    have e4 : absDiff a b * (L * 10 ^ 18) ≤ max a b * (L * 10 ^ 18) := Nat.mul_le_mul_right _ hd
    rw [hs] at e1 e2
    generalize 10 ^ 18 = T at *
    generalize LIQ = Q at *
    have e5 : max a b * (x * min a b) ≤ max a b * (L * T) := by linarith
    have e6 := Nat.le_of_mul_le_mul_left e5 hmax
    have e7 : x * T ≤ x * min a b := Nat.mul_le_mul_left _ hmin
    have hT : 0 < T := by
      rcases Nat.eq_zero_or_pos T with h | h
      · subst h; simp at hs
      · exact h
    exact Nat.le_of_mul_le_mul_right (Nat.le_trans e7 e6) hT
  have hq : nom * SPR / den < U256 := by
    have g1 : nom * SPR / den < (L + 1) * SPR := by
      rw [Nat.div_lt_iff_lt_mul hden]
      have g2 : nom < (L + 1) * den := by
        have : nom / den * den ≤ L * den := Nat.mul_le_mul_right _ hx
        have : (L + 1) * den = L * den + den := by ring
        omega
      have g3 := Nat.mul_lt_mul_of_pos_right g2 (by norm_num : 0 < SPR)
      generalize SPR = Q at *
      linarith
    have g4 : (L + 1) * SPR ≤ U128 * SPR := Nat.mul_le_mul_right _ hL
    have g5 : U128 * SPR < U256 := by norm_num
    omega
  exact ⟨_, divToToken_ok hden hq (Nat.lt_of_le_of_lt hx hL)⟩

theorem getDeltaY_down_ok {a b L : Nat} (ha : a ≤ MAX_SQRT_PRICE) (hb : b ≤ MAX_SQRT_PRICE) (hL : L < U128) :
    ∃ y, getDeltaY a b L false = .ok y := by
  unfold getDeltaY
  simp only [Bool.false_eq_true, if_false]
  refine ⟨absDiff a b * L / LIQ / SPR, cast128_ok.2 ⟨?_, rfl⟩⟩
  have hd : absDiff a b ≤ LIQ * SPR := by
    have : MAX_SQRT_PRICE ≤ LIQ * SPR := by norm_num
    unfold absDiff
    split <;> omega
  rw [Nat.div_div_eq_div_mul]
  refine Nat.lt_of_le_of_lt (Nat.div_le_of_le_mul (n := L) ?_) hL
  exact Nat.mul_le_mul_right _ hd

theorem calculateSqrtPrice_ok' {ts : Nat} {t : Int} (h : TickOk ts t) : calculateSqrtPrice t = .ok (sqrtPriceAt t) := by
  unfold calculateSqrtPrice
  have := h.range
  rw [if_neg (by omega)]

/-- Withdrawing any liquidity at any price: the amounts can be computed, and the flag says whether the range is active. -/
theorem amountDelta_down_ok {ts : Nat} {p : Pool} {L : Nat} {l u : Int} (hok : PoolOk ts p) (h1 : TickOk ts l) (h2 : TickOk ts u)
    (h3 : l < u) (hL : L < U128) :
    ∃ r, calculateAmountDelta p.tick p.sqrtPrice L false u l = .ok r ∧ (r.2.2 = true → l ≤ p.tick ∧ p.tick < u) := by
  have p1 := calculateSqrtPrice_ok' h1
  have p2 := calculateSqrtPrice_ok' h2
  have q1 := h1.price_min
  have q2 := h2.price_min
  have q3 := h1.price_max
  have q4 := h2.price_max
  have q5 := hok.min
  have q6 := hok.max
  generalize sqrtPriceAt l = pl at *
  generalize sqrtPriceAt u = pu at *
  unfold calculateAmountDelta
  rw [if_neg (by omega)]
  by_cases c1 : p.tick < l
  · obtain ⟨x, hx⟩ := getDeltaX_down_ok q1 q2 hL
    rw [if_pos c1]
    exact ⟨(x, 0, false), bind_of_ok p1 (bind_of_ok p2 (bind_of_ok hx rfl)), by simp⟩
  · rw [if_neg c1]
    by_cases c2 : p.tick < u
    · obtain ⟨x, hx⟩ := getDeltaX_down_ok q5 q2 hL
      obtain ⟨y, hy⟩ := getDeltaY_down_ok q3 q6 hL
      rw [if_pos c2]
      exact ⟨(x, y, true), bind_of_ok p2 (bind_of_ok hx (bind_of_ok p1 (bind_of_ok hy rfl))), fun _ => ⟨by omega, c2⟩⟩
    · obtain ⟨y, hy⟩ := getDeltaY_down_ok q3 q4 hL
      rw [if_neg c2]
      exact ⟨(0, y, false), bind_of_ok p1 (bind_of_ok p2 (bind_of_ok hy rfl)), by simp⟩

/-! ## Ticks -/

/-- Taking liquidity away from a tick at which at least that much starts (or ends). -/
theorem Tick.update_remove_ok {t : Tick} {S E L maxL : Nat} {isUpper : Bool} (hg : t.gross = S + E) (hgl : t.gross < U128)
    (hn : t.net = (S : Int) - E) (hL : if isUpper then L ≤ E else L ≤ S) : ∃ t', t.update L maxL isUpper false = .ok t' := by
  have hle : L ≤ t.gross := by cases isUpper <;> simp at hL <;> omega
  have h1 : t.newGross false L maxL = .ok (t.gross - L) := by
    unfold Tick.newGross
    simp only [Bool.false_eq_true, if_false]
    rw [if_neg (by omega)]
    rfl
  have h2 : ∃ t', ({ t with gross := t.gross - L } : Tick).updateChange L (xor false isUpper) = .ok t' := by
    unfold Tick.updateChange
    split
    · split <;> exact ⟨_, rfl⟩
    · rename_i hx
      have : t.change + L < U128 := by
        unfold Tick.net at hn
        cases isUpper <;> cases hs : t.sign <;> simp [hs] at hx hn hL <;> omega
      exact ⟨_, bind_of_ok (cast128_of_lt this) rfl⟩
  obtain ⟨t', h2⟩ := h2
  exact ⟨t', bind_of_ok h1 h2⟩

/-- Updating a tick by nothing. -/
theorem Tick.update_zero_ok {t : Tick} {maxL : Nat} {isUpper : Bool} (hg : t.gross < U128) (hm : t.gross < maxL)
    (hc : t.change < U128) : ∃ t', t.update 0 maxL isUpper true = .ok t' := by
  have h1 : t.newGross true 0 maxL = .ok t.gross := by
    unfold Tick.newGross
    simp only [if_true]
    refine bind_of_ok (cast128_of_lt (n := t.gross) hg) ?_
    rw [if_neg (by omega)]
    rfl
  have h2 : ∃ t', ({ t with gross := t.gross } : Tick).updateChange 0 (xor true isUpper) = .ok t' := by
    unfold Tick.updateChange
    split
    · split <;> exact ⟨_, rfl⟩
    · exact ⟨_, bind_of_ok (cast128_of_lt (n := t.change) hc) rfl⟩
  obtain ⟨t', h2⟩ := h2
  exact ⟨t', bind_of_ok h1 h2⟩

theorem BitInv.settle_ok {s : Store} (h : BitInv s) {k : PoolKey} {i : Int} {t : Tick} (hk : k.wf) (hv : k.tier.Valid)
    (ht : TickOk k.tier.spacing i) (hi : t.index = i) (he : (s.ticks.get? (tickKey k i)).isSome = true) :
    ∃ s', settleTick s k i t = .ok s' := by
  have he' := Option.isSome_iff_exists.1 he
  unfold settleTick
  by_cases z : t.gross = 0
  · rw [if_pos z]
    obtain ⟨b0, bq, bl, bu⟩ := ht.bits
    have hb := h.bit k (bitOfTick k.tier.spacing i) hk (by omega) hv.2.1 (bitOfTick_lt bu)
    rw [tickOfBit_bitOfTick bq bl, he] at hb
    have hbit : bitAt (getChunk s k (bitOfTick k.tier.spacing i / 64)) (bitOfTick k.tier.spacing i % 64) ≠ 0 := by
      rw [bitAt_testBit]
      unfold bitOf at hb
      rw [hb]
      simp
    have hf : flipBitmap s false i k.tier.spacing k = .ok { s with bitmap := s.bitmap.insert (bitmapKey (bitOfTick k.tier.spacing i / 64) k) (flipBit (getChunk s k (bitOfTick k.tier.spacing i / 64)) (bitOfTick k.tier.spacing i % 64)) } := by
      unfold flipBitmap
      refine bind_of_ok (tickToPosition_ok ht) ?_
      rw [if_neg (by simpa using hbit)]
      rfl
    unfold removeTickAndFlip
    rw [if_neg (by simpa using z), hi]
    exact ⟨_, bind_of_ok hf (removeTick_ok.2 ⟨he', rfl⟩)⟩
  · rw [if_neg z]
    exact ⟨_, updateTick_ok.2 ⟨he', rfl⟩⟩

/-! ## Positions -/

theorem le_sumPositions {s : Store} {k : PoolKey} {q : Position} (hq : q ∈ positionsOf s k) (f : Position → Nat) :
    f q ≤ sumPositions s k f := by
  unfold sumPositions
  generalize positionsOf s k = l at hq
  induction l with
  | nil => simp at hq
  | cons p l ih =>
    simp only [List.map_cons, List.sum_cons]
    rcases List.mem_cons.1 hq with rfl | h
    · omega
    · have := ih h; omega

theorem le_sumQ {s : Store} {k : PoolKey} {q : Position} (hq : q ∈ positionsOf s k) (f : Position → ℚ)
    (h : ∀ p ∈ positionsOf s k, 0 ≤ f p) : f q ≤ sumQ s k f := by
  unfold sumQ
  generalize positionsOf s k = l at hq h
  induction l with
  | nil => simp at hq
  | cons p l ih =>
    simp only [List.map_cons, List.sum_cons]
    have hp := h p (by simp)
    have hl : 0 ≤ (l.map f).sum := List.sum_nonneg (by
      intro x hx
      obtain ⟨a, ha, rfl⟩ := List.mem_map.1 hx
      exact h a (by simp [ha]))
    rcases List.mem_cons.1 hq with rfl | h'
    · linarith
    · have := ih h' (fun a ha => h a (by simp [ha])); linarith

/-- What the position's liquidity says about the records it depends on. -/
theorem position_records {s : Store} (hs : Struct s) (ht : TickSum s) {id : Bytes} {pos : Position}
    (hpos : s.positions.get? id = some pos) :
    ∃ tl tu, s.ticks.get? (tickKey pos.poolKey pos.lower) = some tl ∧ s.ticks.get? (tickKey pos.poolKey pos.upper) = some tu ∧
      tl.index = pos.lower ∧ tu.index = pos.upper ∧ TickRecOk s pos.poolKey tl ∧ TickRecOk s pos.poolKey tu ∧
      tl.gross = liquidityStartingAt s pos.poolKey pos.lower + liquidityEndingAt s pos.poolKey pos.lower ∧
      tl.net = (liquidityStartingAt s pos.poolKey pos.lower : Int) - liquidityEndingAt s pos.poolKey pos.lower ∧
      tu.gross = liquidityStartingAt s pos.poolKey pos.upper + liquidityEndingAt s pos.poolKey pos.upper ∧
      tu.net = (liquidityStartingAt s pos.poolKey pos.upper : Int) - liquidityEndingAt s pos.poolKey pos.upper ∧
      pos.liquidity ≤ liquidityStartingAt s pos.poolKey pos.lower ∧ pos.liquidity ≤ liquidityEndingAt s pos.poolKey pos.upper := by
  have hok := hs.positions _ _ hpos
  have hmem : pos ∈ positionsOf s pos.poolKey := mem_positionsOf.2 ⟨(mem_vals _ _).2 ⟨_, hpos⟩, rfl⟩
  have l1 : pos.liquidity ≤ liquidityStartingAt s pos.poolKey pos.lower := by
    have := le_sumPositions hmem (fun p => if p.lower = pos.lower then p.liquidity else 0)
    simpa [liquidityStartingAt] using this
  have l2 : pos.liquidity ≤ liquidityEndingAt s pos.poolKey pos.upper := by
    have := le_sumPositions hmem (fun p => if p.upper = pos.upper then p.liquidity else 0)
    simpa [liquidityEndingAt] using this
  have hL := hok.liq
  have a1 := ht pos.poolKey pos.lower hok.kwf hok.lower.i32
  have a2 := ht pos.poolKey pos.upper hok.kwf hok.upper.i32
  unfold TickSumAt tickVal at a1 a2
  cases e1 : s.ticks.get? (tickKey pos.poolKey pos.lower) with
  | none => rw [e1] at a1; simp at a1; omega
  | some tl =>
    cases e2 : s.ticks.get? (tickKey pos.poolKey pos.upper) with
    | none => rw [e2] at a2; simp at a2; omega
    | some tu =>
      rw [e1] at a1
      rw [e2] at a2
      obtain ⟨i1, r1⟩ := hs.tick hok.kwf hok.lower.i32 e1
      obtain ⟨i2, r2⟩ := hs.tick hok.kwf hok.upper.i32 e2
      exact ⟨tl, tu, rfl, rfl, i1, i2, r1, r2, a1.2.1, a1.2.2, a2.2.1, a2.2.2, l1, l2⟩

/-- `Position::modify` succeeds if its parts do. -/
theorem Position.modify_ok {pos : Position} {pool : Pool} {tu tl tl' tu' : Tick} {delta : Nat} {add : Bool} {now ts l' : Nat}
    {q : Pool × Nat × Nat} (h1 : tl.update delta (maxLiquidityPerTick ts) false add = .ok tl')
    (h2 : tu.update delta (maxLiquidityPerTick ts) true add = .ok tu') (hne : ¬ (delta = 0 ∧ pos.liquidity = 0))
    (hl : pos.newLiquidity add delta = .ok l') (ox : pos.owedX = 0) (oy : pos.owedY = 0)
    (fx : wsub (feeGrowthInside tl.index tl.outX tu.index tu.outX pool.tick pool.fgX) pos.fgInX * pos.liquidity / 10 ^ 34 < U128)
    (fy : wsub (feeGrowthInside tl.index tl.outY tu.index tu.outY pool.tick pool.fgY) pos.fgInY * pos.liquidity / 10 ^ 34 < U128)
    (hq : Pool.updateLiquidity { pool with lastTs := now } delta add tu.index tl.index = .ok q) :
    ∃ r, pos.modify pool tu tl delta add now ts = .ok r := by
  have f1 := Tick.update_inv h1
  have f2 := Tick.update_inv h2
  have hu : ∃ p', pos.update add delta (feeGrowthInside tl'.index tl'.outX tu'.index tu'.outX pool.tick pool.fgX)
      (feeGrowthInside tl'.index tl'.outY tu'.index tu'.outY pool.tick pool.fgY) = .ok p' := by
    rw [f1.1, f1.2.2.1, f1.2.2.2.1, f2.1, f2.2.2.1, f2.2.2.2.1]
    unfold Position.update
    rw [if_neg hne]
    exact ⟨_, bind_of_ok (cast128_of_lt fx) (bind_of_ok (cast128_of_lt fy) (bind_of_ok hl
      (bind_of_ok (cast128_of_lt (n := pos.owedX + _) (by rw [ox, Nat.zero_add]; exact fx))
        (bind_of_ok (cast128_of_lt (n := pos.owedY + _) (by rw [oy, Nat.zero_add]; exact fy)) rfl))))⟩
  obtain ⟨p', hu⟩ := hu
  rw [← f1.1, ← f2.1] at hq
  exact ⟨_, bind_of_ok h1 (bind_of_ok h2 (bind_of_ok hu (bind_of_ok hq rfl)))⟩

theorem growthInside_both {s : Store} {k : PoolKey} {pool : Pool} {l u : Int} {tl tu : Tick}
    (h1 : s.ticks.get? (tickKey k l) = some tl) (h2 : s.ticks.get? (tickKey k u) = some tu) (i1 : tl.index = l) (i2 : tu.index = u) :
    growthInside s.ticks k pool true l u = feeGrowthInside tl.index tl.outX tu.index tu.outX pool.tick pool.fgX ∧
    growthInside s.ticks k pool false l u = feeGrowthInside tl.index tl.outY tu.index tu.outY pool.tick pool.fgY := by
  simp only [growthInside_code]
  unfold outAt
  rw [h1, h2, i1, i2]
  exact ⟨rfl, rfl⟩

/-- The owner of a position can remove it, if pool liquidity and amounts permit. -/
theorem removePosition_ok' {c : Chain} {s : Store} {env : Env} {info : Info} {i : Nat} {pos : Position} {pool : Pool}
    (hs : Struct s) (hi : PosInv s) (ht : TickSum s) (hb : BitInv s) (hpr : PriceInv s) (hw : i < U32)
    (hpos : s.positions.get? (positionKey info.sender i) = some pos) (hp : s.pools.get? pos.poolKey.key = some pool)
    (hact : pos.lower ≤ pool.tick → pool.tick < pos.upper → pos.liquidity ≤ pool.liquidity)
    (hfit : ∀ a, calculateAmountDelta pool.tick pool.sqrtPrice pos.liquidity false pos.upper pos.lower = .ok a →
      a.1 + accrued s true pos / 10 ^ 34 < U128 ∧ a.2.1 + accrued s false pos / 10 ^ 34 < U128) :
    ∃ s' out, removePosition c s env info i = .ok (s', out) := by
  have hok := hs.positions _ _ hpos
  have hk := hok.kwf
  have hv := hs.tier hk hp
  have hpk := hpr _ pool hk hp
  obtain ⟨tl, tu, htl, htu, il, iu, rl, ru, gl, nl, gu, nu, l1, l2⟩ := position_records hs ht hpos
  obtain ⟨tl', h1⟩ := Tick.update_remove_ok (maxL := maxLiquidityPerTick pos.poolKey.tier.spacing) (isUpper := false)
    (L := pos.liquidity) gl rl.gross nl (by simpa using l1)
  obtain ⟨tu', h2⟩ := Tick.update_remove_ok (maxL := maxLiquidityPerTick pos.poolKey.tier.spacing) (isUpper := true)
    (L := pos.liquidity) gu ru.gross nu (by simpa using l2)
  obtain ⟨r, hr, hflag⟩ := amountDelta_down_ok hpk hok.lower hok.upper hok.lt hok.liqlt
  have hr' : calculateAmountDelta pool.tick pool.sqrtPrice pos.liquidity false tu.index tl.index = .ok r := by
    rw [iu, il]; exact hr
  have hq : ∃ q : Pool × Nat × Nat, Pool.updateLiquidity { pool with lastTs := env.millis } pos.liquidity false tu.index tl.index = .ok q := by
    unfold Pool.updateLiquidity
    cases hf : r.2.2 with
    | false =>
      refine ⟨({ pool with lastTs := env.millis }, r.1, r.2.1), bind_of_ok hr' ?_⟩
      simp only [hf, Bool.false_eq_true, if_false]
      rfl
    | true =>
      have := hact (hflag hf).1 (hflag hf).2
      refine ⟨({ pool with lastTs := env.millis, liquidity := pool.liquidity - pos.liquidity }, r.1, r.2.1), bind_of_ok hr' ?_⟩
      simp only [hf, if_true, Bool.false_eq_true, if_false, checkedSub]
      rw [if_pos this]
      rfl
  obtain ⟨q, hq⟩ := hq
  obtain ⟨g1, g2⟩ := growthInside_both (pool := pool) htl htu il iu
  have acx : accrued s true pos = wsub (feeGrowthInside tl.index tl.outX tu.index tu.outX pool.tick pool.fgX) pos.fgInX * pos.liquidity := by
    unfold accrued accruedIn
    rw [hp, ← g1]; rfl
  have acy : accrued s false pos = wsub (feeGrowthInside tl.index tl.outY tu.index tu.outY pool.tick pool.fgY) pos.fgInY * pos.liquidity := by
    unfold accrued accruedIn
    rw [hp, ← g2]; rfl
  have fx := Nat.lt_of_le_of_lt (Nat.le_add_left _ _) (hfit r hr).1
  have fy := Nat.lt_of_le_of_lt (Nat.le_add_left _ _) (hfit r hr).2
  obtain ⟨r', hm⟩ := Position.modify_ok (now := env.millis) h1 h2 (by have := hok.liq; omega)
    (show pos.newLiquidity false pos.liquidity = .ok 0 by unfold Position.newLiquidity; simp; rfl) hok.owedX hok.owedY
    (by rw [← acx]; exact fx) (by rw [← acy]; exact fy) hq
  obtain ⟨o1, o2, -⟩ := modify_owed hok htl htu il iu hp hm
  obtain ⟨q', d1, d2, d3, d4, d5, d6, d7⟩ := Position.modify_inv hm
  have f1 := Tick.update_inv d1
  have f2 := Tick.update_inv d2
  have jl : r'.lower.index = pos.lower := by rw [f1.1, il]
  have ju : r'.upper.index = pos.upper := by rw [f2.1, iu]
  obtain ⟨b, liq, b1, b2, b3⟩ := Pool.updateLiquidity_inv d4
  simp only at b1
  rw [jl, ju] at b1
  have ex : r'.x = b.1 := by rw [d6, b3]
  have ey : r'.y = b.2.1 := by rw [d7, b3]
  have sx : r'.x + r'.pos.owedX < U128 := by rw [o1, ex]; exact (hfit b b1).1
  have sy : r'.y + r'.pos.owedY < U128 := by rw [o2, ey]; exact (hfit b b1).2
  have hrem : pos.remove pool env.millis tl tu pos.poolKey.tier.spacing =
      .ok { r' with x := r'.x + r'.pos.owedX, y := r'.y + r'.pos.owedY } :=
    bind_of_ok hm (bind_of_ok (cast128_of_lt sx) (bind_of_ok (cast128_of_lt sy) rfl))
  have hlu : pos.lower ≠ pos.upper := by have := hok.lt; omega
  have hne : tickKey pos.poolKey pos.upper ≠ tickKey pos.poolKey pos.lower :=
    fun e => hlu (tickKey_inj hk hk hok.upper.i32 hok.lower.i32 e).2.symm
  have c0 : BitInv (savePool s pos.poolKey r'.pool) := hb.congr rfl (fun _ => rfl)
  have e0 : ((savePool s pos.poolKey r'.pool).ticks.get? (tickKey pos.poolKey pos.lower)).isSome = true := by
    show (s.ticks.get? _).isSome = true; rw [htl]; rfl
  obtain ⟨s1, hs1⟩ := c0.settle_ok hk hv hok.lower jl e0
  have c1 := c0.settle hk hv.2.1 jl e0 hs1
  have hu1 : s1.ticks.get? (tickKey pos.poolKey pos.upper) = some tu := by
    rw [(settleTick_view jl hs1).1, if_neg hne]; exact htu
  obtain ⟨s2, hs2⟩ := c1.settle_ok hk hv hok.upper ju (by rw [hu1]; rfl)
  obtain ⟨t1, m1, e1⟩ := settleTick_frame hs1
  obtain ⟨t2, m2, e2⟩ := settleTick_frame hs2
  have hpos2 : s2.positions = s.positions := by rw [e2, e1]; rfl
  have hlen2 : ∀ o, getPositionLength s2 o = getPositionLength s o := by
    intro o; unfold getPositionLength; rw [e2, e1]; rfl
  have hlen := (hi.iff info.sender i hw).1 ⟨pos, hpos⟩
  have hg : getPosition s2 info.sender i = .ok pos := by
    unfold getPosition getPositionByKey
    rw [hpos2, hpos]
  have hsub : subP (getPositionLength s2 info.sender) 1 = .ok (getPositionLength s info.sender - 1) := by
    rw [hlen2]
    unfold subP
    rw [if_pos (by omega)]
  have hR : ∃ sp, removePositionAt s2 info.sender i = .ok sp := by
    by_cases hlast : i < getPositionLength s info.sender - 1
    · obtain ⟨last, hl⟩ := (hi.iff info.sender (getPositionLength s info.sender - 1) (by have := hi.len info.sender; omega)).2 (by omega)
      unfold removePositionAt
      rw [hsub, ok_bind, hg, ok_bind, if_pos hlast, hpos2, hl]
      exact ⟨_, rfl⟩
    · unfold removePositionAt
      rw [hsub, ok_bind, hg, ok_bind, if_neg hlast]
      exact ⟨_, rfl⟩
  obtain ⟨sp, hR⟩ := hR
  refine ⟨_, _, bind_of_ok (a := pos) ?_ (bind_of_ok (getTick_ok.2 htl) (bind_of_ok (getTick_ok.2 htu) (bind_of_ok (getPool_ok.2 hp)
    (bind_of_ok hrem (bind_of_ok hs1 (bind_of_ok hs2 (bind_of_ok hR rfl)))))))⟩
  unfold getPosition getPositionByKey
  rw [hpos]

/-- The owner of a position can remove it, if pool liquidity and amounts permit. -/
theorem removePosition_ok {c : Chain} {s : Store} {env : Env} {info : Info} {i : Nat} {pos : Position} {pool : Pool}
    (hs : Struct s) (hi : PosInv s) (ht : TickSum s) (hb : BitInv s) (hpr : PriceInv s) (hw : i < U32)
    (hpos : s.positions.get? (positionKey info.sender i) = some pos) (hp : s.pools.get? pos.poolKey.key = some pool)
    (hact : pos.lower ≤ pool.tick → pool.tick < pos.upper → pos.liquidity ≤ pool.liquidity)
    (hfit : ∀ x (m : Nat), (m : ℚ) ≤ pos.principal x pool.sqrtPrice → m + accrued s x pos / 10 ^ 34 < U128) :
    ∃ s' out, removePosition c s env info i = .ok (s', out) := by
  have hok := hs.positions _ _ hpos
  refine removePosition_ok' hs hi ht hb hpr hw hpos hp hact fun a ha => ?_
  have am := amountDelta_principal (hpr _ pool hok.kwf hp) hok.lower hok.upper hok.lt ha
  simp only [Bool.false_eq_true, if_false] at am
  exact ⟨hfit true _ am.1, hfit false _ am.2⟩

/-! ## Claims -/

theorem getDeltaX_zero {a b : Nat} (ha : MIN_SQRT_PRICE ≤ a) (hb : MIN_SQRT_PRICE ≤ b) : getDeltaX a b 0 true = .ok 0 := by
  have hd : 0 < a * b / SPR := by
    have h1 : MIN_SQRT_PRICE * MIN_SQRT_PRICE ≤ a * b := Nat.mul_le_mul ha hb
    have h2 : SPR ≤ MIN_SQRT_PRICE * MIN_SQRT_PRICE := by norm_num
    exact Nat.div_pos (Nat.le_trans h2 h1) (by norm_num)
  unfold getDeltaX divToTokenUp
  simp only [if_true, Nat.mul_zero, Nat.zero_div, Nat.zero_mul, Nat.zero_add]
  generalize a * b / SPR = den at hd
  rw [if_neg (by omega), Nat.div_eq_of_lt (by omega : den - 1 < den)]
  have h3 : ¬ (0 : Nat) ≥ U256 := by norm_num
  have h4 : ¬ 0 + (SPR - 1) ≥ U256 := by norm_num
  have h5 : (0 + (SPR - 1)) / SPR = 0 := by norm_num
  rw [if_neg h3, if_neg h4, h5]
  exact cast128_of_lt (by norm_num)

theorem getDeltaY_zero (a b : Nat) : getDeltaY a b 0 true = .ok 0 := by
  unfold getDeltaY
  simp only [if_true, Nat.mul_zero, Nat.zero_add]
  have h5 : ((LIQ - 1) / LIQ + (SPR - 1)) / SPR = 0 := by norm_num
  rw [h5]
  exact cast128_of_lt (by norm_num)

theorem amountDelta_zero {ts : Nat} {p : Pool} {l u : Int} (hok : PoolOk ts p) (h1 : TickOk ts l) (h2 : TickOk ts u)
    (h3 : l < u) : ∃ r, calculateAmountDelta p.tick p.sqrtPrice 0 true u l = .ok r := by
  have p1 := calculateSqrtPrice_ok' h1
  have p2 := calculateSqrtPrice_ok' h2
  have q1 := h1.price_min
  have q2 := h2.price_min
  have q5 := hok.min
  generalize sqrtPriceAt l = pl at *
  generalize sqrtPriceAt u = pu at *
  unfold calculateAmountDelta
  rw [if_neg (by omega)]
  split
  · exact ⟨(0, 0, false), bind_of_ok p1 (bind_of_ok p2 (bind_of_ok (getDeltaX_zero q1 q2) rfl))⟩
  · split
    · exact ⟨(0, 0, true), bind_of_ok p2 (bind_of_ok (getDeltaX_zero q5 q2) (bind_of_ok p1 (bind_of_ok (getDeltaY_zero _ _) rfl)))⟩
    · exact ⟨(0, 0, false), bind_of_ok p1 (bind_of_ok p2 (bind_of_ok (getDeltaY_zero _ _) rfl))⟩

/-- The owner of a position can claim its fees, if they fit into 128 bits. -/
theorem claimFee_ok {c : Chain} {s : Store} {env : Env} {info : Info} {i : Nat} {pos : Position}
    (hs : Struct s) (hi : PosInv s) (ht : TickSum s) (hcap : CapInv s) (hpr : PriceInv s) (hw : i < U32)
    (hpos : s.positions.get? (positionKey info.sender i) = some pos)
    (hfit : ∀ x, accrued s x pos / 10 ^ 34 < U128) :
    ∃ s' out, claimFee c s env info i = .ok (s', out) := by
  have hok := hs.positions _ _ hpos
  have hk := hok.kwf
  obtain ⟨pool, hp⟩ := hok.pool
  have hpk := hpr _ pool hk hp
  obtain ⟨tl, tu, htl, htu, il, iu, rl, ru, gl, nl, gu, nu, l1, l2⟩ := position_records hs ht hpos
  have hL := hok.liq
  have m1 : tl.gross < maxLiquidityPerTick pos.poolKey.tier.spacing := by
    rcases hcap pos.poolKey pos.lower hk hok.lower.i32 with h | h <;> omega
  have m2 : tu.gross < maxLiquidityPerTick pos.poolKey.tier.spacing := by
    rcases hcap pos.poolKey pos.upper hk hok.upper.i32 with h | h <;> omega
  obtain ⟨tl', h1⟩ := Tick.update_zero_ok (isUpper := false) rl.gross m1 rl.change
  obtain ⟨tu', h2⟩ := Tick.update_zero_ok (isUpper := true) ru.gross m2 ru.change
  obtain ⟨r, hr⟩ := amountDelta_zero hpk hok.lower hok.upper hok.lt
  have hr' : calculateAmountDelta pool.tick pool.sqrtPrice 0 true tu.index tl.index = .ok r := by
    rw [iu, il]; exact hr
  have hq : ∃ q : Pool × Nat × Nat, Pool.updateLiquidity { pool with lastTs := env.millis } 0 true tu.index tl.index = .ok q := by
    unfold Pool.updateLiquidity
    cases hf : r.2.2 with
    | false =>
      refine ⟨({ pool with lastTs := env.millis }, r.1, r.2.1), bind_of_ok hr' ?_⟩
      simp only [hf, Bool.false_eq_true, if_false]
      rfl
    | true =>
      refine ⟨({ pool with lastTs := env.millis }, r.1, r.2.1), bind_of_ok hr' ?_⟩
      simp only [hf, if_true]
      exact bind_of_ok (cast128_of_lt (n := pool.liquidity) (hs.fg _ _ hp).2.2) rfl
  obtain ⟨q, hq⟩ := hq
  obtain ⟨g1, g2⟩ := growthInside_both (pool := pool) htl htu il iu
  have acx : accrued s true pos = wsub (feeGrowthInside tl.index tl.outX tu.index tu.outX pool.tick pool.fgX) pos.fgInX * pos.liquidity := by
    unfold accrued accruedIn
    rw [hp, ← g1]; rfl
  have acy : accrued s false pos = wsub (feeGrowthInside tl.index tl.outY tu.index tu.outY pool.tick pool.fgY) pos.fgInY * pos.liquidity := by
    unfold accrued accruedIn
    rw [hp, ← g2]; rfl
  have hnl : pos.newLiquidity true 0 = .ok pos.liquidity := by
    unfold Position.newLiquidity
    simp only [if_true]
    exact cast128_of_lt (n := pos.liquidity) hok.liqlt
  obtain ⟨r', hm⟩ := Position.modify_ok (now := env.millis) h1 h2 (by omega) hnl hok.owedX hok.owedY
    (by rw [← acx]; exact hfit true) (by rw [← acy]; exact hfit false) hq
  obtain ⟨q', d1, d2, d3, d4, d5, d6, d7⟩ := Position.modify_inv hm
  have jl : r'.lower.index = pos.lower := by rw [(Tick.update_inv d1).1, il]
  have ju : r'.upper.index = pos.upper := by rw [(Tick.update_inv d2).1, iu]
  have hlen := (hi.iff info.sender i hw).1 ⟨pos, hpos⟩
  have hcf : pos.claimFee pool tu tl env.millis =
      .ok { r' with pos := { r'.pos with owedX := 0, owedY := 0 }, x := r'.pos.owedX, y := r'.pos.owedY } := bind_of_ok hm rfl
  have hup : ∀ p', updatePosition s info.sender i p' = .ok { s with positions := s.positions.insert (positionKey info.sender i) p' } := by
    intro p'
    unfold updatePosition
    rw [if_neg (by omega)]
  refine ⟨_, _, bind_of_ok (a := pos) ?_ (bind_of_ok (getTick_ok.2 htl) (bind_of_ok (getTick_ok.2 htu) (bind_of_ok (getPool_ok.2 hp)
    (bind_of_ok hcf (bind_of_ok (hup _) (bind_of_ok (updateTick_ok.2 ⟨?_, rfl⟩) (bind_of_ok (updateTick_ok.2 ⟨?_, rfl⟩) rfl)))))))⟩
  · unfold getPosition getPositionByKey
    rw [hpos]
  · exact ⟨tu, by simp only [ju]; exact htu⟩
  · simp only [jl, ju]
    show ∃ old, (s.ticks.insert _ _).get? _ = some old
    rw [KV.get?_insert]
    split
    · exact ⟨_, rfl⟩
    · exact ⟨tl, htl⟩

end OraiV3
