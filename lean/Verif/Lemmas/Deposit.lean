import Verif.Lemmas.Liveness
import Verif.Lemmas.ExactLemmas
import Verif.Lemmas.Ledger
import Verif.Lemmas.OpenClose
import Verif.Liquidity

/-!
# Amounts of a deposit or withdrawal in terms of the price
-/

namespace OraiV3

theorem PoolOk.lt_of_tick {ts : Nat} {p : Pool} (h : PoolOk ts p) {i : Int} (hi : TickOk ts i) (hl : p.tick < i) :
    p.sqrtPrice < sqrtPriceAt i := by
  have h1 := (TickOk_iff.1 hi).2.2.2
  have h2 := h.hi (by omega)
  have h3 := (h.tick.add (by omega)).price_le hi (dvd_lt_step h.tick.pos h.tick.dvd hi.dvd hl)
  omega

theorem PoolOk.ge_of_tick {ts : Nat} {p : Pool} (h : PoolOk ts p) {i : Int} (hi : TickOk ts i) (hl : i ≤ p.tick) :
    sqrtPriceAt i ≤ p.sqrtPrice := Nat.le_trans (hi.price_le h.tick hl) h.lo

theorem getDeltaX_same {a : Nat} (ha : MIN_SQRT_PRICE ≤ a) (L : Nat) (up : Bool) : getDeltaX a a L up = .ok 0 := by
  have h0 : SPR ≤ a * a := sq_ge ha
  have hd : 0 < a * a / SPR := Nat.div_pos h0 (by norm_num)
  have hd' : 0 < (a * a + (SPR - 1)) / SPR := Nat.lt_of_lt_of_le hd (Nat.div_le_div_right (by omega))
  have hz : absDiff a a * L / LIQ = 0 := by simp [absDiff]
  unfold getDeltaX
  simp only [hz]
  cases up
  · simp only [Bool.false_eq_true, if_false]
    have := divToToken_ok (nom := 0) hd' (by simp) (by simp)
    rw [this]; simp
  · simp only [if_true]
    generalize a * a / SPR = den at hd
    unfold divToTokenUp
    rw [if_neg (by omega)]
    have h1 : (0 * SPR + (den - 1)) / den = 0 := by
      rw [Nat.zero_mul, Nat.zero_add, Nat.div_eq_zero_iff]; omega
    simp only [h1]
    have h2 : ¬ (0 ≥ U256) := by norm_num
    have h3 : ¬ (0 + (SPR - 1) ≥ U256) := by norm_num
    have h4 : (0 + (SPR - 1)) / SPR = 0 := by norm_num
    rw [if_neg h2, if_neg h3, h4]
    exact cast128_of_lt (by norm_num)

theorem getDeltaY_same (a L : Nat) (up : Bool) : getDeltaY a a L up = .ok 0 := by
  have hz : absDiff a a = 0 := by simp [absDiff]
  unfold getDeltaY
  rw [hz]
  simp only [Nat.zero_mul, Nat.zero_add, Nat.zero_div]
  have h5 : ((LIQ - 1) / LIQ + (SPR - 1)) / SPR = 0 := by norm_num
  rw [h5]
  have h6 : cast128 .cast 0 = .ok 0 := cast128_of_lt (by norm_num)
  cases up <;> exact h6

/-- The amounts of a range, whatever the position of the price. -/
theorem amountDelta_clamp {ts : Nat} {p : Pool} (h : PoolOk ts p) {l u : Int} (hl : TickOk ts l) (hu : TickOk ts u)
    {L : Nat} {up : Bool} {r : Nat × Nat × Bool} (hr : calculateAmountDelta p.tick p.sqrtPrice L up u l = .ok r) :
    l ≤ u ∧ getDeltaX (clampPrice (sqrtPriceAt l) (sqrtPriceAt u) p.sqrtPrice) (sqrtPriceAt u) L up = .ok r.1 ∧
    getDeltaY (sqrtPriceAt l) (clampPrice (sqrtPriceAt l) (sqrtPriceAt u) p.sqrtPrice) L up = .ok r.2.1 := by
  unfold calculateAmountDelta at hr
  rw [ite_error_ok] at hr
  obtain ⟨h0, hr⟩ := hr
  have h0 : l ≤ u := by omega
  have hlu := hl.price_le hu h0
  refine ⟨h0, ?_⟩
  split at hr
  · rename_i hc
    have h1 := h.lt_of_tick hl hc
    simp only [bind_ok, calculateSqrtPrice_ok, pure_ok] at hr
    obtain ⟨a, ⟨_, rfl⟩, b, ⟨_, rfl⟩, x, hx, rfl⟩ := hr
    have e : clampPrice (sqrtPriceAt l) (sqrtPriceAt u) p.sqrtPrice = sqrtPriceAt l := by
      unfold clampPrice; omega
    rw [e]
    exact ⟨hx, getDeltaY_same _ _ _⟩
  · rename_i hc
    have h1 := h.ge_of_tick hl (by omega)
    split at hr
    · rename_i hc'
      have h2 := h.lt_of_tick hu hc'
      simp only [bind_ok, calculateSqrtPrice_ok, pure_ok] at hr
      obtain ⟨a, ⟨_, rfl⟩, x, hx, b, ⟨_, rfl⟩, y, hy, rfl⟩ := hr
      have e : clampPrice (sqrtPriceAt l) (sqrtPriceAt u) p.sqrtPrice = p.sqrtPrice := by
        unfold clampPrice; omega
      rw [e]
      exact ⟨hx, hy⟩
    · rename_i hc'
      have h2 := h.ge_of_tick hu (by omega)
      simp only [bind_ok, calculateSqrtPrice_ok, pure_ok] at hr
      obtain ⟨a, ⟨_, rfl⟩, b, ⟨_, rfl⟩, y, hy, rfl⟩ := hr
      have e : clampPrice (sqrtPriceAt l) (sqrtPriceAt u) p.sqrtPrice = sqrtPriceAt u := by
        unfold clampPrice; omega
      rw [e]
      exact ⟨getDeltaX_same hu.price_min _ _, hy⟩

theorem TickOk.clamp_min {ts : Nat} {l : Int} (hl : TickOk ts l) (u : Int) (p : Nat) :
    MIN_SQRT_PRICE ≤ clampPrice (sqrtPriceAt l) (sqrtPriceAt u) p :=
  Nat.le_trans hl.price_min (Nat.le_max_left _ _)

/-- What opening a position charges. -/
theorem createPosition_charge {c : Chain} {s s' : Store} {env : Env} {info : Info} {k : PoolKey} {l u : Int} {L lo hi : Nat}
    {out : List OutMsg} (hs : Struct s) (hpr : PriceInv s) (hw : (Msg.createPosition k l u L lo hi).wf)
    (h : createPosition c s env info k l u L lo hi = .ok (s', out)) :
    ∃ pool x y m1 m2, s.pools.get? k.key = some pool ∧ PoolOk k.tier.spacing pool ∧ TickOk k.tier.spacing l ∧
      TickOk k.tier.spacing u ∧ l < u ∧ k.tokenX ≠ k.tokenY ∧
      getDeltaX (clampPrice (sqrtPriceAt l) (sqrtPriceAt u) pool.sqrtPrice) (sqrtPriceAt u) L true = .ok x ∧
      getDeltaY (sqrtPriceAt l) (clampPrice (sqrtPriceAt l) (sqrtPriceAt u) pool.sqrtPrice) L true = .ok y ∧
      assetTransferFrom c k.tokenX x info = .ok m1 ∧ assetTransferFrom c k.tokenY y info = .ok m2 ∧ out = m1 ++ m2 := by
  obtain ⟨pool, tl, tu, r, rl, m1, m2, hp, hL, hlu, u1, u2, il, iu, _, _, _, _, _, hm, _, _, _, e2, _, _, _, t1, t2, eo⟩ :=
    createPosition_view hs hw h
  have hok := hpr k pool hw.1 hp
  obtain ⟨q, d1, d2, d3, d4, d5, d6, d7⟩ := Position.modify_inv hm
  obtain ⟨a, liq, f1, _, f3⟩ := Pool.updateLiquidity_inv d4
  have jl : r.lower.index = l := (Tick.update_inv d1).1.trans il
  have ju : r.upper.index = u := (Tick.update_inv d2).1.trans iu
  rw [jl, ju] at f1
  have ok1 := (u1.index hs hw.1 hw.2.1).2.1
  have ok2 := (u2.index hs hw.1 hw.2.2.1).2.1
  obtain ⟨g0, g1, g2⟩ := amountDelta_clamp hok ok1 ok2 f1
  have ex : r.x = a.1 := by rw [d6, f3]
  have ey : r.y = a.2.1 := by rw [d7, f3]
  rw [← ex] at g1
  rw [← ey] at g2
  exact ⟨pool, r.x, r.y, m1, m2, hp, hok, ok1, ok2, by omega, hs.tokens_ne hw.1 hp, g1, g2, t1, t2, eo⟩

/-- What closing a position pays. -/
theorem removePosition_payment {c : Chain} {s s' : Store} {env : Env} {info : Info} {i : Nat}
    {out : List OutMsg} (hs : Struct s) (hpr : PriceInv s) (h : removePosition c s env info i = .ok (s', out)) :
    ∃ pos pool x y, s.positions.get? (positionKey info.sender i) = some pos ∧ s.pools.get? pos.poolKey.key = some pool ∧
      PoolOk pos.poolKey.tier.spacing pool ∧ TickOk pos.poolKey.tier.spacing pos.lower ∧
      TickOk pos.poolKey.tier.spacing pos.upper ∧ pos.poolKey.tokenX ≠ pos.poolKey.tokenY ∧
      getDeltaX (clampPrice (sqrtPriceAt pos.lower) (sqrtPriceAt pos.upper) pool.sqrtPrice) (sqrtPriceAt pos.upper)
        pos.liquidity false = .ok x ∧
      getDeltaY (sqrtPriceAt pos.lower) (clampPrice (sqrtPriceAt pos.lower) (sqrtPriceAt pos.upper) pool.sqrtPrice)
        pos.liquidity false = .ok y ∧
      out = assetTransfer c pos.poolKey.tokenX (x + accrued s true pos / 10 ^ 34) info ++
        assetTransfer c pos.poolKey.tokenY (y + accrued s false pos / 10 ^ 34) info := by
  obtain ⟨pos, tl, tu, pool, r, sr, s1, s2, hpos, htl, htu, il, iu, hp, hm, _, _, jl, ju, _, _, _, _, _, _, _, _, _, _, eo⟩ :=
    removePosition_view hs h
  have hpk := hs.positions _ _ hpos
  have hok := hpr _ pool hpk.kwf hp
  obtain ⟨o1, o2, _⟩ := modify_owed hpk htl htu il iu hp hm
  obtain ⟨q, d1, d2, d3, d4, d5, d6, d7⟩ := Position.modify_inv hm
  obtain ⟨a, liq, f1, _, f3⟩ := Pool.updateLiquidity_inv d4
  rw [jl, ju] at f1
  obtain ⟨g0, g1, g2⟩ := amountDelta_clamp hok hpk.lower hpk.upper f1
  have ex : r.x = a.1 := by rw [d6, f3]
  have ey : r.y = a.2.1 := by rw [d7, f3]
  rw [← ex] at g1
  rw [← ey] at g2
  rw [o1, o2] at eo
  exact ⟨pos, pool, r.x, r.y, hpos, hp, hok, hpk.lower, hpk.upper, hs.tokens_ne hpk.kwf hp, g1, g2, eo⟩

/-! ## The client's helpers -/

theorem priceProduct_ok {a b n : Nat} (h : priceProduct a b = .ok n) : n = a * b / SPR := by
  unfold priceProduct bigMul bigDiv at h
  simp only [bind_ok, cast128_ok] at h
  obtain ⟨m, ⟨_, rfl⟩, h⟩ := h
  rw [if_neg (by norm_num), cast128_ok] at h
  rw [← h.2, Nat.mul_div_cancel _ (by norm_num)]

theorem deltaX_affordable {a b x l L y : Nat} (hab : a ≤ b) (h : liqFromX x (a * b / SPR) (b - a) = .ok l) (hL : L ≤ l)
    (hy : getDeltaX a b L true = .ok y) : y ≤ x := by
  unfold liqFromX at h
  rw [ite_error_ok, cast128_ok] at h
  obtain ⟨_, _, rfl⟩ := h
  unfold getDeltaX at hy
  simp only [if_true] at hy
  rw [absDiff_le hab] at hy
  obtain ⟨h0, _, _, h3⟩ := divToTokenUp_inv hy
  generalize a * b / SPR = den at *
  have h4 : (b - a) * L / LIQ ≤ x * den := by
    have h5 : (b - a) * L ≤ x * den * LIQ := by
      refine Nat.le_trans (Nat.mul_le_mul_left _ hL) ?_
      rw [Nat.mul_comm]
      exact Nat.div_mul_le_self _ _
    exact Nat.div_le_of_le_mul (by rw [Nat.mul_comm LIQ]; exact h5)
  have h6 : y * den < (x + 1) * den := by rw [Nat.succ_mul]; omega
  have := Nat.lt_of_mul_lt_mul_right h6
  omega

theorem deltaY_affordable {a b y l L z : Nat} (hab : a ≤ b) (h : liqFromY y (b - a) = .ok l) (hL : L ≤ l)
    (hz : getDeltaY a b L true = .ok z) : z ≤ y := by
  unfold liqFromY at h
  rw [ite_error_ok, cast128_ok] at h
  obtain ⟨_, _, rfl⟩ := h
  obtain ⟨_, _, h3⟩ := getDeltaY_up hz
  rw [absDiff_le hab] at h3
  have h5 : (b - a) * L ≤ y * SPR * LIQ := by
    refine Nat.le_trans (Nat.mul_le_mul_left _ hL) ?_
    rw [Nat.mul_comm]
    exact Nat.div_mul_le_self _ _
  have h6 : y * SPR * LIQ = y * 10 ^ 30 := by rw [Nat.mul_assoc]; norm_num
  have h7 : z * 10 ^ 30 < (y + 1) * 10 ^ 30 := by rw [Nat.succ_mul]; omega
  have := Nat.lt_of_mul_lt_mul_right h7
  omega

/-- The liquidity for an amount of X, or less, costs at most that amount. -/
theorem byX_affordable {x lo hi p : Nat} {up : Bool} {r : SingleLiq} (hlo : lo ≤ hi)
    (h : liquidityByXPrice x lo hi p up = .ok r) {L y : Nat} (hL : L ≤ r.l)
    (hy : getDeltaX (clampPrice lo hi p) hi L true = .ok y) : y ≤ x := by
  unfold liquidityByXPrice at h
  rw [ite_error_ok] at h
  obtain ⟨h0, h⟩ := h
  split at h
  · rename_i hc
    simp only [bind_ok, subP_ok, pure_ok] at h
    obtain ⟨n, h1, d, ⟨_, rfl⟩, l, h2, rfl⟩ := h
    rw [priceProduct_ok h1] at h2
    have e : clampPrice lo hi p = lo := by unfold clampPrice; omega
    rw [e] at hy
    exact deltaX_affordable hlo h2 hL hy
  · rename_i hc
    simp only [bind_ok, subP_ok, pure_ok] at h
    obtain ⟨n, h1, d, ⟨_, rfl⟩, l, h2, _, _, _, _, rfl⟩ := h
    rw [priceProduct_ok h1] at h2
    have e : clampPrice lo hi p = p := by unfold clampPrice; omega
    rw [e] at hy
    exact deltaX_affordable (by omega) h2 hL hy

/-- The liquidity for an amount of Y, or less, costs at most that amount. -/
theorem byY_affordable {y lo hi p : Nat} {up : Bool} {r : SingleLiq} (hlo : lo ≤ hi)
    (h : liquidityByYPrice y lo hi p up = .ok r) {L z : Nat} (hL : L ≤ r.l)
    (hz : getDeltaY lo (clampPrice lo hi p) L true = .ok z) : z ≤ y := by
  unfold liquidityByYPrice at h
  rw [ite_error_ok] at h
  obtain ⟨h0, h⟩ := h
  split at h
  · rename_i hc
    simp only [bind_ok, subP_ok, pure_ok] at h
    obtain ⟨d, ⟨_, rfl⟩, l, h2, rfl⟩ := h
    have e : clampPrice lo hi p = hi := by unfold clampPrice; omega
    rw [e] at hz
    exact deltaY_affordable hlo h2 hL hz
  · rename_i hc
    simp only [bind_ok, subP_ok, pure_ok] at h
    obtain ⟨d, ⟨_, rfl⟩, l, h2, _, _, _, _, _, _, rfl⟩ := h
    have e : clampPrice lo hi p = p := by unfold clampPrice; omega
    rw [e] at hz
    exact deltaY_affordable (by omega) h2 hL hz

theorem other_arith {dl df d y z g : Nat} (h1 : dl ≤ df * LIQ + d * LIQ) (h2 : y * 10 ^ 30 < dl + 10 ^ 30)
    (h3 : df ≤ z * SPR) (h4 : d < g * SPR + SPR) : y < z + g + 2 := by
  have e1 : (LIQ : Nat) = 10 ^ 6 := rfl
  have e2 : (SPR : Nat) = 10 ^ 24 := rfl
  rw [e1] at h1
  rw [e2] at h3 h4
  omega

theorem other_arith' {den n n' m v x z g : Nat} (hd : 0 < den) (h1 : x * den < n + den) (h2 : n * LIQ ≤ n')
    (h3 : n' < m * SPR + SPR) (h4 : m * SPR < v * den + den) (h5 : v ≤ z * LIQ) (h6 : 10 ^ 18 < g * den + den) :
    x < z + g + 3 := by
  have e1 : (LIQ : Nat) = 10 ^ 6 := rfl
  have e2 : (SPR : Nat) = 10 ^ 24 := rfl
  have h7 : v * den ≤ z * LIQ * den := Nat.mul_le_mul_right _ h5
  have e3 : z * LIQ * den = (z * den) * LIQ := by ring
  rw [e3] at h7
  rw [e1] at h2 h7
  rw [e2] at h3 h4
  have h8 : x * den < (z + g + 3) * den := by
    have e4 : (z + g + 3) * den = z * den + g * den + 3 * den := by ring
    rw [e4]
    omega
  exact Nat.lt_of_mul_lt_mul_right h8

/-- The amount of Y reported for an amount of X, against the charge. -/
theorem byX_other {x lo hi p : Nat} {r : SingleLiq} (h : liquidityByXPrice x lo hi p true = .ok r) {y : Nat}
    (hy : getDeltaY lo (clampPrice lo hi p) r.l true = .ok y) : y ≤ r.amount + (p - lo) / SPR + 1 := by
  unfold liquidityByXPrice at h
  rw [ite_error_ok] at h
  obtain ⟨h0, h⟩ := h
  split at h
  · rename_i hc
    have e : clampPrice lo hi p = lo := by unfold clampPrice; omega
    rw [e, getDeltaY_same, ok_inj] at hy
    rw [← hy]
    exact Nat.zero_le _
  · rename_i hc
    simp only [bind_ok, subP_ok, pure_ok] at h
    obtain ⟨n, h1, d, ⟨_, rfl⟩, l, h2, d', ⟨_, rfl⟩, z, h3, rfl⟩ := h
    have e : clampPrice lo hi p = p := by unfold clampPrice; omega
    rw [e] at hy
    obtain ⟨_, _, h4⟩ := getDeltaY_up hy
    rw [absDiff_le (by omega)] at h4
    unfold calcY at h3
    simp only [if_true, cast128_ok] at h3
    obtain ⟨_, rfl⟩ := h3
    simp only at h4 ⊢
    generalize p - lo = d at *
    have c1 := ceil_spec (d * (l / LIQ)) SPR (by norm_num)
    have c2 := floor_spec l LIQ (by norm_num)
    have c3 := floor_spec d SPR (by norm_num)
    generalize (d * (l / LIQ) + (SPR - 1)) / SPR = z at *
    generalize l / LIQ = f at *
    generalize d / SPR = g at *
    have c4 : d * l ≤ d * (f * LIQ + LIQ) := Nat.mul_le_mul_left _ (by omega)
    have c5 : d * (f * LIQ + LIQ) = d * f * LIQ + d * LIQ := by ring
    have c6 := other_arith (y := y) (z := z) (g := g) (c5 ▸ c4) h4 c1.1 c3.2
    omega

/-- The amount of X reported for an amount of Y, against the charge. -/
theorem byY_other {y lo hi p : Nat} {r : SingleLiq} (hm : MIN_SQRT_PRICE ≤ hi) (h : liquidityByYPrice y lo hi p true = .ok r) {x : Nat}
    (hx : getDeltaX (clampPrice lo hi p) hi r.l true = .ok x) : x ≤ r.amount + 10 ^ 18 / (p * hi / SPR) + 2 := by
  unfold liquidityByYPrice at h
  rw [ite_error_ok] at h
  obtain ⟨h0, h⟩ := h
  split at h
  · rename_i hc
    simp only [bind_ok, subP_ok, pure_ok] at h
    obtain ⟨d, ⟨_, rfl⟩, _⟩ := h
    have e : clampPrice lo hi p = hi := by unfold clampPrice; omega
    rw [e, getDeltaX_same hm, ok_inj] at hx
    rw [← hx]
    exact Nat.zero_le _
  · rename_i hc
    simp only [bind_ok, subP_ok, pure_ok] at h
    obtain ⟨d, ⟨_, rfl⟩, l, h2, n, h1, d', ⟨_, rfl⟩, z, h3, rfl⟩ := h
    rw [priceProduct_ok h1] at h3
    have e : clampPrice lo hi p = p := by unfold clampPrice; omega
    rw [e] at hx
    unfold getDeltaX at hx
    simp only [if_true] at hx
    rw [absDiff_le (by omega)] at hx
    obtain ⟨hd, _, _, h4⟩ := divToTokenUp_inv hx
    unfold calcX bigMul bigDiv at h3
    simp only [bind_ok, cast128_ok, if_true] at h3
    obtain ⟨m, ⟨_, rfl⟩, v, hv, _, rfl⟩ := h3
    rw [ite_error_ok, cast128_ok] at hv
    obtain ⟨_, _, rfl⟩ := hv
    simp only at h4 ⊢
    generalize hi - p = d at *
    generalize p * hi / SPR = den at *
    have c1 := floor_spec (l * d) SPR (by norm_num)
    have c2 := floor_spec (l * d / SPR * SPR) den hd
    have c3 := ceil_spec (l * d / SPR * SPR / den) LIQ (by norm_num)
    rw [← Nat.add_sub_assoc (by norm_num)] at c3
    have c5 := floor_spec (10 ^ 18) den hd
    generalize l * d / SPR = m at *
    generalize m * SPR / den = v at *
    generalize (v + LIQ - 1) / LIQ = z at *
    generalize 10 ^ 18 / den = g at *
    rw [Nat.mul_comm d l] at h4
    have f := floor_spec (l * d) LIQ (by norm_num)
    generalize l * d / LIQ = n at *
    generalize l * d = n' at *
    have := other_arith' (x := x) (z := z) (g := g) (den := den) hd h4 f.1 c1.2 c2.2 c3.1 c5.2
    omega

/-- A charge in excess of nothing but what is attached. -/
theorem charge_le {c : Chain} {d : Bytes} {n x : Nat} {info : Info} {ms : List OutMsg} (hne : info.sender ≠ c.self)
    (hu : (info.funds.map Coin.denom).Nodup) (hn : n ≤ x) (hat : attached info.funds d ≤ x)
    (h : assetTransferFrom c d n info = .ok ms) :
    -(x : Int) ≤ fundsDelta c info.sender info.funds (tokenAsset c d) info.sender +
      outDelta c ms (tokenAsset c d) info.sender := by
  rcases assetTransferFrom_delta h (tokenAsset c d) info.sender with ⟨h0, h⟩ | ⟨hc, h⟩ | ⟨hc, coin, hf, hle, h⟩
  · subst h
    simp only [outDelta, List.map_nil, List.sum_nil]
    cases hc : c.isAddr d
    · have e : tokenAsset c d = .native d := by simp [tokenAsset, hc]
      rw [e, fundsDelta_native]
      simp [hne]
      exact hat
    · have e : tokenAsset c d = .cw20 d := by simp [tokenAsset, hc]
      rw [e, fundsDelta_cw20]
      omega
  · rw [h]
    have e : tokenAsset c d = .cw20 d := by simp [tokenAsset, hc]
    rw [e, fundsDelta_cw20]
    simp [moveDelta, hne]
    omega
  · rw [h]
    have e : tokenAsset c d = .native d := by simp [tokenAsset, hc]
    rw [e, fundsDelta_native, attached_unique hu, hf]
    simp [moveDelta, hne]
    omega

end OraiV3
