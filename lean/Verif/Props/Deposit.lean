import Verif.Lemmas.Deposit
import Verif.Props.Quote

/-!
# Deposits and withdrawals: C25 for whole calls, C37
-/

namespace OraiV3

/-! ## C25: what a deposit charges and a withdrawal pays -/

/-- Opening a position charges, for some whole amounts `x` and `y`, at least the exact amounts of the two
tokens the position consists of at the pool's price, up to `10^-14` units of X, and less than two units of X
(one of Y) more; no X if the price is above the range.  The balances fall by just these amounts; the one exception is a coin attached although none of
it is needed, which the contract keeps (`C29`). -/
theorem C25_deposit {c : Chain} {w w' : World} {env : Env} {info : Info} {k : PoolKey} {l u : Int} {L lo hi : Nat} {msg : Msg}
    (hm : msg = .createPosition k l u L lo hi ∨ msg = .mint k l u L lo hi)
    (hr : Reach c w.store) (hne : info.sender ≠ c.self) (hn : (info.funds.map Coin.denom).Nodup)
    (h : w.tx c env info msg = .ok w') :
    ∃ (p : Pool) (x y : Nat), w.store.pools.get? k.key = some p ∧
      exactPositionX L (sqrtPriceAt l) (sqrtPriceAt u) p.sqrtPrice < x + 1 / 10 ^ 14 ∧
      (x : ℚ) * (1 - 1 / 10 ^ 14) ≤ exactPositionX L (sqrtPriceAt l) (sqrtPriceAt u) p.sqrtPrice + 1 ∧
      exactPositionY L (sqrtPriceAt l) (sqrtPriceAt u) p.sqrtPrice ≤ y ∧
      (y : ℚ) < exactPositionY L (sqrtPriceAt l) (sqrtPriceAt u) p.sqrtPrice + 1 ∧
      (x ≠ 0 ∨ (∀ coin ∈ info.funds, coin.denom ≠ k.tokenX) →
        w'.ledger.bal (tokenAsset c k.tokenX) info.sender + x = w.ledger.bal (tokenAsset c k.tokenX) info.sender) ∧
      (y ≠ 0 ∨ (∀ coin ∈ info.funds, coin.denom ≠ k.tokenY) →
        w'.ledger.bal (tokenAsset c k.tokenY) info.sender + y = w.ledger.bal (tokenAsset c k.tokenY) info.sender) ∧
      (sqrtPriceAt u ≤ p.sqrtPrice → x = 0) := by
  obtain ⟨out, x1, b1⟩ := tx_inv h
  have y1 : (Msg.createPosition k l u L lo hi).wf ∧
      createPosition c w.store env info k l u L lo hi = .ok (w'.store, out) := by
    rcases hm with rfl | rfl
    · exact execute_ok.1 x1
    · exact execute_ok.1 x1
  have hmr := hr.mreach
  obtain ⟨p, x, y, m1, m2, hp, hok, ok1, ok2, hlu, hxy, g1, g2, t1, t2, eo⟩ :=
    createPosition_charge hmr.struct hmr.price y1.1 y1.2
  obtain ⟨_, _, e1, e2⟩ := deltaX_up_exact g1
  obtain ⟨e3, e4⟩ := deltaY_up_exact g2
  have hd := dustX_small (ok1.clamp_min u p.sqrtPrice) ok2.price_min
  have hax : tokenAsset c k.tokenX ≠ tokenAsset c k.tokenY := fun e => hxy (tokenAsset_inj e)
  refine ⟨p, x, y, hp, ?_, ?_, e3, e4, fun hx => ?_, fun hy => ?_, fun hle => ?_⟩
  · unfold exactPositionX; linarith
  · unfold exactPositionX
    have : (x : ℚ) * dustX (clampPrice (sqrtPriceAt l) (sqrtPriceAt u) p.sqrtPrice) (sqrtPriceAt u) ≤ x * (1 / 10 ^ 14) :=
      mul_le_mul_of_nonneg_left (le_of_lt hd) (Nat.cast_nonneg x)
    nlinarith
  · have b := b1 (tokenAsset c k.tokenX) info.sender
    rw [eo, outDelta_append, assetTransferFrom_other t2 hax] at b
    by_cases h0 : x = 0
    · have hf := fundsDelta_none (c := c) (hx.resolve_left (fun h => h h0)) info.sender
      rw [hf] at b
      have : m1 = [] := by
        unfold assetTransferFrom at t1
        rw [if_pos h0, ok_inj] at t1
        exact t1.symm
      rw [this] at b
      simp only [outDelta, List.map_nil, List.sum_nil] at b
      omega
    · have := charge_exact hne hn h0 t1
      omega
  · have b := b1 (tokenAsset c k.tokenY) info.sender
    rw [eo, outDelta_append, assetTransferFrom_other t1 hax.symm] at b
    by_cases h0 : y = 0
    · have hf := fundsDelta_none (c := c) (hy.resolve_left (fun h => h h0)) info.sender
      rw [hf] at b
      have : m2 = [] := by
        unfold assetTransferFrom at t2
        rw [if_pos h0, ok_inj] at t2
        exact t2.symm
      rw [this] at b
      simp only [outDelta, List.map_nil, List.sum_nil] at b
      omega
    · have := charge_exact hne hn h0 t2
      omega
  · have e : clampPrice (sqrtPriceAt l) (sqrtPriceAt u) p.sqrtPrice = sqrtPriceAt u := by
      have := ok1.price_le ok2 (by omega)
      unfold clampPrice
      omega
    rw [e] at g1
    unfold getDeltaX divToTokenUp at g1
    simp only [if_true, ite_error_ok] at g1
    obtain ⟨g0, -, -, g1⟩ := g1
    have z : absDiff (sqrtPriceAt u) (sqrtPriceAt u) = 0 := by unfold absDiff; split <;> omega
    rw [z, Nat.zero_mul, Nat.zero_div, Nat.zero_mul, Nat.zero_add] at g1
    generalize sqrtPriceAt u * sqrtPriceAt u / SPR = den at g0 g1
    rw [Nat.div_eq_of_lt (show den - 1 < den by omega), Nat.zero_add, Nat.div_eq_of_lt (by norm_num)] at g1
    exact (cast128_ok.1 g1).2.symm

/-- Closing a position pays its unpaid fees, in whole units, and whole amounts `x` and `y` that are at most the
exact amounts the position consists of at the pool's price, and less than two units of X (one of Y) below. -/
theorem C25_withdraw {c : Chain} {w w' : World} {env : Env} {who : Bytes} {i : Nat}
    (hr : Reach c w.store) (hne : who ≠ c.self) (h : w.tx c env ⟨who, []⟩ (.removePosition i) = .ok w') :
    ∃ (q : Position) (p : Pool) (x y : Nat), w.store.positions.get? (positionKey who i) = some q ∧
      w.store.pools.get? q.poolKey.key = some p ∧
      (x : ℚ) ≤ exactPositionX q.liquidity (sqrtPriceAt q.lower) (sqrtPriceAt q.upper) p.sqrtPrice ∧
      exactPositionX q.liquidity (sqrtPriceAt q.lower) (sqrtPriceAt q.upper) p.sqrtPrice <
        (x + 1) * (1 + 1 / 10 ^ 14) + 1 / 10 ^ 14 ∧
      (y : ℚ) ≤ exactPositionY q.liquidity (sqrtPriceAt q.lower) (sqrtPriceAt q.upper) p.sqrtPrice ∧
      exactPositionY q.liquidity (sqrtPriceAt q.lower) (sqrtPriceAt q.upper) p.sqrtPrice < y + 1 ∧
      w'.ledger.bal (tokenAsset c q.poolKey.tokenX) who =
        w.ledger.bal (tokenAsset c q.poolKey.tokenX) who + (x + accrued w.store true q / 10 ^ 34) ∧
      w'.ledger.bal (tokenAsset c q.poolKey.tokenY) who =
        w.ledger.bal (tokenAsset c q.poolKey.tokenY) who + (y + accrued w.store false q / 10 ^ 34) := by
  obtain ⟨out, x1, b1⟩ := tx_inv h
  have y1 := (execute_ok.1 x1).2
  simp only [dispatch] at y1
  have hmr := hr.mreach
  obtain ⟨q, p, x, y, hq, hp, hok, ok1, ok2, hxy, g1, g2, eo⟩ := removePosition_payment hmr.struct hmr.price y1
  obtain ⟨_, _, e1, e2⟩ := deltaX_down_exact g1
  obtain ⟨e3, e4⟩ := deltaY_down_exact g2
  have hd := dustX_small (ok1.clamp_min q.upper p.sqrtPrice) ok2.price_min
  have hax : tokenAsset c q.poolKey.tokenX ≠ tokenAsset c q.poolKey.tokenY := fun e => hxy (tokenAsset_inj e)
  refine ⟨q, p, x, y, hq, hp, e1, ?_, e3, e4, ?_, ?_⟩
  · unfold exactPositionX
    have : ((x : ℚ) + 1) * dustX (clampPrice (sqrtPriceAt q.lower) (sqrtPriceAt q.upper) p.sqrtPrice) (sqrtPriceAt q.upper) ≤
        (x + 1) * (1 / 10 ^ 14) := mul_le_mul_of_nonneg_left (le_of_lt hd) (by positivity)
    nlinarith
  · have b := b1 (tokenAsset c q.poolKey.tokenX) who
    rw [eo, outDelta_append] at b
    have s1 := assetTransfer_sender (c := c) (d := q.poolKey.tokenX) (n := x + accrued w.store true q / 10 ^ 34)
      (info := ⟨who, []⟩) hne (tokenAsset c q.poolKey.tokenX)
    have s2 := assetTransfer_sender (c := c) (d := q.poolKey.tokenY) (n := y + accrued w.store false q / 10 ^ 34)
      (info := ⟨who, []⟩) hne (tokenAsset c q.poolKey.tokenX)
    rw [if_pos rfl] at s1
    rw [if_neg hax] at s2
    simp only at s1 s2 b
    rw [s1, s2] at b
    simp only [fundsDelta, List.map_nil, List.sum_nil] at b
    omega
  · have b := b1 (tokenAsset c q.poolKey.tokenY) who
    rw [eo, outDelta_append] at b
    have s1 := assetTransfer_sender (c := c) (d := q.poolKey.tokenX) (n := x + accrued w.store true q / 10 ^ 34)
      (info := ⟨who, []⟩) hne (tokenAsset c q.poolKey.tokenY)
    have s2 := assetTransfer_sender (c := c) (d := q.poolKey.tokenY) (n := y + accrued w.store false q / 10 ^ 34)
      (info := ⟨who, []⟩) hne (tokenAsset c q.poolKey.tokenY)
    rw [if_neg hax.symm] at s1
    rw [if_pos rfl] at s2
    simp only at s1 s2 b
    rw [s1, s2] at b
    simp only [fundsDelta, List.map_nil, List.sum_nil] at b
    omega

/-! ## C37: the client's liquidity is affordable -/

/-- Token X: depositing the liquidity `get_liquidity_by_x` computes from an amount at the pool's price (or less
liquidity) takes at most that amount of X, if no more than that is attached. -/
theorem C37_by_x {c : Chain} {w w' : World} {env : Env} {info : Info} {k : PoolKey} {l u : Int} {L lo hi x : Nat} {up : Bool}
    {p : Pool} {r : SingleLiq} {msg : Msg} (hm : msg = .createPosition k l u L lo hi ∨ msg = .mint k l u L lo hi)
    (hr : Reach c w.store) (hne : info.sender ≠ c.self)
    (hn : (info.funds.map Coin.denom).Nodup) (ha : ∀ coin ∈ info.funds, coin.denom = k.tokenX → coin.amount ≤ x)
    (hp : w.store.pools.get? k.key = some p) (hl : liquidityByX x l u p.sqrtPrice up = .ok r) (hL : L ≤ r.l)
    (h : w.tx c env info msg = .ok w') :
    w.ledger.bal (tokenAsset c k.tokenX) info.sender ≤ w'.ledger.bal (tokenAsset c k.tokenX) info.sender + x := by
  obtain ⟨out, x1, b1⟩ := tx_inv h
  have y1 : (Msg.createPosition k l u L lo hi).wf ∧
      createPosition c w.store env info k l u L lo hi = .ok (w'.store, out) := by
    rcases hm with rfl | rfl
    · exact execute_ok.1 x1
    · exact execute_ok.1 x1
  have hmr := hr.mreach
  obtain ⟨p', x', y', m1, m2, hp', hok, ok1, ok2, hlu, hxy, g1, g2, t1, t2, eo⟩ :=
    createPosition_charge hmr.struct hmr.price y1.1 y1.2
  rw [hp, Option.some.injEq] at hp'
  subst hp'
  have hax : tokenAsset c k.tokenX ≠ tokenAsset c k.tokenY := fun e => hxy (tokenAsset_inj e)
  unfold liquidityByX at hl
  simp only [ite_error_ok, bind_ok, calculateSqrtPrice_ok] at hl
  obtain ⟨_, a, ⟨_, rfl⟩, b, ⟨_, rfl⟩, hl⟩ := hl
  have hx := byX_affordable (ok1.price_le ok2 (by omega)) hl hL g1
  have hat : attached info.funds k.tokenX ≤ x := by
    rw [attached_unique hn]
    split
    · rename_i coin hf
      exact ha coin (List.mem_of_find?_eq_some hf) (by simpa using List.find?_some hf)
    · omega
  have := charge_le hne hn hx hat t1
  have b := b1 (tokenAsset c k.tokenX) info.sender
  rw [eo, outDelta_append, assetTransferFrom_other t2 hax] at b
  omega

/-- Token Y, likewise with `get_liquidity_by_y`. -/
theorem C37_by_y {c : Chain} {w w' : World} {env : Env} {info : Info} {k : PoolKey} {l u : Int} {L lo hi y : Nat} {up : Bool}
    {p : Pool} {r : SingleLiq} {msg : Msg} (hm : msg = .createPosition k l u L lo hi ∨ msg = .mint k l u L lo hi)
    (hr : Reach c w.store) (hne : info.sender ≠ c.self)
    (hn : (info.funds.map Coin.denom).Nodup) (ha : ∀ coin ∈ info.funds, coin.denom = k.tokenY → coin.amount ≤ y)
    (hp : w.store.pools.get? k.key = some p) (hl : liquidityByY y l u p.sqrtPrice up = .ok r) (hL : L ≤ r.l)
    (h : w.tx c env info msg = .ok w') :
    w.ledger.bal (tokenAsset c k.tokenY) info.sender ≤ w'.ledger.bal (tokenAsset c k.tokenY) info.sender + y := by
  obtain ⟨out, x1, b1⟩ := tx_inv h
  have y1 : (Msg.createPosition k l u L lo hi).wf ∧
      createPosition c w.store env info k l u L lo hi = .ok (w'.store, out) := by
    rcases hm with rfl | rfl
    · exact execute_ok.1 x1
    · exact execute_ok.1 x1
  have hmr := hr.mreach
  obtain ⟨p', x', y', m1, m2, hp', hok, ok1, ok2, hlu, hxy, g1, g2, t1, t2, eo⟩ :=
    createPosition_charge hmr.struct hmr.price y1.1 y1.2
  rw [hp, Option.some.injEq] at hp'
  subst hp'
  have hax : tokenAsset c k.tokenX ≠ tokenAsset c k.tokenY := fun e => hxy (tokenAsset_inj e)
  unfold liquidityByY at hl
  simp only [ite_error_ok, bind_ok, calculateSqrtPrice_ok] at hl
  obtain ⟨_, a, ⟨_, rfl⟩, b, ⟨_, rfl⟩, hl⟩ := hl
  have hx := byY_affordable (ok1.price_le ok2 (by omega)) hl hL g2
  have hat : attached info.funds k.tokenY ≤ y := by
    rw [attached_unique hn]
    split
    · rename_i coin hf
      exact ha coin (List.mem_of_find?_eq_some hf) (by simpa using List.find?_some hf)
    · omega
  have := charge_le hne hn hx hat t2
  have b := b1 (tokenAsset c k.tokenY) info.sender
  rw [eo, outDelta_append, assetTransferFrom_other t1 hax.symm] at b
  omega

/-- Both tokens: the liquidity `get_liquidity` computes from two amounts takes at most these amounts. -/
theorem C37_both {c : Chain} {w w' : World} {env : Env} {info : Info} {k : PoolKey} {l u : Int} {lo hi x y : Nat} {up : Bool}
    {p : Pool} {r : LiqResult} {msg : Msg} (hm : msg = .createPosition k l u r.l lo hi ∨ msg = .mint k l u r.l lo hi)
    (hr : Reach c w.store) (hne : info.sender ≠ c.self)
    (hn : (info.funds.map Coin.denom).Nodup) (hax : ∀ coin ∈ info.funds, coin.denom = k.tokenX → coin.amount ≤ x)
    (hay : ∀ coin ∈ info.funds, coin.denom = k.tokenY → coin.amount ≤ y)
    (hp : w.store.pools.get? k.key = some p) (hl : getLiquidity x y l u p.sqrtPrice up = .ok r)
    (h : w.tx c env info msg = .ok w') :
    w.ledger.bal (tokenAsset c k.tokenX) info.sender ≤ w'.ledger.bal (tokenAsset c k.tokenX) info.sender + x ∧
    w.ledger.bal (tokenAsset c k.tokenY) info.sender ≤ w'.ledger.bal (tokenAsset c k.tokenY) info.sender + y := by
  obtain ⟨out, x1, b1⟩ := tx_inv h
  have y1 : (Msg.createPosition k l u r.l lo hi).wf ∧
      createPosition c w.store env info k l u r.l lo hi = .ok (w'.store, out) := by
    rcases hm with rfl | rfl
    · exact execute_ok.1 x1
    · exact execute_ok.1 x1
  have hmr := hr.mreach
  obtain ⟨p', x', y', m1, m2, hp', hok, ok1, ok2, hlu, hxy, g1, g2, t1, t2, eo⟩ :=
    createPosition_charge hmr.struct hmr.price y1.1 y1.2
  rw [hp, Option.some.injEq] at hp'
  subst hp'
  have hlh := ok1.price_le ok2 (by omega)
  have hne' : tokenAsset c k.tokenX ≠ tokenAsset c k.tokenY := fun e => hxy (tokenAsset_inj e)
  have hatx : attached info.funds k.tokenX ≤ x := by
    rw [attached_unique hn]
    split
    · rename_i coin hf
      exact hax coin (List.mem_of_find?_eq_some hf) (by simpa using List.find?_some hf)
    · omega
  have haty : attached info.funds k.tokenY ≤ y := by
    rw [attached_unique hn]
    split
    · rename_i coin hf
      exact hay coin (List.mem_of_find?_eq_some hf) (by simpa using List.find?_some hf)
    · omega
  have key : x' ≤ x ∧ y' ≤ y := by
    unfold getLiquidity at hl
    simp only [ite_error_ok, bind_ok, calculateSqrtPrice_ok] at hl
    obtain ⟨_, a, ⟨_, rfl⟩, b, ⟨_, rfl⟩, hl⟩ := hl
    split at hl
    · rename_i hc
      simp only [bind_ok, pure_ok] at hl
      obtain ⟨q, h1, rfl⟩ := hl
      have e : clampPrice (sqrtPriceAt l) (sqrtPriceAt u) p.sqrtPrice = sqrtPriceAt u := by unfold clampPrice; omega
      have h2 := byY_affordable hlh h1 (Nat.le_refl _) g2
      rw [e, getDeltaX_same ok2.price_min, ok_inj] at g1
      omega
    · split at hl
      · rename_i hc
        simp only [bind_ok, pure_ok] at hl
        obtain ⟨q, h1, rfl⟩ := hl
        have e : clampPrice (sqrtPriceAt l) (sqrtPriceAt u) p.sqrtPrice = sqrtPriceAt l := by unfold clampPrice; omega
        have h2 := byX_affordable hlh h1 (Nat.le_refl _) g1
        rw [e, getDeltaY_same, ok_inj] at g2
        omega
      · simp only [bind_ok, pure_ok] at hl
        obtain ⟨q, h1, q', h2, rfl⟩ := hl
        simp only at g1 g2
        exact ⟨byX_affordable hlh h2 (by split <;> omega) g1, byY_affordable hlh h1 (by split <;> omega) g2⟩
  have c1 := charge_le hne hn key.1 hatx t1
  have c2 := charge_le hne hn key.2 haty t2
  have b := b1 (tokenAsset c k.tokenX) info.sender
  have b' := b1 (tokenAsset c k.tokenY) info.sender
  rw [eo, outDelta_append, assetTransferFrom_other t2 hne'] at b
  rw [eo, outDelta_append, assetTransferFrom_other t1 hne'.symm] at b'
  omega

/-- Bob computes the liquidity for 34 units of X and 35
of Y, pays no more than these for it, and loses one unit of each when closing the position again. -/
example : (do
    let s := Demo.state Demo.chain Demo.setup
    let r ← getLiquidity 34 35 (-10) 10 SPR true
    let w ← World.tx Demo.chain ⟨s, Demo.wealthy⟩ Demo.env (Demo.by_ Demo.bob) (.createPosition Demo.key (-10) 10 r.l 0 (10 ^ 30))
    let v ← w.tx Demo.chain Demo.env (Demo.by_ Demo.bob) (.removePosition 0)
    pure (r.l, w.ledger.bal (.cw20 [97]) Demo.bob, w.ledger.bal (.cw20 [98]) Demo.bob,
      v.ledger.bal (.cw20 [97]) Demo.bob, v.ledger.bal (.cw20 [98]) Demo.bob) :
      M (Nat × Nat × Nat × Nat × Nat)) =
    .ok (68020401359, 10 ^ 40 - 34, 10 ^ 40 - 35, 10 ^ 40 - 1, 10 ^ 40 - 1) := by decide +kernel

/-! ## C42: the helper's amount of the other token -/

/-- `get_liquidity_by_x`, asked to round up, reports an amount of Y that is too small: for 34 units of X between
ticks -10 and 10 at price 1 it reports 34 units of Y, the deposit takes 35. -/
theorem C42_false : ∃ (c : Chain) (w w' : World) (env : Env) (info : Info) (k : PoolKey) (p : Pool) (l u : Int) (x lo hi : Nat) (r : SingleLiq),
    Reach c w.store ∧ w.store.pools.get? k.key = some p ∧ liquidityByX x l u p.sqrtPrice true = .ok r ∧
    info.funds = [] ∧ w.tx c env info (.createPosition k l u r.l lo hi) = .ok w' ∧
    w'.ledger.bal (tokenAsset c k.tokenY) info.sender + r.amount < w.ledger.bal (tokenAsset c k.tokenY) info.sender := by
  let w : World := ⟨Demo.state Demo.chain Demo.setup, Demo.wealthy⟩
  have h1 : ∃ p, w.store.pools.get? Demo.key.key = some p ∧ p.sqrtPrice = SPR := by
    have : (w.store.pools.get? Demo.key.key).map (·.sqrtPrice) = some SPR := by decide +kernel
    simpa using this
  obtain ⟨p, hp, e⟩ := h1
  have h2 : liquidityByX 34 (-10) 10 SPR true = .ok ⟨68020401359, 34⟩ := by decide +kernel
  have h3 : ((w.tx Demo.chain Demo.env (Demo.by_ Demo.bob) (.createPosition Demo.key (-10) 10 68020401359 0 (10 ^ 30))).map
      (fun v => v.ledger.bal (.cw20 [98]) Demo.bob)) = .ok (10 ^ 40 - 35) := by decide +kernel
  cases h4 : w.tx Demo.chain Demo.env (Demo.by_ Demo.bob) (.createPosition Demo.key (-10) 10 68020401359 0 (10 ^ 30)) with
  | error e => rw [h4] at h3; cases h3
  | ok w' =>
    rw [h4] at h3
    have h5 : w'.ledger.bal (.cw20 [98]) Demo.bob = 10 ^ 40 - 35 := Except.ok.inj h3
    refine ⟨Demo.chain, w, w', Demo.env, Demo.by_ Demo.bob, Demo.key, p, -10, 10, 34, 0, 10 ^ 30, ⟨68020401359, 34⟩,
      Demo.state_reach (c := Demo.chain) (ms := Demo.setup) (by decide +kernel), hp, by rw [e]; exact h2, rfl, h4, ?_⟩
    show w'.ledger.bal (.cw20 [98]) Demo.bob + 34 < 10 ^ 40
    rw [h5]
    norm_num

/-- It is short by at most `√p - √p_lower` units, rounded down, and one: the whole part of a price. -/
theorem C42_by_x_partial {c : Chain} {s s' : Store} {env : Env} {info : Info} {k : PoolKey} {l u : Int} {lo hi x : Nat}
    {p : Pool} {r : SingleLiq} {out : List OutMsg} (hr : Reach c s)
    (hp : s.pools.get? k.key = some p) (hl : liquidityByX x l u p.sqrtPrice true = .ok r)
    (h : execute c env info (.createPosition k l u r.l lo hi) s = .ok (s', out)) :
    ∃ x' y' m1 m2, assetTransferFrom c k.tokenX x' info = .ok m1 ∧ assetTransferFrom c k.tokenY y' info = .ok m2 ∧
      out = m1 ++ m2 ∧ x' ≤ x ∧ y' ≤ r.amount + (p.sqrtPrice - sqrtPriceAt l) / SPR + 1 := by
  have y1 := execute_ok.1 h
  have hmr := hr.mreach
  obtain ⟨p', x', y', m1, m2, hp', hok, ok1, ok2, hlu, hxy, g1, g2, t1, t2, eo⟩ :=
    createPosition_charge hmr.struct hmr.price y1.1 y1.2
  rw [hp, Option.some.injEq] at hp'
  subst hp'
  unfold liquidityByX at hl
  simp only [ite_error_ok, bind_ok, calculateSqrtPrice_ok] at hl
  obtain ⟨_, a, ⟨_, rfl⟩, b, ⟨_, rfl⟩, hl⟩ := hl
  have hlh := ok1.price_le ok2 (by omega)
  exact ⟨x', y', m1, m2, t1, t2, eo, byX_affordable hlh hl (Nat.le_refl _) g1, byX_other hl g2⟩

/-- The amount of X reported by `get_liquidity_by_y` is short by at most two units and `10^18` divided by the
price the pool and the upper tick have on (geometric) average, which is less than one at prices above `10^-6`. -/
theorem C42_by_y_partial {c : Chain} {s s' : Store} {env : Env} {info : Info} {k : PoolKey} {l u : Int} {lo hi y : Nat}
    {p : Pool} {r : SingleLiq} {out : List OutMsg} (hr : Reach c s)
    (hp : s.pools.get? k.key = some p) (hl : liquidityByY y l u p.sqrtPrice true = .ok r)
    (h : execute c env info (.createPosition k l u r.l lo hi) s = .ok (s', out)) :
    ∃ x' y' m1 m2, assetTransferFrom c k.tokenX x' info = .ok m1 ∧ assetTransferFrom c k.tokenY y' info = .ok m2 ∧
      out = m1 ++ m2 ∧ y' ≤ y ∧ x' ≤ r.amount + 10 ^ 18 / (p.sqrtPrice * sqrtPriceAt u / SPR) + 2 := by
  have y1 := execute_ok.1 h
  have hmr := hr.mreach
  obtain ⟨p', x', y', m1, m2, hp', hok, ok1, ok2, hlu, hxy, g1, g2, t1, t2, eo⟩ :=
    createPosition_charge hmr.struct hmr.price y1.1 y1.2
  rw [hp, Option.some.injEq] at hp'
  subst hp'
  unfold liquidityByY at hl
  simp only [ite_error_ok, bind_ok, calculateSqrtPrice_ok] at hl
  obtain ⟨_, a, ⟨_, rfl⟩, b, ⟨_, rfl⟩, hl⟩ := hl
  have hlh := ok1.price_le ok2 (by omega)
  exact ⟨x', y', m1, m2, t1, t2, eo, byY_affordable hlh hl (Nat.le_refl _) g2, byY_other ok2.price_min hl g1⟩

end OraiV3
