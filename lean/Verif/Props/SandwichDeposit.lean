import Verif.Props.Sandwich
import Verif.Props.Bounds
import Verif.Props.RangeOrder
import Verif.Props.Positions

/-!
# C106: What others can take from a depositor is bounded by the deposit's price bounds
-/

namespace OraiV3

private theorem acts_list {c : Chain} {s s' : Store} {k : PoolKey} {env : Env} {info : Info} {msg : Msg} {out : List OutMsg}
    (hr : Reach c s) (h : execute c env info msg s = .ok (s', out)) (ha : ActsIn s k info.sender msg) {v : Bytes} (hv : v ≠ info.sender) :
    positionList s' v = positionList s v := by
  have hop := C16_list_operations hr h
  have hw := (execute_ok.1 h).1
  cases msg <;> simp only [ActsIn] at ha <;> simp only [Msg.posOp] at hop
  all_goals first
    | exact hop v
    | (obtain ⟨_, _, hop⟩ := hop; rw [hop v, if_neg hv])
    | (obtain ⟨_, hop⟩ := hop; rw [hop v, if_neg hv])
    | skip
  all_goals
    obtain ⟨o, i, q, q', e, hq, -, hop⟩ := hop
    have hi : i < getPositionLength s o := by
      rw [positionList_getElem?] at hq
      by_contra hc
      rw [if_neg hc] at hq
      cases hq
    have hlen := hr.mreach.posInv.len o
    have : info.sender = o := (positionKey_inj hw (by omega) e).1
    rw [hop v, if_neg (this ▸ hv)]

theorem Strategy.list {c : Chain} {A : List Bytes} {k : PoolKey} {w w' : World} {n : Nat} (hr : Reach c w.store)
    (h : Strategy c A k w w' n) {v : Bytes} (hv : v ∉ A) : positionList w'.store v = positionList w.store v := by
  induction h with
  | none => rfl
  | @more w1 w2 n env info msg hst hg htx ha _ ih =>
    have hne : v ≠ info.sender := fun e => hv (by rw [e]; exact hg)
    obtain ⟨out, x1, -⟩ := tx_inv htx
    rw [acts_list (Strategy.reach hr hst) x1 ha hne, ih]
  | @share w1 w2 n env info i other hst hg ho htx ih =>
    have hne : v ≠ info.sender := fun e => hv (by rw [e]; exact hg)
    have hne' : v ≠ other := fun e => hv (by rw [e]; exact ho)
    obtain ⟨out, x1, -⟩ := tx_inv htx
    obtain ⟨q, -, hop⟩ := C16_list_operations (Strategy.reach hr hst) x1
    rw [hop v, if_neg hne, if_neg hne', List.append_nil, ih]

/-- **C106.**  Others do what they like in a pool before and after the deposit of somebody who has no other position there.  Valued at the
price of the beginning, they gain at most what the depositor pays less what the same position would contain at the price of the
beginning (and `10^-14` units of X per rounding).  And what the depositor pays is limited by the bounds of the deposit: no more X
than the range contains at the lower bound, and no more Y than it contains at the upper (with the roundings of C102). -/
theorem C106_deposit_partial {c : Chain} {A : List Bytes} {k : PoolKey} {w w1 w2 w3 : World} {n1 n2 : Nat} {p : Pool} {env : Env}
    {info : Info} {l u : Int} {L lo hi x y : Nat} {msg : Msg} (hr : Reach c w.store) (hdr : drift w.store k = 0)
    (hA : A.Nodup) (hself : c.self ∉ A) (hv : info.sender ∉ A) (hvs : info.sender ≠ c.self)
    (hp : w.store.pools.get? k.key = some p) (hnone : positionsHeld w.store [info.sender] k = [])
    (hm : msg = .createPosition k l u L lo hi ∨ msg = .mint k l u L lo hi) (hn : (info.funds.map Coin.denom).Nodup)
    (hx : ∀ coin ∈ info.funds, coin.denom = k.tokenX → x < coin.amount)
    (hy : ∀ coin ∈ info.funds, coin.denom = k.tokenY → y < coin.amount)
    (before : Strategy c A k w w1 n1) (deposit : w1.tx c env info msg = .ok w2) (after : Strategy c A k w2 w3 n2)
    (ex : w2.ledger.bal (tokenAsset c k.tokenX) info.sender + x = w1.ledger.bal (tokenAsset c k.tokenX) info.sender)
    (ey : w2.ledger.bal (tokenAsset c k.tokenY) info.sender + y = w1.ledger.bal (tokenAsset c k.tokenY) info.sender) :
    wealthAt c w3 A k p.sqrtPrice - wealthAt c w A k p.sqrtPrice ≤
        (x * priceOf p.sqrtPrice + y) -
          (exactPositionX L (sqrtPriceAt l) (sqrtPriceAt u) p.sqrtPrice * priceOf p.sqrtPrice +
            exactPositionY L (sqrtPriceAt l) (sqrtPriceAt u) p.sqrtPrice) +
          priceOf p.sqrtPrice * ((n1 + 1 + n2 : Nat) / 10 ^ 14) ∧
      (x : ℚ) * (1 - 1 / 10 ^ 14) ≤ exactPositionX L (sqrtPriceAt l) (sqrtPriceAt u) lo + 1 ∧
      (y : ℚ) < exactPositionY L (sqrtPriceAt l) (sqrtPriceAt u) hi + 1 := by
  have hsub : ∀ a ∈ A, a ∈ A ++ [info.sender] := fun a ha => by simp [ha]
  have hr1 : Reach c w1.store := Strategy.reach hr before
  obtain ⟨out, x1, -⟩ := tx_inv deposit
  have hr2 : Reach c w2.store := hr1.step x1
  have hr3 : Reach c w3.store := Strategy.reach hr2 after
  obtain ⟨b1, b2, -, -⟩ := C102_cost hm hr1 hvs hn deposit hx hy ex ey
  refine ⟨?_, b1, b2⟩
  have whole : Strategy c (A ++ [info.sender]) k w w3 (n1 + 1 + n2) := by
    have acts : ActsIn w1.store k info.sender msg := by rcases hm with rfl | rfl <;> rfl
    have reg : RegularCall c (· = k) env info w1.store w2.store msg := by rcases hm with rfl | rfl <;> trivial
    have one : roundings c env info w1.store msg = 1 := by rcases hm with rfl | rfl <;> rfl
    have := Strategy.more (Strategy.larger hsub before) (by simp) deposit acts reg
    rw [one] at this
    exact Demo.Strategy.trans this (Strategy.larger hsub after)
  have hG : (A ++ [info.sender]).Nodup := by
    rw [List.nodup_append]
    exact ⟨hA, by simp, fun a ha b hb => by simp at hb; subst hb; exact fun e => hv (e ▸ ha)⟩
  have key := C105_zero_sum_partial hr hdr hG (by simp [hself, Ne.symm hvs]) hp whole
  -- the position of the depositor
  have held : ∃ q, q.what = (k, l, u, L) ∧ positionList w3.store info.sender = positionList w.store info.sender ++ [some q] := by
    have hop := C16_list_operations hr1 x1
    obtain ⟨q, q1, q2⟩ : ∃ q, q.what = (k, l, u, L) ∧
        ∀ o', positionList w2.store o' = if o' = info.sender then positionList w1.store o' ++ [some q] else positionList w1.store o' := by
      rcases hm with rfl | rfl <;> exact hop
    refine ⟨q, q1, ?_⟩
    rw [Strategy.list hr2 after hv, q2, if_pos rfl, Strategy.list hr before hv]
  obtain ⟨q, hq, hl⟩ := held
  have hmem : (positionList w3.store info.sender)[(positionList w.store info.sender).length]? = some (some q) := by
    rw [hl]; simp
  have hok := hr3.mreach.struct.positions _ _ (held_get hmem)
  simp only [Position.what, Prod.mk.injEq] at hq
  obtain ⟨rfl, rfl, rfl, rfl⟩ := hq
  obtain ⟨p3, hp3⟩ := hok.pool
  have hsum : positionsHeld w3.store [info.sender] q.poolKey = [q] := by
    unfold positionsHeld at hnone ⊢
    simp only [List.flatMap_cons, List.flatMap_nil, List.append_nil] at hnone ⊢
    rw [hl, List.filterMap_append, List.filter_append, hnone]
    simp
  have value : ∀ b, wealth c w3 [info.sender] q.poolKey b ≥
      w3.ledger.bal (tokenAsset c (if b then q.poolKey.tokenX else q.poolKey.tokenY)) info.sender + q.principal b p3.sqrtPrice := fun b => by
    unfold wealth
    rw [hsum]
    simp only [List.map_cons, List.map_nil, List.sum_cons, List.sum_nil, add_zero]
    unfold worth
    rw [hp3]
    have : (0 : ℚ) ≤ (accrued w3.store b q : ℚ) / 10 ^ 34 := by positivity
    simp only
    linarith
  have v1 := value true
  have v2 := value false
  have e1 := wealth_none (c := c) hnone true
  have e2 := wealth_none (c := c) hnone false
  have p0 : 0 ≤ priceOf p.sqrtPrice := sq_nonneg _
  have hm0 : 0 < MIN_SQRT_PRICE := by norm_num
  have t := exactPosition_tangent (L := q.liquidity) (P := p.sqrtPrice) (Q := p3.sqrtPrice)
    (lo := sqrtPriceAt q.lower) (hi := sqrtPriceAt q.upper) (by have := hok.lower.price_min; omega) (hok.lower.price_le hok.upper hok.lt.le)
  have t1 : q.principal true p3.sqrtPrice = exactPositionX q.liquidity (sqrtPriceAt q.lower) (sqrtPriceAt q.upper) p3.sqrtPrice := rfl
  have t2 : q.principal false p3.sqrtPrice = exactPositionY q.liquidity (sqrtPriceAt q.lower) (sqrtPriceAt q.upper) p3.sqrtPrice := rfl
  rw [priceOf_val, ← t1, ← t2] at t
  simp only [if_true, Bool.false_eq_true, if_false, Strategy.bystander hv hvs after] at v1 v2 e1 e2
  rw [Strategy.bystander hv hvs before] at ex ey
  have ex' : (w2.ledger.bal (tokenAsset c q.poolKey.tokenX) info.sender : ℚ) + x =
    w.ledger.bal (tokenAsset c q.poolKey.tokenX) info.sender := by exact_mod_cast ex
  have ey' : (w2.ledger.bal (tokenAsset c q.poolKey.tokenY) info.sender : ℚ) + y =
    w.ledger.bal (tokenAsset c q.poolKey.tokenY) info.sender := by exact_mod_cast ey
  have m1 := mul_le_mul_of_nonneg_left v1 p0
  have spent : wealthAt c w [info.sender] q.poolKey p.sqrtPrice - wealthAt c w3 [info.sender] q.poolKey p.sqrtPrice ≤
      (x * priceOf p.sqrtPrice + y) -
          (exactPositionX q.liquidity (sqrtPriceAt q.lower) (sqrtPriceAt q.upper) p.sqrtPrice * priceOf p.sqrtPrice +
            exactPositionY q.liquidity (sqrtPriceAt q.lower) (sqrtPriceAt q.upper) p.sqrtPrice) := by
    unfold wealthAt
    rw [e1, e2, ← ex', ← ey']
    linarith
  linarith

/-! ## The hypotheses can be met -/

/-- Carol's deposit in Alice's range, allowing the square root of the price to be four percent above the present one. -/
def Demo.victimDeposit : Msg := .createPosition Demo.lowKey (-1000) 1000 (10 ^ 18) (10 ^ 24) (10 ^ 24 + 4 * 10 ^ 22)

/-- Bob buys, Carol deposits, Bob sells; with what Bob gains and what Carol pays. -/
def Demo.sandwichDeposit (gain x y : Nat) : Bool :=
  match Demo.strategyW Demo.chain [Demo.bob] Demo.lowKey [(Demo.by_ Demo.bob, Demo.front)] (Demo.world Demo.chain Demo.wide) with
  | none => false
  | some (w1, _) =>
    match w1.tx Demo.chain Demo.env (Demo.by_ Demo.carol) Demo.victimDeposit with
    | .error _ => false
    | .ok w2 => decide (w2.ledger.bal (.cw20 [97]) Demo.carol + x = w1.ledger.bal (.cw20 [97]) Demo.carol) &&
      decide (w2.ledger.bal (.cw20 [98]) Demo.carol + y = w1.ledger.bal (.cw20 [98]) Demo.carol) &&
      match Demo.strategyW Demo.chain [Demo.bob] Demo.lowKey [(Demo.by_ Demo.bob, Demo.back)] w2 with
      | none => false
      | some (w3, _) => decide (w3.ledger.bal (.cw20 [98]) Demo.bob = (Demo.world Demo.chain Demo.wide).ledger.bal (.cw20 [98]) Demo.bob + gain ∧
          w3.ledger.bal (.cw20 [97]) Demo.bob = (Demo.world Demo.chain Demo.wide).ledger.bal (.cw20 [97]) Demo.bob)

/-- Carol pays 29162276771 units of X and 68766197567 of Y; Bob gains 193980788 units of Y and nothing of X. -/
example : ∃ w1 w2 w3 n1 n2, Strategy Demo.chain [Demo.bob] Demo.lowKey (Demo.world Demo.chain Demo.wide) w1 n1 ∧
    w1.tx Demo.chain Demo.env (Demo.by_ Demo.carol) Demo.victimDeposit = .ok w2 ∧
    Strategy Demo.chain [Demo.bob] Demo.lowKey w2 w3 n2 ∧
    w2.ledger.bal (.cw20 [97]) Demo.carol + 29162276771 = w1.ledger.bal (.cw20 [97]) Demo.carol ∧
    w2.ledger.bal (.cw20 [98]) Demo.carol + 68766197567 = w1.ledger.bal (.cw20 [98]) Demo.carol ∧
    w3.ledger.bal (.cw20 [98]) Demo.bob = (Demo.world Demo.chain Demo.wide).ledger.bal (.cw20 [98]) Demo.bob + 193980788 ∧
    w3.ledger.bal (.cw20 [97]) Demo.bob = (Demo.world Demo.chain Demo.wide).ledger.bal (.cw20 [97]) Demo.bob := by
  have h : Demo.sandwichDeposit 193980788 29162276771 68766197567 = true := by decide +kernel
  unfold Demo.sandwichDeposit at h
  cases h1 : Demo.strategyW Demo.chain [Demo.bob] Demo.lowKey [(Demo.by_ Demo.bob, Demo.front)] (Demo.world Demo.chain Demo.wide) with
  | none => rw [h1] at h; simp at h
  | some r1 =>
    obtain ⟨w1, n1⟩ := r1
    rw [h1] at h
    simp only at h
    cases h2 : w1.tx Demo.chain Demo.env (Demo.by_ Demo.carol) Demo.victimDeposit with
    | error e => rw [h2] at h; simp at h
    | ok w2 =>
      rw [h2] at h
      simp only [Bool.and_eq_true, decide_eq_true_eq] at h
      obtain ⟨⟨g1, g2⟩, h⟩ := h
      cases h3 : Demo.strategyW Demo.chain [Demo.bob] Demo.lowKey [(Demo.by_ Demo.bob, Demo.back)] w2 with
      | none => rw [h3] at h; simp at h
      | some r3 =>
        obtain ⟨w3, n2⟩ := r3
        rw [h3] at h
        simp only [decide_eq_true_eq] at h
        exact ⟨w1, w2, w3, n1, n2, Demo.strategyW_strategy h1, h2, Demo.strategyW_strategy h3, g1, g2, h.1, h.2⟩

-- the rest of the hypotheses: see the last example of Props/Sandwich.lean

end OraiV3
