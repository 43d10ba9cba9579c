import Verif.Props.Holding
import Verif.Props.SandwichDeposit

/-!
# C107: A withdrawal needs no price bounds; C108: nobody gains by acting around it
-/

namespace OraiV3

/-- **C107.**  A position is withdrawn when the price has moved from `P` to `Q`, for instance because somebody moved it just before.
Valued at `P`, the owner gets no less for it, fees apart, than by withdrawing at `P`: up to a unit of each token, and one part in
10^14 of the X. -/
theorem C107_withdrawal {c : Chain} {k : PoolKey} {l u : Int} {P Q L x y x' y' : Nat} (at_P : Closing c k l u P L x y)
    (at_Q : Closing c k l u Q L x' y') :
    tokenValue P x y < tokenValue P ((x' + 1) * (1 + 1 / 10 ^ 14) + 1 / 10 ^ 14) (y' + 1) := by
  obtain ⟨⟨h0, h1⟩, a1, -, a3, -⟩ := closing_exact at_P
  obtain ⟨-, -, b2, -, b4⟩ := closing_exact at_Q
  have t := exactPosition_tangent (L := L) (P := P) (Q := Q) h0 h1
  have p0 : 0 ≤ priceVal P ^ 2 := sq_nonneg _
  have m1 := mul_le_mul_of_nonneg_left a1 p0
  have m2 := mul_le_mul_of_nonneg_left b2.le p0
  unfold tokenValue
  linarith

/-- The tokens are others, though: whoever raises the price gives the owner less X and more Y, and the other way round (up to a
unit of each, and one part in 10^14 of the X). -/
theorem C107_direction {c : Chain} {k : PoolKey} {l u : Int} {P Q L x y x' y' : Nat} (at_P : Closing c k l u P L x y)
    (at_Q : Closing c k l u Q L x' y') (h : P ≤ Q) :
    (x' : ℚ) < (x + 1) * (1 + 1 / 10 ^ 14) + 1 / 10 ^ 14 ∧ y ≤ y' := by
  obtain ⟨⟨h0, h1⟩, -, a2, a3, -⟩ := closing_exact at_P
  obtain ⟨-, b1, -, -, b4⟩ := closing_exact at_Q
  obtain ⟨m1, m2⟩ := exactPosition_mono (L := L) h0 h1 h
  refine ⟨by linarith, ?_⟩
  have : (y : ℚ) < (y' + 1 : Nat) := by push_cast; linarith
  have := Nat.cast_lt.1 this
  omega

/-- **C108.**  Others do what they like in a pool before and after the withdrawal of somebody with one position there, as long as
the fees of the position do not become less (C81).  Valued at the price of the beginning they gain nothing but roundings: two units of each
token, one part in 10^14 of the X withdrawn, and `10^-14` units of X per rounding. -/
theorem C108_sandwich_partial {c : Chain} {A : List Bytes} {k : PoolKey} {w w1 w2 w3 : World} {n1 n2 : Nat} {p : Pool} {env : Env}
    {v : Bytes} {i got : Nat} {q : Position} (hr : Reach c w.store) (hdr : drift w.store k = 0)
    (hA : A.Nodup) (hself : c.self ∉ A) (hv : v ∉ A) (hvs : v ≠ c.self) (hp : w.store.pools.get? k.key = some p)
    (hq : (positionList w.store v)[i]? = some (some q)) (hone : positionsHeld w.store [v] k = [q])
    (before : Strategy c A k w w1 n1) (withdrawal : w1.tx c env ⟨v, []⟩ (.removePosition i) = .ok w2) (after : Strategy c A k w2 w3 n2)
    (hfee : ∀ x, accrued w.store x q ≤ accrued w1.store x q)
    (hgot : w2.ledger.bal (tokenAsset c k.tokenX) v = w1.ledger.bal (tokenAsset c k.tokenX) v + got) :
    wealthAt c w3 A k p.sqrtPrice - wealthAt c w A k p.sqrtPrice <
      priceOf p.sqrtPrice * (2 + (got + 2) / 10 ^ 14) + 2 + priceOf p.sqrtPrice * ((n1 + n2 : Nat) / 10 ^ 14) := by
  have hsub : ∀ a ∈ A, a ∈ A ++ [v] := fun a ha => by simp [ha]
  have hr1 : Reach c w1.store := Strategy.reach hr before
  have hk : q.poolKey = k := by
    have : q ∈ positionsHeld w.store [v] k := by rw [hone]; simp
    unfold positionsHeld at this
    simpa using (List.mem_filter.1 this).2
  subst hk
  have hq1 : (positionList w1.store v)[i]? = some (some q) := by rw [Strategy.list hr before hv]; exact hq
  have whole : Strategy c (A ++ [v]) q.poolKey w w3 (n1 + 0 + n2) :=
    Demo.Strategy.trans (Strategy.more (Strategy.larger hsub before) (by simp) withdrawal ⟨q, hq1, rfl⟩ trivial) (Strategy.larger hsub after)
  have hG : (A ++ [v]).Nodup := by
    rw [List.nodup_append]
    exact ⟨hA, by simp, fun a ha b hb => by simp at hb; subst hb; exact fun e => hv (e ▸ ha)⟩
  have key := C105_zero_sum_partial hr hdr hG (by simp [hself, Ne.symm hvs]) hp whole
  have hg := held_get hq1
  have hok := hr1.mreach.struct.positions _ _ hg
  obtain ⟨p1, hp1⟩ := hok.pool
  obtain ⟨x, y, -, -, e1, e2⟩ := closing_view hr1 hvs hg hp1 withdrawal
  obtain ⟨⟨h0, h1⟩, -, b2, -, b4⟩ := closing_exact ⟨w1, w2, env, v, i, p1, q, hr1, hvs, hg, rfl, hp1, rfl, withdrawal, e1, e2⟩
  have t := exactPosition_tangent (L := q.liquidity) (P := p.sqrtPrice) (Q := p1.sqrtPrice) h0 h1
  have p0 : 0 ≤ priceOf p.sqrtPrice := sq_nonneg _
  have g1 := wealth_ge c w3 v q.poolKey true
  have g2 := wealth_ge c w3 v q.poolKey false
  have start : ∀ b, wealth c w [v] q.poolKey b =
      w.ledger.bal (tokenAsset c (if b then q.poolKey.tokenX else q.poolKey.tokenY)) v +
        (q.principal b p.sqrtPrice + (accrued w.store b q : ℚ) / 10 ^ 34) := fun b => by
    unfold wealth
    rw [hone]
    simp only [List.map_cons, List.map_nil, List.sum_cons, List.sum_nil, add_zero]
    unfold worth
    rw [hp]
  have s1 := start true
  have s2 := start false
  have t1 : q.principal true p.sqrtPrice = exactPositionX q.liquidity (sqrtPriceAt q.lower) (sqrtPriceAt q.upper) p.sqrtPrice := rfl
  have t2 : q.principal false p.sqrtPrice = exactPositionY q.liquidity (sqrtPriceAt q.lower) (sqrtPriceAt q.upper) p.sqrtPrice := rfl
  have fee : ∀ b, (accrued w.store b q : ℚ) / 10 ^ 34 < (accrued w1.store b q / 10 ^ 34 : Nat) + 1 := fun b => by
    rw [div_lt_iff₀ (by positivity)]
    have := hfee b
    have h2 : accrued w.store b q < (accrued w1.store b q / 10 ^ 34 + 1) * 10 ^ 34 := by omega
    exact_mod_cast h2
  have f1 := fee true
  have f2 := fee false
  have hx : x ≤ got := by omega
  have hx' : (x : ℚ) ≤ got := by exact_mod_cast hx
  rw [priceOf_val, ← t1, ← t2] at t
  simp only [if_true, Bool.false_eq_true, if_false, Strategy.bystander hv hvs after] at g1 g2 s1 s2
  rw [Strategy.bystander hv hvs before] at e1 e2
  rw [e1] at g1
  rw [e2] at g2
  generalize accrued w1.store true q / 10 ^ 34 = F1 at *
  generalize accrued w1.store false q / 10 ^ 34 = F2 at *
  push_cast at g1 g2
  have m1 := mul_le_mul_of_nonneg_left g1 p0
  have m2 := mul_le_mul_of_nonneg_left f1.le p0
  have m3 := mul_le_mul_of_nonneg_left b2.le p0
  have m4 := mul_le_mul_of_nonneg_left hx' p0
  have lost : wealthAt c w [v] q.poolKey p.sqrtPrice - wealthAt c w3 [v] q.poolKey p.sqrtPrice <
      priceOf p.sqrtPrice * (2 + (got + 2) / 10 ^ 14) + 2 := by
    unfold wealthAt
    rw [s1, s2]
    linarith
  rw [Nat.add_zero] at key
  linarith

-- Alice's position before and after the swaps of Props/Bounds.lean: 499850 units of each token, or 252324 X and 747436 Y
example : Closing Demo.chain Demo.key (-10) 10 (10 ^ 24 + 4187) (10 ^ 15) 499850 499850 ∧
    Closing Demo.chain Demo.key (-10) 10 1000247586500000000000000 (10 ^ 15) 252324 747436 :=
  ⟨halves_closing (i := 2) (by decide +kernel), later_closing (by decide +kernel)⟩

/-- Carol joins Alice. -/
def Demo.wideShared : List (Info × Msg) :=
  Demo.wide ++ [(Demo.by_ Demo.carol, .createPosition Demo.lowKey (-1000) 1000 (10 ^ 18) 0 (10 ^ 30))]

def Demo.sellsAgain : Msg := .swap Demo.lowKey true 19800019603 true MIN_SQRT_PRICE

/-- Bob buys, Carol withdraws, Bob sells what was bought; with what Carol gets of X, and what Bob loses. -/
def Demo.sandwichWithdrawal (got lost : Nat) : Bool :=
  match (positionList (Demo.world Demo.chain Demo.wideShared).store Demo.carol)[0]? with
  | some (some q) => decide (positionsHeld (Demo.world Demo.chain Demo.wideShared).store [Demo.carol] Demo.lowKey = [q]) &&
    match Demo.strategyW Demo.chain [Demo.bob] Demo.lowKey [(Demo.by_ Demo.bob, Demo.front)] (Demo.world Demo.chain Demo.wideShared) with
    | none => false
    | some (w1, _) =>
      decide (∀ x, accrued (Demo.world Demo.chain Demo.wideShared).store x q ≤ accrued w1.store x q) &&
      match w1.tx Demo.chain Demo.env (Demo.by_ Demo.carol) (.removePosition 0) with
      | .error _ => false
      | .ok w2 => decide (w2.ledger.bal (.cw20 [97]) Demo.carol = w1.ledger.bal (.cw20 [97]) Demo.carol + got) &&
        match Demo.strategyW Demo.chain [Demo.bob] Demo.lowKey [(Demo.by_ Demo.bob, Demo.sellsAgain)] w2 with
        | none => false
        | some (w3, _) =>
          decide (w3.ledger.bal (.cw20 [98]) Demo.bob + lost = (Demo.world Demo.chain Demo.wideShared).ledger.bal (.cw20 [98]) Demo.bob ∧
            w3.ledger.bal (.cw20 [97]) Demo.bob = (Demo.world Demo.chain Demo.wideShared).ledger.bal (.cw20 [97]) Demo.bob)
  | _ => false

/-- Carol gets 38868187764 units of X; Bob loses 199980980 units of Y and gains no X. -/
example : ∃ w1 w2 w3 n1 n2 q, Strategy Demo.chain [Demo.bob] Demo.lowKey (Demo.world Demo.chain Demo.wideShared) w1 n1 ∧
    (positionList (Demo.world Demo.chain Demo.wideShared).store Demo.carol)[0]? = some (some q) ∧
    positionsHeld (Demo.world Demo.chain Demo.wideShared).store [Demo.carol] Demo.lowKey = [q] ∧
    w1.tx Demo.chain Demo.env (Demo.by_ Demo.carol) (.removePosition 0) = .ok w2 ∧
    Strategy Demo.chain [Demo.bob] Demo.lowKey w2 w3 n2 ∧
    (∀ x, accrued (Demo.world Demo.chain Demo.wideShared).store x q ≤ accrued w1.store x q) ∧
    w2.ledger.bal (.cw20 [97]) Demo.carol = w1.ledger.bal (.cw20 [97]) Demo.carol + 38868187764 ∧
    w3.ledger.bal (.cw20 [98]) Demo.bob + 199980980 = (Demo.world Demo.chain Demo.wideShared).ledger.bal (.cw20 [98]) Demo.bob ∧
    w3.ledger.bal (.cw20 [97]) Demo.bob = (Demo.world Demo.chain Demo.wideShared).ledger.bal (.cw20 [97]) Demo.bob := by
  have h : Demo.sandwichWithdrawal 38868187764 199980980 = true := by decide +kernel
  unfold Demo.sandwichWithdrawal at h
  split at h
  · rename_i q hq
    rw [Bool.and_eq_true, decide_eq_true_eq] at h
    obtain ⟨h0, h⟩ := h
    cases h1 : Demo.strategyW Demo.chain [Demo.bob] Demo.lowKey [(Demo.by_ Demo.bob, Demo.front)] (Demo.world Demo.chain Demo.wideShared) with
    | none => rw [h1] at h; simp at h
    | some r1 =>
      obtain ⟨w1, n1⟩ := r1
      rw [h1] at h
      simp only [Bool.and_eq_true] at h
      obtain ⟨hf, h⟩ := h
      cases h2 : w1.tx Demo.chain Demo.env (Demo.by_ Demo.carol) (.removePosition 0) with
      | error e => rw [h2] at h; simp at h
      | ok w2 =>
        rw [h2] at h
        simp only [Bool.and_eq_true, decide_eq_true_eq] at h
        obtain ⟨g1, h⟩ := h
        cases h3 : Demo.strategyW Demo.chain [Demo.bob] Demo.lowKey [(Demo.by_ Demo.bob, Demo.sellsAgain)] w2 with
        | none => rw [h3] at h; simp at h
        | some r3 =>
          obtain ⟨w3, n2⟩ := r3
          rw [h3] at h
          simp only [decide_eq_true_eq] at h
          exact ⟨w1, w2, w3, n1, n2, q, Demo.strategyW_strategy h1, hq, h0, h2, Demo.strategyW_strategy h3, of_decide_eq_true hf, g1, h.1, h.2⟩
  · simp at h

-- the rest of the hypotheses
example : Reach Demo.chain (Demo.world Demo.chain Demo.wideShared).store ∧ drift (Demo.world Demo.chain Demo.wideShared).store Demo.lowKey = 0 ∧
    ((Demo.world Demo.chain Demo.wideShared).store.pools.get? Demo.lowKey.key).map Pool.sqrtPrice = some (10 ^ 24) :=
  ⟨(Demo.world_history (T := fun _ => True) (n := 2) (by decide +kernel) (by decide +kernel)).regular.reach, by decide +kernel, by decide +kernel⟩

end OraiV3
