import Verif.Props.Strategy
import Verif.Props.Impact

/-!
# C105: What others can take from a trader is bounded by the trader's price limit
-/

namespace OraiV3

/-- What a group has, valued in Y at a price (given as its square root). -/
def wealthAt (c : Chain) (w : World) (G : List Bytes) (k : PoolKey) (P : Nat) : ℚ :=
  priceOf P * wealth c w G k true + wealth c w G k false

theorem wealth_append (c : Chain) (w : World) (A B : List Bytes) (k : PoolKey) (x : Bool) :
    wealth c w (A ++ B) k x = wealth c w A k x + wealth c w B k x := by
  unfold wealth positionsHeld
  simp only [List.map_append, List.sum_append, List.flatMap_append, List.filter_append]
  ring

theorem wealthAt_append (c : Chain) (w : World) (A B : List Bytes) (k : PoolKey) (P : Nat) :
    wealthAt c w (A ++ B) k P = wealthAt c w A k P + wealthAt c w B k P := by
  unfold wealthAt
  rw [wealth_append, wealth_append]
  ring

theorem wealth_ge (c : Chain) (w : World) (v : Bytes) (k : PoolKey) (x : Bool) :
    (w.ledger.bal (tokenAsset c (if x then k.tokenX else k.tokenY)) v : ℚ) ≤ wealth c w [v] k x := by
  unfold wealth
  have : 0 ≤ ((positionsHeld w.store [v] k).map (worth w.store x)).sum :=
    List.sum_nonneg (fun y hy => by
      obtain ⟨q, -, rfl⟩ := List.mem_map.1 hy
      exact worth_nonneg _ _ _)
  simp only [List.map_cons, List.map_nil, List.sum_cons, List.sum_nil, add_zero]
  linarith

theorem wealth_none {c : Chain} {w : World} {v : Bytes} {k : PoolKey} (h : positionsHeld w.store [v] k = []) (x : Bool) :
    wealth c w [v] k x = w.ledger.bal (tokenAsset c (if x then k.tokenX else k.tokenY)) v := by
  unfold wealth
  rw [h]
  simp

theorem Strategy.larger {c : Chain} {A G : List Bytes} {k : PoolKey} {w w' : World} {n : Nat} (hs : ∀ a ∈ A, a ∈ G)
    (h : Strategy c A k w w' n) : Strategy c G k w w' n := by
  induction h with
  | none => exact .none _
  | more _ hg htx ha hreg ih => exact .more ih (hs _ hg) htx ha hreg
  | share _ hg ho htx ih => exact .share ih (hs _ hg) (hs _ ho) htx

theorem Strategy.bystander {c : Chain} {A : List Bytes} {k : PoolKey} {w w' : World} {n : Nat} {v : Bytes} (hv : v ∉ A)
    (hself : v ≠ c.self) (h : Strategy c A k w w' n) (a : Asset) : w'.ledger.bal a v = w.ledger.bal a v := by
  induction h with
  | none => rfl
  | @more w1 w2 n env info msg _ hg htx _ _ ih =>
    have hne : v ≠ info.sender := fun e => hv (by rw [e]; exact hg)
    rw [(C66_third_parties htx hne).1 hself, ih]
  | @share w1 w2 n env info i other _ hg _ htx ih =>
    have hne : v ≠ info.sender := fun e => hv (by rw [e]; exact hg)
    rw [(C66_third_parties htx hne).1 hself, ih]

theorem Strategy.reach {c : Chain} {A : List Bytes} {k : PoolKey} {w w' : World} {n : Nat} (hr : Reach c w.store)
    (h : Strategy c A k w w' n) : Reach c w'.store := by
  induction h with
  | none => exact hr
  | more _ _ htx _ _ ih => obtain ⟨out, x1, -⟩ := tx_inv htx; exact .step ih x1
  | share _ _ _ htx ih => obtain ⟨out, x1, -⟩ := tx_inv htx; exact .step ih x1

theorem priceOf_val (P : Nat) : priceVal P ^ 2 = priceOf P := rfl

/-- **C105, what some gain others lose.**  Two groups act in a pool in any order, and nobody else does.  Valued at the price of
the beginning, one group gains at most what the other loses (and `10^-14` units of X per rounding). -/
theorem C105_zero_sum_partial {c : Chain} {A B : List Bytes} {k : PoolKey} {w w' : World} {n : Nat} {p : Pool} (hr : Reach c w.store)
    (hdr : drift w.store k = 0) (hG : (A ++ B).Nodup) (hself : c.self ∉ A ++ B) (hp : w.store.pools.get? k.key = some p)
    (h : Strategy c (A ++ B) k w w' n) :
    wealthAt c w' A k p.sqrtPrice - wealthAt c w A k p.sqrtPrice ≤
      wealthAt c w B k p.sqrtPrice - wealthAt c w' B k p.sqrtPrice + priceOf p.sqrtPrice * (n / 10 ^ 14) := by
  have key := C89_no_gain_partial hr hdr hG hself hp h
  rw [priceOf_val] at key
  have e1 := wealthAt_append c w A B k p.sqrtPrice
  have e2 := wealthAt_append c w' A B k p.sqrtPrice
  unfold wealthAt at *
  linarith

/-- **C105, sandwiches.**  Others do what they like in a pool before and after the swap of a trader who has no position there.  Valued at
the price of the beginning, they gain at most what the trader pays less what the trader gets (and `10^-14` units of X per rounding);
and this is limited by the price `P'` at which the swap of the trader ends: what the trader pays, less the fee, is worth at `P'` at
most what they get (with the roundings of C64), and `P'` is not beyond the limit the trader set (with the exception of C09). -/
theorem C105_sandwich_partial {c : Chain} {A : List Bytes} {k : PoolKey} {w w1 w2 w3 : World} {n1 n2 : Nat} {p : Pool} {env : Env}
    {info : Info} {d b : Bool} {amount limit : Nat} (hr : Reach c w.store) (hdr : drift w.store k = 0)
    (hA : A.Nodup) (hself : c.self ∉ A) (hv : info.sender ∉ A) (hvs : info.sender ≠ c.self)
    (hp : w.store.pools.get? k.key = some p) (hnone : positionsHeld w.store [info.sender] k = [])
    (hn : (info.funds.map Coin.denom).Nodup) (hu : ∀ x ∈ info.funds, x.denom ≠ tokenOut k d)
    (before : Strategy c A k w w1 n1) (trade : w1.tx c env info (.swap k d amount b limit) = .ok w2)
    (hreg : RegularEnd w2.store k d b limit) (after : Strategy c A k w2 w3 n2) :
    ∃ (paid got L n : Nat) (p' : Pool), queryPool w2.store k.tokenX k.tokenY k.tier = .ok p' ∧
      n = swapSteps w1.store env.millis k d amount b limit ∧
      w2.ledger.bal (tokenAsset c (tokenIn k d)) info.sender + paid = w1.ledger.bal (tokenAsset c (tokenIn k d)) info.sender ∧
      w2.ledger.bal (tokenAsset c (tokenOut k d)) info.sender = w1.ledger.bal (tokenAsset c (tokenOut k d)) info.sender + got ∧
      wealthAt c w3 A k p.sqrtPrice - wealthAt c w A k p.sqrtPrice ≤
        (if d then paid * priceOf p.sqrtPrice - got else (paid : ℚ) - got * priceOf p.sqrtPrice) +
          priceOf p.sqrtPrice * ((n1 + n + n2 : Nat) / 10 ^ 14) ∧
      (L = p'.liquidity ∨ d = false ∧ (L : Int) = p'.liquidity - netAt w1.store k p'.tick) ∧
      (if d then (paid : ℚ) * (1 - feeRate k) * priceOf p'.sqrtPrice * (1 - 1 / 10 ^ 9) ≤
          got + 3 * n * (1 + priceOf p'.sqrtPrice) + (L : ℚ) / 10 ^ 30
        else (paid : ℚ) * (1 - feeRate k) ≤
          got * priceOf p'.sqrtPrice * (1 + 1 / 10 ^ 9) + 3 * n * (1 + priceOf p'.sqrtPrice) + (L : ℚ) / 10 ^ 30) ∧
      (if d then limit ≤ p'.sqrtPrice ∨ (limit - p'.sqrtPrice) * limit < 10 ^ 24 else p'.sqrtPrice ≤ limit) := by
  have hsub : ∀ a ∈ A, a ∈ A ++ [info.sender] := fun a ha => by simp [ha]
  have hr1 : Reach c w1.store := Strategy.reach hr before
  obtain ⟨p', paid, got, L, n, q1, q2, q3, q4, q5, q6⟩ := C64_worst_price hr1 hvs hn hu trade
  have whole := Demo.Strategy.trans (Strategy.more (Strategy.larger hsub before) (by simp) trade rfl (fun _ => hreg)) (Strategy.larger hsub after)
  have hG : (A ++ [info.sender]).Nodup := by
    rw [List.nodup_append]
    exact ⟨hA, by simp, fun a ha b hb => by simp at hb; subst hb; exact fun e => hv (e ▸ ha)⟩
  have key := C105_zero_sum_partial hr hdr hG (by simp [hself, Ne.symm hvs]) hp whole
  obtain ⟨p2, l1, l2, -, -, l3⟩ := C09_limit_partial hr1 trade
  refine ⟨paid, got, L, n, p', q1, q2, q3, q4, ?_, q5, q6, ?_⟩
  · have bx : ∀ a, w3.ledger.bal a info.sender = w2.ledger.bal a info.sender := Strategy.bystander hv hvs after
    have by' : ∀ a, w1.ledger.bal a info.sender = w.ledger.bal a info.sender := Strategy.bystander hv hvs before
    have g1 := wealth_ge c w3 info.sender k true
    have g2 := wealth_ge c w3 info.sender k false
    have e1 := wealth_none (c := c) hnone true
    have e2 := wealth_none (c := c) hnone false
    have p0 : 0 ≤ priceOf p.sqrtPrice := sq_nonneg _
    simp only [if_true, Bool.false_eq_true, if_false, bx] at g1 g2 e1 e2
    rw [by'] at q3 q4
    have m1 := mul_le_mul_of_nonneg_left g1 p0
    have key : wealthAt c w3 A k p.sqrtPrice - wealthAt c w A k p.sqrtPrice ≤
        wealthAt c w [info.sender] k p.sqrtPrice - wealthAt c w3 [info.sender] k p.sqrtPrice +
          priceOf p.sqrtPrice * ((n1 + n + n2 : Nat) / 10 ^ 14) := by rw [q2]; exact key
    have spent : wealthAt c w [info.sender] k p.sqrtPrice - wealthAt c w3 [info.sender] k p.sqrtPrice ≤
        (if d then paid * priceOf p.sqrtPrice - got else (paid : ℚ) - got * priceOf p.sqrtPrice) := by
      have q3' : (w2.ledger.bal (tokenAsset c (tokenIn k d)) info.sender : ℚ) + paid =
        w.ledger.bal (tokenAsset c (tokenIn k d)) info.sender := by exact_mod_cast q3
      have q4' : (w2.ledger.bal (tokenAsset c (tokenOut k d)) info.sender : ℚ) =
        w.ledger.bal (tokenAsset c (tokenOut k d)) info.sender + got := by exact_mod_cast q4
      unfold wealthAt
      rw [e1, e2]
      cases d
      · simp only [tokenIn, tokenOut, Bool.false_eq_true, if_false] at q3' q4' ⊢
        rw [← q3']
        rw [q4'] at m1
        linarith
      · simp only [tokenIn, tokenOut, if_true] at q3' q4' ⊢
        rw [← q3']
        rw [q4'] at g2
        linarith
    linarith
  · obtain ⟨out, x1, -⟩ := tx_inv trade
    have hq := queryPool_of_key (hr1.step x1).mreach.struct (execute_ok.1 x1).1.1 l1
    rw [q1, Except.ok.injEq] at hq
    subst hq
    cases d
    · exact l2 rfl
    · exact l3 rfl

/-! ## The hypotheses can be met -/

/-- Bob buys before Carol does and sells after it. -/
def Demo.front : Msg := .swap Demo.lowKey false 20000000000 true MAX_SQRT_PRICE
def Demo.victim : Msg := .swap Demo.lowKey false 10000000000 true (10 ^ 24 + 4 * 10 ^ 22)
def Demo.back : Msg := .swap Demo.lowKey true 19605920795 true MIN_SQRT_PRICE

/-- The three calls, with what Bob gains and what Carol gets for 10000000000 units of Y. -/
def Demo.sandwich (gain got : Nat) : Bool :=
  match Demo.strategyW Demo.chain [Demo.bob] Demo.lowKey [(Demo.by_ Demo.bob, Demo.front)] (Demo.world Demo.chain Demo.wide) with
  | none => false
  | some (w1, _) =>
    match w1.tx Demo.chain Demo.env (Demo.by_ Demo.carol) Demo.victim with
    | .error _ => false
    | .ok w2 => decide (RegularEnd w2.store Demo.lowKey false true (10 ^ 24 + 4 * 10 ^ 22)) &&
      decide (w2.ledger.bal (.cw20 [97]) Demo.carol = w1.ledger.bal (.cw20 [97]) Demo.carol + got) &&
      match Demo.strategyW Demo.chain [Demo.bob] Demo.lowKey [(Demo.by_ Demo.bob, Demo.back)] w2 with
      | none => false
      | some (w3, _) => decide (w3.ledger.bal (.cw20 [98]) Demo.bob = (Demo.world Demo.chain Demo.wide).ledger.bal (.cw20 [98]) Demo.bob + gain ∧
          w3.ledger.bal (.cw20 [97]) Demo.bob = (Demo.world Demo.chain Demo.wide).ledger.bal (.cw20 [97]) Demo.bob)

/-- Carol gets 9517465000 units of X, at price 1 a loss of 482535000; Bob gains 386084006 units of Y and nothing of X. -/
example : ∃ w1 w2 w3 n1 n2, Strategy Demo.chain [Demo.bob] Demo.lowKey (Demo.world Demo.chain Demo.wide) w1 n1 ∧
    w1.tx Demo.chain Demo.env (Demo.by_ Demo.carol) (.swap Demo.lowKey false 10000000000 true (10 ^ 24 + 4 * 10 ^ 22)) = .ok w2 ∧
    RegularEnd w2.store Demo.lowKey false true (10 ^ 24 + 4 * 10 ^ 22) ∧
    Strategy Demo.chain [Demo.bob] Demo.lowKey w2 w3 n2 ∧
    w2.ledger.bal (.cw20 [97]) Demo.carol = w1.ledger.bal (.cw20 [97]) Demo.carol + 9517465000 ∧
    w3.ledger.bal (.cw20 [98]) Demo.bob = (Demo.world Demo.chain Demo.wide).ledger.bal (.cw20 [98]) Demo.bob + 386084006 ∧
    w3.ledger.bal (.cw20 [97]) Demo.bob = (Demo.world Demo.chain Demo.wide).ledger.bal (.cw20 [97]) Demo.bob := by
  have h : Demo.sandwich 386084006 9517465000 = true := by decide +kernel
  unfold Demo.sandwich at h
  cases h1 : Demo.strategyW Demo.chain [Demo.bob] Demo.lowKey [(Demo.by_ Demo.bob, Demo.front)] (Demo.world Demo.chain Demo.wide) with
  | none => rw [h1] at h; simp at h
  | some r1 =>
    obtain ⟨w1, n1⟩ := r1
    rw [h1] at h
    simp only at h
    cases h2 : w1.tx Demo.chain Demo.env (Demo.by_ Demo.carol) Demo.victim with
    | error e => rw [h2] at h; simp at h
    | ok w2 =>
      rw [h2] at h
      simp only [Bool.and_eq_true, decide_eq_true_eq] at h
      obtain ⟨⟨g1, g2⟩, h⟩ := h
      cases h3 : Demo.strategyW Demo.chain [Demo.bob] Demo.lowKey [(Demo.by_ Demo.bob, Demo.back)] w2 with
      | none => rw [h3] at h; simp at h
      | some r3 =>
        obtain ⟨w3, n2⟩ := r3
        rw [h3] at h
        simp only [decide_eq_true_eq] at h
        exact ⟨w1, w2, w3, n1, n2, Demo.strategyW_strategy h1, h2, g1, Demo.strategyW_strategy h3, g2, h.1, h.2⟩

-- the rest of the hypotheses
example : drift (Demo.world Demo.chain Demo.wide).store Demo.lowKey = 0 ∧
    (positionsHeld (Demo.world Demo.chain Demo.wide).store [Demo.carol] Demo.lowKey).isEmpty = true ∧
    Demo.carol ∉ [Demo.bob] ∧ Demo.chain.self ∉ [Demo.bob] ∧ (Demo.by_ Demo.carol).funds = [] ∧
    ((Demo.world Demo.chain Demo.wide).store.pools.get? Demo.lowKey.key).map Pool.sqrtPrice = some (10 ^ 24) := by decide +kernel

end OraiV3
