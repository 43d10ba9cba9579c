import Verif.Lemmas.SplitCalls
import Verif.WorldExamples

/-!
# C71: Splitting liquidity over several positions
-/

namespace OraiV3

/-- One opening of a position with liquidity `L` in the range from `l` to `u` of the pool `k`, at price `P`, by anybody, in any
reachable state and at any time, that cost the caller `x` and `y` of the two tokens.  A caller who attaches coins attaches more
than is needed and gets change (coins of a token of which nothing is needed are kept by the contract, see C29). -/
def Opening (c : Chain) (k : PoolKey) (l u : Int) (P L x y : Nat) : Prop :=
  ∃ (w w' : World) (env : Env) (info : Info) (msg : Msg) (lo hi : Nat) (p : Pool),
    Reach c w.store ∧ info.sender ≠ c.self ∧ (info.funds.map Coin.denom).Nodup ∧
    w.store.pools.get? k.key = some p ∧ p.sqrtPrice = P ∧
    (msg = .createPosition k l u L lo hi ∨ msg = .mint k l u L lo hi) ∧ w.tx c env info msg = .ok w' ∧
    (∀ coin ∈ info.funds, coin.denom = k.tokenX → x < coin.amount) ∧
    (∀ coin ∈ info.funds, coin.denom = k.tokenY → y < coin.amount) ∧
    w'.ledger.bal (tokenAsset c k.tokenX) info.sender + x = w.ledger.bal (tokenAsset c k.tokenX) info.sender ∧
    w'.ledger.bal (tokenAsset c k.tokenY) info.sender + y = w.ledger.bal (tokenAsset c k.tokenY) info.sender

/-- One closing of a position with liquidity `L` in the range from `l` to `u` of the pool `k`, at price `P`, by anybody, in any
reachable state and at any time, that paid the caller `x` and `y` of the two tokens besides the whole units of unpaid fees. -/
def Closing (c : Chain) (k : PoolKey) (l u : Int) (P L x y : Nat) : Prop :=
  ∃ (w w' : World) (env : Env) (who : Bytes) (i : Nat) (p : Pool) (q : Position), Reach c w.store ∧ who ≠ c.self ∧
    w.store.positions.get? (positionKey who i) = some q ∧ q.what = (k, l, u, L) ∧
    w.store.pools.get? k.key = some p ∧ p.sqrtPrice = P ∧
    w.tx c env ⟨who, []⟩ (.removePosition i) = .ok w' ∧
    w'.ledger.bal (tokenAsset c k.tokenX) who =
      w.ledger.bal (tokenAsset c k.tokenX) who + (x + accrued w.store true q / 10 ^ 34) ∧
    w'.ledger.bal (tokenAsset c k.tokenY) who =
      w.ledger.bal (tokenAsset c k.tokenY) who + (y + accrued w.store false q / 10 ^ 34)

/-- Opening two positions instead of one with their combined liquidity costs at most one unit more of each token.  It saves
nothing in token Y and at most one unit in token X. -/
theorem C71_open {c : Chain} {k : PoolKey} {l u : Int} {P L1 L2 x1 y1 x2 y2 x y : Nat}
    (h1 : Opening c k l u P L1 x1 y1) (h2 : Opening c k l u P L2 x2 y2) (h : Opening c k l u P (L1 + L2) x y) :
    (x ≤ x1 + x2 + 1 ∧ x1 + x2 ≤ x + 1) ∧ y ≤ y1 + y2 ∧ y1 + y2 ≤ y + 1 := by
  obtain ⟨_, _, _, _, _, _, _, _, a1, a2, a3, a4, a5, a6, a7, a8, a9, a10, a11⟩ := h1
  obtain ⟨_, _, _, _, _, _, _, _, b1, b2, b3, b4, b5, b6, b7, b8, b9, b10, b11⟩ := h2
  obtain ⟨_, _, _, _, _, _, _, _, c1, c2, c3, c4, c5, c6, c7, c8, c9, c10, c11⟩ := h
  have ha := opening_view a6 a1 a2 a3 a4 a7 a8 a9 a10 a11
  have hb := opening_view b6 b1 b2 b3 b4 b7 b8 b9 b10 b11
  have hc := opening_view c6 c1 c2 c3 c4 c7 c8 c9 c10 c11
  rw [a5] at ha
  rw [b5] at hb
  rw [c5] at hc
  exact ⟨deltaX_up_split ha.1 hb.1 hc.1, deltaY_up_split ha.2 hb.2 hc.2⟩

/-- Closing two positions instead of one with their combined liquidity pays no more of either token, and at most one unit
less. -/
theorem C71_close {c : Chain} {k : PoolKey} {l u : Int} {P L1 L2 x1 y1 x2 y2 x y : Nat}
    (h1 : Closing c k l u P L1 x1 y1) (h2 : Closing c k l u P L2 x2 y2) (h : Closing c k l u P (L1 + L2) x y) :
    (x1 + x2 ≤ x ∧ x ≤ x1 + x2 + 1) ∧ y1 + y2 ≤ y ∧ y ≤ y1 + y2 + 1 := by
  have key : ∀ {L x y}, Closing c k l u P L x y →
      getDeltaX (clampPrice (sqrtPriceAt l) (sqrtPriceAt u) P) (sqrtPriceAt u) L false = .ok x ∧
      getDeltaY (sqrtPriceAt l) (clampPrice (sqrtPriceAt l) (sqrtPriceAt u) P) L false = .ok y := by
    rintro L x y ⟨_, _, _, _, _, p, q, a1, a2, a3, a4, a5, a6, a7, a8, a9⟩
    simp only [Position.what, Prod.mk.injEq] at a4
    obtain ⟨rfl, rfl, rfl, rfl⟩ := a4
    obtain ⟨x0, y0, g1, g2, e1, e2⟩ := closing_view a1 a2 a3 a5 a7
    have ex : x0 = x := by omega
    have ey : y0 = y := by omega
    subst ex ey a6
    exact ⟨g1, g2⟩
  exact ⟨deltaX_down_split (key h1).1 (key h2).1 (key h).1, deltaY_down_split (key h1).2 (key h2).2 (key h).2⟩

/-! Examples -/

/-- A pool whose price is just above 1, and three positions of Alice's in it. -/
def Demo.offGrid : List (Info × Msg) :=
  [(Demo.by_ Demo.alice, .addFeeTier Demo.tier),
   (Demo.by_ Demo.alice, .createPool [97] [98] Demo.tier (10 ^ 24 + 4187) 0),
   (Demo.by_ Demo.alice, .createPosition Demo.key (-10) 10 (10 ^ 12) 0 (10 ^ 30)),
   (Demo.by_ Demo.alice, .createPosition Demo.key (-10) 10 (10 ^ 12 + 1) 0 (10 ^ 30)),
   (Demo.by_ Demo.alice, .createPosition Demo.key (-10) 10 (2 * 10 ^ 12 + 1) 0 (10 ^ 30))]

/-- Bob opens a position in that pool and it costs `x` and `y`. -/
def Demo.opens (L x y : Nat) : Bool :=
  match World.tx Demo.chain ⟨Demo.state Demo.chain Demo.offGrid, Demo.wealthy⟩ Demo.env (Demo.by_ Demo.bob)
    (.createPosition Demo.key (-10) 10 L 0 (10 ^ 30)) with
  | .ok w' => decide (w'.ledger.bal (.cw20 [97]) Demo.bob + x = 10 ^ 40 ∧ w'.ledger.bal (.cw20 [98]) Demo.bob + y = 10 ^ 40)
  | .error _ => false

/-- Alice closes the position with index `i`, with liquidity `L`, and gets `x` and `y`. -/
def Demo.closes (i L x y : Nat) : Bool :=
  (((Demo.state Demo.chain Demo.offGrid).positions.get? (positionKey Demo.alice i)).map (fun q => (q.what,
    accrued (Demo.state Demo.chain Demo.offGrid) true q, accrued (Demo.state Demo.chain Demo.offGrid) false q)) ==
      some ((Demo.key, -10, 10, L), 0, 0)) &&
  match World.tx Demo.chain ⟨Demo.state Demo.chain Demo.offGrid, Demo.wealthy⟩ Demo.env ⟨Demo.alice, []⟩
    (.removePosition i) with
  | .ok w' => decide (w'.ledger.bal (.cw20 [97]) Demo.alice = 10 ^ 40 + x ∧ w'.ledger.bal (.cw20 [98]) Demo.alice = 10 ^ 40 + y)
  | .error _ => false

theorem offGrid_price : ∃ p, (Demo.state Demo.chain Demo.offGrid).pools.get? Demo.key.key = some p ∧ p.sqrtPrice = 10 ^ 24 + 4187 := by
  have : ((Demo.state Demo.chain Demo.offGrid).pools.get? Demo.key.key).map (·.sqrtPrice) = some (10 ^ 24 + 4187) := by decide +kernel
  simpa using this

theorem offGrid_reach : Reach Demo.chain (Demo.state Demo.chain Demo.offGrid) := Demo.state_reach (by decide +kernel)

theorem offGrid_opening {L x y : Nat} (h : Demo.opens L x y = true) :
    Opening Demo.chain Demo.key (-10) 10 (10 ^ 24 + 4187) L x y := by
  obtain ⟨p, hp, e⟩ := offGrid_price
  unfold Demo.opens at h
  cases ht : World.tx Demo.chain ⟨Demo.state Demo.chain Demo.offGrid, Demo.wealthy⟩ Demo.env (Demo.by_ Demo.bob)
      (.createPosition Demo.key (-10) 10 L 0 (10 ^ 30)) with
  | error e => rw [ht] at h; simp at h
  | ok w' =>
    rw [ht] at h
    simp only [decide_eq_true_eq] at h
    exact ⟨⟨Demo.state Demo.chain Demo.offGrid, Demo.wealthy⟩, w', Demo.env, Demo.by_ Demo.bob, _, 0, 10 ^ 30, p,
      offGrid_reach, by decide, by decide, hp, e, Or.inl rfl, ht, fun _ hc => absurd hc (by simp [Demo.by_]),
      fun _ hc => absurd hc (by simp [Demo.by_]), h.1, h.2⟩

theorem offGrid_closing {i L x y : Nat} (h : Demo.closes i L x y = true) :
    Closing Demo.chain Demo.key (-10) 10 (10 ^ 24 + 4187) L x y := by
  obtain ⟨p, hp, e⟩ := offGrid_price
  unfold Demo.closes at h
  rw [Bool.and_eq_true] at h
  obtain ⟨h1, h⟩ := h
  cases hq : (Demo.state Demo.chain Demo.offGrid).positions.get? (positionKey Demo.alice i) with
  | none => rw [hq] at h1; simp at h1
  | some q =>
    rw [hq] at h1
    simp only [Option.map_some, beq_iff_eq, Option.some.injEq, Prod.mk.injEq] at h1
    obtain ⟨h2, h3, h4⟩ := h1
    cases ht : World.tx Demo.chain ⟨Demo.state Demo.chain Demo.offGrid, Demo.wealthy⟩ Demo.env ⟨Demo.alice, []⟩ (.removePosition i) with
    | error e => rw [ht] at h; simp at h
    | ok w' =>
      rw [ht] at h
      simp only [decide_eq_true_eq] at h
      refine ⟨⟨Demo.state Demo.chain Demo.offGrid, Demo.wealthy⟩, w', Demo.env, Demo.alice, i, p, q,
        offGrid_reach, by decide, hq, ?_, hp, e, ht, ?_, ?_⟩
      · exact h2
      · simp only [h3, Nat.zero_div, Nat.add_zero]
        exact h.1
      · simp only [h4, Nat.zero_div, Nat.add_zero]
        exact h.2

/-- The unit of token X can be saved: each half costs 478126693799444, the whole one more than twice that. -/
theorem C71_saving : ∃ (c : Chain) (k : PoolKey) (l u : Int) (P L x y y' : Nat), Opening c k l u P L x y ∧
    Opening c k l u P (L + L) (x + x + 1) y' :=
  ⟨Demo.chain, Demo.key, -10, 10, 10 ^ 24 + 4187, 956540282740235043965369, 478126693799444, 478126693806617, 956253387613233,
    offGrid_opening (by decide +kernel), offGrid_opening (by decide +kernel)⟩

example : Closing Demo.chain Demo.key (-10) 10 (10 ^ 24 + 4187) (10 ^ 12) 499 499 ∧
    Closing Demo.chain Demo.key (-10) 10 (10 ^ 24 + 4187) (10 ^ 12 + 1) 499 499 ∧
    Closing Demo.chain Demo.key (-10) 10 (10 ^ 24 + 4187) (10 ^ 12 + (10 ^ 12 + 1)) 999 999 :=
  ⟨offGrid_closing (i := 0) (by decide +kernel), offGrid_closing (i := 1) (by decide +kernel),
    offGrid_closing (i := 2) (by decide +kernel)⟩

end OraiV3
