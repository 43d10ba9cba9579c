import Verif.Lemmas.Principal
import Verif.Lemmas.TimeWeight
import Verif.Props.Split
import Verif.Props.Shares

/-!
# C96: Two adjacent ranges are one
-/

namespace OraiV3

/-! ## Exact amounts -/

private theorem exactPosition_join {L a b c P : Nat} (h0 : 0 < a) (h1 : a ≤ b) (h2 : b ≤ c) :
    exactPositionX L a c P = exactPositionX L a b P + exactPositionX L b c P ∧
      exactPositionY L a c P = exactPositionY L a b P + exactPositionY L b c P := by
  have same : ∀ d, exactX L d d = 0 ∧ exactY L d d = 0 := fun d => by unfold exactX exactY; simp
  unfold exactPositionX exactPositionY
  rcases Nat.le_total P b with h | h
  · have e1 : clampPrice a c P = clampPrice a b P := by unfold clampPrice; omega
    have e2 : clampPrice b c P = b := by unfold clampPrice; omega
    have g1 : 0 < clampPrice a b P ∧ clampPrice a b P ≤ b := by unfold clampPrice; omega
    rw [e1, e2, (same b).2, add_zero]
    exact ⟨exactX_add g1.1 g1.2 h2, rfl⟩
  · have e1 : clampPrice a c P = clampPrice b c P := by unfold clampPrice; omega
    have e2 : clampPrice a b P = b := by unfold clampPrice; omega
    have g1 : b ≤ clampPrice b c P := by unfold clampPrice; omega
    rw [e1, e2, (same b).1, zero_add]
    exact ⟨rfl, exactY_add h1 g1⟩

theorem opening_exact {c : Chain} {k : PoolKey} {l u : Int} {P L x y : Nat} (h : Opening c k l u P L x y) :
    (0 < sqrtPriceAt l ∧ sqrtPriceAt l ≤ sqrtPriceAt u) ∧
      exactPositionX L (sqrtPriceAt l) (sqrtPriceAt u) P < x + 1 / 10 ^ 14 ∧
      (x : ℚ) * (1 - 1 / 10 ^ 14) ≤ exactPositionX L (sqrtPriceAt l) (sqrtPriceAt u) P + 1 ∧
      exactPositionY L (sqrtPriceAt l) (sqrtPriceAt u) P ≤ y ∧
      (y : ℚ) < exactPositionY L (sqrtPriceAt l) (sqrtPriceAt u) P + 1 := by
  obtain ⟨w, w', env, info, msg, lo, hi, p, a1, a2, a3, a4, rfl, a6, a7, a8, a9, a10, a11⟩ := h
  have ha := opening_view a6 a1 a2 a3 a4 a7 a8 a9 a10 a11
  obtain ⟨out, x1, -⟩ := tx_inv a7
  have y1 : (Msg.createPosition k l u L lo hi).wf ∧
      createPosition c w.store env info k l u L lo hi = .ok (w'.store, out) := by
    rcases a6 with rfl | rfl
    · exact execute_ok.1 x1
    · exact execute_ok.1 x1
  obtain ⟨_, _, _, _, _, _, _, ok1, ok2, hlu, -⟩ := createPosition_charge a1.mreach.struct a1.mreach.price y1.1 y1.2
  have hm0 : 0 < MIN_SQRT_PRICE := by norm_num
  obtain ⟨-, -, e1, e2⟩ := deltaX_up_exact ha.1
  have hd := dustX_small (ok1.clamp_min u p.sqrtPrice) ok2.price_min
  have hx : (0 : ℚ) ≤ x := Nat.cast_nonneg x
  refine ⟨⟨by have := ok1.price_min; omega, ok1.price_le ok2 hlu.le⟩, ?_, ?_, deltaY_up_exact ha.2⟩
  · unfold exactPositionX; linarith
  · unfold exactPositionX; nlinarith

theorem closing_exact {c : Chain} {k : PoolKey} {l u : Int} {P L x y : Nat} (h : Closing c k l u P L x y) :
    (0 < sqrtPriceAt l ∧ sqrtPriceAt l ≤ sqrtPriceAt u) ∧
      (x : ℚ) ≤ exactPositionX L (sqrtPriceAt l) (sqrtPriceAt u) P ∧
      exactPositionX L (sqrtPriceAt l) (sqrtPriceAt u) P < (x + 1) * (1 + 1 / 10 ^ 14) + 1 / 10 ^ 14 ∧
      (y : ℚ) ≤ exactPositionY L (sqrtPriceAt l) (sqrtPriceAt u) P ∧
      exactPositionY L (sqrtPriceAt l) (sqrtPriceAt u) P < y + 1 := by
  obtain ⟨w, _, _, who, i, p, q, a1, a2, a3, a4, a5, rfl, a7, a8, a9⟩ := h
  simp only [Position.what, Prod.mk.injEq] at a4
  obtain ⟨rfl, rfl, rfl, rfl⟩ := a4
  obtain ⟨x0, y0, g1, g2, e1, e2⟩ := closing_view a1 a2 a3 a5 a7
  have ex : x0 = x := by omega
  have ey : y0 = y := by omega
  subst ex ey
  have hok := a1.mreach.struct.positions _ _ a3
  have hm0 : 0 < MIN_SQRT_PRICE := by norm_num
  obtain ⟨-, -, d1, d2⟩ := deltaX_down_exact g1
  have hd := dustX_small (hok.lower.clamp_min q.upper p.sqrtPrice) hok.upper.price_min
  have hx : (0 : ℚ) ≤ x0 := Nat.cast_nonneg x0
  refine ⟨⟨by have := hok.lower.price_min; omega, hok.lower.price_le hok.upper hok.lt.le⟩, d1, ?_, deltaY_down_exact g2⟩
  unfold exactPositionX; nlinarith

/-! ## Opening and closing -/

/-- **C96, opening.**  A position over `l..u` costs what two with the same liquidity over `l..m` and `m..u` cost together, up to
rounding: in token Y two cost at most one unit more and nothing less; in token X, up to one part in `10^14`, two cost at most two
units more and at most one less. -/
theorem C96_open {c : Chain} {k : PoolKey} {l m u : Int} {P L x1 y1 x2 y2 x y : Nat}
    (h1 : Opening c k l m P L x1 y1) (h2 : Opening c k m u P L x2 y2) (h : Opening c k l u P L x y) :
    (y ≤ y1 + y2 ∧ y1 + y2 ≤ y + 1) ∧
      (x : ℚ) * (1 - 1 / 10 ^ 14) < x1 + x2 + 1 + 2 / 10 ^ 14 ∧
      ((x1 : ℚ) + x2) * (1 - 1 / 10 ^ 14) < x + 2 + 1 / 10 ^ 14 := by
  obtain ⟨⟨p0, p1⟩, a1, a2, a3, a4⟩ := opening_exact h1
  obtain ⟨⟨-, p2⟩, b1, b2, b3, b4⟩ := opening_exact h2
  obtain ⟨-, c1, c2, c3, c4⟩ := opening_exact h
  obtain ⟨jx, jy⟩ := exactPosition_join (L := L) (P := P) p0 p1 p2
  rw [jx] at c1 c2
  rw [jy] at c3 c4
  refine ⟨⟨?_, ?_⟩, ?_, ?_⟩
  · have : (y : ℚ) < ((y1 + y2 + 1 : Nat) : ℚ) := by push_cast; linarith
    have := Nat.cast_lt.1 this
    omega
  · have : ((y1 + y2 : Nat) : ℚ) < ((y + 2 : Nat) : ℚ) := by push_cast; linarith
    have := Nat.cast_lt.1 this
    omega
  · linarith
  · linarith

/-- **C96, closing.**  Besides the fees, a position over `l..u` pays what two with the same liquidity over `l..m` and `m..u` pay
together, up to rounding: in token Y two pay at most one unit less and nothing more; in token X, up to one part in `10^14`, two pay
at most two units less and at most one more. -/
theorem C96_close {c : Chain} {k : PoolKey} {l m u : Int} {P L x1 y1 x2 y2 x y : Nat}
    (h1 : Closing c k l m P L x1 y1) (h2 : Closing c k m u P L x2 y2) (h : Closing c k l u P L x y) :
    (y1 + y2 ≤ y ∧ y ≤ y1 + y2 + 1) ∧
      (x1 : ℚ) + x2 < (x + 1) * (1 + 1 / 10 ^ 14) + 1 / 10 ^ 14 ∧
      (x : ℚ) < (x1 + x2 + 2) * (1 + 1 / 10 ^ 14) + 2 / 10 ^ 14 := by
  obtain ⟨⟨p0, p1⟩, a1, a2, a3, a4⟩ := closing_exact h1
  obtain ⟨⟨-, p2⟩, b1, b2, b3, b4⟩ := closing_exact h2
  obtain ⟨-, c1, c2, c3, c4⟩ := closing_exact h
  obtain ⟨jx, jy⟩ := exactPosition_join (L := L) (P := P) p0 p1 p2
  rw [jx] at c1 c2
  rw [jy] at c3 c4
  refine ⟨⟨?_, ?_⟩, ?_, ?_⟩
  · have : ((y1 + y2 : Nat) : ℚ) < ((y + 1 : Nat) : ℚ) := by push_cast; linarith
    have := Nat.cast_lt.1 this
    omega
  · have : (y : ℚ) < ((y1 + y2 + 2 : Nat) : ℚ) := by push_cast; linarith
    have := Nat.cast_lt.1 this
    omega
  · linarith
  · linarith

/-! ## Fees -/

private theorem outAt_small {s : Store} (hs : Struct s) (k : PoolKey) (x : Bool) (i : Int) : outAt s.ticks k x i < U128 := by
  unfold outAt
  split
  · rename_i t ht
    obtain ⟨_, -, this⟩ := hs.ticks _ _ ht
    cases x
    · exact this.outY
    · exact this.outX
  · decide

private theorem growthInside_join {s : Store} (hs : Struct s) {k : PoolKey} {p : Pool} (hp : s.pools.get? k.key = some p) (x : Bool)
    {l m u : Int} (h1 : l < m) (h2 : m < u) :
    growthInside s.ticks k p x l u = (growthInside s.ticks k p x l m + growthInside s.ticks k p x m u) % U128 := by
  have hg : p.fg x < U128 := by
    have := hs.fg _ _ hp
    cases x
    · exact this.2.1
    · exact this.1
  have hl := outAt_small hs k x l
  have hm := outAt_small hs k x m
  have hu := outAt_small hs k x u
  simp only [growthInside_code]
  generalize p.fg x = g at *
  generalize outAt s.ticks k x l = a at *
  generalize outAt s.ticks k x m = b at *
  generalize outAt s.ticks k x u = d at *
  symm
  by_cases c1 : p.tick < l
  · rw [inside_below h1 c1 hg hl, inside_below h2 (by omega) hg hm, inside_below (by omega) c1 hg hl, Nat.add_comm]
    exact wsub_join _ _ _ hm hu
  · by_cases c2 : p.tick < m
    · rw [inside_mid (by omega) c2, inside_below h2 c2 hg hm, inside_mid (by omega) (by omega), Nat.add_comm]
      exact wsub_join _ _ _ hm hu
    · by_cases c3 : p.tick < u
      · rw [inside_above h1 (by omega) hg hl hm, inside_mid (by omega) c3, inside_mid (by omega) c3,
          wsub_swap g b d, wsub_swap g a d]
        exact wsub_join _ _ _ hm hl
      · rw [inside_above h1 (by omega) hg hl hm, inside_above h2 (by omega) hg hm hu,
          inside_above (by omega) (by omega) hg hl hu]
        exact wsub_join _ _ _ hm hl

/-- What an untouched position over a range has earned between two states, for each unit of liquidity. -/
def Earned (s s' : Store) (k : PoolKey) (x : Bool) (l u : Int) (e : Nat) : Prop :=
  ∀ q, q ∈ s.positions.vals → q ∈ s'.positions.vals → q.poolKey = k → q.lower = l → q.upper = u →
    ∃ v, v < U128 ∧ accrued s x q = v * q.liquidity ∧ accrued s' x q = (v + e) % U128 * q.liquidity

private theorem earned_growth {c : Chain} {s s' : Store} (hr : Reach c s) {k : PoolKey} {p p' : Pool} (hp : s.pools.get? k.key = some p)
    (hp' : s'.pools.get? k.key = some p') (x : Bool) (l u : Int) {e : Nat}
    (he : growthInside s'.ticks k p' x l u = (growthInside s.ticks k p x l u + e) % U128) : Earned s s' k x l u e := by
  rintro q hq - rfl rfl rfl
  obtain ⟨id, hid⟩ := memPos hq
  have hok := hr.mreach.struct.positions _ _ hid
  refine ⟨wsub (growthInside s.ticks q.poolKey p x q.lower q.upper) (q.fgIn x), Nat.mod_lt _ (by decide), ?_, ?_⟩
  · unfold accrued accruedIn
    rw [hp]
  · unfold accrued accruedIn
    rw [hp']
    simp only
    congr 1
    rw [he]
    generalize growthInside s.ticks q.poolKey p x q.lower q.upper = g at *
    unfold wsub
    rw [Nat.mod_add_mod, Nat.mod_add_mod]
    congr 1
    omega

/-- **C96, fees.**  Between any two states of the contract, whatever happened, regular or not: an untouched position over `l..u` has
earned, for each unit of its liquidity, what untouched positions over `l..m` and over `m..u` have earned together.  (Counters are
kept modulo `2^128`, as everywhere.) -/
theorem C96_fees {c : Chain} {s s' : Store} (hr : Reach c s) (hr' : Reach c s') (k : PoolKey) {l m u : Int} (hlm : l < m) (hmu : m < u)
    (x : Bool) : ∃ e1 e2, Earned s s' k x l m e1 ∧ Earned s s' k x m u e2 ∧ Earned s s' k x l u (e1 + e2) := by
  cases hp : s.pools.get? k.key with
  | none =>
    have none_ : ∀ l u e, Earned s s' k x l u e := fun l u e q hq _ h _ _ => by
      obtain ⟨id, hid⟩ := memPos hq
      obtain ⟨p, hp'⟩ := (hr.mreach.struct.positions _ _ hid).pool
      rw [h, hp] at hp'
      simp at hp'
    exact ⟨0, 0, none_ _ _ _, none_ _ _ _, none_ _ _ _⟩
  | some p =>
    cases hp' : s'.pools.get? k.key with
    | none =>
      have none_ : ∀ l u e, Earned s s' k x l u e := fun l u e q _ hq h _ _ => by
        obtain ⟨id, hid⟩ := memPos hq
        obtain ⟨p, hp''⟩ := (hr'.mreach.struct.positions _ _ hid).pool
        rw [h, hp'] at hp''
        simp at hp''
      exact ⟨0, 0, none_ _ _ _, none_ _ _ _, none_ _ _ _⟩
    | some p' =>
      have j := growthInside_join hr.mreach.struct hp x hlm hmu
      have j' := growthInside_join hr'.mreach.struct hp' x hlm hmu
      have grow : ∀ l u, growthInside s'.ticks k p' x l u = (growthInside s.ticks k p x l u +
          wsub (growthInside s'.ticks k p' x l u) (growthInside s.ticks k p x l u)) % U128 := fun l u => by
        have b1 := growthInside_lt s.ticks k p x l u
        have b2 := growthInside_lt s'.ticks k p' x l u
        generalize growthInside s'.ticks k p' x l u = g' at *
        generalize growthInside s.ticks k p x l u = g at *
        unfold wsub
        rw [Nat.add_mod_mod, show g + (g' + (U128 - g)) = g' + U128 by omega, Nat.add_mod_right, Nat.mod_eq_of_lt b2]
      refine ⟨_, _, earned_growth hr hp hp' x l m (grow l m), earned_growth hr hp hp' x m u (grow m u),
        earned_growth hr hp hp' x l u ?_⟩
      have g1 := grow l m
      have g2 := grow m u
      generalize wsub (growthInside s'.ticks k p' x l m) (growthInside s.ticks k p x l m) = e1 at *
      generalize wsub (growthInside s'.ticks k p' x m u) (growthInside s.ticks k p x m u) = e2 at *
      rw [j', j, g1, g2, ← Nat.add_mod, Nat.mod_add_mod]
      congr 1
      omega

/-- So three positions with the same liquidity that start without earnings: the wide one earns the sum, unless the counters wrap. -/
theorem C96_fees_new {c : Chain} {s s' : Store} (hr : Reach c s) (hr' : Reach c s') {k : PoolKey} {l m u : Int} {L : Nat}
    {q1 q2 q : Position} {x : Bool} (w1 : q1.what = (k, l, m, L)) (w2 : q2.what = (k, m, u, L)) (w : q.what = (k, l, u, L))
    (m1 : q1 ∈ s.positions.vals) (m2 : q2 ∈ s.positions.vals) (m0 : q ∈ s.positions.vals)
    (m1' : q1 ∈ s'.positions.vals) (m2' : q2 ∈ s'.positions.vals) (m0' : q ∈ s'.positions.vals)
    (z1 : accrued s x q1 = 0) (z2 : accrued s x q2 = 0) (z : accrued s x q = 0)
    (hsmall : accrued s' x q1 + accrued s' x q2 < 2 ^ 128 * L) :
    accrued s' x q = accrued s' x q1 + accrued s' x q2 := by
  simp only [Position.what, Prod.mk.injEq] at w1 w2 w
  obtain ⟨a1, a2, a3, a4⟩ := w1
  obtain ⟨b1, b2, b3, b4⟩ := w2
  obtain ⟨c1, c2, c3, c4⟩ := w
  have lt : ∀ {r}, r ∈ s.positions.vals → r.lower < r.upper := fun hr1 => by
    obtain ⟨id, hid⟩ := memPos hr1
    exact (hr.mreach.struct.positions _ _ hid).lt
  obtain ⟨e1, e2, E1, E2, E⟩ := C96_fees hr hr' k (l := l) (m := m) (u := u) (by have := lt m1; omega) (by have := lt m2; omega) x
  obtain ⟨v1, -, f1, g1⟩ := E1 q1 m1 m1' a1 a2 a3
  obtain ⟨v2, -, f2, g2⟩ := E2 q2 m2 m2' b1 b2 b3
  obtain ⟨v, -, f, g⟩ := E q m0 m0' c1 c2 c3
  have hL : 0 < L := Nat.pos_of_ne_zero fun e => by rw [e] at hsmall; simp at hsmall
  rw [a4] at f1 g1
  rw [b4] at f2 g2
  rw [c4] at f g
  have zero : ∀ {a}, 0 = a * L → a = 0 := fun h => by
    rcases Nat.mul_eq_zero.1 h.symm with h | h
    · exact h
    · omega
  obtain rfl := zero (z1 ▸ f1)
  obtain rfl := zero (z2 ▸ f2)
  obtain rfl := zero (z ▸ f)
  simp only [Nat.zero_add] at g1 g2 g
  rw [g1, g2, ← Nat.add_mul] at hsmall
  have hs := Nat.lt_of_mul_lt_mul_right hsmall
  rw [g, g1, g2, ← Nat.add_mul, Nat.add_mod, Nat.mod_eq_of_lt hs]

/-! ## Examples -/

/-- A pool whose price is just above 1, and three positions of Alice's in it: the lower half, the upper half, and the whole. -/
def Demo.halves : List (Info × Msg) :=
  [(Demo.by_ Demo.alice, .addFeeTier Demo.tier),
   (Demo.by_ Demo.alice, .createPool [97] [98] Demo.tier (10 ^ 24 + 4187) 0),
   (Demo.by_ Demo.alice, .createPosition Demo.key (-10) 0 (10 ^ 15) 0 (10 ^ 30)),
   (Demo.by_ Demo.alice, .createPosition Demo.key 0 10 (10 ^ 15) 0 (10 ^ 30)),
   (Demo.by_ Demo.alice, .createPosition Demo.key (-10) 10 (10 ^ 15) 0 (10 ^ 30))]

/-- Then two swaps move the price from the upper into the lower half, and back into the middle of the upper. -/
def Demo.halvesSwapped : List (Info × Msg) := Demo.halves ++
  [(Demo.by_ Demo.bob, .swap Demo.key true 500000 true MIN_SQRT_PRICE),
   (Demo.by_ Demo.bob, .swap Demo.key false 1000000 true MAX_SQRT_PRICE)]

/-- Bob opens a position in that pool and it costs `x` and `y`. -/
def Demo.opensHalf (l u : Int) (x y : Nat) : Bool :=
  match World.tx Demo.chain ⟨Demo.state Demo.chain Demo.halves, Demo.wealthy⟩ Demo.env (Demo.by_ Demo.bob)
    (.createPosition Demo.key l u (10 ^ 15) 0 (10 ^ 30)) with
  | .ok w' => decide (w'.ledger.bal (.cw20 [97]) Demo.bob + x = 10 ^ 40 ∧ w'.ledger.bal (.cw20 [98]) Demo.bob + y = 10 ^ 40)
  | .error _ => false

/-- Alice closes the position with index `i` and gets `x` and `y`. -/
def Demo.closesHalf (i : Nat) (l u : Int) (x y : Nat) : Bool :=
  (((Demo.state Demo.chain Demo.halves).positions.get? (positionKey Demo.alice i)).map (fun q => (q.what,
    accrued (Demo.state Demo.chain Demo.halves) true q, accrued (Demo.state Demo.chain Demo.halves) false q)) ==
      some ((Demo.key, l, u, 10 ^ 15), 0, 0)) &&
  match World.tx Demo.chain ⟨Demo.state Demo.chain Demo.halves, Demo.wealthy⟩ Demo.env ⟨Demo.alice, []⟩
    (.removePosition i) with
  | .ok w' => decide (w'.ledger.bal (.cw20 [97]) Demo.alice = 10 ^ 40 + x ∧ w'.ledger.bal (.cw20 [98]) Demo.alice = 10 ^ 40 + y)
  | .error _ => false

theorem halves_price : ∃ p, (Demo.state Demo.chain Demo.halves).pools.get? Demo.key.key = some p ∧ p.sqrtPrice = 10 ^ 24 + 4187 := by
  have : ((Demo.state Demo.chain Demo.halves).pools.get? Demo.key.key).map (·.sqrtPrice) = some (10 ^ 24 + 4187) := by decide +kernel
  simpa using this

theorem halves_reach : Reach Demo.chain (Demo.state Demo.chain Demo.halves) := Demo.state_reach (by decide +kernel)

theorem halves_opening {l u : Int} {x y : Nat} (h : Demo.opensHalf l u x y = true) :
    Opening Demo.chain Demo.key l u (10 ^ 24 + 4187) (10 ^ 15) x y := by
  obtain ⟨p, hp, e⟩ := halves_price
  unfold Demo.opensHalf at h
  cases ht : World.tx Demo.chain ⟨Demo.state Demo.chain Demo.halves, Demo.wealthy⟩ Demo.env (Demo.by_ Demo.bob)
      (.createPosition Demo.key l u (10 ^ 15) 0 (10 ^ 30)) with
  | error e => rw [ht] at h; simp at h
  | ok w' =>
    rw [ht] at h
    simp only [decide_eq_true_eq] at h
    exact ⟨⟨Demo.state Demo.chain Demo.halves, Demo.wealthy⟩, w', Demo.env, Demo.by_ Demo.bob, _, 0, 10 ^ 30, p,
      halves_reach, by decide, by decide, hp, e, Or.inl rfl, ht, fun _ hc => absurd hc (by simp [Demo.by_]),
      fun _ hc => absurd hc (by simp [Demo.by_]), h.1, h.2⟩

theorem halves_closing {i : Nat} {l u : Int} {x y : Nat} (h : Demo.closesHalf i l u x y = true) :
    Closing Demo.chain Demo.key l u (10 ^ 24 + 4187) (10 ^ 15) x y := by
  obtain ⟨p, hp, e⟩ := halves_price
  unfold Demo.closesHalf at h
  rw [Bool.and_eq_true] at h
  obtain ⟨h1, h⟩ := h
  cases hq : (Demo.state Demo.chain Demo.halves).positions.get? (positionKey Demo.alice i) with
  | none => rw [hq] at h1; simp at h1
  | some q =>
    rw [hq] at h1
    simp only [Option.map_some, beq_iff_eq, Option.some.injEq, Prod.mk.injEq] at h1
    obtain ⟨h2, h3, h4⟩ := h1
    cases ht : World.tx Demo.chain ⟨Demo.state Demo.chain Demo.halves, Demo.wealthy⟩ Demo.env ⟨Demo.alice, []⟩ (.removePosition i) with
    | error e => rw [ht] at h; simp at h
    | ok w' =>
      rw [ht] at h
      simp only [decide_eq_true_eq] at h
      refine ⟨⟨Demo.state Demo.chain Demo.halves, Demo.wealthy⟩, w', Demo.env, Demo.alice, i, p, q,
        halves_reach, by decide, hq, ?_, hp, e, ht, ?_, ?_⟩
      · exact h2
      · simp only [h3, Nat.zero_div, Nat.add_zero]
        exact h.1
      · simp only [h4, Nat.zero_div, Nat.add_zero]
        exact h.2

/-- The two halves cost one unit of Y more than the whole. -/
example : Opening Demo.chain Demo.key (-10) 0 (10 ^ 24 + 4187) (10 ^ 15) 0 499851 ∧
    Opening Demo.chain Demo.key 0 10 (10 ^ 24 + 4187) (10 ^ 15) 499851 1 ∧
    Opening Demo.chain Demo.key (-10) 10 (10 ^ 24 + 4187) (10 ^ 15) 499851 499851 :=
  ⟨halves_opening (by decide +kernel), halves_opening (by decide +kernel), halves_opening (by decide +kernel)⟩

example : Closing Demo.chain Demo.key (-10) 0 (10 ^ 24 + 4187) (10 ^ 15) 0 499850 ∧
    Closing Demo.chain Demo.key 0 10 (10 ^ 24 + 4187) (10 ^ 15) 499850 0 ∧
    Closing Demo.chain Demo.key (-10) 10 (10 ^ 24 + 4187) (10 ^ 15) 499850 499850 :=
  ⟨halves_closing (i := 0) (by decide +kernel), halves_closing (i := 1) (by decide +kernel),
    halves_closing (i := 2) (by decide +kernel)⟩

/-- After the swaps the lower half has earned 2500 units of X, the upper half half a unit, and the whole 2500.5. -/
example : Reach Demo.chain (Demo.state Demo.chain Demo.halvesSwapped) ∧
    ([0, 1, 2].map fun i => (Demo.state Demo.chain Demo.halvesSwapped).positions.get? (positionKey Demo.alice i)) =
      ([0, 1, 2].map fun i => (Demo.state Demo.chain Demo.halves).positions.get? (positionKey Demo.alice i)) ∧
    ([0, 1, 2].map fun i => ((Demo.state Demo.chain Demo.halvesSwapped).positions.get? (positionKey Demo.alice i)).map fun q =>
      (q.what, accrued (Demo.state Demo.chain Demo.halvesSwapped) true q)) =
      [some ((Demo.key, -10, 0, 10 ^ 15), 25000 * 10 ^ 33), some ((Demo.key, 0, 10, 10 ^ 15), 5 * 10 ^ 33),
        some ((Demo.key, -10, 10, 10 ^ 15), 25005 * 10 ^ 33)] :=
  ⟨Demo.state_reach (by decide +kernel), by decide +kernel, by decide +kernel⟩

end OraiV3
