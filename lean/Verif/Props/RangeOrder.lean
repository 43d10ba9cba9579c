import Verif.Lemmas.Principal
import Verif.Props.Deposit
import Verif.Props.RoundTrip
import Verif.Props.FeeRate

/-!
# C95: a position trades only between the prices it has seen

What a position pays out at the end, apart from fees, is what was put in, with the difference exchanged at the geometric mean of the
price at the beginning and the price at the end, each moved to the nearer end of the range if it is outside.
-/

namespace OraiV3

/-- A position of pool `k` with range `l..u` and liquidity `L` was opened by one call, and is closed by another at any later time, by
whoever holds it then.  (Pool, range and liquidity never change in between, whatever is called: C69.)  `x0` and `y0` were taken
by the first call (a coin attached although none of it is needed is not counted, see C29), `x1` and `y1` are paid by the second
besides the fees, and `p0` and `p1` are the pool's square-root prices at the two moments. -/
structure Lifetime (c : Chain) (k : PoolKey) (l u : Int) (L : Nat) (w w' : World) (info : Info) (v v' : World) (who : Bytes)
    (p0 p1 x0 y0 x1 y1 : Nat) : Prop where
  price0 : (w.store.pools.get? k.key).map (·.sqrtPrice) = some p0
  price1 : (v.store.pools.get? k.key).map (·.sqrtPrice) = some p1
  tookX : x0 ≠ 0 ∨ (∀ coin ∈ info.funds, coin.denom ≠ k.tokenX) →
    w'.ledger.bal (tokenAsset c k.tokenX) info.sender + x0 = w.ledger.bal (tokenAsset c k.tokenX) info.sender
  tookY : y0 ≠ 0 ∨ (∀ coin ∈ info.funds, coin.denom ≠ k.tokenY) →
    w'.ledger.bal (tokenAsset c k.tokenY) info.sender + y0 = w.ledger.bal (tokenAsset c k.tokenY) info.sender
  paid : ∃ (i : Nat) (q : Position), (positionList v.store who)[i]? = some (some q) ∧ q.what = (k, l, u, L) ∧
    v'.ledger.bal (tokenAsset c k.tokenX) who = v.ledger.bal (tokenAsset c k.tokenX) who + (x1 + accrued v.store true q / 10 ^ 34) ∧
    v'.ledger.bal (tokenAsset c k.tokenY) who = v.ledger.bal (tokenAsset c k.tokenY) who + (y1 + accrued v.store false q / 10 ^ 34)

/-- What the position consists of at the two moments. -/
private theorem lifetime {c : Chain} {w w' v v' : World} {env env' : Env} {info : Info} {k : PoolKey} {l u : Int} {L lo hi : Nat} {msg : Msg}
    {who : Bytes} {i : Nat} {q : Position} (hm : msg = .createPosition k l u L lo hi ∨ msg = .mint k l u L lo hi)
    (hr : Reach c w.store) (hne : info.sender ≠ c.self) (hn : (info.funds.map Coin.denom).Nodup) (h : w.tx c env info msg = .ok w')
    (hr' : Reach c v.store) (hne' : who ≠ c.self) (hq : (positionList v.store who)[i]? = some (some q)) (hw : q.what = (k, l, u, L))
    (h' : v.tx c env' ⟨who, []⟩ (.removePosition i) = .ok v') :
    ∃ p0 p1 x0 y0 x1 y1, Lifetime c k l u L w w' info v v' who p0 p1 x0 y0 x1 y1 ∧
      0 < sqrtPriceAt l ∧ sqrtPriceAt l ≤ sqrtPriceAt u ∧
      exactPositionX L (sqrtPriceAt l) (sqrtPriceAt u) p0 < x0 + 1 / 10 ^ 14 ∧
      (x0 : ℚ) * (1 - 1 / 10 ^ 14) ≤ exactPositionX L (sqrtPriceAt l) (sqrtPriceAt u) p0 + 1 ∧
      exactPositionY L (sqrtPriceAt l) (sqrtPriceAt u) p0 ≤ y0 ∧
      (y0 : ℚ) < exactPositionY L (sqrtPriceAt l) (sqrtPriceAt u) p0 + 1 ∧
      (sqrtPriceAt u ≤ p0 → x0 = 0) ∧
      (x1 : ℚ) ≤ exactPositionX L (sqrtPriceAt l) (sqrtPriceAt u) p1 ∧
      exactPositionX L (sqrtPriceAt l) (sqrtPriceAt u) p1 < (x1 + 1) * (1 + 1 / 10 ^ 14) + 1 / 10 ^ 14 ∧
      (y1 : ℚ) ≤ exactPositionY L (sqrtPriceAt l) (sqrtPriceAt u) p1 ∧
      exactPositionY L (sqrtPriceAt l) (sqrtPriceAt u) p1 < y1 + 1 := by
  obtain ⟨p, x0, y0, hp, a1, a2, a3, a4, a5, a6, a7⟩ := C25_deposit hm hr hne hn h
  obtain ⟨q', p', x1, y1, hq', hp', b1, b2, b3, b4, b5, b6⟩ := C25_withdraw hr' hne' h'
  have hg : v.store.positions.get? (positionKey who i) = some q := by
    have := hq
    rw [positionList_getElem?] at this
    split at this
    · simpa using this
    · simp at this
  rw [hg, Option.some.injEq] at hq'
  subst hq'
  have hok := hr'.mreach.struct.positions _ _ hg
  have r1 := sqrtPriceAt_range hok.lower.range.1 hok.lower.range.2
  have r3 := hok.lower.price_le hok.upper (by have := hok.lt; omega)
  have hm0 : 0 < MIN_SQRT_PRICE := by norm_num
  have hw' := hw
  unfold Position.what at hw'
  simp only [Prod.mk.injEq] at hw'
  obtain ⟨rfl, rfl, rfl, rfl⟩ := hw'
  exact ⟨p.sqrtPrice, p'.sqrtPrice, x0, y0, x1, y1, ⟨by rw [hp]; rfl, by rw [hp']; rfl, a5, a6, i, q, hq, hw, b5, b6⟩,
    by omega, r3, a1, a2, a3, a4, a7, b1, b2, b3, b4⟩

/-- Exactly: what the position has sold of X, it has sold at the mean price. -/
theorem position_rate {L lo hi p0 p1 : Nat} (h0 : 0 < lo) (h1 : lo ≤ hi) :
    exactPositionY L lo hi p1 - exactPositionY L lo hi p0 =
      (exactPositionX L lo hi p0 - exactPositionX L lo hi p1) * (priceVal (clampPrice lo hi p0) * priceVal (clampPrice lo hi p1)) := by
  unfold exactPositionX exactPositionY
  have c : ∀ p, lo ≤ clampPrice lo hi p ∧ clampPrice lo hi p ≤ hi := fun p => by unfold clampPrice; omega
  obtain ⟨a1, a2⟩ := c p0
  obtain ⟨b1, b2⟩ := c p1
  generalize clampPrice lo hi p0 = a at *
  generalize clampPrice lo hi p1 = b at *
  rw [exactY_le a1, exactY_le b1, exactX_le (by omega) a2, exactX_le (by omega) b2]
  have pa := (priceVal_pos (p := a) (by omega)).ne'
  have pb := (priceVal_pos (p := b) (by omega)).ne'
  have ph := (priceVal_pos (p := hi) (by omega)).ne'
  field_simp
  ring

/-- Valued at one price, the position consists of no less at any other. -/
theorem exactPosition_tangent {L lo hi P Q : Nat} (h0 : 0 < lo) (h1 : lo ≤ hi) :
    priceVal P ^ 2 * exactPositionX L lo hi P + exactPositionY L lo hi P ≤ priceVal P ^ 2 * exactPositionX L lo hi Q + exactPositionY L lo hi Q := by
  have e := position_rate (L := L) (p0 := P) (p1 := Q) h0 h1
  unfold exactPositionX at *
  have c : ∀ p, lo ≤ clampPrice lo hi p ∧ clampPrice lo hi p ≤ hi := fun p => by unfold clampPrice; omega
  obtain ⟨a1, a2⟩ := c P
  obtain ⟨b1, b2⟩ := c Q
  have cases : (clampPrice lo hi P ≤ clampPrice lo hi Q ∧ (P ≤ clampPrice lo hi P ∨ clampPrice lo hi P = clampPrice lo hi Q)) ∨
      (clampPrice lo hi Q ≤ clampPrice lo hi P ∧ (clampPrice lo hi P ≤ P ∨ clampPrice lo hi P = clampPrice lo hi Q)) := by
    unfold clampPrice; omega
  generalize clampPrice lo hi P = a at *
  generalize clampPrice lo hi Q = b at *
  generalize exactPositionY L lo hi P = Y0 at *
  generalize exactPositionY L lo hi Q = Y1 at *
  rw [exactX_le (by omega) a2, exactX_le (by omega) b2] at *
  have pa := priceVal_pos (p := a) (by omega)
  have pb := priceVal_pos (p := b) (by omega)
  have hL : 0 ≤ liqVal L := by unfold liqVal; positivity
  have hP : 0 ≤ priceVal P := by unfold priceVal; positivity
  have key : 0 ≤ (liqVal L * (1 / priceVal a - 1 / priceVal b)) * (priceVal a * priceVal b - priceVal P ^ 2) := by
    rcases cases with ⟨c1, c2 | rfl⟩ | ⟨c1, c2 | rfl⟩
    · have e1 := priceVal_le c1
      have e2 := priceVal_le c2
      refine mul_nonneg (mul_nonneg hL (sub_nonneg.2 (one_div_le_one_div_of_le pa e1))) (sub_nonneg.2 ?_)
      nlinarith
    · simp
    · have e1 := priceVal_le c1
      have e2 := priceVal_le c2
      refine mul_nonneg_of_nonpos_of_nonpos (mul_nonpos_of_nonneg_of_nonpos hL (sub_nonpos.2 (one_div_le_one_div_of_le pb e1))) (sub_nonpos.2 ?_)
      nlinarith
    · simp
  nlinarith

/-- **C95.**  The position has changed one token into the other at the geometric mean of the two prices, moved into the range: up
to two units of Y, three units of X and one part in 10^14 of the amounts of X. -/
theorem C95_mean_price {c : Chain} {w w' v v' : World} {env env' : Env} {info : Info} {k : PoolKey} {l u : Int} {L lo hi : Nat} {msg : Msg}
    {who : Bytes} {i : Nat} {q : Position} (hm : msg = .createPosition k l u L lo hi ∨ msg = .mint k l u L lo hi)
    (hr : Reach c w.store) (hne : info.sender ≠ c.self) (hn : (info.funds.map Coin.denom).Nodup) (h : w.tx c env info msg = .ok w')
    (hr' : Reach c v.store) (hne' : who ≠ c.self) (hq : (positionList v.store who)[i]? = some (some q)) (hw : q.what = (k, l, u, L))
    (h' : v.tx c env' ⟨who, []⟩ (.removePosition i) = .ok v') :
    ∃ (p0 p1 x0 y0 x1 y1 : Nat) (mean : ℚ), Lifetime c k l u L w w' info v v' who p0 p1 x0 y0 x1 y1 ∧
      mean = priceVal (clampPrice (sqrtPriceAt l) (sqrtPriceAt u) p0) * priceVal (clampPrice (sqrtPriceAt l) (sqrtPriceAt u) p1) ∧
      (x0 * (1 - 1 / 10 ^ 14) - x1 * (1 + 1 / 10 ^ 14) - 3) * mean - 2 < (y1 : ℚ) - y0 ∧
      (y1 : ℚ) - y0 < (x0 - x1 + 1 / 10 ^ 14) * mean := by
  obtain ⟨p0, p1, x0, y0, x1, y1, hl, r0, r1, a1, a2, a3, a4, -, b1, b2, b3, b4⟩ := lifetime hm hr hne hn h hr' hne' hq hw h'
  have e := position_rate (L := L) (p0 := p0) (p1 := p1) r0 r1
  refine ⟨p0, p1, x0, y0, x1, y1, _, hl, rfl, ?_, ?_⟩
  all_goals
    have c0 : 0 < priceVal (clampPrice (sqrtPriceAt l) (sqrtPriceAt u) p0) := priceVal_pos (by unfold clampPrice; omega)
    have c1 : 0 < priceVal (clampPrice (sqrtPriceAt l) (sqrtPriceAt u) p1) := priceVal_pos (by unfold clampPrice; omega)
    have c2 := mul_pos c0 c1
    generalize priceVal (clampPrice (sqrtPriceAt l) (sqrtPriceAt u) p0) * priceVal (clampPrice (sqrtPriceAt l) (sqrtPriceAt u) p1) = m at *
    generalize exactPositionX L (sqrtPriceAt l) (sqrtPriceAt u) p0 = X0 at *
    generalize exactPositionX L (sqrtPriceAt l) (sqrtPriceAt u) p1 = X1 at *
  · have : (x0 * (1 - 1 / 10 ^ 14) - x1 * (1 + 1 / 10 ^ 14) - 3) * m ≤ (X0 - X1) * m :=
      mul_le_mul_of_nonneg_right (by linarith) c2.le
    linarith
  · have : (X0 - X1) * m < (x0 - x1 + 1 / 10 ^ 14) * m := mul_lt_mul_of_pos_right (by linarith) c2
    linarith

/-- **C95, at the price of the beginning nothing is lost.**  Valued at the price the pool had when the position was opened, it pays no
less than was put in, wherever the price has gone (up to the same roundings). -/
theorem C95_opening_price {c : Chain} {w w' v v' : World} {env env' : Env} {info : Info} {k : PoolKey} {l u : Int} {L lo hi : Nat} {msg : Msg}
    {who : Bytes} {i : Nat} {q : Position} (hm : msg = .createPosition k l u L lo hi ∨ msg = .mint k l u L lo hi)
    (hr : Reach c w.store) (hne : info.sender ≠ c.self) (hn : (info.funds.map Coin.denom).Nodup) (h : w.tx c env info msg = .ok w')
    (hr' : Reach c v.store) (hne' : who ≠ c.self) (hq : (positionList v.store who)[i]? = some (some q)) (hw : q.what = (k, l, u, L))
    (h' : v.tx c env' ⟨who, []⟩ (.removePosition i) = .ok v') :
    ∃ p0 p1 x0 y0 x1 y1 : Nat, Lifetime c k l u L w w' info v v' who p0 p1 x0 y0 x1 y1 ∧
      priceVal p0 ^ 2 * (x0 * (1 - 1 / 10 ^ 14)) + y0 < priceVal p0 ^ 2 * (x1 * (1 + 1 / 10 ^ 14) + 3) + y1 + 2 := by
  obtain ⟨p0, p1, x0, y0, x1, y1, hl, r0, r1, a1, a2, a3, a4, -, b1, b2, b3, b4⟩ := lifetime hm hr hne hn h hr' hne' hq hw h'
  refine ⟨p0, p1, x0, y0, x1, y1, hl, ?_⟩
  have e := exactPosition_tangent (L := L) (P := p0) (Q := p1) r0 r1
  have c0 : 0 ≤ priceVal p0 ^ 2 := by positivity
  generalize priceVal p0 ^ 2 = P at *
  generalize exactPositionX L (sqrtPriceAt l) (sqrtPriceAt u) p0 = X0 at *
  generalize exactPositionX L (sqrtPriceAt l) (sqrtPriceAt u) p1 = X1 at *
  have d1 : P * (x0 * (1 - 1 / 10 ^ 14)) ≤ P * (X0 + 1) := mul_le_mul_of_nonneg_left a2 c0
  have d2 : P * (X1 + 1) ≤ P * (x1 * (1 + 1 / 10 ^ 14) + 3) := mul_le_mul_of_nonneg_left (by linarith) c0
  linarith

/-- **C95, a range order.**  If the price was below the range at the beginning and is above it at the end, the position took no Y,
pays no X, and pays for what it took of X the geometric mean of the prices at the ends of the range. -/
theorem C95_sold {c : Chain} {w w' v v' : World} {env env' : Env} {info : Info} {k : PoolKey} {l u : Int} {L lo hi : Nat} {msg : Msg}
    {who : Bytes} {i : Nat} {q : Position} (hm : msg = .createPosition k l u L lo hi ∨ msg = .mint k l u L lo hi)
    (hr : Reach c w.store) (hne : info.sender ≠ c.self) (hn : (info.funds.map Coin.denom).Nodup) (h : w.tx c env info msg = .ok w')
    (hr' : Reach c v.store) (hne' : who ≠ c.self) (hq : (positionList v.store who)[i]? = some (some q)) (hw : q.what = (k, l, u, L))
    (h' : v.tx c env' ⟨who, []⟩ (.removePosition i) = .ok v') :
    ∃ p0 p1 x0 y0 x1 y1 : Nat, Lifetime c k l u L w w' info v v' who p0 p1 x0 y0 x1 y1 ∧
      (p0 ≤ sqrtPriceAt l → sqrtPriceAt u ≤ p1 → y0 = 0 ∧ x1 = 0 ∧
        (x0 * (1 - 1 / 10 ^ 14) - 1) * (priceVal (sqrtPriceAt l) * priceVal (sqrtPriceAt u)) < y1 + 1 ∧
        (y1 : ℚ) < (x0 + 1 / 10 ^ 14) * (priceVal (sqrtPriceAt l) * priceVal (sqrtPriceAt u))) := by
  obtain ⟨p0, p1, x0, y0, x1, y1, hl, r0, r1, a1, a2, a3, a4, -, b1, b2, b3, b4⟩ := lifetime hm hr hne hn h hr' hne' hq hw h'
  refine ⟨p0, p1, x0, y0, x1, y1, hl, fun h1 h2 => ?_⟩
  have e := position_rate (L := L) (p0 := p0) (p1 := p1) r0 r1
  have c0 : clampPrice (sqrtPriceAt l) (sqrtPriceAt u) p0 = sqrtPriceAt l := by unfold clampPrice; omega
  have c1 : clampPrice (sqrtPriceAt l) (sqrtPriceAt u) p1 = sqrtPriceAt u := by unfold clampPrice; omega
  have zx : exactPositionX L (sqrtPriceAt l) (sqrtPriceAt u) p1 = 0 := by unfold exactPositionX; rw [c1, exactX_self]
  have zy : exactPositionY L (sqrtPriceAt l) (sqrtPriceAt u) p0 = 0 := by unfold exactPositionY; rw [c0, exactY_self]
  rw [c0, c1, zx, zy] at e
  rw [zx] at b1
  rw [zy] at a4
  have hpos := mul_pos (priceVal_pos r0) (priceVal_pos (p := sqrtPriceAt u) (by omega))
  generalize priceVal (sqrtPriceAt l) * priceVal (sqrtPriceAt u) = m at *
  have d1 : (x0 * (1 - 1 / 10 ^ 14) - 1) * m ≤ (exactPositionX L (sqrtPriceAt l) (sqrtPriceAt u) p0 - 0) * m :=
    mul_le_mul_of_nonneg_right (by linarith) (by linarith)
  have d2 : (exactPositionX L (sqrtPriceAt l) (sqrtPriceAt u) p0 - 0) * m < (x0 + 1 / 10 ^ 14) * m :=
    mul_lt_mul_of_pos_right (by linarith) (by linarith)
  refine ⟨?_, ?_, by linarith, by linarith⟩
  · have : (y0 : ℚ) < 1 := by linarith
    have : y0 < 1 := by exact_mod_cast this
    omega
  · have : x1 ≤ 0 := by exact_mod_cast b1
    omega

/-- And the other way: the price was above the range and is below it. -/
theorem C95_bought {c : Chain} {w w' v v' : World} {env env' : Env} {info : Info} {k : PoolKey} {l u : Int} {L lo hi : Nat} {msg : Msg}
    {who : Bytes} {i : Nat} {q : Position} (hm : msg = .createPosition k l u L lo hi ∨ msg = .mint k l u L lo hi)
    (hr : Reach c w.store) (hne : info.sender ≠ c.self) (hn : (info.funds.map Coin.denom).Nodup) (h : w.tx c env info msg = .ok w')
    (hr' : Reach c v.store) (hne' : who ≠ c.self) (hq : (positionList v.store who)[i]? = some (some q)) (hw : q.what = (k, l, u, L))
    (h' : v.tx c env' ⟨who, []⟩ (.removePosition i) = .ok v') :
    ∃ p0 p1 x0 y0 x1 y1 : Nat, Lifetime c k l u L w w' info v v' who p0 p1 x0 y0 x1 y1 ∧
      (sqrtPriceAt u ≤ p0 → p1 ≤ sqrtPriceAt l → x0 = 0 ∧ y1 = 0 ∧
        (y0 : ℚ) - 1 < ((x1 + 1) * (1 + 1 / 10 ^ 14) + 1 / 10 ^ 14) * (priceVal (sqrtPriceAt l) * priceVal (sqrtPriceAt u)) ∧
        x1 * (priceVal (sqrtPriceAt l) * priceVal (sqrtPriceAt u)) ≤ (y0 : ℚ)) := by
  obtain ⟨p0, p1, x0, y0, x1, y1, hl, r0, r1, a1, a2, a3, a4, a5, b1, b2, b3, b4⟩ := lifetime hm hr hne hn h hr' hne' hq hw h'
  refine ⟨p0, p1, x0, y0, x1, y1, hl, fun h1 h2 => ?_⟩
  have e := position_rate (L := L) (p0 := p0) (p1 := p1) r0 r1
  have c0 : clampPrice (sqrtPriceAt l) (sqrtPriceAt u) p0 = sqrtPriceAt u := by unfold clampPrice; omega
  have c1 : clampPrice (sqrtPriceAt l) (sqrtPriceAt u) p1 = sqrtPriceAt l := by unfold clampPrice; omega
  have zx : exactPositionX L (sqrtPriceAt l) (sqrtPriceAt u) p0 = 0 := by unfold exactPositionX; rw [c0, exactX_self]
  have zy : exactPositionY L (sqrtPriceAt l) (sqrtPriceAt u) p1 = 0 := by unfold exactPositionY; rw [c1, exactY_self]
  rw [c0, c1, zx, zy, mul_comm (priceVal (sqrtPriceAt u))] at e
  rw [zy] at b3
  have hpos := mul_pos (priceVal_pos r0) (priceVal_pos (p := sqrtPriceAt u) (by omega))
  generalize priceVal (sqrtPriceAt l) * priceVal (sqrtPriceAt u) = m at *
  have d1 : exactPositionX L (sqrtPriceAt l) (sqrtPriceAt u) p1 * m ≤ ((x1 + 1) * (1 + 1 / 10 ^ 14) + 1 / 10 ^ 14) * m :=
    mul_le_mul_of_nonneg_right b2.le (by linarith)
  have d2 : x1 * m ≤ exactPositionX L (sqrtPriceAt l) (sqrtPriceAt u) p1 * m := mul_le_mul_of_nonneg_right b1 (by linarith)
  refine ⟨a5 h1, ?_, by linarith, by linarith⟩
  have : y1 ≤ 0 := by exact_mod_cast b3
  omega

namespace Demo

/-- Bob gives a position to Carol, and somebody buys until the price is above tick 200. -/
def rangeSale : List (Info × Msg) :=
  [(by_ bob, .transferPosition 0 carol),
   (by_ alice, .swap lowKey false 20000000000 true MAX_SQRT_PRICE)]

/-- Bob gives a position to Carol, and somebody sells until the price is below tick -200. -/
def rangeBuy : List (Info × Msg) :=
  [(by_ bob, .transferPosition 0 carol),
   (by_ alice, .swap lowKey true 20000000000 true MIN_SQRT_PRICE)]

/-- Bob opens a position by `msg` and later Carol closes it, with the given prices and amounts. -/
def order (msg : Msg) (tail : List (Info × Msg)) (l u : Int) (p0 p1 x0 y0 x1 y1 : Nat) : Bool :=
  match (world chain wide).tx chain env (by_ bob) msg with
  | .error _ => false
  | .ok w' =>
    match runW chain tail w' with
    | .error _ => false
    | .ok v =>
      match v.tx chain env ⟨carol, []⟩ (.removePosition 0), (positionList v.store carol)[0]? with
      | .ok v', some (some q) => decide (q.what = (lowKey, l, u, 10 ^ 15) ∧
          ((world chain wide).store.pools.get? lowKey.key).map (·.sqrtPrice) = some p0 ∧
          (v.store.pools.get? lowKey.key).map (·.sqrtPrice) = some p1 ∧
          w'.ledger.bal (.cw20 [97]) bob + x0 = (world chain wide).ledger.bal (.cw20 [97]) bob ∧
          w'.ledger.bal (.cw20 [98]) bob + y0 = (world chain wide).ledger.bal (.cw20 [98]) bob ∧
          v'.ledger.bal (.cw20 [97]) carol = v.ledger.bal (.cw20 [97]) carol + (x1 + accrued v.store true q / 10 ^ 34) ∧
          v'.ledger.bal (.cw20 [98]) carol = v.ledger.bal (.cw20 [98]) carol + (y1 + accrued v.store false q / 10 ^ 34))
      | _, _ => false

theorem order_lifetime {msg : Msg} {tail : List (Info × Msg)} {l u : Int} {p0 p1 x0 y0 x1 y1 : Nat}
    (h : order msg tail l u p0 p1 x0 y0 x1 y1 = true) :
    ∃ w w' v v' q, Reach chain w.store ∧ w.tx chain env (by_ bob) msg = .ok w' ∧
      Reach chain v.store ∧ (positionList v.store carol)[0]? = some (some q) ∧ q.what = (lowKey, l, u, 10 ^ 15) ∧
      v.tx chain env ⟨carol, []⟩ (.removePosition 0) = .ok v' ∧
      Lifetime chain lowKey l u (10 ^ 15) w w' (by_ bob) v v' carol p0 p1 x0 y0 x1 y1 := by
  have hr : WorldReach chain (world chain wide) := world_reach (by decide +kernel)
  unfold order at h
  generalize world chain wide = w at *
  split at h
  · simp at h
  · rename_i w' hw
    split at h
    · simp at h
    · rename_i v hv
      split at h
      · rename_i v' q hv' hq
        obtain ⟨a1, a2, a3, a4, a5, a6, a7⟩ := of_decide_eq_true h
        exact ⟨w, w', v, v', q, hr.reach, hw, (runW_reach _ _ _ _ (.call hr hw) hv).reach, hq, a1, hv',
          ⟨a2, a3, fun _ => a4, fun _ => a5, 0, q, hq, a1, a6, a7⟩⟩
      · simp at h

end Demo

/-- Bob puts in 4962400 X; Carol gets 5037392 Y, besides fees.  At the geometric mean of the prices of ticks 100 and 200, which is 1.0151,
the X are worth 5037393 Y. -/
example : ∃ w w' v v' q p0 p1, Reach Demo.chain w.store ∧
    w.tx Demo.chain Demo.env (Demo.by_ Demo.bob) (.createPosition Demo.lowKey 100 200 (10 ^ 15) 0 (10 ^ 30)) = .ok w' ∧
    Reach Demo.chain v.store ∧ (positionList v.store Demo.carol)[0]? = some (some q) ∧ q.what = (Demo.lowKey, 100, 200, 10 ^ 15) ∧
    v.tx Demo.chain Demo.env ⟨Demo.carol, []⟩ (.removePosition 0) = .ok v' ∧
    Lifetime Demo.chain Demo.lowKey 100 200 (10 ^ 15) w w' (Demo.by_ Demo.bob) v v' Demo.carol p0 p1 4962400 0 0 5037392 ∧
    p0 ≤ sqrtPriceAt 100 ∧ sqrtPriceAt 200 ≤ p1 := by
  obtain ⟨w, w', v, v', q, h1, h2, h3, h4, h5, h6, h7⟩ := Demo.order_lifetime (msg := .createPosition Demo.lowKey 100 200 (10 ^ 15) 0 (10 ^ 30))
    (tail := Demo.rangeSale) (l := 100) (u := 200) (p0 := 10 ^ 24) (p1 := 1019992962707000000000000) (x0 := 4962400) (y0 := 0) (x1 := 0)
    (y1 := 5037392) (by decide +kernel)
  exact ⟨w, w', v, v', q, _, _, h1, h2, h3, h4, h5, h6, h7, by decide +kernel, by decide +kernel⟩

/-- The other way. -/
example : ∃ w w' v v' q p0 p1, Reach Demo.chain w.store ∧
    w.tx Demo.chain Demo.env (Demo.by_ Demo.bob) (.createPosition Demo.lowKey (-200) (-100) (10 ^ 15) 0 (10 ^ 30)) = .ok w' ∧
    Reach Demo.chain v.store ∧ (positionList v.store Demo.carol)[0]? = some (some q) ∧ q.what = (Demo.lowKey, -200, -100, 10 ^ 15) ∧
    v.tx Demo.chain Demo.env ⟨Demo.carol, []⟩ (.removePosition 0) = .ok v' ∧
    Lifetime Demo.chain Demo.lowKey (-200) (-100) (10 ^ 15) w w' (Demo.by_ Demo.bob) v v' Demo.carol p0 p1 0 4962400 5037392 0 ∧
    sqrtPriceAt (-100) ≤ p0 ∧ p1 ≤ sqrtPriceAt (-200) := by
  obtain ⟨w, w', v, v', q, h1, h2, h3, h4, h5, h6, h7⟩ := Demo.order_lifetime (msg := .createPosition Demo.lowKey (-200) (-100) (10 ^ 15) 0 (10 ^ 30))
    (tail := Demo.rangeBuy) (l := -200) (u := -100) (p0 := 10 ^ 24) (p1 := 980398920936681190942434) (x0 := 0) (y0 := 4962400) (x1 := 5037392)
    (y1 := 0) (by decide +kernel)
  exact ⟨w, w', v, v', q, _, _, h1, h2, h3, h4, h5, h6, h7, by decide +kernel, by decide +kernel⟩

end OraiV3
