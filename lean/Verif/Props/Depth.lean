import Verif.Lemmas.Parts

/-!
# C98: more liquidity makes no trade worse
-/

namespace OraiV3

/-- All positions that the pool `k` has in `s` it has in `s'` too, and perhaps others. -/
def Deeper (s s' : Store) (k : PoolKey) : Prop :=
  ∃ others, ((positionsOf s' k).map Position.what).Perm (others ++ (positionsOf s k).map Position.what)

/-! ## Along the curve -/

/-- What a position consists of, from the description of the position alone. -/
private def contents (x : Bool) (p : Nat) (t : PoolKey × Int × Int × Nat) : ℚ :=
  (⟨t.1, t.2.2.2, t.2.1, t.2.2.1, 0, 0, 0, 0, 0, []⟩ : Position).principal x p

private theorem contents_what (x : Bool) (p : Nat) (q : Position) : contents x p q.what = q.principal x p := rfl

/-- The other positions trade at least at the price where the trade ends. -/
private theorem depth_tangent {s s' : Store} (hs : Struct s') {k : PoolKey} (h : Deeper s s' k) (d : Bool) {P : Nat} (hP : 0 < P) (Q : Nat) :
    sellPrice d P * (curveIn s' k d Q P - curveIn s k d Q P) ≤ curveOut s' k d Q P - curveOut s k d Q P := by
  obtain ⟨others, ho⟩ := h
  have hh : ∀ x p, held s' k x p = (others.map (contents x p)).sum + held s k x p := fun x p => by
    have e := perm_sumQ (ho.map (contents x p))
    rw [List.map_append, List.sum_append, List.map_map, List.map_map] at e
    exact e
  have key : priceVal P ^ 2 * (others.map (contents true P)).sum + (others.map (contents false P)).sum ≤
      priceVal P ^ 2 * (others.map (contents true Q)).sum + (others.map (contents false Q)).sum := by
    have each : ∀ t ∈ others, priceVal P ^ 2 * contents true P t + contents false P t ≤
        priceVal P ^ 2 * contents true Q t + contents false Q t := fun t ht => by
      have : t ∈ (positionsOf s' k).map Position.what := ho.symm.subset (List.mem_append_left _ ht)
      obtain ⟨q, hq, rfl⟩ := List.mem_map.1 this
      simp only [contents_what]
      exact principal_tangent hs hq P Q
    clear hh ho
    induction others with
    | nil => simp
    | cons p l ih =>
      have i := ih (fun q hq => each q (by simp [hq]))
      have j := each p (by simp)
      simp only [List.map_cons, List.sum_cons, mul_add] at i ⊢
      linarith
  have e : ((P : ℚ) / 10 ^ 24) ^ 2 = priceVal P ^ 2 := rfl
  have pos : 0 < priceVal P ^ 2 := by have := priceVal_pos hP; positivity
  unfold curveOut curveIn sellPrice
  rw [e]
  simp only [hh]
  cases d
  · simp only [Bool.not_false, Bool.false_eq_true, if_false]
    rw [one_div, inv_mul_eq_div, div_le_iff₀ pos]
    linarith
  · simp only [Bool.not_true, if_true]
    linarith

/-! ## The property -/

/-- **C98, a part that holds.**  Two reachable states with the same price of a pool, in both of which its liquidity is right (C01);
the second has all the positions of the first in this pool, and others.  A regular swap of `a` for `b` in the second, in `m`
price steps, brings the pool to `p'`.  Then a regular swap in the same direction in the first, and any sequence of such swaps, that
pays `A` gets, valued at `p'`,
* less by what it pays less (or more by what it pays more), without the fee,
* and at most the square of the fee rate of `a` more (the two ways of charging the fee, C76),
* and what rounding can make of the swap of `a`: three units paid and one unit received per price step, relative errors of `10^-14` and
  `10^-13`, and what moves the price by one in its last digit (for the liquidity `L` as in C82).
Missing: equality, see `C98_false`, and irregular ends, see C01. -/
theorem C98_depth_partial {c : Chain} {k : PoolKey} {d : Bool} {w w' v v' : World} {a b m A B n : Nat} (hr : Reach c w.store)
    (hdr : drift w.store k = 0) (hr' : Reach c v.store) (hdr' : drift v.store k = 0) (hd : Deeper w.store v.store k)
    (hprice : (v.store.pools.get? k.key).map (·.sqrtPrice) = (w.store.pools.get? k.key).map (·.sqrtPrice))
    (h : Parts c k d w w' A B n) (h' : OneTrade c k d v v' a b m) :
    ∃ p' L, v'.store.pools.get? k.key = some p' ∧ (L = p'.liquidity ∨ d = false ∧ (L : Int) = p'.liquidity - netAt v.store k p'.tick) ∧
      (B : ℚ) ≤ (b + m) * (1 + 1 / 10 ^ 13) + lastDigit (!d) L p'.sqrtPrice +
        sellPrice d p'.sqrtPrice * (((A : ℚ) - a) / (1 + feeRate k) + a * (feeRate k ^ 2 + 1 / 10 ^ 14) +
          3 * m + lastDigit d L p'.sqrtPrice + 2 / 10 ^ 14 * n) := by
  obtain ⟨r1, -, -, q, p', L, hq, hp', hL, -, e2, -, e4⟩ := h'.step hr' hdr'
  rw [hq] at hprice
  cases hp : w.store.pools.get? k.key with
  | none => rw [hp] at hprice; simp at hprice
  | some p =>
  rw [hp] at hprice
  simp only [Option.map_some, Option.some.injEq] at hprice
  obtain ⟨-, -, -, p2, -, f1, f2⟩ := h.curve hr hdr hp
  refine ⟨p', L, hp', hL, ?_⟩
  obtain ⟨k', e, hk', -⟩ := r1.mreach.struct.pools _ _ hp'
  have hok := r1.mreach.price k' p' hk' (by rw [← e]; exact hp')
  have hm0 : 0 < MIN_SQRT_PRICE := by norm_num
  have hP : 0 < p'.sqrtPrice := by have := hok.min; omega
  have ht := curve_tangent hr.mreach.struct k d hP p2.sqrtPrice
  have hx := depth_tangent hr'.mreach.struct hd d hP q.sqrtPrice
  rw [hprice] at e2 e4 hx
  have hS : 0 ≤ sellPrice d p'.sqrtPrice := by
    unfold sellPrice
    split <;> positivity
  have s1 : curveOut w.store k d p.sqrtPrice p2.sqrtPrice =
      curveOut w.store k d p.sqrtPrice p'.sqrtPrice + curveOut w.store k d p'.sqrtPrice p2.sqrtPrice := by unfold curveOut; ring
  have s2 : curveIn w.store k d p.sqrtPrice p2.sqrtPrice =
      curveIn w.store k d p.sqrtPrice p'.sqrtPrice + curveIn w.store k d p'.sqrtPrice p2.sqrtPrice := by unfold curveIn; ring
  have hf : 0 ≤ feeRate k := by unfold feeRate; positivity
  generalize feeRate k = f at *
  generalize sellPrice d p'.sqrtPrice = S at *
  generalize lastDigit d L p'.sqrtPrice = D at *
  generalize lastDigit (!d) L p'.sqrtPrice = D' at *
  rw [s1] at f2
  rw [s2] at f1
  generalize curveOut w.store k d p.sqrtPrice p'.sqrtPrice = O at *
  generalize curveOut w.store k d p'.sqrtPrice p2.sqrtPrice = O' at *
  generalize curveOut v.store k d p.sqrtPrice p'.sqrtPrice = O2 at *
  generalize curveIn w.store k d p.sqrtPrice p'.sqrtPrice = I at *
  generalize curveIn w.store k d p'.sqrtPrice p2.sqrtPrice = I' at *
  generalize curveIn v.store k d p.sqrtPrice p'.sqrtPrice = I2 at *
  have ha : (0 : ℚ) ≤ a := Nat.cast_nonneg a
  have hn : (0 : ℚ) ≤ n := Nat.cast_nonneg n
  have hf1 : 0 < 1 + f := by linarith
  have bound : I + I' - I2 ≤ ((A : ℚ) - a) / (1 + f) + a * (f ^ 2 + 1 / 10 ^ 14) + 3 * m + D + 2 / 10 ^ 14 * n := by
    have g1 : I + I' ≤ (A + 2 / 10 ^ 14 * n) / (1 + f) := by rw [le_div_iff₀ hf1]; exact f1
    have g2 : (A + 2 / 10 ^ 14 * n : ℚ) / (1 + f) = (A - a) / (1 + f) + a / (1 + f) + 2 / 10 ^ 14 * n / (1 + f) := by
      field_simp; ring
    have g3 : (2 / 10 ^ 14 * n : ℚ) / (1 + f) ≤ 2 / 10 ^ 14 * n := div_le_self (by positivity) (by linarith)
    have g4 : (a : ℚ) / (1 + f) ≤ a * (1 - f + f ^ 2) := by
      rw [div_le_iff₀ hf1]
      have : (0 : ℚ) ≤ a * f ^ 3 := by positivity
      nlinarith
    have g5 : 0 ≤ (a : ℚ) * f := by positivity
    nlinarith
  have := mul_le_mul_of_nonneg_left bound hS
  rw [mul_sub] at this hx
  rw [mul_add] at this
  linarith

/-- In particular after somebody has opened a position in the pool, compared with not having opened it. -/
theorem C98_deposit_partial {c : Chain} {k : PoolKey} {d : Bool} {w w' v v' : World} {a b m A B n : Nat} {env : Env} {info : Info} {msg : Msg}
    {l u : Int} {L lo hi : Nat} (hr : Reach c w.store) (hdr : drift w.store k = 0)
    (hm : msg = .createPosition k l u L lo hi ∨ msg = .mint k l u L lo hi) (ht : w.tx c env info msg = .ok v)
    (h : Parts c k d w w' A B n) (h' : OneTrade c k d v v' a b m) :
    ∃ p' L, v'.store.pools.get? k.key = some p' ∧ (L = p'.liquidity ∨ d = false ∧ (L : Int) = p'.liquidity - netAt v.store k p'.tick) ∧
      (B : ℚ) ≤ (b + m) * (1 + 1 / 10 ^ 13) + lastDigit (!d) L p'.sqrtPrice +
        sellPrice d p'.sqrtPrice * (((A : ℚ) - a) / (1 + feeRate k) + a * (feeRate k ^ 2 + 1 / 10 ^ 14) +
          3 * m + lastDigit d L p'.sqrtPrice + 2 / 10 ^ 14 * n) := by
  obtain ⟨out, x1, -⟩ := tx_inv ht
  have y1 : (Msg.createPosition k l u L lo hi).wf ∧ createPosition c w.store env info k l u L lo hi = .ok (v.store, out) := by
    rcases hm with rfl | rfl
    · exact execute_ok.1 x1
    · exact execute_ok.1 x1
  have hr' : Reach c v.store := .step hr x1
  have hdr' : drift v.store k = 0 := drift_step hr y1.1.1 hdr x1 (by rcases hm with rfl | rfl <;> trivial)
  obtain ⟨q, -, hq, -⟩ := C63_new hm hr x1
  have hd : Deeper w.store v.store k := by
    have e := (hq.filter (fun p => decide (p.poolKey = k))).map Position.what
    rw [List.filter_cons] at e
    split at e
    · exact ⟨[q.what], e⟩
    · exact ⟨[], e⟩
  refine C98_depth_partial hr hdr hr' hdr' hd ?_ h h'
  obtain ⟨pool, tl, tu, r, rl, m1, m2, hp, -, -, -, -, -, -, -, -, -, -, -, hmod, -, -, e3, -⟩ := createPosition_view hr.mreach.struct y1.1 y1.2
  rw [e3, KV.get?_insert_same, hp, Option.map_some, Option.map_some, (modify_liquidity hmod).2.1]

/-! ## Example -/

namespace Demo

/-- The price is just above tick 0, where two positions meet. -/
def shallow : List (Info × Msg) :=
  [(by_ alice, .addFeeTier tier),
   (by_ alice, .changeProtocolFee (10 ^ 12)),
   (by_ alice, .createPool [97] [98] tier (10 ^ 24 + 10 ^ 17) 0),
   (by_ alice, .createPosition key (-10) 0 (10 ^ 19) 0 (10 ^ 30)),
   (by_ alice, .createPosition key 0 10 (10 ^ 19) 0 (10 ^ 30))]

/-- Carol opens another in the upper range. -/
def deepen : Msg := .createPosition key 0 10 (10 ^ 19) 0 (10 ^ 30)

end Demo

/-- False as stated.  The fee of the pool is 1 %.  Bob sells 1020000 units of X and gets 1009899 units of Y.  If Carol opens a
position in the range of the price before, doubling the liquidity there, Bob gets 1009800: the sale does not reach tick 0 any more,
and the fee is charged on the gross amount instead of the net amount. -/
theorem C98_false : ∃ w v w' v' m n, WorldReach Demo.chain w ∧ drift w.store Demo.key = 0 ∧
    w.tx Demo.chain Demo.env (Demo.by_ Demo.carol) Demo.deepen = .ok v ∧
    OneTrade Demo.chain Demo.key true w w' 1020000 1009899 n ∧ OneTrade Demo.chain Demo.key true v v' 1020000 1009800 m := by
  obtain ⟨w', h1⟩ := Demo.sells (c := Demo.chain) (env := Demo.env) (who := Demo.bob) (k := Demo.key) (amount := 1020000) (b := true)
    (limit := MIN_SQRT_PRICE) (w := Demo.world Demo.chain Demo.shallow) (paid := 1020000) (got := 1009899) (fee := 10100)
    (by decide +kernel)
  have h3 : (match (Demo.world Demo.chain Demo.shallow).tx Demo.chain Demo.env (Demo.by_ Demo.carol) Demo.deepen with
    | .ok v => (match v.tx Demo.chain Demo.env ⟨Demo.bob, []⟩ (.swap Demo.key true 1020000 true MIN_SQRT_PRICE) with
      | .ok w' => decide (v.ledger.bal (tokenAsset Demo.chain Demo.key.tokenX) Demo.bob =
            w'.ledger.bal (tokenAsset Demo.chain Demo.key.tokenX) Demo.bob + 1020000 ∧
          w'.ledger.bal (tokenAsset Demo.chain Demo.key.tokenY) Demo.bob =
            v.ledger.bal (tokenAsset Demo.chain Demo.key.tokenY) Demo.bob + 1009800 ∧
          (w'.store.pools.get? Demo.key.key).map (fun p => p.proto true) = (v.store.pools.get? Demo.key.key).map (fun p => p.proto true + 10200) ∧
          RegularEnd w'.store Demo.key true true MIN_SQRT_PRICE)
      | .error _ => false)
    | .error _ => false) = true := by decide +kernel
  cases ht : (Demo.world Demo.chain Demo.shallow).tx Demo.chain Demo.env (Demo.by_ Demo.carol) Demo.deepen with
  | error e => rw [ht] at h3; simp at h3
  | ok v =>
    rw [ht] at h3
    obtain ⟨v', h4⟩ := Demo.sells (c := Demo.chain) (env := Demo.env) (who := Demo.bob) (k := Demo.key) (amount := 1020000) (b := true)
      (limit := MIN_SQRT_PRICE) (w := v) (paid := 1020000) (got := 1009800) (fee := 10200) h3
    exact ⟨_, v, w', v', _, _, Demo.world_reach (by decide +kernel), by decide +kernel, ht, h1.oneTrade (by decide), h4.oneTrade (by decide)⟩

/-- The hypotheses of the theorems are met by that case. -/
example : ∃ w v w' v' m n, Reach Demo.chain w.store ∧ drift w.store Demo.key = 0 ∧
    w.tx Demo.chain Demo.env (Demo.by_ Demo.carol) Demo.deepen = .ok v ∧
    Parts Demo.chain Demo.key true w w' 1020000 1009899 n ∧ OneTrade Demo.chain Demo.key true v v' 1020000 1009800 m := by
  obtain ⟨w, v, w', v', m, n, h1, h2, h3, h4, h5⟩ := C98_false
  exact ⟨w, v, w', v', m, 0 + n, h1.reach, h2, h3, by simpa using Parts.more (.none w) h4, h5⟩

end OraiV3
