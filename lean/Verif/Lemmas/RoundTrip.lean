import Verif.Lemmas.Solvent
import Verif.TradeSpec

/-!
# What swaps of one pool do to the principal of its positions
-/

namespace OraiV3

/-! ## Principal as a function of the price -/

theorem trade_rate {L a b R : ℚ} (hL : 0 ≤ L) (ha : 0 < a) (hab : a ≤ b) (hb : b * b ≤ R) (hra : 1 / (a * a) ≤ R) :
    0 ≤ L * (1 / a - 1 / b) ∧ 0 ≤ L * (b - a) ∧ L * (1 / a - 1 / b) ≤ R * (L * (b - a)) ∧ L * (b - a) ≤ R * (L * (1 / a - 1 / b)) := by
  have hb0 : 0 < b := lt_of_lt_of_le ha hab
  have hd : 0 ≤ b - a := by linarith
  have e : 1 / a - 1 / b = (b - a) * (1 / (a * b)) := by field_simp
  have hLd : 0 ≤ L * (b - a) := mul_nonneg hL hd
  have hi : 0 < 1 / (a * b) := by positivity
  have h1 : 1 / (a * b) ≤ R := le_trans (one_div_le_one_div_of_le (by positivity) (by nlinarith)) hra
  have h2 : a * b ≤ R := le_trans (by nlinarith) hb
  refine ⟨?_, hLd, ?_, ?_⟩
  · rw [e]; positivity
  · rw [e]
    calc L * ((b - a) * (1 / (a * b))) = 1 / (a * b) * (L * (b - a)) := by ring
      _ ≤ R * (L * (b - a)) := mul_le_mul_of_nonneg_right h1 hLd
  · rw [e]
    have : L * (b - a) = (a * b) * (L * ((b - a) * (1 / (a * b)))) := by
      field_simp
    calc L * (b - a) = (a * b) * (L * ((b - a) * (1 / (a * b)))) := this
      _ ≤ R * (L * ((b - a) * (1 / (a * b)))) := mul_le_mul_of_nonneg_right h2 (by positivity)

/-- Square of the largest price in use. -/
theorem priceVal_range {p : Nat} (h1 : MIN_SQRT_PRICE ≤ p) (h2 : p ≤ MAX_SQRT_PRICE) :
    priceVal p * priceVal p ≤ 2 ^ 32 ∧ 1 / (priceVal p * priceVal p) ≤ 2 ^ 32 := by
  have hm : MIN_SQRT_PRICE = 15258932000000000000 := rfl
  have hM : MAX_SQRT_PRICE = 65535383934512647000000000000 := rfl
  have a1 : (15258932000000000000 : ℚ) / 10 ^ 24 ≤ priceVal p := by
    unfold priceVal
    refine div_le_div_of_nonneg_right ?_ (by positivity)
    rw [hm] at h1
    exact_mod_cast h1
  have a2 : priceVal p ≤ (65535383934512647000000000000 : ℚ) / 10 ^ 24 := by
    unfold priceVal
    refine div_le_div_of_nonneg_right ?_ (by positivity)
    rw [hM] at h2
    exact_mod_cast h2
  generalize priceVal p = v at *
  have a1' : (1525893 : ℚ) / 10 ^ 11 ≤ v := le_trans (by norm_num) a1
  have a2' : v ≤ 65536 := le_trans a2 (by norm_num)
  have hv : 0 < v := lt_of_lt_of_le (by norm_num) a1'
  constructor
  · nlinarith
  · rw [div_le_iff₀ (by positivity)]
    have : (15258932 / 10 ^ 12 : ℚ) * (15258932 / 10 ^ 12) ≤ v * v :=
      mul_le_mul (le_trans (by norm_num) a1) (le_trans (by norm_num) a1) (by norm_num) hv.le
    nlinarith

theorem principal_mono {s : Store} (hs : Struct s) {k : PoolKey} {q : Position} (hq : q ∈ positionsOf s k) {P Q : Nat} (h : P ≤ Q) :
    0 ≤ q.principal true P - q.principal true Q ∧ 0 ≤ q.principal false Q - q.principal false P ∧
    q.principal true P - q.principal true Q ≤ 2 ^ 32 * (q.principal false Q - q.principal false P) ∧
    q.principal false Q - q.principal false P ≤ 2 ^ 32 * (q.principal true P - q.principal true Q) := by
  obtain ⟨-, h1, h2, h3⟩ := hs.posOf hq
  have r1 := sqrtPriceAt_range h1.range.1 h1.range.2
  have r2 := sqrtPriceAt_range h2.range.1 h2.range.2
  have r3 := h1.price_le h2 (by omega)
  have hm : 0 < MIN_SQRT_PRICE := by norm_num
  unfold Position.principal
  simp only [if_true, Bool.false_eq_true, if_false]
  generalize sqrtPriceAt q.lower = lo at *
  generalize sqrtPriceAt q.upper = hi at *
  have c1 : lo ≤ max lo (min P hi) := le_max_left _ _
  have c2 : max lo (min P hi) ≤ max lo (min Q hi) := by omega
  have c3 : max lo (min Q hi) ≤ hi := by omega
  generalize max lo (min P hi) = a at *
  generalize max lo (min Q hi) = b at *
  rw [exactX_add (b := b) (by omega) c2 c3, exactY_add (b := a) c1 c2, exactX_le (by omega) c2, exactY_le c2]
  have hL : 0 ≤ liqVal q.liquidity := by unfold liqVal; positivity
  have := trade_rate hL (priceVal_pos (p := a) (by omega)) (priceVal_le c2)
    (priceVal_range (p := b) (by omega) (by omega)).1 (priceVal_range (p := a) (by omega) (by omega)).2
  simp only [add_sub_cancel_right, add_sub_cancel_left]
  exact this

/-- The positions of a pool at two prices. -/
theorem sumQ_principal_mono {s : Store} (hs : Struct s) (k : PoolKey) {P Q : Nat} (h : P ≤ Q) :
    let X := fun p => sumQ s k (fun q => q.principal true p)
    let Y := fun p => sumQ s k (fun q => q.principal false p)
    X Q ≤ X P ∧ Y P ≤ Y Q ∧ X P - X Q ≤ 2 ^ 32 * (Y Q - Y P) ∧ Y Q - Y P ≤ 2 ^ 32 * (X P - X Q) := by
  have key := fun q hq => principal_mono (k := k) hs (q := q) hq h
  unfold sumQ
  generalize positionsOf s k = l at *
  induction l with
  | nil => simp
  | cons p l ih =>
    have i := ih (fun q hq => key q (by simp [hq]))
    have j := key p (by simp)
    simp only [List.map_cons, List.sum_cons] at i ⊢
    obtain ⟨i1, i2, i3, i4⟩ := i
    obtain ⟨j1, j2, j3, j4⟩ := j
    refine ⟨by linarith, by linarith, by linarith, by linarith⟩

/-- What a position consists of changes at no better rate than the higher of the two prices. -/
theorem principal_rate {s : Store} (hs : Struct s) {k : PoolKey} {q : Position} (hq : q ∈ positionsOf s k) {P Q : Nat} (h : P ≤ Q) :
    q.principal false Q - q.principal false P ≤ priceVal Q ^ 2 * (q.principal true P - q.principal true Q) := by
  obtain ⟨-, h1, h2, h3⟩ := hs.posOf hq
  have r1 := sqrtPriceAt_range h1.range.1 h1.range.2
  have r2 := sqrtPriceAt_range h2.range.1 h2.range.2
  have r3 := h1.price_le h2 (by omega)
  have hm : 0 < MIN_SQRT_PRICE := by norm_num
  unfold Position.principal
  simp only [if_true, Bool.false_eq_true, if_false]
  generalize sqrtPriceAt q.lower = lo at *
  generalize sqrtPriceAt q.upper = hi at *
  have c1 : lo ≤ max lo (min P hi) := le_max_left _ _
  have c2 : max lo (min P hi) ≤ max lo (min Q hi) := by omega
  have c3 : max lo (min Q hi) ≤ hi := by omega
  have c4 : max lo (min Q hi) ≤ Q ∨ max lo (min P hi) = max lo (min Q hi) := by omega
  generalize max lo (min P hi) = a at *
  generalize max lo (min Q hi) = b at *
  rw [exactX_add (b := b) (by omega) c2 c3, exactY_add (b := a) c1 c2, exactX_le (by omega) c2, exactY_le c2]
  have hL : 0 ≤ liqVal q.liquidity := by unfold liqVal; positivity
  have pa := priceVal_pos (p := a) (by omega)
  simp only [add_sub_cancel_right, add_sub_cancel_left]
  rcases c4 with c4 | rfl
  · have e1 := priceVal_le c2
    have e2 := priceVal_le c4
    generalize priceVal a = x at *
    generalize priceVal b = y at *
    generalize priceVal Q = z at *
    have hy : 0 < y := by linarith
    have e : y - x = x * y * (1 / x - 1 / y) := by field_simp
    have e3 : 0 ≤ 1 / x - 1 / y := sub_nonneg.2 (one_div_le_one_div_of_le pa e1)
    rw [e]
    have e4 : x * y ≤ z ^ 2 := by nlinarith
    calc liqVal q.liquidity * (x * y * (1 / x - 1 / y)) = x * y * (liqVal q.liquidity * (1 / x - 1 / y)) := by ring
      _ ≤ z ^ 2 * (liqVal q.liquidity * (1 / x - 1 / y)) := mul_le_mul_of_nonneg_right e4 (mul_nonneg hL e3)
  · simp

theorem sumQ_principal_rate {s : Store} (hs : Struct s) (k : PoolKey) {P Q : Nat} (h : P ≤ Q) :
    sumQ s k (fun q => q.principal false Q) - sumQ s k (fun q => q.principal false P) ≤
      priceVal Q ^ 2 * (sumQ s k (fun q => q.principal true P) - sumQ s k (fun q => q.principal true Q)) := by
  have key := fun q hq => principal_rate (k := k) hs (q := q) hq h
  unfold sumQ
  generalize positionsOf s k = l at *
  induction l with
  | nil => simp
  | cons p l ih =>
    have i := ih (fun q hq => key q (by simp [hq]))
    have j := key p (by simp)
    simp only [List.map_cons, List.sum_cons] at i ⊢
    linarith

/-! ## One swap -/

/-- The contract's gain from a swap in each token is at least the growth of the principal. -/
theorem swap_gain {c : Chain} {w w' : World} {env : Env} {info : Info} {k : PoolKey} {d : Bool} {amount : Nat} {b : Bool} {limit : Nat}
    (hr : Reach c w.store) (hdr : drift w.store k = 0) (hne : info.sender ≠ c.self) (h : w.tx c env info (.swap k d amount b limit) = .ok w')
    (hreg : RegularEnd w'.store k d b limit) :
    ∃ p p', w.store.pools.get? k.key = some p ∧ w'.store.pools.get? k.key = some p' ∧ w'.store.positions = w.store.positions ∧
      sumQ w.store k (fun q => q.principal true p'.sqrtPrice) - sumQ w.store k (fun q => q.principal true p.sqrtPrice) ≤
        w'.ledger.bal (tokenAsset c k.tokenX) c.self - w.ledger.bal (tokenAsset c k.tokenX) c.self +
          swapSteps w.store env.millis k d amount b limit / 10 ^ 14 ∧
      sumQ w.store k (fun q => q.principal false p'.sqrtPrice) - sumQ w.store k (fun q => q.principal false p.sqrtPrice) ≤
        w'.ledger.bal (tokenAsset c k.tokenY) c.self - w.ledger.bal (tokenAsset c k.tokenY) c.self := by
  obtain ⟨out, h1, h2⟩ := tx_inv h
  have hk : k.wf := by
    have := (execute_ok.1 h1).1
    simp only [Msg.wf] at this
    exact this.1
  obtain ⟨r, hx⟩ := swap_inv (execute_ok.1 h1).2
  have hm := hr.mreach
  obtain ⟨s1, m1, e1, e2, e3, e4, e5⟩ := swapInternal_inv hx
  obtain ⟨pool, st0, _, hp, _⟩ := calculateSwap_inv e1
  obtain ⟨t, ef⟩ := swapInternal_frame hx
  simp only at e1 e2 e3 e4 e5 ef
  have e4' : assetTransferFrom c (tokenIn k d) r.amountIn info = .ok m1 := e4
  have e5' : out = m1 ++ assetTransfer c (tokenOut k d) r.amountOut info := e5
  clear e4 e5
  have epos : w'.store.positions = w.store.positions := by rw [ef]
  have hp' : w'.store.pools.get? k.key = some r.pool := by rw [ef]; exact KV.get?_insert_same _ _ _
  have hrg := hreg r.pool hp'
  have hu : ∀ j, UsedTick w'.store k j ↔ UsedTick w.store k j := fun j => by unfold UsedTick positionsOf; rw [epos]
  rw [hu, hu] at hrg
  obtain ⟨G, left, st, hB, b1, b2, b3, b4, b5⟩ := swap_books hm.struct hm.bitInv hm.tickSum hk hp (hm.price k pool hk hp)
    (active_of hdr hp) e1 hrg
  have hin := hB.pin
  have hout := hB.pout
  rw [b1, b3] at hin
  rw [b1, b4] at hout
  have hf : (0 : ℚ) ≤ (st.fee + left : Nat) := by positivity
  refine ⟨pool, r.pool, hp, hp', epos, ?_⟩
  have hne' := swap_tokens_ne hm.struct hk hp d
  have delta : ∀ t : Bytes, (if tokenIn k d = t then (r.amountIn : ℚ) else 0) - (if tokenOut k d = t then (r.amountOut : ℚ) else 0) ≤
      w'.ledger.bal (tokenAsset c t) c.self - w.ledger.bal (tokenAsset c t) c.self := by
    intro t
    have a1 := charge_self hne e4' t
    have a2 := pay_self (tokenOut k d) r.amountOut hne t
    have a3 := h2 (tokenAsset c t) c.self
    rw [funds_self hne, e5', outDelta_append, a2] at a3
    have a4 : (if tokenIn k d = t ∧ c.isAddr (tokenIn k d) = false then (attached info.funds (tokenIn k d) : Int) else 0) ≤
        if c.isAddr t = false then (attached info.funds t : Int) else 0 := by
      by_cases e : tokenIn k d = t
      · rw [e]; simp
      · rw [if_neg (fun hh => e hh.1)]; split_ifs <;> omega
    have a5 : (if tokenIn k d = t then (r.amountIn : Int) else 0) - (if tokenOut k d = t then (r.amountOut : Int) else 0) ≤
        w'.ledger.bal (tokenAsset c t) c.self - w.ledger.bal (tokenAsset c t) c.self := by omega
    have := (Int.cast_le (R := ℚ)).2 a5
    push_cast at this
    exact this
  have hε : (0 : ℚ) ≤ swapSteps w.store env.millis k d amount b limit / 10 ^ 14 := by positivity
  have dX := delta k.tokenX
  have dY := delta k.tokenY
  cases d
  · simp only [tokenIn, tokenOut, Bool.false_eq_true, if_false, if_true, Bool.not_false, mul_zero, add_zero] at *
    rw [if_neg hne'] at dX
    rw [if_neg (Ne.symm hne')] at dY
    constructor <;> linarith
  · simp only [tokenIn, tokenOut, if_true, Bool.not_true] at *
    rw [if_neg (Ne.symm hne')] at dX
    rw [if_neg hne'] at dY
    rw [mul_one_div] at hin
    constructor <;> linarith

/-- A sequence of swaps. -/
theorem Trades.gain {c : Chain} {k : PoolKey} {w w' : World} {n : Nat} (h : Trades c k w w' n) (hr : Reach c w.store)
    (hdr : drift w.store k = 0) : Reach c w'.store ∧ drift w'.store k = 0 ∧ w'.store.positions = w.store.positions ∧ (n = 0 ∧ w' = w ∨
    ∃ p p', w.store.pools.get? k.key = some p ∧ w'.store.pools.get? k.key = some p' ∧
      sumQ w.store k (fun q => q.principal true p'.sqrtPrice) - sumQ w.store k (fun q => q.principal true p.sqrtPrice) ≤
        w'.ledger.bal (tokenAsset c k.tokenX) c.self - w.ledger.bal (tokenAsset c k.tokenX) c.self + n / 10 ^ 14 ∧
      sumQ w.store k (fun q => q.principal false p'.sqrtPrice) - sumQ w.store k (fun q => q.principal false p.sqrtPrice) ≤
        w'.ledger.bal (tokenAsset c k.tokenY) c.self - w.ledger.bal (tokenAsset c k.tokenY) c.self) := by
  induction h with
  | none => exact ⟨hr, hdr, rfl, .inl ⟨rfl, rfl⟩⟩
  | @more w1 w2 n env info d amount b limit ht hne htx hreg ih =>
    obtain ⟨i1, i0, i2, i3⟩ := ih
    obtain ⟨p, p', g1, g2, g3, g4, g5⟩ := swap_gain i1 i0 hne htx hreg
    obtain ⟨out, x1, -⟩ := tx_inv htx
    refine ⟨.step i1 x1, drift_step i1 (execute_ok.1 x1).1.1 i0 x1 (fun _ => hreg), g3.trans i2, .inr ?_⟩
    rw [sumQ_congr i2, sumQ_congr i2] at g4 g5
    rcases i3 with ⟨rfl, rfl⟩ | ⟨p0, p1, j1, j2, j3, j4⟩
    · refine ⟨p, p', g1, g2, ?_, g5⟩
      rw [Nat.zero_add]; exact g4
    · rw [j2, Option.some.injEq] at g1
      subst g1
      refine ⟨p0, p', j1, g2, ?_, by linarith⟩
      push_cast
      rw [add_div]
      linarith

end OraiV3
