import Verif.PartsSpec
import Verif.Lemmas.Strategy
import Verif.Props.Curve
import Verif.Props.FeeRate
import Verif.Props.Rate

/-!
# Trades in one direction follow the curve
-/

namespace OraiV3

theorem OneTrade.step {c : Chain} {k : PoolKey} {d : Bool} {w w' : World} {paid got n : Nat} (h : OneTrade c k d w w' paid got n)
    (hr : Reach c w.store) (hdr : drift w.store k = 0) :
    Reach c w'.store ∧ drift w'.store k = 0 ∧ w'.store.positions = w.store.positions ∧
    ∃ p p' L, w.store.pools.get? k.key = some p ∧ w'.store.pools.get? k.key = some p' ∧
      (L = p'.liquidity ∨ d = false ∧ (L : Int) = p'.liquidity - netAt w.store k p'.tick) ∧
      curveIn w.store k d p.sqrtPrice p'.sqrtPrice * (1 + feeRate k) ≤ paid + 2 / 10 ^ 14 * n ∧
      (paid : ℚ) * (1 - feeRate k) * (1 - 1 / 10 ^ 14) ≤
        curveIn w.store k d p.sqrtPrice p'.sqrtPrice + 3 * n + lastDigit d L p'.sqrtPrice ∧
      (got : ℚ) ≤ curveOut w.store k d p.sqrtPrice p'.sqrtPrice ∧
      curveOut w.store k d p.sqrtPrice p'.sqrtPrice ≤ (got + n) * (1 + 1 / 10 ^ 13) + lastDigit (!d) L p'.sqrtPrice := by
  obtain ⟨env, info, amount, b, limit, h1, h2, h3, h4, h5, rfl, h7, h8⟩ := h
  obtain ⟨p, p', paid0, got0, L, n, c1, c2, c3, c4, rfl, c6, c7, c8, c9, c10⟩ := C82_curve_partial hr hdr h1 h2 h3 h4 h5
  have e1 : paid0 = paid := by omega
  have e2 : got0 = got := by omega
  subst e1 e2
  obtain ⟨out, x1, -⟩ := tx_inv h4
  obtain ⟨r, hin⟩ := swap_inv (execute_ok.1 x1).2
  obtain ⟨t, e⟩ := swapInternal_frame hin
  simp only at e
  exact ⟨.step hr x1, drift_step hr (execute_ok.1 x1).1.1 hdr x1 (fun _ => h5), by rw [e],
    p, p', L, c1, c2, c6, c7, c8, c9, c10⟩

theorem held_congr {s s' : Store} (h : s'.positions = s.positions) (k : PoolKey) (x : Bool) (p : Nat) :
    held s' k x p = held s k x p := sumQ_congr h k _

theorem Parts.curve {c : Chain} {k : PoolKey} {d : Bool} {w w' : World} {paid got n : Nat} (h : Parts c k d w w' paid got n)
    (hr : Reach c w.store) (hdr : drift w.store k = 0) {p : Pool} (hp : w.store.pools.get? k.key = some p) :
    Reach c w'.store ∧ drift w'.store k = 0 ∧ w'.store.positions = w.store.positions ∧
    ∃ p', w'.store.pools.get? k.key = some p' ∧
      curveIn w.store k d p.sqrtPrice p'.sqrtPrice * (1 + feeRate k) ≤ paid + 2 / 10 ^ 14 * n ∧
      (got : ℚ) ≤ curveOut w.store k d p.sqrtPrice p'.sqrtPrice := by
  induction h with
  | none => exact ⟨hr, hdr, rfl, p, hp, by simp [curveIn], by simp [curveOut]⟩
  | more _ ht ih =>
    obtain ⟨i1, i2, i3, p1, i4, i5, i6⟩ := ih
    obtain ⟨j1, j2, j3, p1', p2, L, j4, j5, -, j7, -, j9, -⟩ := ht.step i1 i2
    rw [i4, Option.some.injEq] at j4
    subst j4
    refine ⟨j1, j2, j3.trans i3, p2, j5, ?_, ?_⟩
    · unfold curveIn at *
      rw [held_congr i3, held_congr i3] at j7
      push_cast
      linarith
    · unfold curveOut at *
      rw [held_congr i3, held_congr i3] at j9
      push_cast
      linarith

/-- Further along the curve the other token gets dearer. -/
theorem curve_tangent {s : Store} (hs : Struct s) (k : PoolKey) (d : Bool) {P : Nat} (hP : 0 < P) (Q : Nat) :
    curveOut s k d P Q ≤ sellPrice d P * curveIn s k d P Q := by
  have key : priceVal P ^ 2 * held s k true P + held s k false P ≤ priceVal P ^ 2 * held s k true Q + held s k false Q := by
    unfold held sumQ
    have h : ∀ q ∈ positionsOf s k, _ := fun q hq => principal_tangent hs hq P Q
    generalize positionsOf s k = l at *
    induction l with
    | nil => simp
    | cons p l ih =>
      have i := ih (fun q hq => h q (by simp [hq]))
      have j := h p (by simp)
      simp only [List.map_cons, List.sum_cons, mul_add] at i ⊢
      linarith
  have e : ((P : ℚ) / 10 ^ 24) ^ 2 = priceVal P ^ 2 := rfl
  have pos : 0 < priceVal P ^ 2 := by have := priceVal_pos hP; positivity
  unfold curveOut curveIn sellPrice
  rw [e]
  cases d
  · simp only [Bool.not_false, Bool.false_eq_true, if_false]
    rw [one_div, inv_mul_eq_div, le_div_iff₀ pos]
    linarith
  · simp only [Bool.not_true, if_true]
    linarith

theorem Sells.oneTrade {c : Chain} {env : Env} {who : Bytes} {k : PoolKey} {amount : Nat} {b : Bool} {limit : Nat} {w : World}
    {paid got fee : Nat} {w' : World} (hne : who ≠ c.self) (h : Sells c env who k amount b limit w paid got fee w') :
    OneTrade c k true w w' paid got (swapSteps w.store env.millis k true amount b limit) :=
  ⟨env, ⟨who, []⟩, amount, b, limit, hne, by simp, by simp, h.tx, h.regular, rfl, h.paid.symm, h.got⟩

end OraiV3
