import Verif.Solvency
import Verif.Lemmas.FeeInside
import Verif.Lemmas.ExactLemmas

/-!
# The principal of the positions while the price moves
-/

namespace OraiV3

/-! ## Exact amounts -/

theorem priceVal_pos {p : Nat} (h : 0 < p) : 0 < priceVal p := by
  unfold priceVal
  have : (0 : ℚ) < p := by exact_mod_cast h
  positivity

theorem priceVal_le {a b : Nat} (h : a ≤ b) : priceVal a ≤ priceVal b := by
  unfold priceVal
  have : (a : ℚ) ≤ b := by exact_mod_cast h
  exact div_le_div_of_nonneg_right this (by positivity)

theorem exactY_le {L a b : Nat} (h : a ≤ b) : exactY L a b = liqVal L * (priceVal b - priceVal a) := by
  unfold exactY
  rw [abs_of_nonneg (by have := priceVal_le h; linarith)]

theorem exactX_le {L a b : Nat} (ha : 0 < a) (h : a ≤ b) : exactX L a b = liqVal L * (1 / priceVal a - 1 / priceVal b) := by
  unfold exactX
  have h1 := priceVal_le h
  have h2 := priceVal_pos ha
  rw [abs_of_nonneg]
  have := one_div_le_one_div_of_le h2 h1
  linarith

theorem exactY_symm (L a b : Nat) : exactY L a b = exactY L b a := by unfold exactY; rw [abs_sub_comm]
theorem exactX_symm (L a b : Nat) : exactX L a b = exactX L b a := by unfold exactX; rw [abs_sub_comm]

theorem exactY_self (L a : Nat) : exactY L a a = 0 := by unfold exactY; simp
theorem exactX_self (L a : Nat) : exactX L a a = 0 := by unfold exactX; simp

theorem exactY_add {L a b c : Nat} (h1 : a ≤ b) (h2 : b ≤ c) : exactY L a c = exactY L a b + exactY L b c := by
  rw [exactY_le h1, exactY_le h2, exactY_le (h1.trans h2)]; ring

theorem exactX_add {L a b c : Nat} (h0 : 0 < a) (h1 : a ≤ b) (h2 : b ≤ c) :
    exactX L a c = exactX L a b + exactX L b c := by
  rw [exactX_le h0 h1, exactX_le (by omega) h2, exactX_le h0 (h1.trans h2)]; ring

theorem liqVal_add (L M : Nat) : liqVal (L + M) = liqVal L + liqVal M := by
  unfold liqVal; push_cast; ring

theorem exactX_liq (L M a b : Nat) : exactX (L + M) a b = exactX L a b + exactX M a b := by
  unfold exactX; rw [liqVal_add]; ring

theorem exactY_liq (L M a b : Nat) : exactY (L + M) a b = exactY L a b + exactY M a b := by
  unfold exactY; rw [liqVal_add]; ring

theorem exactX_zero (a b : Nat) : exactX 0 a b = 0 := by unfold exactX liqVal; simp
theorem exactY_zero (a b : Nat) : exactY 0 a b = 0 := by unfold exactY liqVal; simp

/-- Exact amount of either token. -/
def exactOf (x : Bool) (L a b : Nat) : ℚ := if x then exactX L a b else exactY L a b

theorem exactOf_zero (x : Bool) (a b : Nat) : exactOf x 0 a b = 0 := by
  unfold exactOf; split
  · exact exactX_zero a b
  · exact exactY_zero a b

theorem exactOf_liq (x : Bool) (L M a b : Nat) : exactOf x (L + M) a b = exactOf x L a b + exactOf x M a b := by
  unfold exactOf; split
  · exact exactX_liq L M a b
  · exact exactY_liq L M a b

theorem exactOf_symm (x : Bool) (L a b : Nat) : exactOf x L a b = exactOf x L b a := by
  unfold exactOf; split
  · exact exactX_symm L a b
  · exact exactY_symm L a b

/-! ## Sums -/

theorem sumQ_sub {s : Store} {k : PoolKey} {f g h : Position → ℚ} (he : ∀ q ∈ positionsOf s k, f q = g q + h q) :
    sumQ s k f = sumQ s k g + sumQ s k h := by
  unfold sumQ
  generalize positionsOf s k = l at *
  induction l with
  | nil => simp
  | cons p l ih =>
    simp only [List.map_cons, List.sum_cons]
    rw [ih (fun q hq => he q (by simp [hq])), he p (by simp)]; ring

theorem sumQ_exact {s : Store} {k : PoolKey} (x : Bool) (a b : Nat) (g : Position → Nat) :
    sumQ s k (fun q => exactOf x (g q) a b) = exactOf x (sumPositions s k g) a b := by
  unfold sumQ sumPositions
  induction positionsOf s k with
  | nil => simp only [List.map_nil, List.sum_nil]; rw [exactOf_zero]
  | cons p l ih => simp only [List.map_cons, List.sum_cons]; rw [ih, exactOf_liq]

/-! ## A move of the price -/

/-- The price falls within the range of a position, or outside of it. -/
theorem principal_down {q : Position} {P P' : Nat} (hlo : 0 < sqrtPriceAt q.lower) (hlh : sqrtPriceAt q.lower ≤ sqrtPriceAt q.upper)
    (hP : P' ≤ P) (b : Prop) [Decidable b]
    (hin : b → sqrtPriceAt q.lower ≤ P' ∧ P ≤ sqrtPriceAt q.upper)
    (hout : ¬ b → P ≤ sqrtPriceAt q.lower ∨ sqrtPriceAt q.upper ≤ P') :
    q.principal true P' = q.principal true P + exactX (if b then q.liquidity else 0) P' P ∧
    q.principal false P = q.principal false P' + exactY (if b then q.liquidity else 0) P' P := by
  unfold Position.principal
  simp only [if_true, Bool.false_eq_true, if_false]
  generalize sqrtPriceAt q.lower = lo at *
  generalize sqrtPriceAt q.upper = hi at *
  by_cases hb : b
  · obtain ⟨h1, h2⟩ := hin hb
    rw [if_pos hb]
    have e1 : max lo (min P' hi) = P' := by omega
    have e2 : max lo (min P hi) = P := by omega
    rw [e1, e2]
    exact ⟨by rw [exactX_add (b := P) (by omega) hP h2]; ring, exactY_add h1 hP⟩
  · rw [if_neg hb, exactX_zero, exactY_zero, add_zero, add_zero]
    have e : max lo (min P' hi) = max lo (min P hi) := by
      rcases hout hb with h | h <;> omega
    rw [e]
    exact ⟨rfl, rfl⟩

/-- The principal of all positions when the price falls between used ticks. -/
theorem principal_sum {s : Store} (hs : Struct s) {k : PoolKey} {t : Int} {P P' : Nat} (hP : P' ≤ P)
    (h : ∀ j, TickOk k.tier.spacing j → UsedTick s k j →
      if j ≤ t then sqrtPriceAt j ≤ P' else P ≤ sqrtPriceAt j) :
    sumQ s k (fun q => q.principal true P') =
      sumQ s k (fun q => q.principal true P) + exactX (liquidityInRange s k t) P' P ∧
    sumQ s k (fun q => q.principal false P) =
      sumQ s k (fun q => q.principal false P') + exactY (liquidityInRange s k t) P' P := by
  have key : ∀ q ∈ positionsOf s k,
      q.principal true P' = q.principal true P + exactX (if q.lower ≤ t ∧ t < q.upper then q.liquidity else 0) P' P ∧
      q.principal false P = q.principal false P' + exactY (if q.lower ≤ t ∧ t < q.upper then q.liquidity else 0) P' P := by
    intro q hq
    obtain ⟨-, h1, h2, h3⟩ := hs.posOf hq
    have a1 := h _ h1 ⟨q, hq, .inl rfl⟩
    have a2 := h _ h2 ⟨q, hq, .inr rfl⟩
    have hm := h1.price_min
    have : 0 < MIN_SQRT_PRICE := by norm_num
    refine principal_down (by omega) (h1.price_le h2 (by omega)) hP _ (fun hb => ?_) (fun hb => ?_)
    · rw [if_pos hb.1] at a1
      rw [if_neg (by omega)] at a2
      exact ⟨a1, a2⟩
    · by_cases hl : q.lower ≤ t
      · rw [if_pos (by omega)] at a2
        exact .inr a2
      · rw [if_neg hl] at a1
        exact .inl a1
  constructor
  · rw [sumQ_sub (fun q hq => (key q hq).1)]
    congr 1
    exact sumQ_exact true P' P _
  · rw [sumQ_sub (fun q hq => (key q hq).2)]
    congr 1
    exact sumQ_exact false P' P _

/-! ## One iteration of a swap -/

/-- The price stays between the same used ticks during an iteration. -/
theorem iter_span {s : Store} {pr : SwapParams} {st st' : SwapState} {i : Int} {ini : Bool} {r : SwapResult}
    {cfg : Config} {p1 : Pool} {rem : Nat} {u : TickUpdRes} (hs : Struct s) (ht : TickSum s) (hk : pr.key.wf)
    (hv : IterView s pr st st' i ini r cfg p1 rem u)
    (h : LoopOk pr.xToY pr.key.tier.spacing pr.limit st.pool st.remaining) (hr : st.remaining ≠ 0)
    (h' : LoopOk pr.xToY pr.key.tier.spacing pr.limit st'.pool st'.remaining) :
    (∀ j, TickOk pr.key.tier.spacing j → UsedTick s pr.key j →
      if j ≤ st.pool.tick then sqrtPriceAt j ≤ st.pool.sqrtPrice ∧ sqrtPriceAt j ≤ st'.pool.sqrtPrice
      else st.pool.sqrtPrice ≤ sqrtPriceAt j ∧ st'.pool.sqrtPrice ≤ sqrtPriceAt j) ∨
      (st'.remaining = 0 ∧ ¬ RegularPool s pr.key pr.xToY pr.byAmountIn pr.limit st'.pool) := by
  -- position of a used tick relative to a price
  have at_ : ∀ {p : Pool} {rm : Nat}, LoopOk pr.xToY pr.key.tier.spacing pr.limit p rm →
      ∀ j, TickOk pr.key.tier.spacing j → if j ≤ p.tick then sqrtPriceAt j ≤ p.sqrtPrice else p.sqrtPrice ≤ sqrtPriceAt j := by
    intro p rm hp j hj
    split
    · rename_i hle
      exact Nat.le_trans (hj.price_le hp.tick hle) hp.lo
    · rename_i hle
      have hlt : p.tick < j := by omega
      have hm := (TickOk_iff.1 hj).2.2.2
      have h1 := hp.hi (by omega)
      exact Nat.le_trans h1 ((hp.tick.add (by omega)).price_le hj (dvd_lt_step hj.pos hp.tick.dvd hj.dvd hlt))
  cases hcr : u.crossed
  · rcases iter_region hs ht hk hv h hr h' hcr with hreg | hbad
    · left
      intro j hj hu
      have a := at_ h j hj
      have b := at_ h' j hj
      have e := hreg.iff hj hu
      by_cases c : j ≤ st.pool.tick
      · rw [if_pos c] at a ⊢
        rw [if_pos (e.1 c)] at b
        exact ⟨a, b⟩
      · rw [if_neg c] at a ⊢
        rw [if_neg (fun hh => c (e.2 hh))] at b
        exact ⟨a, b⟩
    · exact .inr ⟨hbad.1, hbad.2.choose_spec.1.irregular⟩
  · left
    obtain ⟨gap, -⟩ := iter_used hs ht hk hv
    have hnp := iter_price_eq hv
    have hdir := hv.dir
    have hpi : r.nextPrice = sqrtPriceAt i := by
      rcases hv.fin with ⟨t, c1, c2, upd, rfl⟩ | ⟨e, c1, c2, c3, c4, rfl⟩ | ⟨e, t, tp, c1, c2, c3, c4, c5, c6, c7, c8, rfl⟩ |
        ⟨t, c1, c2, c3, c4, c5, c6, c7, c8⟩
      · simp at hcr
      · exact c1
      · exact c1
      · exact c1
    rw [hnp, hpi]
    intro j hj hu
    have a := at_ h j hj
    have g := gap j hj
    by_cases c : j ≤ st.pool.tick
    · rw [if_pos c] at a ⊢
      refine ⟨a, hj.price_le hv.ok ?_⟩
      cases hd : pr.xToY <;> simp only [hd, Bool.false_eq_true, if_false, if_true] at g hdir
      · omega
      · by_contra hc
        exact g ⟨by omega, c⟩ hu
    · rw [if_neg c] at a ⊢
      refine ⟨a, hv.ok.price_le hj ?_⟩
      cases hd : pr.xToY <;> simp only [hd, Bool.false_eq_true, if_false, if_true] at g hdir
      · by_contra hc
        exact g ⟨by omega, by omega⟩ hu
      · omega

/-- The exact amounts a step stands for. -/
theorem step_exact {cur target L amount fee : Nat} {b d : Bool} {r : SwapResult}
    (h : computeSwapStep cur target L amount b fee = .ok r) (hd : if d then target ≤ cur else cur < target)
    (hc : MIN_SQRT_PRICE ≤ cur) (hn : MIN_SQRT_PRICE ≤ r.nextPrice) :
    exactOf d L r.nextPrice cur ≤ r.amountIn + 1 / 10 ^ 14 ∧ (r.amountOut : ℚ) ≤ exactOf (!d) L r.nextPrice cur ∧
    (d = false → exactOf d L r.nextPrice cur ≤ r.amountIn) := by
  by_cases hL : L = 0
  · rw [hL] at h ⊢
    rw [step_zero h, exactOf_zero, exactOf_zero]
    simp
  · obtain ⟨-, h1, ⟨out0, h2, h3⟩, -⟩ := step_view h hL
    have e : decide (cur ≥ target) = d := by
      cases d <;> simp only [Bool.false_eq_true, if_false, if_true] at hd <;> simp <;> omega
    rw [e] at h1 h2
    have ho : (r.amountOut : ℚ) ≤ out0 := by
      rw [h3]
      split
      · exact le_refl _
      · exact_mod_cast Nat.min_le_left _ _
    have hε : (0 : ℚ) ≤ 1 / 10 ^ 14 := by positivity
    cases d
    · rw [deltaIn_false] at h1
      rw [deltaOut_false] at h2
      have a := (deltaY_up_exact h1).1
      have b := (deltaX_down_exact h2).2.2.1
      rw [exactX_symm] at b
      rw [exactY_symm] at a
      exact ⟨by show exactY L r.nextPrice cur ≤ _; linarith, ho.trans b, fun _ => a⟩
    · rw [deltaIn_true] at h1
      rw [deltaOut_true] at h2
      have a := (deltaX_up_exact h1).2.2.1
      have b := (deltaY_down_exact h2).1
      have c := dustX_small hn hc
      exact ⟨by show exactX L r.nextPrice cur ≤ _; linarith, ho.trans b, fun hh => by simp at hh⟩

/-- One iteration: what the positions consist of changes by no more than the amounts charged and paid. -/
theorem iter_principal {s : Store} {pr : SwapParams} {st st' : SwapState} {i : Int} {ini : Bool} {r : SwapResult}
    {cfg : Config} {p1 : Pool} {rem : Nat} {u : TickUpdRes} (hs : Struct s) (ht : TickSum s) (hk : pr.key.wf)
    (hv : IterView s pr st st' i ini r cfg p1 rem u)
    (h : LoopOk pr.xToY pr.key.tier.spacing pr.limit st.pool st.remaining) (hr : st.remaining ≠ 0)
    (h' : LoopOk pr.xToY pr.key.tier.spacing pr.limit st'.pool st'.remaining)
    (ha : st.pool.liquidity = liquidityInRange s pr.key st.pool.tick) :
    (sumQ s pr.key (fun q => q.principal pr.xToY st'.pool.sqrtPrice) ≤
        sumQ s pr.key (fun q => q.principal pr.xToY st.pool.sqrtPrice) + r.amountIn + (if pr.xToY then 1 / 10 ^ 14 else 0) ∧
      sumQ s pr.key (fun q => q.principal (!pr.xToY) st'.pool.sqrtPrice) + r.amountOut ≤
        sumQ s pr.key (fun q => q.principal (!pr.xToY) st.pool.sqrtPrice)) ∨
      (st'.remaining = 0 ∧ ¬ RegularPool s pr.key pr.xToY pr.byAmountIn pr.limit st'.pool) := by
  rcases iter_span hs ht hk hv h hr h' with hsp | hbad
  · left
    have hnp := iter_price_eq hv
    have hpr := iter_price hv h hr
    obtain ⟨e1, e2, e3⟩ := step_exact hv.step (target_ahead h hr hv.ok hv.dir) h.min (by rw [← hnp]; exact h'.min)
    rw [← hnp, ha] at e1 e2 e3
    rw [← hnp] at hpr
    cases hd : pr.xToY
    · rw [hd] at e1 e2 e3
      simp only [hd, Bool.false_eq_true, if_false] at hpr
      obtain ⟨a1, a2⟩ := principal_sum hs (t := st.pool.tick) hpr.1 (fun j hj hu => by
        have := hsp j hj hu
        split <;> rename_i hc
        · rw [if_pos hc] at this; exact this.1
        · rw [if_neg hc] at this; exact this.2)
      have e3 := e3 rfl
      simp only [exactOf, Bool.not_false, Bool.false_eq_true, if_false, if_true] at e1 e2 e3
      rw [exactX_symm] at e2
      rw [exactY_symm] at e3
      simp only [Bool.not_false, Bool.false_eq_true, if_false]
      constructor
      · rw [a2]; linarith
      · rw [a1]; linarith
    · rw [hd] at e1 e2
      simp only [hd, if_true] at hpr
      obtain ⟨a1, a2⟩ := principal_sum hs (t := st.pool.tick) hpr.1 (fun j hj hu => by
        have := hsp j hj hu
        split <;> rename_i hc
        · rw [if_pos hc] at this; exact this.2
        · rw [if_neg hc] at this; exact this.1)
      simp only [exactOf, Bool.not_true, Bool.false_eq_true, if_false, if_true] at e1 e2
      simp only [Bool.not_true, if_true]
      constructor
      · rw [a1]; linarith
      · rw [a2]; linarith
  · exact .inr hbad

end OraiV3
