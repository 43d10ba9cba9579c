import Verif.Lemmas.Rate
import Verif.Shares

/-!
# A swap as a sequence of price moves
-/

namespace OraiV3

theorem Leads.snoc : ∀ {ms : List PriceMove} {a b : Nat}, Leads a ms b → ∀ m : PriceMove, m.price = b → Leads a (ms ++ [m]) m.next
  | [], _, _, h, m, e => by
    simp only [Leads] at h
    exact ⟨e.trans h.symm, rfl⟩
  | _ :: ms, _, _, h, m, e => ⟨h.1, Leads.snoc h.2 m e⟩

theorem earned_snoc (ms : List PriceMove) (m : PriceMove) (l u : Int) :
    earned (ms ++ [m]) l u = earned ms l u + if l ≤ m.tick ∧ m.tick < u then m.growth else 0 := by
  unfold earned
  rw [List.map_append, List.sum_append, List.map_singleton, List.sum_singleton]

theorem sum_snoc (f : PriceMove → Nat) (ms : List PriceMove) (m : PriceMove) :
    ((ms ++ [m]).map f).sum = (ms.map f).sum + f m := by
  rw [List.map_append, List.sum_append, List.map_singleton, List.sum_singleton]

/-- The moves made so far by a swap that started with `pool`. -/
structure Moves (s : Store) (k : PoolKey) (d : Bool) (pool : Pool) (dr : Int) (x : SwapState) (ms : List PriceMove) : Prop where
  active : (x.pool.liquidity : Int) = liquidityInRange s k x.pool.tick + dr
  cross : CrossInv s k d x
  each : ∀ m ∈ ms, MoveOk s k d dr m
  leads : Leads pool.sqrtPrice ms x.pool.sqrtPrice
  total : x.totalIn = (ms.map (fun m => m.input + m.fee)).sum
  out : x.totalOut = (ms.map PriceMove.output).sum
  proto : x.pool.proto d = pool.proto d + (ms.map PriceMove.protocol).sum
  protoOther : x.pool.proto (!d) = pool.proto (!d)
  earn : ∀ q ∈ positionsOf s k,
    growthInside (withTicks s.ticks k x.ticks) k x.pool (!d) q.lower q.upper = growthInside s.ticks k pool (!d) q.lower q.upper ∧
    growthInside (withTicks s.ticks k x.ticks) k x.pool d q.lower q.upper =
      wadd (growthInside s.ticks k pool d q.lower q.upper) (earned ms q.lower q.upper)

theorem exactAmount_eq (x : Bool) (L a b : Nat) : exactAmount x L a b = exactOf x L a b := rfl

theorem step_upper {cur target L amount fee : Nat} {b d : Bool} {r : SwapResult}
    (h : computeSwapStep cur target L amount b fee = .ok r) (hd : if d then target ≤ cur else cur < target)
    (hc : MIN_SQRT_PRICE ≤ cur) (hn : MIN_SQRT_PRICE ≤ r.nextPrice) :
    (r.amountIn : ℚ) * (1 - 1 / 10 ^ 14) ≤ exactOf d L r.nextPrice cur + 1 := by
  by_cases hL : L = 0
  · rw [hL] at h ⊢
    rw [step_zero h, exactOf_zero]
    simp
  · obtain ⟨-, h1, -, -⟩ := step_view h hL
    have e : decide (cur ≥ target) = d := by
      cases d <;> simp only [Bool.false_eq_true, if_false, if_true] at hd <;> simp <;> omega
    rw [e] at h1
    have hi : (0 : ℚ) ≤ r.amountIn := Nat.cast_nonneg _
    have hε : (0 : ℚ) ≤ 1 / 10 ^ 14 := by positivity
    cases d
    · rw [deltaIn_false] at h1
      have a := (deltaY_up_exact h1).2
      have : exactOf false L r.nextPrice cur = exactY L cur r.nextPrice := by rw [exactOf_symm]; rfl
      rw [this]
      nlinarith
    · rw [deltaIn_true] at h1
      have a := (deltaX_up_exact h1).2.2.2
      have hdu := dustX_small hn hc
      have : exactOf true L r.nextPrice cur = exactX L r.nextPrice cur := rfl
      rw [this]
      nlinarith

/-- What a step charges in all, against the exact amount. -/
theorem step_gross {cur target L amount fee : Nat} {b d : Bool} {r : SwapResult}
    (h : computeSwapStep cur target L amount b fee = .ok r) (hd : if d then target ≤ cur else cur < target) (hf : fee ≤ PCT)
    (hn : if d then r.nextPrice ≤ cur else cur ≤ r.nextPrice) (hc : MIN_SQRT_PRICE ≤ cur) (hm : MIN_SQRT_PRICE ≤ r.nextPrice) :
    exactOf d L r.nextPrice cur * (1 + (fee : ℚ) / 10 ^ 12) ≤ r.amountIn + r.feeAmount + 2 / 10 ^ 14 := by
  have hP : (PCT : ℚ) = 10 ^ 12 := by norm_num
  have hf1 : (fee : ℚ) / 10 ^ 12 ≤ 1 := by
    rw [div_le_one (by positivity), ← hP]
    exact_mod_cast hf
  have hf0 : (0 : ℚ) ≤ (fee : ℚ) / 10 ^ 12 := by positivity
  obtain ⟨s1, -, -⟩ := step_exact h hd hc hm
  by_cases hL : L = 0
  · rw [hL, exactOf_zero, zero_mul]
    positivity
  obtain ⟨h1, h2, -, h5⟩ := step_view h hL
  have e : decide (cur ≥ target) = d := by
    cases d <;> simp only [Bool.false_eq_true, if_false, if_true] at hd <;> simp <;> omega
  rw [e] at h1 h2
  by_cases hB : b = true ∧ r.nextPrice ≠ target
  · rw [if_pos hB] at h5
    rw [if_pos hB.1] at h1
    obtain ⟨_, pre, _, ⟨_, hh⟩ | ⟨_, hh⟩⟩ := h1
    · exact absurd hh hB.2
    have g4 : ((amount * (PCT - fee) / PCT : Nat) : ℚ) * (1 + (fee : ℚ) / 10 ^ 12) ≤ amount := by
      have := afterFee_gross (A := amount) hf
      have h' : ((amount * (PCT - fee) / PCT * (PCT + fee) : Nat) : ℚ) ≤ ((amount * PCT : Nat) : ℚ) := by exact_mod_cast this
      rw [Nat.cast_mul, Nat.cast_mul, Nat.cast_add, hP] at h'
      have e1 : (1 + (fee : ℚ) / 10 ^ 12) = (10 ^ 12 + fee) / 10 ^ 12 := by field_simp
      rw [e1, mul_div_assoc', div_le_iff₀ (by positivity)]
      exact h'
    have hsum : (r.amountIn : ℚ) + r.feeAmount = amount := by
      rw [h5.2, Nat.cast_sub h5.1]; ring
    rw [hsum]
    have hx : exactOf d L r.nextPrice cur ≤ (amount * (PCT - fee) / PCT : Nat) := by
      unfold nextSqrtPriceFromInput at hh
      generalize amount * (PCT - fee) / PCT = A' at *
      cases d
      · simp only [Bool.false_eq_true, if_false] at hh hn
        obtain ⟨_, _, g3, _⟩ := yDown_add hh
        show exactY L r.nextPrice cur ≤ A'
        rw [exactY_symm, exactY_eq, absDiff_le hn, div_le_iff₀ (by positivity)]
        exact_mod_cast g3
      · simp only [if_true] at hh hn
        show exactX L r.nextPrice cur ≤ A'
        have m0 : 0 < MIN_SQRT_PRICE := by norm_num
        rw [exactX_eq (by omega) (by omega), absDiff_le hn, div_le_iff₀ (by
          have a1 : (0 : ℚ) < r.nextPrice := by exact_mod_cast (show 0 < r.nextPrice by omega)
          have a2 : (0 : ℚ) < cur := by exact_mod_cast (show 0 < cur by omega)
          positivity)]
        by_cases hx : A' = 0
        · unfold nextSqrtPriceXUp at hh
          rw [if_pos hx, ok_inj] at hh
          rw [← hh, hx]; simp
        · obtain ⟨_, c1, _⟩ := xUp_add hh hx
          have : (cur - r.nextPrice) * L * 10 ^ 18 ≤ A' * (r.nextPrice * cur) := by
            generalize r.nextPrice = n at *
            obtain ⟨g, rfl⟩ : ∃ g, cur = n + g := ⟨cur - n, by omega⟩
            rw [Nat.add_sub_cancel_left]
            generalize (10 : Nat) ^ 18 = S at *
            have e1 : (n + g) * L * S = n * (L * S) + g * L * S := by ring
            have e2 : n * (L * S + (n + g) * A') = n * (L * S) + A' * (n * (n + g)) := by ring
            omega
          exact_mod_cast this
    have := mul_le_mul_of_nonneg_right hx (show (0 : ℚ) ≤ 1 + (fee : ℚ) / 10 ^ 12 by positivity)
    have hε : (0 : ℚ) ≤ 2 / 10 ^ 14 := by positivity
    linarith
  · rw [if_neg hB] at h5
    have g4 : (r.amountIn : ℚ) * (1 + (fee : ℚ) / 10 ^ 12) ≤ r.amountIn + r.feeAmount := by
      have := feeOf_gross (a := r.amountIn) (f := fee)
      rw [← h5] at this
      have h' : ((r.amountIn * (PCT + fee) : Nat) : ℚ) ≤ (((r.amountIn + r.feeAmount) * PCT : Nat) : ℚ) := by exact_mod_cast this
      rw [Nat.cast_mul, Nat.cast_mul, Nat.cast_add, Nat.cast_add, hP] at h'
      have e1 : (1 + (fee : ℚ) / 10 ^ 12) = (10 ^ 12 + fee) / 10 ^ 12 := by field_simp
      rw [e1, mul_div_assoc', div_le_iff₀ (by positivity)]
      exact h'
    have := mul_le_mul_of_nonneg_right s1 (show (0 : ℚ) ≤ 1 + (fee : ℚ) / 10 ^ 12 by positivity)
    have h2 : (1 / 10 ^ 14 : ℚ) * (1 + (fee : ℚ) / 10 ^ 12) ≤ 2 / 10 ^ 14 := by
      have : (1 / 10 ^ 14 : ℚ) * (1 + (fee : ℚ) / 10 ^ 12) ≤ 1 / 10 ^ 14 * 2 := by
        apply mul_le_mul_of_nonneg_left _ (by positivity)
        linarith
      linarith
    nlinarith

/-- The protocol's part of what an iteration charges. -/
theorem iter_share {s : Store} {pr : SwapParams} {st st' : SwapState} {i : Int} {ini : Bool} {r : SwapResult}
    {cfg : Config} {p1 : Pool} {rem : Nat} {u : TickUpdRes} (hv : IterView s pr st st' i ini r cfg p1 rem u) :
    ∃ g, u.total = g ∧ shareUp cfg.protocolFee r.feeAmount ≤ r.feeAmount ∧ shareUp cfg.protocolFee g ≤ g ∧
      st'.pool.proto pr.xToY = st.pool.proto pr.xToY + (shareUp cfg.protocolFee r.feeAmount + shareUp cfg.protocolFee g) ∧
      st'.pool.proto (!pr.xToY) = st.pool.proto (!pr.xToY) := by
  have hsum : ∀ a, protoSum cfg.protocolFee [a] = shareUp cfg.protocolFee a := fun a => by
    unfold protoSum; rw [List.map_singleton, List.sum_singleton]; rfl
  have hz : shareUp cfg.protocolFee 0 = 0 := protoPart_zero _
  obtain ⟨p0, hp0, hp1⟩ := hv.fee
  have a := addFee_charged hp0 (fun h0 => by
    have := hv.step
    rw [h0] at this
    rw [computeSwapStep_zero this])
  have a1 : shareUp cfg.protocolFee r.feeAmount ≤ r.feeAmount := a.1 _ (List.mem_singleton.2 rfl)
  have a2 : p1.proto pr.xToY = st.pool.proto pr.xToY + shareUp cfg.protocolFee r.feeAmount ∧
      p1.proto (!pr.xToY) = st.pool.proto (!pr.xToY) := by
    have := a.2
    rw [hsum] at this
    rw [hp1]
    unfold Pool.proto
    cases hd : pr.xToY <;> rw [hd] at this <;> simpa using this
  have e1 : st'.pool = u.pool := by rw [hv.eq]
  rw [e1]
  have plain : ∀ q : Pool, q.protoX = p1.protoX → q.protoY = p1.protoY →
      q.proto pr.xToY = st.pool.proto pr.xToY + (shareUp cfg.protocolFee r.feeAmount + shareUp cfg.protocolFee 0) ∧
      q.proto (!pr.xToY) = st.pool.proto (!pr.xToY) := by
    intro q h1 h2
    rw [hz, Nat.add_zero, ← a2.1, ← a2.2]
    unfold Pool.proto
    rw [h1, h2]
    exact ⟨rfl, rfl⟩
  have z : shareUp cfg.protocolFee 0 ≤ 0 := by rw [hz]
  rcases hv.fin with ⟨t, c1, c2, upd, rfl⟩ | ⟨e, c1, c2, c3, c4, rfl⟩ | ⟨e, t, tp, c1, c2, c3, c4, c5, c6, c7, c8, rfl⟩ |
    ⟨t, c1, c2, c3, c4, c5, c6, c7, c8⟩
  · exact ⟨0, rfl, a1, z, plain _ rfl rfl⟩
  · exact ⟨0, rfl, a1, z, plain _ rfl rfl⟩
  · obtain ⟨liq, _, _, _, h2⟩ := Tick.cross_inv c8
    exact ⟨0, rfl, a1, z, plain _ (by rw [h2]) (by rw [h2])⟩
  · rcases c8 with ⟨d1, d2, p, d3, rfl⟩ | ⟨d1, rfl⟩
    · have b := addFee_charged d3 (fun e => by
        unfold isEnoughAmountToChangePrice at c5
        rw [if_pos e, ok_inj] at c5
        simp at c5)
      refine ⟨rem, rfl, a1, b.1 _ (List.mem_singleton.2 rfl), ?_⟩
      have b2 := b.2
      rw [hsum] at b2
      rw [c4] at a2 ⊢
      simp only [if_true] at b2
      unfold Pool.proto at a2 ⊢
      simp only [if_true, Bool.not_true, Bool.false_eq_true, if_false] at a2 ⊢
      rw [b2.1, b2.2, a2.1, a2.2]
      exact ⟨by omega, rfl⟩
    · exact ⟨0, rfl, a1, z, plain _ rfl rfl⟩

/-- The move made by an iteration, apart from what positions earn. -/
def moveOf (x y : SwapState) (r : SwapResult) (u : TickUpdRes) (d : Bool) (δ : Nat) : PriceMove :=
  ⟨x.pool.tick, x.pool.liquidity, x.pool.sqrtPrice, y.pool.sqrtPrice, r.amountIn, r.feeAmount + u.total,
    r.amountOut, y.pool.proto d - x.pool.proto d, δ⟩

theorem iter_charge {s : Store} {now : Nat} {k : PoolKey} {d b : Bool} {limit : Nat}
    (hfee : k.tier.fee ≤ PCT) {x y : SwapState} {i : Int} {ini : Bool} {r : SwapResult}
    {cfg : Config} {p1 : Pool} {rem : Nat} {u : TickUpdRes} (hv : IterView s ⟨k, d, b, limit, now⟩ x y i ini r cfg p1 rem u)
    (hx : LoopOk d k.tier.spacing limit x.pool x.remaining) (hr : x.remaining ≠ 0)
    (hy : LoopOk d k.tier.spacing limit y.pool y.remaining) (δ : Nat) : ChargeOk s k d (moveOf x y r u d δ) := by
  have hnp := iter_price_eq hv
  have hpr := iter_price hv hx hr
  have hah := target_ahead hx hr hv.ok hv.dir
  obtain ⟨s1, s2, s3⟩ := step_exact hv.step hah hx.min (by rw [← hnp]; exact hy.min)
  have s4 := step_upper hv.step hah hx.min (by rw [← hnp]; exact hy.min)
  have s5 := step_gross hv.step hah hfee (by
    cases d <;> simp only [Bool.false_eq_true, if_false, if_true, ← hnp] at hpr ⊢ <;> exact hpr.1) hx.min (by rw [← hnp]; exact hy.min)
  simp only [← hnp] at s1 s2 s3 s4 s5 hpr
  unfold moveOf
  refine ⟨?_, ?_, ?_, ?_, ?_, ?_⟩
  · cases d <;> simp only [Bool.false_eq_true, if_false, if_true] at hpr ⊢ <;> exact hpr.1
  · rw [exactAmount_eq, exactOf_symm]; exact s1
  · rw [exactAmount_eq, exactOf_symm]; exact s4
  · rw [exactAmount_eq, exactOf_symm]
    refine s5.trans ?_
    push_cast
    have : (0 : ℚ) ≤ u.total := Nat.cast_nonneg _
    linarith
  · rw [exactAmount_eq, exactOf_symm]; exact s2
  · obtain ⟨g, hg, h1, h2, h3, -⟩ := iter_share hv
    simp only at h3
    refine ⟨cfg, r.feeAmount, g, hv.conf, by rw [hg], ?_, h1, h2⟩
    simp only
    rw [h3]; omega

/-- The moves made so far by a swap that started with `pool`, and what was charged for them. -/
structure Charges (s : Store) (k : PoolKey) (d : Bool) (pool : Pool) (x : SwapState) (ms : List PriceMove) : Prop where
  each : ∀ m ∈ ms, ChargeOk s k d m
  leads : Leads pool.sqrtPrice ms x.pool.sqrtPrice
  total : x.totalIn = (ms.map (fun m => m.input + m.fee)).sum
  out : x.totalOut = (ms.map PriceMove.output).sum
  proto : x.pool.proto d = pool.proto d + (ms.map PriceMove.protocol).sum
  protoOther : x.pool.proto (!d) = pool.proto (!d)

theorem iter_charges {s : Store} {now : Nat} {k : PoolKey} {d b : Bool} {limit : Nat} {pool : Pool}
    (hfee : k.tier.fee ≤ PCT) {x y : SwapState} {i : Int} {ini : Bool} {r : SwapResult}
    {cfg : Config} {p1 : Pool} {rem : Nat} {u : TickUpdRes} (hv : IterView s ⟨k, d, b, limit, now⟩ x y i ini r cfg p1 rem u)
    (hx : LoopOk d k.tier.spacing limit x.pool x.remaining) (hr : x.remaining ≠ 0)
    (hy : LoopOk d k.tier.spacing limit y.pool y.remaining) {ms : List PriceMove} (h : Charges s k d pool x ms) :
    Charges s k d pool y (ms ++ [moveOf x y r u d 0]) := by
  have e2 : y.totalIn = x.totalIn + (r.amountIn + r.feeAmount) + u.total := by rw [hv.eq]
  have e3 : y.totalOut = x.totalOut + r.amountOut := by rw [hv.eq]
  obtain ⟨g, hg, -, -, h3, h4⟩ := iter_share hv
  simp only at h3 h4
  refine ⟨?_, h.leads.snoc _ rfl, ?_, ?_, ?_, h4.trans h.protoOther⟩
  · intro m hm
    rw [List.mem_append, List.mem_singleton] at hm
    rcases hm with hm | rfl
    · exact h.each m hm
    · exact iter_charge hfee hv hx hr hy 0
  · rw [sum_snoc, ← h.total, e2]; simp only [moveOf]; omega
  · rw [sum_snoc, ← h.out, e3]; rfl
  · rw [sum_snoc, ← Nat.add_assoc, ← h.proto]; simp only [moveOf]; omega

/-- What any swap charges. -/
theorem swap_charges {s : Store} {now : Nat} {k : PoolKey} {d : Bool} {amount : Nat} {b : Bool} {limit : Nat}
    {res : CalcSwapResult} {pool : Pool} (hs : Struct s) (hb : BitInv s) (hk : k.wf)
    (hp : s.pools.get? k.key = some pool) (hok : PoolOk k.tier.spacing pool)
    (h : calculateSwap s now k d amount b limit = .ok res) :
    ∃ ms st, Charges s k d pool st ms ∧ st.pool = res.pool ∧ st.totalIn = res.amountIn ∧ st.totalOut = res.amountOut := by
  obtain ⟨st, ⟨ms, h1⟩, -, -, -, -, -, rfl⟩ := swap_induct hs hb hk hp hok h (fun x => ∃ ms, Charges s k d pool x ms)
    (fun x y i ini r cfg p1 rem u hv hx hr hy hP => by
      obtain ⟨ms, hP⟩ := hP
      exact ⟨_, iter_charges (hs.tier hk hp).2.2.le hv hx hr hy hP⟩)
    (fun _ _ => ⟨[], by simp, rfl, rfl, rfl, rfl, rfl⟩)
  exact ⟨ms, st, h1, rfl, rfl, rfl⟩

theorem iter_moves {s : Store} {now : Nat} {k : PoolKey} {d b : Bool} {limit : Nat} {pool : Pool} {dr : Int}
    (hs : Struct s) (ht : TickSum s) (hk : k.wf) (hfee : k.tier.fee ≤ PCT) {x y : SwapState} {i : Int} {ini : Bool} {r : SwapResult}
    {cfg : Config} {p1 : Pool} {rem : Nat} {u : TickUpdRes} (hv : IterView s ⟨k, d, b, limit, now⟩ x y i ini r cfg p1 rem u)
    (hx : LoopOk d k.tier.spacing limit x.pool x.remaining) (hr : x.remaining ≠ 0)
    (hy : LoopOk d k.tier.spacing limit y.pool y.remaining) {ms : List PriceMove} (h : Moves s k d pool dr x ms) :
    (∃ δ, Moves s k d pool dr y (ms ++ [moveOf x y r u d δ])) ∨ (y.remaining = 0 ∧ ¬ RegularPool s k d b limit y.pool) := by
  rcases iter_drift hs ht hk hv hx hr hy h.active with ha | ⟨h1, delta, h2, -⟩
  swap
  · exact .inr ⟨h1, h2.irregular⟩
  rcases iter_fees hs ht hk hv hx hr hy h.cross with ⟨δ, hf⟩ | hbad
  swap
  · exact .inr hbad
  left
  have e2 : y.totalIn = x.totalIn + (r.amountIn + r.feeAmount) + u.total := by rw [hv.eq]
  have e3 : y.totalOut = x.totalOut + r.amountOut := by rw [hv.eq]
  have fpo := hf.protoOther
  have fpr := hf.proto
  have fb := hf.bound
  have fl := hf.lower
  have fin := hf.inside
  simp only at fpo fpr fb fl fin
  refine ⟨δ, ⟨ha, hf.cross, ?_, h.leads.snoc _ rfl, ?_, ?_, ?_, fpo.trans h.protoOther, ?_⟩⟩
  · intro m hm
    rw [List.mem_append, List.mem_singleton] at hm
    rcases hm with hm | rfl
    · exact h.each m hm
    · refine ⟨iter_charge hfee hv hx hr hy δ, h.active, ?_, ?_⟩
      · simp only [moveOf]
        generalize (10 : Nat) ^ 34 = S at *
        have : (y.pool.proto d - x.pool.proto d) * S = y.pool.proto d * S - x.pool.proto d * S := Nat.sub_mul _ _ _
        have h3 : x.pool.proto d * S ≤ y.pool.proto d * S := Nat.mul_le_mul_right _ fpr
        rw [Nat.add_mul] at fb
        omega
      · simp only [moveOf]
        generalize (10 : Nat) ^ 34 = S at *
        have : (y.pool.proto d - x.pool.proto d) * S = y.pool.proto d * S - x.pool.proto d * S := Nat.sub_mul _ _ _
        have h3 : x.pool.proto d * S ≤ y.pool.proto d * S := Nat.mul_le_mul_right _ fpr
        rw [Nat.add_mul] at fl
        omega
  · rw [sum_snoc, ← h.total, e2]; simp only [moveOf]; omega
  · rw [sum_snoc, ← h.out, e3]; rfl
  · rw [sum_snoc, ← Nat.add_assoc, ← h.proto]; simp only [moveOf]; omega
  · intro q hq
    obtain ⟨hqk, h1, h2, h3⟩ := hs.posOf hq
    have ul : UsedTick s k q.lower := ⟨q, hq, .inl rfl⟩
    have uu : UsedTick s k q.upper := ⟨q, hq, .inr rfl⟩
    obtain ⟨i1, i2⟩ := h.earn q hq
    refine ⟨?_, ?_⟩
    · rw [fin _ _ _ h1 h2 ul uu h3, if_neg (by cases d <;> simp), wadd_zero (growthInside_lt _ _ _ _ _ _)]
      exact i1
    · rw [fin _ _ _ h1 h2 ul uu h3, i2, wadd_wadd, earned_snoc]
      simp only [true_and]
      rfl

/-- The moves of a regular swap. -/
theorem swap_moves {s : Store} {now : Nat} {k : PoolKey} {d : Bool} {amount : Nat} {b : Bool} {limit : Nat}
    {res : CalcSwapResult} {pool : Pool} (hs : Struct s) (hb : BitInv s) (ht : TickSum s) (hk : k.wf)
    (hp : s.pools.get? k.key = some pool) (hok : PoolOk k.tier.spacing pool)
    (h : calculateSwap s now k d amount b limit = .ok res) (hreg : RegularPool s k d b limit res.pool) :
    ∃ ms st, Moves s k d pool (drift s k) st ms ∧ st.pool = res.pool ∧
      st.ticks = res.ticks ∧ st.totalIn = res.amountIn ∧ st.totalOut = res.amountOut := by
  obtain ⟨st, h1, -, -, -, -, -, rfl⟩ := swap_induct hs hb hk hp hok h
    (fun x => (∃ ms, Moves s k d pool (drift s k) x ms) ∨ (x.remaining = 0 ∧ ¬ RegularPool s k d b limit x.pool))
    (fun x y i ini r cfg p1 rem u hv hx hr hy hP => by
      rcases hP with ⟨ms, hP⟩ | hP
      · exact (iter_moves hs ht hk (hs.tier hk hp).2.2.le hv hx hr hy hP).imp_left fun ⟨_, h⟩ => ⟨_, h⟩
      · exact absurd hP.1 hr)
    (fun _ _ => .inl ⟨[], ⟨drift_of hp, ⟨hs.fg _ _ hp, by simp, fun x i => hs.outAt_lt k x i⟩, by simp, rfl, rfl, rfl, rfl, rfl,
      fun q hq => ⟨rfl, (wadd_zero (growthInside_lt _ _ _ _ _ _)).symm⟩⟩⟩)
  rcases h1 with ⟨ms, h1⟩ | h1
  · exact ⟨ms, st, h1, rfl, rfl, rfl, rfl⟩
  · exact absurd hreg h1.2

/-! ## Ranges -/

theorem earned_mono (ms : List PriceMove) {l u l' u' : Int} (h1 : l' ≤ l) (h2 : u ≤ u') : earned ms l u ≤ earned ms l' u' := by
  unfold earned
  induction ms with
  | nil => exact Nat.le_refl _
  | cons m ms ih =>
    simp only [List.map_cons, List.sum_cons]
    have : (if l ≤ m.tick ∧ m.tick < u then m.growth else 0) ≤ (if l' ≤ m.tick ∧ m.tick < u' then m.growth else 0) := by
      split
      · rw [if_pos (by omega)]
      · exact Nat.zero_le _
    omega

theorem earned_split (ms : List PriceMove) {l m u : Int} (h1 : l ≤ m) (h2 : m ≤ u) :
    earned ms l u = earned ms l m + earned ms m u := by
  unfold earned
  induction ms with
  | nil => rfl
  | cons v ms ih =>
    simp only [List.map_cons, List.sum_cons]
    have : (if l ≤ v.tick ∧ v.tick < u then v.growth else 0) =
        (if l ≤ v.tick ∧ v.tick < m then v.growth else 0) + (if m ≤ v.tick ∧ v.tick < u then v.growth else 0) := by
      split_ifs <;> omega
    omega

/-- All that positions earn is what the moves give to the liquidity in range. -/
theorem earned_total (s : Store) (k : PoolKey) (ms : List PriceMove) :
    sumPositions s k (fun q => earned ms q.lower q.upper * q.liquidity) =
      (ms.map (fun m => m.growth * liquidityInRange s k m.tick)).sum := by
  unfold earned
  induction ms with
  | nil =>
    simp only [List.map_nil, List.sum_nil, Nat.zero_mul]
    unfold sumPositions
    induction positionsOf s k with
    | nil => rfl
    | cons p l ih => simp only [List.map_cons, List.sum_cons, ih, Nat.add_zero]
  | cons m ms ih =>
    simp only [List.map_cons, List.sum_cons]
    rw [← ih, liquidityInRange, ← sumPositions_mul, sumPositions_add]
    refine sumPositions_ext fun q _ => ?_
    split_ifs <;> ring

theorem moves_fees {s : Store} {k : PoolKey} {d : Bool} {ms : List PriceMove} (h : ∀ m ∈ ms, MoveOk s k d 0 m) :
    sumPositions s k (fun q => earned ms q.lower q.upper * q.liquidity) + (ms.map PriceMove.protocol).sum * 10 ^ 34 ≤
      (ms.map PriceMove.fee).sum * 10 ^ 34 ∧
    (ms.map PriceMove.fee).sum * 10 ^ 34 ≤
      sumPositions s k (fun q => earned ms q.lower q.upper * q.liquidity) + (ms.map PriceMove.protocol).sum * 10 ^ 34 +
        2 * (ms.map PriceMove.liquidity).sum := by
  rw [earned_total]
  have h' : ∀ m ∈ ms, m.liquidity = liquidityInRange s k m.tick ∧ m.growth * m.liquidity + m.protocol * 10 ^ 34 ≤ m.fee * 10 ^ 34 ∧
    m.fee * 10 ^ 34 ≤ (m.growth + 2) * m.liquidity + m.protocol * 10 ^ 34 := fun m hm =>
    ⟨by have := (h m hm).active; omega, (h m hm).upper, (h m hm).lower⟩
  clear h
  generalize (10 : Nat) ^ 34 = S at *
  induction ms with
  | nil => simp
  | cons m ms ih =>
    obtain ⟨i1, i2⟩ := ih fun v hv => h' v (List.mem_cons_of_mem _ hv)
    obtain ⟨h1, h2, h3⟩ := h' m List.mem_cons_self
    simp only [List.map_cons, List.sum_cons]
    rw [← h1]
    constructor <;> nlinarith

theorem gross_sum {f : ℚ} {e : PriceMove → ℚ} : ∀ {ms : List PriceMove},
    (∀ m ∈ ms, e m * (1 + f) ≤ m.input + m.fee + 2 / 10 ^ 14) →
    (ms.map e).sum * (1 + f) ≤ ((ms.map (fun m => m.input + m.fee)).sum : Nat) + 2 / 10 ^ 14 * ms.length
  | [], _ => by simp
  | m :: ms, h => by
    have h1 := h m (by simp)
    have h2 := gross_sum (ms := ms) (fun x hx => h x (by simp [hx]))
    simp only [List.map_cons, List.sum_cons, List.length_cons]
    push_cast at h2 ⊢
    linarith

theorem output_sum {e : PriceMove → ℚ} : ∀ {ms : List PriceMove}, (∀ m ∈ ms, (m.output : ℚ) ≤ e m) →
    ((ms.map PriceMove.output).sum : ℚ) ≤ (ms.map e).sum
  | [], _ => by simp
  | m :: ms, h => by
    have h1 := h m (by simp)
    have h2 := output_sum (ms := ms) (fun x hx => h x (by simp [hx]))
    simp only [List.map_cons, List.sum_cons]
    push_cast at h2 ⊢
    linarith

end OraiV3
