import Verif.Lemmas.ExactOut
import Verif.Lemmas.Price
import Verif.Props.Cap

/-!
# C34: exact-output swaps and the liquidity available
-/

namespace OraiV3

theorem saveTicks_prefix {k : PoolKey} : ∀ {l l' : List Tick} {s t : Store}, l' <+: l → saveTicks s k l = .ok t →
    ∃ t', saveTicks s k l' = .ok t'
  | _, [], s, _, _, _ => ⟨s, rfl⟩
  | [], b :: l', _, _, hl, _ => by simp at hl
  | a :: l, b :: l', s, t, hl, h => by
    rw [List.cons_prefix_cons] at hl
    obtain ⟨rfl, hl⟩ := hl
    simp only [saveTicks, bind_ok] at h ⊢
    obtain ⟨s1, h1, h2⟩ := h
    obtain ⟨t', h3⟩ := saveTicks_prefix hl h2
    exact ⟨t', s1, h1, h3⟩

theorem assetTransferFrom_less {c : Chain} {d : Bytes} {x y : Nat} {info : Info} {m : List OutMsg}
    (h : assetTransferFrom c d x info = .ok m) (hy : y ≤ x) : ∃ m', assetTransferFrom c d y info = .ok m' := by
  unfold assetTransferFrom at h ⊢
  by_cases h0 : y = 0
  · rw [if_pos h0]; exact ⟨_, rfl⟩
  · rw [if_neg h0]
    rw [if_neg (by omega)] at h
    by_cases h1 : c.isAddr d = true
    · rw [if_pos h1]; exact ⟨_, rfl⟩
    · rw [if_neg h1] at h ⊢
      cases hf : info.funds.find? (fun z => z.denom = d) with
      | none => rw [hf] at h; cases h
      | some coin =>
        rw [hf] at h
        simp only at h ⊢
        by_cases h2 : coin.amount ≥ x
        · rw [if_pos (by omega)]
          split
          · exact ⟨_, rfl⟩
          · exact ⟨_, rfl⟩
        · rw [if_neg h2] at h; cases h

/-- **C34, a part that holds.** Selling X for an exact amount of Y, a swap is not refused for wanting less: if the swap for
an amount works, so does the swap for every smaller amount, with the same price limit; it costs no more. -/
theorem C34_partial {c : Chain} {s t : Store} {env : Env} {info : Info} {k : PoolKey} {amount less : Nat} {limit : Nat} {out : List OutMsg}
    (hr : Reach c s) (h : execute c env info (.swap k true amount false limit) s = .ok (t, out)) (h0 : less ≠ 0) (hle : less ≤ amount) :
    (∃ t' out', execute c env info (.swap k true less false limit) s = .ok (t', out')) ∧
    ∃ q q', queryQuote s env k true amount false limit = .ok q ∧ queryQuote s env k true less false limit = .ok q' ∧
      q'.amountOut = less ∧ q'.amountIn ≤ q.amountIn := by
  have hm := hr.mreach
  have hs := hm.struct
  rw [execute_ok] at h
  obtain ⟨hwf, h⟩ := h
  simp only [dispatch] at h
  have hk : k.wf := hwf.1
  obtain ⟨r, h1⟩ := swap_inv h
  obtain ⟨s2, m1, h2, h3, _, h5, _⟩ := swapInternal_inv h1
  simp only at h2 h3 h5
  obtain ⟨pl, st, g1, g2, g3, g4, g5, g6, hres⟩ := calculateSwap_inv h2
  simp only [if_true] at g4
  have hok : PoolOk k.tier.spacing pl := hm.price k pl hk g2
  have hv : k.tier.Valid := hs.tier hk g2
  have hl : LoopOk true k.tier.spacing limit pl amount := hok.loop (by simpa using g4.1)
  obtain ⟨w, w1, w2, w3⟩ := loop_less (pr := ⟨k, true, false, limit, env.millis⟩) (A' := less) hs hm.bitInv hk hv rfl rfl g5 hl
    (Nat.le_refl _) hle
  have hc : calculateSwap s env.millis k true less false limit =
      .ok ⟨w.totalIn, w.totalOut, pl.sqrtPrice, w.pool.sqrtPrice, w.fee, w.pool, w.ticks⟩ := by
    have hg : getPool s k = .ok pl := by unfold getPool; simp only [g2]
    have hlim : ¬ ((true = true ∧ (pl.sqrtPrice ≤ limit ∨ limit > MAX_SQRT_PRICE)) ∨
        (¬ true = true ∧ (pl.sqrtPrice ≥ limit ∨ limit < MIN_SQRT_PRICE))) := by
      rintro (h | h)
      · omega
      · exact h.1 rfl
    have hout : w.totalOut ≠ 0 := by
      have := loop_induct (pr := ⟨k, true, false, limit, env.millis⟩) hs hm.bitInv hk hv (fun x => x.remaining + x.totalOut = less)
        (fun x y i ini r cfg p1 rem u hv hx hr hy hP => by
          have := iter_out hv rfl
          omega) (hok.loop (by simpa using g4.1)) (by simp) w1
      omega
    unfold calculateSwap
    rw [if_neg h0, hg, ok_bind, if_neg hlim, if_neg g3, w1, ok_bind, if_neg hout]
    rfl
  have hamt := swap_amount_out hs hm.bitInv hk g2 hok hc
  constructor
  · obtain ⟨s3, e1⟩ := saveTicks_prefix (l' := w.ticks) (by rw [hres]; exact w3) h3
    obtain ⟨m', e2⟩ := assetTransferFrom_less (y := w.totalIn) h5 (by rw [hres]; exact w2)
    refine ⟨savePool s3 k w.pool, m' ++ assetTransfer c k.tokenY w.totalOut info, execute_ok.2 ⟨?_, ?_⟩⟩
    · exact ⟨hwf.1, Nat.lt_of_le_of_lt hle hwf.2.1, hwf.2.2⟩
    · simp only [dispatch]
      unfold swap swapInternal
      simp only [if_true] at e2
      simp only [hc, ok_bind, e1, if_true, e2]
      rfl
  · unfold queryQuote
    rw [h2, hc]
    exact ⟨_, _, rfl, rfl, hamt, by rw [hres]; exact w2⟩

/-- Non-vacuity: a swap that crosses a tick. -/
example : let s := Demo.state Demo.chain (Demo.setup ++ [(Demo.by_ Demo.alice, .createPosition Demo.key (-20) (-10) (10 ^ 17) 0 (10 ^ 30))])
    (execute Demo.chain Demo.env (Demo.by_ Demo.bob) (.swap Demo.key true 900000 false MIN_SQRT_PRICE) s).isOk = true ∧
    (queryQuote s Demo.env Demo.key true 900000 false MIN_SQRT_PRICE).toOption.map (fun q => q.ticks.length) = some 1 := by
  decide +kernel

/-- **C34 is false.** A pool with 10^6 units of liquidity around the price and 10^11 units just below.  A swap for exactly
2000000 Y is refused (a subtraction fails when the thin range is left), although the same trader gets more than that by
offering 3000000 X, and gets the 2000000 Y in two swaps of 900000 and 1100000. -/
theorem C34_false : ∃ (c : Chain) (s : Store) (env : Env) (trader : Info) (k : PoolKey),
    Reach c s ∧
    errorOf (execute c env trader (.swap k true 2000000 false MIN_SQRT_PRICE) s) = some .sub ∧
    (execute c env trader (.swap k true 3000000 true MIN_SQRT_PRICE) s).isOk = true ∧
    (queryQuote s env k true 3000000 true MIN_SQRT_PRICE).toOption.map (fun q => q.amountOut) = some 2966941 ∧
    (do let r ← execute c env trader (.swap k true 900000 false MIN_SQRT_PRICE) s
        execute c env trader (.swap k true 1100000 false MIN_SQRT_PRICE) r.1).isOk = true := by
  refine ⟨Demo.chain, Demo.state Demo.chain (Demo.setup ++ [(Demo.by_ Demo.alice, .createPosition Demo.key (-20) (-10) (10 ^ 17) 0 (10 ^ 30))]),
    Demo.env, Demo.by_ Demo.bob, Demo.key, Demo.state_reach (by decide +kernel), ?_⟩
  decide +kernel

end OraiV3
