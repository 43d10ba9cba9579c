import Verif.Lemmas.Inv

/-!
# Inversion lemmas for swaps
-/

namespace OraiV3

/-- Induction over the iterations of a swap. -/
theorem swapLoop_induct {s : Store} {pr : SwapParams} (P : SwapState → Prop)
    (hstep : ∀ a b, P a → a.remaining ≠ 0 → swapIter s pr a = .ok b → P b) :
    ∀ (n : Nat) (st st' : SwapState), P st → swapLoop s pr n st = .ok st' → P st' ∧ st'.remaining = 0
  | 0, st, st', h0, h => by
    unfold swapLoop at h
    rw [ite_ok_error, ok_inj] at h
    exact h.2 ▸ ⟨h0, h.1⟩
  | n + 1, st, st', h0, h => by
    unfold swapLoop at h
    split at h
    · rw [ok_inj] at h; subst h; exact ⟨h0, ‹_›⟩
    · rw [bind_ok] at h
      obtain ⟨b, hb, h⟩ := h
      exact swapLoop_induct P hstep n b st' (hstep st b h0 ‹_› hb) h

theorem swapIter_inv {s : Store} {pr : SwapParams} {st st' : SwapState} (h : swapIter s pr st = .ok st') :
    ∃ cl r cfg pool1 upd u rem,
      getCloserLimit (getChunk s pr.key) pr.limit pr.xToY st.pool.tick pr.key.tier.spacing = .ok cl ∧
      computeSwapStep st.pool.sqrtPrice cl.1 st.pool.liquidity st.remaining pr.byAmountIn pr.key.tier.fee
        = .ok r ∧
      (if pr.byAmountIn then r.amountIn + r.feeAmount ≤ st.remaining ∧
          rem = st.remaining - (r.amountIn + r.feeAmount)
        else r.amountOut ≤ st.remaining ∧ rem = st.remaining - r.amountOut) ∧
      s.config = some cfg ∧
      st.pool.addFee r.feeAmount pr.xToY cfg.protocolFee = .ok pool1 ∧
      ¬ (r.nextPrice = pr.limit ∧ rem ≠ 0) ∧
      tickUpdOf s pr.key cl.2 = .ok upd ∧
      Pool.updateTick { pool1 with sqrtPrice := r.nextPrice } r.nextPrice cl.1 upd rem pr.byAmountIn
        pr.xToY pr.now cfg.protocolFee pr.key.tier = .ok u ∧
      reachedTickLimit pr.xToY pr.key.tier.spacing u.pool.tick = false ∧
      st'.totalIn < U128 ∧ st'.totalOut < U128 ∧
      st' = { pool := u.pool, remaining := u.remaining,
              totalIn := st.totalIn + (r.amountIn + r.feeAmount) + u.total,
              totalOut := st.totalOut + r.amountOut, fee := st.fee + r.feeAmount,
              ticks := pushCrossed st.ticks u.upd u.crossed } := by
  unfold swapIter at h
  rw [bind_ok] at h
  obtain ⟨cl, h1, h⟩ := h
  rw [bind_ok] at h
  obtain ⟨r, h2, h⟩ := h
  cases hb : pr.byAmountIn
  · simp only [hb, Bool.false_eq_true, if_false, bind_ok, loadConfig_ok, add128_ok, checkedSub_ok,
      ite_error_ok, pure_ok] at h
    obtain ⟨rem, ⟨h4, h4'⟩, cfg, h5, pool1, h6, fee, ⟨h7, h7'⟩, inFee, ⟨h3, h3'⟩, ti, ⟨h8, h8'⟩, to_,
      ⟨h9, h9'⟩, h10, upd, h11, u, h12, ti', ⟨h13, h13'⟩, h14, h15⟩ := h
    subst h3' h7' h8' h9' h13' h15
    refine ⟨cl, r, cfg, pool1, upd, u, rem, h1, by rw [hb] at h2; exact h2, ?_, h5, h6, h10, h11, h12,
      by simpa using h14, h13, h9, rfl⟩
    simp only [Bool.false_eq_true, if_false]
    exact ⟨h4, h4'.symm⟩
  · simp only [hb, if_true, bind_ok, loadConfig_ok, add128_ok, checkedSub_ok,
      ite_error_ok, pure_ok] at h
    obtain ⟨inFee', ⟨-, e'⟩, rem, ⟨h4, h4'⟩, cfg, h5, pool1, h6, fee, ⟨h7, h7'⟩, inFee, ⟨h3, h3'⟩, ti, ⟨h8, h8'⟩, to_,
      ⟨h9, h9'⟩, h10, upd, h11, u, h12, ti', ⟨h13, h13'⟩, h14, h15⟩ := h
    subst e' h3' h7' h8' h9' h13' h15
    refine ⟨cl, r, cfg, pool1, upd, u, rem, h1, by rw [hb] at h2; exact h2, ?_, h5, h6, h10, h11, h12,
      by simpa using h14, h13, h9, rfl⟩
    simp only [if_true]
    exact ⟨h4, h4'.symm⟩

/-- The possible outcomes of `Pool::update_tick`. -/
theorem updateTick_inv {pool : Pool} {np sl : Nat} {upd : TickUpd} {rem : Nat} {b d : Bool} {now pf : Nat}
    {tier : FeeTier} {u : TickUpdRes}
    (h : pool.updateTick np sl upd rem b d now pf tier = .ok u) :
    ((upd = .noTick ∨ sl ≠ np) ∧ ∃ t, getTickAtSqrtPrice np tier.spacing = .ok t ∧
      u = ⟨{ pool with tick := t }, upd, 0, rem, false⟩) ∨
    (sl = np ∧ ∃ enough, isEnoughAmountToChangePrice rem np pool.liquidity tier.fee b d = .ok enough ∧
      ((∃ i, upd = .uninit i ∧
        u = ⟨{ pool with tick := if d && enough then i - tier.spacing else i }, upd, 0, rem, false⟩) ∨
       (∃ t, upd = .init t ∧
        (((!d || enough) = true ∧ ∃ tp, t.cross pool now = .ok tp ∧
          u = ⟨{ tp.2 with tick := if d && enough then t.index - tier.spacing else t.index }, .init tp.1, 0,
            rem, true⟩) ∨
         (d = true ∧ enough = false ∧ rem ≠ 0 ∧ b = true ∧ ∃ p, pool.addFee rem d pf = .ok p ∧
          u = ⟨{ p with tick := t.index }, upd, rem, 0, false⟩) ∨
         (d = true ∧ enough = false ∧ (rem = 0 ∨ b = false) ∧
          u = ⟨{ pool with tick := t.index }, upd, 0, 0, false⟩))))) := by
  unfold Pool.updateTick at h
  split at h
  · rename_i hc
    left
    simp only [bind_ok, pure_ok] at h
    obtain ⟨t, h1, h2⟩ := h
    exact ⟨hc, t, h1, h2.symm⟩
  · rename_i hc
    right
    simp only [not_or, ne_eq, Decidable.not_not] at hc
    refine ⟨hc.2, ?_⟩
    rw [bind_ok] at h
    obtain ⟨enough, h1, h⟩ := h
    refine ⟨enough, h1, ?_⟩
    cases upd with
    | noTick => exact absurd rfl hc.1
    | uninit i =>
      simp only [pure_ok] at h
      exact .inl ⟨i, rfl, h.symm⟩
    | init t =>
      right
      refine ⟨t, rfl, ?_⟩
      simp only at h
      split at h
      · rename_i he
        left
        refine ⟨he, ?_⟩
        split at h
        · simp at h
        · rename_i tp htp
          rw [pure_ok] at h
          exact ⟨tp, htp, h.symm⟩
      · rename_i he
        simp only [Bool.or_eq_true, Bool.not_eq_true', not_or, Bool.not_eq_false, Bool.not_eq_true] at he
        obtain ⟨rfl, rfl⟩ := he
        simp only [Bool.and_false, Bool.false_eq_true, if_false] at h
        split at h
        · rename_i hr
          split at h
          · rename_i hb
            simp only [bind_ok, pure_ok] at h
            obtain ⟨p, h2, h3⟩ := h
            exact .inr (.inl ⟨rfl, rfl, hr, hb, p, h2, h3.symm⟩)
          · rename_i hb
            rw [pure_ok] at h
            exact .inr (.inr ⟨rfl, rfl, .inr (by simpa using hb), h.symm⟩)
        · rename_i hr
          simp only [ne_eq, Decidable.not_not] at hr
          subst hr
          rw [pure_ok] at h
          exact .inr (.inr ⟨rfl, rfl, .inl rfl, h.symm⟩)

theorem Tick.cross_inv {t : Tick} {pool : Pool} {now : Nat} {tp : Tick × Pool} (h : t.cross pool now = .ok tp) :
    ∃ liq, pool.startTs ≤ now ∧
      (if xor (decide (pool.tick ≥ t.index)) t.sign then pool.liquidity + t.change < U128 ∧
          liq = pool.liquidity + t.change
        else t.change ≤ pool.liquidity ∧ liq = pool.liquidity - t.change) ∧
      tp.1 = { t with outX := wsub pool.fgX t.outX, outY := wsub pool.fgY t.outY,
                      secondsOutside := (now - pool.startTs + (U64 - t.secondsOutside)) % U64 } ∧
      tp.2 = { pool with lastTs := now, liquidity := liq } := by
  unfold Tick.cross at h
  rw [bind_ok] at h
  obtain ⟨secs, h1, h⟩ := h
  rw [checkedSub_ok] at h1
  obtain ⟨h1, rfl⟩ := h1
  split at h <;> rename_i hc
  · simp only [bind_ok, checkedAdd_ok, pure_ok] at h
    obtain ⟨liq, h2, rfl⟩ := h
    exact ⟨liq, h1, by rw [if_pos hc]; exact ⟨h2.1, h2.2.symm⟩, rfl, rfl⟩
  · simp only [bind_ok, checkedSub_ok, pure_ok] at h
    obtain ⟨liq, h2, rfl⟩ := h
    exact ⟨liq, h1, by rw [if_neg hc]; exact ⟨h2.1, h2.2.symm⟩, rfl, rfl⟩

/-- Protocol part of a fee, rounded up. -/
def protoPart (amount pf : Nat) : Nat := (amount * pf + (PCT - 1)) / PCT

theorem Pool.addFee_inv {pool p : Pool} {amount : Nat} {d : Bool} {pf : Nat}
    (h : pool.addFee amount d pf = .ok p) :
    protoPart amount pf ≤ amount ∧
    (((amount = 0 ∨ pool.liquidity = 0) ∧ p = pool) ∨
     (amount ≠ 0 ∧ pool.liquidity ≠ 0 ∧ ∃ g,
      feeGrowthFromFee pool.liquidity (amount - protoPart amount pf) = .ok g ∧
      (if d then pool.protoX + protoPart amount pf < U128 ∧
          p = { pool with fgX := wadd pool.fgX g, protoX := pool.protoX + protoPart amount pf }
        else pool.protoY + protoPart amount pf < U128 ∧
          p = { pool with fgY := wadd pool.fgY g, protoY := pool.protoY + protoPart amount pf }))) := by
  unfold Pool.addFee bigMulUp at h
  rw [bind_ok] at h
  obtain ⟨pr, hp, h⟩ := h
  rw [cast128_ok] at hp
  obtain ⟨hp, rfl⟩ := hp
  rw [bind_ok] at h
  obtain ⟨poolFee, h1, h⟩ := h
  rw [subP_ok] at h1
  obtain ⟨h1, h1'⟩ := h1
  change protoPart amount pf ≤ amount at h1
  change amount - protoPart amount pf = poolFee at h1'
  change (if poolFee = 0 ∧ protoPart amount pf = 0 ∨ pool.liquidity = 0 then pure pool else _) = _ at h
  refine ⟨h1, ?_⟩
  split at h
  · rename_i hc
    rw [pure_ok] at h
    exact .inl ⟨by omega, h.symm⟩
  · rename_i hc
    rw [bind_ok] at h
    obtain ⟨g, h2, h⟩ := h
    subst h1'
    by_cases ha : amount = 0
    · exfalso; apply hc; left; omega
    refine .inr ⟨ha, by omega, g, h2, ?_⟩
    cases d
    · simp only [Bool.false_eq_true, if_false, bind_ok, add128_ok, pure_ok] at h ⊢
      obtain ⟨q, ⟨h3, rfl⟩, h4⟩ := h
      exact ⟨h3, h4.symm⟩
    · simp only [if_true, bind_ok, add128_ok, pure_ok] at h ⊢
      obtain ⟨q, ⟨h3, rfl⟩, h4⟩ := h
      exact ⟨h3, h4.symm⟩

end OraiV3
