import Verif.Lemmas.ProtoFee
import Verif.Props.Sim
import Verif.Props.Cap

/-!
# C35: the protocol fee and trading
-/

namespace OraiV3

theorem saveTicks_index {k : PoolKey} : ∀ {l l' : List Tick} {s s' t : Store}, l'.map Tick.index = l.map Tick.index →
    (∀ i, s'.ticks.has (tickKey k i) = s.ticks.has (tickKey k i)) → saveTicks s k l = .ok t → ∃ t', saveTicks s' k l' = .ok t'
  | [], l', s, s', t, hl, _, _ => by
    simp only [List.map_nil, List.map_eq_nil_iff] at hl
    subst hl
    exact ⟨s', rfl⟩
  | a :: l, l', s, s', t, hl, hh, h => by
    cases l' with
    | nil => simp at hl
    | cons b l' =>
      simp only [List.map_cons, List.cons.injEq] at hl
      simp only [saveTicks, bind_ok] at h ⊢
      obtain ⟨s1, h1, h2⟩ := h
      unfold updateTick at h1 ⊢
      rw [hl.1]
      cases hb : s.ticks.has (tickKey k a.index) with
      | false => rw [hb] at h1; cases h1
      | true =>
        rw [hb, if_pos rfl, ok_inj] at h1
        rw [hh, hb, if_pos rfl]
        subst h1
        have : ∀ i, (s'.ticks.insert (tickKey k a.index) b).has (tickKey k i) =
            (s.ticks.insert (tickKey k a.index) a).has (tickKey k i) := by
          intro i
          have hi := hh i
          unfold KV.has at hi ⊢
          rw [KV.get?_insert, KV.get?_insert]
          split
          · rfl
          · exact hi
        obtain ⟨t', h3⟩ := saveTicks_index (s' := { s' with ticks := s'.ticks.insert (tickKey k a.index) b }) hl.2 this h2
        exact ⟨t', _, rfl, h3⟩

/-- What a pool has recorded as the protocol's share of the token a swap takes in. -/
def Pool.protocolFeeOf (p : Pool) (xToY : Bool) : Nat := if xToY then p.protoX else p.protoY

/-- **C35, the part that holds.** Raising the protocol fee to at most 100% stops no swap: a swap that works before works
after, with the same payments, as long as what the pool records for the protocol in the input token cannot exceed a
`u128`. -/
theorem C35_partial {c : Chain} {s s1 t : Store} {env env0 : Env} {info admin : Info} {p0 p1 : Nat} {m0 out : List OutMsg}
    {k : PoolKey} {d : Bool} {amount : Nat} {b : Bool} {limit : Nat} {pool : Pool} {q : QuoteResult}
    (hr : Reach c s) (h0 : queryProtocolFee s = .ok p0) (hle : p0 ≤ p1) (hmax : p1 ≤ 10 ^ 12)
    (hch : execute c env0 admin (.changeProtocolFee p1) s = .ok (s1, m0))
    (hp : queryPool s k.tokenX k.tokenY k.tier = .ok pool)
    (hq : queryQuote s env k d amount b limit = .ok q) (hroom : pool.protocolFeeOf d + q.amountIn < 2 ^ 128)
    (hsw : execute c env info (.swap k d amount b limit) s = .ok (t, out)) :
    queryProtocolFee s1 = .ok p1 ∧ ∃ t', execute c env info (.swap k d amount b limit) s1 = .ok (t', out) := by
  rw [execute_ok] at hch hsw
  obtain ⟨hwf, hsw⟩ := hsw
  obtain ⟨_, hch⟩ := hch
  simp only [dispatch] at hch hsw
  have hk : k.wf := hwf.1
  unfold changeProtocolFee at hch
  simp only [bind_ok, ite_error_ok, pure_ok, Prod.mk.injEq] at hch
  obtain ⟨cfg, hc, _, rfl, rfl⟩ := hch
  have hc' : s.config = some cfg := by
    unfold loadConfig at hc
    split at hc
    · rename_i x hx
      rw [ok_inj] at hc
      rw [hx, hc]
    · cases hc
  have e0 : cfg.protocolFee = p0 := by
    unfold queryProtocolFee at h0
    rw [hc, ok_bind] at h0
    simpa only [pure_ok] using h0
  have hs := hr.mreach.struct
  refine ⟨rfl, ?_⟩
  obtain ⟨r, h1⟩ := swap_inv hsw
  obtain ⟨s2, m1, h2, h3, _, h5, h6⟩ := swapInternal_inv h1
  simp only at h2 h3 h5 h6
  unfold queryQuote at hq
  rw [h2, ok_bind] at hq
  simp only [pure_ok] at hq
  obtain ⟨pl, st, g1, g2, g3, g4, g5, g6, rfl⟩ := calculateSwap_inv h2
  rw [queryPool_of_key hs hk g2, ok_inj] at hp
  subst hp hq
  have hsame : SwapSame ⟨k, d, b, limit, env.millis⟩ (pl.protocolFeeOf d)
      { pool := pl, remaining := amount, totalIn := 0, totalOut := 0, fee := 0, ticks := [] }
      { pool := pl, remaining := amount, totalIn := 0, totalOut := 0, fee := 0, ticks := [] } :=
    ⟨⟨rfl, rfl, rfl, rfl⟩, rfl, rfl, rfl, rfl, rfl, Nat.le_refl _, Nat.le_refl _⟩
  obtain ⟨w, w1, w2⟩ := swapLoop_more (s' := { s with config := some { cfg with protocolFee := p1 } })
    (cfg' := { cfg with protocolFee := p1 }) hc' rfl rfl rfl (by rw [e0]; exact hle) hmax g5 hsame hroom
  have hcalc : calculateSwap { s with config := some { cfg with protocolFee := p1 } } env.millis k d amount b limit =
      .ok { amountIn := st.totalIn, amountOut := st.totalOut, startPrice := pl.sqrtPrice,
            targetPrice := st.pool.sqrtPrice, fee := st.fee, pool := w.pool, ticks := w.ticks } := by
    unfold calculateSwap
    rw [if_neg g1]
    have hg : getPool { s with config := some { cfg with protocolFee := p1 } } k = .ok pl := by
      unfold getPool; simp only [g2]
    rw [hg, ok_bind]
    have hlim : ¬ ((d = true ∧ (pl.sqrtPrice ≤ limit ∨ limit > MAX_SQRT_PRICE)) ∨
        (¬ d = true ∧ (pl.sqrtPrice ≥ limit ∨ limit < MIN_SQRT_PRICE))) := by
      split at g4
      · rename_i hd
        rintro (h | h)
        · omega
        · exact h.1 hd
      · rename_i hd
        rintro (h | h)
        · exact hd h.1
        · omega
    rw [if_neg hlim, if_neg g3, w1, ok_bind, w2.totalOut, if_neg g6, w2.totalIn, w2.pool.sqrtPrice, w2.fee]
    rfl
  obtain ⟨t', h7⟩ := saveTicks_index (k := k) (s := s) (s' := { s with config := some { cfg with protocolFee := p1 } }) w2.ticks (fun i => rfl) h3
  refine ⟨savePool t' k w.pool, execute_ok.2 ⟨hwf, ?_⟩⟩
  simp only [dispatch]
  unfold swap swapInternal
  rw [hcalc]
  simp only [ok_bind, h7, h5, h6]
  rfl

/-- Non-vacuity: raising the fee from 0 to 100%. -/
example : let s := Demo.state Demo.chain Demo.setup
    (queryProtocolFee s).toOption = some 0 ∧
    (execute Demo.chain Demo.env (Demo.by_ Demo.alice) (.changeProtocolFee (10 ^ 12)) s).isOk = true ∧
    ((queryPool s [97] [98] Demo.tier).map (fun p => p.protocolFeeOf true)).toOption = some 0 ∧
    ((queryQuote s Demo.env Demo.key true 300 true MIN_SQRT_PRICE).map (fun q => q.amountIn)).toOption = some 300 ∧
    (execute Demo.chain Demo.env (Demo.by_ Demo.bob) (.swap Demo.key true 300 true MIN_SQRT_PRICE) s).isOk = true := by
  decide +kernel

/-- **C35 is false.** The contract accepts a protocol fee of 200% from its admin, and then a swap that worked a moment
before panics, in both directions and by both kinds of amount. -/
theorem C35_false : ∃ (c : Chain) (s s1 : Store) (env : Env) (admin trader : Info) (k : PoolKey) (m : List OutMsg),
    Reach c s ∧
    execute c env admin (.changeProtocolFee (2 * 10 ^ 12)) s = .ok (s1, m) ∧
    ∀ d b, (execute c env trader (.swap k d 300 b (hopLimit d)) s).isOk = true ∧
      errorOf (execute c env trader (.swap k d 300 b (hopLimit d)) s1) = some .panic := by
  refine ⟨Demo.chain, Demo.state Demo.chain Demo.setup,
    { Demo.state Demo.chain Demo.setup with config := some ⟨Demo.alice, [Demo.tier], 2 * 10 ^ 12⟩ }, Demo.env, Demo.by_ Demo.alice,
    Demo.by_ Demo.bob, Demo.key, [], Demo.state_reach (by decide +kernel), rfl, ?_⟩
  decide +kernel

end OraiV3
