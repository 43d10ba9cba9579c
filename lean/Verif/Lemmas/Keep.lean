import Verif.KeepSpec
import Verif.Lemmas.Route
import Verif.Props.Shares
import Verif.Lemmas.Liveness
import Verif.Props.Fees

/-!
# Lemmas/Keep: what a position earns by trades (for C81)
-/

namespace OraiV3

/-- Earnings grow by at most `n` units, unless the counter runs over. -/
def Grows (q : Position) (a a' n : Nat) : Prop :=
  ∃ u e, u < U128 ∧ a = u * q.liquidity ∧ a' = (u + e) % U128 * q.liquidity ∧ e * q.liquidity ≤ n * 10 ^ 34

theorem Grows.refl {q : Position} {s : Store} {x : Bool} (n : Nat)
    (h : ∃ u, u < U128 ∧ accrued s x q = u * q.liquidity) : Grows q (accrued s x q) (accrued s x q) n := by
  obtain ⟨u, h1, h2⟩ := h
  exact ⟨u, 0, h1, h2, by rw [Nat.add_zero, Nat.mod_eq_of_lt h1]; exact h2, by simp⟩

theorem Grows.trans {q : Position} {a b c n m : Nat} (hL : 0 < q.liquidity) (h1 : Grows q a b n) (h2 : Grows q b c m) :
    Grows q a c (n + m) := by
  obtain ⟨u, e, hu, ha, hb, he⟩ := h1
  obtain ⟨v, f, hv, hb', hc, hf⟩ := h2
  have hv' : v = (u + e) % U128 := Nat.eq_of_mul_eq_mul_right hL (hb'.symm.trans hb)
  refine ⟨u, e + f, hu, ha, ?_, ?_⟩
  · rw [hc, hv', Nat.mod_add_mod, Nat.add_assoc]
  · rw [Nat.add_mul, Nat.add_mul]
    exact Nat.add_le_add he hf

theorem Grows.bounds {q : Position} {a a' n : Nat} (h : Grows q a a' n) (hn : a + n * 10 ^ 34 < U128 * q.liquidity) :
    a ≤ a' ∧ a' ≤ a + n * 10 ^ 34 := by
  obtain ⟨u, e, hu, ha, hb, he⟩ := h
  have h1 : (u + e) * q.liquidity < U128 * q.liquidity := by
    rw [Nat.add_mul, ← ha]
    exact Nat.lt_of_le_of_lt (Nat.add_le_add_left he _) hn
  rw [Nat.mod_eq_of_lt (Nat.lt_of_mul_lt_mul_right h1), Nat.add_mul, ← ha] at hb
  rw [hb]
  exact ⟨Nat.le_add_right _ _, Nat.add_le_add_left he _⟩

theorem accrued_unit {c : Chain} {s : Store} (hm : MReach c s) {q : Position} (hq : q ∈ s.positions.vals) (x : Bool) :
    ∃ u, u < U128 ∧ accrued s x q = u * q.liquidity := by
  obtain ⟨id, hid⟩ := memPos hq
  obtain ⟨p, hp⟩ := (hm.struct.positions _ _ hid).pool
  refine ⟨_, ?_, by unfold accrued accruedIn; rw [hp]⟩
  unfold wsub
  exact Nat.mod_lt _ (by decide)

/-- One trade. -/
theorem internal_grows {c : Chain} {s : Store} {info : Info} {now : Nat} {k : PoolKey} {d : Bool} {amount : Nat} {b : Bool}
    {limit : Nat} {x : Store × List OutMsg × CalcSwapResult} (hm : MReach c s) (hk : k.wf)
    (h : swapInternal c s info now k d amount b limit = .ok x) {q : Position}
    (ha : drift s q.poolKey = 0) (hreg : k = q.poolKey → RegularEnd x.1 k d b limit) (hq : q ∈ s.positions.vals) (t : Bool) :
    Grows q (accrued s t q) (accrued x.1 t q) (if k = q.poolKey ∧ d = t then x.2.2.amountIn else 0) := by
  obtain ⟨s1, m1, h1, h2, h3, h4, h5⟩ := swapInternal_inv h
  obtain ⟨pool, st0, _, hp, _⟩ := calculateSwap_inv h1
  obtain ⟨tk, e1⟩ := swapInternal_frame h
  have epos : x.1.positions = s.positions := by rw [e1]
  have hp' : x.1.pools.get? k.key = some x.2.2.pool := by rw [e1]; exact KV.get?_insert_same _ _ _
  by_cases hne : q.poolKey ≠ k
  · obtain ⟨id, hid⟩ := memPos hq
    have hok := hm.struct.positions _ _ hid
    obtain ⟨f1, f2, _⟩ := swapInternal_frame' hok.kwf hk hne h
    rw [(worth_same f1 (outAt_get (f2 _) _) (outAt_get (f2 _) _)).1]
    exact .refl _ (accrued_unit hm hq t)
  · have hqk : q.poolKey = k := Classical.not_not.1 hne
    have hq' : q ∈ positionsOf s k := mem_positionsOf.2 ⟨hq, hqk⟩
    have hrg := hreg hqk.symm x.2.2.pool hp'
    have hu : ∀ j, UsedTick x.1 k j ↔ UsedTick s k j := fun j => by unfold UsedTick positionsOf; rw [epos]
    rw [hu, hu] at hrg
    obtain ⟨ms, st, hM, b1, b2, b3, b4⟩ := swap_moves hm.struct hm.bitInv hm.tickSum hk hp (hm.price k pool hk hp) h1 hrg
    rw [← hqk, ha, hqk] at hM
    have htk : x.1.ticks = withTicks s.ticks k st.ticks := by
      rw [h3, b2, ← saveTicks_withTicks h2]
      rfl
    obtain ⟨f1, f2⟩ := hM.earn q hq'
    have a' : ∀ t, accrued x.1 t q = wsub (growthInside (withTicks s.ticks k st.ticks) k st.pool t q.lower q.upper) (q.fgIn t) * q.liquidity := by
      intro t
      unfold accrued accruedIn
      rw [hqk, hp', htk, b1]
    have a0 : ∀ t, accrued s t q = wsub (growthInside s.ticks k pool t q.lower q.upper) (q.fgIn t) * q.liquidity := by
      intro t
      unfold accrued accruedIn
      rw [hqk, hp]
    by_cases ht : d = t
    · subst ht
      rw [if_pos ⟨hqk.symm, rfl⟩]
      refine ⟨_, earned ms q.lower q.upper, ?_, a0 d, ?_, ?_⟩
      · unfold wsub
        exact Nat.mod_lt _ (by decide)
      · rw [a', f2]
        unfold wsub wadd
        generalize growthInside s.ticks k pool d q.lower q.upper = g
        generalize q.fgIn d = f
        congr 1
        rw [Nat.mod_add_mod, Nat.mod_add_mod]
        congr 1
        omega
      · obtain ⟨g1, -⟩ := moves_fees hM.each
        have g2 := le_sumPositions hq' (fun q => earned ms q.lower q.upper * q.liquidity)
        have g3 : (ms.map PriceMove.fee).sum ≤ x.2.2.amountIn := by
          rw [← b3, hM.total]
          clear hM g1 g2 f2
          induction ms with
          | nil => simp
          | cons m ms ih =>
            simp only [List.map_cons, List.sum_cons]
            omega
        have g4 := Nat.mul_le_mul_right (10 ^ 34) g3
        exact Nat.le_trans g2 (Nat.le_trans (Nat.le_trans (Nat.le_add_right _ _) g1) g4)
    · have ht' : t = !d := by cases d <;> cases t <;> simp_all
      rw [ht', a', f1, ← a0]
      exact .refl _ (accrued_unit hm hq (!d))

/-- The hops of a route. -/
theorem route_grows {c : Chain} {env : Env} {info : Info} {q : Position} (t : Bool) : ∀ (hops : List Hop) (s : Store) (a : Nat)
    (ms : List OutMsg) (s' : Store) (out : Nat) (ms' : List OutMsg), Reach c s → drift s q.poolKey = 0 → (∀ h ∈ hops, h.poolKey.wf) → a < U128 →
    RegularRoute c (· = q.poolKey) info env.millis hops s a → swapRouteInternal c info env.millis hops s a ms = .ok (s', out, ms') →
    q ∈ s.positions.vals → Grows q (accrued s t q) (accrued s' t q) (routeInput c env info q.poolKey t hops s a)
  | [], s, a, ms, s', out, ms', hr, _, _, _, _, h, hq => by
    simp only [swapRouteInternal, ok_inj, Prod.mk.injEq] at h
    obtain ⟨rfl, rfl, rfl⟩ := h
    exact .refl _ (accrued_unit hr.mreach hq t)
  | h :: hs, s, a, ms, s', out, ms', hr, ha, hw, hlt, hreg, hx, hq => by
    simp only [swapRouteInternal, bind_ok] at hx
    obtain ⟨⟨s1, m1, r⟩, h1, h2⟩ := hx
    have hh := hw h (List.mem_cons_self ..)
    obtain ⟨h5, h6⟩ := (hop_call (b := r.amountOut) hh hlt).2 ⟨r, h1, rfl⟩
    obtain ⟨g1, g2⟩ := hreg _ h1
    simp only at g1 g2 h2
    have hr1 : Reach c s1 := .step hr h5
    obtain ⟨tk, e1⟩ := swapInternal_frame h1
    simp only at e1
    have hq1 : q ∈ s1.positions.vals := by rw [e1]; exact hq
    obtain ⟨_, _, h7, _⟩ := swapInternal_inv h1
    have hL : 0 < q.liquidity := by
      obtain ⟨id, hid⟩ := memPos hq
      exact (hr.mreach.struct.positions _ _ hid).liq
    have ha1 : drift s1 q.poolKey = 0 := by
      obtain ⟨id, hid⟩ := memPos hq
      exact ActiveIn.swap (P := (· = q.poolKey)) hr.mreach (fun _ _ e => e ▸ ha) hh h1 g1 _ (hr.mreach.struct.positions _ _ hid).kwf rfl
    have k1 := internal_grows hr.mreach hh h1 ha g1 hq t
    have k2 := route_grows t hs s1 r.amountOut (ms ++ m1) s' out ms' hr1 ha1
      (fun x hx => hw x (List.mem_cons_of_mem _ hx)) (swapInternal_out_lt h1) g2 h2 hq1
    have k3 := k1.trans hL k2
    unfold routeInput
    rw [h5, h6]
    simp only
    by_cases hc : h.poolKey = q.poolKey ∧ h.xToY = t
    · rw [if_pos hc] at k3 ⊢
      have : quotedInput s env q.poolKey t a true (if h.xToY then MIN_SQRT_PRICE else MAX_SQRT_PRICE) = r.amountIn := by
        unfold quotedInput queryQuote
        rw [← hc.1, ← hc.2]
        have h8 : calculateSwap s env.millis h.poolKey h.xToY a true (if h.xToY then MIN_SQRT_PRICE else MAX_SQRT_PRICE) = .ok r := h7
        rw [h8, ok_bind]
        rfl
      rw [this]
      exact k3
    · rw [if_neg hc] at k3 ⊢
      exact k3

/-- Any call. -/
theorem call_grows {c : Chain} {env : Env} {info : Info} {s s' : Store} {msg : Msg} {out : List OutMsg} {q : Position}
    (hr : Reach c s) (ha : drift s q.poolKey = 0) (h : execute c env info msg s = .ok (s', out))
    (hreg : RegularCall c (· = q.poolKey) env info s s' msg)
    (hq : q ∈ s.positions.vals) (hq' : q ∈ s'.positions.vals) (t : Bool) :
    Grows q (accrued s t q) (accrued s' t q) (paidInto c env info s q.poolKey t msg) := by
  have hw := (execute_ok.1 h).1
  have hd := (execute_ok.1 h).2
  by_cases hs : msg.isSwap = false
  · rw [C05_isolated hr h hs hq hq' t]
    exact .refl _ (accrued_unit hr.mreach hq t)
  · cases msg with
    | swap k d amount b limit =>
      obtain ⟨r, hx⟩ := swap_inv hd
      have k1 := internal_grows hr.mreach hw.1 hx ha hreg hq t
      obtain ⟨_, _, h7, _⟩ := swapInternal_inv hx
      show Grows q _ _ (if k = q.poolKey ∧ d = t then quotedInput s env q.poolKey t amount b limit else 0)
      by_cases hc : k = q.poolKey ∧ d = t
      · rw [if_pos hc] at k1 ⊢
        have : quotedInput s env q.poolKey t amount b limit = r.amountIn := by
          unfold quotedInput queryQuote
          rw [← hc.1, ← hc.2, h7, ok_bind]
          rfl
        rw [this]
        exact k1
      · rw [if_neg hc] at k1 ⊢
        exact k1
    | swapRoute amount e sl hops =>
      obtain ⟨fin, m, h1, h2, h3⟩ := swapRoute_inv hd
      exact route_grows t hops s amount [] s' fin out hr ha hw.2.2.2 hw.1 hreg h1 hq
    | _ => exact absurd rfl hs

/-- Any stretch of history. -/
theorem alone_grows {c : Chain} {q : Position} {x : Bool} {s s' : Store} {n : Nat} (h : LeftAlone c q x s s' n) (hr : Reach c s)
    (ha : drift s q.poolKey = 0) : (Reach c s' ∧ drift s' q.poolKey = 0) ∧ q ∈ s'.positions.vals ∧ Grows q (accrued s x q) (accrued s' x q) n := by
  induction h with
  | start hq => exact ⟨⟨hr, ha⟩, hq, .refl _ (accrued_unit hr.mreach hq x)⟩
  | call _ h1 h2 h3 ih =>
    obtain ⟨⟨i1, i4⟩, i2, i3⟩ := ih
    obtain ⟨id, hid⟩ := memPos i2
    have hok := i1.mreach.struct.positions _ _ hid
    exact ⟨⟨.step i1 h1, drift_step i1 hok.kwf i4 h1 h2⟩, h3, i3.trans hok.liq (call_grows i1 i4 h1 h2 i2 h3 x)⟩

end OraiV3
