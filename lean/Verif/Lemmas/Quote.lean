import Verif.Lemmas.Frame
import Verif.Lemmas.Struct

/-!
# A swap only reads the configuration and its own pool
-/

namespace OraiV3

theorem swapIter_congr {s s' : Store} {pr : SwapParams} (hf : PoolFrame pr.key s s') (hc : s'.config = s.config)
    (st : SwapState) : swapIter s' pr st = swapIter s pr st := by
  have h1 : getChunk s' pr.key = getChunk s pr.key := by
    funext c; unfold getChunk; rw [hf.2.2 c]
  have h2 : loadConfig s' = loadConfig s := by unfold loadConfig; rw [hc]
  have h3 : ∀ lt, tickUpdOf s' pr.key lt = tickUpdOf s pr.key lt := by
    intro lt
    unfold tickUpdOf getTick
    cases lt with
    | none => rfl
    | some x => obtain ⟨i, _ | _⟩ := x <;> simp only [hf.2.1 i]
  unfold swapIter
  simp only [h1, h2, h3]

theorem swapLoop_congr {s s' : Store} {pr : SwapParams} (hf : PoolFrame pr.key s s') (hc : s'.config = s.config) :
    ∀ (n : Nat) (st : SwapState), swapLoop s' pr n st = swapLoop s pr n st
  | 0, st => rfl
  | n + 1, st => by
    unfold swapLoop
    rw [swapIter_congr hf hc]
    split
    · rfl
    · congr 1
      funext st'
      exact swapLoop_congr hf hc n st'

theorem calculateSwap_congr {s s' : Store} {k : PoolKey} (hf : PoolFrame k s s') (hc : s'.config = s.config)
    (now : Nat) (d : Bool) (amount : Nat) (b : Bool) (limit : Nat) :
    calculateSwap s' now k d amount b limit = calculateSwap s now k d amount b limit := by
  have h1 : getPool s' k = getPool s k := by unfold getPool; rw [hf.1]
  unfold calculateSwap
  rw [h1]
  simp only [swapLoop_congr (pr := ⟨k, d, b, limit, now⟩) hf hc]

/-- The ticks a swap crosses exist. -/
theorem calculateSwap_crossed {s : Store} (hs : Struct s) {now : Nat} {k : PoolKey} (hk : k.wf) {d : Bool} {amount : Nat}
    {b : Bool} {limit : Nat} {r : CalcSwapResult} (h : calculateSwap s now k d amount b limit = .ok r) :
    ∀ t ∈ r.ticks, CrossedOf s k t := by
  obtain ⟨pool, st, _, hp, _, _, hl, _, hr⟩ := calculateSwap_inv h
  have := (swapLoop_induct (fun x => x.pool.Bounded ∧ ∀ t ∈ x.ticks, CrossedOf s k t) (fun a b hab _ hit =>
    swapIter_struct hs hk hit hab.1 hab.2) _ _ _ ⟨hs.fg _ _ hp, by simp⟩ hl).1
  rw [hr]
  exact this.2

theorem saveTicks_ok {k : PoolKey} : ∀ {l : List Tick} {s : Store},
    (∀ t ∈ l, ∃ t0, s.ticks.get? (tickKey k t.index) = some t0) → ∃ s', saveTicks s k l = .ok s'
  | [], s, _ => ⟨s, rfl⟩
  | t :: l, s, h => by
    obtain ⟨t0, h0⟩ := h t (by simp)
    have hu : updateTick s k t.index t = .ok { s with ticks := s.ticks.insert (tickKey k t.index) t } := by
      unfold updateTick KV.has
      rw [h0]; rfl
    obtain ⟨s', h'⟩ := saveTicks_ok (k := k) (l := l) (s := { s with ticks := s.ticks.insert (tickKey k t.index) t })
      (fun t' ht' => by
        rw [KV.get?_insert]
        split
        · exact ⟨_, rfl⟩
        · exact h t' (by simp [ht']))
    refine ⟨s', ?_⟩
    simp only [saveTicks]
    rw [hu]
    exact h'

/-- Nothing but the charge can fail once the swap is computed. -/
theorem swapInternal_of_calc {c : Chain} {s : Store} {info : Info} {now : Nat} {k : PoolKey} {d : Bool} {amount : Nat}
    {b : Bool} {limit : Nat} {r : CalcSwapResult} (h : calculateSwap s now k d amount b limit = .ok r)
    (hc : ∀ t ∈ r.ticks, ∃ t0, s.ticks.get? (tickKey k t.index) = some t0) :
    (∃ e, assetTransferFrom c (if d then k.tokenX else k.tokenY) r.amountIn info = .error e ∧
      swapInternal c s info now k d amount b limit = .error e) ∨
    ∃ s' out, swapInternal c s info now k d amount b limit = .ok (s', out, r) := by
  obtain ⟨s1, h1⟩ := saveTicks_ok hc
  cases hm : assetTransferFrom c (if d then k.tokenX else k.tokenY) r.amountIn info with
  | error e =>
    refine .inl ⟨e, rfl, ?_⟩
    unfold swapInternal
    rw [h, ok_bind, h1, ok_bind, hm]
    rfl
  | ok m1 =>
    refine .inr ⟨savePool s1 k r.pool, m1 ++ assetTransfer c (if d then k.tokenY else k.tokenX) r.amountOut info, ?_⟩
    unfold swapInternal
    rw [h, ok_bind, h1, ok_bind, hm]
    rfl

/-- A swap keeps the configuration. -/
theorem swapInternal_config {c : Chain} {s : Store} {info : Info} {now : Nat} {k : PoolKey} {d : Bool}
    {amount : Nat} {b : Bool} {limit : Nat} {x : Store × List OutMsg × CalcSwapResult}
    (h : swapInternal c s info now k d amount b limit = .ok x) : x.1.config = s.config := by
  obtain ⟨s1, m1, h1, h2, h3, _, _⟩ := swapInternal_inv h
  obtain ⟨tk, e⟩ := saveTicks_frame h2
  rw [h3, e]; rfl

/-- Two storages look the same to the hops of a route. -/
def RouteFrame (hops : List Hop) (s s' : Store) : Prop :=
  s'.config = s.config ∧ ∀ h ∈ hops, PoolFrame h.poolKey s s'

theorem RouteFrame.after {c : Chain} {s s' : Store} {info : Info} {now : Nat} {hh : Hop} {hops : List Hop}
    {amount : Nat} {b : Bool} {limit : Nat} {x : Store × List OutMsg × CalcSwapResult}
    (hw : ∀ h ∈ hh :: hops, h.poolKey.wf) (hn : ((hh :: hops).map Hop.poolKey).Nodup)
    (hf : RouteFrame (hh :: hops) s s')
    (h : swapInternal c s' info now hh.poolKey hh.xToY amount b limit = .ok x) : RouteFrame hops s x.1 := by
  refine ⟨(swapInternal_config h).trans hf.1, fun h' hm => (hf.2 h' (by simp [hm])).trans ?_⟩
  refine swapInternal_frame' (hw h' (by simp [hm])) (hw hh (by simp)) ?_ h
  simp only [List.map_cons, List.nodup_cons, List.mem_map, not_exists, not_and] at hn
  exact hn.1 h' hm

/-- A successful route through different pools pays the quoted amount. -/
theorem route_of_swap {c : Chain} {info : Info} {now : Nat} {s : Store} :
    ∀ {hops : List Hop} {s1 s' : Store} {a fin : Nat} {m out : List OutMsg}, (∀ h ∈ hops, h.poolKey.wf) →
    (hops.map Hop.poolKey).Nodup → RouteFrame hops s s1 →
    swapRouteInternal c info now hops s1 a m = .ok (s', fin, out) → route s now hops a = .ok fin
  | [], s1, s', a, fin, m, out, _, _, _, h => by
    simp only [swapRouteInternal, ok_inj, Prod.mk.injEq] at h
    rw [← h.2.1]; rfl
  | hh :: hops, s1, s', a, fin, m, out, hw, hn, hf, h => by
    simp only [swapRouteInternal, bind_ok] at h
    obtain ⟨x, h1, h2⟩ := h
    obtain ⟨_, _, hc, _⟩ := swapInternal_inv h1
    rw [calculateSwap_congr (hf.2 hh (by simp)) hf.1] at hc
    have hf' := RouteFrame.after hw hn hf h1
    simp only [List.map_cons, List.nodup_cons] at hn
    simp only [route]
    rw [hc, ok_bind]
    exact route_of_swap (fun h hm => hw h (by simp [hm])) hn.2 hf' h2

/-- Conversely, with cw20 tokens a quoted route can be swapped. -/
theorem swap_of_route {c : Chain} {info : Info} {now : Nat} {s : Store} (hs : Struct s)
    (ha : ∀ t, c.isAddr t = true) :
    ∀ {hops : List Hop} {s1 : Store} {a fin : Nat} {m : List OutMsg}, (∀ h ∈ hops, h.poolKey.wf) →
    (hops.map Hop.poolKey).Nodup → RouteFrame hops s s1 → route s now hops a = .ok fin →
    ∃ s' out, swapRouteInternal c info now hops s1 a m = .ok (s', fin, out)
  | [], s1, a, fin, m, _, _, _, h => by
    simp only [route, ok_inj] at h
    exact ⟨s1, m, by simp only [swapRouteInternal]; rw [h]⟩
  | hh :: hops, s1, a, fin, m, hw, hn, hf, h => by
    simp only [route, bind_ok] at h
    obtain ⟨r, h1, h2⟩ := h
    have hcr := calculateSwap_crossed hs (hw hh (by simp)) h1
    have hfr := hf.2 hh (by simp)
    have hc : calculateSwap s1 now hh.poolKey hh.xToY a true (hopLimit hh.xToY) = .ok r := by
      rw [calculateSwap_congr hfr hf.1]; exact h1
    rcases swapInternal_of_calc (c := c) (info := info) hc (fun t ht => by
      obtain ⟨t0, h0, _⟩ := hcr t ht
      exact ⟨t0, by rw [hfr.2.1]; exact h0⟩) with ⟨e, he, _⟩ | ⟨s2, out, h3⟩
    · unfold assetTransferFrom at he
      rw [ha] at he
      split at he <;> simp at he
    · have hf' := RouteFrame.after hw hn hf h3
      simp only [List.map_cons, List.nodup_cons] at hn
      obtain ⟨s', out', h4⟩ := swap_of_route hs ha (m := m ++ out) (fun h hm => hw h (by simp [hm])) hn.2 hf' h2
      refine ⟨s', out', ?_⟩
      simp only [swapRouteInternal]
      rw [h3, ok_bind]
      exact h4

end OraiV3
