import Verif.Lemmas.Strategy

/-!
# What a group of accounts can take out of several pools
-/

namespace OraiV3

/-- The stakes of the pools `ks` in one token. -/
def stakes (s : Store) (G : List Bytes) (ks : List PoolKey) (t : Bytes) : ℚ :=
  (ks.map (fun k => (if k.tokenX = t then stake s G k true else 0) + (if k.tokenY = t then stake s G k false else 0))).sum

theorem stakes_cons (s : Store) (G : List Bytes) (k : PoolKey) (ks : List PoolKey) (t : Bytes) : stakes s G (k :: ks) t =
    (if k.tokenX = t then stake s G k true else 0) + (if k.tokenY = t then stake s G k false else 0) + stakes s G ks t := by
  unfold stakes
  rw [List.map_cons, List.sum_cons]

theorem stakes_congr {s s' : Store} {G : List Bytes} {ks : List PoolKey} (h : ∀ k ∈ ks, ∀ z, stake s' G k z = stake s G k z)
    (t : Bytes) : stakes s' G ks t = stakes s G ks t := by
  unfold stakes
  rw [List.map_congr_left (fun k hk => by rw [h k hk true, h k hk false])]

theorem Staked.stakes {s s' : Store} {G : List Bytes} {k : PoolKey} {dx dy : ℚ} (h : Staked s s' G k dx dy) (t : Bytes) :
    ∀ {ks : List PoolKey}, ks.Nodup → (∀ k ∈ ks, k.wf) → k ∈ ks →
    OraiV3.stakes s' G ks t ≤ OraiV3.stakes s G ks t + ((if k.tokenX = t then dx else 0) + (if k.tokenY = t then dy else 0))
  | [], _, _, hm => by simp at hm
  | a :: ks, hn, hw, hm => by
    rw [stakes_cons, stakes_cons]
    obtain ⟨n1, n2⟩ := List.nodup_cons.1 hn
    by_cases e : a = k
    · subst e
      rw [stakes_congr (fun k' hk' z => h.other k' (hw k' (by simp [hk'])) (fun e => n1 (e ▸ hk')) z)]
      have hx := h.x
      have hy := h.y
      split_ifs <;> linarith
    · rw [h.other a (hw a (by simp)) e true, h.other a (hw a (by simp)) e false]
      have := Staked.stakes h t n2 (fun k hk => hw k (by simp [hk])) ((List.mem_cons.1 hm).resolve_left (fun e' => e e'.symm))
      linarith

/-- One hop. -/
theorem hop_stakes {c : Chain} {s : Store} {G : List Bytes} {info : Info} {now : Nat} {k : PoolKey} {d : Bool} {amount : Nat}
    {b : Bool} {limit : Nat} {x : Store × List OutMsg × CalcSwapResult} (hr : MReach c s) (ha : drift s k = 0) (hk : k.wf)
    (hne : info.sender ≠ c.self) (h : swapInternal c s info now k d amount b limit = .ok x) (hreg : RegularEnd x.1 k d b limit)
    {ks : List PoolKey} (hn : ks.Nodup) (hw : ∀ k ∈ ks, k.wf) (hm : k ∈ ks) :
    (∀ k', rest x.1 G k' = rest s G k') ∧ ∀ t,
    stakes x.1 G ks t ≤ stakes s G ks t + (((if tokenIn k d = t ∧ c.isAddr (tokenIn k d) = false then (attached info.funds (tokenIn k d) : Int) else 0) +
      outDelta c x.2.1 (tokenAsset c t) c.self : Int) : ℚ) + swapSteps s now k d amount b limit / 10 ^ 14 := by
  have hε : (0 : ℚ) ≤ swapSteps s now k d amount b limit / 10 ^ 14 := by positivity
  obtain ⟨i, o, m1, h1, h2, h3, h4⟩ := Staked.swap (G := G) hr ha hk h hreg
  refine ⟨?_, fun t => ?_⟩
  · cases d
    · exact h4.rest
    · exact h4.rest
  have c1 := charge_self hne h1 t
  have c2 := pay_self (tokenOut k d) o hne t
  rw [h2, outDelta_append, c2]
  have key : (if tokenIn k d = t then (i : ℚ) else 0) - (if tokenOut k d = t then (o : ℚ) else 0) ≤
      (((if tokenIn k d = t ∧ c.isAddr (tokenIn k d) = false then (attached info.funds (tokenIn k d) : Int) else 0) +
        (outDelta c m1 (tokenAsset c t) c.self + -(if tokenOut k d = t then (o : Int) else 0)) : Int) : ℚ) := by
    have c1' := (Int.cast_le (R := ℚ)).2 c1
    push_cast at c1' ⊢
    linarith
  refine le_trans ?_ (add_le_add (add_le_add le_rfl key) le_rfl)
  clear key
  cases d
  · simp only [Bool.false_eq_true, if_false] at h4
    have g := h4.stakes t hn hw hm
    simp only [tokenIn, tokenOut, Bool.false_eq_true, if_false]
    split_ifs at g ⊢ <;> linarith
  · simp only [if_true] at h4
    have g := h4.stakes t hn hw hm
    simp only [tokenIn, tokenOut, if_true]
    split_ifs at g ⊢ <;> linarith

theorem route_stakes {c : Chain} {G : List Bytes} {info : Info} {now : Nat} (hne : info.sender ≠ c.self) {ks : List PoolKey} (hn : ks.Nodup)
    (hw : ∀ k ∈ ks, k.wf) : ∀ {hops : List Hop} {s s' : Store} {a fin : Nat} {m out : List OutMsg},
    MReach c s → ActiveIn (· ∈ ks) s → (∀ h ∈ hops, h.poolKey ∈ ks) → a < U128 →
    (∀ t, c.isAddr t = false → (hopInputs hops).count t ≤ 1) →
    swapRouteInternal c info now hops s a m = .ok (s', fin, out) → RegularRoute c (· ∈ ks) info now hops s a →
    (∀ k', rest s' G k' = rest s G k') ∧ ∀ t,
    stakes s' G ks t ≤ stakes s G ks t + (((if c.isAddr t = false ∧ t ∈ hopInputs hops then (attached info.funds t : Int) else 0) +
      (outDelta c out (tokenAsset c t) c.self - outDelta c m (tokenAsset c t) c.self) : Int) : ℚ) +
      routeSteps c info now hops s a / 10 ^ 14
  | [], s, s', a, fin, m, out, _, _, _, _, _, h, _ => by
    simp only [swapRouteInternal, ok_inj, Prod.mk.injEq] at h
    obtain ⟨rfl, -, rfl⟩ := h
    exact ⟨fun _ => rfl, fun t => by simp [hopInputs, routeSteps]⟩
  | hh :: hops, s, s', a, fin, m, out, hr, h0, hm, ha, hd, h, hreg => by
    simp only [swapRouteInternal, bind_ok] at h
    obtain ⟨x, h1, h2⟩ := h
    obtain ⟨g1, g2⟩ := hreg x h1
    have hmk := hm hh (by simp)
    have hk := hw _ hmk
    have hmi : Micro c s x.1 := .swap hk ha (by unfold hopLimit; split <;> decide) h1
    have hin : hopInputs (hh :: hops) = tokenIn hh.poolKey hh.xToY :: hopInputs hops := rfl
    have hd' : ∀ t, c.isAddr t = false → (hopInputs hops).count t ≤ 1 := fun t hc => by
      have := hd t hc
      rw [hin, List.count_cons] at this
      omega
    obtain ⟨r1, ih⟩ := route_stakes (G := G) hne hn hw (.step hr hmi) (h0.swap hr hk h1 g1) (fun h hh => hm h (by simp [hh])) (swapInternal_out_lt h1) hd' h2 g2
    obtain ⟨r2, st⟩ := hop_stakes (G := G) hr (h0 _ hk hmk) hk hne h1 (g1 hmk) hn hw hmk
    refine ⟨fun k' => (r1 k').trans (r2 k'), fun t => ?_⟩
    replace ih := ih t
    replace st := st t
    have hsteps : routeSteps c info now (hh :: hops) s a = swapSteps s now hh.poolKey hh.xToY a true (hopLimit hh.xToY) +
        routeSteps c info now hops x.1 x.2.2.amountOut := by
      simp only [routeSteps, h1]
    have hatt : (if tokenIn hh.poolKey hh.xToY = t ∧ c.isAddr (tokenIn hh.poolKey hh.xToY) = false then
          (attached info.funds (tokenIn hh.poolKey hh.xToY) : Int) else 0) +
        (if c.isAddr t = false ∧ t ∈ hopInputs hops then (attached info.funds t : Int) else 0) ≤
        if c.isAddr t = false ∧ t ∈ hopInputs (hh :: hops) then (attached info.funds t : Int) else 0 := by
      rw [hin]
      by_cases e : tokenIn hh.poolKey hh.xToY = t ∧ c.isAddr (tokenIn hh.poolKey hh.xToY) = false
      · obtain ⟨e1, e2⟩ := e
        have e3 : c.isAddr t = false := e1 ▸ e2
        have hcount := hd t e3
        rw [hin, e1, List.count_cons_self] at hcount
        have hnot : t ∉ hopInputs hops := fun hmem => by
          have := List.count_pos_iff.2 hmem
          omega
        rw [if_pos ⟨e1, e2⟩, if_neg (fun h => hnot h.2), if_pos ⟨e3, by rw [e1]; simp⟩, e1]
        omega
      · rw [if_neg e]
        by_cases hin : c.isAddr t = false ∧ t ∈ hopInputs hops
        · rw [if_pos hin, if_pos ⟨hin.1, List.mem_cons_of_mem _ hin.2⟩]
          omega
        · rw [if_neg hin]
          split_ifs <;> omega
    rw [outDelta_append] at ih
    have hatt' := (Int.cast_le (R := ℚ)).2 hatt
    rw [hsteps]
    push_cast at hatt' ih st ⊢
    rw [add_div]
    linarith

/-- One call. -/
theorem among_step {c : Chain} {w w' : World} {G : List Bytes} {ks : List PoolKey} {env : Env} {info : Info} {msg : Msg}
    (hr : Reach c w.store) (hdr : ActiveIn (· ∈ ks) w.store) (hn : ks.Nodup) (hwf : ∀ k ∈ ks, k.wf)
    (hne : info.sender ≠ c.self) (hg : info.sender ∈ G) (h : w.tx c env info msg = .ok w')
    (ha : ActsAmong w.store ks info.sender msg) (hreg : RegularCall c (· ∈ ks) env info w.store w'.store msg)
    (hc : ChargedOnce c (fun _ => True) msg) :
    (∀ k, rest w'.store G k = rest w.store G k) ∧ ∀ t,
      stakes w'.store G ks t ≤ stakes w.store G ks t + gainIn c w w' t + roundings c env info w.store msg / 10 ^ 14 := by
  have one : (∃ k ∈ ks, ActsIn w.store k info.sender msg) → (∀ k, rest w'.store G k = rest w.store G k) ∧ ∀ t,
      stakes w'.store G ks t ≤ stakes w.store G ks t + gainIn c w w' t + roundings c env info w.store msg / 10 ^ 14 := by
    rintro ⟨k, hk, ha⟩
    have hreg' : RegularCall c (· = k) env info w.store w'.store msg := by
      cases msg <;> simp only [ActsIn] at ha <;> simp only [RegularCall] at hreg ⊢
      exact fun e => hreg (e ▸ hk)
    obtain ⟨h1, h2, h3⟩ := strategy_step hr (hdr k (hwf k hk) hk) hne hg h ha hreg'
    refine ⟨h1.rest, fun t => ?_⟩
    have h4 := h1.stakes t hn hwf hk
    have hε : (0 : ℚ) ≤ roundings c env info w.store msg / 10 ^ 14 := by positivity
    by_cases e1 : k.tokenX = t
    · rw [if_pos e1, if_neg (fun e => h2 (e1.trans e.symm)), e1] at h4
      linarith
    · by_cases e2 : k.tokenY = t
      · rw [if_neg e1, if_pos e2, e2] at h4
        linarith
      · rw [if_neg e1, if_neg e2] at h4
        have := h3 t e1 e2
        linarith
  cases msg
  case swapRoute a e sl hops =>
    clear one
    obtain ⟨out, h1, h2⟩ := tx_inv h
    obtain ⟨hw, hx⟩ := execute_ok.1 h1
    simp only [dispatch] at hx
    obtain ⟨fin, m, h3, _, _⟩ := swapRoute_inv hx
    obtain ⟨r1, r2⟩ := route_stakes (G := G) hne hn hwf hr.mreach hdr ha hw.1 (fun t ht => hc t trivial ht) h3 hreg
    refine ⟨r1, fun t => (r2 t).trans ?_⟩
    have b := h2 (tokenAsset c t) c.self
    have e0 : outDelta c [] (tokenAsset c t) c.self = 0 := rfl
    have hf : (if c.isAddr t = false ∧ t ∈ hopInputs hops then (attached info.funds t : Int) else 0) ≤
        fundsDelta c info.sender info.funds (tokenAsset c t) c.self := by
      rw [funds_self hne]
      by_cases e : c.isAddr t = false ∧ t ∈ hopInputs hops
      · rw [if_pos e, if_pos e.1]
      · rw [if_neg e]
        split_ifs <;> omega
    have key : (if c.isAddr t = false ∧ t ∈ hopInputs hops then (attached info.funds t : Int) else 0) +
        (outDelta c out (tokenAsset c t) c.self - outDelta c [] (tokenAsset c t) c.self) ≤
        (w'.ledger.bal (tokenAsset c t) c.self : Int) - w.ledger.bal (tokenAsset c t) c.self := by omega
    have key' := (Int.cast_le (R := ℚ)).2 key
    have e1 : (((w'.ledger.bal (tokenAsset c t) c.self : Int) - w.ledger.bal (tokenAsset c t) c.self : Int) : ℚ) = gainIn c w w' t := by
      unfold gainIn
      push_cast
      rfl
    rw [e1] at key'
    simp only [roundings]
    linarith
  all_goals exact one ha

/-! ## Values -/

theorem value_pick {ts : List Bytes} (hn : ts.Nodup) (v : Bytes → ℚ) {a : Bytes} (ha : a ∈ ts) (z : ℚ) :
    (ts.map (fun t => v t * (if a = t then z else 0))).sum = v a * z := by
  induction ts with
  | nil => simp at ha
  | cons t ts ih =>
    obtain ⟨n1, n2⟩ := List.nodup_cons.1 hn
    rw [List.map_cons, List.sum_cons]
    by_cases e : a = t
    · subst e
      rw [if_pos rfl, List.map_congr_left (g := fun _ => (0 : ℚ)) (fun t ht => by
        rw [if_neg (fun e => n1 (by rw [e]; exact ht)), mul_zero])]
      simp
    · rw [if_neg e, mul_zero, zero_add]
      exact ih n2 ((List.mem_cons.1 ha).resolve_left e)

theorem sum_add_map {α : Type} (l : List α) (f g : α → ℚ) : (l.map (fun a => f a + g a)).sum = (l.map f).sum + (l.map g).sum := by
  induction l with
  | nil => simp
  | cons a l ih =>
    simp only [List.map_cons, List.sum_cons, ih]
    ring

/-- Token by token or pool by pool. -/
theorem stakes_value {s : Store} {G : List Bytes} {ts : List Bytes} (hn : ts.Nodup) (v : Bytes → ℚ) : ∀ {ks : List PoolKey},
    (∀ k ∈ ks, k.tokenX ∈ ts ∧ k.tokenY ∈ ts) →
    (ts.map (fun t => v t * stakes s G ks t)).sum =
      (ks.map (fun k => v k.tokenX * stake s G k true + v k.tokenY * stake s G k false)).sum
  | [], _ => by
    rw [List.map_congr_left (g := fun _ => (0 : ℚ)) (fun t _ => by simp [stakes])]
    simp
  | k :: ks, h => by
    have e : ∀ t, v t * stakes s G (k :: ks) t = (v t * (if k.tokenX = t then stake s G k true else 0) +
        v t * (if k.tokenY = t then stake s G k false else 0)) + v t * stakes s G ks t := fun t => by
      rw [stakes_cons]; ring
    rw [List.map_congr_left (fun t _ => e t), sum_add_map, sum_add_map, value_pick hn v (h k (by simp)).1,
      value_pick hn v (h k (by simp)).2, stakes_value hn v (fun k hk => h k (by simp [hk])), List.map_cons, List.sum_cons]

theorem sum_le_map {α : Type} {l : List α} {f g : α → ℚ} (h : ∀ a ∈ l, f a ≤ g a) : (l.map f).sum ≤ (l.map g).sum := by
  induction l with
  | nil => simp
  | cons a l ih =>
    simp only [List.map_cons, List.sum_cons]
    have := h a (by simp)
    have := ih (fun b hb => h b (by simp [hb]))
    linarith

theorem sum_mul_map {α : Type} (l : List α) (a b : ℚ) (f g : α → ℚ) :
    (l.map (fun q => a * f q + b * g q)).sum = a * (l.map f).sum + b * (l.map g).sum := by
  induction l with
  | nil => simp
  | cons q l ih =>
    simp only [List.map_cons, List.sum_cons, ih]
    ring

end OraiV3
