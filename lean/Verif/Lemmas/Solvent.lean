import Verif.Lemmas.PoolSteps
import Verif.Lemmas.Ledger

/-!
# The contract's balances cover what its pools owe
-/

namespace OraiV3

/-! ## Sums over pools -/

theorem owes_cons (s : Store) (k : PoolKey) (ks : List PoolKey) (t : Bytes) : owes s (k :: ks) t =
    (if k.tokenX = t then poolOwes s k true else 0) + (if k.tokenY = t then poolOwes s k false else 0) + owes s ks t := by
  unfold owes
  rw [List.map_cons, List.sum_cons]

theorem owes_congr {s s' : Store} {ks : List PoolKey} (h : ∀ k ∈ ks, ∀ z, poolOwes s' k z = poolOwes s k z) (t : Bytes) :
    owes s' ks t = owes s ks t := by
  unfold owes
  rw [List.map_congr_left (fun k hk => by rw [h k hk true, h k hk false])]

theorem owes_le_cons (s : Store) (k : PoolKey) (ks : List PoolKey) (t : Bytes) : owes s ks t ≤ owes s (k :: ks) t := by
  rw [owes_cons]
  have h1 := poolOwes_nonneg s k true
  have h2 := poolOwes_nonneg s k false
  split_ifs <;> linarith

/-- Adding pools adds obligations. -/
theorem owes_extend (s : Store) (t : Bytes) : ∀ (l ks : List PoolKey), ks.Nodup → (∀ k ∈ ks, k.wf) → (∀ k ∈ l, k.wf) →
    ∃ ks' : List PoolKey, ks'.Nodup ∧ (∀ k ∈ ks', k.wf) ∧ (∀ k ∈ l, k ∈ ks') ∧ owes s ks t ≤ owes s ks' t
  | [], ks, h1, h2, _ => ⟨ks, h1, h2, by simp, le_refl _⟩
  | k :: l, ks, h1, h2, h3 => by
    obtain ⟨ks', a1, a2, a3, a4⟩ := owes_extend s t l ks h1 h2 (fun k hk => h3 k (by simp [hk]))
    by_cases hk : k ∈ ks'
    · refine ⟨ks', a1, a2, fun k' hk' => ?_, a4⟩
      rcases List.mem_cons.1 hk' with rfl | hk'
      · exact hk
      · exact a3 _ hk'
    · refine ⟨k :: ks', List.nodup_cons.2 ⟨hk, a1⟩, fun k' hk' => ?_, fun k' hk' => ?_, a4.trans (owes_le_cons _ _ _ _)⟩
      · rcases List.mem_cons.1 hk' with rfl | hk'
        · exact h3 _ (by simp)
        · exact a2 _ hk'
      · rcases List.mem_cons.1 hk' with rfl | hk'
        · simp
        · exact List.mem_cons_of_mem _ (a3 _ hk')

theorem PoolStep.owes {s s' : Store} {k : PoolKey} {dx dy : ℚ} (h : PoolStep s s' k dx dy) (t : Bytes) :
    ∀ {ks : List PoolKey}, ks.Nodup → (∀ k ∈ ks, k.wf) → k ∈ ks →
    OraiV3.owes s' ks t ≤ OraiV3.owes s ks t + ((if k.tokenX = t then dx else 0) + (if k.tokenY = t then dy else 0))
  | [], _, _, hm => by simp at hm
  | a :: ks, hn, hw, hm => by
    rw [owes_cons, owes_cons]
    obtain ⟨n1, n2⟩ := List.nodup_cons.1 hn
    by_cases e : a = k
    · subst e
      rw [owes_congr (fun k' hk' z => h.other k' (hw k' (by simp [hk'])) (fun e => n1 (e ▸ hk')) z)]
      have hx := h.x
      have hy := h.y
      split_ifs <;> linarith
    · rw [h.other a (hw a (by simp)) e true, h.other a (hw a (by simp)) e false]
      have := PoolStep.owes h t n2 (fun k hk => hw k (by simp [hk])) ((List.mem_cons.1 hm).resolve_left (fun e' => e e'.symm))
      linarith

/-! ## The contract's side of a charge and of a payment -/

theorem charge_self {c : Chain} {d : Bytes} {n : Nat} {info : Info} {ms : List OutMsg} (hne : info.sender ≠ c.self)
    (h : assetTransferFrom c d n info = .ok ms) (t : Bytes) :
    (if d = t then (n : Int) else 0) ≤
      (if d = t ∧ c.isAddr d = false then (attached info.funds d : Int) else 0) + outDelta c ms (tokenAsset c t) c.self := by
  by_cases ht : d = t
  · subst ht
    rw [if_pos rfl]
    rcases assetTransferFrom_delta h (tokenAsset c d) c.self with ⟨h0, h⟩ | ⟨hc, h⟩ | ⟨hc, coin, hf, hn, h⟩
    · subst h; subst h0
      simp only [outDelta, List.map_nil, List.sum_nil]
      split_ifs <;> omega
    · rw [h]
      simp [moveDelta, hc, Ne.symm hne]
    · rw [h]
      have := attached_find hf
      simp only [moveDelta, hc, and_self, if_true, if_neg (Ne.symm hne)]
      omega
  · rw [if_neg ht, if_neg (fun e => ht e.1), assetTransferFrom_other h (fun e => ht (tokenAsset_inj e).symm)]
    omega

theorem pay_self {c : Chain} (d : Bytes) (n : Nat) {info : Info} (hne : info.sender ≠ c.self) (t : Bytes) :
    outDelta c (assetTransfer c d n info) (tokenAsset c t) c.self = -(if d = t then (n : Int) else 0) := by
  rw [assetTransfer_delta]
  unfold moveDelta
  by_cases ht : d = t
  · subst ht
    rw [if_pos rfl, if_pos rfl, if_pos rfl, if_neg (Ne.symm hne)]
    omega
  · rw [if_neg (fun e => ht (tokenAsset_inj e).symm), if_neg ht]
    omega

theorem funds_self {c : Chain} {info : Info} (hne : info.sender ≠ c.self) (t : Bytes) :
    fundsDelta c info.sender info.funds (tokenAsset c t) c.self = if c.isAddr t = false then (attached info.funds t : Int) else 0 := by
  unfold tokenAsset
  cases hc : c.isAddr t
  · simp only [Bool.false_eq_true, if_false, if_true]
    rw [fundsDelta_native, if_pos rfl, if_neg (Ne.symm hne)]
    omega
  · simp only [if_true, Bool.true_eq_false, if_false]
    rw [fundsDelta_cw20]

/-- What a call from `s` to `s'` with the given messages does to the obligations of any list of pools that
contains the touched ones, in the tokens of `T`, against the contract's balances. -/
def Covered (c : Chain) (T : Bytes → Prop) (info : Info) (s s' : Store) (out : List OutMsg) (n : Nat) : Prop :=
  ∃ l : List PoolKey, (∀ k ∈ l, k.wf) ∧ ∀ ks : List PoolKey, ks.Nodup → (∀ k ∈ ks, k.wf) → (∀ k ∈ l, k ∈ ks) → ∀ t, T t →
    owes s' ks t ≤ owes s ks t + ((fundsDelta c info.sender info.funds (tokenAsset c t) c.self +
      outDelta c out (tokenAsset c t) c.self : Int) : ℚ) + n / 10 ^ 14

theorem Covered.mono {c : Chain} {T : Bytes → Prop} {info : Info} {s s' : Store} {out : List OutMsg} {n m : Nat} (h : Covered c T info s s' out n) (hnm : n ≤ m) :
    Covered c T info s s' out m := by
  obtain ⟨l, h1, h2⟩ := h
  refine ⟨l, h1, fun ks a b d t hT => (h2 ks a b d t hT).trans ?_⟩
  have : (n : ℚ) / 10 ^ 14 ≤ m / 10 ^ 14 := div_le_div_of_nonneg_right (by exact_mod_cast hnm) (by positivity)
  linarith

theorem fundsSelf_nonneg {c : Chain} {info : Info} (hne : info.sender ≠ c.self) (t : Bytes) :
    0 ≤ fundsDelta c info.sender info.funds (tokenAsset c t) c.self := by
  rw [funds_self hne]
  split_ifs <;> omega

theorem Covered.same {c : Chain} {T : Bytes → Prop} {info : Info} (hne : info.sender ≠ c.self) {s s' : Store} {out : List OutMsg}
    (ho : ∀ t, outDelta c out (tokenAsset c t) c.self = 0)
    (h : ∀ k z, poolOwes s' k z = poolOwes s k z) : Covered c T info s s' out 0 := by
  refine ⟨[], by simp, fun ks _ _ _ t _ => ?_⟩
  rw [owes_congr (fun k _ z => h k z), ho t]
  have : (0 : ℚ) ≤ ((fundsDelta c info.sender info.funds (tokenAsset c t) c.self : Int) : ℚ) := by
    exact_mod_cast fundsSelf_nonneg hne t
  push_cast
  linarith

/-- Payments out of one pool. -/
theorem Covered.pay {c : Chain} {T : Bytes → Prop} {info : Info} (hne : info.sender ≠ c.self) {s s' : Store} {k : PoolKey} {x y : Nat}
    (h : PoolStep s s' k (-(x : Nat)) (-(y : Nat))) :
    Covered c T info s s' (assetTransfer c k.tokenX x info ++ assetTransfer c k.tokenY y info) 0 := by
  refine ⟨[k], by simpa using h.wf, fun ks hn hw hm t _ => ?_⟩
  have h1 := h.owes t hn hw (hm k (by simp))
  have h2 : (0 : ℚ) ≤ ((fundsDelta c info.sender info.funds (tokenAsset c t) c.self : Int) : ℚ) := by
    exact_mod_cast fundsSelf_nonneg hne t
  rw [outDelta_append, pay_self _ _ hne, pay_self _ _ hne]
  push_cast
  split_ifs at h1 ⊢ <;> linarith

/-- A deposit into one pool. -/
theorem Covered.deposit {c : Chain} {T : Bytes → Prop} {info : Info} (hne : info.sender ≠ c.self) {s s' : Store} {k : PoolKey} {x y : Nat}
    {m1 m2 : List OutMsg} (h1 : assetTransferFrom c k.tokenX x info = .ok m1) (h2 : assetTransferFrom c k.tokenY y info = .ok m2)
    (h : PoolStep s s' k (x + 1 / 10 ^ 14) y) (hd : k.tokenX ≠ k.tokenY) : Covered c T info s s' (m1 ++ m2) 1 := by
  refine ⟨[k], by simpa using h.wf, fun ks hn hw hm t _ => ?_⟩
  have g := h.owes t hn hw (hm k (by simp))
  have c1 := charge_self hne h1 t
  have c2 := charge_self hne h2 t
  rw [outDelta_append, funds_self hne]
  have key : (if k.tokenX = t then (x : Int) else 0) + (if k.tokenY = t then (y : Int) else 0) ≤
      (if c.isAddr t = false then (attached info.funds t : Int) else 0) +
      (outDelta c m1 (tokenAsset c t) c.self + outDelta c m2 (tokenAsset c t) c.self) := by
    by_cases e1 : k.tokenX = t
    · have e2 : k.tokenY ≠ t := fun e => hd (e1.trans e.symm)
      rw [if_pos e1] at c1
      rw [if_neg e2, if_neg (fun e => e2 e.1)] at c2
      rw [if_pos e1, if_neg e2]
      subst e1
      split_ifs at c1 ⊢ <;> simp_all <;> omega
    · rw [if_neg e1, if_neg (fun e => e1 e.1)] at c1
      rw [if_neg e1]
      by_cases e2 : k.tokenY = t
      · rw [if_pos e2] at c2 ⊢
        subst e2
        split_ifs at c2 ⊢ <;> simp_all <;> omega
      · rw [if_neg e2, if_neg (fun e => e2 e.1)] at c2
        rw [if_neg e2]
        split_ifs <;> omega
  have key' : (if k.tokenX = t then (x : ℚ) else 0) + (if k.tokenY = t then (y : ℚ) else 0) ≤
      (((if c.isAddr t = false then (attached info.funds t : Int) else 0) +
      (outDelta c m1 (tokenAsset c t) c.self + outDelta c m2 (tokenAsset c t) c.self) : Int) : ℚ) := by
    have := (Int.cast_le (R := ℚ)).2 key
    refine le_trans (le_of_eq ?_) this
    push_cast
    rfl
  have hε : (if k.tokenX = t then (x : ℚ) + 1 / 10 ^ 14 else 0) ≤ (if k.tokenX = t then (x : ℚ) else 0) + 1 / 10 ^ 14 := by
    split_ifs
    · exact le_refl _
    · positivity
  push_cast at key' ⊢
  linarith

/-! ## Swaps and routes -/

/-- Pools without the token. -/
theorem owes_without {s s' : Store} {k : PoolKey} {t : Bytes} (h1 : k.tokenX ≠ t) (h2 : k.tokenY ≠ t) {ks : List PoolKey}
    (hw : ∀ k ∈ ks, k.wf) (h : ∀ k' : PoolKey, k'.wf → k' ≠ k → ∀ z, poolOwes s' k' z = poolOwes s k' z) :
    owes s' ks t = owes s ks t := by
  unfold owes
  refine congrArg List.sum (List.map_congr_left fun k' hk' => ?_)
  by_cases e : k' = k
  · rw [e, if_neg h1, if_neg h2, if_neg h1, if_neg h2]
  · rw [h k' (hw k' hk') e true, h k' (hw k' hk') e false]

/-- One hop, for any list of pools that contains its pool. -/
theorem hop_owes {c : Chain} {T : Bytes → Prop} {s : Store} {info : Info} {now : Nat} {k : PoolKey} {d : Bool} {amount : Nat}
    {b : Bool} {limit : Nat} {x : Store × List OutMsg × CalcSwapResult} (hr : MReach c s) (ha : ActiveIn (PoolKey.trades T) s) (hk : k.wf)
    (hne : info.sender ≠ c.self)
    (h : swapInternal c s info now k d amount b limit = .ok x) (hreg : k.trades T → RegularEnd x.1 k d b limit)
    {ks : List PoolKey} (hn : ks.Nodup) (hw : ∀ k ∈ ks, k.wf) (hm : k ∈ ks) {t : Bytes} (hT : T t) :
    owes x.1 ks t ≤ owes s ks t + (((if tokenIn k d = t ∧ c.isAddr (tokenIn k d) = false then (attached info.funds (tokenIn k d) : Int) else 0) +
      outDelta c x.2.1 (tokenAsset c t) c.self : Int) : ℚ) + swapSteps s now k d amount b limit / 10 ^ 14 := by
  have hε : (0 : ℚ) ≤ swapSteps s now k d amount b limit / 10 ^ 14 := by positivity
  by_cases htr : k.tokenX = t ∨ k.tokenY = t
  · have htr' : k.trades T := htr.imp (fun e => by rw [e]; exact hT) (fun e => by rw [e]; exact hT)
    obtain ⟨i, o, m1, h1, h2, h3, h4⟩ := PoolStep.swap hr (ha k hk htr') hk h (hreg htr')
    have c1 := charge_self hne h1 t
    have c2 := pay_self (tokenOut k d) o hne t
    rw [h2, outDelta_append, c2]
    have key : (if tokenIn k d = t then (i : ℚ) else 0) - (if tokenOut k d = t then (o : ℚ) else 0) ≤
        (((if tokenIn k d = t ∧ c.isAddr (tokenIn k d) = false then (attached info.funds (tokenIn k d) : Int) else 0) +
          (outDelta c m1 (tokenAsset c t) c.self + -(if tokenOut k d = t then (o : Int) else 0)) : Int) : ℚ) := by
      have c1' := (Int.cast_le (R := ℚ)).2 c1
      push_cast at c1' ⊢
      linarith
    refine le_trans ?_ (add_le_add (add_le_add le_rfl key) le_rfl)
    clear key
    cases d
    · simp only [Bool.false_eq_true, if_false] at h4
      have g := h4.owes t hn hw hm
      simp only [tokenIn, tokenOut, Bool.false_eq_true, if_false]
      split_ifs at g ⊢ <;> linarith
    · simp only [if_true] at h4
      have g := h4.owes t hn hw hm
      simp only [tokenIn, tokenOut, if_true]
      split_ifs at g ⊢ <;> linarith
  · rw [not_or] at htr
    rw [owes_without htr.1 htr.2 hw fun k' hk' e z => swap_other_owes hk h hk' e z]
    obtain ⟨s1, m1, _, _, _, h4, h5⟩ := swapInternal_inv h
    have e1 : (if d then k.tokenX else k.tokenY) ≠ t := by split; exacts [htr.1, htr.2]
    have e2 : (if d then k.tokenY else k.tokenX) ≠ t := by split; exacts [htr.2, htr.1]
    have c1 := charge_self hne h4 t
    have c2 := pay_self (if d then k.tokenY else k.tokenX) x.2.2.amountOut hne t
    rw [if_neg e1, if_neg (fun e => e1 e.1)] at c1
    rw [if_neg e2] at c2
    have hin : tokenIn k d ≠ t := by unfold tokenIn; exact e1
    rw [h5, outDelta_append, c2, if_neg (fun e => hin e.1)]
    have c1' := (Int.cast_le (R := ℚ)).2 c1
    push_cast at c1' ⊢
    linarith

theorem Covered.swap {c : Chain} {T : Bytes → Prop} {s : Store} {info : Info} {now : Nat} {k : PoolKey} {d : Bool} {amount : Nat}
    {b : Bool} {limit : Nat} {x : Store × List OutMsg × CalcSwapResult} (hr : MReach c s) (ha : ActiveIn (PoolKey.trades T) s) (hk : k.wf)
    (hne : info.sender ≠ c.self)
    (h : swapInternal c s info now k d amount b limit = .ok x) (hreg : k.trades T → RegularEnd x.1 k d b limit) :
    Covered c T info s x.1 x.2.1 (swapSteps s now k d amount b limit) := by
  refine ⟨[k], by simpa using hk, fun ks hn hw hm t hT => (hop_owes hr ha hk hne h hreg hn hw (hm k (by simp)) hT).trans ?_⟩
  have : (if tokenIn k d = t ∧ c.isAddr (tokenIn k d) = false then (attached info.funds (tokenIn k d) : Int) else 0) ≤
      fundsDelta c info.sender info.funds (tokenAsset c t) c.self := by
    rw [funds_self hne]
    by_cases e : tokenIn k d = t
    · rw [e]
      simp
    · rw [if_neg (fun h => e h.1)]
      split_ifs <;> omega
  have := (Int.cast_le (R := ℚ)).2 this
  push_cast at this ⊢
  linarith

/-- The tokens the hops take. -/
def hopInputs (hops : List Hop) : List Bytes := hops.map (fun h => tokenIn h.poolKey h.xToY)

theorem route_owes {c : Chain} {T : Bytes → Prop} {info : Info} {now : Nat} (hne : info.sender ≠ c.self) {ks : List PoolKey} (hn : ks.Nodup)
    (hw : ∀ k ∈ ks, k.wf) {t : Bytes} (hT : T t) : ∀ {hops : List Hop} {s s' : Store} {a fin : Nat} {m out : List OutMsg},
    MReach c s → ActiveIn (PoolKey.trades T) s → (∀ h ∈ hops, h.poolKey ∈ ks) → a < U128 → (c.isAddr t = false → (hopInputs hops).count t ≤ 1) →
    swapRouteInternal c info now hops s a m = .ok (s', fin, out) → RegularRoute c (PoolKey.trades T) info now hops s a →
    owes s' ks t ≤ owes s ks t + (((if c.isAddr t = false ∧ t ∈ hopInputs hops then (attached info.funds t : Int) else 0) +
      (outDelta c out (tokenAsset c t) c.self - outDelta c m (tokenAsset c t) c.self) : Int) : ℚ) +
      routeSteps c info now hops s a / 10 ^ 14
  | [], s, s', a, fin, m, out, _, _, _, _, _, h, _ => by
    simp only [swapRouteInternal, ok_inj, Prod.mk.injEq] at h
    obtain ⟨rfl, -, rfl⟩ := h
    simp [hopInputs, routeSteps]
  | hh :: hops, s, s', a, fin, m, out, hr, h0, hm, ha, hd, h, hreg => by
    simp only [swapRouteInternal, bind_ok] at h
    obtain ⟨x, h1, h2⟩ := h
    obtain ⟨g1, g2⟩ := hreg x h1
    have hmk := hm hh (by simp)
    have hk := hw _ hmk
    have hmi : Micro c s x.1 := .swap hk ha (by unfold hopLimit; split <;> decide) h1
    have hin : hopInputs (hh :: hops) = tokenIn hh.poolKey hh.xToY :: hopInputs hops := rfl
    have hd' : c.isAddr t = false → (hopInputs hops).count t ≤ 1 := fun hc => by
      have := hd hc
      rw [hin, List.count_cons] at this
      omega
    have ih := route_owes hne hn hw hT (.step hr hmi) (h0.swap hr hk h1 g1) (fun h hh => hm h (by simp [hh])) (swapInternal_out_lt h1) hd' h2 g2
    have st := hop_owes hr h0 hk hne h1 g1 hn hw hmk hT
    have hsteps : routeSteps c info now (hh :: hops) s a = swapSteps s now hh.poolKey hh.xToY a true (hopLimit hh.xToY) +
        routeSteps c info now hops x.1 x.2.2.amountOut := by
      simp only [routeSteps, h1]
    have hatt : (if tokenIn hh.poolKey hh.xToY = t ∧ c.isAddr (tokenIn hh.poolKey hh.xToY) = false then
          (attached info.funds (tokenIn hh.poolKey hh.xToY) : Int) else 0) +
        (if c.isAddr t = false ∧ t ∈ hopInputs hops then (attached info.funds t : Int) else 0) ≤
        if c.isAddr t = false ∧ t ∈ hopInputs (hh :: hops) then (attached info.funds t : Int) else 0 := by
      rw [hin]
      by_cases e : tokenIn hh.poolKey hh.xToY = t ∧ c.isAddr (tokenIn hh.poolKey hh.xToY) = false
      · obtain ⟨e1, e2⟩ := e
        have e3 : c.isAddr t = false := e1 ▸ e2
        have hcount := hd e3
        rw [hin, e1, List.count_cons_self] at hcount
        have hnot : t ∉ hopInputs hops := fun hmem => by
          have := List.count_pos_iff.2 hmem
          omega
        rw [if_pos ⟨e1, e2⟩, if_neg (fun h => hnot h.2), if_pos ⟨e3, by rw [e1]; simp⟩, e1]
        omega
      · rw [if_neg e]
        by_cases hin : c.isAddr t = false ∧ t ∈ hopInputs hops
        · rw [if_pos hin, if_pos ⟨hin.1, List.mem_cons_of_mem _ hin.2⟩]
          omega
        · rw [if_neg hin]
          split_ifs <;> omega
    rw [outDelta_append] at ih
    have hatt' := (Int.cast_le (R := ℚ)).2 hatt
    rw [hsteps]
    push_cast at hatt' ih st ⊢
    rw [add_div]
    linarith

theorem Covered.route {c : Chain} {T : Bytes → Prop} {info : Info} {now : Nat} (hne : info.sender ≠ c.self) {hops : List Hop} {s s' : Store}
    {a fin : Nat} {out : List OutMsg} (hr : MReach c s) (h0 : ActiveIn (PoolKey.trades T) s) (hw : ∀ h ∈ hops, h.poolKey.wf) (ha : a < U128)
    (hd : ∀ t, T t → c.isAddr t = false → (hopInputs hops).count t ≤ 1) (h : swapRouteInternal c info now hops s a [] = .ok (s', fin, out))
    (hreg : RegularRoute c (PoolKey.trades T) info now hops s a) : Covered c T info s s' out (routeSteps c info now hops s a) := by
  refine ⟨hops.map Hop.poolKey, fun k hk => ?_, fun ks hn hwf hm t hT => ?_⟩
  · obtain ⟨x, hx, rfl⟩ := List.mem_map.1 hk
    exact hw x hx
  · refine (route_owes hne hn hwf hT hr h0 (fun x hx => hm _ (List.mem_map.2 ⟨x, hx, rfl⟩)) ha (hd t hT) h hreg).trans ?_
    have : (if c.isAddr t = false ∧ t ∈ hopInputs hops then (attached info.funds t : Int) else 0) ≤
        fundsDelta c info.sender info.funds (tokenAsset c t) c.self := by
      rw [funds_self hne]
      by_cases e : c.isAddr t = false ∧ t ∈ hopInputs hops
      · rw [if_pos e, if_pos e.1]
      · rw [if_neg e]
        split_ifs <;> omega
    have := (Int.cast_le (R := ℚ)).2 this
    have e : outDelta c [] (tokenAsset c t) c.self = 0 := rfl
    rw [e]
    push_cast at this ⊢
    linarith

/-! ## Every call -/

theorem noDelta_nil (c : Chain) (t : Bytes) : outDelta c [] (tokenAsset c t) c.self = 0 := rfl

theorem moved_owes {s s1 s2 : Store} {o r : Bytes} {i : Nat} {p : Position} (hi : PosInv s) (hw : i < U32)
    (h1 : removePositionAt s o i = .ok (s1, p)) (h2 : addPosition s1 r { p with approvals := [] } = .ok s2) (k : PoolKey) (z : Bool) :
    poolOwes s2 k z = poolOwes s k z := by
  obtain ⟨a, b, e1⟩ := removePositionAt_frame h1
  obtain ⟨a', b', e2⟩ := addPosition_frame h2
  exact poolOwes_same (by rw [e2, e1]) (by rw [e2, e1]) (fun k f hf => sumQ_move hi hw h1 h2 k f (hf p [])) k z

theorem appr_owes {s : Store} {id : Bytes} {p : Position} (hp : s.positions.get? id = some p) (a : List Approval) (k : PoolKey) (z : Bool) :
    poolOwes { s with positions := s.positions.insert id { p with approvals := a } } k z = poolOwes s k z := by
  refine poolOwes_same (s := s) (s' := { s with positions := s.positions.insert id { p with approvals := a } }) rfl rfl (fun k f hf => ?_) k z
  rw [sumQ_edit (s := s) (p' := { p with approvals := a }) hp rfl k f rfl, hf, sub_self, ite_self, add_zero]

theorem savePool_step {s : Store} {k : PoolKey} {p p' : Pool} (hk : k.wf) (hp : s.pools.get? k.key = some p)
    (e1 : p'.tick = p.tick) (e2 : p'.sqrtPrice = p.sqrtPrice) (e3 : p'.fgX = p.fgX) (e4 : p'.fgY = p.fgY) {dx dy : ℚ}
    (hx : (p'.protoX : ℚ) ≤ p.protoX + dx) (hy : (p'.protoY : ℚ) ≤ p.protoY + dy) : PoolStep s (savePool s k p') k dx dy :=
  PoolStep.poolMeta (s' := savePool s k p') (p' := p') hk hp rfl rfl rfl e1 e2 e3 e4 hx hy

theorem execute_covered {c : Chain} {T : Bytes → Prop} {env : Env} {info : Info} {msg : Msg} {s s' : Store} {out : List OutMsg}
    (hr : MReach c s) (hr' : MReach c s') (ha : ActiveIn (PoolKey.trades T) s) (hne : info.sender ≠ c.self)
    (h : execute c env info msg s = .ok (s', out)) (hreg : RegularCall c (PoolKey.trades T) env info s s' msg) (hd : ChargedOnce c T msg) :
    Covered c T info s s' out (roundings c env info s msg) := by
  have hw := (execute_ok.1 h).1
  replace h := (execute_ok.1 h).2
  have hs := hr.struct
  have hi := hr.posInv
  cases msg <;> simp only [dispatch] at h
  case changeAdmin a =>
    simp only [changeAdmin, bind_ok, ite_error_ok, pure_ok, Prod.mk.injEq, loadConfig_ok] at h
    obtain ⟨cfg, h0, _, h, ho⟩ := h
    rw [← h, ← ho]
    exact Covered.same hne (noDelta_nil c) (fun k z => rfl)
  case withdrawProtocolFee k =>
    simp only [withdrawProtocolFee, bind_ok, ite_error_ok, pure_ok, Prod.mk.injEq, getPool_ok] at h
    obtain ⟨p0, hp0, _, h, ho⟩ := h
    rw [← h, ← ho]
    exact Covered.pay hne (savePool_step (p' := { p0 with protoX := 0, protoY := 0 }) hw hp0 rfl rfl rfl rfl (by simp) (by simp))
  case changeProtocolFee f =>
    simp only [changeProtocolFee, bind_ok, ite_error_ok, pure_ok, Prod.mk.injEq, loadConfig_ok] at h
    obtain ⟨cfg, h0, _, h, ho⟩ := h
    rw [← h, ← ho]
    exact Covered.same hne (noDelta_nil c) (fun k z => rfl)
  case changeFeeReceiver k r =>
    simp only [changeFeeReceiver, bind_ok, ite_error_ok, pure_ok, Prod.mk.injEq, getPool_ok] at h
    obtain ⟨_, _, _, p0, hp0, h, ho⟩ := h
    rw [← h, ← ho]
    exact Covered.pay (x := 0) (y := 0) hne (savePool_step (p' := { p0 with feeReceiver := r }) hw hp0 rfl rfl rfl rfl (by simp) (by simp))
  case createPosition k l u L lo hi' =>
    obtain ⟨x, y, m1, m2, t1, t2, ho, hp, hd⟩ := PoolStep.create hs hr'.struct hi hr.tickSum hr.price hw h
    rw [ho]
    exact Covered.deposit hne t1 t2 hp hd
  case mint k l u L lo hi' =>
    obtain ⟨x, y, m1, m2, t1, t2, ho, hp, hd⟩ := PoolStep.create hs hr'.struct hi hr.tickSum hr.price hw h
    rw [ho]
    exact Covered.deposit hne t1 t2 hp hd
  case swap k d a b l =>
    obtain ⟨r, h⟩ := swap_inv h
    have := Covered.swap hr ha hw.1 hne h hreg
    simp only [roundings] at this ⊢
    exact this
  case swapRoute a e sl hops =>
    obtain ⟨fin, m, h1, _, _⟩ := swapRoute_inv h
    have := Covered.route hne hr ha hw.2.2.2 hw.1 hd h1 hreg
    simp only [roundings] at this ⊢
    exact this
  case transferPosition i r =>
    obtain ⟨pos, s1, _, h1, _, h2, ho⟩ := transferPosition_inv h
    rw [ho]
    exact Covered.same hne (noDelta_nil c) (moved_owes hi hw h1 h2)
  case claimFee i =>
    obtain ⟨k, x, y, ho, hp, _⟩ := PoolStep.claim hs h
    rw [ho]
    exact Covered.pay hne hp
  case removePosition i =>
    obtain ⟨k, x, y, ho, hp, _⟩ := PoolStep.remove hs hr'.struct hi hr'.tickSum hr.price hw h
    rw [ho]
    exact Covered.pay hne hp
  case createPool t0 t1 tier price tick =>
    obtain ⟨ho, k, hp⟩ := PoolStep.newPool hs hw h
    rw [ho]
    exact Covered.pay (x := 0) (y := 0) hne (by simpa using hp)
  case addFeeTier t =>
    simp only [addFeeTier, bind_ok, ite_error_ok, pure_ok, Prod.mk.injEq, loadConfig_ok] at h
    obtain ⟨cfg, h0, _, h1, h2, h, ho⟩ := h
    rw [← h, ← ho]
    exact Covered.same hne (noDelta_nil c) (fun k z => rfl)
  case removeFeeTier t =>
    simp only [removeFeeTier, bind_ok, ite_error_ok, ite_ok_error, pure_ok, Prod.mk.injEq, loadConfig_ok] at h
    obtain ⟨cfg, h0, _, _, h, ho⟩ := h
    rw [← h, ← ho]
    exact Covered.same hne (noDelta_nil c) (fun k z => rfl)
  case transferNft r id =>
    simp only [transferNft, bind_ok, pure_ok, Prod.mk.injEq] at h
    obtain ⟨_, h1, rfl, ho⟩ := h
    obtain ⟨o, pos, s1, p, e1, e2, _, e4, e5⟩ := transferNftInternal_inv h1
    have hsp := tokenOwner_spec e1
    obtain ⟨_, _, hp, _⟩ := removePositionAt_inv e4
    rw [hsp.1, e2] at hp
    cases hp
    rw [← ho]
    exact Covered.same hne (noDelta_nil c) (moved_owes hi hsp.2 e4 e5)
  case burn id =>
    obtain ⟨o, _, h1, _, _, h⟩ := burn_inv h
    obtain ⟨k, x, y, ho, hp, _⟩ := PoolStep.remove hs hr'.struct hi hr'.tickSum hr.price (tokenOwner_spec h1).2 h
    rw [ho]
    exact Covered.pay hne hp
  case sendNft ct id m =>
    simp only [sendNft, bind_ok, pure_ok, Prod.mk.injEq] at h
    obtain ⟨_, h1, rfl, ho⟩ := h
    obtain ⟨o, pos, s1, p, e1, e2, _, e4, e5⟩ := transferNftInternal_inv h1
    have hsp := tokenOwner_spec e1
    obtain ⟨_, _, hp, _⟩ := removePositionAt_inv e4
    rw [hsp.1, e2] at hp
    cases hp
    rw [← ho]
    exact Covered.same hne (fun t => rfl) (moved_owes hi hsp.2 e4 e5)
  case approve sp id ex =>
    obtain ⟨_, _, _, hp, _, ho, _, e⟩ := updateApprovals_inv h
    rw [e, ho]
    exact Covered.same hne (noDelta_nil c) (appr_owes hp _)
  case revoke sp id =>
    obtain ⟨_, _, _, hp, _, ho, _, e⟩ := updateApprovals_inv h
    rw [e, ho]
    exact Covered.same hne (noDelta_nil c) (appr_owes hp _)
  case approveAll o ex =>
    simp only [approveAll, ite_error_ok, ok_inj, Prod.mk.injEq] at h
    rw [← h.2.1, ← h.2.2]
    exact Covered.same hne (noDelta_nil c) (fun k z => rfl)
  case revokeAll o =>
    simp only [revokeAll, ok_inj, Prod.mk.injEq] at h
    rw [← h.1, ← h.2]
    exact Covered.same hne (noDelta_nil c) (fun k z => rfl)

/-! ## Histories -/

theorem History.regular {c : Chain} {T : Bytes → Prop} {w : World} {n : Nat} (h : History c T w n) : RegularReach c (PoolKey.trades T) w.store := by
  induction h with
  | init sender fee hf l => exact .init sender fee hf
  | call _ _ ht hreg _ ih =>
    obtain ⟨out, h1, _⟩ := tx_inv ht
    exact .step ih h1 hreg
  | outside l _ _ ih => exact ih

theorem History.solvent {c : Chain} {T : Bytes → Prop} {w : World} {n : Nat} (h : History c T w n) :
    ∀ ks : List PoolKey, ks.Nodup → (∀ k ∈ ks, k.wf) → ∀ t, T t →
      owes w.store ks t ≤ w.ledger.bal (tokenAsset c t) c.self + n / 10 ^ 14 := by
  induction h with
  | init sender fee hf l =>
    intro ks hn hw t _
    clear hn hw
    have : owes (instantiate sender fee) ks t = 0 := by
      unfold owes
      induction ks with
      | nil => rfl
      | cons k ks ih =>
        rw [List.map_cons, List.sum_cons, ih]
        simp [poolOwes, instantiate, Store.empty, KV.get?_empty]
    simp only
    rw [this]
    positivity
  | @call w w' n env info msg hh hne ht hreg hd ih =>
    obtain ⟨out, h1, h2⟩ := tx_inv ht
    have hr := hh.regular
    obtain ⟨l, hl, hc⟩ := execute_covered hr.reach.mreach (Reach.mreach (.step hr.reach h1))
      hr.active hne h1 hreg hd
    intro ks hn hw t hT
    obtain ⟨ks', a1, a2, a3, a4⟩ := owes_extend w'.store t l ks hn hw hl
    have b1 := hc ks' a1 a2 a3 t hT
    have b2 := ih ks' a1 a2 t hT
    have b3 := h2 (tokenAsset c t) c.self
    have b4 : (w'.ledger.bal (tokenAsset c t) c.self : ℚ) = w.ledger.bal (tokenAsset c t) c.self +
      (fundsDelta c info.sender info.funds (tokenAsset c t) c.self : Int) + (outDelta c out (tokenAsset c t) c.self : Int) := by
      exact_mod_cast congrArg (Int.cast (R := ℚ)) b3
    push_cast at b1 ⊢
    rw [b4, add_div]
    linarith
  | @outside w n l hh hl ih =>
    intro ks hn hw t hT
    have := ih ks hn hw t hT
    have h2 : (w.ledger.bal (tokenAsset c t) c.self : ℚ) ≤ l.bal (tokenAsset c t) c.self := by exact_mod_cast hl _ hT
    simp only
    linarith

end OraiV3
