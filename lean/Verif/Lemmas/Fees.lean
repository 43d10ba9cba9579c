import Verif.Lemmas.PoolEvo

/-!
# Protocol fees charged by swaps
-/

namespace OraiV3

/-- Sum of the protocol's parts of fees. -/
def protoSum (pf : Nat) (fs : List Nat) : Nat := (fs.map (fun f => protoPart f pf)).sum

theorem protoSum_append (pf : Nat) (a b : List Nat) : protoSum pf (a ++ b) = protoSum pf a + protoSum pf b := by
  simp [protoSum]

/-- `p'` is `p` after charging the fees `fs` in direction `d`. -/
def Charged (pf : Nat) (d : Bool) (p p' : Pool) (fs : List Nat) : Prop :=
  (∀ f ∈ fs, protoPart f pf ≤ f) ∧
  if d then p'.protoX = p.protoX + protoSum pf fs ∧ p'.protoY = p.protoY
  else p'.protoY = p.protoY + protoSum pf fs ∧ p'.protoX = p.protoX

theorem Charged.refl (pf : Nat) (d : Bool) (p p' : Pool) (hx : p'.protoX = p.protoX) (hy : p'.protoY = p.protoY) :
    Charged pf d p p' [] := by
  refine ⟨by simp, ?_⟩
  cases d <;> simp [protoSum, hx, hy]

theorem Charged.trans {pf : Nat} {d : Bool} {p q r : Pool} {a b : List Nat} (h : Charged pf d p q a)
    (h' : Charged pf d q r b) : Charged pf d p r (a ++ b) := by
  refine ⟨?_, ?_⟩
  · intro f hf
    rcases List.mem_append.1 hf with hf | hf
    · exact h.1 f hf
    · exact h'.1 f hf
  · have h1 := h.2
    have h2 := h'.2
    rw [protoSum_append]
    cases d <;> simp at h1 h2 ⊢ <;> omega

theorem protoPart_zero (pf : Nat) : protoPart 0 pf = 0 := by
  unfold protoPart
  rw [Nat.zero_mul, Nat.zero_add]
  exact Nat.div_eq_of_lt (Nat.sub_lt (by decide) (by decide))

theorem addFee_charged {pool p : Pool} {amount : Nat} {d : Bool} {pf : Nat}
    (h : pool.addFee amount d pf = .ok p) (hL : pool.liquidity = 0 → amount = 0) :
    Charged pf d pool p [amount] := by
  obtain ⟨h0, h1⟩ := Pool.addFee_inv h
  have hs : protoSum pf [amount] = protoPart amount pf := by
    unfold protoSum
    rw [List.map_singleton, List.sum_singleton]
  refine ⟨fun f hf => by rw [List.mem_singleton] at hf; subst hf; exact h0, ?_⟩
  rw [hs]
  rcases h1 with ⟨h1, h2⟩ | ⟨_, _, g, _, h2⟩
  · have ha : protoPart amount pf = 0 := by
      have : amount = 0 := by
        rcases h1 with h1 | h1
        · exact h1
        · exact hL h1
      rw [this]; exact protoPart_zero pf
    rw [ha, h2]
    cases d
    · exact ⟨rfl, rfl⟩
    · exact ⟨rfl, rfl⟩
  · cases d
    · rw [h2.2]; exact ⟨rfl, rfl⟩
    · rw [h2.2]; exact ⟨rfl, rfl⟩

theorem computeSwapStep_zero {cur target amount fee : Nat} {b : Bool} {r : SwapResult}
    (h : computeSwapStep cur target 0 amount b fee = .ok r) : r = ⟨target, 0, 0, 0⟩ := by
  unfold computeSwapStep at h
  simpa using h.symm

theorem updateTick_charged {pool : Pool} {np sl : Nat} {upd : TickUpd} {rem : Nat} {b d : Bool} {now pf : Nat}
    {tier : FeeTier} {u : TickUpdRes}
    (h : pool.updateTick np sl upd rem b d now pf tier = .ok u) :
    ∃ fs, Charged pf d pool u.pool fs ∧ fs.sum = u.total := by
  rcases updateTick_inv h with ⟨_, t, _, h⟩ | ⟨_, e, he, ⟨i, _, h⟩ | ⟨t, _, h⟩⟩
  · subst h; exact ⟨[], .refl _ _ _ _ rfl rfl, rfl⟩
  · subst h; exact ⟨[], .refl _ _ _ _ rfl rfl, rfl⟩
  · rcases h with ⟨_, tp, hc, h⟩ | ⟨hd, hen, _, _, p, hp, h⟩ | ⟨_, _, _, h⟩
    · obtain ⟨liq, _, _, _, h2⟩ := Tick.cross_inv hc
      subst h
      exact ⟨[], .refl _ _ _ _ (by rw [h2]) (by rw [h2]), rfl⟩
    · subst h
      refine ⟨[rem], ?_, by simp⟩
      have hch := addFee_charged hp (fun h0 => by
        exfalso
        unfold isEnoughAmountToChangePrice at he
        rw [if_pos h0, ok_inj] at he
        subst hen
        simp at he)
      exact ⟨hch.1, hch.2⟩
    · subst h; exact ⟨[], .refl _ _ _ _ rfl rfl, rfl⟩

theorem swapIter_charged {s : Store} {pr : SwapParams} {st st' : SwapState} {cfg : Config}
    (hc : s.config = some cfg) (h : swapIter s pr st = .ok st') :
    ∃ fs, Charged cfg.protocolFee pr.xToY st.pool st'.pool fs ∧ st.totalIn + fs.sum ≤ st'.totalIn := by
  obtain ⟨cl, r, cfg', pool1, upd, u, rem, _, hs, _, hc', h1, _, _, h2, _, _, _, h3⟩ := swapIter_inv h
  rw [hc] at hc'; cases hc'
  have a := addFee_charged h1 (fun h0 => by
    rw [h0] at hs
    rw [computeSwapStep_zero hs])
  obtain ⟨fs, b, hb⟩ := updateTick_charged h2
  subst h3
  refine ⟨[r.feeAmount] ++ fs, a.trans ⟨b.1, b.2⟩, ?_⟩
  simp only [List.sum_append, List.sum_cons, List.sum_nil, hb]
  omega

theorem calculateSwap_charged {s : Store} {now : Nat} {k : PoolKey} {d : Bool} {amount : Nat} {b : Bool}
    {limit : Nat} {r : CalcSwapResult} {cfg : Config} (hc : s.config = some cfg)
    (h : calculateSwap s now k d amount b limit = .ok r) :
    ∃ pool fs, s.pools.get? k.key = some pool ∧ Charged cfg.protocolFee d pool r.pool fs ∧
      fs.sum ≤ r.amountIn := by
  obtain ⟨pool, st, _, hp, _, _, hl, _, hr⟩ := calculateSwap_inv h
  obtain ⟨⟨fs, h1, h2⟩, _⟩ := swapLoop_induct
    (fun x => ∃ fs, Charged cfg.protocolFee d pool x.pool fs ∧ fs.sum ≤ x.totalIn)
    (fun a b ha _ hab => by
      obtain ⟨fs, h1, h2⟩ := ha
      obtain ⟨gs, h3, h4⟩ := swapIter_charged hc hab
      exact ⟨fs ++ gs, h1.trans h3, by simp only [List.sum_append]; omega⟩) _ _ _
    ⟨[], .refl _ _ _ _ rfl rfl, by simp⟩ hl
  exact ⟨pool, fs, hp, by rw [hr]; exact h1, by rw [hr]; exact h2⟩

/-- Fees charged in both tokens. -/
def ChargedBoth (pf : Nat) (p p' : Pool) (fx fy : List Nat) : Prop :=
  (∀ f ∈ fx ++ fy, protoPart f pf ≤ f) ∧ p'.protoX = p.protoX + protoSum pf fx ∧
    p'.protoY = p.protoY + protoSum pf fy

theorem ChargedBoth.refl (pf : Nat) (p p' : Pool) (hx : p'.protoX = p.protoX) (hy : p'.protoY = p.protoY) :
    ChargedBoth pf p p' [] [] := ⟨by simp, by simpa [protoSum] using hx, by simpa [protoSum] using hy⟩

theorem ChargedBoth.trans {pf : Nat} {p q r : Pool} {a b a' b' : List Nat} (h : ChargedBoth pf p q a b)
    (h' : ChargedBoth pf q r a' b') : ChargedBoth pf p r (a ++ a') (b ++ b') := by
  refine ⟨?_, ?_, ?_⟩
  · intro f hf
    simp only [List.append_assoc, List.mem_append] at hf
    rcases hf with hf | hf | hf | hf
    · exact h.1 f (by simp [hf])
    · exact h'.1 f (by simp [hf])
    · exact h.1 f (by simp [hf])
    · exact h'.1 f (by simp [hf])
  · rw [protoSum_append]; have := h.2.1; have := h'.2.1; omega
  · rw [protoSum_append]; have := h.2.2; have := h'.2.2; omega

theorem Charged.both {pf : Nat} {d : Bool} {p p' : Pool} {fs : List Nat} (h : Charged pf d p p' fs) :
    ChargedBoth pf p p' (if d then fs else []) (if d then [] else fs) := by
  have h2 := h.2
  refine ⟨?_, ?_, ?_⟩
  · cases d <;> simpa using h.1
  · cases d <;> simp [protoSum] at h2 ⊢ <;> omega
  · cases d <;> simp [protoSum] at h2 ⊢ <;> omega

theorem swapRouteInternal_charged {c : Chain} {info : Info} {now : Nat} {cfg : Config} : ∀ {hops : List Hop}
    {s s' : Store} {a fin : Nat} {m out : List OutMsg}, s.config = some cfg →
    swapRouteInternal c info now hops s a m = .ok (s', fin, out) →
    ∀ key p, s.pools.get? key = some p → ∃ p' fx fy, s'.pools.get? key = some p' ∧
      ChargedBoth cfg.protocolFee p p' fx fy
  | [], s, s', a, fin, m, out, hc, h => by
    simp only [swapRouteInternal, ok_inj, Prod.mk.injEq] at h
    intro key p hp
    exact ⟨p, [], [], h.1 ▸ hp, .refl _ _ _ rfl rfl⟩
  | hh :: hops, s, s', a, fin, m, out, hc, h => by
    simp only [swapRouteInternal, bind_ok] at h
    obtain ⟨x, h1, h2⟩ := h
    obtain ⟨t, e1⟩ := swapInternal_frame h1
    obtain ⟨_, _, h3, _⟩ := swapInternal_inv h1
    obtain ⟨pool, fs, h4, h5, _⟩ := calculateSwap_charged hc h3
    intro key p hp
    have hx : ∃ q fx fy, x.1.pools.get? key = some q ∧ ChargedBoth cfg.protocolFee p q fx fy := by
      rw [e1]
      simp only [KV.get?_insert]
      by_cases hk : key = hh.poolKey.key
      · subst hk
        rw [hp] at h4; cases h4
        exact ⟨_, _, _, by simp, h5.both⟩
      · exact ⟨p, [], [], by simp [hk, hp], .refl _ _ _ rfl rfl⟩
    obtain ⟨q, fx, fy, hq, hqc⟩ := hx
    obtain ⟨p', fx', fy', hp', hpc⟩ := swapRouteInternal_charged (by rw [e1]; exact hc) h2 key q hq
    exact ⟨p', _, _, hp', hqc.trans hpc⟩

end OraiV3
