import Verif.Props.Accept
import Verif.Props.Positions
import Verif.Props.Ticks

/-!
# C70: the queries show the state
-/

namespace OraiV3

/-- **C70**, pools.  `Pool` finds the pool of the two tokens in either order, and fails exactly if there is none. -/
theorem C70_pool {c : Chain} {s : Store} (hr : Reach c s) {a b : Bytes} {tier : FeeTier} (ha : a.length < 2 ^ 16)
    (hb : b.length < 2 ^ 16) (ht : tier.wf) (p : Pool) :
    queryPool s a b tier = .ok p ↔
      s.pools.get? (PoolKey.key ⟨a, b, tier⟩) = some p ∨ s.pools.get? (PoolKey.key ⟨b, a, tier⟩) = some p := by
  have hab : (⟨a, b, tier⟩ : PoolKey).wf := ⟨ha, hb, ht⟩
  have hba : (⟨b, a, tier⟩ : PoolKey).wf := ⟨hb, ha, ht⟩
  have irr : ∀ x : Bytes, bytesLt x x = false := by
    intro x
    induction x with
    | nil => rfl
    | cons y ys ih => simp [bytesLt, ih]
  unfold queryPool PoolKey.new
  constructor
  · intro h
    rw [bind_ok] at h
    obtain ⟨k, hk, h⟩ := h
    rw [getPool_ok] at h
    split at hk
    · simp at hk
    · split at hk
      · rw [ok_inj] at hk; rw [hk]; exact .inl h
      · rw [ok_inj] at hk; rw [hk]; exact .inr h
  · intro h
    rcases h with h | h
    · have hlt : bytesLt a b = true := ((C58_parameters hr).1 _ p hab h).1
      have hne : a ≠ b := by rintro rfl; rw [irr] at hlt; simp at hlt
      rw [if_neg hne, if_pos hlt, ok_bind, getPool_ok]
      exact h
    · have hlt : bytesLt b a = true := ((C58_parameters hr).1 _ p hba h).1
      have hne : a ≠ b := by rintro rfl; rw [irr] at hlt; simp at hlt
      have hf := bytesLt_flip hne
      rw [hlt] at hf
      have hf : bytesLt a b = false := by simpa using hf.symm
      rw [if_neg hne, hf, if_neg (by simp), ok_bind, getPool_ok]
      exact h

/-- **C70**, positions.  `Position` shows the entry of the account's list, and fails exactly beyond its end. -/
theorem C70_position {c : Chain} {s : Store} (hr : Reach c s) (owner : Bytes) {i : Nat} (hi : i < 2 ^ 32) (p : Position) :
    getPosition s owner i = .ok p ↔ (positionList s owner)[i]? = some (some p) := by
  have pi := hr.mreach.posInv
  rw [getPosition_ok, positionList_getElem?]
  constructor
  · intro h
    rw [if_pos ((pi.iff owner i hi).1 ⟨p, h⟩), h]
  · intro h
    split at h
    · simpa using h
    · simp at h

/-- **C70**, liquidity of ticks.  `LiquidityTicks` answers exactly if at most 780 ticks are asked for and each is the end of an
open position; then it shows for each the liquidity of the positions that start there minus that of those that end there. -/
theorem C70_liquidity_ticks {c : Chain} {s : Store} (hr : Reach c s) {k : PoolKey} (hk : k.wf) {idx : List Int}
    (hi : ∀ i ∈ idx, i32 i) :
    ((∃ l, queryLiquidityTicks s k idx = .ok l) ↔ idx.length ≤ 780 ∧ ∀ i ∈ idx, UsedTick s k i) ∧
    ∀ l, queryLiquidityTicks s k idx = .ok l → l.length = idx.length ∧ ∀ (n : Nat) (i : Int), idx[n]? = some i →
      ∃ (m : Nat) (sg : Bool), l[n]? = some (i, m, sg) ∧
        (if sg then (m : Int) else -(m : Int)) = (liquidityStartingAt s k i : Int) - (liquidityEndingAt s k i : Int) := by
  have key : ∀ idx : List Int, (∀ i ∈ idx, i32 i) →
      ((∃ l, idx.mapM (fun i => do
        let t ← getTick s k i
        (pure (t.index, t.change, t.sign) : M (Int × Nat × Bool))) = .ok l) ↔ ∀ i ∈ idx, UsedTick s k i) ∧
      ∀ l, idx.mapM (fun i => do
        let t ← getTick s k i
        (pure (t.index, t.change, t.sign) : M (Int × Nat × Bool))) = .ok l → l.length = idx.length ∧ ∀ (n : Nat) (i : Int), idx[n]? = some i →
        ∃ (m : Nat) (sg : Bool), l[n]? = some (i, m, sg) ∧
          (if sg then (m : Int) else -(m : Int)) = (liquidityStartingAt s k i : Int) - (liquidityEndingAt s k i : Int) := by
    intro idx
    induction idx with
    | nil =>
      intro _
      refine ⟨⟨fun _ i hi => by simp at hi, fun _ => ⟨[], rfl⟩⟩, fun l h => ?_⟩
      rw [List.mapM_nil, pure_ok] at h
      subst h
      exact ⟨rfl, fun n i hn => by simp at hn⟩
    | cons j idx ih =>
      intro hi
      obtain ⟨ih1, ih2⟩ := ih (fun i h => hi i (List.mem_cons_of_mem _ h))
      have hj := C02_ticks_are_the_positions hr hk (hi j List.mem_cons_self)
      rw [List.mapM_cons]
      simp only [bind_ok, pure_ok]
      refine ⟨⟨?_, ?_⟩, ?_⟩
      · rintro ⟨l, x, ⟨t, ht, rfl⟩, l', hl', rfl⟩ i him
        rcases List.mem_cons.1 him with rfl | him
        · exact hj.1.1 ⟨t, ht⟩
        · exact ih1.1 ⟨l', hl'⟩ i him
      · intro hu
        obtain ⟨t, ht⟩ := hj.1.2 (hu j List.mem_cons_self)
        obtain ⟨l', hl'⟩ := ih1.2 (fun i h => hu i (List.mem_cons_of_mem _ h))
        exact ⟨_, _, ⟨t, ht, rfl⟩, l', hl', rfl⟩
      · rintro l ⟨x, ⟨t, ht, rfl⟩, l', hl', rfl⟩
        obtain ⟨a1, a2⟩ := ih2 l' hl'
        refine ⟨by simp [a1], fun n i hn => ?_⟩
        cases n with
        | zero =>
          simp only [List.getElem?_cons_zero, Option.some.injEq] at hn
          subst hn
          obtain ⟨e1, _, e3⟩ := hj.2 t ht
          exact ⟨t.change, t.sign, by rw [List.getElem?_cons_zero, e1], e3⟩
        | succ n =>
          rw [List.getElem?_cons_succ] at hn ⊢
          exact a2 n i hn
  obtain ⟨k1, k2⟩ := key idx hi
  unfold queryLiquidityTicks
  by_cases hl : idx.length > 131072 / 168
  · rw [if_pos hl]
    refine ⟨⟨fun ⟨l, h⟩ => by simp at h, fun h => absurd h.1 (by omega)⟩, fun l h => by simp at h⟩
  · rw [if_neg hl]
    exact ⟨⟨fun h => ⟨by omega, k1.1 h⟩, fun h => k1.2 h.2⟩, k2⟩

namespace Demo

-- The pool of the demo is found in both orders; its two ticks carry the liquidity of Alice's position.
example : (queryPool (state chain setup) [97] [98] tier).toOption = (queryPool (state chain setup) [98] [97] tier).toOption ∧
    (queryPool (state chain setup) [97] [98] tier).isOk = true ∧ (queryPool (state chain setup) [97] [99] tier).isOk = false ∧
    (getPosition (state chain setup) alice 0).isOk = true ∧ (getPosition (state chain setup) alice 1).isOk = false ∧
    (queryLiquidityTicks (state chain setup) key [10, -10]).toOption = some [(10, 10 ^ 12, false), (-10, 10 ^ 12, true)] ∧
    (queryLiquidityTicks (state chain setup) key [10, 0]).isOk = false := by decide +kernel

end Demo

end OraiV3
