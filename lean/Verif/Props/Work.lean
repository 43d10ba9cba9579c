import Verif.WorkSpec
import Verif.Lemmas.Work
import Verif.Lemmas.Read
import Verif.Props.Ticks
import Verif.Props.Mono

/-!
# C86: the work of a swap is bounded by what it passes

False when X is bought by exact output (`C86_false`): such a swap may stop between two ticks with something left, and go on.
-/

namespace OraiV3

theorem mem_usedTicks {s : Store} {k : PoolKey} {a b t : Int} :
    t ∈ usedTicks s k a b ↔ UsedTick s k t ∧ min a b ≤ t ∧ t ≤ max a b := by
  unfold usedTicks UsedTick
  rw [Finset.mem_filter, List.mem_toFinset, List.mem_flatMap]
  simp only [List.mem_cons, List.not_mem_nil, or_false, eq_comm (a := t)]

theorem work_arith {w ts Δ n m : Nat} (hts : 0 < ts) (h1 : n ≤ m + w) (h2 : 256 * w * ts ≤ Δ + ts) :
    n ≤ m + Δ / (256 * ts) + 1 := by
  rcases Nat.eq_zero_or_pos w with rfl | hw
  · generalize Δ / (256 * ts) = q; omega
  · have : w - 1 ≤ Δ / (256 * ts) := by
      rw [Nat.le_div_iff_mul_le (by omega)]
      obtain ⟨v, rfl⟩ : ∃ v, w = v + 1 := ⟨w - 1, by omega⟩
      rw [Nat.add_sub_cancel, show v * (256 * ts) = 256 * v * ts by ring]
      rw [show 256 * (v + 1) * ts = 256 * v * ts + 256 * ts by ring] at h2
      omega
    generalize Δ / (256 * ts) = q at this ⊢; omega

/-- **C86.** A swap that sells X, or that sells an exact amount of Y, takes at most two steps more than there are ticks in use
between the tick where the pool was and the tick where it is afterwards, and one more for each 256 tick spacings between them.

Missing: purchases of X by exact output, for which this is false. -/
theorem C86_steps_partial {c : Chain} {s s' : Store} (hr : Reach c s) {env : Env} {info : Info} {k : PoolKey} {d : Bool}
    {amount : Nat} {b : Bool} {limit : Nat} {out : List OutMsg}
    (h : execute c env info (.swap k d amount b limit) s = .ok (s', out)) (hdb : d = true ∨ b = true) :
    ∃ p p', s.pools.get? k.key = some p ∧ s'.pools.get? k.key = some p' ∧
      swapSteps s env.millis k d amount b limit ≤
        (usedTicks s k p.tick p'.tick).card + (p.tick - p'.tick).natAbs / (256 * k.tier.spacing) + 2 := by
  obtain ⟨hwf, h⟩ := execute_ok.1 h
  have hk : k.wf := hwf.1
  obtain ⟨r, h⟩ := swap_inv h
  obtain ⟨ticks, hs'⟩ := swapInternal_frame h
  obtain ⟨s1, m1, hc, -⟩ := swapInternal_inv h
  obtain ⟨p, -, -, hp, -⟩ := calculateSwap_inv hc
  have hst := hr.mreach.struct
  have hts := (hst.tier hk hp).1
  refine ⟨p, r.pool, hp, ?_, ?_⟩
  · simp only at hs'
    rw [hs']; simp [KV.get?_insert]
  have hw := swap_work hst hr.mreach.bitInv hk hp (hr.mreach.price k p hk hp) hc hdb
  simp only at hw
  rcases hw with h0 | ⟨n, t, ht, h0, ⟨h1, w, h2, h3⟩, h4⟩
  · rw [h0]; exact Nat.zero_le _
  rw [h0]
  have hpt : TickOk k.tier.spacing p.tick := (hr.mreach.price k p hk hp).tick
  have used : ∀ {a e j : Int}, TickOk k.tier.spacing a → TickOk k.tier.spacing e → j ∈ storedTicks s k a e →
      UsedTick s k j ∧ a + k.tier.spacing ≤ j ∧ j ≤ e := by
    intro a e j ha he hj
    unfold storedTicks at hj
    rw [Finset.mem_filter, Finset.mem_Ioc, Option.isSome_iff_exists] at hj
    obtain ⟨⟨j1, j2⟩, tk, j3⟩ := hj
    have i1 := ha.i32
    have i2 := he.i32
    unfold i32 at i1 i2
    have hu := (C02_ticks_are_the_positions hr hk ⟨by omega, by omega⟩).1.1 ⟨tk, getTick_ok.2 j3⟩
    exact ⟨hu, dvd_lt_step hts ha.dvd (usedTick_ok hst hu).dvd j1, j2⟩
  cases d
  · simp only [Bool.false_eq_true, if_false] at h1 h2 h3 h4
    have hsub : storedTicks s k p.tick t ⊆ usedTicks s k p.tick r.pool.tick := fun j hj => by
      obtain ⟨u1, u2, u3⟩ := used hpt ht hj
      exact mem_usedTicks.2 ⟨u1, by omega, by omega⟩
    have := Finset.card_le_card hsub
    have := work_arith hts (h2.trans (Nat.add_le_add_right this w)) (Δ := (p.tick - r.pool.tick).natAbs) (by omega)
    exact Nat.succ_le_succ this
  · simp only [if_true] at h1 h2 h3 h4
    have hsub : storedTicks s k t p.tick ⊆ usedTicks s k p.tick r.pool.tick := fun j hj => by
      obtain ⟨u1, u2, u3⟩ := used ht hpt hj
      exact mem_usedTicks.2 ⟨u1, by omega, by omega⟩
    have := Finset.card_le_card hsub
    have := work_arith hts (h2.trans (Nat.add_le_add_right this w)) (Δ := (p.tick - r.pool.tick).natAbs) (by omega)
    exact Nat.succ_le_succ this

namespace Demo

/-- Two ranges with nothing between them. -/
def distant : List (Info × Msg) := setup ++ [(by_ bob, .createPosition key 6000 7000 (10 ^ 12) 0 (10 ^ 30))]

end Demo

/-! A swap that passes two ticks in use and a wide gap in five steps: the bound is six. -/

example : let s := Demo.state Demo.chain Demo.distant
    (match execute Demo.chain Demo.env (Demo.by_ Demo.bob) (.swap Demo.key false 5000 true MAX_SQRT_PRICE) s with
      | .ok (s', _) => match s.pools.get? Demo.key.key, s'.pools.get? Demo.key.key with
        | some p, some p' => (swapSteps s Demo.env.millis Demo.key false 5000 true MAX_SQRT_PRICE,
            (usedTicks s Demo.key p.tick p'.tick).card, p.tick, p'.tick)
        | _, _ => (0, 0, 0, 0)
      | .error _ => (0, 0, 0, 0)) = (5, 2, 0, 6060) := by decide +kernel

/-- **C86 is false when X is bought by exact output.** Buying one unit of X in a thin pool takes four steps, although the tick
moves by fewer than 256 spacings, over no tick in use. -/
theorem C86_false : ¬ ∀ (c : Chain) (s s' : Store) (env : Env) (info : Info) (k : PoolKey) (d : Bool) (amount : Nat) (b : Bool)
    (limit : Nat) (out : List OutMsg), Reach c s → execute c env info (.swap k d amount b limit) s = .ok (s', out) →
    ∃ p p', s.pools.get? k.key = some p ∧ s'.pools.get? k.key = some p' ∧
      swapSteps s env.millis k d amount b limit ≤
        (usedTicks s k p.tick p'.tick).card + (p.tick - p'.tick).natAbs / (256 * k.tier.spacing) + 2 := by
  intro hall
  have hx : ∃ x, execute Demo.chain Demo.env (Demo.by_ Demo.bob) (.swap Demo.key100 false 1 false MAX_SQRT_PRICE)
      (Demo.state Demo.chain Demo.thin100) = .ok x ∧ (x.1.pools.get? Demo.key100.key).map (·.tick) = some 21600 := by
    have : ((execute Demo.chain Demo.env (Demo.by_ Demo.bob) (.swap Demo.key100 false 1 false MAX_SQRT_PRICE)
      (Demo.state Demo.chain Demo.thin100)).toOption.bind (fun x => (x.1.pools.get? Demo.key100.key).map (·.tick))) =
        some 21600 := by decide +kernel
    generalize execute Demo.chain Demo.env (Demo.by_ Demo.bob) (.swap Demo.key100 false 1 false MAX_SQRT_PRICE)
      (Demo.state Demo.chain Demo.thin100) = y at this
    cases y with
    | error e => cases this
    | ok x => exact ⟨x, rfl, this⟩
  obtain ⟨⟨s', out⟩, h1, h2⟩ := hx
  obtain ⟨p, p', g1, g2, g3⟩ := hall _ _ _ _ _ _ _ _ _ _ _ (Demo.state_reach (by decide +kernel)) h1
  rw [g2, Option.map_some, Option.some.injEq] at h2
  have g1' : (some p).map (·.tick) = some 0 := by rw [← g1]; decide +kernel
  rw [Option.map_some, Option.some.injEq] at g1'
  rw [h2, g1', show swapSteps (Demo.state Demo.chain Demo.thin100) Demo.env.millis Demo.key100 false 1 false MAX_SQRT_PRICE = 4 by
    decide +kernel, show usedTicks (Demo.state Demo.chain Demo.thin100) Demo.key100 0 21600 = ∅ by decide +kernel] at g3
  revert g3
  decide

end OraiV3
