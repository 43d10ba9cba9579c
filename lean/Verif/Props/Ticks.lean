import Verif.Lemmas.Count
import Verif.Examples

/-!
# Ticks and the tick bitmap (C02, C23, C30)
-/

namespace OraiV3

/-- The `IsTickInitialized` query answers yes. -/
def Initialized (s : Store) (k : PoolKey) (i : Int) : Prop := queryIsTickInitialized s k i = .ok true

instance (s : Store) (k : PoolKey) (i : Int) : Decidable (Initialized s k i) :=
  decidable_of_iff ((queryIsTickInitialized s k i).toOption = some true) (by
    unfold Initialized
    cases queryIsTickInitialized s k i <;> simp [Except.toOption])

/-- A multiple of the spacing inside the tick range; what every call checks of the ticks it is given. -/
def ValidTick (ts : Nat) (i : Int) : Prop :=
  0 < ts ∧ (ts : Int) ∣ i ∧ -((221818 / ts * ts : Nat) : Int) ≤ i ∧ i ≤ ((221818 / ts * ts : Nat) : Int)

instance (ts : Nat) (i : Int) : Decidable (ValidTick ts i) := inferInstanceAs (Decidable (_ ∧ _))

theorem validTick_iff {ts : Nat} {i : Int} : ValidTick ts i ↔ TickOk ts i := by
  rw [TickOk_iff, getMaxTick_half]
  unfold ValidTick halfTicks
  constructor
  · rintro ⟨a, b, d, e⟩
    exact ⟨by omega, Int.tmod_eq_zero_of_dvd b, by rw [Int.natCast_mul] at d; omega, by rw [Int.natCast_mul] at e; omega⟩
  · rintro ⟨a, b, d, e⟩
    exact ⟨by omega, Int.dvd_of_tmod_eq_zero b, by rw [Int.natCast_mul]; omega, by rw [Int.natCast_mul]; omega⟩

theorem initialized_iff {s : Store} {k : PoolKey} {i : Int} (h : TickOk k.tier.spacing i) :
    Initialized s k i ↔ tickSet (getChunk s k) k.tier.spacing i := by
  unfold Initialized queryIsTickInitialized getBitmap
  rw [tickToPosition_ok h]
  simp only [ok_bind, pure_ok]
  rw [bitAt_testBit]
  unfold tickSet bitOf
  cases (getChunk s k (bitOfTick k.tier.spacing i / 64)).testBit (bitOfTick k.tier.spacing i % 64) <;> simp

/-! ## C02 -/

/-- **C02.** In every reachable storage, for every pool and every tick: the tick is stored exactly when an
open position starts or ends there; its gross liquidity is the sum of those positions' liquidity and its
signed change the sum over those starting there minus the sum over those ending there. -/
theorem C02_ticks_are_the_positions {c : Chain} {s : Store} (hr : Reach c s) {k : PoolKey} (hk : k.wf) {i : Int}
    (hi : i32 i) :
    ((∃ t, getTick s k i = .ok t) ↔ UsedTick s k i) ∧
    ∀ t, getTick s k i = .ok t → t.index = i ∧
      t.gross = liquidityStartingAt s k i + liquidityEndingAt s k i ∧
      (if t.sign then (t.change : Int) else -(t.change : Int)) =
        (liquidityStartingAt s k i : Int) - (liquidityEndingAt s k i : Int) := by
  have hs := hr.mreach.struct
  have ht := hr.mreach.tickSum k i hk hi
  rw [usedTick_iff hs]
  unfold TickSumAt tickVal at ht
  unfold getTick
  cases hg : s.ticks.get? (tickKey k i) with
  | none =>
    rw [hg] at ht
    simp only [Option.map_none] at ht
    simp; omega
  | some t =>
    rw [hg] at ht
    simp only [Option.map_some] at ht
    refine ⟨⟨fun _ => by omega, fun _ => ⟨t, rfl⟩⟩, fun t' h => ?_⟩
    rw [ok_inj] at h
    subst h
    exact ⟨(hs.tick hk hi hg).1, ht.2.1, ht.2.2⟩

/-- **C02.** The bit of a valid tick is set in the tickmap exactly when an open position starts or ends
there. -/
theorem C02_tickmap_is_the_positions {c : Chain} {s : Store} (hr : Reach c s) {k : PoolKey} (hk : k.wf) {pool : Pool}
    (hp : s.pools.get? k.key = some pool) {i : Int} (hi : ValidTick k.tier.spacing i) :
    Initialized s k i ↔ UsedTick s k i := by
  have hok := validTick_iff.1 hi
  have hs := hr.mreach.struct
  have ht := hs.tier hk hp
  obtain ⟨h0, hq, h1, h2⟩ := hok.bits
  have hb := hr.mreach.bitInv.bit k (bitOfTick k.tier.spacing i) hk ht.1 ht.2.1 (bitOfTick_lt h2)
  rw [tickOfBit_bitOfTick hq h1] at hb
  rw [initialized_iff hok, ← (C02_ticks_are_the_positions hr hk hok.i32).1]
  unfold tickSet getTick
  rw [hb]
  cases s.ticks.get? (tickKey k i) <;> simp

namespace Demo

/-- Two positions of Alice and one of Bob share ticks; Alice removes one. -/
def shared : List (Info × Msg) := setup ++
  [(by_ alice, .createPosition key (-20) 10 (10 ^ 13) 0 (10 ^ 30)),
   (by_ bob, .createPosition key 10 30 (10 ^ 15) 0 (10 ^ 30)),
   (by_ alice, .removePosition 0)]

example : works chain shared = true := by decide +kernel
example : (s : Store) → s = state chain shared →
    Initialized s key 10 ∧ ¬ Initialized s key (-10) ∧ liquidityStartingAt s key 10 = 10 ^ 15 ∧
    liquidityEndingAt s key 10 = 10 ^ 13 := by
  intro s hs; subst hs; decide +kernel

end Demo

/-! ## C23 -/

/-- **C23.** Searching up from a valid tick returns the nearest initialized tick above it within the
search range of 256 spacings, and nothing if there is none, whatever the tickmap contains. -/
theorem C23_search_up {s : Store} {k : PoolKey} {t : Int} (ht : ValidTick k.tier.spacing t)
    (hw : ∀ chunk, getChunk s k chunk < 2 ^ 64) :
    match nextInitialized (getChunk s k) t k.tier.spacing with
    | .ok (some i) => t < i ∧ i ≤ t + 256 * k.tier.spacing ∧ ValidTick k.tier.spacing i ∧ Initialized s k i ∧
        ∀ j, ValidTick k.tier.spacing j → t < j → j < i → ¬ Initialized s k j
    | .ok none => ∀ j, ValidTick k.tier.spacing j → t < j → j ≤ t + 256 * k.tier.spacing → ¬ Initialized s k j
    | .error _ => False := by
  have h := validTick_iff.1 ht
  obtain ⟨r, h1, h2⟩ := nextInitialized_spec hw h
  rw [h1]
  cases r with
  | some i =>
    obtain ⟨a1, a2, a3, a4, a5⟩ := h2
    exact ⟨a1, by omega, validTick_iff.2 a3, (initialized_iff a3).2 a4, fun j hj b1 b2 b3 =>
      a5 j (validTick_iff.1 hj) b1 b2 ((initialized_iff (validTick_iff.1 hj)).1 b3)⟩
  | none =>
    intro j hj b1 b2 b3
    have hj' := validTick_iff.1 hj
    exact h2 j hj' b1 (by have := (TickOk_iff.1 hj').2.2.2; omega) ((initialized_iff hj').1 b3)

/-- **C23.** Searching down from a valid tick returns the nearest initialized tick at or below it within
the search range, and nothing if there is none, whatever the tickmap contains. -/
theorem C23_search_down {s : Store} {k : PoolKey} {t : Int} (ht : ValidTick k.tier.spacing t) :
    match prevInitialized (getChunk s k) t k.tier.spacing with
    | .ok (some i) => i ≤ t ∧ t - 256 * k.tier.spacing ≤ i ∧ ValidTick k.tier.spacing i ∧ Initialized s k i ∧
        ∀ j, ValidTick k.tier.spacing j → i < j → j ≤ t → ¬ Initialized s k j
    | .ok none => ∀ j, ValidTick k.tier.spacing j → j ≤ t → t - 256 * k.tier.spacing ≤ j → ¬ Initialized s k j
    | .error _ => False := by
  have h := validTick_iff.1 ht
  obtain ⟨r, h1, h2⟩ := prevInitialized_spec (bm := getChunk s k) h
  rw [h1]
  cases r with
  | some i =>
    obtain ⟨a1, a2, a3, a4, a5⟩ := h2
    exact ⟨a1, by omega, validTick_iff.2 a3, (initialized_iff a3).2 a4, fun j hj b1 b2 b3 =>
      a5 j (validTick_iff.1 hj) b1 b2 ((initialized_iff (validTick_iff.1 hj)).1 b3)⟩
  | none =>
    intro j hj b1 b2 b3
    have hj' := validTick_iff.1 hj
    exact h2 j hj' b1 (by have := (TickOk_iff.1 hj').2.2.1; omega) ((initialized_iff hj').1 b3)

/-- **C23.** Setting (clearing) the bit of a tick succeeds only if it was clear (set), sets (clears) it,
and affects no other tick of this or another pool. -/
theorem C23_flip {s s' : Store} {k : PoolKey} {t : Int} {v : Bool} (hk : k.wf)
    (h : flipBitmap s v t k.tier.spacing k = .ok s') :
    (Initialized s k t ↔ v = false) ∧ (Initialized s' k t ↔ v = true) ∧
    ∀ k' j, k'.wf → ValidTick k'.tier.spacing j → (k', j) ≠ (k, t) → (Initialized s' k' j ↔ Initialized s k' j) := by
  unfold flipBitmap at h
  simp only [bind_ok, ite_error_ok, pure_ok] at h
  obtain ⟨c, hc, hv, hs'⟩ := h
  have hb : s'.bitmap = s.bitmap.insert (bitmapKey c.1 k) (flipBit (getChunk s k c.1) c.2) := by rw [← hs']
  clear hs'
  obtain ⟨h0, hq, h1, h2, rfl⟩ := tickToPosition_inv hc
  have hok : TickOk k.tier.spacing t := by rw [hq]; exact tickOk_mul h0 h1 h2
  have hfl := fun (k' : PoolKey) (j : Int) (hk' : k'.wf) (hj : TickOk k'.tier.spacing j) =>
    bitOf_flip hk (bitOfTick_lt h2) hb hk' (m' := bitOfTick k'.tier.spacing j) (bitOfTick_lt hj.bits.2.2.2)
  have hv' : bitOf (getChunk s k) (bitOfTick k.tier.spacing t) = !v := by
    have hv := Decidable.not_not.1 hv
    rw [bitAt_testBit] at hv
    unfold bitOf
    cases h : (getChunk s k (bitOfTick k.tier.spacing t / 64)).testBit (bitOfTick k.tier.spacing t % 64) <;>
      rw [h] at hv <;> simp at hv <;> simp [← hv]
  refine ⟨?_, ?_, fun k' j hk' hj hne => ?_⟩
  · rw [initialized_iff hok]; unfold tickSet; rw [hv']; cases v <;> simp
  · rw [initialized_iff hok]; unfold tickSet; rw [hfl k t hk hok, hv']; cases v <;> simp
  · have hj := validTick_iff.1 hj
    rw [initialized_iff hj, initialized_iff hj]; unfold tickSet; rw [hfl k' j hk' hj]
    have : ¬ (k' = k ∧ bitOfTick k'.tier.spacing j = bitOfTick k.tier.spacing t) := by
      rintro ⟨rfl, e⟩
      apply hne
      have a := tickOfBit_bitOfTick hj.bits.2.1 hj.bits.2.2.1
      have b := tickOfBit_bitOfTick hq h1
      rw [← a, ← b, e]
    simp [this]

example : Demo.state Demo.chain Demo.shared = Demo.state Demo.chain Demo.shared →
    (nextInitialized (getChunk (Demo.state Demo.chain Demo.shared) Demo.key) (-20) 10).toOption = some (some 10) := by
  intro _; decide +kernel
example : (flipBitmap (Demo.state Demo.chain Demo.shared) true 0 10 Demo.key).toOption.isSome = true := by decide +kernel

/-! ## C30 -/

/-- The initialized ticks between two valid ticks, in order. -/
def initializedBetween (s : Store) (k : PoolKey) (lower upper : Int) : List Int :=
  ((List.range ((upper - lower) / k.tier.spacing + 1).toNat).map (fun n : Nat => lower + n * (k.tier.spacing : Int))).filter
    (fun i => decide (Initialized s k i))

/-- **C30 is false.** With spacing 10, the count between -370 and 260 panics: the two ticks are the first
and the last bit of a word. -/
theorem C30_false : ¬ ∀ (c : Chain) (s : Store) (k : PoolKey) (pool : Pool) (lower upper : Int),
    Reach c s → k.wf → s.pools.get? k.key = some pool →
    ValidTick k.tier.spacing lower → ValidTick k.tier.spacing upper → lower ≤ upper →
    queryLiquidityTicksAmount s k lower upper = .ok (initializedBetween s k lower upper).length := by
  intro hall
  have hr := Demo.state_reach (c := Demo.chain) (ms := Demo.setup) (by decide +kernel)
  generalize hs : Demo.state Demo.chain Demo.setup = s at hr
  have hx : (s.pools.get? Demo.key.key).isSome = true := by subst hs; decide +kernel
  obtain ⟨pool, hp⟩ := Option.isSome_iff_exists.1 hx
  have := hall _ s Demo.key pool (-370) 260 hr (by decide) hp (by decide) (by decide) (by decide)
  have hy : (queryLiquidityTicksAmount s Demo.key (-370) 260).toOption = none := by subst hs; decide +kernel
  rw [this] at hy
  simp [Except.toOption] at hy

/-- **C30**, the part that holds: for valid bounds the query returns the number of initialized ticks in
`[lower, upper]`, or panics.  Missing: that it always answers (see `C30_false`); it answers exactly when
the words of the tickmap at the two ends are not used completely. -/
theorem C30_count_partial {s : Store} {k : PoolKey} {lower upper : Int}
    (hl : ValidTick k.tier.spacing lower) (hu : ValidTick k.tier.spacing upper) (hlu : lower ≤ upper) :
    queryLiquidityTicksAmount s k lower upper =
      if PartialWords (lower / k.tier.spacing + (221818 / k.tier.spacing : Nat)).toNat
        (upper / k.tier.spacing + (221818 / k.tier.spacing : Nat)).toNat
      then .ok (initializedBetween s k lower upper).length else .error .panic := by
  have hl' := validTick_iff.1 hl
  have hu' := validTick_iff.1 hu
  rw [ticksAmount_spec hl' hu' hlu]
  obtain ⟨h0, ql, l1, l2⟩ := hl'.bits
  obtain ⟨_, qu, u1, u2⟩ := hu'.bits
  have hpw : PartialWords (bitOfTick k.tier.spacing lower) (bitOfTick k.tier.spacing upper) ↔
      PartialWords (lower / k.tier.spacing + (221818 / k.tier.spacing : Nat)).toNat
        (upper / k.tier.spacing + (221818 / k.tier.spacing : Nat)).toNat := Iff.rfl
  have hcnt : cnt (bitOf (getChunk s k)) (bitOfTick k.tier.spacing lower)
      (bitOfTick k.tier.spacing upper - bitOfTick k.tier.spacing lower + 1) =
      (initializedBetween s k lower upper).length := by
    unfold initializedBetween cnt
    rw [List.filter_map, List.length_map]
    have e : (upper - lower) / (k.tier.spacing : Int) = upper / k.tier.spacing - lower / k.tier.spacing := by
      conv => lhs; rw [ql, qu, ← Int.sub_mul]
      exact Int.mul_ediv_cancel _ (by omega)
    have hle : lower / (k.tier.spacing : Int) ≤ upper / k.tier.spacing := Int.ediv_le_ediv (by omega) hlu
    have e2 : ((upper - lower) / (k.tier.spacing : Int) + 1).toNat =
        bitOfTick k.tier.spacing upper - bitOfTick k.tier.spacing lower + 1 := by
      rw [e]; unfold bitOfTick; omega
    rw [e2]
    congr 1
    apply List.filter_congr
    intro n hn
    rw [List.mem_range] at hn
    have en : lower + (n : Int) * k.tier.spacing = (lower / k.tier.spacing + n) * k.tier.spacing := by
      rw [Int.add_mul, ← ql]
    have hdiv : (lower + (n : Int) * k.tier.spacing) / k.tier.spacing = lower / k.tier.spacing + n := by
      rw [en]; exact Int.mul_ediv_cancel _ (by omega)
    have hnu : lower / (k.tier.spacing : Int) + n ≤ upper / k.tier.spacing := by
      unfold bitOfTick at hn; omega
    have hok : TickOk k.tier.spacing (lower + (n : Int) * k.tier.spacing) := by
      rw [en]; exact tickOk_mul h0 (by omega) (by omega)
    have hb : bitOfTick k.tier.spacing (lower + (n : Int) * k.tier.spacing) = bitOfTick k.tier.spacing lower + n := by
      unfold bitOfTick
      rw [hdiv]; omega
    have := initialized_iff (s := s) hok
    unfold tickSet at this
    rw [hb] at this
    simp only [Function.comp_apply]
    rw [Bool.eq_iff_iff, decide_eq_true_iff, this]
  rw [hcnt]
  rfl

example : (queryLiquidityTicksAmount (Demo.state Demo.chain Demo.shared) Demo.key (-20) 30).toOption = some 3 := by
  decide +kernel

end OraiV3
