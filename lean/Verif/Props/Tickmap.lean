import Verif.Lemmas.Tickmap
import Verif.Props.Ticks

/-!
# C43: the tickmap query
-/

namespace OraiV3

/-- Position of a tick in the tickmap: multiples of the spacing counted from the lowest one. -/
def tickPosition (ts : Nat) (i : Int) : Nat := (i / ts + (221818 / ts : Nat)).toNat

/-- A list of chunks of 64 bits shows a tick. -/
def ShownIn (l : List (Nat × Nat)) (ts : Nat) (i : Int) : Prop :=
  ∃ v, (tickPosition ts i / 64, v) ∈ l ∧ v.testBit (tickPosition ts i % 64) = true

theorem tickmapOf_eq {l : List (Nat × Nat)} (hn : (l.map (·.1)).Nodup) (c b : Nat) :
    (tickmapOf l c).testBit b = true ↔ ∃ v, (c, v) ∈ l ∧ v.testBit b = true := by
  constructor
  · intro h
    unfold tickmapOf at h
    split at h
    · rename_i e hf
      have h1 := List.mem_of_find?_eq_some hf
      have h2 : e.1 = c := by simpa using List.find?_some hf
      exact ⟨e.2, by rw [← h2]; exact h1, h⟩
    · simp at h
  · rintro ⟨v, h1, h2⟩
    rw [find_of_mem hn h1]
    exact h2

/-- **C43.** The tickmap query between two ticks returns at most 1638 chunks, in the direction asked for.  Every tick between
them is shown in the result exactly if it is initialized, as long as the result is not full or the tick does not lie beyond
the last chunk returned.  -/
theorem C43_tickmap {s : Store} {k : PoolKey} {lower upper : Int} {d : Bool} {l : List (Nat × Nat)}
    (h : queryTickmap s k lower upper d = .ok l) :
    l.length ≤ 1638 ∧ l.Pairwise (fun a b => if d then b.1 < a.1 else a.1 < b.1) ∧
    ∀ i, ValidTick k.tier.spacing i → lower ≤ i → i ≤ upper →
      (l.length < 1638 ∨ ∃ e ∈ l, if d then e.1 ≤ tickPosition k.tier.spacing i / 64 else tickPosition k.tier.spacing i / 64 ≤ e.1) →
      (ShownIn l k.tier.spacing i ↔ Initialized s k i) := by
  obtain ⟨h0, h1, h2, h3, h4⟩ := queryTickmap_view h
  refine ⟨h1, h2, fun i hi hlo hup hc => ?_⟩
  have hnd : (l.map (·.1)).Nodup := by
    unfold List.Nodup
    rw [List.pairwise_map]
    refine List.Pairwise.imp (fun {a b} (hab : if d then b.1 < a.1 else a.1 < b.1) => ?_) h2
    intro e
    split at hab <;> omega
  rw [initialized_iff (validTick_iff.1 hi)]
  unfold ShownIn tickSet bitOf
  rw [← tickmapOf_eq hnd]
  change (tickmapOf l (bitOfTick k.tier.spacing i / 64)).testBit (bitOfTick k.tier.spacing i % 64) = true ↔ _
  rw [h4 (bitOfTick k.tier.spacing i / 64) ?_ ?_ hc]
  · apply Nat.div_le_div_right
    unfold bitOfTick
    have : lower / (k.tier.spacing : Int) ≤ i / k.tier.spacing := Int.ediv_le_ediv (by omega) hlo
    omega
  · apply Nat.div_le_div_right
    unfold bitOfTick
    have : i / (k.tier.spacing : Int) ≤ upper / k.tier.spacing := Int.ediv_le_ediv (by omega) hup
    omega

/-- **C43.** In every reachable storage the chunks returned show exactly the ticks where a position starts or ends. -/
theorem C43_tickmap_is_the_positions {c : Chain} {s : Store} (hr : Reach c s) {k : PoolKey} (hk : k.wf) {pool : Pool}
    (hp : s.pools.get? k.key = some pool) {lower upper : Int} {d : Bool} {l : List (Nat × Nat)}
    (h : queryTickmap s k lower upper d = .ok l) (hl : l.length < 1638) {i : Int} (hi : ValidTick k.tier.spacing i)
    (h1 : lower ≤ i) (h2 : i ≤ upper) : ShownIn l k.tier.spacing i ↔ UsedTick s k i := by
  rw [(C43_tickmap h).2.2 i hi h1 h2 (.inl hl)]
  exact C02_tickmap_is_the_positions hr hk hp hi

/-- Between valid ticks the query always answers. -/
theorem C43_answers {s : Store} {k : PoolKey} {lower upper : Int} (h1 : ValidTick k.tier.spacing lower) (h2 : ValidTick k.tier.spacing upper)
    (d : Bool) : ∃ l, queryTickmap s k lower upper d = .ok l := by
  unfold queryTickmap
  simp only
  rw [tickToPosition_ok (validTick_iff.1 h1), tickToPosition_ok (validTick_iff.1 h2)]
  exact ⟨_, rfl⟩

/-- Ticks -20, 10 and 30 are in use. -/
example : (queryTickmap (Demo.state Demo.chain Demo.shared) Demo.key (-221810) 221810 true).toOption =
    some [(346, 2 ^ 35 + 2 ^ 38 + 2 ^ 40)] := by decide +kernel

end OraiV3
