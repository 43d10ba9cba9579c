import Verif.Lemmas.Bitmap
import Verif.Query
import Verif.Sdk
import Mathlib.Tactic.Ring
import Mathlib.Data.List.Nodup

/-!
# Pages of the tickmap
-/

namespace OraiV3

theorem getMaxChunk_eq {ts : Nat} (h : 0 < ts) : getMaxChunk ts = 2 * halfTicks ts / 64 := by
  unfold getMaxChunk
  rw [getMaxTick_half]
  have e1 : ((halfTicks ts : Int) * ts + MAX_TICK).tdiv ts = 2 * halfTicks ts := by
    have hh : (221818 : Nat) = ts * halfTicks ts + 221818 % ts := (Nat.div_add_mod 221818 ts).symm
    have hm : 221818 % ts < ts := Nat.mod_lt _ h
    have e : ((halfTicks ts : Int) * ts + MAX_TICK) = ((halfTicks ts * ts + 221818 : Nat) : Int) := by
      push_cast; rfl
    rw [e, ← Int.ofNat_tdiv]
    have : (halfTicks ts * ts + 221818) / ts = 2 * halfTicks ts := by
      rw [Nat.add_comm, Nat.add_mul_div_right _ _ h]
      unfold halfTicks
      omega
    rw [this]; push_cast; rfl
  rw [e1]
  have e2 : (2 * (halfTicks ts : Int)).tdiv CHUNK_SIZE = ((2 * halfTicks ts / 64 : Nat) : Int) := by
    have : (2 * (halfTicks ts : Int)) = ((2 * halfTicks ts : Nat) : Int) := by push_cast; rfl
    rw [this]
    show (((2 * halfTicks ts : Nat) : Int)).tdiv ((64 : Nat) : Int) = _
    rw [← Int.ofNat_tdiv]
  rw [e2]
  exact Int.toNat_natCast _

theorem getMinChunk_eq {ts : Nat} (h : 0 < ts) : getMinChunk ts = 0 := by
  unfold getMinChunk
  rw [getMaxTick_half]
  have e1 : (MAX_TICK - (halfTicks ts : Int) * ts).tdiv ts = 0 := by
    have hh : ts * (221818 / ts) + 221818 % ts = 221818 := Nat.div_add_mod 221818 ts
    have hm : 221818 % ts < ts := Nat.mod_lt _ h
    have e : (MAX_TICK - (halfTicks ts : Int) * ts) = ((221818 % ts : Nat) : Int) := by
      unfold halfTicks
      have : (MAX_TICK : Int) = ((221818 : Nat) : Int) := rfl
      rw [this]
      have h2 : ((221818 / ts : Nat) : Int) * ts = ((ts * (221818 / ts) : Nat) : Int) := by push_cast; ring
      rw [h2]
      omega
    rw [e, ← Int.ofNat_tdiv, Nat.div_eq_of_lt hm]
    rfl
  rw [e1]
  rfl

theorem tickToPosition_chunk_le {t : Int} {ts : Nat} {c : Nat × Nat} (h : tickToPosition t ts = .ok c) :
    c.1 ≤ getMaxChunk ts := by
  obtain ⟨h0, _, h1, h2, rfl⟩ := tickToPosition_inv h
  rw [getMaxChunk_eq h0]
  simp only
  apply Nat.div_le_div_right
  unfold bitOfTick
  omega

theorem nextInitLoop_congr {bm bm' : Nat → Nat} {ts lc lb : Nat} (hb : ∀ c, c ≤ lc → bm' c = bm c) :
    ∀ n c b, nextInitLoop bm' ts lc lb n c b = nextInitLoop bm ts lc lb n c b
  | 0, _, _ => rfl
  | n + 1, c, b => by
    simp only [nextInitLoop]
    split
    · rename_i h
      rw [hb c (by omega), nextInitLoop_congr hb n]
    · rfl

theorem prevInitLoop_congr {bm bm' : Nat → Nat} {ts lc lb m : Nat} (hb : ∀ c, c ≤ m → bm' c = bm c) :
    ∀ n c b, c ≤ m → prevInitLoop bm' ts lc lb n c b = prevInitLoop bm ts lc lb n c b
  | 0, _, _, _ => rfl
  | n + 1, c, b, hc => by
    simp only [prevInitLoop]
    rw [hb c hc, prevInitLoop_congr hb n (c - 1) 63 (by omega)]

/-- The search only looks at chunks up to the last one of the pool. -/
theorem getCloserLimit_congr {bm bm' : Nat → Nat} {ts : Nat} (hb : ∀ c, c ≤ getMaxChunk ts → bm' c = bm c) (limit : Nat) (d : Bool)
    (cur : Int) : getCloserLimit bm' limit d cur ts = getCloserLimit bm limit d cur ts := by
  have h1 : nextInitialized bm' cur ts = nextInitialized bm cur ts := by
    unfold nextInitialized
    cases hl : getSearchLimit cur ts true with
    | error e => simp only [error_bind]
    | ok l =>
      simp only [ok_bind]
      split
      · rfl
      · cases hc : tickToPosition (cur + ts) ts with
        | error e => simp only [error_bind]
        | ok c =>
          simp only [ok_bind]
          cases hl2 : tickToPosition l ts with
          | error e => simp only [error_bind]
          | ok l2 =>
            simp only [ok_bind]
            rw [nextInitLoop_congr (fun c hc => hb c (Nat.le_trans hc (tickToPosition_chunk_le hl2)))]
  have h2 : prevInitialized bm' cur ts = prevInitialized bm cur ts := by
    unfold prevInitialized
    cases hl : getSearchLimit cur ts false with
    | error e => simp only [error_bind]
    | ok l =>
      simp only [ok_bind]
      cases hc : tickToPosition cur ts with
      | error e => simp only [error_bind]
      | ok c =>
        simp only [ok_bind]
        cases hl2 : tickToPosition l ts with
        | error e => simp only [error_bind]
        | ok l2 =>
          simp only [ok_bind]
          rw [prevInitLoop_congr hb _ _ _ (tickToPosition_chunk_le hc)]
  unfold getCloserLimit
  rw [h1, h2]

/-! ## Slices -/

theorem find_of_mem {L : List (Nat × Nat)} (hn : (L.map (·.1)).Nodup) {c v : Nat} (h : (c, v) ∈ L) :
    tickmapOf L c = v := by
  unfold tickmapOf
  cases hf : L.find? (fun e => e.1 = c) with
  | none =>
    rw [List.find?_eq_none] at hf
    have := hf _ h
    simp at this
  | some e =>
    have h1 : e ∈ L := List.mem_of_find?_eq_some hf
    have h2 : e.1 = c := by simpa using List.find?_some hf
    have : e = (c, v) := List.inj_on_of_nodup_map hn h1 h h2
    rw [this]

theorem find_of_not_mem {L : List (Nat × Nat)} {c : Nat} (h : ∀ e ∈ L, e.1 ≠ c) : tickmapOf L c = 0 := by
  unfold tickmapOf
  have : L.find? (fun e => e.1 = c) = none := by
    rw [List.find?_eq_none]
    intro e he
    simpa using h e he
  rw [this]

/-- A page of the entries of a sorted list of keys: everything up to the last entry on the page is on it. -/
theorem page_lookup {r : Nat → Nat → Prop} (hirr : ∀ a, ¬ r a a) (hasym : ∀ a b, r a b → ¬ r b a) {R : List Nat}
    (hR : R.Pairwise r) (f : Nat → Option Nat) (n : Nat) {L : List (Nat × Nat)}
    (hL : L = (R.filterMap fun c => (f c).map (fun v => (c, v))).take n) :
    L.length ≤ n ∧ L.Pairwise (fun a b => r a.1 b.1) ∧ (∀ e ∈ L, e.1 ∈ R ∧ f e.1 = some e.2) ∧
    ∀ c ∈ R, (L.length < n ∨ ∃ e ∈ L, c = e.1 ∨ r c e.1) → tickmapOf L c = (f c).getD 0 := by
  have hmem : ∀ e ∈ (R.filterMap fun c => (f c).map (fun v => (c, v))), e.1 ∈ R ∧ f e.1 = some e.2 := by
    intro e he
    rw [List.mem_filterMap] at he
    obtain ⟨c, hc, h⟩ := he
    rw [Option.map_eq_some_iff] at h
    obtain ⟨v, h1, rfl⟩ := h
    exact ⟨hc, h1⟩
  have hF : (R.filterMap fun c => (f c).map (fun v => (c, v))).Pairwise (fun a b => r a.1 b.1) := by
    rw [List.pairwise_filterMap]
    refine hR.imp (fun {a b} hab => ?_)
    intro x hx y hy
    simp only [Option.map_eq_some_iff] at hx hy
    obtain ⟨_, _, rfl⟩ := hx
    obtain ⟨_, _, rfl⟩ := hy
    exact hab
  generalize hG : (R.filterMap fun c => (f c).map (fun v => (c, v))) = F at hL hmem hF
  have hsub : L.Sublist F := by rw [hL]; exact List.take_sublist _ _
  have hpL : L.Pairwise (fun a b => r a.1 b.1) := hF.sublist hsub
  refine ⟨by rw [hL]; exact List.length_take_le _ _, hpL, fun e he => hmem e (hsub.subset he), fun c hc hcond => ?_⟩
  have hnd : (L.map (·.1)).Nodup := by
    unfold List.Nodup
    rw [List.pairwise_map]
    refine List.Pairwise.imp (fun {a b} (hab : r a.1 b.1) => ?_) hpL
    intro e
    rw [e] at hab
    exact hirr _ hab
  cases hf : f c with
  | none =>
    refine find_of_not_mem (fun e he h => ?_)
    have := (hmem e (hsub.subset he)).2
    rw [h, hf] at this
    cases this
  | some v =>
    refine find_of_mem hnd ?_
    have hin : (c, v) ∈ F := by
      rw [← hG, List.mem_filterMap]
      exact ⟨c, hc, by rw [hf]; rfl⟩
    have hsplit : F = L ++ F.drop n := by rw [hL]; exact (List.take_append_drop n F).symm
    rcases hcond with hlt | ⟨e, he, hce⟩
    · have : F.drop n = [] := by
        rw [hL, List.length_take] at hlt
        exact List.drop_eq_nil_of_le (by omega)
      rw [hsplit, this, List.append_nil] at hin
      exact hin
    · rw [hsplit, List.mem_append] at hin
      rcases hin with h | h
      · exact h
      · rw [hsplit, List.pairwise_append] at hF
        have h3 := hF.2.2 e he _ h
        simp only at h3
        rcases hce with rfl | h4
        · exact absurd h3 (hirr _)
        · exact absurd h4 (hasym _ _ h3)

theorem rangeList_pairwise (a b : Nat) : (rangeList a b).Pairwise (· < ·) := by
  unfold rangeList
  rw [List.pairwise_map]
  exact List.pairwise_lt_range.imp (fun h => by omega)

theorem mem_rangeList {a b c : Nat} : c ∈ rangeList a b ↔ a ≤ c ∧ c < b := by
  unfold rangeList
  simp only [List.mem_map, List.mem_range]
  constructor
  · rintro ⟨x, h, rfl⟩; omega
  · rintro ⟨h1, h2⟩; exact ⟨c - a, by omega, by omega⟩

/-- What the tickmap query returns. -/
theorem queryTickmap_view {s : Store} {k : PoolKey} {lower upper : Int} {d : Bool} {l : List (Nat × Nat)}
    (h : queryTickmap s k lower upper d = .ok l) :
    0 < k.tier.spacing ∧ l.length ≤ 1638 ∧ l.Pairwise (fun a b => if d then b.1 < a.1 else a.1 < b.1) ∧
    (∀ e ∈ l, bitOfTick k.tier.spacing lower / 64 ≤ e.1 ∧ e.1 ≤ bitOfTick k.tier.spacing upper / 64 ∧ e.2 = getChunk s k e.1) ∧
    ∀ c, bitOfTick k.tier.spacing lower / 64 ≤ c → c ≤ bitOfTick k.tier.spacing upper / 64 →
      (l.length < 1638 ∨ ∃ e ∈ l, if d then e.1 ≤ c else c ≤ e.1) → tickmapOf l c = getChunk s k c := by
  unfold queryTickmap at h
  simp only [bind_ok, pure_ok] at h
  obtain ⟨lo, h1, hi, h2, rfl⟩ := h
  obtain ⟨h0, _, a1, a2, e1⟩ := tickToPosition_inv h1
  have hle := tickToPosition_chunk_le h2
  obtain ⟨_, _, a3, a4, e2⟩ := tickToPosition_inv h2
  have elo : lo.1 = bitOfTick k.tier.spacing lower / 64 := by rw [e1]
  have ehi : hi.1 = bitOfTick k.tier.spacing upper / 64 := by rw [e2]
  refine ⟨h0, ?_⟩
  rw [getMinChunk_eq h0, Nat.zero_max, Nat.min_eq_right hle, elo, ehi]
  unfold tickmapSlice
  have hm : MAX_TICKMAP_QUERY_SIZE = 1638 := rfl
  rw [hm]
  cases d with
  | false =>
    obtain ⟨b1, b2, b3, b4⟩ := page_lookup (r := (· < ·)) (fun a => Nat.lt_irrefl a) (fun a b h => by omega)
      (rangeList_pairwise (bitOfTick k.tier.spacing lower / 64) (bitOfTick k.tier.spacing upper / 64 + 1))
      (fun c => s.bitmap.get? (bitmapKey c k)) 1638 rfl
    refine ⟨b1, b2, fun e he => ?_, fun c hc1 hc2 hcond => b4 c ?_ ?_⟩
    · obtain ⟨p1, p2⟩ := b3 e he
      rw [mem_rangeList] at p1
      refine ⟨p1.1, by omega, ?_⟩
      unfold getChunk; rw [p2]; rfl
    · rw [mem_rangeList]; omega
    · rcases hcond with h | ⟨e, he, h⟩
      · exact .inl h
      · simp only [Bool.false_eq_true, if_false] at h
        exact .inr ⟨e, he, by omega⟩
  | true =>
    obtain ⟨b1, b2, b3, b4⟩ := page_lookup (r := (· > ·)) (fun a => Nat.lt_irrefl a) (fun a b h => by omega)
      (List.pairwise_reverse.2 (rangeList_pairwise (bitOfTick k.tier.spacing lower / 64)
        (bitOfTick k.tier.spacing upper / 64 + 1))) (fun c => s.bitmap.get? (bitmapKey c k)) 1638 rfl
    refine ⟨b1, b2, fun e he => ?_, fun c hc1 hc2 hcond => b4 c ?_ ?_⟩
    · obtain ⟨p1, p2⟩ := b3 e he
      rw [List.mem_reverse, mem_rangeList] at p1
      refine ⟨p1.1, by omega, ?_⟩
      unfold getChunk; rw [p2]; rfl
    · rw [List.mem_reverse, mem_rangeList]; omega
    · rcases hcond with h | ⟨e, he, h⟩
      · exact .inl h
      · simp only [if_true] at h
        exact .inr ⟨e, he, by omega⟩

end OraiV3
