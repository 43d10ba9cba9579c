import Verif.ReadSpec
import Verif.Props.Sim
import Verif.Props.Client

/-!
# Reading page by page
-/

namespace OraiV3

theorem last_ge {l : List (Nat × Nat)} (h : l.Pairwise (fun a b => a.1 < b.1)) : ∀ {c0 : Nat}, (∀ e ∈ l, c0 ≤ e.1) →
    ∀ e, l.getLast? = some e → c0 + l.length ≤ e.1 + 1 ∧ e ∈ l ∧ ∀ x ∈ l, x.1 ≤ e.1 := by
  induction h with
  | nil => intro c0 _ e he; cases he
  | @cons a l ha hl ih =>
    intro c0 hc e he
    cases hlast : l.getLast? with
    | none =>
      rw [List.getLast?_eq_none_iff] at hlast
      subst hlast
      simp only [List.getLast?_singleton, Option.some.injEq] at he
      subst he
      have := hc a (by simp)
      refine ⟨?_, by simp, by simp⟩
      simp only [List.length_singleton]
      omega
    | some e' =>
      have he' : e' = e := by
        rw [List.getLast?_cons, hlast] at he
        simpa using he
      subst he'
      obtain ⟨h1, h2, h3⟩ := ih (c0 := c0 + 1) (fun x hx => by
        have := ha x hx
        have := hc a (by simp)
        omega) e' hlast
      refine ⟨by rw [List.length_cons]; omega, by simp [h2], fun x hx => ?_⟩
      rcases List.mem_cons.1 hx with rfl | hx
      · exact Nat.le_of_lt (ha e' h2)
      · exact h3 x hx

theorem tickmapOf_append_left {l l' : List (Nat × Nat)} {c : Nat} (h : ∀ e ∈ l', e.1 ≠ c) :
    tickmapOf (l ++ l') c = tickmapOf l c := by
  unfold tickmapOf
  rw [List.find?_append]
  have : l'.find? (fun e => e.1 = c) = none := by
    rw [List.find?_eq_none]
    intro e he
    simpa using h e he
  rw [this, Option.or_none]

theorem tickmapOf_append_right {l l' : List (Nat × Nat)} {c : Nat} (h : ∀ e ∈ l, e.1 ≠ c) :
    tickmapOf (l ++ l') c = tickmapOf l' c := by
  unfold tickmapOf
  rw [List.find?_append]
  have : l.find? (fun e => e.1 = c) = none := by
    rw [List.find?_eq_none]
    intro e he
    simpa using h e he
  rw [this, Option.none_or]

theorem bitOfTick_max {ts : Nat} (h0 : 0 < ts) : bitOfTick ts (getMaxTick ts) = 2 * halfTicks ts := by
  unfold bitOfTick
  rw [getMaxTick_half, Int.mul_ediv_cancel _ (by omega)]
  omega

theorem bitOfTick_min {ts : Nat} (h0 : 0 < ts) : bitOfTick ts (getMinTick ts) = 0 := by
  unfold bitOfTick
  rw [getMinTick_half', Int.mul_ediv_cancel _ (by omega)]
  omega

theorem getMaxTick_ok {ts : Nat} (h0 : 0 < ts) : TickOk ts (getMaxTick ts) := by
  have := tickOfBit_ok h0 (Nat.le_refl (2 * halfTicks ts))
  rw [show tickOfBit ts (2 * halfTicks ts) = getMaxTick ts by
    unfold tickOfBit; rw [getMaxTick_half]; congr 1; push_cast; omega] at this
  exact this

theorem getMinTick_ok {ts : Nat} (h0 : 0 < ts) : TickOk ts (getMinTick ts) := by
  have := tickOfBit_ok h0 (Nat.zero_le (2 * halfTicks ts))
  rw [show tickOfBit ts 0 = getMinTick ts by
    unfold tickOfBit; rw [getMinTick_half']; congr 1; push_cast; omega] at this
  exact this

/-- Reading on from the beginning of a chunk gives all chunks from there on. -/
theorem readTickmap_spec {s : Store} {k : PoolKey} (h0 : 0 < k.tier.spacing) : ∀ (n : Nat) {lower : Int} {c0 : Nat},
    TickOk k.tier.spacing lower → bitOfTick k.tier.spacing lower = c0 * 64 → getMaxChunk k.tier.spacing < c0 + 1638 * n →
    ∃ l, readTickmap s k n lower = .ok l ∧ l.Pairwise (fun a b => a.1 < b.1) ∧
      (∀ e ∈ l, c0 ≤ e.1 ∧ e.1 ≤ getMaxChunk k.tier.spacing ∧ e.2 = getChunk s k e.1) ∧
      ∀ c, c0 ≤ c → c ≤ getMaxChunk k.tier.spacing → tickmapOf l c = getChunk s k c := by
  intro n
  induction n with
  | zero =>
    intro lower c0 hlow hb hn
    exfalso
    have h1 := bitOfTick_le hlow
    rw [getMaxChunk_eq h0] at hn
    omega
  | succ n ih =>
    intro lower c0 hlow hb hn
    obtain ⟨page, hpage⟩ := C43_answers (s := s) (validTick_iff.2 hlow) (validTick_iff.2 (getMaxTick_ok h0)) false
    obtain ⟨-, v1, v2, v3, v4⟩ := queryTickmap_view hpage
    rw [hb, bitOfTick_max h0, Nat.mul_div_cancel _ (by decide), ← getMaxChunk_eq h0] at v3 v4
    simp only [Bool.false_eq_true, if_false] at v2 v4
    unfold readTickmap clientMaxChunk
    rw [hpage, ok_bind, if_neg (by omega), ok_bind]
    cases hlast : page.getLast? with
    | none =>
      rw [List.getLast?_eq_none_iff] at hlast
      subst hlast
      exact ⟨[], rfl, .nil, by simp, fun c h1 h2 => v4 c h1 h2 (.inl (by decide))⟩
    | some e =>
      obtain ⟨w1, w2, w3⟩ := last_ge v2 (fun x hx => (v3 x hx).1) e hlast
      simp only
      have hsize : clientMaxTickmapQuerySize = 1638 := rfl
      by_cases hd : page.length < clientMaxTickmapQuerySize ∨ e.1 = getMaxChunk k.tier.spacing
      · rw [if_pos hd]
        refine ⟨page, rfl, v2, v3, fun c h1 h2 => v4 c h1 h2 ?_⟩
        rcases hd with hd | hd
        · exact .inl (by omega)
        · exact .inr ⟨e, w2, by omega⟩
      · rw [if_neg hd]
        obtain ⟨e1, e2, -⟩ := v3 e w2
        have hmc := getMaxChunk_eq h0
        have hle : (e.1 + 1) * 64 ≤ 2 * halfTicks k.tier.spacing := by omega
        have htick : clientPositionToTick (e.1 + 1) 0 k.tier.spacing = tickOfBit k.tier.spacing ((e.1 + 1) * 64) :=
          clientPositionToTick_eq
        obtain ⟨rest, r1, r2, r3, r4⟩ := ih (lower := clientPositionToTick (e.1 + 1) 0 k.tier.spacing) (c0 := e.1 + 1)
          (by rw [htick]; exact tickOfBit_ok h0 hle) (by rw [htick, bitOfTick_tickOfBit h0]) (by omega)
        rw [r1, ok_bind]
        refine ⟨page ++ rest, rfl, ?_, ?_, ?_⟩
        · rw [List.pairwise_append]
          refine ⟨v2, r2, fun a ha b hb => ?_⟩
          have := w3 a ha
          have := (r3 b hb).1
          omega
        · intro x hx
          rcases List.mem_append.1 hx with hx | hx
          · exact v3 x hx
          · obtain ⟨a, b, c⟩ := r3 x hx
            exact ⟨by omega, b, c⟩
        · intro c h1 h2
          by_cases hc : c ≤ e.1
          · rw [tickmapOf_append_left (fun x hx => by have := (r3 x hx).1; omega)]
            exact v4 c h1 h2 (.inr ⟨e, w2, hc⟩)
          · rw [tickmapOf_append_right (fun x hx => by have := w3 x hx; omega)]
            exact r4 c (by omega) h2

/-- The bits of the stored chunks are the ticks in use. -/
theorem chunk_bit {c : Chain} {s : Store} (hr : Reach c s) {k : PoolKey} (hk : k.wf) {pool : Pool} (hp : s.pools.get? k.key = some pool)
    {ch b : Nat} (hch : ch ≤ getMaxChunk k.tier.spacing) :
    (getChunk s k ch).testBit b = true ↔ b < 64 ∧ UsedTick s k (clientPositionToTick ch b k.tier.spacing) := by
  have hm := hr.mreach
  have ht := hm.struct.tier hk hp
  rw [getMaxChunk_eq ht.1] at hch
  have hh := halfTicks_le k.tier.spacing
  by_cases hb64 : b < 64
  · have hle : ch * 64 + b < 2 ^ 22 := by omega
    have hbit := hm.bitInv.bit k (ch * 64 + b) hk ht.1 ht.2.1 hle
    rw [bitOf_chunk (c := ch) (by omega) (by omega), Nat.add_sub_cancel_left] at hbit
    rw [clientPositionToTick_eq]
    have hi := tickOfBit_i32 ht.2.1 hle
    rw [hbit, Option.isSome_iff_exists]
    constructor
    · rintro ⟨t, hg⟩
      exact ⟨hb64, (C02_ticks_are_the_positions hr hk hi).1.1 ⟨t, getTick_ok.2 hg⟩⟩
    · rintro ⟨-, hu⟩
      obtain ⟨t, hg⟩ := (C02_ticks_are_the_positions hr hk hi).1.2 hu
      exact ⟨t, getTick_ok.1 hg⟩
  · constructor
    · intro h
      exfalso
      have h2 := hm.bitInv.chunk k ch
      have : getChunk s k ch < 2 ^ b := Nat.lt_of_lt_of_le h2 (Nat.pow_le_pow_right (by decide) (by omega))
      rw [Nat.testBit_lt_two_pow this] at h
      cases h
    · exact fun h => absurd h.1 hb64

theorem usedTick_ok {s : Store} (hs : Struct s) {k : PoolKey} {i : Int} (hu : UsedTick s k i) : TickOk k.tier.spacing i := by
  obtain ⟨q, hq1, hq2⟩ := hu
  obtain ⟨_, o1, o2, _⟩ := hs.posOf hq1
  rcases hq2 with e | e
  · rw [← e]; exact o1
  · rw [← e]; exact o2

theorem mem_decode {ts : Nat} {l : List (Nat × Nat)} {i : Int} :
    i ∈ decodeTickmap ts l ↔ ∃ e ∈ l, ∃ b, b < 64 ∧ e.2.testBit b = true ∧ clientPositionToTick e.1 b ts = i := by
  unfold decodeTickmap
  simp only [List.mem_flatMap, List.mem_map, List.mem_filter, List.mem_range, and_assoc]

theorem tickOfBit_lt {ts : Nat} (h0 : 0 < ts) {m m' : Nat} (h : m < m') : tickOfBit ts m < tickOfBit ts m' := by
  unfold tickOfBit
  exact Int.mul_lt_mul_of_pos_right (by omega) (by omega)

theorem decode_sorted {ts : Nat} (h0 : 0 < ts) {l : List (Nat × Nat)} (h : l.Pairwise (fun a b => a.1 < b.1)) :
    (decodeTickmap ts l).Pairwise (· < ·) := by
  unfold decodeTickmap
  rw [List.pairwise_flatMap]
  constructor
  · intro e _
    rw [List.pairwise_map]
    refine (List.Pairwise.filter _ List.pairwise_lt_range).imp (fun {a b} hab => ?_)
    rw [clientPositionToTick_eq, clientPositionToTick_eq]
    exact tickOfBit_lt h0 (by omega)
  · refine h.imp (fun {a b} hab => ?_)
    intro x hx y hy
    simp only [List.mem_map, List.mem_filter, List.mem_range] at hx hy
    obtain ⟨m, ⟨hm, -⟩, rfl⟩ := hx
    obtain ⟨m', ⟨hm', -⟩, rfl⟩ := hy
    rw [clientPositionToTick_eq, clientPositionToTick_eq]
    exact tickOfBit_lt h0 (by omega)

/-- The record of one tick, as the query gives it. -/
def tickEntry (s : Store) (k : PoolKey) (i : Int) : M (Int × Nat × Bool) := do
  let t ← getTick s k i
  pure (t.index, t.change, t.sign)

theorem readTicks_eq {s : Store} {k : PoolKey} : ∀ (n : Nat) {idx : List Int}, idx.length ≤ 780 * n →
    readTicks s k n idx = idx.mapM (tickEntry s k) := by
  intro n
  induction n with
  | zero =>
    intro idx h
    have : idx = [] := List.eq_nil_of_length_eq_zero (by omega)
    subst this
    rfl
  | succ n ih =>
    intro idx h
    unfold readTicks queryLiquidityTicks
    have hl : clientLiquidityTicksLimit = 780 := rfl
    rw [hl, if_neg (by rw [List.length_take]; omega), ih (by rw [List.length_drop]; omega)]
    conv => rhs; rw [← List.take_append_drop 780 idx, List.mapM_append]
    rfl

theorem mapM_entries {s : Store} {k : PoolKey} : ∀ {idx : List Int}, (∀ i ∈ idx, ∃ t, s.ticks.get? (tickKey k i) = some t) →
    ∃ l, idx.mapM (tickEntry s k) = .ok l
  | [], _ => ⟨[], rfl⟩
  | i :: idx, h => by
    obtain ⟨t, ht⟩ := h i (by simp)
    obtain ⟨l, hl⟩ := mapM_entries (idx := idx) (fun j hj => h j (by simp [hj]))
    refine ⟨(t.index, t.change, t.sign) :: l, ?_⟩
    rw [List.mapM_cons, hl]
    unfold tickEntry
    rw [getTick_ok.2 ht]
    rfl

/-- The entry of a tick among those read. -/
theorem find_entry {s : Store} (hs : Struct s) {k : PoolKey} (hk : k.wf) {idx : List Int} {l : List (Int × Nat × Bool)}
    (hi : ∀ i ∈ idx, i32 i) (hl : idx.mapM (tickEntry s k) = .ok l) {i : Int} {t : Tick} (hidx : i ∈ idx)
    (hg : s.ticks.get? (tickKey k i) = some t) :
    (l.map fun t => (⟨t.1, t.2.1, t.2.2⟩ : LTick)).find? (fun x => x.index = i) = some ⟨t.index, t.change, t.sign⟩ := by
  obtain ⟨e1, -⟩ := hs.tick hk (hi i hidx) hg
  obtain ⟨a, b⟩ := queryLiquidityTicks_mem hl
  obtain ⟨t', h3, h4⟩ := a i hidx
  rw [hg, Option.some.injEq] at h3
  subst h3
  cases hf : (l.map fun t => (⟨t.1, t.2.1, t.2.2⟩ : LTick)).find? (fun x => x.index = i) with
  | none =>
    rw [List.find?_eq_none] at hf
    have := hf ⟨t.index, t.change, t.sign⟩ (List.mem_map.2 ⟨_, h4, rfl⟩)
    simp [e1] at this
  | some x =>
    have h5 := List.mem_of_find?_eq_some hf
    have h6 : x.index = i := by simpa using List.find?_some hf
    obtain ⟨e, h7, rfl⟩ := List.mem_map.1 h5
    obtain ⟨j, hj, t', h8, rfl⟩ := b e h7
    have h9 := (hs.tick hk (hi j hj) h8).1
    simp only at h6
    have : j = i := by omega
    subst this
    rw [hg, Option.some.injEq] at h8
    subst h8
    rfl

end OraiV3
