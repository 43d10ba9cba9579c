import Verif.Raw
import Verif.Lemmas.KV
import Verif.Lemmas.Keys

/-!
# Helper lemmas about the flat storage
-/

namespace OraiV3

theorem rawKey_map {a : Area} (h : a.isMap = true) (k : Bytes) : rawKey a k = a.prefix ++ k := by
  unfold rawKey; rw [if_pos h]

theorem rawKey_item {a : Area} (h : a.isMap = false) (k : Bytes) : rawKey a k = a.name := by
  unfold rawKey; rw [if_neg (by simp [h])]

theorem Area.name_inj {a b : Area} (h : a.name = b.name) : a = b := by
  revert h; cases a <;> cases b <;> decide

theorem Area.name_length (a : Area) : a.name.length < U16 := by cases a <;> decide

theorem Area.name_head (a : Area) : a.name.head? ≠ some 0 := by cases a <;> decide

theorem Area.prefix_head (a : Area) : a.prefix.head? = some 0 := by cases a <;> decide

theorem Area.prefix_length (a : Area) : 0 < a.prefix.length := by cases a <;> decide

theorem rawKey_head (a : Area) (k : Bytes) : ((rawKey a k).head? = some 0) ↔ a.isMap = true := by
  cases h : a.isMap
  · rw [rawKey_item h]
    have := a.name_head
    simp [this]
  · rw [rawKey_map h, List.head?_append, a.prefix_head]
    simp

/-- Different records have different raw keys. -/
theorem rawKey_inj {a b : Area} {j k : Bytes} (h : rawKey a j = rawKey b k) : a = b ∧ (a.isMap = true → j = k) := by
  have hh : a.isMap = b.isMap := by
    have h1 := rawKey_head a j
    rw [h, rawKey_head] at h1
    cases ha : a.isMap <;> cases hb : b.isMap <;> simp_all
  cases ha : a.isMap
  · rw [rawKey_item ha, rawKey_item (hh ▸ ha)] at h
    exact ⟨Area.name_inj h, by simp⟩
  · rw [rawKey_map ha, rawKey_map (hh ▸ ha)] at h
    obtain ⟨h1, h2⟩ := lenPrefixed_append_inj a.name_length b.name_length h
    exact ⟨Area.name_inj h1, fun _ => h2⟩

theorem Store.cell_item (s : Store) {a : Area} (h : a.isMap = false) (j k : Bytes) : s.cell j a = s.cell k a := by
  cases a <;> simp [Area.isMap] at h <;> rfl

theorem Store.cell_congr (s : Store) {a b : Area} {j k : Bytes} (h : rawKey a j = rawKey b k) : s.cell j a = s.cell k b := by
  obtain ⟨rfl, h2⟩ := rawKey_inj h
  cases ha : a.isMap
  · exact s.cell_item ha j k
  · rw [h2 ha]

theorem Flat.get {raw : KV Cell} {s : Store} (h : Flat raw s) (a : Area) (k : Bytes) : raw.get? (rawKey a k) = s.cell k a := by
  cases hc : s.cell k a with
  | some v => exact (h _ _).2 ⟨a, k, rfl, hc⟩
  | none =>
    cases hr : raw.get? (rawKey a k) with
    | none => rfl
    | some v =>
      obtain ⟨b, j, e, hv⟩ := (h _ _).1 hr
      rw [s.cell_congr e, hv] at hc
      simp at hc

theorem Flat.set {raw : KV Cell} {s s' : Store} (h : Flat raw s) {a : Area} {k : Bytes} {v : Cell}
    (hs : ∀ b j, s'.cell j b = if rawKey b j = rawKey a k then some v else s.cell j b) :
    Flat (raw.insert (rawKey a k) v) s' := by
  intro r w
  rw [KV.get?_insert]
  by_cases e : r = rawKey a k
  · rw [if_pos e]
    constructor
    · intro hv
      refine ⟨a, k, e, ?_⟩
      rw [hs, if_pos rfl, hv]
    · rintro ⟨b, j, e2, hc⟩
      rw [hs, if_pos (e2 ▸ e)] at hc
      exact hc
  · rw [if_neg e, h r w]
    constructor <;> rintro ⟨b, j, e2, hc⟩ <;> refine ⟨b, j, e2, ?_⟩
    · rw [hs, if_neg (e2 ▸ e)]; exact hc
    · rw [hs, if_neg (e2 ▸ e)] at hc; exact hc

theorem Flat.del {raw : KV Cell} {s s' : Store} (h : Flat raw s) {a : Area} {k : Bytes}
    (hs : ∀ b j, s'.cell j b = if rawKey b j = rawKey a k then none else s.cell j b) :
    Flat (raw.erase (rawKey a k)) s' := by
  intro r w
  rw [KV.get?_erase]
  by_cases e : r = rawKey a k
  · rw [if_pos e]
    constructor
    · intro hv; simp at hv
    · rintro ⟨b, j, e2, hc⟩
      rw [hs, if_pos (e2 ▸ e)] at hc
      simp at hc
  · rw [if_neg e, h r w]
    constructor <;> rintro ⟨b, j, e2, hc⟩ <;> refine ⟨b, j, e2, ?_⟩
    · rw [hs, if_neg (e2 ▸ e)]; exact hc
    · rw [hs, if_neg (e2 ▸ e)] at hc; exact hc

theorem rawKey_eq_iff {a b : Area} (hb : a.isMap = true) {j k : Bytes} : rawKey b j = rawKey a k ↔ b = a ∧ j = k := by
  constructor
  · intro h
    obtain ⟨rfl, h2⟩ := rawKey_inj h
    exact ⟨rfl, h2 hb⟩
  · rintro ⟨rfl, rfl⟩; rfl

/-! ## Every storage has a flat form -/

/-- Put a list of entries into an empty storage. -/
def KV.ofList {V : Type} (l : List (Bytes × V)) : KV V := l.foldr (fun e m => m.insert e.1 e.2) KV.empty

theorem KV.ofList_get {V : Type} {l : List (Bytes × V)} (hl : ∀ r v w, (r, v) ∈ l → (r, w) ∈ l → v = w) (r : Bytes) (v : V) :
    (KV.ofList l).get? r = some v ↔ (r, v) ∈ l := by
  induction l with
  | nil => simp [KV.ofList, KV.get?_empty]
  | cons e l ih =>
    have hc : KV.ofList (e :: l) = (KV.ofList l).insert e.1 e.2 := rfl
    rw [hc, KV.get?_insert]
    by_cases h : r = e.1
    · rw [if_pos h]
      constructor
      · intro hv
        rw [Option.some.injEq] at hv
        rw [h, ← hv]
        exact List.mem_cons_self
      · intro hv
        rw [hl r v e.2 hv (by rw [h]; exact List.mem_cons_self)]
    · rw [if_neg h, ih (fun r v w h1 h2 => hl r v w (List.mem_cons_of_mem _ h1) (List.mem_cons_of_mem _ h2)), List.mem_cons]
      constructor
      · exact .inr
      · rintro (rfl | h1)
        · exact absurd rfl h
        · exact h1

/-- All entries of a map, as they are in the flat storage. -/
def rawEntries {V : Type} (a : Area) (f : V → Cell) (m : KV V) : List (Bytes × Cell) :=
  m.entries.map fun e => (rawKey a e.1, f e.2)

theorem mem_rawEntries {V : Type} {a : Area} {f : V → Cell} {m : KV V} {r : Bytes} {c : Cell} :
    (r, c) ∈ rawEntries a f m ↔ ∃ k, r = rawKey a k ∧ (m.get? k).map f = some c := by
  unfold rawEntries
  rw [List.mem_map]
  constructor
  · rintro ⟨⟨k, v⟩, h1, h2⟩
    rw [Prod.mk.injEq] at h2
    exact ⟨k, h2.1.symm, by rw [(m.mem_entries_iff k v).1 h1, Option.map_some, h2.2]⟩
  · rintro ⟨k, rfl, h2⟩
    rw [Option.map_eq_some_iff] at h2
    obtain ⟨v, h2, rfl⟩ := h2
    exact ⟨(k, v), (m.mem_entries_iff k v).2 h2, rfl⟩

/-- The flat form of a storage. -/
def Store.flat (s : Store) : KV Cell :=
  KV.ofList ([(rawKey .version [], Cell.version)] ++ (s.config.map fun c => (rawKey .config [], Cell.config c)).toList ++
    rawEntries .pools .pool s.pools ++ rawEntries .positions .position s.positions ++ rawEntries .posLen .posLen s.posLen ++
    rawEntries .ticks .tick s.ticks ++ rawEntries .bitmap .chunk s.bitmap ++ rawEntries .operators .operator s.operators)

theorem Store.flat_mem (s : Store) (r : Bytes) (c : Cell) :
    (r, c) ∈ [(rawKey .version [], Cell.version)] ++ (s.config.map fun c => (rawKey .config [], Cell.config c)).toList ++
      rawEntries .pools .pool s.pools ++ rawEntries .positions .position s.positions ++ rawEntries .posLen .posLen s.posLen ++
      rawEntries .ticks .tick s.ticks ++ rawEntries .bitmap .chunk s.bitmap ++ rawEntries .operators .operator s.operators ↔
    ∃ a k, r = rawKey a k ∧ s.cell k a = some c := by
  simp only [List.mem_append, mem_rawEntries, List.mem_singleton, Prod.mk.injEq, Option.mem_toList, Option.map_eq_some_iff]
  constructor
  · rintro (((((((⟨h, h'⟩ | ⟨c0, h, h'⟩) | ⟨k, h, h'⟩) | ⟨k, h, h'⟩) | ⟨k, h, h'⟩) | ⟨k, h, h'⟩) | ⟨k, h, h'⟩) | ⟨k, h, h'⟩)
    · exact ⟨.version, [], h, by rw [h']; rfl⟩
    · exact ⟨.config, [], h'.1.symm, by rw [← h'.2]; simp only [Store.cell, h, Option.map_some]⟩
    · exact ⟨.pools, k, h, by rw [Store.cell, Option.map_eq_some_iff]; exact h'⟩
    · exact ⟨.positions, k, h, by rw [Store.cell, Option.map_eq_some_iff]; exact h'⟩
    · exact ⟨.posLen, k, h, by rw [Store.cell, Option.map_eq_some_iff]; exact h'⟩
    · exact ⟨.ticks, k, h, by rw [Store.cell, Option.map_eq_some_iff]; exact h'⟩
    · exact ⟨.bitmap, k, h, by rw [Store.cell, Option.map_eq_some_iff]; exact h'⟩
    · exact ⟨.operators, k, h, by rw [Store.cell, Option.map_eq_some_iff]; exact h'⟩
  · rintro ⟨a, k, h, h'⟩
    cases a <;> simp only [Store.cell, Option.map_eq_some_iff, Option.some.injEq] at h'
    · exact .inl (.inl (.inl (.inl (.inl (.inl (.inl ⟨h, h'.symm⟩))))))
    · obtain ⟨c0, h1, h2⟩ := h'
      exact .inl (.inl (.inl (.inl (.inl (.inl (.inr ⟨c0, h1, h.symm, h2⟩))))))
    · exact .inl (.inl (.inl (.inl (.inl (.inr ⟨k, h, h'⟩)))))
    · exact .inl (.inl (.inl (.inl (.inr ⟨k, h, h'⟩))))
    · exact .inl (.inl (.inl (.inr ⟨k, h, h'⟩)))
    · exact .inl (.inl (.inr ⟨k, h, h'⟩))
    · exact .inl (.inr ⟨k, h, h'⟩)
    · exact .inr ⟨k, h, h'⟩

theorem Store.flat_flat (s : Store) : Flat s.flat s := by
  intro r c
  unfold Store.flat
  rw [KV.ofList_get, s.flat_mem]
  intro r v w h1 h2
  obtain ⟨a, k, e, h1⟩ := (s.flat_mem r v).1 h1
  obtain ⟨b, j, e2, h2⟩ := (s.flat_mem r w).1 h2
  rw [s.cell_congr (e ▸ e2), h2] at h1
  exact (Option.some.inj h1).symm

/-! ## Scanning a prefix -/

theorem inPrefix_iff {pre : Bytes} {b : Byte} (hl : pre.getLast? = some b) (hb : b.val < 255) (r : Bytes) :
    (bytesLt r pre = false ∧ bytesLt r (incLast pre) = true) ↔ ∃ x, r = pre ++ x := by
  induction pre generalizing r with
  | nil => simp at hl
  | cons a pre ih =>
    cases pre with
    | nil =>
      simp only [List.getLast?_singleton, Option.some.injEq] at hl
      subst hl
      have hv : (Fin.ofNat 256 (a.val + 1)).val = a.val + 1 := by rw [Fin.val_ofNat]; omega
      cases r with
      | nil => simp [bytesLt, incLast]
      | cons c r =>
        simp only [bytesLt, incLast, hv]
        by_cases h1 : c.val < a.val
        · simp only [if_pos h1, Bool.true_eq_false, false_and, false_iff]
          rintro ⟨x, hx⟩
          simp only [List.cons_append, List.nil_append, List.cons.injEq] at hx
          rw [hx.1] at h1
          omega
        · rw [if_neg h1]
          by_cases h2 : c.val = a.val
          · have : c = a := Fin.ext h2
            subst this
            rw [if_pos rfl, if_pos (by omega)]
            constructor
            · intro _; exact ⟨r, rfl⟩
            · intro _; exact ⟨by cases r <;> rfl, rfl⟩
          · rw [if_neg h2, if_neg (by omega)]
            constructor
            · rintro ⟨-, h3⟩
              split at h3
              · cases r <;> simp [bytesLt] at h3
              · simp at h3
            · rintro ⟨x, hx⟩
              simp only [List.cons_append, List.nil_append, List.cons.injEq] at hx
              exact absurd (congrArg Fin.val hx.1) h2
    | cons a' pre =>
      have hl' : (a' :: pre).getLast? = some b := by rwa [List.getLast?_cons_cons] at hl
      cases r with
      | nil => simp [bytesLt]
      | cons c r =>
        have hi : incLast (a :: a' :: pre) = a :: incLast (a' :: pre) := rfl
        rw [hi]
        simp only [bytesLt]
        by_cases h1 : c.val < a.val
        · simp only [if_pos h1, Bool.true_eq_false, false_and, false_iff]
          rintro ⟨x, hx⟩
          simp only [List.cons_append, List.cons.injEq] at hx
          rw [hx.1] at h1
          omega
        · rw [if_neg h1, if_neg h1]
          by_cases h2 : c.val = a.val
          · have : c = a := Fin.ext h2
            subst this
            rw [if_pos rfl, if_pos rfl, ih hl']
            constructor
            · rintro ⟨x, hx⟩; exact ⟨x, by rw [hx]; rfl⟩
            · rintro ⟨x, hx⟩
              simp only [List.cons_append, List.cons.injEq, true_and] at hx
              exact ⟨x, by rw [hx]; rfl⟩
          · rw [if_neg h2, if_neg h2]
            simp only [Bool.false_eq_true, and_false, false_iff]
            rintro ⟨x, hx⟩
            simp only [List.cons_append, List.cons.injEq] at hx
            exact absurd (congrArg Fin.val hx.1) h2

theorem bytesLt_append (p x y : Bytes) : bytesLt (p ++ x) (p ++ y) = bytesLt x y := by
  induction p with
  | nil => rfl
  | cons a p ih =>
    rw [List.cons_append, List.cons_append, bytesLt, if_neg (by omega), if_pos rfl, ih]

theorem scan_sorted (raw : KV Cell) {pre : Bytes} {b : Byte} (hl : pre.getLast? = some b) (hb : b.val < 255) :
    KSorted (scan raw pre) := by
  unfold scan KSorted
  rw [List.pairwise_map]
  have h := raw.sorted
  unfold KSorted at h
  have hf := List.Pairwise.sublist (l₁ := raw.entries.filter fun e => !bytesLt e.1 pre && bytesLt e.1 (incLast pre))
    List.filter_sublist h
  refine List.Pairwise.imp_of_mem ?_ hf
  intro e f he hf h
  have hp : ∀ e ∈ raw.entries.filter fun e => !bytesLt e.1 pre && bytesLt e.1 (incLast pre), ∃ x, e.1 = pre ++ x := by
    intro e he
    have := (List.mem_filter.1 he).2
    rw [Bool.and_eq_true, Bool.not_eq_true'] at this
    exact (inPrefix_iff hl hb _).1 this
  obtain ⟨x, hx⟩ := hp e he
  obtain ⟨y, hy⟩ := hp f hf
  rw [hx, hy, bytesLt_append] at h
  rw [hx, hy, List.drop_left, List.drop_left]
  exact h

theorem mem_scan (raw : KV Cell) {pre : Bytes} {b : Byte} (hl : pre.getLast? = some b) (hb : b.val < 255) (k : Bytes) (c : Cell) :
    (k, c) ∈ scan raw pre ↔ raw.get? (pre ++ k) = some c := by
  unfold scan
  rw [List.mem_map, ← KV.mem_entries_iff]
  constructor
  · rintro ⟨⟨r, c'⟩, h1, h2⟩
    rw [Prod.mk.injEq] at h2
    obtain ⟨h1, h3⟩ := List.mem_filter.1 h1
    rw [Bool.and_eq_true, Bool.not_eq_true'] at h3
    obtain ⟨x, hx⟩ := (inPrefix_iff hl hb _).1 h3
    simp only at hx h2
    subst hx
    rw [List.drop_left] at h2
    obtain ⟨rfl, rfl⟩ := h2
    exact h1
  · intro h
    refine ⟨(pre ++ k, c), List.mem_filter.2 ⟨h, ?_⟩, by simp⟩
    rw [Bool.and_eq_true, Bool.not_eq_true']
    exact (inPrefix_iff hl hb _).2 ⟨k, rfl⟩

theorem sorted_ext {V : Type} {l l' : List (Bytes × V)} (h : KSorted l) (h' : KSorted l') (hm : ∀ k v, (k, v) ∈ l ↔ (k, v) ∈ l') :
    l = l' := by
  have : (⟨l, h⟩ : KV V) = ⟨l', h'⟩ := by
    apply KV.ext_get?
    intro k
    have : ∀ v, (⟨l, h⟩ : KV V).get? k = some v ↔ (⟨l', h'⟩ : KV V).get? k = some v := by
      intro v
      rw [← KV.mem_entries_iff, ← KV.mem_entries_iff]
      exact hm k v
    cases h1 : (⟨l, h⟩ : KV V).get? k with
    | some v => exact ((this v).1 h1).symm
    | none =>
      cases h2 : (⟨l', h'⟩ : KV V).get? k with
      | none => rfl
      | some v => rw [(this v).2 h2] at h1; simp at h1
  exact congrArg KV.entries this

theorem map_sorted {V W : Type} (f : V → W) {l : List (Bytes × V)} (h : KSorted l) :
    KSorted (l.map fun e => (e.1, f e.2)) := by
  unfold KSorted at h ⊢
  rw [List.pairwise_map]
  exact h

end OraiV3
