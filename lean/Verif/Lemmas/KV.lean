import Verif.KV

/-!
# Lemmas about the key/value storage
-/

namespace OraiV3

variable {V : Type}

theorem kvFind_insert_same (k : Bytes) (v : V) (l : List (Bytes × V)) :
    kvFind k (kvInsert k v l) = some v := by
  induction l with
  | nil => simp [kvInsert, kvFind]
  | cons hd tl ih =>
    obtain ⟨k', v'⟩ := hd
    simp only [kvInsert]
    split
    · simp [kvFind]
    · split
      · rename_i h1 h2
        simp only [kvFind]
        rw [if_neg, ih]
        rintro rfl; rw [bytesLt_irrefl] at h2; simp at h2
      · simp [kvFind]

theorem kvFind_insert_other {k k' : Bytes} (v : V) (l : List (Bytes × V)) (h : k' ≠ k) :
    kvFind k' (kvInsert k v l) = kvFind k' l := by
  induction l with
  | nil => simp [kvInsert, kvFind, h.symm]
  | cons hd tl ih =>
    obtain ⟨k'', v'⟩ := hd
    simp only [kvInsert]
    split
    · simp only [kvFind]; rw [if_neg h.symm]
    · split
      · simp only [kvFind, ih]
      · rename_i h1 h2
        have hkk : k = k'' := bytesLt_tri _ _ (by simpa using h1) (by simpa using h2)
        subst hkk
        simp only [kvFind]; rw [if_neg h.symm, if_neg h.symm]

theorem kvFind_none_of_lt {k : Bytes} {l : List (Bytes × V)} (h : ∀ e ∈ l, bytesLt k e.1 = true) :
    kvFind k l = none := by
  induction l with
  | nil => rfl
  | cons hd tl ih =>
    obtain ⟨k', v'⟩ := hd
    simp only [kvFind]
    rw [if_neg, ih (fun e he => h e (List.mem_cons_of_mem _ he))]
    rintro rfl
    have := h (k', v') (List.mem_cons_self ..)
    rw [bytesLt_irrefl] at this; simp at this

theorem kvFind_erase_same (k : Bytes) (l : List (Bytes × V)) (hs : KSorted l) :
    kvFind k (kvErase k l) = none := by
  induction l with
  | nil => rfl
  | cons hd tl ih =>
    obtain ⟨k', v'⟩ := hd
    unfold KSorted at hs ih
    rw [List.pairwise_cons] at hs
    simp only [kvErase]
    split
    · rename_i h; subst h; exact kvFind_none_of_lt hs.1
    · rename_i h; simp only [kvFind]; rw [if_neg h, ih hs.2]

theorem kvFind_erase_other {k k' : Bytes} (l : List (Bytes × V)) (h : k' ≠ k) :
    kvFind k' (kvErase k l) = kvFind k' l := by
  induction l with
  | nil => rfl
  | cons hd tl ih =>
    obtain ⟨k'', v'⟩ := hd
    simp only [kvErase]
    split
    · rename_i h'; subst h'; simp only [kvFind]; rw [if_neg h.symm]
    · simp only [kvFind, ih]

theorem kvFind_mem {k : Bytes} {v : V} {l : List (Bytes × V)} (h : kvFind k l = some v) : (k, v) ∈ l := by
  induction l with
  | nil => simp [kvFind] at h
  | cons hd tl ih =>
    obtain ⟨k', v'⟩ := hd
    simp only [kvFind] at h
    split at h
    · rename_i hk; subst hk; simp at h; simp [h]
    · exact List.mem_cons_of_mem _ (ih h)

theorem kvFind_of_mem {k : Bytes} {v : V} {l : List (Bytes × V)} (hs : KSorted l) (h : (k, v) ∈ l) :
    kvFind k l = some v := by
  induction l with
  | nil => simp at h
  | cons hd tl ih =>
    obtain ⟨k', v'⟩ := hd
    unfold KSorted at hs ih
    rw [List.pairwise_cons] at hs
    simp only [kvFind]
    rcases List.mem_cons.1 h with h | h
    · simp at h; simp [h.1, h.2]
    · rw [if_neg, ih hs.2 h]
      rintro rfl
      have := hs.1 _ h
      rw [bytesLt_irrefl] at this; simp at this

theorem kvInsert_perm_fresh {k : Bytes} (v : V) {l : List (Bytes × V)} (h : kvFind k l = none) :
    (kvInsert k v l).Perm ((k, v) :: l) := by
  induction l with
  | nil => simp [kvInsert]
  | cons hd tl ih =>
    obtain ⟨k', v'⟩ := hd
    simp only [kvFind] at h
    split at h
    · simp at h
    · rename_i hk
      simp only [kvInsert]
      split
      · exact List.Perm.refl _
      · split
        · exact ((ih h).cons _).trans (List.Perm.swap _ _ _)
        · rename_i h1 h2
          exact absurd (bytesLt_tri _ _ (by simpa using h1) (by simpa using h2)).symm hk

theorem kvErase_perm {k : Bytes} {v : V} {l : List (Bytes × V)} (h : kvFind k l = some v) :
    l.Perm ((k, v) :: kvErase k l) := by
  induction l with
  | nil => simp [kvFind] at h
  | cons hd tl ih =>
    obtain ⟨k', v'⟩ := hd
    simp only [kvFind] at h
    split at h
    · rename_i hk; subst hk; simp at h; subst h; simp [kvErase]
    · rename_i hk
      simp only [kvErase]; rw [if_neg hk]
      exact ((ih h).cons _).trans (List.Perm.swap _ _ _)

theorem kvInsert_eq_erase {k : Bytes} (v : V) {l : List (Bytes × V)} (hs : KSorted l) :
    (kvInsert k v l).Perm ((k, v) :: kvErase k l) := by
  induction l with
  | nil => simp [kvInsert, kvErase]
  | cons hd tl ih =>
    obtain ⟨k', v'⟩ := hd
    have hs' := hs
    unfold KSorted at hs ih
    rw [List.pairwise_cons] at hs
    by_cases hk : k' = k
    · subst hk
      simp [kvInsert, kvErase, bytesLt_irrefl]
    · simp only [kvInsert, kvErase, if_neg hk]
      split
      · rename_i hlt
        have : kvFind k tl = none :=
          kvFind_none_of_lt (fun e he => bytesLt_trans _ _ _ hlt (hs.1 e he))
        have he : kvErase k tl = tl := by
          clear ih hs hs' hk
          induction tl with
          | nil => rfl
          | cons hd tl ih =>
            simp only [kvFind] at this
            split at this
            · simp at this
            · rename_i hk; simp only [kvErase, if_neg hk, ih this]
        rw [he]
      · split
        · exact ((ih hs.2).cons _).trans (List.Perm.swap _ _ _)
        · rename_i h1 h2
          exact absurd (bytesLt_tri _ _ (by simpa using h1) (by simpa using h2)).symm hk

namespace KV

theorem get?_insert (m : KV V) (k k' : Bytes) (v : V) :
    (m.insert k v).get? k' = if k' = k then some v else m.get? k' := by
  unfold KV.get? KV.insert
  split
  · rename_i h; subst h; exact kvFind_insert_same ..
  · rename_i h; exact kvFind_insert_other _ _ h

theorem get?_insert_same (m : KV V) (k : Bytes) (v : V) : (m.insert k v).get? k = some v := by
  simp [get?_insert]

theorem get?_insert_other (m : KV V) {k k' : Bytes} (v : V) (h : k' ≠ k) :
    (m.insert k v).get? k' = m.get? k' := by simp [get?_insert, h]

theorem get?_erase (m : KV V) (k k' : Bytes) :
    (m.erase k).get? k' = if k' = k then none else m.get? k' := by
  unfold KV.get? KV.erase
  split
  · rename_i h; subst h; exact kvFind_erase_same _ _ m.sorted
  · rename_i h; exact kvFind_erase_other _ h

theorem get?_empty (k : Bytes) : (KV.empty : KV V).get? k = none := rfl

theorem mem_entries_iff (m : KV V) (k : Bytes) (v : V) : (k, v) ∈ m.entries ↔ m.get? k = some v :=
  ⟨kvFind_of_mem m.sorted, kvFind_mem⟩

theorem insert_perm (m : KV V) (k : Bytes) (v : V) :
    (m.insert k v).entries.Perm ((k, v) :: (m.erase k).entries) := kvInsert_eq_erase v m.sorted

theorem insert_fresh_perm (m : KV V) {k : Bytes} (v : V) (h : m.get? k = none) :
    (m.insert k v).entries.Perm ((k, v) :: m.entries) := kvInsert_perm_fresh v h

theorem erase_perm (m : KV V) {k : Bytes} {v : V} (h : m.get? k = some v) :
    m.entries.Perm ((k, v) :: (m.erase k).entries) := kvErase_perm h

theorem has_iff (m : KV V) (k : Bytes) : m.has k = true ↔ ∃ v, m.get? k = some v := by
  unfold KV.has; rw [Option.isSome_iff_exists]

theorem has_false_iff (m : KV V) (k : Bytes) : m.has k = false ↔ m.get? k = none := by
  unfold KV.has; simp

/-- Two maps with the same lookups are equal. -/
theorem ext_get? {m m' : KV V} (h : ∀ k, m.get? k = m'.get? k) : m = m' := by
  have hm : ∀ e : Bytes × V, e ∈ m.entries ↔ e ∈ m'.entries := by
    rintro ⟨k, v⟩; rw [mem_entries_iff, mem_entries_iff, h]
  obtain ⟨l, hl⟩ := m
  obtain ⟨l', hl'⟩ := m'
  congr 1
  have nd : ∀ {l : List (Bytes × V)}, KSorted l → l.Nodup := by
    intro l hl
    exact List.Pairwise.imp (fun {a b} hab => by rintro rfl; rw [bytesLt_irrefl] at hab; simp at hab) hl
  have hp : l.Perm l' := (List.perm_ext_iff_of_nodup (nd hl) (nd hl')).2 hm
  refine hp.eq_of_pairwise (le := fun a b : Bytes × V => bytesLt a.1 b.1 = true) ?_ hl hl'
  intro a b _ _ h1 h2
  have := bytesLt_trans _ _ _ h1 h2
  rw [bytesLt_irrefl] at this; simp at this

end KV

end OraiV3
