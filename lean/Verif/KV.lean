import Verif.Base

/-!
# KV: the ordered key/value storage

A `cw_storage_plus::Map<&[u8], V>` is a finite map from raw key bytes to values, iterated in
ascending key order.  The model is an association list kept strictly sorted by key.  This is the
storage of the chain, not code of the repository; it is part of the trusted base.
-/

namespace OraiV3

theorem bytesLt_irrefl : ∀ a : Bytes, bytesLt a a = false
  | [] => rfl
  | a :: as => by simp [bytesLt, bytesLt_irrefl as]

theorem bytesLt_trans : ∀ a b c : Bytes, bytesLt a b = true → bytesLt b c = true → bytesLt a c = true
  | [], [], _, h, _ => by simp [bytesLt] at h
  | [], _ :: _, [], _, h => by simp [bytesLt] at h
  | [], _ :: _, _ :: _, _, _ => by simp [bytesLt]
  | _ :: _, [], _, h, _ => by simp [bytesLt] at h
  | _ :: _, _ :: _, [], _, h => by simp [bytesLt] at h
  | a :: as, b :: bs, c :: cs, h1, h2 => by
    simp only [bytesLt] at *
    split at h1
    · split at h2
      · rw [if_pos (by omega)]
      · split at h2
        · rw [if_pos (by omega)]
        · simp at h2
    · split at h1
      · split at h2
        · rw [if_pos (by omega)]
        · split at h2
          · rw [if_neg (by omega), if_pos (by omega)]
            exact bytesLt_trans as bs cs h1 h2
          · simp at h2
      · simp at h1

theorem bytesLt_tri : ∀ a b : Bytes, bytesLt a b = false → bytesLt b a = false → a = b
  | [], [], _, _ => rfl
  | [], _ :: _, h, _ => by simp [bytesLt] at h
  | _ :: _, [], _, h => by simp [bytesLt] at h
  | a :: as, b :: bs, h1, h2 => by
    simp only [bytesLt] at h1 h2
    split at h1
    · simp at h1
    · split at h2
      · simp at h2
      · have hab : a = b := Fin.ext (by omega)
        subst hab
        simp only [if_true] at h1 h2
        rw [bytesLt_tri as bs h1 h2]

theorem bytesLt_asymm (a b : Bytes) (h : bytesLt a b = true) : bytesLt b a = false := by
  cases h' : bytesLt b a with
  | false => rfl
  | true => have := bytesLt_trans a b a h h'; rw [bytesLt_irrefl] at this; simp at this

/-- Insert or overwrite in a sorted association list. -/
def kvInsert {V : Type} (k : Bytes) (v : V) : List (Bytes × V) → List (Bytes × V)
  | [] => [(k, v)]
  | (k', v') :: l =>
    if bytesLt k k' then (k, v) :: (k', v') :: l
    else if bytesLt k' k then (k', v') :: kvInsert k v l
    else (k, v) :: l

/-- Remove a key. -/
def kvErase {V : Type} (k : Bytes) : List (Bytes × V) → List (Bytes × V)
  | [] => []
  | (k', v') :: l => if k' = k then l else (k', v') :: kvErase k l

/-- Look a key up. -/
def kvFind {V : Type} (k : Bytes) : List (Bytes × V) → Option V
  | [] => none
  | (k', v') :: l => if k' = k then some v' else kvFind k l

/-- Keys strictly ascending. -/
def KSorted {V : Type} (l : List (Bytes × V)) : Prop := l.Pairwise (fun a b => bytesLt a.1 b.1 = true)

theorem kvInsert_mem {V : Type} {k : Bytes} {v : V} {l : List (Bytes × V)} {e : Bytes × V}
    (h : e ∈ kvInsert k v l) : e = (k, v) ∨ e ∈ l := by
  induction l with
  | nil => simpa [kvInsert] using h
  | cons hd tl ih =>
    obtain ⟨k', v'⟩ := hd
    simp only [kvInsert] at h
    split at h
    · simpa using h
    · split at h
      · rcases List.mem_cons.1 h with h | h
        · exact .inr (by simp [h])
        · rcases ih h with h | h
          · exact .inl h
          · exact .inr (by simp [h])
      · rcases List.mem_cons.1 h with h | h
        · exact .inl h
        · exact .inr (by simp [h])

theorem kvInsert_sorted {V : Type} (k : Bytes) (v : V) (l : List (Bytes × V)) (h : KSorted l) :
    KSorted (kvInsert k v l) := by
  induction l with
  | nil => simp [kvInsert, KSorted]
  | cons hd tl ih =>
    obtain ⟨k', v'⟩ := hd
    unfold KSorted at h ih ⊢
    rw [List.pairwise_cons] at h
    simp only [kvInsert]
    split
    · rename_i hk
      rw [List.pairwise_cons]
      refine ⟨fun e he => ?_, List.pairwise_cons.2 h⟩
      rcases List.mem_cons.1 he with rfl | he
      · exact hk
      · exact bytesLt_trans _ _ _ hk (h.1 e he)
    · split
      · rename_i hk
        rw [List.pairwise_cons]
        refine ⟨fun e he => ?_, ih h.2⟩
        rcases kvInsert_mem he with rfl | he
        · exact hk
        · exact h.1 e he
      · rename_i h1 h2
        have hkk : k = k' := bytesLt_tri _ _ (by simpa using h1) (by simpa using h2)
        subst hkk
        rw [List.pairwise_cons]
        exact h

theorem kvErase_sublist {V : Type} (k : Bytes) (l : List (Bytes × V)) : (kvErase k l).Sublist l := by
  induction l with
  | nil => exact .slnil
  | cons hd tl ih =>
    obtain ⟨k', v'⟩ := hd
    simp only [kvErase]
    split
    · exact List.sublist_cons_self _ _
    · exact ih.cons_cons _

theorem kvErase_sorted {V : Type} (k : Bytes) (l : List (Bytes × V)) (h : KSorted l) :
    KSorted (kvErase k l) := List.Pairwise.sublist (kvErase_sublist k l) h

/-- Ordered key/value map (one `cw_storage_plus::Map`). -/
structure KV (V : Type) where
  entries : List (Bytes × V)
  sorted : KSorted entries

namespace KV
variable {V : Type}

/-- The empty map. -/
def empty : KV V := ⟨[], List.Pairwise.nil⟩
/-- `Map::save`. -/
def insert (m : KV V) (k : Bytes) (v : V) : KV V := ⟨kvInsert k v m.entries, kvInsert_sorted _ _ _ m.sorted⟩
/-- `Map::remove`. -/
def erase (m : KV V) (k : Bytes) : KV V := ⟨kvErase k m.entries, kvErase_sorted _ _ m.sorted⟩
/-- `Map::may_load`. -/
def get? (m : KV V) (k : Bytes) : Option V := kvFind k m.entries
/-- `Map::has`. -/
def has (m : KV V) (k : Bytes) : Bool := (m.get? k).isSome
/-- All values, in key order. -/
def vals (m : KV V) : List V := m.entries.map (·.2)
/-- `Map::range_raw(start, None, Ascending)` with `Bound::ExclusiveRaw` (or no bound). -/
def rangeAfter (m : KV V) (start : Option Bytes) : List (Bytes × V) :=
  match start with
  | none => m.entries
  | some s => m.entries.filter (fun e => bytesLt s e.1)

end KV

end OraiV3
