import Verif.Lemmas.Micro

/-!
# The numbering of positions
-/

namespace OraiV3

/-- Positions of every account are numbered without gaps. -/
structure PosInv (s : Store) : Prop where
  len : ∀ o, getPositionLength s o < U32
  iff : ∀ o i, i < U32 → ((∃ p, s.positions.get? (positionKey o i) = some p) ↔ i < getPositionLength s o)
  key : ∀ key p, s.positions.get? key = some p → ∃ o i, key = positionKey o i ∧ i < U32

theorem PosInv.congr {s s' : Store} (h : PosInv s) (h1 : s'.positions = s.positions) (h2 : s'.posLen = s.posLen) :
    PosInv s' := by
  obtain ⟨a, b, d⟩ := h
  have e : ∀ o, getPositionLength s' o = getPositionLength s o := fun o => by unfold getPositionLength; rw [h2]
  exact ⟨fun o => by rw [e]; exact a o, fun o i hi => by rw [h1, e]; exact b o i hi, fun k p => by rw [h1]; exact d k p⟩

theorem PosInv.update {s s' : Store} (h : PosInv s) {id : Bytes} {p p' : Position}
    (hp : s.positions.get? id = some p) (h1 : s'.positions = s.positions.insert id p')
    (h2 : s'.posLen = s.posLen) : PosInv s' := by
  obtain ⟨a, b, d⟩ := h
  have e : ∀ o, getPositionLength s' o = getPositionLength s o := fun o => by unfold getPositionLength; rw [h2]
  refine ⟨fun o => by rw [e]; exact a o, fun o i hi => ?_, fun k q => ?_⟩
  · rw [h1, e, ← b o i hi, KV.get?_insert]
    by_cases hk : positionKey o i = id
    · simp [hk, hp]
    · simp [hk]
  · rw [h1, KV.get?_insert]
    split
    · rename_i hk; subst hk; intro _; exact d _ _ hp
    · exact d k q

theorem PosInv.add {s s' : Store} (h : PosInv s) {o : Bytes} {p : Position} (ha : addPosition s o p = .ok s') :
    PosInv s' := by
  obtain ⟨a, b, d⟩ := h
  obtain ⟨hn, rfl⟩ := addPosition_ok.1 ha
  refine ⟨fun o' => ?_, fun o' i hi => ?_, fun k q => ?_⟩
  · simp only [getPositionLength, KV.get?_insert]
    split
    · exact hn
    · exact a o'
  · have hb := b o' i hi
    simp only [getPositionLength, KV.get?_insert]
    by_cases ho : o' = o
    · subst ho
      by_cases hin : i = getPositionLength s o'
      · subst hin
        simp [getPositionLength]
      · have : positionKey o' i ≠ positionKey o' ((s.posLen.get? o').getD 0) := fun e =>
          hin (positionKey_inj hi (by unfold getPositionLength at hn; omega) e).2
        rw [if_neg this, if_pos rfl, hb]
        simp only [Option.getD_some]
        unfold getPositionLength at hin ⊢
        omega
    · have : positionKey o' i ≠ positionKey o ((s.posLen.get? o).getD 0) := fun e => ho (positionKey_owner e)
      rw [if_neg this, if_neg ho]
      exact hb
  · rw [KV.get?_insert]
    split
    · rename_i hk; subst hk; intro _; exact ⟨_, _, rfl, by omega⟩
    · exact d k q

theorem PosInv.remove {s s' : Store} (h : PosInv s) {o : Bytes} {i : Nat} {p : Position} (hi : i < U32)
    (ha : removePositionAt s o i = .ok (s', p)) : i < getPositionLength s o ∧ PosInv s' := by
  obtain ⟨a, b, d⟩ := h
  obtain ⟨n, hn, hp, hr⟩ := removePositionAt_inv ha
  have hil : i < getPositionLength s o := (b o i hi).1 ⟨p, hp⟩
  have hnU : n < U32 := by have := a o; omega
  refine ⟨hil, ?_⟩
  have hlen : s'.posLen = s.posLen.insert o n := by
    rcases hr with ⟨_, _, _, rfl⟩ | ⟨_, rfl⟩ <;> rfl
  have hget : ∀ o' j, j < U32 → s'.positions.get? (positionKey o' j) =
      if o' = o ∧ j = n then none else if o' = o ∧ j = i then s.positions.get? (positionKey o n)
      else s.positions.get? (positionKey o' j) := by
    intro o' j hj
    have key1 : positionKey o' j = positionKey o n ↔ (o' = o ∧ j = n) :=
      ⟨fun e => positionKey_inj hj hnU e, fun ⟨e1, e2⟩ => by rw [e1, e2]⟩
    have key2 : positionKey o' j = positionKey o i ↔ (o' = o ∧ j = i) :=
      ⟨fun e => positionKey_inj hj hi e, fun ⟨e1, e2⟩ => by rw [e1, e2]⟩
    rcases hr with ⟨hin, last, hl, rfl⟩ | ⟨hin, rfl⟩
    · simp only [KV.get?_insert, KV.get?_erase, key1, key2]
      by_cases c1 : o' = o ∧ j = n
      · rw [if_neg (by omega), if_pos c1, if_pos c1]
      · by_cases c2 : o' = o ∧ j = i
        · rw [if_pos c2, if_neg c1, if_pos c2, hl]
        · rw [if_neg c2, if_neg c1, if_neg c1, if_neg c2]
    · have : i = n := by omega
      subst this
      simp only [KV.get?_erase, key1]
      split <;> rfl
  refine ⟨fun o' => ?_, fun o' j hj => ?_, fun k q => ?_⟩
  · unfold getPositionLength
    rw [hlen, KV.get?_insert]
    split
    · exact hnU
    · exact a o'
  · rw [hget o' j hj]
    have hb := b o' j hj
    unfold getPositionLength
    rw [hlen, KV.get?_insert]
    by_cases ho : o' = o
    · subst ho
      rw [if_pos rfl, Option.getD_some]
      by_cases c1 : j = n
      · simp [c1]
      · by_cases c2 : j = i
        · subst c2
          rw [if_neg (by simp [c1]), if_pos (by simp), b o' n hnU]
          omega
        · rw [if_neg (by simp [c1]), if_neg (by simp [c2]), hb]
          omega
    · rw [if_neg (by simp [ho]), if_neg (by simp [ho]), if_neg ho]
      exact hb
  · rcases hr with ⟨hin, last, hl, rfl⟩ | ⟨hin, rfl⟩
    · simp only [KV.get?_insert, KV.get?_erase]
      split
      · rename_i hk; intro _; exact ⟨o, i, hk, hi⟩
      · split
        · simp
        · exact d k q
    · simp only [KV.get?_erase]
      split
      · simp
      · exact d k q

theorem MReach.posInv {c : Chain} {s : Store} (h : MReach c s) : PosInv s := by
  induction h with
  | init sender fee _ =>
    refine ⟨fun o => ?_, fun o i hi => ?_, fun k p h => ?_⟩
    · show 0 < U32; decide
    · constructor
      · rintro ⟨p, h⟩; simp [instantiate, Store.empty, KV.get?_empty] at h
      · intro h; exact absurd h (Nat.not_lt_zero _)
    · simp [instantiate, Store.empty, KV.get?_empty] at h
  | step _ hm ih =>
    cases hm with
    | config => exact ih.congr rfl rfl
    | opers => exact ih.congr rfl rfl
    | poolMeta => exact ih.congr rfl rfl
    | newPool hw h =>
      obtain ⟨_, _, _, _, _, _, _, _, _, rfl, _⟩ := createPool_inv h
      exact ih.congr rfl rfl
    | @create _ _ info _ _ _ _ _ _ _ hw h =>
      obtain ⟨p0, liq, pos, _, _, _, _, _, hn, e⟩ := createPosition_frame h
      have := ih.add (o := info.sender) (p := pos) (addPosition_ok.2 ⟨hn, rfl⟩)
      exact this.congr (by rw [e]) (by rw [e])
    | claim hw h =>
      obtain ⟨pos, p0, liq, _, _, hp, _, _, e⟩ := claimFee_frame h
      exact ih.update hp (by rw [e]) (by rw [e])
    | remove hw h =>
      obtain ⟨pos, p0, liq, s2, _, _, _, _, h2, e⟩ := removePosition_frame h
      exact (ih.remove hw h2).2.congr (by rw [e]) (by rw [e])
    | move hw h1 h2 => exact (ih.remove hw h1).2.add h2
    | appr a h => exact ih.update h rfl rfl
    | swap hk ha hl h =>
      obtain ⟨t, e⟩ := swapInternal_frame h
      exact ih.congr (by rw [e]) (by rw [e])

/-! ## The multiset of positions -/

theorem vals_insert_fresh {V : Type} (m : KV V) {k : Bytes} (v : V) (h : m.get? k = none) :
    (m.insert k v).vals.Perm (v :: m.vals) := (m.insert_fresh_perm v h).map Prod.snd

theorem vals_erase {V : Type} (m : KV V) {k : Bytes} {v : V} (h : m.get? k = some v) :
    m.vals.Perm (v :: (m.erase k).vals) := (m.erase_perm h).map Prod.snd

theorem vals_insert {V : Type} (m : KV V) (k : Bytes) (v : V) :
    (m.insert k v).vals.Perm (v :: (m.erase k).vals) := (m.insert_perm k v).map Prod.snd

theorem mem_vals {V : Type} (m : KV V) (v : V) : v ∈ m.vals ↔ ∃ k, m.get? k = some v := by
  simp only [KV.vals, List.mem_map, Prod.exists, KV.mem_entries_iff]
  constructor
  · rintro ⟨a, b, h, rfl⟩; exact ⟨a, h⟩
  · rintro ⟨k, h⟩; exact ⟨k, v, h, rfl⟩

theorem PosInv.fresh {s : Store} (h : PosInv s) {o : Bytes} :
    s.positions.get? (positionKey o (getPositionLength s o)) = none := by
  cases hg : s.positions.get? (positionKey o (getPositionLength s o)) with
  | none => rfl
  | some p => exact absurd ((h.iff o _ (h.len o)).1 ⟨p, hg⟩) (Nat.lt_irrefl _)

theorem addPosition_vals {s s' : Store} (h : PosInv s) {o : Bytes} {p : Position}
    (ha : addPosition s o p = .ok s') : s'.positions.vals.Perm (p :: s.positions.vals) := by
  obtain ⟨hn, rfl⟩ := addPosition_ok.1 ha
  exact vals_insert_fresh _ _ h.fresh

theorem removePositionAt_vals {s s' : Store} (h : PosInv s) {o : Bytes} {i : Nat} {p : Position} (hi : i < U32)
    (ha : removePositionAt s o i = .ok (s', p)) : s.positions.vals.Perm (p :: s'.positions.vals) := by
  obtain ⟨n, hn, hp, hr⟩ := removePositionAt_inv ha
  have hnU : n < U32 := by have := h.len o; omega
  rcases hr with ⟨hin, last, hl, rfl⟩ | ⟨hin, rfl⟩
  · have hne : positionKey o i ≠ positionKey o n := fun e => by
      have := (positionKey_inj hi hnU e).2; omega
    have h1 := vals_erase s.positions hl
    have h2 : (s.positions.erase (positionKey o n)).get? (positionKey o i) = some p := by
      rw [KV.get?_erase, if_neg hne]; exact hp
    have h3 := vals_erase _ h2
    have h4 := vals_insert (s.positions.erase (positionKey o n)) (positionKey o i) last
    exact h1.trans ((h3.cons _).trans ((List.Perm.swap _ _ _).trans (h4.symm.cons _)))
  · exact vals_erase _ hp

theorem updatePosition_vals {V : Type} {m : KV V} {id : Bytes} {p p' : V} (hp : m.get? id = some p) :
    ∃ rest, m.vals.Perm (p :: rest) ∧ (m.insert id p').vals.Perm (p' :: rest) :=
  ⟨_, vals_erase _ hp, vals_insert _ _ _⟩

end OraiV3
