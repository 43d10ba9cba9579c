import Verif.Lemmas.KV
import Verif.Lemmas.Keys
import Verif.Lemmas.Monad
import Verif.Query

/-!
# Pages of sorted lists
-/

namespace OraiV3

/-- The entries after a key. -/
def after {V : Type} (all : List (Bytes × V)) (start : Option Bytes) : List (Bytes × V) :=
  match start with
  | none => all
  | some st => all.filter (fun e => bytesLt st e.1)

theorem mem_after {V : Type} {all : List (Bytes × V)} {start : Option Bytes} {e : Bytes × V} :
    e ∈ after all start ↔ e ∈ all ∧ ∀ st, start = some st → bytesLt st e.1 = true := by
  cases start with
  | none => simp [after]
  | some st => simp [after, List.mem_filter]

theorem after_sorted {V : Type} {all : List (Bytes × V)} (h : KSorted all) (start : Option Bytes) : KSorted (after all start) := by
  cases start with
  | none => exact h
  | some st => exact List.Pairwise.sublist List.filter_sublist h

/-- After the last entry of a page comes what the page left out. -/
theorem after_split {V : Type} {all page rest : List (Bytes × V)} (h : KSorted all) {start : Option Bytes}
    (he : after all start = page ++ rest) {e : Bytes × V} (hl : page.getLast? = some e) : after all (some e.1) = rest := by
  have hmem : e ∈ page := List.mem_of_getLast? hl
  have hs := after_sorted h start
  rw [he] at hs
  have hin : e ∈ after all start := by rw [he]; simp [hmem]
  have h1 : after all (some e.1) = (after all start).filter (fun x => bytesLt e.1 x.1) := by
    cases start with
    | none => rfl
    | some st =>
      simp only [after, List.filter_filter]
      refine List.filter_congr (fun x _ => ?_)
      have hst := (mem_after.1 hin).2 st rfl
      cases hx : bytesLt e.1 x.1 with
      | false => simp
      | true => simp [bytesLt_trans _ _ _ hst hx]
  unfold KSorted at hs
  rw [List.pairwise_append] at hs
  rw [h1, he, List.filter_append]
  have h2 : page.filter (fun x => bytesLt e.1 x.1) = [] := by
    rw [List.filter_eq_nil_iff]
    intro x hx
    obtain ⟨pre, rfl⟩ := List.getLast?_eq_some_iff.1 hl
    rw [List.pairwise_append] at hs
    rcases List.mem_append.1 hx with hx | hx
    · have := hs.1.2.2 x hx e (by simp)
      simp [bytesLt_asymm _ _ this]
    · simp only [List.mem_singleton] at hx
      subst hx
      simp [bytesLt_irrefl]
  have h3 : rest.filter (fun x => bytesLt e.1 x.1) = rest := by
    rw [List.filter_eq_self]
    intro x hx
    exact hs.2.2 e hmem x hx
  rw [h2, h3, List.nil_append]

theorem rangeAfter_eq {V : Type} (m : KV V) (start : Option Bytes) : m.rangeAfter start = after m.entries start := by
  cases start <;> rfl

/-- Decoding keys that were encoded. -/
theorem mapM_decode {V : Type} : ∀ (l : List (Bytes × V)), (∀ e ∈ l, ∃ k : PoolKey, PoolKey.fromBytes e.1 = .ok k ∧ k.key = e.1 ∧ k.wf) →
    ∃ l' : List (PoolKey × V), l.mapM (fun e => do let k ← PoolKey.fromBytes e.1; pure (k, e.2) : Bytes × V → M (PoolKey × V)) = .ok l' ∧
      l'.map (fun e => (e.1.key, e.2)) = l ∧ ∀ e ∈ l', e.1.wf
  | [], _ => ⟨[], rfl, rfl, by simp⟩
  | e :: l, h => by
    obtain ⟨k, h1, h2, h3⟩ := h e (by simp)
    obtain ⟨l', h4, h5, h6⟩ := mapM_decode l (fun e he => h e (by simp [he]))
    refine ⟨(k, e.2) :: l', ?_, ?_, ?_⟩
    · rw [List.mapM_cons, h1]
      simp only [ok_bind, pure, Except.pure]
      simp only [pure, Except.pure] at h4
      rw [h4]
      rfl
    · simp only [List.map_cons, h5, h2]
    · intro x hx
      rcases List.mem_cons.1 hx with rfl | hx
      · exact h3
      · exact h6 x hx

theorem mapM_ok_map {α β γ : Type} {f : α → M β} {g : β → γ} {g' : α → γ} : ∀ {l : List α},
    (∀ a ∈ l, ∃ b, f a = .ok b ∧ g b = g' a) → ∃ l', l.mapM f = .ok l' ∧ l'.map g = l.map g'
  | [], _ => ⟨[], rfl, rfl⟩
  | a :: l, h => by
    obtain ⟨b, h1, h2⟩ := h a (by simp)
    obtain ⟨l', h3, h4⟩ := mapM_ok_map (l := l) (fun a ha => h a (by simp [ha]))
    refine ⟨b :: l', ?_, by simp [h2, h4]⟩
    rw [List.mapM_cons, h1, h3]
    rfl

theorem drop_take_range {α : Type} (f : Nat → α) (n a b : Nat) :
    (((List.range n).map f).drop a).take b = (rangeList a (min n (a + b))).map f := by
  apply List.ext_getElem?
  intro i
  unfold rangeList
  rw [List.getElem?_take]
  simp only [List.getElem?_drop, List.getElem?_map, List.map_map]
  split
  · by_cases hi : a + i < n
    · rw [List.getElem?_range hi, List.getElem?_range (by omega)]
      simp [Nat.add_comm]
    · rw [List.getElem?_eq_none (by simp; omega), List.getElem?_eq_none (by simp; omega)]
      rfl
  · rw [List.getElem?_eq_none (by simp; omega)]
    rfl

end OraiV3
