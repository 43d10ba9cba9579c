import Verif.Types
import Mathlib.Tactic.NormNum

/-!
# Injectivity of storage keys
-/

namespace OraiV3

theorem beBytes_length (k n : Nat) : (beBytes k n).length = k := by
  induction k with
  | zero => rfl
  | succ k ih => simp [beBytes, ih]

theorem beNat_beBytes (k n : Nat) : beNat (beBytes k n) = n % 256 ^ k := by
  induction k with
  | zero => simp [beBytes, beNat, Nat.mod_one]
  | succ k ih =>
    simp only [beBytes, beNat, beBytes_length, ih, Fin.ofNat]
    rw [Nat.pow_succ, Nat.mod_mul, Nat.add_comm, Nat.mul_comm]

theorem beBytes_inj {k n m : Nat} (hn : n < 256 ^ k) (hm : m < 256 ^ k) (h : beBytes k n = beBytes k m) :
    n = m := by
  have := congrArg beNat h
  rwa [beNat_beBytes, beNat_beBytes, Nat.mod_eq_of_lt hn, Nat.mod_eq_of_lt hm] at this

theorem lenPrefixed_append_inj {a b c d : Bytes} (ha : a.length < U16) (hb : b.length < U16)
    (h : lenPrefixed a ++ c = lenPrefixed b ++ d) : a = b ∧ c = d := by
  unfold lenPrefixed at h
  rw [List.append_assoc, List.append_assoc] at h
  have h1 := List.append_inj h (by simp [beBytes_length])
  have hl : a.length = b.length := beBytes_inj (by simpa using ha) (by simpa using hb) h1.1
  exact List.append_inj h1.2 hl

theorem lenPrefixed_inj {a b : Bytes} (ha : a.length < U16) (hb : b.length < U16)
    (h : lenPrefixed a = lenPrefixed b) : a = b := by
  have := lenPrefixed_append_inj (c := []) (d := []) ha hb (by simpa using h)
  exact this.1

theorem FeeTier.key_length (t : FeeTier) : t.key.length = 10 := by
  simp [FeeTier.key, beBytes_length]

theorem FeeTier.key_inj {a b : FeeTier} (ha : a.wf) (hb : b.wf) (h : a.key = b.key) : a = b := by
  unfold FeeTier.key at h
  have h1 := List.append_inj h (by simp [beBytes_length])
  obtain ⟨f, s⟩ := a
  obtain ⟨f', s'⟩ := b
  obtain ⟨hf, hs⟩ := ha
  obtain ⟨hf', hs'⟩ := hb
  have e1 := beBytes_inj (by simpa using hf) (by simpa using hf') h1.1
  have e2 := beBytes_inj (by simpa using hs) (by simpa using hs') h1.2
  simp only at e1 e2
  rw [e1, e2]

theorem PoolKey.key_append_inj {a b : PoolKey} (ha : a.wf) (hb : b.wf) {c d : Bytes}
    (h : a.key ++ c = b.key ++ d) : a = b ∧ c = d := by
  obtain ⟨ax, ay, af⟩ := a
  obtain ⟨bx, bY, bf⟩ := b
  obtain ⟨h1, h2, h3⟩ := ha
  obtain ⟨g1, g2, g3⟩ := hb
  simp only [PoolKey.key, List.append_assoc] at h h1 h2 h3 g1 g2 g3
  obtain ⟨e1, h⟩ := lenPrefixed_append_inj h1 g1 h
  obtain ⟨e2, h⟩ := lenPrefixed_append_inj h2 g2 h
  have hl : ∀ t : FeeTier, t.key.length < U16 := fun t => by rw [FeeTier.key_length]; decide
  obtain ⟨e3, h'⟩ := lenPrefixed_append_inj (hl _) (hl _) h
  have e3 := FeeTier.key_inj h3 g3 e3
  subst e1; subst e2; subst e3
  exact ⟨rfl, h'⟩

theorem PoolKey.key_inj {a b : PoolKey} (ha : a.wf) (hb : b.wf) (h : a.key = b.key) : a = b :=
  (PoolKey.key_append_inj (c := []) (d := []) ha hb (by simpa using h)).1

theorem i32Bytes_inj {a b : Int} (ha : i32 a) (hb : i32 b) (h : i32Bytes a = i32Bytes b) : a = b := by
  unfold i32Bytes at h
  have h := beBytes_inj (k := 4) (by simp; omega) (by simp; omega) h
  unfold i32 at ha hb
  omega

theorem tickKey_inj {a b : PoolKey} (ha : a.wf) (hb : b.wf) {s t : Int} (hs : i32 s) (ht : i32 t)
    (h : tickKey a s = tickKey b t) : a = b ∧ s = t := by
  have := PoolKey.key_append_inj ha hb h
  exact ⟨this.1, i32Bytes_inj hs ht this.2⟩

theorem positionKey_inj {a b : Bytes} {i j : Nat} (hi : i < U32) (hj : j < U32)
    (h : positionKey a i = positionKey b j) : a = b ∧ i = j := by
  unfold positionKey at h
  have := List.append_inj' h (by simp [beBytes_length])
  exact ⟨this.1, beBytes_inj (by simpa using hi) (by simpa using hj) this.2⟩

theorem bitmapKey_inj {a b : PoolKey} (ha : a.wf) (hb : b.wf) {c d : Nat} (hc : c < U16) (hd : d < U16)
    (h : bitmapKey c a = bitmapKey d b) : c = d ∧ a = b := by
  unfold bitmapKey at h
  have := List.append_inj h (by simp [beBytes_length])
  exact ⟨beBytes_inj (by simpa using hc) (by simpa using hd) this.1, PoolKey.key_inj ha hb this.2⟩

theorem operatorKey_inj {o p o' p' : Bytes} (h1 : o.length < U16) (h2 : o'.length < U16)
    (h : operatorKey o p = operatorKey o' p') : o = o' ∧ p = p' := lenPrefixed_append_inj h1 h2 h

end OraiV3
