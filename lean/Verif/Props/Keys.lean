import Verif.Lemmas.Keys
import Verif.Lemmas.Positions
import Verif.Examples

/-!
# C21: storage keys
-/

namespace OraiV3
open Demo

theorem splitNamespaces_cons (n : Nat) {a rest : Bytes} (ha : a.length < U16) {l : List Bytes}
    (h : splitNamespaces n rest = .ok l) : splitNamespaces (n + 1) (lenPrefixed a ++ rest) = .ok (a :: l) := by
  have hb := beNat_beBytes 2 a.length
  rw [Nat.mod_eq_of_lt (by simpa using ha)] at hb
  have hlen := beBytes_length 2 a.length
  unfold lenPrefixed
  generalize hg : beBytes 2 a.length = g at hb hlen
  match g, hlen with
  | [b0, b1], _ =>
    simp only [List.cons_append, List.nil_append, splitNamespaces]
    rw [hb]
    rw [if_neg (by simp)]
    simp [h, ok_bind, pure, Except.pure]

theorem splitNamespaces_nil (n : Nat) : splitNamespaces n [] = .ok [] := by cases n <;> rfl

theorem FeeTier.fromBytes_key {t : FeeTier} (h : t.wf) : FeeTier.fromBytes t.key = .ok t := by
  obtain ⟨f, s⟩ := t
  obtain ⟨hf, hs⟩ := h
  unfold FeeTier.fromBytes
  rw [if_neg (by simp [FeeTier.key, beBytes_length])]
  have h1 : (FeeTier.key ⟨f, s⟩).take 8 = beBytes 8 f := by
    simp only [FeeTier.key]
    rw [List.take_append_of_le_length (by simp [beBytes_length])]
    rw [List.take_of_length_le (by simp [beBytes_length])]
  have h2 : (FeeTier.key ⟨f, s⟩).drop 8 = beBytes 2 s := by
    simp only [FeeTier.key]
    rw [List.drop_append_of_le_length (by simp [beBytes_length])]
    rw [List.drop_of_length_le (by simp [beBytes_length])]
    simp
  rw [h1, h2, beNat_beBytes, beNat_beBytes, Nat.mod_eq_of_lt (by simpa using hf), Nat.mod_eq_of_lt (by simpa using hs)]

/-- C21, reading back.  The pool key decoded from a pool's storage key is the one it was made from. -/
theorem C21_pool_key_roundtrip {k : PoolKey} (h : k.wf) : PoolKey.fromBytes k.key = .ok k := by
  obtain ⟨x, y, t⟩ := k
  obtain ⟨hx, hy, ht⟩ := h
  simp only at hx hy ht
  unfold PoolKey.fromBytes
  have hk : ∃ n, (PoolKey.key ⟨x, y, t⟩).length = n + 1 + 1 + 1 := by
    refine ⟨(PoolKey.key ⟨x, y, t⟩).length - 3, ?_⟩
    have : 3 ≤ (PoolKey.key ⟨x, y, t⟩).length := by
      simp [PoolKey.key, lenPrefixed, beBytes_length]; omega
    omega
  obtain ⟨n, hn⟩ := hk
  rw [hn]
  have h3 : splitNamespaces (n + 1) (lenPrefixed t.key ++ []) = .ok [t.key] :=
    splitNamespaces_cons n (by rw [FeeTier.key_length]; decide) (splitNamespaces_nil n)
  rw [List.append_nil] at h3
  have h2 := splitNamespaces_cons (n + 1) hy h3
  have h1 := splitNamespaces_cons (n + 1 + 1) hx h2
  have e : PoolKey.key ⟨x, y, t⟩ = lenPrefixed x ++ (lenPrefixed y ++ lenPrefixed t.key) := by
    simp [PoolKey.key]
  rw [e, h1]
  simp [ok_bind, FeeTier.fromBytes_key ht, pure, Except.pure]

/-- C21, no collisions.  Pools, ticks, tickmap chunks, positions and operator grants that differ are stored
under different keys.  (Every tick of a message is an `i32`, every chunk number a `u16`, every position
number a `u32`; a length prefix holds lengths below 65536.) -/
theorem C21_keys_do_not_collide :
    (∀ a b : PoolKey, a.wf → b.wf → a.key = b.key → a = b) ∧
    (∀ (a b : PoolKey) (s t : Int), a.wf → b.wf → i32 s → i32 t → tickKey a s = tickKey b t → a = b ∧ s = t) ∧
    (∀ (a b : PoolKey) (m n : Nat), a.wf → b.wf → m < 2 ^ 16 → n < 2 ^ 16 →
      bitmapKey m a = bitmapKey n b → m = n ∧ a = b) ∧
    (∀ (a b : Bytes) (m n : Nat), m < 2 ^ 32 → n < 2 ^ 32 → positionKey a m = positionKey b n → a = b ∧ m = n) ∧
    (∀ a b a' b' : Bytes, a.length < 2 ^ 16 → a'.length < 2 ^ 16 →
      operatorKey a b = operatorKey a' b' → a = a' ∧ b = b') :=
  ⟨fun _ _ ha hb h => PoolKey.key_inj ha hb h,
   fun _ _ _ _ ha hb hs ht h => tickKey_inj ha hb hs ht h,
   fun _ _ _ _ ha hb hm hn h => bitmapKey_inj ha hb hm hn h,
   fun _ _ _ _ hm hn h => positionKey_inj hm hn h,
   fun _ _ _ _ ha hb h => operatorKey_inj ha hb h⟩

/-- C21, token ids.  A token id names its owner and number. -/
theorem C21_token_id {owner : Bytes} {i : Nat} (h : i < 2 ^ 32) :
    tokenOwner (positionKey owner i) = .ok owner ∧ tokenIndex (positionKey owner i) = i :=
  ⟨tokenOwner_positionKey owner i, tokenIndex_positionKey owner h⟩

example : key.wf ∧ key ≠ ⟨[97, 98], [], tier⟩ ∧ i32 (-5) ∧
    PoolKey.fromBytes key.key = .ok key := ⟨by decide, by decide, by decide, C21_pool_key_roundtrip (by decide)⟩

end OraiV3
