import Verif.Lemmas.PoolEvo
import Verif.Lemmas.Keys

/-!
# Token ids and the positions map
-/

namespace OraiV3

theorem beNat_lt : ∀ b : Bytes, beNat b < 256 ^ b.length
  | [] => by simp [beNat]
  | x :: xs => by
    have ih := beNat_lt xs
    have hx := x.isLt
    simp only [beNat, List.length_cons, Nat.pow_succ]
    have : x.val * 256 ^ xs.length ≤ 255 * 256 ^ xs.length := Nat.mul_le_mul_right _ (by omega)
    omega

theorem beBytes_congr : ∀ (k n m : Nat), n % 256 ^ k = m % 256 ^ k → beBytes k n = beBytes k m
  | 0, _, _, _ => rfl
  | k + 1, n, m, h => by
    unfold beBytes
    have hlow : n % 256 ^ k = m % 256 ^ k := by
      have := congrArg (· % 256 ^ k) h
      simp only [Nat.pow_succ] at this
      rwa [Nat.mod_mul_right_mod, Nat.mod_mul_right_mod] at this
    have hhigh : n / 256 ^ k % 256 = m / 256 ^ k % 256 := by
      have := congrArg (· / 256 ^ k) h
      simp only [Nat.pow_succ] at this
      rwa [Nat.mod_mul_right_div_self, Nat.mod_mul_right_div_self] at this
    rw [beBytes_congr k n m hlow]
    congr 1
    exact Fin.ext hhigh

theorem beBytes_beNat : ∀ b : Bytes, beBytes b.length (beNat b) = b
  | [] => rfl
  | x :: xs => by
    have ih := beBytes_beNat xs
    have hlt := beNat_lt xs
    have hpos : 0 < 256 ^ xs.length := Nat.pow_pos (by omega)
    unfold beBytes beNat
    simp only [List.length_cons]
    congr 1
    · apply Fin.ext
      have : (x.val * 256 ^ xs.length + beNat xs) / 256 ^ xs.length = x.val := by
        rw [Nat.mul_comm, Nat.mul_add_div hpos, Nat.div_eq_of_lt hlt]; omega
      show (x.val * 256 ^ xs.length + beNat xs) / 256 ^ xs.length % 256 = x.val
      rw [this]; exact Nat.mod_eq_of_lt x.isLt
    · rw [← ih]
      have h2 : (beBytes xs.length (beNat xs)).length = xs.length := beBytes_length _ _
      rw [ih]
      conv_rhs => rw [← ih]
      apply beBytes_congr
      rw [Nat.mul_comm, Nat.mul_add_mod]

theorem positionKey_owner {a b : Bytes} {i j : Nat} (h : positionKey a i = positionKey b j) : a = b := by
  unfold positionKey at h
  exact (List.append_inj' h (by simp [beBytes_length])).1

theorem tokenOwner_spec {id owner : Bytes} (h : tokenOwner id = .ok owner) :
    positionKey owner (tokenIndex id) = id ∧ tokenIndex id < U32 := by
  unfold tokenOwner at h
  rw [ite_error_ok, ok_inj] at h
  obtain ⟨hl, rfl⟩ := h
  have hlen : (id.drop (id.length - 4)).length = 4 := by rw [List.length_drop]; omega
  constructor
  · unfold positionKey tokenIndex
    have := beBytes_beNat (id.drop (id.length - 4))
    rw [hlen] at this
    rw [this, List.take_append_drop]
  · unfold tokenIndex
    have := beNat_lt (id.drop (id.length - 4))
    rw [hlen] at this
    simpa using this

theorem tokenOwner_positionKey (o : Bytes) (i : Nat) : tokenOwner (positionKey o i) = .ok o := by
  unfold tokenOwner positionKey
  simp [beBytes_length]

theorem tokenIndex_positionKey (o : Bytes) {i : Nat} (h : i < U32) : tokenIndex (positionKey o i) = i := by
  unfold tokenIndex positionKey
  simp only [List.length_append, beBytes_length, Nat.add_sub_cancel, List.drop_left']
  rw [beNat_beBytes]
  exact Nat.mod_eq_of_lt (by simpa using h)

theorem getPositionLength_insert (s : Store) (o o' : Bytes) (n : Nat) (m : KV Nat) (h : m = s.posLen.insert o n) :
    (m.get? o').getD 0 = if o' = o then n else getPositionLength s o' := by
  subst h
  unfold getPositionLength
  rw [KV.get?_insert]
  split <;> rfl

/-- Removing from one account leaves the positions and lengths of others alone. -/
theorem removePositionAt_other {s s' : Store} {o o' : Bytes} {i : Nat} {p : Position}
    (h : removePositionAt s o i = .ok (s', p)) (ho : o' ≠ o) :
    getPositionLength s' o' = getPositionLength s o' ∧
    ∀ j, s'.positions.get? (positionKey o' j) = s.positions.get? (positionKey o' j) := by
  have hk : ∀ j m, positionKey o' j ≠ positionKey o m := fun j m e => ho (positionKey_owner e)
  obtain ⟨n, _, _, ⟨_, last, _, rfl⟩ | ⟨_, rfl⟩⟩ := removePositionAt_inv h
  · refine ⟨?_, fun j => ?_⟩
    · simp [getPositionLength, KV.get?_insert, ho]
    · simp [KV.get?_insert, KV.get?_erase, hk]
  · refine ⟨?_, fun j => ?_⟩
    · simp [getPositionLength, KV.get?_insert, ho]
    · simp [KV.get?_erase, hk]

/-- Appending to an account keeps all existing entries. -/
theorem addPosition_keeps {s s' : Store} {o o' : Bytes} {p : Position} (h : addPosition s o p = .ok s') :
    getPositionLength s o' ≤ getPositionLength s' o' ∧
    ∀ j < getPositionLength s o', j < U32 →
      s'.positions.get? (positionKey o' j) = s.positions.get? (positionKey o' j) := by
  obtain ⟨hn, rfl⟩ := addPosition_ok.1 h
  constructor
  · simp only [getPositionLength, KV.get?_insert]
    split
    · rename_i e; subst e; simp
    · exact Nat.le_refl _
  · intro j hj hj'
    simp only [KV.get?_insert]
    rw [if_neg]
    intro e
    have := positionKey_inj hj' (by omega) e
    obtain ⟨e1, e2⟩ := this
    rw [e1] at hj
    omega

theorem valid_iff {ex : Expiration} {env : Env} : ex.isExpired env = false ↔ ex.ValidAt env := by
  cases ex <;> simp [Expiration.isExpired, Expiration.ValidAt]

instance (ex : Expiration) (env : Env) : Decidable (ex.ValidAt env) := decidable_of_iff _ valid_iff

theorem expired_eq {ex : Expiration} {env env' : Env} (h : ex.ValidAt env' ↔ ex.ValidAt env) : ex.isExpired env' = ex.isExpired env := by
  rw [← valid_iff, ← valid_iff] at h
  cases h1 : ex.isExpired env' <;> cases h2 : ex.isExpired env <;> simp_all

theorem checkCanSend_ok {s : Store} {env : Env} {info : Info} {owner : Bytes} {pos : Position}
    (h : checkCanSend s env info owner pos = .ok ()) :
    info.sender = owner ∨ ApprovedFor pos env info.sender ∨ OperatorOf s env owner info.sender := by
  unfold checkCanSend at h
  split at h
  · exact .inl ‹_›
  · split at h
    · rename_i hany
      rw [List.any_eq_true] at hany
      obtain ⟨a, ha, hb⟩ := hany
      simp only [Bool.and_eq_true, decide_eq_true_eq, Bool.not_eq_true'] at hb
      exact .inr (.inl ⟨a, ha, hb.1, valid_iff.1 hb.2⟩)
    · rw [ite_ok_error] at h
      obtain ⟨h, _⟩ := h
      unfold isOperator at h
      split at h
      · rename_i ex hex
        exact .inr (.inr ⟨ex, hex, valid_iff.1 (by simpa using h)⟩)
      · simp at h

theorem checkCanApprove_ok {s : Store} {env : Env} {info : Info} {owner : Bytes}
    (h : checkCanApprove s env info owner = .ok ()) :
    info.sender = owner ∨ OperatorOf s env owner info.sender := by
  unfold checkCanApprove at h
  split at h
  · exact .inl ‹_›
  · rw [ite_ok_error] at h
    obtain ⟨h, _⟩ := h
    unfold isOperator at h
    split at h
    · rename_i ex hex
      exact .inr ⟨ex, hex, valid_iff.1 (by simpa using h)⟩
    · simp at h

/-- What a transfer of a token does for an account that neither owns the token nor ... -/
theorem transferNftInternal_other {s s' : Store} {env : Env} {info : Info} {rcp id owner : Bytes}
    (h : transferNftInternal s env info rcp id = .ok s') (hs : info.sender ≠ owner)
    (hop : ¬ OperatorOf s env owner info.sender)
    (hap : ∀ i p, s.positions.get? (positionKey owner i) = some p → ¬ ApprovedFor p env info.sender) :
    getPositionLength s owner ≤ getPositionLength s' owner ∧
    ∀ i < getPositionLength s owner, i < U32 →
      s'.positions.get? (positionKey owner i) = s.positions.get? (positionKey owner i) := by
  obtain ⟨o, pos, s1, p, h1, h2, h3, h4, h5⟩ := transferNftInternal_inv h
  have ho : owner ≠ o := by
    rintro rfl
    rcases checkCanSend_ok h3 with h | h | h
    · exact hs h
    · rw [← (tokenOwner_spec h1).1] at h2
      exact hap _ _ h2 h
    · exact hop h
  obtain ⟨a1, a2⟩ := removePositionAt_other h4 ho
  obtain ⟨b1, b2⟩ := addPosition_keeps (o' := owner) h5
  rw [a1] at b1 b2
  exact ⟨b1, fun i hi hi' => (b2 i hi hi').trans (a2 i)⟩

theorem updateApprovals_other {s s' : Store} {env : Env} {info : Info} {sp id owner : Bytes} {add : Bool}
    {ex : Option Expiration} {out : List OutMsg}
    (h : updateApprovals s env info sp id add ex = .ok (s', out)) (hs : info.sender ≠ owner)
    (hop : ¬ OperatorOf s env owner info.sender) :
    getPositionLength s' owner = getPositionLength s owner ∧
    ∀ i, s'.positions.get? (positionKey owner i) = s.positions.get? (positionKey owner i) := by
  obtain ⟨o, pos, h1, h2, h3, _, _, rfl⟩ := updateApprovals_inv h
  refine ⟨rfl, fun i => ?_⟩
  simp only [KV.get?_insert]
  rw [if_neg]
  intro e
  rw [← (tokenOwner_spec h1).1] at e
  have := positionKey_owner e
  subst this
  rcases checkCanApprove_ok h3 with h | h
  · exact hs h
  · exact hop h

end OraiV3
