import Verif.Lemmas.Struct

/-!
# What each message does to the position records
-/

namespace OraiV3

/-- Same position records and counters. -/
def SamePos (s s' : Store) : Prop := s'.positions = s.positions ∧ s'.posLen = s.posLen

theorem SamePos.list {s s' : Store} (h : SamePos s s') (o : Bytes) : positionList s' o = positionList s o := by
  unfold positionList getPositionLength
  rw [h.1, h.2]

/-- Effect of a list operation on the records. -/
def PosEffect (s s' : Store) : PosOp → Prop
  | .append o w => ∃ p s1, p.what = w ∧ addPosition s o p = .ok s1 ∧ SamePos s1 s'
  | .remove o i => i < U32 ∧ ∃ p s1, removePositionAt s o i = .ok (s1, p) ∧ SamePos s1 s'
  | .move o i r => i < U32 ∧ ∃ p s1 s2, removePositionAt s o i = .ok (s1, p) ∧
      addPosition s1 r { p with approvals := [] } = .ok s2 ∧ SamePos s2 s'
  | .edit id => ∃ p p', s.positions.get? id = some p ∧ p'.what = p.what ∧
      s'.positions = s.positions.insert id p' ∧ s'.posLen = s.posLen
  | .keep => SamePos s s'

theorem tokenOwner_ok {id o : Bytes} (h : tokenOwner id = .ok o) : o = id.take (id.length - 4) := by
  unfold tokenOwner at h
  rw [ite_error_ok, ok_inj] at h
  exact h.2.symm

theorem createPosition_effect {c : Chain} {s s' : Store} {env : Env} {info : Info} {k : PoolKey}
    {l u : Int} {L lo hi : Nat} {out : List OutMsg} (hs : Struct s)
    (hw : (Msg.createPosition k l u L lo hi).wf)
    (h : createPosition c s env info k l u L lo hi = .ok (s', out)) :
    ∃ p s1, p.what = (k, l, u, L) ∧ addPosition s info.sender p = .ok s1 ∧ SamePos s1 s' := by
  obtain ⟨pool, tl, tu, r, rl, m1, m2, hp, hL, hlu, vl, vu, il, iu, _, _, _, _, _, hm, e1, e2, e3, e4, e5, hU, _⟩ :=
    createPosition_view hs hw h
  refine ⟨r.pos, _, ?_, addPosition_ok.2 ⟨hU, rfl⟩, e4, e5⟩
  obtain ⟨q, d1, d2, d3, d4, d5, _, _⟩ := Position.modify_inv hm
  obtain ⟨ox, oy, l', p1, p2, p3, p4, p5, p6, p7⟩ := Position.update_inv d3
  simp only [if_true, Nat.zero_add] at p4
  rw [p7, p4.2]
  rfl

theorem removePosition_effect {c : Chain} {s s' : Store} {env : Env} {info : Info} {i : Nat}
    {out : List OutMsg} (hs : Struct s) (h : removePosition c s env info i = .ok (s', out)) :
    ∃ p s1, removePositionAt s info.sender i = .ok (s1, p) ∧ SamePos s1 s' := by
  obtain ⟨pos, tl, tu, pool, r, sr, s1, s2, hpos, htl, htu, il, iu, hp, hm, _, _, jl, ju, _, _, hr, e1, e2, e3, e5, e6, e7,
      ht, _⟩ := removePosition_view hs h
  exact ⟨pos, sr, hr, e6, e7⟩

theorem transferNftInternal_effect {s s' : Store} {env : Env} {info : Info} {rcp id : Bytes}
    (h : transferNftInternal s env info rcp id = .ok s') :
    tokenIndex id < U32 ∧ ∃ p s1 s2, removePositionAt s (id.take (id.length - 4)) (tokenIndex id) = .ok (s1, p) ∧
      addPosition s1 rcp { p with approvals := [] } = .ok s2 ∧ SamePos s2 s' := by
  obtain ⟨o, pos, s1, p, e1, e2, _, e4, e5⟩ := transferNftInternal_inv h
  have hsp := tokenOwner_spec e1
  obtain ⟨_, _, hp, _⟩ := removePositionAt_inv e4
  rw [hsp.1, e2] at hp
  cases hp
  rw [tokenOwner_ok e1] at e4
  exact ⟨hsp.2, pos, s1, s', e4, e5, rfl, rfl⟩

theorem updateApprovals_effect {s s' : Store} {env : Env} {info : Info} {sp id : Bytes} {add : Bool}
    {ex : Option Expiration} {out : List OutMsg} (h : updateApprovals s env info sp id add ex = .ok (s', out)) :
    ∃ p p', s.positions.get? id = some p ∧ p'.what = p.what ∧
      s'.positions = s.positions.insert id p' ∧ s'.posLen = s.posLen := by
  simp only [updateApprovals, bind_ok, getPositionByKey_ok] at h
  obtain ⟨o, _, pos, hp, _, _, h⟩ := h
  split at h
  · simp only [ite_error_ok, pure_ok, Prod.mk.injEq] at h
    rw [← h.2.1]
    exact ⟨pos, _, hp, by rfl, rfl, rfl⟩
  · simp only [pure_ok, Prod.mk.injEq] at h
    rw [← h.1]
    exact ⟨pos, _, hp, by rfl, rfl, rfl⟩

theorem execute_posEffect {c : Chain} {env : Env} {info : Info} {msg : Msg} {s s' : Store} {out : List OutMsg}
    (hs : Struct s) (h : execute c env info msg s = .ok (s', out)) : PosEffect s s' (msg.posOp info.sender) := by
  have hw := (execute_ok.1 h).1
  replace h := (execute_ok.1 h).2
  cases msg <;> simp only [dispatch] at h <;> simp only [Msg.posOp, PosEffect]
  case changeAdmin a =>
    simp only [changeAdmin, bind_ok, ite_error_ok, pure_ok, Prod.mk.injEq, loadConfig_ok] at h
    obtain ⟨cfg, h0, _, h, _⟩ := h
    rw [← h]; exact ⟨rfl, rfl⟩
  case withdrawProtocolFee k =>
    simp only [withdrawProtocolFee, bind_ok, ite_error_ok, pure_ok, Prod.mk.injEq, getPool_ok] at h
    obtain ⟨p0, hp0, _, h, _⟩ := h
    rw [← h]; exact ⟨rfl, rfl⟩
  case changeProtocolFee f =>
    simp only [changeProtocolFee, bind_ok, ite_error_ok, pure_ok, Prod.mk.injEq, loadConfig_ok] at h
    obtain ⟨cfg, h0, _, h, _⟩ := h
    rw [← h]; exact ⟨rfl, rfl⟩
  case changeFeeReceiver k r =>
    simp only [changeFeeReceiver, bind_ok, ite_error_ok, pure_ok, Prod.mk.injEq, getPool_ok] at h
    obtain ⟨_, _, _, p0, hp0, h, _⟩ := h
    rw [← h]; exact ⟨rfl, rfl⟩
  case createPosition k l u L lo hi => exact createPosition_effect hs hw h
  case mint k l u L lo hi => exact createPosition_effect hs hw h
  case swap k d a b l =>
    obtain ⟨r, h⟩ := swap_inv h
    obtain ⟨_, _, _, _, _, e4, e5, _⟩ := swapInternal_view hs hw.1 h
    exact ⟨e5, e4⟩
  case swapRoute a e sl hops =>
    obtain ⟨fin, m, h1, _, _⟩ := swapRoute_inv h
    obtain ⟨_, _, e⟩ := swapRouteInternal_frame h1
    rw [e]; exact ⟨rfl, rfl⟩
  case transferPosition i r =>
    obtain ⟨pos, s1, _, h1, _, h2, _⟩ := transferPosition_inv h
    exact ⟨hw, pos, s1, s', h1, h2, rfl, rfl⟩
  case claimFee i =>
    obtain ⟨pos, tl, tu, pool, r, hpos, htl, htu, il, iu, hp, hm, e1, e2, e3, e4, e5, e6, _, ht, _⟩ := claimFee_view hs h
    refine ⟨pos, _, hpos, ?_, e6, e4⟩
    obtain ⟨q, d1, d2, d3, d4, d5, _, _⟩ := Position.modify_inv hm
    obtain ⟨ox, oy, l', p1, p2, p3, p4, p5, p6, p7⟩ := Position.update_inv d3
    simp only [if_true, Nat.add_zero] at p4
    rw [p7, p4.2]; rfl
  case removePosition i => exact ⟨hw, removePosition_effect hs h⟩
  case createPool t0 t1 tier price tick =>
    obtain ⟨_, _, _, _, _, _, _, _, _, rfl, _⟩ := createPool_inv h
    exact ⟨rfl, rfl⟩
  case addFeeTier t =>
    simp only [addFeeTier, bind_ok, ite_error_ok, pure_ok, Prod.mk.injEq, loadConfig_ok] at h
    obtain ⟨cfg, h0, _, h1, h2, h, _⟩ := h
    rw [← h]; exact ⟨rfl, rfl⟩
  case removeFeeTier t =>
    simp only [removeFeeTier, bind_ok, ite_error_ok, ite_ok_error, pure_ok, Prod.mk.injEq, loadConfig_ok] at h
    obtain ⟨cfg, h0, _, _, h, _⟩ := h
    rw [← h]; exact ⟨rfl, rfl⟩
  case transferNft r id =>
    simp only [transferNft, bind_ok, pure_ok, Prod.mk.injEq] at h
    obtain ⟨_, h1, rfl, _⟩ := h
    exact transferNftInternal_effect h1
  case burn id =>
    obtain ⟨o, _, h1, _, _, h⟩ := burn_inv h
    exact ⟨(tokenOwner_spec h1).2, removePosition_effect hs h⟩
  case sendNft ct id m =>
    simp only [sendNft, bind_ok, pure_ok, Prod.mk.injEq] at h
    obtain ⟨_, h1, rfl, _⟩ := h
    exact transferNftInternal_effect h1
  case approve sp id ex => exact updateApprovals_effect h
  case revoke sp id => exact updateApprovals_effect h
  case approveAll o ex =>
    simp only [approveAll, ite_error_ok, ok_inj, Prod.mk.injEq] at h
    rw [← h.2.1]; exact ⟨rfl, rfl⟩
  case revokeAll o =>
    simp only [revokeAll, ok_inj, Prod.mk.injEq] at h
    rw [← h.1]; exact ⟨rfl, rfl⟩

/-! ## Lists -/

theorem positionList_getElem? (s : Store) (o : Bytes) (j : Nat) : (positionList s o)[j]? =
    if j < getPositionLength s o then some (s.positions.get? (positionKey o j)) else none := by
  unfold positionList
  rw [List.getElem?_map]
  by_cases h : j < getPositionLength s o
  · rw [List.getElem?_range h, if_pos h]; rfl
  · rw [List.getElem?_eq_none (by simpa using h), if_neg h]; rfl

theorem positionList_length (s : Store) (o : Bytes) : (positionList s o).length = getPositionLength s o := by
  simp [positionList]

theorem swapRemove_getElem? {α : Type} {l : List α} {i : Nat} (h : i < l.length) (j : Nat) :
    (swapRemove l i)[j]? = if j < l.length - 1 then (if j = i then l[l.length - 1]? else l[j]?) else none := by
  unfold swapRemove
  rw [List.getLast?_eq_getElem?, List.getElem?_eq_getElem (show l.length - 1 < l.length by omega)]
  simp only [List.getElem?_dropLast, List.length_set, List.getElem?_set, h, if_true]
  by_cases hj : j < l.length - 1
  · rw [if_pos hj, if_pos hj]
    by_cases e : i = j
    · rw [if_pos e, if_pos e.symm]
    · rw [if_neg e, if_neg (Ne.symm e)]
  · rw [if_neg hj, if_neg hj]

theorem addPosition_list {s s' : Store} (hi : PosInv s) {o : Bytes} {p : Position} (h : addPosition s o p = .ok s') (o' : Bytes) :
    positionList s' o' = if o' = o then positionList s o' ++ [some p] else positionList s o' := by
  obtain ⟨hn, h⟩ := addPosition_ok.1 h
  have hlen : getPositionLength s' o' = if o' = o then getPositionLength s o + 1 else getPositionLength s o' := by
    rw [h]; simp only [getPositionLength, KV.get?_insert]; split <;> rfl
  have hget : ∀ j, s'.positions.get? (positionKey o' j) = if positionKey o' j = positionKey o (getPositionLength s o)
      then some p else s.positions.get? (positionKey o' j) := by
    intro j; rw [h]; exact KV.get?_insert _ _ _ _
  have hl' := hi.len o'
  apply List.ext_getElem?
  intro j
  rw [positionList_getElem?, hlen]
  by_cases e : o' = o
  · subst e
    rw [if_pos rfl, if_pos rfl, List.getElem?_append, positionList_length]
    by_cases hj : j < getPositionLength s o'
    · rw [if_pos (Nat.lt_succ_of_lt hj), if_pos hj, positionList_getElem?, if_pos hj, hget, if_neg]
      intro e
      have := (positionKey_inj (by omega) (by omega) e).2
      omega
    · rw [if_neg hj]
      by_cases hj' : j = getPositionLength s o'
      · subst hj'
        rw [if_pos (Nat.lt_succ_self _), hget, if_pos rfl]
        simp
      · rw [if_neg (by omega), List.getElem?_eq_none (by simp; omega)]
  · rw [if_neg e, if_neg e, positionList_getElem?]
    split
    · rw [hget, if_neg]
      intro e'
      exact e (positionKey_inj (by omega) (by omega) e').1
    · rfl

theorem removePositionAt_list {s s' : Store} (hs : PosInv s) {o : Bytes} {i : Nat} {p : Position} (hi : i < U32)
    (h : removePositionAt s o i = .ok (s', p)) :
    (positionList s o)[i]? = some (some p) ∧
    ∀ o', positionList s' o' = if o' = o then swapRemove (positionList s o') i else positionList s o' := by
  have hil := (hs.remove hi h).1
  obtain ⟨n, hn, hp, hr⟩ := removePositionAt_inv h
  refine ⟨by rw [positionList_getElem?, if_pos hil, hp], fun o' => ?_⟩
  have hlen := hs.len o'
  have hleno := hs.len o
  apply List.ext_getElem?
  intro j
  by_cases e : o' = o
  · subst e
    rw [if_pos rfl, swapRemove_getElem? (by rw [positionList_length]; exact hil), positionList_getElem?, positionList_length,
      positionList_getElem?, positionList_getElem?]
    have hl' : getPositionLength s' o' = n := by
      rcases hr with ⟨_, last, _, rfl⟩ | ⟨_, rfl⟩ <;> simp [getPositionLength, KV.get?_insert]
    rw [hl', show getPositionLength s o' - 1 = n by omega]
    by_cases hj : j < n
    · rw [if_pos hj, if_pos hj, if_pos (show n < getPositionLength s o' by omega),
        if_pos (show j < getPositionLength s o' by omega)]
      rcases hr with ⟨hin, last, hl, rfl⟩ | ⟨hin, rfl⟩
      · simp only [KV.get?_insert, KV.get?_erase]
        by_cases e : j = i
        · subst e; simp [hl]
        · rw [if_neg e, if_neg, if_neg]
          · intro e'; have := (positionKey_inj (by omega) (by omega) e').2; omega
          · intro e'; have := (positionKey_inj (by omega) (by omega) e').2; omega
      · simp only [KV.get?_erase]
        rw [if_neg, if_neg (by omega)]
        intro e'; have := (positionKey_inj (by omega) (by omega) e').2; omega
    · rw [if_neg hj, if_neg hj]
  · rw [if_neg e, positionList_getElem?, positionList_getElem?]
    have hl' : getPositionLength s' o' = getPositionLength s o' := by
      rcases hr with ⟨_, last, _, rfl⟩ | ⟨_, rfl⟩ <;> simp [getPositionLength, KV.get?_insert, e]
    rw [hl']
    split
    · congr 1
      rcases hr with ⟨hin, last, hl, rfl⟩ | ⟨hin, rfl⟩
      · simp only [KV.get?_insert, KV.get?_erase]
        rw [if_neg, if_neg]
        · intro e'; exact e (positionKey_inj (by omega) (by omega) e').1
        · intro e'; exact e (positionKey_inj (by omega) (by omega) e').1
      · simp only [KV.get?_erase]
        rw [if_neg]
        intro e'; exact e (positionKey_inj (by omega) (by omega) e').1
    · rfl

end OraiV3
