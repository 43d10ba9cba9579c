import Verif.Examples
import Verif.Lemmas.Record

/-!
# C69: positions and pools record their origin
-/

namespace OraiV3

theorem map_swapRemove {α β : Type} (f : α → β) (l : List α) (i : Nat) : (swapRemove l i).map f = swapRemove (l.map f) i := by
  unfold swapRemove
  rw [List.getLast?_map]
  cases l.getLast? with
  | none => rfl
  | some x => simp [List.map_set, List.map_dropLast]

/-- **C69**, opening.  A deposit adds exactly one entry, at the end of the caller's list: the pool, range and liquidity asked
for, the present block, nothing owed and nobody approved. -/
theorem C69_opened {c : Chain} {s s' : Store} {env : Env} {info : Info} {msg : Msg} {out : List OutMsg} (hr : Reach c s)
    {k : PoolKey} {l u : Int} {L lo hi : Nat} (hm : msg = .createPosition k l u L lo hi ∨ msg = .mint k l u L lo hi)
    (h : execute c env info msg s = .ok (s', out)) :
    ∃ p, positionList s' info.sender = positionList s info.sender ++ [some p] ∧ p.poolKey = k ∧ p.lower = l ∧ p.upper = u ∧
      p.liquidity = L ∧ p.lastBlock = env.height ∧ p.owedX = 0 ∧ p.owedY = 0 ∧ p.approvals = [] := by
  have hl : ∃ p, positionList s' info.sender = positionList s info.sender ++ [some p] := by
    have := C16_list_operations hr h
    rcases hm with rfl | rfl
    all_goals
      obtain ⟨p, _, hl⟩ := this
      exact ⟨p, by rw [hl, if_pos rfl]⟩
  obtain ⟨p, hl⟩ := hl
  have hd : ∃ p, s'.positions.get? (positionKey info.sender (getPositionLength s info.sender)) = some p ∧
      getPositionLength s' info.sender = getPositionLength s info.sender + 1 ∧
      p.what = (k, l, u, L) ∧ p.lastBlock = env.height ∧ p.owedX = 0 ∧ p.owedY = 0 ∧ p.approvals = [] := by
    have he := execute_ok.1 h
    rcases hm with rfl | rfl
    · exact deposit_record hr.mreach.struct he.1 he.2
    · exact deposit_record hr.mreach.struct he.1 he.2
  obtain ⟨q, h1, h2, h3, h4, h5, h6, h7⟩ := hd
  have hq : p = q := by
    have e := positionList_getElem? s' info.sender (getPositionLength s info.sender)
    rw [if_pos (by omega), h1, hl, ← positionList_length s info.sender, List.getElem?_append_right (Nat.le_refl _)] at e
    simpa using e
  subst hq
  simp only [Position.what, Prod.mk.injEq] at h3
  exact ⟨p, hl, h3.1, h3.2.1, h3.2.2.1, h3.2.2.2, h4, h5, h6, h7⟩

/-- **C69**, records.  A deposit appends an entry with the present block.  Removals and transfers take the entry with them as
it is.  No other call, in particular no claim, no approval and no swap, changes any entry. -/
theorem C69_records {c : Chain} {s s' : Store} {env : Env} {info : Info} {msg : Msg} {out : List OutMsg}
    (hr : Reach c s) (h : execute c env info msg s = .ok (s', out)) :
    match msg.posOp info.sender with
    | .append o w => ∀ o', origins s' o' = if o' = o then origins s o' ++ [some (w, env.height)] else origins s o'
    | .remove o i => ∀ o', origins s' o' = if o' = o then swapRemove (origins s o') i else origins s o'
    | .move o i r => ∃ x, (origins s o)[i]? = some (some x) ∧
        ∀ o', origins s' o' = (if o' = o then swapRemove (origins s o') i else origins s o') ++ (if o' = r then [some x] else [])
    | .edit _ | .keep => ∀ o', origins s' o' = origins s o' := by
  have hc := C16_list_operations hr h
  generalize hop : msg.posOp info.sender = op at hc
  cases op with
  | append o w =>
    obtain ⟨p, hw, hl⟩ := hc
    intro o'
    unfold origins
    rw [hl]
    split
    · rename_i e
      have : p.origin = (w, env.height) := by
        have ho : o = info.sender := by
          cases msg <;> simp only [Msg.posOp, PosOp.append.injEq, reduceCtorEq] at hop <;> exact hop.1.symm
        have hd : ∃ k l u L lo hi, msg = .createPosition k l u L lo hi ∨ msg = .mint k l u L lo hi := by
          cases msg <;> simp only [Msg.posOp, PosOp.append.injEq, reduceCtorEq] at hop
          · exact ⟨_, _, _, _, _, _, .inl rfl⟩
          · exact ⟨_, _, _, _, _, _, .inr rfl⟩
        obtain ⟨k, l, u, L, lo, hi, hd⟩ := hd
        obtain ⟨q, hq, _, _, _, _, hb, _⟩ := C69_opened hr hd h
        rw [hl, if_pos ho.symm] at hq
        have : p = q := by simpa using hq
        rw [this] at hw ⊢
        simp only [Position.origin, hw, hb]
      rw [List.map_append]
      simp [this]
    · rfl
  | remove o i =>
    intro o'
    unfold origins
    rw [hc.2 o']
    split
    · exact map_swapRemove _ _ _
    · rfl
  | move o i r =>
    obtain ⟨p, hp, hl⟩ := hc
    refine ⟨p.origin, ?_, fun o' => ?_⟩
    · unfold origins
      rw [List.getElem?_map, hp]; rfl
    · unfold origins
      rw [hl, List.map_append]
      congr 1
      · split
        · exact map_swapRemove _ _ _
        · rfl
      · split <;> rfl
  | edit id =>
    obtain ⟨o, i, p, p', hid, hp, hw, hl⟩ := hc
    intro o'
    unfold origins
    rw [hl]
    split
    · rename_i e
      subst e
      have hi : i < (positionList s o').length := by
        rcases Nat.lt_or_ge i (positionList s o').length with h | h
        · exact h
        · rw [List.getElem?_eq_none h] at hp; simp at hp
      have hi' := hi
      rw [positionList_length] at hi'
      have e1 := positionList_getElem? s o' i
      rw [if_pos hi', hp, Option.some.injEq] at e1
      have e2 := positionList_getElem? s' o' i
      have hlen : getPositionLength s' o' = getPositionLength s o' := by
        have := congrArg List.length (hl o')
        rw [if_pos rfl, List.length_set, positionList_length, positionList_length] at this
        exact this
      rw [hlen, if_pos hi', hl o', if_pos rfl, List.getElem?_set_self hi, Option.some.injEq] at e2
      have e3 := edit_origin hr.mreach.struct h hop (by rw [hid]; exact e1.symm) (by rw [hid]; exact e2.symm)
      rw [List.map_set]
      apply List.ext_getElem?
      intro j
      rw [List.getElem?_set]
      split
      · rename_i e
        subst e
        rw [if_pos (by simpa using hi), List.getElem?_map, hp]
        simp [e3]
      · rfl
    · rfl
  | keep =>
    intro o'
    unfold origins
    rw [hc o']

/-- **C69**, nothing is owed between calls: fees are only ever credited together with their payment. -/
theorem C69_nothing_owed {c : Chain} {s : Store} (hr : Reach c s) {id : Bytes} {p : Position}
    (hp : s.positions.get? id = some p) : p.owedX = 0 ∧ p.owedY = 0 :=
  ⟨(hr.mreach.struct.positions _ _ hp).owedX, (hr.mreach.struct.positions _ _ hp).owedY⟩

/-- **C69**, times of pools.  A pool's creation time never changes; the time of its last change is never before its creation nor
in the future. -/
theorem C69_times {c : Chain} {t : Nat} {s : Store} (h : TimedReach c t s) :
    ∀ key p, s.pools.get? key = some p → p.startTs ≤ p.lastTs ∧ p.lastTs ≤ t := by
  induction h with
  | init sender fee hf t ht =>
    intro key p hp
    simp [instantiate, Store.empty, KV.get?, KV.empty, kvFind] at hp
  | wait _ h _ ih =>
    intro key p hp
    obtain ⟨a, b⟩ := ih key p hp
    exact ⟨a, by omega⟩
  | @call t s s' env info msg out hr ht he ih =>
    intro key p' hp'
    have hst := execute_times hr.reach.mreach.struct he key
    cases hp : s.pools.get? key with
    | none =>
      obtain ⟨a, b⟩ := hst.1 hp p' hp'
      omega
    | some p =>
      obtain ⟨q, hq, a, b⟩ := hst.2 p hp
      rw [hp', Option.some.injEq] at hq
      obtain ⟨i1, i2⟩ := ih key p hp
      subst hq
      rcases b with b | b <;> omega

/-- **C69**, creation time, and the time of the last change, in milliseconds. -/
theorem C69_created {c : Chain} {s s' : Store} {env : Env} {info : Info} {msg : Msg} {out : List OutMsg} (hr : Reach c s)
    (h : execute c env info msg s = .ok (s', out)) (key : Bytes) :
    (∀ p p', s.pools.get? key = some p → s'.pools.get? key = some p' →
      p'.startTs = p.startTs ∧ (p'.lastTs = p.lastTs ∨ p'.lastTs = env.nanos / 10 ^ 6)) ∧
    (∀ p', s.pools.get? key = none → s'.pools.get? key = some p' → p'.startTs = env.nanos / 10 ^ 6 ∧ p'.lastTs = env.nanos / 10 ^ 6) := by
  have hst := execute_times hr.mreach.struct h key
  rw [show env.millis = env.nanos / 10 ^ 6 from rfl] at hst
  refine ⟨fun p p' hp hp' => ?_, fun p' hn hp' => hst.1 hn p' hp'⟩
  obtain ⟨q, hq, a⟩ := hst.2 p hp
  rw [hp', Option.some.injEq] at hq
  subst hq
  exact a

namespace Demo

-- Alice opens a position in block 1, collects fees and sends it to Bob, who sends it on: the record stays.
example : origins (state chain (setup ++ [(by_ bob, .swap key true 100 true MIN_SQRT_PRICE), (by_ alice, .claimFee 0),
    (by_ alice, .transferPosition 0 bob), (by_ bob, .transferNft carol (positionKey bob 0))])) carol =
    [some ((key, -10, 10, 10 ^ 12), 1)] := by decide +kernel

end Demo

end OraiV3
