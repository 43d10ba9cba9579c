import Verif.Lemmas.Frame
import Verif.Examples
import Verif.Ledger

/-!
# Positions as numbered lists, burning, token ids, supply, isolation (C16, C17, C38, C39, C40)
-/

namespace OraiV3

/-! ## C16: numbered lists with swap-remove -/

/-- **C16.** In every reachable storage the numbering of an account's positions has no gaps, and every
stored position is an entry of some account's list. -/
theorem C16_no_gaps {c : Chain} {s : Store} (h : Reach c s) :
    (∀ owner, none ∉ positionList s owner) ∧
    (∀ id p, s.positions.get? id = some p →
      ∃ owner i, id = positionKey owner i ∧ (positionList s owner)[i]? = some (some p)) := by
  have hi := h.mreach.posInv
  constructor
  · intro o hn
    obtain ⟨j, hj, he⟩ := List.mem_iff_getElem.1 hn
    rw [positionList_length] at hj
    have := positionList_getElem? s o j
    rw [List.getElem?_eq_getElem (by rw [positionList_length]; exact hj), he, if_pos hj, Option.some.injEq] at this
    obtain ⟨p, hp⟩ := (hi.iff o j (by have := hi.len o; omega)).2 hj
    rw [hp] at this
    simp at this
  · intro id p hp
    obtain ⟨o, i, rfl, hU⟩ := hi.key id p hp
    refine ⟨o, i, rfl, ?_⟩
    rw [positionList_getElem?, if_pos ((hi.iff o i hU).1 ⟨p, hp⟩), hp]

/-- **C16.** Every successful call does to the numbered lists exactly the operation listed in
`Msg.posOp`, including transfers of an account to itself. -/
theorem C16_list_operations {c : Chain} {s s' : Store} {env : Env} {info : Info} {msg : Msg} {out : List OutMsg}
    (hr : Reach c s) (h : execute c env info msg s = .ok (s', out)) :
    match msg.posOp info.sender with
    | .append o w => ∃ p, p.what = w ∧
        ∀ o', positionList s' o' = if o' = o then positionList s o' ++ [some p] else positionList s o'
    | .remove o i => i < (positionList s o).length ∧
        ∀ o', positionList s' o' = if o' = o then swapRemove (positionList s o') i else positionList s o'
    | .move o i r => ∃ p, (positionList s o)[i]? = some (some p) ∧
        ∀ o', positionList s' o' =
          (if o' = o then swapRemove (positionList s o') i else positionList s o') ++
          (if o' = r then [some { p with approvals := [] }] else [])
    | .edit id => ∃ o i p p', id = positionKey o i ∧ (positionList s o)[i]? = some (some p) ∧ p'.what = p.what ∧
        ∀ o', positionList s' o' = if o' = o then (positionList s o').set i (some p') else positionList s o'
    | .keep => ∀ o', positionList s' o' = positionList s o' := by
  have hi := hr.mreach.posInv
  have he := execute_posEffect hr.mreach.struct h
  revert he
  cases msg.posOp info.sender with
  | append o w =>
    rintro ⟨p, s1, hw, h1, h2⟩
    refine ⟨p, hw, fun o' => ?_⟩
    rw [h2.list]; exact addPosition_list hi h1 o'
  | remove o i =>
    rintro ⟨hU, p, s1, h1, h2⟩
    obtain ⟨h3, h4⟩ := removePositionAt_list hi hU h1
    refine ⟨(List.getElem?_eq_some_iff.1 h3).1, fun o' => ?_⟩
    rw [h2.list]; exact h4 o'
  | move o i r =>
    rintro ⟨hU, p, s1, s2, h1, h2, h3⟩
    obtain ⟨h4, h5⟩ := removePositionAt_list hi hU h1
    refine ⟨p, h4, fun o' => ?_⟩
    rw [h3.list, addPosition_list (hi.remove hU h1).2 h2, h5]
    split <;> simp
  | edit id =>
    rintro ⟨p, p', hp, hw, h1, h2⟩
    obtain ⟨o, i, rfl, hU⟩ := hi.key _ _ hp
    have hil := (hi.iff o i hU).1 ⟨p, hp⟩
    refine ⟨o, i, p, p', rfl, by rw [positionList_getElem?, if_pos hil, hp], hw, fun o' => ?_⟩
    apply List.ext_getElem?
    intro j
    have hl : getPositionLength s' o' = getPositionLength s o' := by unfold getPositionLength; rw [h2]
    have hU' := hi.len o'
    rw [positionList_getElem?, hl, h1, KV.get?_insert]
    by_cases e : o' = o
    · subst e
      rw [if_pos rfl, List.getElem?_set, positionList_getElem?, positionList_length]
      by_cases hj : j < getPositionLength s o'
      · rw [if_pos hj]
        by_cases e : i = j
        · subst e; simp [hil]
        · rw [if_neg e, if_neg, if_pos hj]
          intro e'; exact e (positionKey_inj (by omega) hU e').2.symm
      · rw [if_neg hj, if_neg (by omega), if_neg hj]
    · rw [if_neg e, positionList_getElem?]
      by_cases hj : j < getPositionLength s o'
      · rw [if_pos hj, if_pos hj, if_neg]
        intro e'; exact e (positionKey_inj (by omega) hU e').1
      · rw [if_neg hj, if_neg hj]
  | keep => exact fun he o' => he.list o'

namespace Demo

/-- Alice has three positions, Bob has one. -/
def many : List (Info × Msg) := setup ++
  [(by_ alice, .createPosition key (-20) 10 (10 ^ 13) 0 (10 ^ 30)),
   (by_ alice, .createPosition key (-30) 10 (10 ^ 14) 0 (10 ^ 30)),
   (by_ bob, .createPosition key (-30) 30 (10 ^ 15) 0 (10 ^ 30))]

/-- The liquidities in an account's list. -/
def liqs (s : Store) (o : Bytes) : List (Option Nat) := (positionList s o).map (·.map (·.liquidity))

-- removing, transferring and self transfer all happen in reachable storages
example : works chain (many ++ [(by_ alice, .removePosition 0), (by_ alice, .transferPosition 0 bob),
    (by_ bob, .transferPosition 0 bob), (by_ bob, .claimFee 1)]) = true := by decide +kernel
example : liqs (state chain many) alice = [some (10 ^ 12), some (10 ^ 13), some (10 ^ 14)] := by decide +kernel
example : liqs (state chain (many ++ [(by_ alice, .removePosition 0)])) alice = [some (10 ^ 14), some (10 ^ 13)] := by
  decide +kernel

end Demo

/-! ## C17: burning -/

/-- **C17 is false.** Alice approves Bob for her token number 0.  Bob burns it.  Alice still has her
position; Bob's own position number 0 is gone. -/
theorem C17_false : ¬ ∀ (c : Chain) (s s' : Store) (env : Env) (info : Info) (id : Bytes) (out : List OutMsg),
    Reach c s → execute c env info (.burn id) s = .ok (s', out) →
    ∀ owner i, i < U32 → id = positionKey owner i →
      positionList s' owner = swapRemove (positionList s owner) i ∧
      ∀ o', o' ≠ owner → positionList s' o' = positionList s o' := by
  intro hall
  have hw : Demo.works Demo.chain (Demo.many ++
      [(Demo.by_ Demo.alice, .approve Demo.bob (positionKey Demo.alice 0) none)]) = true := by decide +kernel
  have hr := Demo.state_reach hw
  generalize hs : Demo.state Demo.chain (Demo.many ++
      [(Demo.by_ Demo.alice, .approve Demo.bob (positionKey Demo.alice 0) none)]) = s at hr
  have hx : ((execute Demo.chain Demo.env (Demo.by_ Demo.bob) (.burn (positionKey Demo.alice 0)) s).toOption.map
      (fun r => (positionList r.1 Demo.bob).length)) = some 0 := by
    subst hs; decide +kernel
  have hy : (positionList s Demo.bob).length = 1 := by subst hs; decide +kernel
  cases he : execute Demo.chain Demo.env (Demo.by_ Demo.bob) (.burn (positionKey Demo.alice 0)) s with
  | error e => rw [he] at hx; simp [Except.toOption] at hx
  | ok r =>
    rw [he] at hx
    have := (hall _ _ r.1 _ _ _ r.2 hr he Demo.alice 0 (by decide) rfl).2 Demo.bob (by decide)
    simp only [Except.toOption, Option.map_some, Option.some.injEq] at hx
    rw [this, hy] at hx
    simp at hx

/-- **C17**, the part that holds: a burn sent by the owner removes exactly that token.  Missing: burns
by approved spenders and operators (see `C17_false`). -/
theorem C17_owner_burn_partial {c : Chain} {s s' : Store} {env : Env} {info : Info} {id : Bytes} {out : List OutMsg}
    (hr : Reach c s) (h : execute c env info (.burn id) s = .ok (s', out)) {i : Nat} (hi : i < U32)
    (hid : id = positionKey info.sender i) :
    i < (positionList s info.sender).length ∧
    positionList s' info.sender = swapRemove (positionList s info.sender) i ∧
    ∀ o', o' ≠ info.sender → positionList s' o' = positionList s o' := by
  have := C16_list_operations hr h
  simp only [Msg.posOp, hid, tokenIndex_positionKey _ hi] at this
  refine ⟨this.1, ?_, fun o' ho => ?_⟩
  · rw [this.2, if_pos rfl]
  · rw [this.2, if_neg ho]

example : Demo.works Demo.chain (Demo.many ++ [(Demo.by_ Demo.alice, .burn (positionKey Demo.alice 1))]) = true := by
  decide +kernel

/-! ## C38: token ids -/

/-- The call removes or transfers the position with this id. -/
def Msg.takes (sender : Bytes) (msg : Msg) (id : Bytes) : Prop :=
  match msg.posOp sender with
  | .remove o i | .move o i _ => id = positionKey o i
  | _ => False

/-- The call removes or transfers a position of this account. -/
def Msg.takesFrom (sender : Bytes) (msg : Msg) (owner : Bytes) : Prop :=
  match msg.posOp sender with
  | .remove o _ | .move o _ _ => o = owner
  | _ => False

/-- **C38 is false.** Alice removes her position number 0; her token number 2 ceases to exist although
that position was neither removed nor transferred. -/
theorem C38_false : ¬ ∀ (c : Chain) (s s' : Store) (env : Env) (info : Info) (msg : Msg) (out : List OutMsg),
    Reach c s → execute c env info msg s = .ok (s', out) →
    ∀ id p, s.positions.get? id = some p → ¬ msg.takes info.sender id →
      ∃ p', s'.positions.get? id = some p' ∧ p'.what = p.what := by
  intro hall
  have hw : Demo.works Demo.chain Demo.many = true := by decide +kernel
  have hr := Demo.state_reach hw
  generalize hs : Demo.state Demo.chain Demo.many = s at hr
  have hx : ((execute Demo.chain Demo.env (Demo.by_ Demo.alice) (.removePosition 0) s).toOption.map
      (fun r => (r.1.positions.get? (positionKey Demo.alice 2)).isSome)) = some false := by
    subst hs; decide +kernel
  have hy : (s.positions.get? (positionKey Demo.alice 2)).isSome = true := by subst hs; decide +kernel
  obtain ⟨p, hp⟩ := Option.isSome_iff_exists.1 hy
  cases he : execute Demo.chain Demo.env (Demo.by_ Demo.alice) (.removePosition 0) s with
  | error e => rw [he] at hx; simp [Except.toOption] at hx
  | ok r =>
    rw [he] at hx
    obtain ⟨p', h1, _⟩ := hall _ _ r.1 _ _ _ r.2 hr he _ p hp
      (show ¬ positionKey Demo.alice 2 = positionKey Demo.alice 0 by decide)
    simp [Except.toOption, h1] at hx

/-- **C38**, the part that holds: an id keeps denoting the same position across every call, unless the
call removes or transfers that position, or the id is the last one of an account and the call removes
or transfers another position of that account.  Missing: the last id (see `C38_false`). -/
theorem C38_ids_partial {c : Chain} {s s' : Store} {env : Env} {info : Info} {msg : Msg} {out : List OutMsg}
    (hr : Reach c s) (h : execute c env info msg s = .ok (s', out)) {owner : Bytes} {i : Nat} {p : Position}
    (hi : i < U32) (hp : s.positions.get? (positionKey owner i) = some p)
    (hne : ¬ msg.takes info.sender (positionKey owner i))
    (hl : ¬ (msg.takesFrom info.sender owner ∧ i + 1 = (positionList s owner).length)) :
    ∃ p', s'.positions.get? (positionKey owner i) = some p' ∧ p'.what = p.what := by
  have hinv := hr.mreach.posInv
  have hil := (hinv.iff owner i hi).1 ⟨p, hp⟩
  have hget : (positionList s owner)[i]? = some (some p) := by rw [positionList_getElem?, if_pos hil, hp]
  suffices hs : ∃ p', (positionList s' owner)[i]? = some (some p') ∧ p'.what = p.what by
    obtain ⟨p', h1, h2⟩ := hs
    refine ⟨p', ?_, h2⟩
    rw [positionList_getElem?] at h1
    split at h1
    · simpa using h1
    · simp at h1
  have hop := C16_list_operations hr h
  unfold Msg.takes at hne
  unfold Msg.takesFrom at hl
  have hlen : i < (positionList s owner).length := by rw [positionList_length]; exact hil
  generalize msg.posOp info.sender = op at hop hne hl
  revert hl
  revert hne
  revert hop
  cases op with
  | append o w =>
    rintro ⟨q, _, h1⟩ _ _
    refine ⟨p, ?_, rfl⟩
    rw [h1]
    split
    · rw [List.getElem?_append_left hlen]; exact hget
    · exact hget
  | remove o j =>
    rintro ⟨hj, h1⟩ hne hl
    refine ⟨p, ?_, rfl⟩
    simp only at hne hl
    rw [h1]
    split
    · rename_i e
      subst e
      rw [swapRemove_getElem? hj, if_pos (by have : i + 1 ≠ (positionList s owner).length := fun e => hl ⟨rfl, e⟩
                                             omega), if_neg (fun e => hne (by rw [e]))]
      exact hget
    · exact hget
  | move o j r =>
    rintro ⟨q, hq, h1⟩ hne hl
    refine ⟨p, ?_, rfl⟩
    simp only at hne hl
    have hj := (List.getElem?_eq_some_iff.1 hq).1
    have : (if owner = o then swapRemove (positionList s owner) j else positionList s owner)[i]? = some (some p) := by
      split
      · rename_i e
        subst e
        rw [swapRemove_getElem? hj, if_pos (by have : i + 1 ≠ (positionList s owner).length := fun e => hl ⟨rfl, e⟩
                                               omega), if_neg (fun e => hne (by rw [e]))]
        exact hget
      · exact hget
    rw [h1, List.getElem?_append_left (List.getElem?_eq_some_iff.1 this).1]
    exact this
  | edit id =>
    rintro ⟨o, j, q, q', rfl, hq, hw, h1⟩ _ _
    rw [h1]
    split
    · rename_i e
      subst e
      rw [List.getElem?_set]
      split
      · rename_i e
        subst e
        rw [hget] at hq
        simp only [Option.some.injEq] at hq
        subst hq
        refine ⟨q', ?_, hw⟩
        rw [if_pos hlen]
      · exact ⟨p, hget, rfl⟩
    · exact ⟨p, hget, rfl⟩
  | keep =>
    intro h1 _ _
    exact ⟨p, by rw [h1]; exact hget, rfl⟩

-- Alice removes number 0; her number 1 and Bob's number 0 keep their ids
example : ¬ (Msg.removePosition 0).takes Demo.alice (positionKey Demo.alice 1) ∧
    ¬ ((Msg.removePosition 0).takesFrom Demo.alice Demo.alice ∧
      1 + 1 = (positionList (Demo.state Demo.chain Demo.many) Demo.alice).length) := by
  constructor
  · show ¬ positionKey Demo.alice 1 = positionKey Demo.alice 0; decide
  · rintro ⟨_, h⟩; exact absurd h (by decide +kernel)

/-! ## C39: supply -/

/-- (pool, range, liquidity) of all open positions. -/
def allPositions (s : Store) : List (PoolKey × Int × Int × Nat) := s.positions.vals.map Position.what

/-- **C39.** A creation adds one position, a removal or burn takes one away, and every other call,
transfers included, keeps the multiset of (pool, range, liquidity) of all positions. -/
theorem C39_supply {c : Chain} {s s' : Store} {env : Env} {info : Info} {msg : Msg} {out : List OutMsg}
    (hr : Reach c s) (h : execute c env info msg s = .ok (s', out)) :
    match msg.posOp info.sender with
    | .append _ w => (allPositions s').Perm (w :: allPositions s)
    | .remove o i => ∃ p, s.positions.get? (positionKey o i) = some p ∧
        (allPositions s).Perm (p.what :: allPositions s')
    | _ => (allPositions s').Perm (allPositions s) := by
  have hi := hr.mreach.posInv
  have he := execute_posEffect hr.mreach.struct h
  revert he
  unfold allPositions
  cases msg.posOp info.sender with
  | append o w =>
    rintro ⟨p, s1, hw, h1, h2⟩
    rw [h2.1, ← hw]
    exact (addPosition_vals hi h1).map Position.what
  | remove o i =>
    rintro ⟨hU, p, s1, h1, h2⟩
    obtain ⟨_, _, hp, _⟩ := removePositionAt_inv h1
    refine ⟨p, hp, ?_⟩
    rw [h2.1]
    exact (removePositionAt_vals hi hU h1).map Position.what
  | move o i r =>
    rintro ⟨hU, p, s1, s2, h1, h2, h3⟩
    rw [h3.1]
    have a1 := (removePositionAt_vals hi hU h1).map Position.what
    have a2 := (addPosition_vals (hi.remove hU h1).2 h2).map Position.what
    exact a2.trans a1.symm
  | edit id =>
    rintro ⟨p, p', hp, hw, h1, h2⟩
    rw [h1]
    obtain ⟨rest, b1, b2⟩ := updatePosition_vals (p' := p') hp
    have b1 := b1.map Position.what
    have b2 := b2.map Position.what
    rw [List.map_cons, hw] at b2
    exact b2.trans b1.symm
  | keep =>
    intro h1
    rw [h1.1]

/-- Reachable with the numbers of successful creations and removals (burns included) so far. -/
inductive Counted (c : Chain) : Store → Nat → Nat → Prop where
  | init (sender : Bytes) (fee : Nat) (h : fee < U64) : Counted c (instantiate sender fee) 0 0
  | step {s s' : Store} {env : Env} {info : Info} {msg : Msg} {out : List OutMsg} {created removed : Nat} :
      Counted c s created removed → execute c env info msg s = .ok (s', out) →
      Counted c s'
        (match msg with | .createPosition .. | .mint .. => created + 1 | _ => created)
        (match msg with | .removePosition .. | .burn .. => removed + 1 | _ => removed)

theorem Counted.reach {c : Chain} {s : Store} {a b : Nat} (h : Counted c s a b) : Reach c s := by
  induction h with
  | init sender fee h => exact .init sender fee h
  | step _ he ih => exact .step ih he

/-- **C39.** The number of open positions is the number of creations minus the number of removals. -/
theorem C39_count {c : Chain} {s : Store} {created removed : Nat} (h : Counted c s created removed) :
    (allPositions s).length + removed = created := by
  induction h with
  | init sender fee h => rfl
  | @step s s' env info msg out a b hc he ih =>
    have := C39_supply hc.reach he
    cases msg <;> simp only [Msg.posOp] at this ⊢ <;>
      first
      | (have := List.Perm.length_eq this; (try simp only [List.length_cons] at this); omega)
      | (obtain ⟨_, _, h2⟩ := this; have := List.Perm.length_eq h2; (try simp only [List.length_cons] at this); omega)

example : (allPositions (Demo.state Demo.chain (Demo.many ++ [(Demo.by_ Demo.alice, .removePosition 0)]))).length = 3 := by
  decide +kernel

/-! ## C40: failing calls, isolation of pools -/

/-- **C40.** A transaction that does not succeed leaves storage and balances as they were. -/
theorem C40_failed_calls_change_nothing {c : Chain} {w : World} {env : Env} {info : Info} {msg : Msg}
    (h : ∀ w', w.tx c env info msg ≠ .ok w') : w.submit c env info msg = w := by
  unfold World.submit
  cases he : w.tx c env info msg with
  | ok w' => exact absurd he (h w')
  | error e => rfl

/-- **C40.** A successful call leaves the record, the ticks, the bitmap and the positions of every pool
it is not about unchanged. -/
theorem C40_other_pools_unchanged {c : Chain} {s s' : Store} {env : Env} {info : Info} {msg : Msg} {out : List OutMsg}
    (hr : Reach c s) (h : execute c env info msg s = .ok (s', out)) {k : PoolKey} (hk : k.wf)
    (hn : ¬ msg.onPool s info.sender k) :
    s'.pools.get? k.key = s.pools.get? k.key ∧
    (∀ i, s'.ticks.get? (tickKey k i) = s.ticks.get? (tickKey k i)) ∧
    (∀ chunk, s'.bitmap.get? (bitmapKey chunk k) = s.bitmap.get? (bitmapKey chunk k)) ∧
    (positionsOf s' k).Perm (positionsOf s k) := by
  have hs := hr.mreach.struct
  have hi := hr.mreach.posInv
  have hw := (execute_ok.1 h).1
  have hpos : (positionsOf s' k).Perm (positionsOf s k) := by
    have he := execute_posEffect hs h
    have key : ∀ {p : Position} {l : List Position}, p.poolKey ≠ k →
        (p :: l).filter (fun p => decide (p.poolKey = k)) = l.filter (fun p => decide (p.poolKey = k)) := by
      intro p l hp; simp [hp]
    have htake : ∀ o i r, msg.posOp info.sender = .remove o i ∨ msg.posOp info.sender = .move o i r →
        i < U32 → ∀ p, s.positions.get? (positionKey o i) = some p → p.poolKey ≠ k := by
      intro o i r hop hU p hp e
      cases msg <;> simp only [Msg.posOp, PosOp.remove.injEq, PosOp.move.injEq, reduceCtorEq, false_or, or_false] at hop
      case transferPosition j r => obtain ⟨rfl, rfl, _⟩ := hop; exact hn ⟨p, hp, e⟩
      case removePosition j => obtain ⟨rfl, rfl⟩ := hop; exact hn ⟨p, hp, e⟩
      case burn id => obtain ⟨rfl, rfl⟩ := hop; exact hn ⟨p, hp, e⟩
      case transferNft r id =>
        obtain ⟨rfl, rfl, _⟩ := hop
        simp only [execute, hw, if_true, dispatch, transferNft, bind_ok] at h
        obtain ⟨_, h1, _⟩ := h
        obtain ⟨o, pos, s1, p', e1, e2, _, e4, e5⟩ := transferNftInternal_inv h1
        have hsp := (tokenOwner_spec e1).1
        rw [tokenOwner_ok e1] at hsp
        rw [hsp] at hp
        exact hn ⟨p, hp, e⟩
      case sendNft r id m =>
        obtain ⟨rfl, rfl, _⟩ := hop
        simp only [execute, hw, if_true, dispatch, sendNft, bind_ok] at h
        obtain ⟨_, h1, _⟩ := h
        obtain ⟨o, pos, s1, p', e1, e2, _, e4, e5⟩ := transferNftInternal_inv h1
        have hsp := (tokenOwner_spec e1).1
        rw [tokenOwner_ok e1] at hsp
        rw [hsp] at hp
        exact hn ⟨p, hp, e⟩
    have hedit : ∀ id, msg.posOp info.sender = .edit id → ∀ p, s.positions.get? id = some p → p.poolKey ≠ k := by
      intro id hop p hp e
      cases msg <;> simp only [Msg.posOp, PosOp.edit.injEq, reduceCtorEq] at hop <;> subst hop <;> exact hn ⟨p, hp, e⟩
    have happ : ∀ o w, msg.posOp info.sender = .append o w → w.1 ≠ k := by
      intro o w hop e
      cases msg <;> simp only [Msg.posOp, PosOp.append.injEq, reduceCtorEq] at hop <;>
        (obtain ⟨_, rfl⟩ := hop; exact hn e)
    unfold positionsOf
    revert he htake hedit happ
    cases msg.posOp info.sender with
    | append o w =>
      rintro ⟨p, s1, hw, h1, h2⟩ - - happ
      rw [h2.1]
      have := (addPosition_vals hi h1).filter (fun p => decide (p.poolKey = k))
      rwa [key (by have := happ o w rfl; rw [← hw] at this; exact this)] at this
    | remove o i =>
      rintro ⟨hU, p, s1, h1, h2⟩ htake - -
      obtain ⟨_, _, hp, _⟩ := removePositionAt_inv h1
      rw [h2.1]
      have := (removePositionAt_vals hi hU h1).filter (fun p => decide (p.poolKey = k))
      rw [key (htake o i [] (.inl rfl) hU p hp)] at this
      exact this.symm
    | move o i r =>
      rintro ⟨hU, p, s1, s2, h1, h2, h3⟩ htake - -
      obtain ⟨_, _, hp, _⟩ := removePositionAt_inv h1
      have hpk := htake o i r (.inr rfl) hU p hp
      rw [h3.1]
      have a1 := (removePositionAt_vals hi hU h1).filter (fun p => decide (p.poolKey = k))
      have a2 := (addPosition_vals (hi.remove hU h1).2 h2).filter (fun p => decide (p.poolKey = k))
      rw [key hpk] at a1
      rw [key (p := { p with approvals := [] }) hpk] at a2
      exact a2.trans a1.symm
    | edit id =>
      rintro ⟨p, p', hp, hw, h1, h2⟩ - hedit -
      have hpk := hedit id rfl p hp
      rw [h1]
      obtain ⟨rest, b1, b2⟩ := updatePosition_vals (p' := p') hp
      have b1 := b1.filter (fun p => decide (p.poolKey = k))
      have b2 := b2.filter (fun p => decide (p.poolKey = k))
      rw [key hpk] at b1
      rw [key (by simp only [Position.what, Prod.mk.injEq] at hw; rw [hw.1]; exact hpk)] at b2
      exact b2.trans b1.symm
    | keep =>
      intro h1 _ _ _
      rw [h1.1]
  suffices hf : PoolFrame k s s' from ⟨hf.1, hf.2.1, hf.2.2, hpos⟩
  clear hpos
  replace h := (execute_ok.1 h).2
  cases msg <;> simp only [dispatch] at h <;> simp only [Msg.onPool] at hn
  case changeAdmin a =>
    simp only [changeAdmin, bind_ok, ite_error_ok, pure_ok, Prod.mk.injEq, loadConfig_ok] at h
    obtain ⟨cfg, h0, _, h, _⟩ := h
    rw [← h]; exact .of_eq rfl rfl rfl
  case withdrawProtocolFee k' =>
    simp only [withdrawProtocolFee, bind_ok, ite_error_ok, pure_ok, Prod.mk.injEq, getPool_ok] at h
    obtain ⟨p0, hp0, _, h, _⟩ := h
    rw [← h]; exact savePool_frame hk hw (Ne.symm hn) _ _
  case changeProtocolFee f =>
    simp only [changeProtocolFee, bind_ok, ite_error_ok, pure_ok, Prod.mk.injEq, loadConfig_ok] at h
    obtain ⟨cfg, h0, _, h, _⟩ := h
    rw [← h]; exact .of_eq rfl rfl rfl
  case changeFeeReceiver k' r =>
    simp only [changeFeeReceiver, bind_ok, ite_error_ok, pure_ok, Prod.mk.injEq, getPool_ok] at h
    obtain ⟨_, _, _, p0, hp0, h, _⟩ := h
    rw [← h]; exact savePool_frame hk hw (Ne.symm hn) _ _
  case createPosition k' l u L lo hi => exact createPosition_frame' hk hw.1 (Ne.symm hn) h
  case mint k' l u L lo hi => exact createPosition_frame' hk hw.1 (Ne.symm hn) h
  case swap k' d a b l =>
    obtain ⟨r, h⟩ := swap_inv h
    exact swapInternal_frame' hk hw.1 (Ne.symm hn) h
  case swapRoute a e sl hops =>
    obtain ⟨fin, m, h1, _, _⟩ := swapRoute_inv h
    exact swapRouteInternal_frame' hk hw.2.2.2 (fun x hx e => hn ⟨x, hx, e.symm⟩) h1
  case transferPosition i r =>
    obtain ⟨pos, s1, _, h1, _, h2, _⟩ := transferPosition_inv h
    obtain ⟨_, rfl⟩ := addPosition_ok.1 h2
    obtain ⟨_, _, rfl⟩ := removePositionAt_frame h1
    exact .of_eq rfl rfl rfl
  case claimFee i => exact claimFee_frame' hs hk (fun p hp e => hn ⟨p, hp, e.symm⟩) h
  case removePosition i => exact removePosition_frame' hs hk (fun p hp e => hn ⟨p, hp, e.symm⟩) h
  case createPool t0 t1 tier price tick =>
    obtain ⟨_, k', _, _, _, _, h3, _, _, rfl, _⟩ := createPool_inv h
    obtain ⟨w1, w2, w3, _⟩ := hw
    unfold PoolKey.new at h3
    split at h3
    · simp at h3
    · split at h3
      · rw [ok_inj] at h3; subst h3
        exact savePool_frame hk ⟨w1, w2, w3⟩ (fun e => hn (.inl e)) _ _
      · rw [ok_inj] at h3; subst h3
        exact savePool_frame hk ⟨w2, w1, w3⟩ (fun e => hn (.inr e)) _ _
  case addFeeTier t =>
    simp only [addFeeTier, bind_ok, ite_error_ok, pure_ok, Prod.mk.injEq, loadConfig_ok] at h
    obtain ⟨cfg, h0, _, h1, h2, h, _⟩ := h
    rw [← h]; exact .of_eq rfl rfl rfl
  case removeFeeTier t =>
    simp only [removeFeeTier, bind_ok, ite_error_ok, ite_ok_error, pure_ok, Prod.mk.injEq, loadConfig_ok] at h
    obtain ⟨cfg, h0, _, _, h, _⟩ := h
    rw [← h]; exact .of_eq rfl rfl rfl
  case transferNft r id =>
    simp only [transferNft, bind_ok, pure_ok, Prod.mk.injEq] at h
    obtain ⟨_, h1, rfl, _⟩ := h
    obtain ⟨_, _, rfl⟩ := transferNftInternal_frame h1
    exact .of_eq rfl rfl rfl
  case burn id =>
    obtain ⟨o, _, h1, _, _, h⟩ := burn_inv h
    exact removePosition_frame' hs hk (fun p hp e => hn ⟨p, hp, e.symm⟩) h
  case sendNft ct id m =>
    simp only [sendNft, bind_ok, pure_ok, Prod.mk.injEq] at h
    obtain ⟨_, h1, rfl, _⟩ := h
    obtain ⟨_, _, rfl⟩ := transferNftInternal_frame h1
    exact .of_eq rfl rfl rfl
  case approve sp id ex =>
    simp only [updateApprovals, bind_ok] at h
    obtain ⟨_, _, _, _, _, _, h⟩ := h
    simp only [if_true, ite_error_ok, pure_ok, Prod.mk.injEq] at h
    rw [← h.2.1]; exact .of_eq rfl rfl rfl
  case revoke sp id =>
    simp only [updateApprovals, bind_ok] at h
    obtain ⟨_, _, _, _, _, _, h⟩ := h
    simp only [Bool.false_eq_true, if_false, pure_ok, Prod.mk.injEq] at h
    rw [← h.1]; exact .of_eq rfl rfl rfl
  case approveAll o ex =>
    simp only [approveAll, ite_error_ok, ok_inj, Prod.mk.injEq] at h
    rw [← h.2.1]; exact .of_eq rfl rfl rfl
  case revokeAll o =>
    simp only [revokeAll, ok_inj, Prod.mk.injEq] at h
    rw [← h.1]; exact .of_eq rfl rfl rfl

namespace Demo

/-- A second pool of the same tokens, with another tier. -/
def tier2 : FeeTier := ⟨10 ^ 9, 1⟩
def key2 : PoolKey := ⟨[97], [98], tier2⟩

example : works chain (setup ++ [(by_ alice, .addFeeTier tier2), (by_ bob, .createPool [98] [97] tier2 (10 ^ 24) 0),
    (by_ bob, .createPosition key2 (-5) 5 (10 ^ 12) 0 (10 ^ 30)), (by_ carol, .swap key2 true 100 true MIN_SQRT_PRICE),
    (by_ carol, .swap key false 100 true MAX_SQRT_PRICE)]) = true := by decide +kernel
example (s : Store) : ¬ (Msg.swap key2 true 100 true MIN_SQRT_PRICE).onPool s carol key := by
  show ¬ key2 = key; decide

end Demo

end OraiV3
