import Verif.Props.Listings
import Verif.Props.Pools
import Verif.Props.Positions

/-!
# Who owns a token, who may move it, which pools a pair has (C52, C53)
-/

namespace OraiV3

/-! ## C52: the token queries -/

/-- Token `id` is entry `i` of `owner`'s list of positions, and that position is `p`. -/
def IsToken (s : Store) (id owner : Bytes) (i : Nat) (p : Position) : Prop :=
  id = positionKey owner i ∧ i < U32 ∧ (positionList s owner)[i]? = some (some p)

theorem isToken_iff {c : Chain} {s : Store} (hr : Reach c s) {id owner : Bytes} {i : Nat} {p : Position} :
    IsToken s id owner i p ↔ id = positionKey owner i ∧ i < U32 ∧ s.positions.get? id = some p := by
  have hi := hr.mreach.posInv
  unfold IsToken
  constructor
  · rintro ⟨rfl, h1, h2⟩
    rw [positionList_getElem?] at h2
    split at h2
    · exact ⟨rfl, h1, by simpa using h2⟩
    · cases h2
  · rintro ⟨rfl, h1, h2⟩
    rw [positionList_getElem?, if_pos ((hi.iff owner i h1).1 ⟨p, h2⟩), h2]
    exact ⟨rfl, h1, rfl⟩

/-- **C52.** `OwnerOf` answers for exactly the existing tokens.  It names the account in whose list the token is, and lists the
approvals recorded in the position, without the expired ones unless asked for them. -/
theorem C52_owner_of {c : Chain} {s : Store} (hr : Reach c s) (env : Env) (id : Bytes) (includeExpired : Bool) (owner : Bytes)
    (approvals : List Approval) :
    queryOwnerOf s env id includeExpired = .ok (owner, approvals) ↔
      ∃ i p, IsToken s id owner i p ∧
        approvals = p.approvals.filter (fun a => includeExpired = true ∨ a.expires.ValidAt env) := by
  have hf : (fun a : Approval => decide (includeExpired = true ∨ a.expires.ValidAt env)) =
      fun a => includeExpired || !a.expires.isExpired env := by
    funext a
    have := valid_iff (ex := a.expires) (env := env)
    cases h : a.expires.isExpired env <;> simp_all
  rw [hf]
  simp only [queryOwnerOf, bind_ok, pure_ok, getPositionByKey_ok, Prod.mk.injEq]
  constructor
  · rintro ⟨o, h1, p, h2, rfl, h3⟩
    obtain ⟨o', i, rfl, hU⟩ := hr.mreach.posInv.key _ _ h2
    rw [tokenOwner_positionKey] at h1
    cases h1
    exact ⟨i, p, (isToken_iff hr).2 ⟨rfl, hU, h2⟩, h3.symm⟩
  · rintro ⟨i, p, ht, h3⟩
    obtain ⟨rfl, h1, h2⟩ := (isToken_iff hr).1 ht
    exact ⟨owner, tokenOwner_positionKey _ _, p, h2, rfl, h3.symm⟩

/-- **C52.** `NftInfo` returns the position the token stands for, and `AllNftInfo` returns both answers. -/
theorem C52_nft_info {c : Chain} {s : Store} (hr : Reach c s) (env : Env) (id : Bytes) (includeExpired : Bool) (p : Position) :
    (queryNftInfo s id = .ok p ↔ ∃ owner i, IsToken s id owner i p) ∧
    (∀ owner approvals, queryAllNftInfo s env id includeExpired = .ok ((owner, approvals), p) ↔
      queryOwnerOf s env id includeExpired = .ok (owner, approvals) ∧ queryNftInfo s id = .ok p) := by
  constructor
  · unfold queryNftInfo
    rw [getPositionByKey_ok]
    constructor
    · intro h
      obtain ⟨o, i, rfl, hU⟩ := hr.mreach.posInv.key _ _ h
      exact ⟨o, i, (isToken_iff hr).2 ⟨rfl, hU, h⟩⟩
    · rintro ⟨o, i, h⟩
      exact ((isToken_iff hr).1 h).2.2
  · intro o l
    simp only [queryAllNftInfo, queryOwnerOf, queryNftInfo, bind_ok, pure_ok, getPositionByKey_ok, Prod.mk.injEq]
    constructor
    · rintro ⟨o', h1, p', h2, ⟨rfl, rfl⟩, rfl⟩
      exact ⟨⟨o', h1, p', h2, rfl, rfl⟩, h2⟩
    · rintro ⟨⟨o', h1, p', h2, rfl, rfl⟩, h3⟩
      rw [h3] at h2
      cases h2
      exact ⟨o', h1, p, h3, ⟨rfl, rfl⟩, rfl⟩

theorem isOperator_iff {s : Store} {env : Env} {owner who : Bytes} :
    isOperator s env owner who = true ↔ OperatorOf s env owner who := by
  unfold isOperator OperatorOf
  cases s.operators.get? (operatorKey owner who) <;> simp [← valid_iff]

theorem checkCanSend_iff {s : Store} {env : Env} {info : Info} {owner : Bytes} {pos : Position} :
    checkCanSend s env info owner pos = .ok () ↔
      info.sender = owner ∨ ApprovedFor pos env info.sender ∨ OperatorOf s env owner info.sender := by
  refine ⟨checkCanSend_ok, fun h => ?_⟩
  unfold checkCanSend
  split
  · rfl
  · split
    · rfl
    · rename_i h1 h2
      rcases h with h | ⟨a, ha, hb, hc⟩ | h
      · exact absurd h h1
      · exact absurd (List.any_eq_true.2 ⟨a, ha, by simp [hb, valid_iff.2 hc]⟩) h2
      · rw [if_pos (isOperator_iff.2 h)]

theorem removePositionAt_exists {s : Store} (hs : PosInv s) {o : Bytes} {i : Nat} {p : Position} (hU : i < U32)
    (hp : s.positions.get? (positionKey o i) = some p) :
    ∃ s', removePositionAt s o i = .ok (s', p) ∧
      ∀ o', getPositionLength s' o' = if o' = o then getPositionLength s o - 1 else getPositionLength s o' := by
  have hi := (hs.iff o i hU).1 ⟨p, hp⟩
  have hl := hs.len o
  have hlen : ∀ (m : KV Position) (o' : Bytes),
      getPositionLength { s with positions := m, posLen := s.posLen.insert o (getPositionLength s o - 1) } o' =
        if o' = o then getPositionLength s o - 1 else getPositionLength s o' := by
    intro m o'
    simp only [getPositionLength, KV.get?_insert]
    split <;> simp
  unfold removePositionAt
  rw [show subP (getPositionLength s o) 1 = .ok (getPositionLength s o - 1) from by unfold subP; rw [if_pos (by omega)], ok_bind,
    show getPosition s o i = .ok p from by unfold getPosition; exact getPositionByKey_ok.2 hp, ok_bind]
  by_cases hin : i < getPositionLength s o - 1
  · rw [if_pos hin]
    obtain ⟨q, hq⟩ := (hs.iff o (getPositionLength s o - 1) (by omega)).2 (by omega)
    rw [hq]
    exact ⟨_, rfl, hlen _⟩
  · rw [if_neg hin]
    exact ⟨_, rfl, hlen _⟩

/-- **C52.** The answer of `OwnerOf` together with the operators of the named owner is exactly the set of accounts that can move the
token.  An account that is the named owner, is named in an approval, or is an operator can send it to anyone; every other account
is refused.  (The one exception: no list of positions gets longer than `2^32 - 2` entries.) -/
theorem C52_who_can_move {c : Chain} {s : Store} (hr : Reach c s) {env : Env} {info : Info} {id owner receiver : Bytes}
    {approvals : List Approval} (hq : queryOwnerOf s env id false = .ok (owner, approvals))
    (hroom : (positionList s receiver).length + 1 < 2 ^ 32) {msg : Msg}
    (hm : msg = .transferNft receiver id ∨ ∃ m, msg = .sendNft receiver id m) :
    (∃ s' out, execute c env info msg s = .ok (s', out)) ↔
      info.sender = owner ∨ info.sender ∈ approvals.map (·.spender) ∨ OperatorOf s env owner info.sender := by
  have hi := hr.mreach.posInv
  obtain ⟨i, p, ht, rfl⟩ := (C52_owner_of hr env id false owner approvals).1 hq
  obtain ⟨rfl, hU, hp⟩ := (isToken_iff hr).1 ht
  have happ : info.sender ∈ (p.approvals.filter (fun a => false = true ∨ a.expires.ValidAt env)).map (·.spender) ↔
      ApprovedFor p env info.sender := by
    simp only [List.mem_map, List.mem_filter, ApprovedFor]
    constructor
    · rintro ⟨a, ⟨h1, h2⟩, h3⟩; exact ⟨a, h1, h3, by simpa using h2⟩
    · rintro ⟨a, h1, h2, h3⟩; exact ⟨a, ⟨h1, by simp [h3]⟩, h2⟩
  rw [happ]
  obtain ⟨s1, h1, h1l⟩ := removePositionAt_exists hi hU hp
  have key : (∃ s2, transferNftInternal s env info receiver (positionKey owner i) = .ok s2) ↔
      checkCanSend s env info owner p = .ok () := by
    unfold transferNftInternal
    simp only [bind_ok, tokenOwner_positionKey, getPositionByKey_ok, tokenIndex_positionKey owner hU]
    constructor
    · rintro ⟨s2, o, h2, q, h3, ⟨⟩, h4, _⟩
      cases h2
      rw [hp] at h3
      cases h3
      exact h4
    · intro h
      have hlen : getPositionLength s1 receiver + 1 < U32 := by
        rw [positionList_length] at hroom
        rw [h1l]
        have : U32 = 2 ^ 32 := rfl
        split
        · have := hi.len owner; omega
        · omega
      exact ⟨_, owner, rfl, p, hp, (), h, _, h1, addPosition_ok.2 ⟨hlen, rfl⟩⟩
  rw [← checkCanSend_iff, ← key]
  rcases hm with rfl | ⟨m, rfl⟩
  · simp only [execute_ok, dispatch, transferNft, bind_ok, pure_ok]
    constructor
    · rintro ⟨s', out, _, s2, h2, _⟩; exact ⟨s2, h2⟩
    · rintro ⟨s2, h2⟩; exact ⟨s2, [], trivial, s2, h2, rfl⟩
  · simp only [execute_ok, dispatch, sendNft, bind_ok, pure_ok]
    constructor
    · rintro ⟨s', out, _, s2, h2, _⟩; exact ⟨s2, h2⟩
    · rintro ⟨s2, h2⟩; exact ⟨s2, _, trivial, s2, h2, rfl⟩

/-- **C52.** `UserPositionAmount` is the length of the account's list of positions. -/
theorem C52_amount (s : Store) (owner : Bytes) : queryUserPositionAmount s owner = (positionList s owner).length :=
  (positionList_length s owner).symm

/-- **C52.** `Admin` names the account that can hand over the administration, and no other account can. -/
theorem C52_admin {c : Chain} {s : Store} (hr : Reach c s) :
    ∃ admin, queryAdmin s = .ok admin ∧ ∀ (env : Env) (info : Info) (new : Bytes),
      (∃ s' out, execute c env info (.changeAdmin new) s = .ok (s', out) ∧ queryAdmin s' = .ok new) ↔ info.sender = admin := by
  obtain ⟨cfg, hc, _⟩ := hr.mreach.struct.cfg
  have hl := loadConfig_ok.2 hc
  refine ⟨cfg.admin, by simp only [queryAdmin, hl, bind_ok, pure_ok]; exact ⟨_, rfl, rfl⟩, fun env info new => ?_⟩
  simp only [execute_ok, dispatch, changeAdmin, bind_ok, hl]
  constructor
  · rintro ⟨s', out, ⟨_, cfg', ⟨⟩, h⟩, _⟩
    by_contra hn
    rw [if_pos hn] at h
    cases h
  · intro h
    exact ⟨_, _, ⟨trivial, cfg, rfl, by rw [if_neg (by simp [h])]; rfl⟩, rfl⟩

/-- **C52.** `FeeTierExist` says whether the tier is in the list `FeeTiers` returns, and where it says no, no pool can be created. -/
theorem C52_fee_tier {c : Chain} {s : Store} (hr : Reach c s) :
    ∃ tiers, queryFeeTiers s = .ok tiers ∧ ∀ t, queryFeeTierExist s t = .ok (decide (t ∈ tiers)) ∧
      (t ∉ tiers → ∀ env info a b price tick, ∃ e, execute c env info (.createPool a b t price tick) s = .error e) := by
  obtain ⟨cfg, hc, _⟩ := hr.mreach.struct.cfg
  have hl := loadConfig_ok.2 hc
  refine ⟨cfg.feeTiers, ?_, fun t => ⟨?_, fun ht env info a b price tick => ?_⟩⟩
  · simp only [queryFeeTiers, hl, bind_ok, pure_ok]; exact ⟨_, rfl, rfl⟩
  · simp only [queryFeeTierExist, hl, bind_ok, pure_ok]; exact ⟨_, rfl, rfl⟩
  · cases h : execute c env info (.createPool a b t price tick) s with
    | error e => exact ⟨e, rfl⟩
    | ok r =>
      have := (execute_ok.1 h).2
      simp only [dispatch, createPool, bind_ok, hl] at this
      obtain ⟨_, ⟨⟩, h⟩ := this
      rw [if_pos ht] at h
      cases h

namespace Demo

/-- Alice approves Bob for her token 0 and makes Carol an operator. -/
def shared52 : List (Info × Msg) := many ++
  [(by_ alice, .approve bob (positionKey alice 0) none), (by_ alice, .approveAll carol none)]

-- the hypotheses of `C52_who_can_move` are met, by the owner, by an approved account, by an operator and by a stranger
example : works chain shared52 = true := by decide +kernel
example : (queryOwnerOf (state chain shared52) env (positionKey alice 0) false).toOption = some (alice, [⟨bob, .never⟩]) := by
  decide +kernel
example : ([alice, bob, carol, [7]].map fun who =>
    (execute chain env (by_ who) (.transferNft [9] (positionKey alice 0)) (state chain shared52)).isOk) =
      [true, true, true, false] := by decide +kernel
example : queryUserPositionAmount (state chain shared52) alice = 3 := by decide +kernel
example : (queryAdmin (state chain shared52)).toOption = some alice := by decide +kernel
example : (queryFeeTierExist (state chain shared52) tier).toOption = some true := by decide +kernel
example : (queryNftInfo (state chain shared52) (positionKey alice 1)).toOption.map Position.what =
    some (key, -20, 10, 10 ^ 13) := by decide +kernel

end Demo

/-! ## C17: what a burn does -/

/-- **C17**, what holds for every caller: a burn is accepted exactly when the token exists, the sender may move it, and the sender
could remove the position *of its own* with the number of the token; and it does exactly that.  Missing: that the removed position
is the token (`C17_false`). -/
theorem C17_burn_partial {c : Chain} {s : Store} (hr : Reach c s) {env : Env} {info : Info} {id : Bytes} {r : Store × List OutMsg} :
    execute c env info (.burn id) s = .ok r ↔ ∃ owner i p, IsToken s id owner i p ∧
      (info.sender = owner ∨ ApprovedFor p env info.sender ∨ OperatorOf s env owner info.sender) ∧
      execute c env info (.removePosition i) s = .ok r := by
  constructor
  · intro h
    obtain ⟨owner, p, h1, h2, h3, h4⟩ := burn_inv (execute_ok.1 h).2
    obtain ⟨o, i, rfl, hU⟩ := hr.mreach.posInv.key _ _ h2
    rw [tokenOwner_positionKey, ok_inj] at h1
    subst h1
    rw [tokenIndex_positionKey _ hU] at h4
    exact ⟨o, i, p, (isToken_iff hr).2 ⟨rfl, hU, h2⟩, checkCanSend_iff.1 h3, execute_ok.2 ⟨hU, h4⟩⟩
  · rintro ⟨owner, i, p, ht, h3, h4⟩
    obtain ⟨rfl, hU, hp⟩ := (isToken_iff hr).1 ht
    refine execute_ok.2 ⟨trivial, ?_⟩
    show burn c s env info _ = _
    unfold burn
    simp only [bind_ok, getPositionByKey_ok]
    refine ⟨p, hp, owner, tokenOwner_positionKey _ _, (), checkCanSend_iff.2 h3, ?_⟩
    rw [tokenIndex_positionKey _ hU]
    exact (execute_ok.1 h4).2

-- the owner, an approved account and an operator with positions of their own, and a stranger with positions of its own
example : ([Demo.alice, Demo.bob, Demo.carol, [7]].map fun who =>
    (execute Demo.chain Demo.env (Demo.by_ who) (.burn (positionKey Demo.alice 0)) (Demo.state Demo.chain (Demo.shared52 ++
      [(Demo.by_ Demo.carol, .createPosition Demo.key (-10) 10 (10 ^ 12) 0 (10 ^ 30)),
       (Demo.by_ [7], .createPosition Demo.key (-10) 10 (10 ^ 12) 0 (10 ^ 30))]))).isOk) = [true, true, true, false] := by decide +kernel

/-! ## C53: the pools of a pair -/

/-- **C53**, what holds: `PoolsForPair` gives the same answer for both orders of the tokens.  It lists the pools of the pair whose
fee tier is in the list of fee tiers at the moment, as stored, each as often as its tier is in that list, in that order.  Missing:
pools whose tier was removed are not listed, and a tier added twice lists its pool twice (`C53_false_removed`,
`C53_false_twice`). -/
theorem C53_pools_for_pair_partial {c : Chain} {s : Store} (hr : Reach c s) {a b : Bytes} (hab : a ≠ b) :
    ∃ l, queryPoolsForPair s a b = .ok l ∧ queryPoolsForPair s b a = .ok l ∧
      (∀ k p, (k, p) ∈ l ↔ SamePair a b k.tokenX k.tokenY ∧ bytesLt k.tokenX k.tokenY = true ∧ k.tier ∈ feeTiersOf s ∧
        s.pools.get? k.key = some p) ∧
      (∀ x y, SamePair a b x y → bytesLt x y = true →
        l.map (·.1.tier) = (feeTiersOf s).filter (fun t => (s.pools.get? (⟨x, y, t⟩ : PoolKey).key).isSome)) := by
  obtain ⟨cfg, hc, _⟩ := hr.mreach.struct.cfg
  have hl := loadConfig_ok.2 hc
  have hft : feeTiersOf s = cfg.feeTiers := by simp [feeTiersOf, hc]
  obtain ⟨k0, hk0, hk1⟩ : ∃ k0, PoolKey.new a b ⟨0, 1⟩ = .ok k0 ∧ ∀ x y, (SamePair a b x y ∧ bytesLt x y = true) ↔
      x = k0.tokenX ∧ y = k0.tokenY := by
    have hf := bytesLt_flip hab
    unfold PoolKey.new
    rw [if_neg hab]
    by_cases h : bytesLt a b = true
    · rw [if_pos h]
      refine ⟨_, rfl, fun x y => ⟨?_, ?_⟩⟩
      · rintro ⟨⟨rfl, rfl⟩ | ⟨rfl, rfl⟩, h2⟩
        · exact ⟨rfl, rfl⟩
        · rw [hf, h] at h2; cases h2
      · rintro ⟨rfl, rfl⟩; exact ⟨.inl ⟨rfl, rfl⟩, h⟩
    · rw [if_neg h]
      refine ⟨_, rfl, fun x y => ⟨?_, ?_⟩⟩
      · rintro ⟨⟨rfl, rfl⟩ | ⟨rfl, rfl⟩, h2⟩
        · exact absurd h2 h
        · exact ⟨rfl, rfl⟩
      · rintro ⟨rfl, rfl⟩; exact ⟨.inr ⟨rfl, rfl⟩, by rw [hf]; simpa using h⟩
  refine ⟨_, by unfold queryPoolsForPair; rw [hl, ok_bind, hk0, ok_bind]; rfl,
    by unfold queryPoolsForPair; rw [hl, ok_bind, PoolKey.new_symm, hk0, ok_bind]; rfl, ?_, ?_⟩
  · intro k p
    rw [← and_assoc, hk1, hft, List.mem_filterMap]
    constructor
    · rintro ⟨t, ht, h⟩
      split at h
      · rename_i q hq
        cases h
        exact ⟨⟨rfl, rfl⟩, ht, hq⟩
      · cases h
    · rintro ⟨⟨h1, h2⟩, h3, h4⟩
      refine ⟨k.tier, h3, ?_⟩
      have e : ({ k0 with tier := k.tier } : PoolKey) = k := by cases k; cases k0; simp_all
      rw [e, h4]
  · intro x y hxy hlt
    obtain ⟨rfl, rfl⟩ := (hk1 x y).1 ⟨hxy, hlt⟩
    rw [hft]
    generalize cfg.feeTiers = ts
    induction ts with
    | nil => rfl
    | cons t ts ih =>
      rw [List.filterMap_cons, List.filter_cons]
      cases h : s.pools.get? (⟨k0.tokenX, k0.tokenY, t⟩ : PoolKey).key with
      | none => simpa [h] using ih
      | some p => simpa [h] using ih

/-- **C53** is false: when the fee tier of a pool is removed from the list, the pool stays open but is not listed any more. -/
theorem C53_false_removed : ¬ ∀ (c : Chain) (s : Store), Reach c s → ∀ (k : PoolKey) (p : Pool) (l : List (PoolKey × Pool)),
    s.pools.get? k.key = some p → queryPoolsForPair s k.tokenX k.tokenY = .ok l → ∃ p', (k, p') ∈ l := by
  intro h
  have hr : Reach Demo.chain (Demo.state Demo.chain (Demo.many ++ [(Demo.by_ Demo.alice, .removeFeeTier Demo.tier)])) :=
    Demo.state_reach (by decide +kernel)
  generalize hs : Demo.state Demo.chain (Demo.many ++ [(Demo.by_ Demo.alice, .removeFeeTier Demo.tier)]) = s at hr
  have h1 : (s.pools.get? Demo.key.key).isSome = true := by subst hs; decide +kernel
  have h2 : ((queryPoolsForPair s Demo.key.tokenX Demo.key.tokenY).toOption.map List.length) = some 0 := by subst hs; decide +kernel
  obtain ⟨p, hp⟩ := Option.isSome_iff_exists.1 h1
  cases hq : queryPoolsForPair s Demo.key.tokenX Demo.key.tokenY with
  | error e => rw [hq] at h2; cases h2
  | ok l =>
    rw [hq] at h2
    simp only [Except.toOption, Option.map_some, Option.some.injEq] at h2
    obtain ⟨p', hp'⟩ := h _ _ hr _ _ _ hp hq
    rw [List.length_eq_zero_iff.1 h2] at hp'
    cases hp'

/-- **C53** is false: when a fee tier is in the list twice, its pool is listed twice. -/
theorem C53_false_twice : ¬ ∀ (c : Chain) (s : Store), Reach c s → ∀ (a b : Bytes) (l : List (PoolKey × Pool)),
    queryPoolsForPair s a b = .ok l → (l.map (·.1)).Nodup := by
  intro h
  have hr : Reach Demo.chain (Demo.state Demo.chain (Demo.many ++ [(Demo.by_ Demo.alice, .addFeeTier Demo.tier)])) :=
    Demo.state_reach (by decide +kernel)
  generalize hs : Demo.state Demo.chain (Demo.many ++ [(Demo.by_ Demo.alice, .addFeeTier Demo.tier)]) = s at hr
  have h2 : ((queryPoolsForPair s Demo.key.tokenX Demo.key.tokenY).toOption.map (fun l => decide (l.map (·.1)).Nodup)) =
    some false := by subst hs; decide +kernel
  cases hq : queryPoolsForPair s Demo.key.tokenX Demo.key.tokenY with
  | error e => rw [hq] at h2; cases h2
  | ok l =>
    rw [hq] at h2
    simp only [Except.toOption, Option.map_some, Option.some.injEq, decide_eq_false_iff_not] at h2
    exact h2 (h _ _ hr _ _ _ hq)

-- the pool of the example is listed, here for the tokens in the other order
example : ((queryPoolsForPair (Demo.state Demo.chain Demo.many) Demo.key.tokenY Demo.key.tokenX).toOption.map
    (fun l => l.map (·.1))) = some [Demo.key] := by decide +kernel

end OraiV3
