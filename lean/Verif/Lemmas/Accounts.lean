import Verif.AccountSpec
import Verif.Lemmas.Quiet
import Verif.Props.Access
import Verif.Props.Positions

/-!
# Lemmas for C68
-/

namespace OraiV3

theorem AccountSteps.steps {c : Chain} {P : Msg → Prop} {s s' : Store} (h : AccountSteps c P s s') : Steps c s s' := by
  induction h with
  | refl => exact .refl _
  | tail _ _ _ _ h ih => exact .tail ih h

theorem AccountSteps.reach {c : Chain} {P : Msg → Prop} {s s' : Store} (h : AccountSteps c P s s') (hr : Reach c s) :
    Reach c s' := by
  induction h with
  | refl => exact hr
  | tail _ _ _ _ h ih => exact .step ih h

theorem AccountSteps.trans {c : Chain} {P : Msg → Prop} {s s' s'' : Store} (h : AccountSteps c P s s')
    (h' : AccountSteps c P s' s'') : AccountSteps c P s s'' := by
  induction h' with
  | refl => exact h
  | tail _ h1 h2 h3 h4 ih => exact .tail ih h1 h2 h3 h4

theorem AccountReach.reach {c : Chain} {P : Msg → Prop} {s : Store} (h : AccountReach c P s) : Reach c s := by
  obtain ⟨sender, fee, hf, _, h⟩ := h
  exact h.reach (.init sender fee hf)

/-- Pools appear only with the admin as receiver. -/
def FreshPools (s s' : Store) : Prop :=
  ∀ key p', s.pools.get? key = none → s'.pools.get? key = some p' → ∃ cfg, s.config = some cfg ∧ p'.feeReceiver = cfg.admin

theorem FreshPools.insert {s s' : Store} {k0 : Bytes} {p0 q : Pool} (h0 : s.pools.get? k0 = some p0)
    (e : s'.pools = s.pools.insert k0 q) : FreshPools s s' := by
  intro key p' hn hp
  rw [e, KV.get?_insert] at hp
  split at hp
  · rename_i he; rw [he, h0] at hn; simp at hn
  · rw [hn] at hp; simp at hp

theorem FreshPools.same {s s' : Store} (e : s'.pools = s.pools) : FreshPools s s' := by
  intro key p' hn hp
  rw [e, hn] at hp; simp at hp

theorem FreshPools.quiet {c : Chain} {env : Env} {s s' : Store} (hs : Struct s) (hm : Quiet c env s s') : FreshPools s s' := by
  cases hm with
  | @config cfg cfg' hc hf ht => exact .same rfl
  | opers ops => exact .same rfl
  | @poolMeta k p rcv px py hk hp hx hy => exact .insert hp rfl
  | @newPool _ t0 t1 tier price tick out hw hh =>
    obtain ⟨cfg, k, pool, h1, h2, h3, h4, h5, h6, rfl, _⟩ := createPool_inv hh
    have hst : pool.feeReceiver = cfg.admin := by
      unfold Pool.create at h6
      rw [bind_ok] at h6
      obtain ⟨b, -, h6⟩ := h6
      cases b
      · simp at h6
      · simp only [Bool.not_true, Bool.false_eq_true, if_false, pure_ok] at h6
        rw [← h6]
    intro key p' hn hp
    simp only [savePool, KV.get?_insert] at hp
    split at hp
    · cases hp; exact ⟨cfg, h1, hst⟩
    · rw [hn] at hp; simp at hp
  | @create _ info k l u L lo hi' out hw hh =>
    obtain ⟨pool, tl, tu, r, rl, m1, m2, hp, hL, hlu, vl, vu, il, iu, _, _, _, _, _, hm, e1, e2, e3, _⟩ :=
      createPosition_view hs hw hh
    exact .insert hp e3
  | @claim _ info i out hw hh =>
    obtain ⟨pos, tl, tu, pool, r, hpos, htl, htu, il, iu, hp, hm, _, _, _, _, e3, _⟩ := claimFee_view hs hh
    exact .insert hp e3
  | @remove _ info i out hw hh =>
    obtain ⟨pos, tl, tu, pool, r, sr, s1, s2, hpos, htl, htu, il, iu, hp, hm, _, _, jl, ju, _, _, hr, e1, e2, e3, e5, _⟩ :=
      removePosition_view hs hh
    exact .insert hp e5
  | @move s1 _ o r i p hw h1 h2 =>
    obtain ⟨_, rfl⟩ := addPosition_ok.1 h2
    obtain ⟨_, _, rfl⟩ := removePositionAt_frame h1
    exact .same rfl
  | @appr id p a h' => exact .same rfl

theorem swapInternal_none {c : Chain} {s : Store} {info : Info} {now : Nat} {k : PoolKey} {d : Bool}
    {amount : Nat} {b : Bool} {limit : Nat} {x : Store × List OutMsg × CalcSwapResult}
    (h : swapInternal c s info now k d amount b limit = .ok x) {key : Bytes} (hn : s.pools.get? key = none) :
    x.1.pools.get? key = none := by
  obtain ⟨t, e1⟩ := swapInternal_frame h
  obtain ⟨_, _, h3, _⟩ := swapInternal_inv h
  obtain ⟨p0, h4, _⟩ := calculateSwap_keeps h3
  rw [e1]
  simp only [KV.get?_insert]
  rw [if_neg, hn]
  rintro rfl
  rw [h4] at hn; simp at hn

theorem swapRouteInternal_none {c : Chain} {info : Info} {now : Nat} : ∀ {hops : List Hop} {s s' : Store}
    {a fin : Nat} {m out : List OutMsg}, swapRouteInternal c info now hops s a m = .ok (s', fin, out) →
    ∀ key, s.pools.get? key = none → s'.pools.get? key = none
  | [], s, s', a, fin, m, out, h => by
    simp only [swapRouteInternal, ok_inj, Prod.mk.injEq] at h
    intro key hp
    rw [← h.1]; exact hp
  | hh :: hops, s, s', a, fin, m, out, h => by
    simp only [swapRouteInternal, bind_ok] at h
    obtain ⟨x, h1, h2⟩ := h
    exact fun key hp => swapRouteInternal_none h2 key (swapInternal_none h1 hp)

theorem execute_fresh {c : Chain} {env : Env} {info : Info} {msg : Msg} {s s' : Store} {out : List OutMsg}
    (hs : Struct s) (h : execute c env info msg s = .ok (s', out)) : FreshPools s s' := by
  by_cases hq : msg.isSwap = false
  · exact .quiet hs (execute_quiet hq h)
  · have he := (execute_ok.1 h).2
    cases msg <;> simp only [Msg.isSwap, not_true_eq_false] at hq
    case swap k d a b l =>
      simp only [dispatch] at he
      obtain ⟨r, h1⟩ := swap_inv he
      intro key p' hn hp
      rw [swapInternal_none h1 hn] at hp; simp at hp
    case swapRoute a e sl hops =>
      simp only [dispatch] at he
      obtain ⟨fin, m, h1, _, _⟩ := swapRoute_inv he
      intro key p' hn hp
      rw [swapRouteInternal_none h1 key hn] at hp; simp at hp

theorem swapRemove_length_le {α : Type} (l : List α) (i : Nat) : (swapRemove l i).length ≤ l.length := by
  unfold swapRemove
  split <;> simp

/-- Whose list a call can make longer, and with what. -/
theorem longer_list {c : Chain} {s s' : Store} {env : Env} {info : Info} {msg : Msg} {out : List OutMsg}
    (hr : Reach c s) (h : execute c env info msg s = .ok (s', out)) {o : Bytes} {j : Nat} {q : Option Position}
    (hj : (positionList s o).length ≤ j) (hq : (positionList s' o)[j]? = some q) :
    o = info.sender ∨ ∃ o' i, ∃ p : Position, msg.posOp info.sender = .move o' i o ∧ q = some { p with approvals := [] } := by
  have hj' : j < (positionList s' o).length := by
    rcases Nat.lt_or_ge j (positionList s' o).length with h | h
    · exact h
    · rw [List.getElem?_eq_none h] at hq; simp at hq
  have hc := C16_list_operations hr h
  generalize hop : msg.posOp info.sender = op at hc
  cases op with
  | append o' w =>
    obtain ⟨p, -, hl⟩ := hc
    have ho : o' = info.sender := by
      cases msg <;> simp only [Msg.posOp, PosOp.append.injEq, reduceCtorEq] at hop <;> exact hop.1.symm
    by_cases e : o = o'
    · exact .inl (e.trans ho)
    · rw [hl o, if_neg e] at hj'; omega
  | remove o' i =>
    have := hc.2 o
    have hle := swapRemove_length_le (positionList s o) i
    rw [this] at hj'
    split at hj' <;> omega
  | move o' i r =>
    obtain ⟨p, -, hl⟩ := hc
    have hle := swapRemove_length_le (positionList s o) i
    rw [hl o] at hq hj'
    by_cases e : o = r
    · subst e
      rw [if_pos rfl] at hq
      rw [List.getElem?_append_right (by split <;> omega)] at hq
      refine .inr ⟨o', i, p, rfl, ?_⟩
      generalize j - _ = n at hq
      cases n with
      | zero => simp at hq; exact hq.symm
      | succ n => simp at hq
    · rw [if_neg e, List.append_nil] at hj'
      split at hj' <;> omega
  | edit id =>
    obtain ⟨o', i, p, p', _, _, _, hl⟩ := hc
    rw [hl o] at hj'
    split at hj'
    · rw [List.length_set] at hj'; omega
    · omega
  | keep => rw [hc o] at hj'; omega

/-- Nobody can act for a string that is not an account. -/
structure Orphan (s : Store) (o : Bytes) : Prop where
  oper : ∀ env a, ¬ OperatorOf s env o a
  appr : ∀ p, some p ∈ positionList s o → p.approvals = []

theorem Orphan.step {c : Chain} {s s' : Store} {env : Env} {info : Info} {msg : Msg} {out : List OutMsg} {o : Bytes}
    (hr : Reach c s) (h : execute c env info msg s = .ok (s', out)) (hs : c.isAddr info.sender = true)
    (hl : info.sender.length < 2 ^ 16) (ho : c.isAddr o = false) (hol : o.length < 2 ^ 16) (hi : Orphan s o) :
    Orphan s' o ∧ positionList s o <+: positionList s' o := by
  have hne : info.sender ≠ o := by rintro rfl; rw [hs] at ho; simp at ho
  have pi := hr.mreach.posInv
  have mem : ∀ i p, s.positions.get? (positionKey o i) = some p → some p ∈ positionList s o := by
    intro i p hp
    obtain ⟨o', i', e, hU⟩ := pi.key _ _ hp
    rw [e] at hp
    have := positionList_getElem? s o' i'
    rw [if_pos ((pi.iff o' i' hU).1 ⟨p, hp⟩), hp] at this
    rw [positionKey_owner e]
    exact List.mem_of_getElem? this
  have keep := C15_strangers_cannot_touch_positions h hne (hi.oper env info.sender) (fun i p hp hap => by
    obtain ⟨a, ha, _⟩ := hap
    rw [hi.appr p (mem i p hp)] at ha
    simp at ha)
  have old : ∀ j < (positionList s o).length, (positionList s' o)[j]? = (positionList s o)[j]? := by
    intro j hj
    rw [positionList_length] at hj
    rw [positionList_getElem?, positionList_getElem?, if_pos hj, if_pos (by omega),
      keep.2 j hj (by have := pi.len o; omega)]
  refine ⟨⟨fun env' a => ?_, fun p hp => ?_⟩, ?_⟩
  · rw [C15_strangers_cannot_appoint h hne hol hl]; exact hi.oper env' a
  · obtain ⟨j, hj⟩ := List.getElem?_of_mem hp
    rcases Nat.lt_or_ge j (positionList s o).length with hlt | hge
    · rw [old j hlt] at hj
      exact hi.appr p (List.mem_of_getElem? hj)
    · rcases longer_list hr h hge hj with e | ⟨_, _, p', _, e⟩
      · exact absurd e.symm hne
      · rw [Option.some.injEq] at e; rw [e]
  · rw [List.prefix_iff_getElem?]
    intro j hj
    rw [old j hj, List.getElem?_eq_getElem hj]

theorem Orphan.init (sender : Bytes) (fee : Nat) (o : Bytes) : Orphan (instantiate sender fee) o := by
  constructor
  · rintro env a ⟨ex, h, _⟩
    simp [instantiate, Store.empty, KV.get?, KV.empty, kvFind] at h
  · intro p hp
    simp [positionList, getPositionLength, instantiate, Store.empty, KV.get?, KV.empty, kvFind] at hp

theorem Orphan.steps {c : Chain} {P : Msg → Prop} {s s' : Store} {o : Bytes} (hr : Reach c s) (ho : c.isAddr o = false)
    (hol : o.length < 2 ^ 16) (hi : Orphan s o) (h : AccountSteps c P s s') :
    Orphan s' o ∧ positionList s o <+: positionList s' o := by
  induction h with
  | refl => exact ⟨hi, List.prefix_rfl⟩
  | tail hst h1 h2 _ h4 ih =>
    obtain ⟨a, b⟩ := ih
    obtain ⟨a', b'⟩ := Orphan.step (hst.reach hr) h4 h1 h2 ho hol a
    exact ⟨a', b.trans b'⟩

end OraiV3
