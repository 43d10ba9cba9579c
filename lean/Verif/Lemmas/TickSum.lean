import Verif.Lemmas.PosOps

/-!
# TickSum: the stored ticks are the sums over the open positions
-/

namespace OraiV3

/-! ## Sums over positions -/

theorem perm_sum {a b : List Nat} (h : a.Perm b) : a.sum = b.sum := by
  induction h with
  | nil => rfl
  | cons x _ ih => simp [ih]
  | swap x y l => simp only [List.sum_cons]; omega
  | trans _ _ h1 h2 => exact h1.trans h2

theorem sumPositions_cons {s s' : Store} {p : Position} (h : s'.positions.vals.Perm (p :: s.positions.vals))
    (k : PoolKey) (f : Position → Nat) :
    sumPositions s' k f = (if p.poolKey = k then f p else 0) + sumPositions s k f := by
  unfold sumPositions positionsOf
  rw [perm_sum ((h.filter _).map f)]
  by_cases e : p.poolKey = k <;> simp [e]

theorem sumPositions_congr {s s' : Store} (h : s'.positions = s.positions) (k : PoolKey) (f : Position → Nat) :
    sumPositions s' k f = sumPositions s k f := by
  unfold sumPositions positionsOf; rw [h]

/-- Replacing a position by one of the same pool with the same value of `f` keeps the sum. -/
theorem sumPositions_edit {s s' : Store} {id : Bytes} {p p' : Position} (hp : s.positions.get? id = some p)
    (h : s'.positions = s.positions.insert id p') (k : PoolKey) (f : Position → Nat)
    (hk : p'.poolKey = p.poolKey) (hf : f p' = f p) : sumPositions s' k f = sumPositions s k f := by
  obtain ⟨rest, b1, b2⟩ := updatePosition_vals (p' := p') hp
  rw [← h] at b2
  unfold sumPositions positionsOf
  rw [perm_sum ((b1.filter _).map f), perm_sum ((b2.filter _).map f)]
  by_cases e : p.poolKey = k <;> simp [e, hk, hf]

theorem sumPositions_move {s s1 s2 : Store} {o r : Bytes} {i : Nat} {p : Position} (hi : PosInv s) (hw : i < U32)
    (h1 : removePositionAt s o i = .ok (s1, p)) (h2 : addPosition s1 r { p with approvals := [] } = .ok s2)
    (k : PoolKey) (f : Position → Nat) (hf : f { p with approvals := [] } = f p) :
    sumPositions s2 k f = sumPositions s k f := by
  rw [sumPositions_cons (addPosition_vals (hi.remove hw h1).2 h2),
    sumPositions_cons (removePositionAt_vals hi hw h1), hf]

theorem createPosition_sum {c : Chain} {s s' : Store} {env : Env} {info : Info} {k : PoolKey}
    {l u : Int} {L lo hi : Nat} {out : List OutMsg} (hs : Struct s) (hpi : PosInv s)
    (hw : (Msg.createPosition k l u L lo hi).wf)
    (h : createPosition c s env info k l u L lo hi = .ok (s', out)) :
    ∃ p, p.what = (k, l, u, L) ∧ s'.positions.vals.Perm (p :: s.positions.vals) := by
  obtain ⟨p, s1, hp, h1, h2⟩ := createPosition_effect hs hw h
  exact ⟨p, hp, by rw [h2.1]; exact addPosition_vals hpi h1⟩

theorem removePosition_sum {c : Chain} {s s' : Store} {env : Env} {info : Info} {i : Nat} {out : List OutMsg}
    (hs : Struct s) (hi : PosInv s) (hw : i < U32) (h : removePosition c s env info i = .ok (s', out)) :
    ∃ p, s.positions.get? (positionKey info.sender i) = some p ∧ s.positions.vals.Perm (p :: s'.positions.vals) := by
  obtain ⟨p, s1, h1, h2⟩ := removePosition_effect hs h
  obtain ⟨_, _, hp, _⟩ := removePositionAt_inv h1
  exact ⟨p, hp, by rw [h2.1]; exact removePositionAt_vals hi hw h1⟩

/-! ## The invariant -/

/-- Gross and net liquidity of a stored tick. -/
def tickVal (s : Store) (k : PoolKey) (i : Int) : Option (Nat × Int) :=
  (s.ticks.get? (tickKey k i)).map (fun t => (t.gross, t.net))

def TickSumAt (s : Store) (k : PoolKey) (i : Int) : Prop :=
  match tickVal s k i with
  | none => liquidityStartingAt s k i = 0 ∧ liquidityEndingAt s k i = 0
  | some v => v.1 ≠ 0 ∧ v.1 = liquidityStartingAt s k i + liquidityEndingAt s k i ∧
      v.2 = (liquidityStartingAt s k i : Int) - liquidityEndingAt s k i

def TickSum (s : Store) : Prop := ∀ k i, k.wf → i32 i → TickSumAt s k i

theorem TickSumAt.congr {s s' : Store} {k : PoolKey} {i : Int} (h : TickSumAt s k i)
    (h1 : tickVal s' k i = tickVal s k i) (h2 : liquidityStartingAt s' k i = liquidityStartingAt s k i)
    (h3 : liquidityEndingAt s' k i = liquidityEndingAt s k i) : TickSumAt s' k i := by
  unfold TickSumAt at h ⊢
  rw [h1, h2, h3]; exact h

theorem TickSumAt.eq {s : Store} {k : PoolKey} {i : Int} (h : TickSumAt s k i) :
    ((tickVal s k i).getD (0, 0)).1 = liquidityStartingAt s k i + liquidityEndingAt s k i ∧
    ((tickVal s k i).getD (0, 0)).2 = (liquidityStartingAt s k i : Int) - liquidityEndingAt s k i := by
  unfold TickSumAt at h
  split at h
  · rename_i e; rw [e]; simp [h.1, h.2]
  · rename_i v e; rw [e]; exact h.2

theorem TickSumAt.of_eq {s : Store} {k : PoolKey} {i : Int}
    (h1 : ((tickVal s k i).getD (0, 0)).1 = liquidityStartingAt s k i + liquidityEndingAt s k i)
    (h2 : ((tickVal s k i).getD (0, 0)).2 = (liquidityStartingAt s k i : Int) - liquidityEndingAt s k i)
    (h3 : ∀ v, tickVal s k i = some v → v.1 ≠ 0) : TickSumAt s k i := by
  unfold TickSumAt
  split
  · rename_i e; rw [e] at h1; simp at h1; omega
  · rename_i v e; rw [e] at h1 h2; exact ⟨h3 v e, h1, h2⟩

theorem TickUsed.val {s : Store} {k : PoolKey} {pool : Pool} {now : Nat} {i : Int} {t : Tick}
    (h : TickUsed s k pool now i t) : (t.gross, t.net) = (tickVal s k i).getD (0, 0) := by
  unfold tickVal
  rcases h with h | ⟨h, _, h2⟩
  · rw [h]; rfl
  · obtain ⟨_, _, g, n, _⟩ := Tick.create_inv h2
    rw [h, g, n]; rfl

theorem tickVal_core {s s' : Store} {k : PoolKey} {i : Int}
    (h : (s'.ticks.get? (tickKey k i)).map Tick.core = (s.ticks.get? (tickKey k i)).map Tick.core) :
    tickVal s' k i = tickVal s k i := by
  unfold tickVal
  generalize s'.ticks.get? (tickKey k i) = a at h ⊢
  generalize s.ticks.get? (tickKey k i) = b at h ⊢
  cases a with
  | none =>
    cases b with
    | none => rfl
    | some b => simp at h
  | some a =>
    cases b with
    | none => simp at h
    | some b =>
      simp only [Option.map_some, Option.some.injEq, Tick.core, Prod.mk.injEq] at h
      simp only [Option.map_some, Option.some.injEq, Prod.mk.injEq, Tick.net]
      rw [h.2.1, h.2.2.1, h.2.2.2.1]
      exact ⟨rfl, rfl⟩

theorem TickSum.create {c : Chain} {s s' : Store} {env : Env} {info : Info} {k : PoolKey}
    {l u : Int} {L lo hi : Nat} {out : List OutMsg} (hs : Struct s) (hpi : PosInv s) (ht : TickSum s)
    (hw : (Msg.createPosition k l u L lo hi).wf)
    (h : createPosition c s env info k l u L lo hi = .ok (s', out)) : TickSum s' := by
  obtain ⟨p, hwhat, hperm⟩ := createPosition_sum hs hpi hw h
  obtain ⟨pool, tl, tu, r, rl, m1, m2, hp, hL, hlu, vl, vu, il, iu, _, _, _, _, _, hm, e1, e2, e3, e4, e5, hU, htk, _⟩ :=
    createPosition_view hs hw h
  obtain ⟨hk, hl, hu, _⟩ := hw
  obtain ⟨q, d1, d2, _⟩ := Position.modify_inv hm
  obtain ⟨_, _, _, _, _, g1, n1, _⟩ := Tick.update_inv d1
  obtain ⟨_, _, _, _, _, g2, n2, _⟩ := Tick.update_inv d2
  simp only [if_true] at g1 g2
  simp only [Bool.xor_false, if_true] at n1
  simp only [Bool.xor_true, Bool.not_true, Bool.false_eq_true, if_false] at n2
  simp only [Position.what, Prod.mk.injEq] at hwhat
  obtain ⟨w1, w2, w3, w4⟩ := hwhat
  have hS : ∀ k' i', liquidityStartingAt s' k' i' =
      (if k = k' ∧ l = i' then L else 0) + liquidityStartingAt s k' i' := by
    intro k' i'
    unfold liquidityStartingAt
    rw [sumPositions_cons hperm, w1, w2, w4]
    by_cases e1 : k = k' <;> by_cases e2 : l = i' <;> simp [e1, e2]
  have hE : ∀ k' i', liquidityEndingAt s' k' i' =
      (if k = k' ∧ u = i' then L else 0) + liquidityEndingAt s k' i' := by
    intro k' i'
    unfold liquidityEndingAt
    rw [sumPositions_cons hperm, w1, w3, w4]
    by_cases e1 : k = k' <;> by_cases e2 : u = i' <;> simp [e1, e2]
  intro k' i' hk' hi'
  have hval : tickVal s' k' i' = if k' = k ∧ i' = u then some (r.upper.gross, r.upper.net) else
      if k' = k ∧ i' = l then some (r.lower.gross, r.lower.net) else tickVal s k' i' := by
    unfold tickVal
    rw [htk]
    by_cases a : k' = k ∧ i' = u
    · obtain ⟨rfl, rfl⟩ := a; simp
    · have na : tickKey k' i' ≠ tickKey k u := fun e => a (tickKey_inj hk' hk hi' hu e)
      rw [if_neg a, if_neg na]
      by_cases b : k' = k ∧ i' = l
      · obtain ⟨rfl, rfl⟩ := b; simp
      · have nb : tickKey k' i' ≠ tickKey k l := fun e => b (tickKey_inj hk' hk hi' hl e)
        rw [if_neg b, if_neg nb]
  have hold := (ht k' i' hk' hi')
  have holde := hold.eq
  by_cases a : k' = k ∧ i' = u
  · obtain ⟨rfl, rfl⟩ := a
    have hv := vu.val
    rw [← hv] at holde
    rw [if_pos ⟨rfl, rfl⟩] at hval
    apply TickSumAt.of_eq
    · rw [hval, hS, hE, if_neg (fun e => hlu e.2), if_pos ⟨rfl, rfl⟩]
      simp only [Option.getD_some]; rw [g2.1]; omega
    · rw [hval, hS, hE, if_neg (fun e => hlu e.2), if_pos ⟨rfl, rfl⟩]
      simp only [Option.getD_some]; rw [n2]; simp only [] at holde; push_cast; omega
    · intro v hv; rw [hval] at hv; cases hv; show r.upper.gross ≠ 0; omega
  · rw [if_neg a] at hval
    by_cases b : k' = k ∧ i' = l
    · obtain ⟨rfl, rfl⟩ := b
      have hv := vl.val
      rw [← hv] at holde
      rw [if_pos ⟨rfl, rfl⟩] at hval
      apply TickSumAt.of_eq
      · rw [hval, hS, hE, if_pos ⟨rfl, rfl⟩, if_neg (fun e => hlu e.2.symm)]
        simp only [Option.getD_some]; rw [g1.1]; omega
      · rw [hval, hS, hE, if_pos ⟨rfl, rfl⟩, if_neg (fun e => hlu e.2.symm)]
        simp only [Option.getD_some]; rw [n1]; simp only [] at holde; push_cast; omega
      · intro v hv; rw [hval] at hv; cases hv; show r.lower.gross ≠ 0; omega
    · rw [if_neg b] at hval
      refine hold.congr hval ?_ ?_
      · rw [hS, if_neg (fun e => b ⟨e.1.symm, e.2.symm⟩), Nat.zero_add]
      · rw [hE, if_neg (fun e => a ⟨e.1.symm, e.2.symm⟩), Nat.zero_add]

theorem TickSum.remove {c : Chain} {s s' : Store} {env : Env} {info : Info} {i : Nat} {out : List OutMsg}
    (hs : Struct s) (hi : PosInv s) (ht : TickSum s) (hw : i < U32)
    (h : removePosition c s env info i = .ok (s', out)) : TickSum s' := by
  obtain ⟨p, hpos', hperm⟩ := removePosition_sum hs hi hw h
  obtain ⟨pos, tl, tu, pool, r, sr, s1, s2, hpos, htl, htu, il, iu, hp, hm, _, _, jl, ju, _, _, hr, e1, e2, e3, e5, e6, e7,
      htk, _⟩ := removePosition_view hs h
  have hpe : p = pos := by rw [hpos] at hpos'; exact (Option.some.inj hpos').symm
  rw [hpe] at hperm
  have hok := hs.positions _ _ hpos
  have hk := hok.kwf
  have hl := hok.lower.i32
  have hu := hok.upper.i32
  have hlu : pos.lower ≠ pos.upper := by have := hok.lt; omega
  obtain ⟨q, d1, d2, _⟩ := Position.modify_inv hm
  obtain ⟨_, _, _, _, _, g1, n1, _⟩ := Tick.update_inv d1
  obtain ⟨_, _, _, _, _, g2, n2, _⟩ := Tick.update_inv d2
  simp only [Bool.false_eq_true, if_false] at g1 g2
  simp only [Bool.xor_false, Bool.false_eq_true, if_false] at n1
  simp only [Bool.xor_true, Bool.not_false, if_true] at n2
  have hS : ∀ k' i', liquidityStartingAt s k' i' =
      (if pos.poolKey = k' ∧ pos.lower = i' then pos.liquidity else 0) + liquidityStartingAt s' k' i' := by
    intro k' i'
    unfold liquidityStartingAt
    rw [sumPositions_cons hperm]
    by_cases e1 : pos.poolKey = k' <;> by_cases e2 : pos.lower = i' <;> simp [e1, e2]
  have hE : ∀ k' i', liquidityEndingAt s k' i' =
      (if pos.poolKey = k' ∧ pos.upper = i' then pos.liquidity else 0) + liquidityEndingAt s' k' i' := by
    intro k' i'
    unfold liquidityEndingAt
    rw [sumPositions_cons hperm]
    by_cases e1 : pos.poolKey = k' <;> by_cases e2 : pos.upper = i' <;> simp [e1, e2]
  intro k' i' hk' hi'
  have hval : tickVal s' k' i' = if k' = pos.poolKey ∧ i' = pos.upper then
        (if r.upper.gross = 0 then none else some (r.upper.gross, r.upper.net)) else
      if k' = pos.poolKey ∧ i' = pos.lower then
        (if r.lower.gross = 0 then none else some (r.lower.gross, r.lower.net)) else tickVal s k' i' := by
    unfold tickVal
    rw [htk]
    by_cases a : k' = pos.poolKey ∧ i' = pos.upper
    · obtain ⟨rfl, rfl⟩ := a
      by_cases z : r.upper.gross = 0 <;> simp [z]
    · have na : tickKey k' i' ≠ tickKey pos.poolKey pos.upper := fun e => a (tickKey_inj hk' hk hi' hu e)
      rw [if_neg a, if_neg na]
      by_cases b : k' = pos.poolKey ∧ i' = pos.lower
      · obtain ⟨rfl, rfl⟩ := b
        by_cases z : r.lower.gross = 0 <;> simp [z]
      · have nb : tickKey k' i' ≠ tickKey pos.poolKey pos.lower := fun e => b (tickKey_inj hk' hk hi' hl e)
        rw [if_neg b, if_neg nb]
  have hold := (ht k' i' hk' hi')
  have holde := hold.eq
  rw [hS, hE] at holde
  by_cases a : k' = pos.poolKey ∧ i' = pos.upper
  · obtain ⟨rfl, rfl⟩ := a
    rw [if_neg (fun e => hlu e.2), if_pos ⟨rfl, rfl⟩] at holde
    unfold tickVal at holde
    rw [htu] at holde
    rw [if_pos ⟨rfl, rfl⟩] at hval
    simp only [Option.map_some, Option.getD_some] at holde
    push_cast at holde
    unfold TickSumAt
    rw [hval]
    by_cases z : r.upper.gross = 0
    · rw [if_pos z]; simp only []; omega
    · rw [if_neg z]; simp only []; omega
  · rw [if_neg a] at hval
    by_cases b : k' = pos.poolKey ∧ i' = pos.lower
    · obtain ⟨rfl, rfl⟩ := b
      rw [if_pos ⟨rfl, rfl⟩, if_neg (fun e => hlu e.2.symm)] at holde
      unfold tickVal at holde
      rw [htl] at holde
      rw [if_pos ⟨rfl, rfl⟩] at hval
      simp only [Option.map_some, Option.getD_some] at holde
      push_cast at holde
      unfold TickSumAt
      rw [hval]
      by_cases z : r.lower.gross = 0
      · rw [if_pos z]; simp only []; omega
      · rw [if_neg z]; simp only []; omega
    · rw [if_neg b] at hval
      refine hold.congr hval ?_ ?_
      · rw [hS, if_neg (fun e => b ⟨e.1.symm, e.2.symm⟩), Nat.zero_add]
      · rw [hE, if_neg (fun e => a ⟨e.1.symm, e.2.symm⟩), Nat.zero_add]

theorem TickSum.claim {c : Chain} {s s' : Store} {env : Env} {info : Info} {i : Nat} {out : List OutMsg}
    (hs : Struct s) (ht : TickSum s) (h : claimFee c s env info i = .ok (s', out)) : TickSum s' := by
  obtain ⟨pos, tl, tu, pool, r, hpos, htl, htu, il, iu, hp, hm, _, _, _, _, _, hp', _, htk, _⟩ := claimFee_view hs h
  have hok := hs.positions _ _ hpos
  have hk := hok.kwf
  obtain ⟨q, d1, d2, d3, _⟩ := Position.modify_inv hm
  obtain ⟨_, _, _, _, _, g1, n1, _⟩ := Tick.update_inv d1
  obtain ⟨_, _, _, _, _, g2, n2, _⟩ := Tick.update_inv d2
  simp only [if_true] at g1 g2
  obtain ⟨ox, oy, l', _, _, _, w, _, _, e⟩ := Position.update_inv d3
  simp only [if_true, Nat.add_zero] at w
  intro k' i' hk' hi'
  refine (ht k' i' hk' hi').congr ?_ ?_ ?_
  · unfold tickVal
    rw [htk]
    split
    · rename_i e; rw [e, htl]
      simp only [Option.map_some, Option.some.injEq, Prod.mk.injEq]
      exact ⟨g1.1, by rw [n1]; split <;> simp⟩
    · split
      · rename_i e; rw [e, htu]
        simp only [Option.map_some, Option.some.injEq, Prod.mk.injEq]
        exact ⟨g2.1, by rw [n2]; split <;> simp⟩
      · rfl
  · exact sumPositions_edit hpos hp' _ _ (by rw [e]) (by rw [e, w.2])
  · exact sumPositions_edit hpos hp' _ _ (by rw [e]) (by rw [e, w.2])

theorem TickSum.micro {c : Chain} {s s' : Store} (hs : Struct s) (hi : PosInv s) (ht : TickSum s)
    (hm : Micro c s s') : TickSum s' := by
  have same : ∀ {s' : Store}, s'.ticks = s.ticks → s'.positions = s.positions → TickSum s' := by
    intro s' h1 h2 k i hk hi
    refine (ht k i hk hi).congr (by unfold tickVal; rw [h1]) ?_ ?_ <;> exact sumPositions_congr h2 _ _
  cases hm with
  | @config cfg cfg' hc hf ht => exact same rfl rfl
  | opers ops => exact same rfl rfl
  | @poolMeta k p rcv px py hk hp hx hy => exact same rfl rfl
  | @newPool _ env t0 t1 tier price tick out hw h =>
    obtain ⟨_, k', _, _, _, _, _, _, _, rfl, _⟩ := createPool_inv h
    exact same rfl rfl
  | @create _ env info k l u L lo hi' out hw h => exact TickSum.create hs hi ht hw h
  | @claim _ env info i out hw h => exact TickSum.claim hs ht h
  | @remove _ env info i out hw h => exact TickSum.remove hs hi ht hw h
  | @move s1 _ o r i p hw h1 h2 =>
    intro k i hk hi'
    refine (ht k i hk hi').congr ?_ ?_ ?_
    · obtain ⟨_, rfl⟩ := addPosition_ok.1 h2
      obtain ⟨_, _, rfl⟩ := removePositionAt_frame h1
      rfl
    · exact sumPositions_move hi hw h1 h2 _ _ rfl
    · exact sumPositions_move hi hw h1 h2 _ _ rfl
  | @appr id p a h =>
    intro k i hk hi'
    exact (ht k i hk hi').congr rfl (sumPositions_edit (s' := { s with positions := s.positions.insert id { p with approvals := a } })
      h rfl _ _ rfl rfl) (sumPositions_edit (s' := { s with positions := s.positions.insert id { p with approvals := a } })
      h rfl _ _ rfl rfl)
  | @swap info now k d amount b limit x hk ha hl h =>
    intro k i hk' hi'
    have hp : x.1.positions = s.positions := by
      obtain ⟨t, e1⟩ := swapInternal_frame h
      rw [e1]
    exact (ht k i hk' hi').congr (tickVal_core (swapInternal_core hs hk h _)) (sumPositions_congr hp _ _)
      (sumPositions_congr hp _ _)

theorem MReach.tickSum {c : Chain} {s : Store} (h : MReach c s) : TickSum s := by
  induction h with
  | init sender fee _ =>
    intro k i _ _
    show (0 = 0 ∧ 0 = 0)
    exact ⟨rfl, rfl⟩
  | step hr hm ih => exact TickSum.micro hr.struct hr.posInv ih hm

theorem usedTick_iff {s : Store} (hs : Struct s) {k : PoolKey} {i : Int} :
    UsedTick s k i ↔ liquidityStartingAt s k i + liquidityEndingAt s k i ≠ 0 := by
  unfold UsedTick liquidityStartingAt liquidityEndingAt sumPositions
  have hpos : ∀ p ∈ positionsOf s k, 0 < p.liquidity := by
    intro p hp
    unfold positionsOf at hp
    obtain ⟨key, hk⟩ := (mem_vals _ _).1 (List.mem_filter.1 hp).1
    exact (hs.positions key p hk).liq
  revert hpos
  induction positionsOf s k with
  | nil => simp
  | cons p l ih =>
    intro hpos
    have ih := ih (fun q hq => hpos q (by simp [hq]))
    have hp := hpos p (by simp)
    simp only [List.mem_cons, exists_eq_or_imp, List.map_cons, List.sum_cons]
    refine (or_congr Iff.rfl ih).trans ?_
    by_cases a : p.lower = i <;> by_cases b : p.upper = i <;> simp only [a, b, if_true, if_false] <;> simp <;> omega

end OraiV3
