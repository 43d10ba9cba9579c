import Verif.Lemmas.Page
import Verif.Lemmas.Struct
import Verif.Lemmas.PosInv
import Verif.Props.Keys
import Verif.Props.Cap
import Verif.Props.Ticks
import Verif.Examples

/-!
# C31, C44, C45: listings

C31 is false as stated: the listing of positions takes any limit, although meant to return at most 100 entries
(`C31_false_cap`), fails for offsets close to 2^32 (`C31_false_offset`), and the listing of an account's tokens starts at the
entry it should start after (`C31_false_tokens`).  What each listing does return is `C31_positions`, `C31_tokens`, `C31_pools`,
`C31_all_tokens` and `C44_operators`; paging through the pools, `C31_pools_paging`.
-/

namespace OraiV3

/-- `page` consists of the first `n` (or fewer, if there are no more) of the entries after `start`, in the order of the keys. -/
structure PageOf {V : Type} (stored : Bytes → V → Prop) (start : Option Bytes) (n : Nat) (page : List (Bytes × V)) : Prop where
  short : page.length ≤ n
  ordered : page.Pairwise (fun a b => bytesLt a.1 b.1 = true)
  sound : ∀ e ∈ page, stored e.1 e.2 ∧ ∀ st, start = some st → bytesLt st e.1 = true
  complete : ∀ k v, stored k v → (∀ st, start = some st → bytesLt st k = true) →
    (k, v) ∈ page ∨ (page.length = n ∧ ∀ e ∈ page, bytesLt e.1 k = true)

theorem pageOf_take {V : Type} {all : List (Bytes × V)} (h : KSorted all) {stored : Bytes → V → Prop}
    (hst : ∀ k v, (k, v) ∈ all ↔ stored k v) (start : Option Bytes) (n : Nat) :
    PageOf stored start n ((after all start).take n) := by
  have hs := after_sorted h start
  refine ⟨List.length_take_le _ _, List.Pairwise.sublist (List.take_sublist _ _) hs, fun e he => ?_, fun k v hk hks => ?_⟩
  · have := mem_after.1 ((List.take_sublist _ _).subset he)
    exact ⟨(hst _ _).1 this.1, this.2⟩
  · have hin : (k, v) ∈ after all start := mem_after.2 ⟨(hst _ _).2 hk, hks⟩
    rw [← List.take_append_drop n (after all start)] at hin
    rcases List.mem_append.1 hin with h1 | h1
    · exact .inl h1
    · refine .inr ⟨?_, fun e he => ?_⟩
      · have : n < (after all start).length := by
          by_contra hc
          rw [List.drop_eq_nil_of_le (by omega)] at h1
          simp at h1
        rw [List.length_take]
        omega
      · unfold KSorted at hs
        rw [← List.take_append_drop n (after all start), List.pairwise_append] at hs
        exact hs.2.2 e he _ h1

/-! ## Positions -/

/-- **C31.** The positions of an account: entries `offset … offset + limit - 1` of its list. -/
theorem C31_positions {c : Chain} {s : Store} (hr : Reach c s) (owner : Bytes) (limit offset : Option Nat)
    (h : offset.getD 0 + limit.getD 100 < 2 ^ 32) :
    ∃ l, queryPositions s owner limit offset = .ok l ∧
      l.map some = ((positionList s owner).drop (offset.getD 0)).take (limit.getD 100) := by
  have hp := hr.mreach.posInv
  unfold queryPositions pageBounds
  have h' : offset.getD 0 + limit.getD MAX_LIMIT < U32 := h
  rw [if_pos h', ok_bind]
  unfold positionList
  rw [drop_take_range]
  refine mapM_ok_map (fun i hi => ?_)
  have hlt : i < getPositionLength s owner := by
    unfold rangeList at hi
    simp only [List.mem_map, List.mem_range] at hi
    obtain ⟨j, hj, rfl⟩ := hi
    omega
  obtain ⟨p, hpos⟩ := (hp.iff owner i (Nat.lt_trans hlt (hp.len owner))).2 hlt
  refine ⟨p, ?_, hpos.symm⟩
  unfold getPosition getPositionByKey
  rw [hpos]

/-- **C31.** The token ids of an account: those of entries `start … start + limit - 1` of its list. -/
theorem C31_tokens {s : Store} (owner : Bytes) (start limit : Option Nat) (h : start.getD 0 + limit.getD 100 < 2 ^ 32) :
    queryTokens s owner start limit =
      .ok ((((List.range (getPositionLength s owner)).map (fun i => positionKey owner i)).drop (start.getD 0)).take
        (limit.getD 100)) := by
  unfold queryTokens pageBounds
  have h' : start.getD 0 + limit.getD MAX_LIMIT < U32 := h
  rw [if_pos h', ok_bind, drop_take_range]
  rfl

/-! ## Pools -/

theorem pools_decode {c : Chain} {s : Store} (hr : Reach c s) (start : Option Bytes) (n : Nat) :
    ∀ e ∈ (s.pools.rangeAfter start).take n, ∃ k : PoolKey, PoolKey.fromBytes e.1 = .ok k ∧ k.key = e.1 ∧ k.wf := by
  intro e he
  have h1 := (List.take_sublist _ _).subset he
  rw [rangeAfter_eq] at h1
  have h2 := (mem_after.1 h1).1
  obtain ⟨k, h3, h4, _⟩ := hr.mreach.struct.pools e.1 e.2 ((KV.mem_entries_iff _ _ _).1 h2)
  exact ⟨k, by rw [h3]; exact C21_pool_key_roundtrip h4, h3.symm, h4⟩

/-- **C31.** The pools query never fails and returns the page after the given pool. -/
theorem C31_pools {c : Chain} {s : Store} (hr : Reach c s) (limit : Option Nat) (start : Option PoolKey) :
    ∃ l, queryPools s limit start = .ok l ∧ (∀ e ∈ l, e.1.wf) ∧
      PageOf (fun k p => s.pools.get? k = some p) (start.map PoolKey.key) (min (limit.getD 100) 100)
        (l.map fun e => (e.1.key, e.2)) := by
  obtain ⟨l, h1, h2, h3⟩ := mapM_decode _ (pools_decode hr (start.map PoolKey.key) (min (limit.getD MAX_LIMIT) MAX_LIMIT))
  refine ⟨l, h1, h3, ?_⟩
  rw [h2, rangeAfter_eq]
  exact pageOf_take s.pools.sorted (fun k v => KV.mem_entries_iff _ _ _) _ _

/-- Reading page after page, each starting after the last pool of the one before, until a page is empty. -/
def readPools (s : Store) (limit : Option Nat) : Nat → Option PoolKey → M (List (PoolKey × Pool))
  | 0, _ => .ok []
  | n + 1, start => do
    let page ← queryPools s limit start
    match page.getLast? with
    | none => pure []
    | some e => do
      let rest ← readPools s limit n (some e.1)
      pure (page ++ rest)

theorem readPools_spec {c : Chain} {s : Store} (hr : Reach c s) {limit : Option Nat} (hl : limit ≠ some 0) :
    ∀ (n : Nat) (start : Option PoolKey), (after s.pools.entries (start.map PoolKey.key)).length < n →
    ∃ l, readPools s limit n start = .ok l ∧ (∀ e ∈ l, e.1.wf) ∧
      l.map (fun e => (e.1.key, e.2)) = after s.pools.entries (start.map PoolKey.key)
  | 0, _, h => absurd h (Nat.not_lt_zero _)
  | n + 1, start, h => by
    obtain ⟨l, h1, h2, h3⟩ := mapM_decode _ (pools_decode hr (start.map PoolKey.key) (min (limit.getD MAX_LIMIT) MAX_LIMIT))
    have h1' : queryPools s limit start = .ok l := h1
    rw [rangeAfter_eq] at h2
    generalize hA : after s.pools.entries (start.map PoolKey.key) = A at h h2
    have hm : 0 < min (limit.getD MAX_LIMIT) MAX_LIMIT := by
      cases limit with
      | none => decide
      | some m =>
        have : m ≠ 0 := fun e => hl (by rw [e])
        have : MAX_LIMIT = 100 := rfl
        simp only [Option.getD_some]
        omega
    generalize hmm : min (limit.getD MAX_LIMIT) MAX_LIMIT = m at h2 hm
    unfold readPools
    rw [h1', ok_bind]
    cases hlast : l.getLast? with
    | none =>
      rw [List.getLast?_eq_none_iff] at hlast
      refine ⟨[], rfl, by simp, ?_⟩
      rw [hlast] at h2
      simp only [List.map_nil] at h2 ⊢
      cases A with
      | nil => rfl
      | cons a A =>
        obtain ⟨m', rfl⟩ : ∃ m', m = m' + 1 := ⟨m - 1, by omega⟩
        simp at h2
    | some e =>
      have hsplit : after s.pools.entries (start.map PoolKey.key) = l.map (fun e => (e.1.key, e.2)) ++ A.drop m := by
        rw [h2, hA, List.take_append_drop]
      have hlast' : (l.map (fun e => (e.1.key, e.2))).getLast? = some (e.1.key, e.2) := by
        rw [List.getLast?_map, hlast]; rfl
      have hrest := after_split s.pools.sorted hsplit hlast'
      have hlen : (A.drop m).length < n := by
        rw [List.length_drop]
        have : 0 < A.length := by
          have : l ≠ [] := by rintro rfl; simp at hlast
          have h5 : 0 < l.length := List.length_pos_iff.2 this
          have h6 := congrArg List.length h2
          rw [List.length_map, List.length_take] at h6
          omega
        omega
      obtain ⟨l2, h4, h5, h6⟩ := readPools_spec hr hl n (some e.1) (by
        show (after s.pools.entries (some e.1.key)).length < n
        rw [hrest]; exact hlen)
      simp only
      rw [h4, ok_bind]
      refine ⟨l ++ l2, rfl, fun x hx => ?_, ?_⟩
      · rcases List.mem_append.1 hx with hx | hx
        · exact h3 x hx
        · exact h5 x hx
      · rw [List.map_append, h6, h2]
        show A.take m ++ after s.pools.entries (some e.1.key) = A
        rw [hrest, List.take_append_drop]

/-- **C31.** Reading the pools page by page, with any limit but zero, ends after at most one page per pool and gives every pool
exactly once, in the order of the keys. -/
theorem C31_pools_paging {c : Chain} {s : Store} (hr : Reach c s) {limit : Option Nat} (hl : limit ≠ some 0) {n : Nat}
    (hn : s.pools.entries.length < n) :
    ∃ l, readPools s limit n none = .ok l ∧ l.Pairwise (fun a b => bytesLt a.1.key b.1.key = true) ∧
      ∀ k p, k.wf → ((k, p) ∈ l ↔ s.pools.get? k.key = some p) := by
  obtain ⟨l, h1, h2, h3⟩ := readPools_spec hr hl n none hn
  refine ⟨l, h1, ?_, fun k p hk => ?_⟩
  · have := s.pools.sorted
    change l.map _ = s.pools.entries at h3
    rw [← h3] at this
    unfold KSorted at this
    rw [List.pairwise_map] at this
    exact this
  · rw [← KV.mem_entries_iff]
    change l.map _ = s.pools.entries at h3
    rw [← h3, List.mem_map]
    constructor
    · intro h; exact ⟨_, h, rfl⟩
    · rintro ⟨e, he, heq⟩
      rw [Prod.mk.injEq] at heq
      have := PoolKey.key_inj (h2 e he) hk heq.1
      rw [← this, ← heq.2]
      exact he

/-! ## Tokens of the whole contract -/

/-- **C31.** The listing of all tokens returns the page of token ids after the given one. -/
theorem C31_all_tokens (s : Store) (start : Option Bytes) (limit : Option Nat) :
    ∃ page : List (Bytes × Position), queryAllTokens s start limit = page.map (·.1) ∧
      PageOf (fun k p => s.positions.get? k = some p) start (min (limit.getD 100) 100) page := by
  refine ⟨(after s.positions.entries start).take (min (limit.getD 100) 100), ?_, ?_⟩
  · unfold queryAllTokens
    rw [rangeAfter_eq]
  · exact pageOf_take s.positions.sorted (fun k v => KV.mem_entries_iff _ _ _) _ _

/-! ## Operators (C44) -/

theorem isPrefixOf_iff {a b : Bytes} : a.isPrefixOf b = true ↔ ∃ x, b = a ++ x := by
  rw [List.isPrefixOf_iff_prefix]
  constructor
  · rintro ⟨x, h⟩; exact ⟨x, h.symm⟩
  · rintro ⟨x, h⟩; exact ⟨x, h.symm⟩

theorem bytesLt_append (a x y : Bytes) : bytesLt (a ++ x) (a ++ y) = bytesLt x y := by
  induction a with
  | nil => rfl
  | cons b a ih => simp [bytesLt, ih]

/-- **C44.** The operators query of an owner returns the page, after the given address, of the operators recorded for that owner
which have not expired (or of all, if asked). -/
theorem C44_operators (s : Store) (env : Env) (owner : Bytes) (includeExpired : Bool) (start : Option Bytes) (limit : Option Nat) :
    PageOf (fun who ex => s.operators.get? (operatorKey owner who) = some ex ∧ (includeExpired = true ∨ ex.ValidAt env))
      start (min (limit.getD 100) 100) (queryAllApprovals s env owner includeExpired start limit) := by
  generalize hl : (s.operators.entries.filterMap fun e : Bytes × Expiration =>
    if (lenPrefixed owner).isPrefixOf e.1 then some (e.1.drop (lenPrefixed owner).length, e.2) else none) = l
  have hmem : ∀ k v, (k, v) ∈ l ↔ s.operators.get? (operatorKey owner k) = some v := by
    intro k v
    rw [← hl, ← KV.mem_entries_iff, List.mem_filterMap]
    constructor
    · rintro ⟨e, he, h⟩
      split at h
      · rename_i hp
        obtain ⟨x, hx⟩ := isPrefixOf_iff.1 hp
        rw [Option.some.injEq, Prod.mk.injEq, hx, List.drop_left] at h
        unfold operatorKey
        rw [← h.1, ← hx, ← h.2]
        exact he
      · cases h
    · intro h
      refine ⟨_, h, ?_⟩
      have : (lenPrefixed owner).isPrefixOf (operatorKey owner k) = true := isPrefixOf_iff.2 ⟨k, rfl⟩
      simp only [this, if_true]
      unfold operatorKey
      rw [List.drop_left]
  have hsort : KSorted l := by
    rw [← hl]
    unfold KSorted
    rw [List.pairwise_filterMap]
    have hso := s.operators.sorted
    unfold KSorted at hso
    refine hso.imp ?_
    intro a b hab x hx y hy
    split at hx
    · split at hy
      · rename_i h1 h2
        obtain ⟨u, hu⟩ := isPrefixOf_iff.1 h1
        obtain ⟨w, hw⟩ := isPrefixOf_iff.1 h2
        rw [Option.some.injEq] at hx hy
        rw [← hx, ← hy]
        simp only
        rw [hu, hw, bytesLt_append] at hab
        rw [hu, hw, List.drop_left, List.drop_left]
        exact hab
      · cases hy
    · cases hx
  have hs2 : KSorted (l.filter (fun e => includeExpired || !e.2.isExpired env)) :=
    List.Pairwise.sublist List.filter_sublist hsort
  have key := pageOf_take hs2 (stored := fun who ex => s.operators.get? (operatorKey owner who) = some ex ∧
      (includeExpired = true ∨ ex.ValidAt env)) (fun k v => by
    rw [List.mem_filter, hmem, ← valid_iff]
    simp) start (min (limit.getD 100) 100)
  have e : queryAllApprovals s env owner includeExpired start limit =
      (after (l.filter (fun e => includeExpired || !e.2.isExpired env)) start).take (min (limit.getD 100) 100) := by
    unfold queryAllApprovals operatorsAfter
    rw [hl]
    cases start with
    | none => rfl
    | some st =>
      simp only [after, List.filter_filter]
      congr 2
      funext x
      rw [Bool.and_comm]
  rw [e]
  exact key

/-! ## Ticks of an account's positions (C45) -/

/-- What the query shows of a tick. -/
def tickInfo (s : Store) (k : PoolKey) (i : Int) : Option PositionTick :=
  match getTick s k i with
  | .ok t => some ⟨t.index, t.outX, t.outY, t.secondsOutside⟩
  | .error _ => none

/-- The two entries of position number `i`. -/
def rangeInfo (s : Store) (p : Option Position) : List (Option PositionTick) :=
  match p with
  | some p => [tickInfo s p.poolKey p.lower, tickInfo s p.poolKey p.upper]
  | none => [none, none]

theorem positionTicksOf_spec {c : Chain} {s : Store} (hr : Reach c s) {owner : Bytes} {i : Nat} (hi : i < getPositionLength s owner) :
    (positionTicksOf s owner i).length = 2 ∧
    (positionTicksOf s owner i).map some = rangeInfo s (s.positions.get? (positionKey owner i)) := by
  have hp := hr.mreach.posInv
  obtain ⟨p, hpos⟩ := (hp.iff owner i (Nat.lt_trans hi (hp.len owner))).2 hi
  have hok := hr.mreach.struct.positions _ _ hpos
  have used : ∀ j, j = p.lower ∨ j = p.upper → i32 j → ∃ t, s.ticks.get? (tickKey p.poolKey j) = some t := by
    intro j hj hj32
    obtain ⟨t, ht⟩ := (C02_ticks_are_the_positions hr hok.kwf hj32).1.2 ⟨p, by
      unfold positionsOf
      rw [List.mem_filter]
      exact ⟨(mem_vals _ _).2 ⟨_, hpos⟩, by simp⟩, by rcases hj with h | h <;> simp [h]⟩
    unfold getTick at ht
    split at ht
    · rename_i t' h; exact ⟨t', h⟩
    · cases ht
  obtain ⟨t, ht⟩ := used p.lower (.inl rfl) hok.lower.i32
  obtain ⟨u, hu⟩ := used p.upper (.inr rfl) hok.upper.i32
  have e : positionTicksOf s owner i =
      [⟨t.index, t.outX, t.outY, t.secondsOutside⟩, ⟨u.index, u.outX, u.outY, u.secondsOutside⟩] := by
    unfold positionTicksOf getPosition getPositionByKey
    rw [hpos]
    simp [ht, hu]
  rw [e, hpos]
  refine ⟨rfl, ?_⟩
  simp [rangeInfo, tickInfo, getTick, ht, hu]

theorem positionTicksLoop_spec {c : Chain} {s : Store} (hr : Reach c s) {owner : Bytes} : ∀ (is : List Nat) (acc : List PositionTick)
    (m : Nat), (∀ i ∈ is, i < getPositionLength s owner) → acc.length = 2 * m → m < 186 →
    (positionTicksLoop s owner is acc).map some =
      acc.map some ++ (is.take (186 - m)).flatMap (fun i => rangeInfo s (s.positions.get? (positionKey owner i)))
  | [], acc, m, _, _, _ => by simp [positionTicksLoop]
  | i :: is, acc, m, hi, hlen, hm => by
    obtain ⟨h1, h2⟩ := positionTicksOf_spec hr (hi i (by simp))
    obtain ⟨r, hr'⟩ : ∃ r, 186 - m = r + 1 := ⟨185 - m, by omega⟩
    have hL : POSITION_TICK_LIMIT = 372 := rfl
    simp only [positionTicksLoop]
    rw [List.length_append, h1, hlen, hL, hr', List.take_succ_cons, List.flatMap_cons, ← h2]
    split
    · have : r = 0 := by omega
      subst this
      simp
    · rw [positionTicksLoop_spec hr is _ (m + 1) (fun i h => hi i (by simp [h])) (by rw [List.length_append, h1, hlen]; omega)
        (by omega)]
      have : 186 - (m + 1) = r := by omega
      rw [this, List.map_append, List.append_assoc]

/-- **C45.** The query for the ticks of an account's positions, from entry `offset` of its list on, returns the lower and the upper
tick of every position, for the first 186 of them, exactly as stored. -/
theorem C45_position_ticks {c : Chain} {s : Store} (hr : Reach c s) {owner : Bytes} {offset : Nat}
    (h : offset ≤ getPositionLength s owner) :
    ∃ l, queryPositionTicks s owner offset = .ok l ∧
      l.map some = (((positionList s owner).drop offset).take 186).flatMap (rangeInfo s) := by
  unfold queryPositionTicks
  rw [if_neg (by omega)]
  refine ⟨_, rfl, ?_⟩
  rw [positionTicksLoop_spec hr _ [] 0 (fun i hi => ?_) rfl (by omega)]
  · unfold positionList
    have e : (rangeList offset (getPositionLength s owner)).map (fun i => s.positions.get? (positionKey owner i)) =
        (((List.range (getPositionLength s owner)).map fun i => s.positions.get? (positionKey owner i)).drop offset) := by
      have := drop_take_range (fun i => s.positions.get? (positionKey owner i)) (getPositionLength s owner) offset
        (getPositionLength s owner)
      rw [Nat.min_eq_left (by omega)] at this
      rw [← this, List.take_of_length_le]
      simp
    rw [← e, ← List.map_take, List.flatMap_map]
    rfl
  · unfold rangeList at hi
    simp only [List.mem_map, List.mem_range] at hi
    obtain ⟨j, hj, rfl⟩ := hi
    omega

/-! ## Where the listings do not do what they should -/

namespace Demo

/-- Alice opens 101 positions. -/
def hundredOne : List (Info × Msg) := (setup.take 2) ++
  List.replicate 101 (by_ alice, .createPosition key (-10) 10 (10 ^ 9) 0 (10 ^ 30))

/-- Alice has one position. -/
theorem setup_works : works chain setup = true := by decide +kernel

theorem hundredOne_works : works chain hundredOne = true := by decide +kernel

end Demo

/-- **C31** is false: a page of positions can have more than the 100 entries meant to be the maximum. -/
theorem C31_false_cap : ¬ ∀ (c : Chain) (s : Store), Reach c s → ∀ owner limit offset l,
    queryPositions s owner limit offset = .ok l → l.length ≤ 100 := by
  intro h
  obtain ⟨l, h1, h2⟩ := C31_positions (Demo.state_reach Demo.hundredOne_works) Demo.alice (some 101) none (by decide)
  have h3 := h _ _ (Demo.state_reach Demo.hundredOne_works) _ _ _ l h1
  have h4 : getPositionLength (Demo.state Demo.chain Demo.hundredOne) Demo.alice = 101 := by decide +kernel
  have h5 := congrArg List.length h2
  simp [positionList, h4] at h5
  omega

/-- **C31** is false: past the end of the list the positions query fails for some offsets instead of returning an empty page. -/
theorem C31_false_offset : ¬ ∀ (c : Chain) (s : Store), Reach c s → ∀ owner offset, offset < 2 ^ 32 →
    ∃ l, queryPositions s owner none (some offset) = .ok l := by
  intro h
  obtain ⟨l, h1⟩ := h _ _ (Demo.state_reach Demo.setup_works) Demo.alice (2 ^ 32 - 1) (by decide)
  cases h1

/-- **C31** is false: the listing of an account's tokens returns the entry it is asked to start after, so that reading on after the last
entry gives that entry again. -/
theorem C31_false_tokens : ¬ ∀ (c : Chain) (s : Store), Reach c s → ∀ owner i l,
    queryTokens s owner (some i) none = .ok l → positionKey owner i ∉ l := by
  intro h
  have h1 := C31_tokens (s := Demo.state Demo.chain Demo.setup) Demo.alice (some 0) none (by decide)
  refine h _ _ (Demo.state_reach Demo.setup_works) _ _ _ h1 ?_
  have h2 : getPositionLength (Demo.state Demo.chain Demo.setup) Demo.alice = 1 := by decide +kernel
  rw [h2]
  decide

/-! Two pools, an operator. -/

namespace Demo

def listed : List (Info × Msg) := setup ++
  [(by_ alice, .addFeeTier ⟨10 ^ 9, 1⟩),
   (by_ bob, .createPool [98] [97] ⟨10 ^ 9, 1⟩ (10 ^ 24) 0),
   (by_ alice, .approveAll bob (some (.atHeight 5))),
   (by_ alice, .approveAll carol none)]

example : works chain listed = true := by decide +kernel
example : let s := state chain listed
    (readPools s (some 1) 3 none).toOption.map (fun l => l.map (·.1.tier)) = some [⟨10 ^ 9, 1⟩, ⟨10 ^ 10, 10⟩] ∧
    queryAllApprovals s env alice false none none = [(bob, .atHeight 5), (carol, .never)] ∧
    queryAllApprovals s ⟨6, 10 ^ 18⟩ alice false none none = [(carol, .never)] ∧
    queryAllApprovals s ⟨6, 10 ^ 18⟩ alice true (some bob) none = [(carol, .never)] ∧
    (queryPositionTicks s alice 0).toOption.map (fun l => l.map (·.index)) = some [-10, 10] := by decide +kernel

end Demo

end OraiV3
