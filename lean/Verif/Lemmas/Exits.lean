import Verif.ExitSpec
import Verif.Lemmas.Commute
import Verif.Lemmas.Payout
import Verif.Props.Permit

/-!
# Withdrawals and claims of different accounts
-/

namespace OraiV3

/-- The pool after a withdrawal or a claim. -/
def exitPool (whole : Bool) (q : Position) (now : Nat) (p : Pool) : Pool :=
  { p with
    lastTs := now
    liquidity := if whole = true ∧ q.lower ≤ p.tick ∧ p.tick < q.upper then p.liquidity - q.liquidity else p.liquidity }

/-- The position after a claim. -/
def claimedPos (m : KV Tick) (p : Pool) (q : Position) : Position :=
  { q with
    fgInX := growthInside m q.poolKey p true q.lower q.upper
    fgInY := growthInside m q.poolKey p false q.lower q.upper
    owedX := 0
    owedY := 0 }

/-- The list of an account after it has closed or changed its `i`-th position. -/
def exitList (whole : Bool) (i : Nat) (q : Position) (l : List (Option Position)) : List (Option Position) :=
  if whole then swapRemove l i else l.set i (some q)

/-- A key under which a chunk of the bitmap is stored. -/
def ChunkKey (key : Bytes) : Prop :=
  ∃ (k : PoolKey) (c : Nat), k.wf ∧ 1 ≤ k.tier.spacing ∧ k.tier.spacing ≤ 100 ∧ c < 2 ^ 16 ∧ key = bitmapKey c k

structure Exit (c : Chain) (s s' : Store) (env : Env) (info : Info) (whole : Bool) (i : Nat) (out : List OutMsg) (q : Position)
    (p : Pool) : Prop where
  held : (positionList s info.sender)[i]? = some (some q)
  kwf : q.poolKey.wf
  lower : i32 q.lower
  upper : i32 q.upper
  pool : s.pools.get? q.poolKey.key = some p
  covered : whole = true → q.lower ≤ p.tick → p.tick < q.upper → q.liquidity ≤ p.liquidity
  tickL : ∃ t, s.ticks.get? (tickKey q.poolKey q.lower) = some t
  tickU : ∃ t, s.ticks.get? (tickKey q.poolKey q.upper) = some t
  pools : s'.pools = s.pools.insert q.poolKey.key (exitPool whole q env.millis p)
  lists : ∀ o, positionList s' o =
    if o = info.sender then exitList whole i (claimedPos s.ticks p q) (positionList s o) else positionList s o
  config : s'.config = s.config
  operators : s'.operators = s.operators
  ticks : ∀ key t', s'.ticks.get? key = some t' → ∃ t, s.ticks.get? key = some t ∧ t'.fixed = t.fixed
  bitmap : ∀ key, ChunkKey key ∨ (s'.bitmap.get? key).getD 0 = (s.bitmap.get? key).getD 0
  paid : ∃ a : Nat × Nat × Bool,
    (whole = true → calculateAmountDelta p.tick p.sqrtPrice q.liquidity false q.upper q.lower = .ok a) ∧
    (whole = false → a = (0, 0, false)) ∧
    a.1 + accruedIn s.ticks p true q / 10 ^ 34 < U128 ∧ a.2.1 + accruedIn s.ticks p false q / 10 ^ 34 < U128 ∧
    out = assetTransfer c q.poolKey.tokenX (a.1 + accruedIn s.ticks p true q / 10 ^ 34) info ++
      assetTransfer c q.poolKey.tokenY (a.2.1 + accruedIn s.ticks p false q / 10 ^ 34) info

theorem edit_list {s s' : Store} (hi : PosInv s) {o : Bytes} {i : Nat} {p p' : Position} (hU : i < U32)
    (hp : s.positions.get? (positionKey o i) = some p) (h1 : s'.positions = s.positions.insert (positionKey o i) p')
    (h2 : s'.posLen = s.posLen) (o' : Bytes) :
    positionList s' o' = if o' = o then (positionList s o').set i (some p') else positionList s o' := by
  have hil := (hi.iff o i hU).1 ⟨p, hp⟩
  apply List.ext_getElem?
  intro j
  have hl : getPositionLength s' o' = getPositionLength s o' := by unfold getPositionLength; rw [h2]
  have hU' := hi.len o'
  rw [positionList_getElem?, hl, h1, KV.get?_insert]
  by_cases e : o' = o
  · subst e
    rw [if_pos rfl, List.getElem?_set, positionList_getElem?, positionList_length]
    by_cases hj : j < getPositionLength s o'
    · rw [if_pos hj]
      by_cases e : i = j
      · subst e; simp [hil]
      · rw [if_neg e, if_neg, if_pos hj]
        intro e'; exact e (positionKey_inj (by omega) hU e').2.symm
    · rw [if_neg hj, if_neg (by omega), if_neg hj]
  · rw [if_neg e, positionList_getElem?]
    by_cases hj : j < getPositionLength s o'
    · rw [if_pos hj, if_pos hj, if_neg]
      intro e'; exact e (positionKey_inj (by omega) hU e').1
    · rw [if_neg hj, if_neg hj]

/-- The positions are determined by the numbered lists. -/
theorem positions_of_lists {s s' : Store} (hi : PosInv s) (hi' : PosInv s') (h : ∀ o, positionList s' o = positionList s o) :
    s'.positions = s.positions ∧ ∀ o, getPositionLength s' o = getPositionLength s o := by
  have hl : ∀ o, getPositionLength s' o = getPositionLength s o := by
    intro o
    rw [← positionList_length, ← positionList_length, h]
  refine ⟨KV.ext_get? fun id => ?_, hl⟩
  have key : ∀ o i, i < U32 → s'.positions.get? (positionKey o i) = s.positions.get? (positionKey o i) := by
    intro o i hU
    by_cases hlt : i < getPositionLength s o
    · have := congrArg (fun l => l[i]?) (h o)
      rw [positionList_getElem?, positionList_getElem?, hl, if_pos hlt, if_pos hlt, Option.some.injEq] at this
      exact this
    · have n1 : s.positions.get? (positionKey o i) = none := by
        cases e : s.positions.get? (positionKey o i) with
        | none => rfl
        | some p => exact absurd ((hi.iff o i hU).1 ⟨p, e⟩) hlt
      have n2 : s'.positions.get? (positionKey o i) = none := by
        cases e : s'.positions.get? (positionKey o i) with
        | none => rfl
        | some p => exact absurd ((hi'.iff o i hU).1 ⟨p, e⟩) (by rw [hl]; exact hlt)
      rw [n1, n2]
  cases e : s.positions.get? id with
  | some p =>
    obtain ⟨o, i, rfl, hU⟩ := hi.key _ _ e
    rw [key o i hU, e]
  | none =>
    cases e' : s'.positions.get? id with
    | none => rfl
    | some p =>
      obtain ⟨o, i, rfl, hU⟩ := hi'.key _ _ e'
      rw [key o i hU, e] at e'
      cases e'

theorem chunkKey_of {k : PoolKey} (hk : k.wf) (hv : k.tier.Valid) {i : Int} {c : Nat × Nat}
    (h : tickToPosition i k.tier.spacing = .ok c) : ChunkKey (bitmapKey c.1 k) := by
  obtain ⟨h0, -, h1, h2, rfl⟩ := tickToPosition_inv h
  have hs := halfTicks_spec h0
  have hle : halfTicks k.tier.spacing ≤ 221818 := Nat.le_trans (Nat.le_mul_of_pos_right _ h0) hs.1
  refine ⟨k, _, hk, hv.1, hv.2.1, ?_, rfl⟩
  have : bitOfTick k.tier.spacing i ≤ 443636 := by unfold bitOfTick; omega
  simp only
  omega

/-- The bitmap is determined by the stored ticks. -/
theorem chunks_of_ticks {s s' : Store} (hb : BitInv s) (hb' : BitInv s')
    (h : ∀ key, (s'.ticks.get? key).isSome = (s.ticks.get? key).isSome) {key : Bytes} (hc : ChunkKey key) :
    (s'.bitmap.get? key).getD 0 = (s.bitmap.get? key).getD 0 := by
  obtain ⟨k, c, hk, h1, h2, h3, rfl⟩ := hc
  change getChunk s' k c = getChunk s k c
  apply Nat.eq_of_testBit_eq
  intro j
  by_cases hj : j < 64
  · have e := hb.bit k (c * 64 + j) hk h1 h2 (by omega)
    have e' := hb'.bit k (c * 64 + j) hk h1 h2 (by omega)
    rw [h, ← e] at e'
    unfold bitOf at e'
    rw [show (c * 64 + j) / 64 = c by omega, show (c * 64 + j) % 64 = j by omega] at e'
    exact e'
  · have b1 := hb.chunk k c
    have b2 := hb'.chunk k c
    have hp : 2 ^ 64 ≤ 2 ^ j := Nat.pow_le_pow_right (by decide) (by omega)
    rw [Nat.testBit_lt_two_pow (Nat.lt_of_lt_of_le b1 hp), Nat.testBit_lt_two_pow (Nat.lt_of_lt_of_le b2 hp)]

theorem accrued_in {s : Store} {q : Position} {p : Pool} (hp : s.pools.get? q.poolKey.key = some p) (x : Bool) :
    accrued s x q = accruedIn s.ticks p x q := by
  unfold accrued
  rw [hp]

theorem exit_facts {c : Chain} {s s' : Store} {env : Env} {info : Info} {whole : Bool} {i : Nat} {out : List OutMsg} (hr : Reach c s)
    (h : execute c env info (exitMsg whole i) s = .ok (s', out)) : ∃ q p, Exit c s s' env info whole i out q p := by
  have hm := hr.mreach
  have hs := hm.struct
  cases whole with
  | true =>
    change execute c env info (.removePosition i) s = .ok (s', out) at h
    obtain ⟨hi, h⟩ := execute_ok.1 h
    change i < U32 at hi
    change removePosition c s env info i = .ok (s', out) at h
    obtain ⟨q, tl, tu, p, r, sr, s1, s2, hpos, htl, htu, il, iu, hp, hmod, x1, x2, jl, ju, S1, S2, R, c1, o1, B, e1, e2, e3, e4, ho⟩ :=
      removePosition_view hs h
    have hok := hs.positions _ _ hpos
    obtain ⟨o2, o3, -⟩ := modify_owed hok htl htu il iu hp hmod
    obtain ⟨q', d1, d2, d3, d4, d5, d6, d7⟩ := Position.modify_inv hmod
    obtain ⟨a, liq, b1, b2, b3⟩ := Pool.updateLiquidity_inv d4
    have f1 := Tick.update_inv d1
    have f2 := Tick.update_inv d2
    rw [jl, ju] at b1
    simp only at b1
    have hin := amountDelta_inside b1
    obtain ⟨hl, hl'⟩ := removePositionAt_list hm.posInv hi R
    have hv := hs.tier hok.kwf hp
    have fixL : r.lower.fixed = tl.fixed := by unfold Tick.fixed; rw [f1.1, f1.2.1, f1.2.2.1, f1.2.2.2.1, f1.2.2.2.2.1]
    have fixU : r.upper.fixed = tu.fixed := by unfold Tick.fixed; rw [f2.1, f2.2.1, f2.2.2.1, f2.2.2.2.1, f2.2.2.2.2.1]
    have hcov : (q.lower ≤ p.tick ∧ p.tick < q.upper → q.liquidity ≤ p.liquidity) ∧
        liq = if q.lower ≤ p.tick ∧ p.tick < q.upper then p.liquidity - q.liquidity else p.liquidity := by
      rw [hin] at b2
      by_cases e : q.lower ≤ p.tick ∧ p.tick < q.upper
      · rw [decide_eq_true e, if_pos rfl, if_neg (by decide)] at b2
        exact ⟨fun _ => b2.1, by rw [if_pos e]; exact b2.2⟩
      · rw [decide_eq_false e, if_neg (by decide)] at b2
        exact ⟨fun x => absurd x e, by rw [if_neg e]; exact b2⟩
    refine ⟨q, p, hl, hok.kwf, hok.lower.i32, hok.upper.i32, hp, fun _ a b => hcov.1 ⟨a, b⟩, ⟨tl, htl⟩, ⟨tu, htu⟩, ?_, fun o => ?_, c1, o1,
      fun key t' ht' => ?_, fun key => ?_, a, fun _ => b1, fun e => (by cases e), ?_, ?_, ?_⟩
    · rw [e1, d5, b3]
      unfold exitPool
      simp only [true_and]
      rw [hcov.2]
    · rw [show positionList s' o = positionList sr o by unfold positionList getPositionLength; rw [e2, e3], hl']
      rfl
    · rw [e4] at ht'
      split at ht'
      · rename_i e
        split at ht'
        · cases ht'
        · rw [Option.some.injEq] at ht'
          rw [e, ← ht']
          exact ⟨tu, htu, fixU⟩
      · split at ht'
        · rename_i e
          split at ht'
          · cases ht'
          · rw [Option.some.injEq] at ht'
            rw [e, ← ht']
            exact ⟨tl, htl, fixL⟩
        · exact ⟨t', ht', rfl⟩
    · have step : ∀ {s s' : Store} {i : Int} {t : Tick}, t.index = i → settleTick s q.poolKey i t = .ok s' →
          ChunkKey key ∨ (s'.bitmap.get? key).getD 0 = (s.bitmap.get? key).getD 0 := by
        intro s s' i t hi h
        obtain ⟨-, -, hb⟩ := settleTick_view hi h
        split at hb
        · obtain ⟨cc, h1, -, h2⟩ := hb
          rw [h2, KV.get?_insert]
          by_cases e : key = bitmapKey cc.1 q.poolKey
          · left; rw [e]; exact chunkKey_of hok.kwf hv h1
          · right; rw [if_neg e]
        · right; rw [hb]
      rcases step jl S1 with e | g1
      · exact .inl e
      rcases step ju S2 with e | g2
      · exact .inl e
      right
      rw [B, g2, g1]
      rfl
    · rw [← accrued_in hp, ← o2]
      have : r.x = a.1 := by rw [d6, b3]
      rw [← this]; exact x1
    · rw [← accrued_in hp, ← o3]
      have : r.y = a.2.1 := by rw [d7, b3]
      rw [← this]; exact x2
    · have h1 : r.x = a.1 := by rw [d6, b3]
      have h2 : r.y = a.2.1 := by rw [d7, b3]
      rw [← accrued_in hp, ← accrued_in hp, ← o2, ← o3, ← h1, ← h2]
      exact ho
  | false =>
    change execute c env info (.claimFee i) s = .ok (s', out) at h
    obtain ⟨hi, h⟩ := execute_ok.1 h
    change i < U32 at hi
    change claimFee c s env info i = .ok (s', out) at h
    obtain ⟨q, tl, tu, p, r, hpos, htl, htu, il, iu, hp, hmod, c1, o1, B, L, e1, e2, hlt, e4, ho⟩ := claimFee_view hs h
    have hok := hs.positions _ _ hpos
    obtain ⟨o2, o3, o4⟩ := modify_owed hok htl htu il iu hp hmod
    obtain ⟨q', d1, d2, d3, d4, d5, d6, d7⟩ := Position.modify_inv hmod
    obtain ⟨a, liq, b1, b2, b3⟩ := Pool.updateLiquidity_inv d4
    obtain ⟨ox, oy, lq, -, -, -, u1, u2, u3, u4⟩ := Position.update_inv d3
    have f1 := Tick.update_inv d1
    have f2 := Tick.update_inv d2
    have fixL : r.lower.fixed = tl.fixed := by unfold Tick.fixed; rw [f1.1, f1.2.1, f1.2.2.1, f1.2.2.2.1, f1.2.2.2.2.1]
    have fixU : r.upper.fixed = tu.fixed := by unfold Tick.fixed; rw [f2.1, f2.2.1, f2.2.2.1, f2.2.2.2.1, f2.2.2.2.2.1]
    have hliq : liq = p.liquidity := by
      simp only [if_true, Nat.add_zero] at b2
      split at b2
      · exact b2.2
      · exact b2
    have hx := o4 true
    have hy := o4 false
    have hcl : { r.pos with owedX := 0, owedY := 0 } = claimedPos s.ticks p q := by
      simp only [Position.fgIn, if_true, Bool.false_eq_true, if_false] at hx hy
      simp only [if_true, Nat.add_zero] at u1
      unfold claimedPos
      rw [← hx, ← hy, u4, u1.2]
    refine ⟨q, p, ?_, hok.kwf, hok.lower.i32, hok.upper.i32, hp, fun e => (by cases e), ⟨tl, htl⟩, ⟨tu, htu⟩, ?_, fun o => ?_, c1, o1,
      fun key t' ht' => ?_, fun key => .inr (by rw [B]), (0, 0, false), fun e => (by cases e), fun _ => rfl, ?_, ?_, ?_⟩
    · rw [positionList_getElem?, if_pos hlt, hpos]
    · rw [e1, d5, b3, hliq]
      unfold exitPool
      simp
    · rw [edit_list hm.posInv hi hpos e2 L, hcl]
      rfl
    · rw [e4] at ht'
      split at ht'
      · rename_i e
        rw [Option.some.injEq] at ht'
        rw [e, ← ht']
        exact ⟨tl, htl, fixL⟩
      · split at ht'
        · rename_i e
          rw [Option.some.injEq] at ht'
          rw [e, ← ht']
          exact ⟨tu, htu, fixU⟩
        · exact ⟨t', ht', rfl⟩
    · simp only [Nat.zero_add]
      rw [← accrued_in hp, ← o2, u4]
      exact u2
    · simp only [Nat.zero_add]
      rw [← accrued_in hp, ← o3, u4]
      exact u3
    · simp only [Nat.zero_add]
      rw [← accrued_in hp, ← accrued_in hp, ← o2, ← o3]
      exact ho

theorem exitPool_fixed (whole : Bool) (q : Position) (now : Nat) (p : Pool) : (exitPool whole q now p).fixed = p.fixed := rfl

/-- What a withdrawal or a claim makes of the pools. -/
theorem Exit.poolAt {c : Chain} {s s' : Store} {env : Env} {info : Info} {whole : Bool} {i : Nat} {out : List OutMsg} {q : Position}
    {p : Pool} (d : Exit c s s' env info whole i out q p) {k : PoolKey} (hk : k.wf) {p0 : Pool} (hp : s.pools.get? k.key = some p0) :
    s'.pools.get? k.key = some (if k = q.poolKey then exitPool whole q env.millis p0 else p0) := by
  rw [d.pools, KV.get?_insert]
  by_cases e : k = q.poolKey
  · subst e
    rw [d.pool, Option.some.injEq] at hp
    subst hp
    rw [if_pos rfl, if_pos rfl]
  · rw [if_neg (fun x => e (PoolKey.key_inj hk d.kwf x)), if_neg e, hp]

/-- Fees earned inside a range are not touched when others leave. -/
theorem Exit.growth {c : Chain} {s s' : Store} {env : Env} {info : Info} {whole : Bool} {i : Nat} {out : List OutMsg} {q : Position}
    {p : Pool} (d : Exit c s s' env info whole i out q p) {q0 : Position} {p0 p1 : Pool} (hp : p1.fixed = p0.fixed)
    (hl : ∃ t, s'.ticks.get? (tickKey q0.poolKey q0.lower) = some t) (hu : ∃ t, s'.ticks.get? (tickKey q0.poolKey q0.upper) = some t)
    (x : Bool) :
    growthInside s'.ticks q0.poolKey p1 x q0.lower q0.upper = growthInside s.ticks q0.poolKey p0 x q0.lower q0.upper := by
  have key : ∀ {j : Int}, (∃ t, s'.ticks.get? (tickKey q0.poolKey j) = some t) →
      outAt s'.ticks q0.poolKey x j = outAt s.ticks q0.poolKey x j := by
    rintro j ⟨t', ht'⟩
    obtain ⟨t, ht, hf⟩ := d.ticks _ _ ht'
    unfold outAt
    rw [ht, ht']
    unfold Tick.fixed at hf
    simp only [Prod.mk.injEq] at hf
    unfold Tick.out
    simp only
    rw [hf.2.2.1, hf.2.2.2.1]
  have h1 : p1.tick = p0.tick := show p1.fixed.tick = p0.fixed.tick by rw [hp]
  have h2 : p1.fgX = p0.fgX := show p1.fixed.fgX = p0.fixed.fgX by rw [hp]
  have h3 : p1.fgY = p0.fgY := show p1.fixed.fgY = p0.fixed.fgY by rw [hp]
  simp only [growthInside_code]
  unfold Pool.fg
  rw [key hl, key hu, h1, h2, h3]

theorem Exit.accrued {c : Chain} {s s' : Store} {env : Env} {info : Info} {whole : Bool} {i : Nat} {out : List OutMsg} {q : Position}
    {p : Pool} (d : Exit c s s' env info whole i out q p) {q0 : Position} {p0 p1 : Pool} (hp : p1.fixed = p0.fixed)
    (hl : ∃ t, s'.ticks.get? (tickKey q0.poolKey q0.lower) = some t) (hu : ∃ t, s'.ticks.get? (tickKey q0.poolKey q0.upper) = some t)
    (x : Bool) : accruedIn s'.ticks p1 x q0 = accruedIn s.ticks p0 x q0 := by
  unfold accruedIn
  rw [d.growth hp hl hu]

theorem Exit.claimed {c : Chain} {s s' : Store} {env : Env} {info : Info} {whole : Bool} {i : Nat} {out : List OutMsg} {q : Position}
    {p : Pool} (d : Exit c s s' env info whole i out q p) {q0 : Position} {p0 p1 : Pool} (hp : p1.fixed = p0.fixed)
    (hl : ∃ t, s'.ticks.get? (tickKey q0.poolKey q0.lower) = some t) (hu : ∃ t, s'.ticks.get? (tickKey q0.poolKey q0.upper) = some t) :
    claimedPos s'.ticks p1 q0 = claimedPos s.ticks p0 q0 := by
  unfold claimedPos
  rw [d.growth hp hl hu, d.growth hp hl hu]

/-- When a withdrawal or a claim is accepted. -/
theorem exit_ok {c : Chain} {s : Store} (hr : Reach c s) (env : Env) (info : Info) {whole : Bool} {i : Nat} {q : Position} {p : Pool}
    {a : Nat × Nat × Bool} (h1 : (positionList s info.sender)[i]? = some (some q)) (h2 : s.pools.get? q.poolKey.key = some p)
    (h3 : whole = true → q.lower ≤ p.tick → p.tick < q.upper → q.liquidity ≤ p.liquidity)
    (h4 : whole = true → calculateAmountDelta p.tick p.sqrtPrice q.liquidity false q.upper q.lower = .ok a)
    (h5 : a.1 + accruedIn s.ticks p true q / 10 ^ 34 < U128) (h6 : a.2.1 + accruedIn s.ticks p false q / 10 ^ 34 < U128) :
    ∃ s' out, execute c env info (exitMsg whole i) s = .ok (s', out) := by
  rw [← accrued_in h2] at h5 h6
  cases whole with
  | true => exact (C75_withdraw hr env info i).2 ⟨q, p, a, h1, h2, h3 rfl, h4 rfl, h5, h6⟩
  | false =>
    refine (C75_claim hr env info i).2 ⟨q, h1, fun x => ?_⟩
    cases x
    · exact Nat.lt_of_le_of_lt (Nat.le_add_left _ _) h6
    · exact Nat.lt_of_le_of_lt (Nat.le_add_left _ _) h5

theorem held_ticks {c : Chain} {s : Store} (hr : Reach c s) {o : Bytes} {i : Nat} {q : Position}
    (h : (positionList s o)[i]? = some (some q)) :
    (∃ t, s.ticks.get? (tickKey q.poolKey q.lower) = some t) ∧ ∃ t, s.ticks.get? (tickKey q.poolKey q.upper) = some t := by
  obtain ⟨-, h⟩ := (listed_iff hr).1 h
  obtain ⟨tl, tu, htl, htu, -⟩ := position_records hr.mreach.struct hr.mreach.tickSum h
  exact ⟨⟨tl, htl⟩, tu, htu⟩

/-- The first call does not get in the way of the second. -/
theorem exit_first {c : Chain} {s s1 s2 : Store} {env : Env} {ia ib : Info} {wa wb : Bool} {i j : Nat} {oa ob : List OutMsg}
    (hr : Reach c s) (hne : ia.sender ≠ ib.sender) (ha : execute c env ia (exitMsg wa i) s = .ok (s1, oa))
    (hb : execute c env ib (exitMsg wb j) s1 = .ok (s2, ob)) : ∃ s1' ob', execute c env ib (exitMsg wb j) s = .ok (s1', ob') := by
  obtain ⟨q, p, d⟩ := exit_facts hr ha
  obtain ⟨q', p', d'⟩ := exit_facts (hr.step ha) hb
  have hh := d'.held
  rw [d.lists, if_neg hne.symm] at hh
  obtain ⟨p0, hp0⟩ := (hr.mreach.struct.positions _ _ ((listed_iff hr).1 hh).2).pool
  have hpp := d.poolAt d'.kwf hp0
  rw [d'.pool, Option.some.injEq] at hpp
  have hfix : p'.fixed = p0.fixed := by rw [hpp]; split <;> rfl
  have ht : p'.tick = p0.tick := show p'.fixed.tick = p0.fixed.tick by rw [hfix]
  have hs : p'.sqrtPrice = p0.sqrtPrice := show p'.fixed.sqrtPrice = p0.fixed.sqrtPrice by rw [hfix]
  have hle : p'.liquidity ≤ p0.liquidity := by
    rw [hpp]
    split
    · unfold exitPool; simp only; split <;> omega
    · exact Nat.le_refl _
  obtain ⟨a, a1, a2, a3, a4, -⟩ := d'.paid
  rw [d.accrued hfix d'.tickL d'.tickU] at a3 a4
  refine exit_ok hr env ib (a := a) hh hp0 (fun w h1 h2 => ?_) (fun w => ?_) a3 a4
  · exact Nat.le_trans (d'.covered w (by rw [ht]; exact h1) (by rw [ht]; exact h2)) hle
  · rw [← ht, ← hs]; exact a1 w

/-- Nor the second of the first. -/
theorem exit_second {c : Chain} {s s1 s2 s1' : Store} {env : Env} {ia ib : Info} {wa wb : Bool} {i j : Nat} {oa ob ob' : List OutMsg}
    (hr : Reach c s) (hne : ia.sender ≠ ib.sender) (ha : execute c env ia (exitMsg wa i) s = .ok (s1, oa))
    (hb : execute c env ib (exitMsg wb j) s1 = .ok (s2, ob)) (hb' : execute c env ib (exitMsg wb j) s = .ok (s1', ob')) :
    ∃ s2' oa', execute c env ia (exitMsg wa i) s1' = .ok (s2', oa') := by
  obtain ⟨q, p, d⟩ := exit_facts hr ha
  obtain ⟨q', p', d'⟩ := exit_facts (hr.step ha) hb
  obtain ⟨q3, p3, d3⟩ := exit_facts hr hb'
  have hh := d'.held
  rw [d.lists, if_neg hne.symm, d3.held, Option.some.injEq, Option.some.injEq] at hh
  subst hh
  have hpp := d.poolAt d'.kwf d3.pool
  rw [d'.pool, Option.some.injEq] at hpp
  have hl : (positionList s1' ia.sender)[i]? = some (some q) := by rw [d3.lists, if_neg hne]; exact d.held
  have hp1 := d3.poolAt d.kwf d.pool
  obtain ⟨tL, tU⟩ := held_ticks (hr.step hb') hl
  have hfix : (if q.poolKey = q3.poolKey then exitPool wb q3 env.millis p else p).fixed = p.fixed := by split <;> rfl
  obtain ⟨a, a1, a2, a3, a4, -⟩ := d.paid
  rw [← d3.accrued hfix tL tU] at a3 a4
  refine exit_ok (hr.step hb') env ia (a := a) hl hp1 (fun w h1 h2 => ?_) (fun w => ?_) a3 a4
  · by_cases e : q.poolKey = q3.poolKey
    · rw [if_pos e] at h1 h2 ⊢
      change q.lower ≤ p.tick at h1
      change p.tick < q.upper at h2
      have e3 : p3 = p := by
        have := d3.pool
        rw [← e, d.pool, Option.some.injEq] at this
        exact this.symm
      subst e3
      have hd := d.covered w h1 h2
      have hd' := d'.covered
      rw [hpp, if_pos e.symm] at hd'
      unfold exitPool at hd' ⊢
      simp only at hd' ⊢
      rw [if_pos ⟨w, h1, h2⟩] at hd'
      split
      · rename_i g
        have := hd' g.1 g.2.1 g.2.2
        omega
      · exact hd
    · rw [if_neg e] at h1 h2 ⊢
      exact d.covered w h1 h2
  · have := a1 w
    split
    · exact this
    · exact this

theorem Exit.swap {c : Chain} {s s1 s2 s1' s2' : Store} {env : Env} {ia ib : Info} {wa wb : Bool} {i j : Nat}
    {oa ob oa' ob' : List OutMsg} {qa qb qa' qb' : Position} {pa pb pa' pb' : Pool}
    (hne : ia.sender ≠ ib.sender)
    (d1 : Exit c s s1 env ia wa i oa qa pa) (d2 : Exit c s1 s2 env ib wb j ob qb pb)
    (d3 : Exit c s s1' env ib wb j ob' qb' pb') (d4 : Exit c s1' s2' env ia wa i oa' qa' pa')
    (m2 : MReach c s2) (m2' : MReach c s2') : NoTrace s2 s2' ∧ oa' = oa ∧ ob' = ob := by
  have ea := d4.held
  rw [d3.lists, if_neg hne, d1.held, Option.some.injEq, Option.some.injEq] at ea
  subst ea
  have eb := d2.held
  rw [d1.lists, if_neg hne.symm, d3.held, Option.some.injEq, Option.some.injEq] at eb
  subst eb
  have hpb := d1.poolAt d2.kwf d3.pool
  rw [d2.pool, Option.some.injEq] at hpb
  have hpa := d3.poolAt d1.kwf d1.pool
  rw [d4.pool, Option.some.injEq] at hpa
  have hfa : pa'.fixed = pa.fixed := by rw [hpa]; split <;> rfl
  have hfb : pb.fixed = pb'.fixed := by rw [hpb]; split <;> rfl
  have hcalc : ∀ {p p' : Pool} (L : Nat) (u l : Int), p'.fixed = p.fixed →
      calculateAmountDelta p'.tick p'.sqrtPrice L false u l = calculateAmountDelta p.tick p.sqrtPrice L false u l := by
    intro p p' L u l e
    have h1 : p'.tick = p.tick := show p'.fixed.tick = p.fixed.tick by rw [e]
    have h2 : p'.sqrtPrice = p.sqrtPrice := show p'.fixed.sqrtPrice = p.fixed.sqrtPrice by rw [e]
    rw [h1, h2]
  have hlists : ∀ o, positionList s2' o = positionList s2 o := by
    intro o
    rw [d4.lists, d3.lists, d2.lists, d1.lists, d3.claimed hfa d4.tickL d4.tickU, d1.claimed hfb d2.tickL d2.tickU]
    by_cases x : o = ia.sender
    · rw [if_pos x, if_pos x, if_neg (by rw [x]; exact hne), if_neg (by rw [x]; exact hne)]
    · rw [if_neg x, if_neg x]
  obtain ⟨hpos, hlen⟩ := positions_of_lists m2.posInv m2'.posInv hlists
  have hS : ∀ k i, liquidityStartingAt s2' k i = liquidityStartingAt s2 k i := by
    intro k i; unfold liquidityStartingAt sumPositions positionsOf; rw [hpos]
  have hE : ∀ k i, liquidityEndingAt s2' k i = liquidityEndingAt s2 k i := by
    intro k i; unfold liquidityEndingAt sumPositions positionsOf; rw [hpos]
  have present : ∀ {r r' : Store}, MReach c r → MReach c r' → (∀ k i, liquidityStartingAt r' k i = liquidityStartingAt r k i) →
      (∀ k i, liquidityEndingAt r' k i = liquidityEndingAt r k i) → ∀ key t, r.ticks.get? key = some t → ∃ t', r'.ticks.get? key = some t' ∧
        t'.gross = t.gross ∧ t'.net = t.net := by
    intro r r' m m' hS hE key t h
    obtain ⟨kk, ek, hrec⟩ := m.struct.ticks _ _ h
    have v1 := m.tickSum kk t.index hrec.kwf hrec.ok.i32
    have v2 := m'.tickSum kk t.index hrec.kwf hrec.ok.i32
    unfold TickSumAt tickVal at v1 v2
    rw [← ek, h] at v1
    rw [← ek, hS, hE] at v2
    simp only [Option.map_some] at v1
    cases e : r'.ticks.get? key with
    | none => rw [e] at v2; simp only [Option.map_none] at v2; omega
    | some t' =>
      rw [e] at v2
      simp only [Option.map_some] at v2
      exact ⟨t', rfl, v2.2.1.trans v1.2.1.symm, v2.2.2.trans v1.2.2.symm⟩
  have hsome : ∀ key, (s2'.ticks.get? key).isSome = (s2.ticks.get? key).isSome := by
    intro key
    cases e : s2.ticks.get? key with
    | some t =>
      obtain ⟨t', h', -⟩ := present m2 m2' hS hE key t e
      rw [h']; rfl
    | none =>
      cases e' : s2'.ticks.get? key with
      | none => rfl
      | some t' =>
        obtain ⟨t, h, -⟩ := present m2' m2 (fun k i => (hS k i).symm) (fun k i => (hE k i).symm) key t' e'
        rw [e] at h
        cases h
  refine ⟨⟨by rw [d4.config, d3.config, d2.config, d1.config], by rw [d4.operators, d3.operators, d2.operators, d1.operators],
    fun key => ?_, fun key => ?_, fun key => ?_, hpos, hlen⟩, ?_, ?_⟩
  · congr 1
    rw [d4.pools, d3.pools, d2.pools, d1.pools]
    simp only [KV.get?_insert]
    by_cases e : qa.poolKey = qb'.poolKey
    · have e3 : pb' = pa := by
        have := d3.pool
        rw [← e, d1.pool, Option.some.injEq] at this
        exact this.symm
      subst e3
      rw [if_pos e] at hpa
      rw [if_pos e.symm] at hpb
      rw [← e]
      by_cases x : key = qa.poolKey.key
      · rw [if_pos x, if_pos x, hpa, hpb]
        congr 1
        unfold exitPool
        simp only [Pool.mk.injEq, and_true]
        split <;> split <;> omega
      · rw [if_neg x, if_neg x, if_neg x, if_neg x]
    · rw [if_neg e] at hpa
      rw [if_neg (Ne.symm e)] at hpb
      have hkk : qa.poolKey.key ≠ qb'.poolKey.key := fun x => e (PoolKey.key_inj d1.kwf d2.kwf x)
      rw [hpa, hpb]
      by_cases x : key = qa.poolKey.key
      · rw [if_pos x, if_neg (by rw [x]; exact hkk), if_pos x]
      · rw [if_neg x, if_neg x]
  · cases h : s2.ticks.get? key with
    | none =>
      have := hsome key
      rw [h] at this
      cases h' : s2'.ticks.get? key with
      | none => rfl
      | some t' => rw [h'] at this; cases this
    | some t =>
      obtain ⟨t', h', hg, hn⟩ := present m2 m2' hS hE key t h
      obtain ⟨ta, ha, fa⟩ := d2.ticks _ _ h
      obtain ⟨tb, hb, fb⟩ := d1.ticks _ _ ha
      obtain ⟨tc, hc, fc⟩ := d4.ticks _ _ h'
      obtain ⟨td, hd, fd⟩ := d3.ticks _ _ hc
      rw [hb, Option.some.injEq] at hd
      subst hd
      have hf : t'.fixed = t.fixed := by rw [fc, fd, fa, fb]
      rw [h', Option.map_some, Option.map_some]
      congr 1
      have hc : t'.change = t.change ∧ (t'.sign = t.sign ∨ t.change = 0) := by
        unfold Tick.net at hn
        cases e1 : t.sign <;> cases e2 : t'.sign <;> simp [e1, e2] at hn ⊢ <;> omega
      refine tick_back_plain ?_ hc.2
      have e6 := hc.1
      unfold Tick.fixed at hf
      simp only [Prod.mk.injEq] at hf
      obtain ⟨f1, f2, f3, f4, f5⟩ := hf
      clear * - f1 f2 f3 f4 f5 e6 hg
      cases t; cases t'
      simp only at *
      simp only [Tick.mk.injEq]
      exact ⟨f1, trivial, e6, hg, f2, f3, f4, f5⟩
  · by_cases hc : ChunkKey key
    · exact chunks_of_ticks m2.bitInv m2'.bitInv hsome hc
    · rw [(d4.bitmap key).resolve_left hc, (d3.bitmap key).resolve_left hc, (d2.bitmap key).resolve_left hc,
        (d1.bitmap key).resolve_left hc]
  · obtain ⟨a, x1, x2, -, -, rfl⟩ := d1.paid
    obtain ⟨a', y1, y2, -, -, rfl⟩ := d4.paid
    rw [d3.accrued hfa d4.tickL d4.tickU, d3.accrued hfa d4.tickL d4.tickU]
    have : a' = a := by
      cases wa
      · rw [x2 rfl, y2 rfl]
      · have x := x1 rfl
        have y := y1 rfl
        rw [hcalc _ _ _ hfa, x, ok_inj] at y
        exact y.symm
    rw [this]
  · obtain ⟨a, x1, x2, -, -, rfl⟩ := d2.paid
    obtain ⟨a', y1, y2, -, -, rfl⟩ := d3.paid
    rw [d1.accrued hfb d2.tickL d2.tickU, d1.accrued hfb d2.tickL d2.tickU]
    have : a' = a := by
      cases wb
      · rw [x2 rfl, y2 rfl]
      · have x := x1 rfl
        have y := y1 rfl
        rw [hcalc _ _ _ hfb, y, ok_inj] at x
        exact x
    rw [this]

end OraiV3
