import Verif.Lemmas.Trace
import Verif.Lemmas.Accept
import Verif.Lemmas.Cap

/-!
# Two deposits
-/

namespace OraiV3

/-- What a deposit does not change in a tick. -/
def Tick.fixed (t : Tick) : Int × Nat × Nat × Nat × Nat := (t.index, t.sqrtPrice, t.outX, t.outY, t.secondsOutside)

/-- What a deposit does not change in a pool. -/
def Pool.fixed (p : Pool) : Pool := { p with liquidity := 0, lastTs := 0 }

/-- The tick a deposit finds or creates has these data. -/
def Base (s : Store) (now : Nat) (key : Bytes) (f : Int × Nat × Nat × Nat × Nat) : Prop :=
  ∃ (k : PoolKey) (p : Pool) (i : Int) (t : Tick), k.wf ∧ i32 i ∧ key = tickKey k i ∧ s.pools.get? k.key = some p ∧
    TickUsed s k p now i t ∧ t.fixed = f

theorem Base.unique {s : Store} {now : Nat} {key : Bytes} {f f' : Int × Nat × Nat × Nat × Nat} (h : Base s now key f)
    (h' : Base s now key f') : f = f' := by
  obtain ⟨k, p, i, t, hk, hi, rfl, hp, hu, rfl⟩ := h
  obtain ⟨k', p', i', t', hk', hi', e, hp', hu', rfl⟩ := h'
  obtain ⟨rfl, rfl⟩ := tickKey_inj hk hk' hi hi' e
  rw [hp, Option.some.injEq] at hp'
  subst hp'
  rcases hu with hu | ⟨hu, -, hc⟩ <;> rcases hu' with hu' | ⟨hu', -, hc'⟩ <;> rw [hu] at hu'
  · rw [Option.some.injEq] at hu'; rw [hu']
  · cases hu'
  · cases hu'
  · rw [hc, ok_inj] at hc'; rw [hc']

theorem Tick.create_fixed {i : Int} {p p' : Pool} {now : Nat} (h : p'.fixed = p.fixed) :
    Tick.create i p' now = Tick.create i p now := by
  cases p; cases p'
  simp only [Pool.fixed, Pool.mk.injEq] at h
  obtain ⟨-, h1, h2, h3, h4, h5, h6, h7, -, h8⟩ := h
  unfold Tick.create
  simp only [h2, h3, h4, h7]

/-- The position a deposit records. -/
def depositPos (k : PoolKey) (l u : Int) (L height : Nat) (p : Pool) (fl fu : Int × Nat × Nat × Nat × Nat) : Position :=
  { poolKey := k, liquidity := L, lower := l, upper := u,
    fgInX := feeGrowthInside l fl.2.2.1 u fu.2.2.1 p.tick p.fgX,
    fgInY := feeGrowthInside l fl.2.2.2.1 u fu.2.2.2.1 p.tick p.fgY,
    lastBlock := height, owedX := 0, owedY := 0, approvals := [] }

/-- The pool after a deposit. -/
def depositPool (l u : Int) (L now : Nat) (p : Pool) : Pool :=
  { p with lastTs := now, liquidity := if l ≤ p.tick ∧ p.tick < u then p.liquidity + L else p.liquidity }

theorem depositPool_fixed (l u : Int) (L now : Nat) (p : Pool) : (depositPool l u L now p).fixed = p.fixed := rfl

structure Deposit (c : Chain) (s s' : Store) (env : Env) (info : Info) (k : PoolKey) (l u : Int) (L : Nat) (out : List OutMsg)
    (p : Pool) (fl fu : Int × Nat × Nat × Nat × Nat) : Prop where
  pool : s.pools.get? k.key = some p
  keys : tickKey k l ≠ tickKey k u
  baseL : Base s env.millis (tickKey k l) fl
  baseU : Base s env.millis (tickKey k u) fu
  pools : s'.pools = s.pools.insert k.key (depositPool l u L env.millis p)
  positions : s'.positions = s.positions.insert (positionKey info.sender (getPositionLength s info.sender))
    (depositPos k l u L env.height p fl fu)
  posLen : s'.posLen = s.posLen.insert info.sender (getPositionLength s info.sender + 1)
  config : s'.config = s.config
  operators : s'.operators = s.operators
  ticks : ∀ key, (s'.ticks.get? key).map Tick.fixed =
    if key = tickKey k u then some fu else if key = tickKey k l then some fl else (s.ticks.get? key).map Tick.fixed
  bitmap : ∀ key, (s'.bitmap.get? key).getD 0 = (s.bitmap.get? key).getD 0 ^^^
    (if s.ticks.get? (tickKey k l) = none then bitMask k l key else 0) ^^^
    (if s.ticks.get? (tickKey k u) = none then bitMask k u key else 0)
  starting : ∀ k' i, liquidityStartingAt s' k' i = (if k = k' ∧ l = i then L else 0) + liquidityStartingAt s k' i
  ending : ∀ k' i, liquidityEndingAt s' k' i = (if k = k' ∧ u = i then L else 0) + liquidityEndingAt s k' i
  paid : ∃ a m1 m2, calculateAmountDelta p.tick p.sqrtPrice L true u l = .ok a ∧ assetTransferFrom c k.tokenX a.1 info = .ok m1 ∧
    assetTransferFrom c k.tokenY a.2.1 info = .ok m2 ∧ out = m1 ++ m2

theorem deposit_facts {c : Chain} {s s' : Store} {env : Env} {info : Info} {k : PoolKey} {l u : Int} {L lo hi : Nat}
    {out : List OutMsg} (hm : MReach c s) (hw : (Msg.createPosition k l u L lo hi).wf)
    (h : createPosition c s env info k l u L lo hi = .ok (s', out)) : ∃ p fl fu, Deposit c s s' env info k l u L out p fl fu := by
  have hs := hm.struct
  obtain ⟨pos, hwhat, hperm⟩ := createPosition_sum hs hm.posInv hw h
  obtain ⟨p, tl, tu, r, rl, m1, m2, hp, hL, hlu, U1, U2, il, iu, G1, Gl, ⟨ru, G2, Gu, B1⟩, _, _, hmod, c1, o1, e1, e2, p1, p2, e3, t1, t2,
    ho⟩ := createPosition_view hs hw h
  obtain ⟨q, d1, d2, d3, d4, d5, d6, d7⟩ := Position.modify_inv hmod
  obtain ⟨ox, oy, lq, u1, u2, u3, u4, u5, u6, u7⟩ := Position.update_inv d3
  obtain ⟨a, liq, g1, g2, g3⟩ := Pool.updateLiquidity_inv d4
  obtain ⟨x1, x2, x3, x4, x5, -⟩ := Tick.update_inv d1
  obtain ⟨y1, y2, y3, y4, y5, -⟩ := Tick.update_inv d2
  have hkey : tickKey k l ≠ tickKey k u := fun e => hlu (tickKey_inj hw.1 hw.1 hw.2.1 hw.2.2.1 e).2
  rw [x1, y1, il, iu] at g1
  change calculateAmountDelta p.tick p.sqrtPrice L true u l = .ok a at g1
  have hlt : l < u := by
    rcases Int.lt_trichotomy l u with h | h | h
    · exact h
    · exact absurd h hlu
    · unfold calculateAmountDelta at g1
      rw [if_pos h] at g1
      cases g1
  have hok1 := (U1.index hs hw.1 hw.2.1).2.1
  have hok2 := (U2.index hs hw.1 hw.2.2.1).2.1
  obtain ⟨a', ha', hact⟩ := amountDelta_up_ok (hm.price k p hw.1 hp) hok1 hok2 hlt hw.2.2.2.1
  rw [g1, ok_inj] at ha'
  subst ha'
  have hpool : r.pool = depositPool l u L env.millis p := by
    rw [d5, g3]
    unfold depositPool
    simp only
    congr 1
    simp only [if_true] at g2
    by_cases hr : a.2.2 = true
    · rw [if_pos hr] at g2; rw [if_pos (hact.1 hr)]; exact g2.2
    · rw [if_neg hr] at g2; rw [if_neg (fun e => hr (hact.2 e))]; exact g2
  have hpos : r.pos = depositPos k l u L env.height p tl.fixed tu.fixed := by
    simp only [Nat.mul_zero, feeGrowthToFee, Nat.zero_div, cast128_ok] at u2 u3
    simp only [if_true] at u4
    rw [u7]
    unfold depositPos Tick.fixed
    simp only
    rw [x1, x3, x4, y1, y3, y4, il, iu, ← u2.2, ← u3.2, u4.2, Nat.zero_add]
  simp only [Position.what, Prod.mk.injEq] at hwhat
  obtain ⟨w1, w2, w3, w4⟩ := hwhat
  refine ⟨p, tl.fixed, tu.fixed, hp, hkey, ⟨k, p, l, tl, hw.1, hw.2.1, rfl, hp, U1, rfl⟩, ⟨k, p, u, tu, hw.1, hw.2.2.1, rfl, hp, U2, rfl⟩,
    by rw [e1, hpool], by rw [e2, hpos], p1, c1, o1, fun key => ?_, fun key => ?_, fun k' i => ?_, fun k' i => ?_,
    ⟨a, m1, m2, g1, ?_, ?_, ho⟩⟩
  · rw [e3]
    split
    · unfold Tick.fixed; rw [Option.map_some, y1, y2, y3, y4, y5]
    · split
      · unfold Tick.fixed; rw [Option.map_some, x1, x2, x3, x4, x5]
      · rfl
  · obtain ⟨-, w1, -⟩ := getOrCreateTick_view hp G1
    obtain ⟨t1, bm1, F1⟩ := getOrCreateTick_frame G1
    have hp1 : rl.1.pools.get? k.key = some p := by rw [F1]; exact hp
    have hx : rl.1.ticks.get? (tickKey k u) = s.ticks.get? (tickKey k u) := by rw [w1, if_neg hkey.symm]
    rw [B1, create_mask hp1 G2, create_mask hp G1, hx]
  · unfold liquidityStartingAt
    rw [sumPositions_cons hperm, w1, w2, w4]
    by_cases e1 : k = k' <;> by_cases e2 : l = i <;> simp [e1, e2]
  · unfold liquidityEndingAt
    rw [sumPositions_cons hperm, w1, w3, w4]
    by_cases e1 : k = k' <;> by_cases e2 : u = i <;> simp [e1, e2]
  · rw [← t1, d6, g3]
  · rw [← t2, d7, g3]

theorem Deposit.base {c : Chain} {s s' : Store} {env : Env} {info : Info} {k : PoolKey} {l u : Int} {L : Nat} {out : List OutMsg}
    {p : Pool} {fl fu : Int × Nat × Nat × Nat × Nat} (d : Deposit c s s' env info k l u L out p fl fu) {key : Bytes}
    {f : Int × Nat × Nat × Nat × Nat} (h : Base s' env.millis key f) : Base s env.millis key f := by
  obtain ⟨k', p', i, t, hk, hi, rfl, hp, hu, rfl⟩ := h
  have hp0 : ∃ p0, s.pools.get? k'.key = some p0 ∧ p'.fixed = p0.fixed := by
    rw [d.pools, KV.get?_insert] at hp
    split at hp
    · rename_i e
      rw [Option.some.injEq] at hp
      exact ⟨p, by rw [e]; exact d.pool, by rw [← hp]; rfl⟩
    · exact ⟨p', hp, rfl⟩
  obtain ⟨p0, hp0, hfix⟩ := hp0
  have ht := d.ticks (tickKey k' i)
  by_cases e1 : tickKey k' i = tickKey k u
  · have hb := d.baseU
    rw [if_pos e1] at ht
    rw [← e1] at hb
    rcases hu with hu | ⟨hu, -⟩
    · rw [hu, Option.map_some, Option.some.injEq] at ht; rw [ht]; exact hb
    · rw [hu] at ht; cases ht
  rw [if_neg e1] at ht
  by_cases e2 : tickKey k' i = tickKey k l
  · have hb := d.baseL
    rw [if_pos e2] at ht
    rw [← e2] at hb
    rcases hu with hu | ⟨hu, -⟩
    · rw [hu, Option.map_some, Option.some.injEq] at ht; rw [ht]; exact hb
    · rw [hu] at ht; cases ht
  rw [if_neg e2] at ht
  rcases hu with hu | ⟨hu, hok, hc⟩
  · rw [hu] at ht
    cases h0 : s.ticks.get? (tickKey k' i) with
    | none => rw [h0] at ht; cases ht
    | some t0 =>
      rw [h0, Option.map_some, Option.map_some, Option.some.injEq] at ht
      exact ⟨k', p0, i, t0, hk, hi, rfl, hp0, .inl h0, ht.symm⟩
  · rw [hu] at ht
    cases h0 : s.ticks.get? (tickKey k' i) with
    | none =>
      rw [Tick.create_fixed hfix] at hc
      exact ⟨k', p0, i, t, hk, hi, rfl, hp0, .inr ⟨h0, hok, hc⟩, rfl⟩
    | some t0 => rw [h0] at ht; cases ht

theorem Deposit.absent {c : Chain} {s s' : Store} {env : Env} {info : Info} {k : PoolKey} {l u : Int} {L : Nat} {out : List OutMsg}
    {p : Pool} {fl fu : Int × Nat × Nat × Nat × Nat} (d : Deposit c s s' env info k l u L out p fl fu) (key : Bytes) :
    s'.ticks.get? key = none ↔ s.ticks.get? key = none ∧ key ≠ tickKey k l ∧ key ≠ tickKey k u := by
  have ht := d.ticks key
  split at ht
  · rename_i e
    constructor
    · intro h; rw [h] at ht; cases ht
    · rintro ⟨-, -, h⟩; exact absurd e h
  · rename_i n1
    split at ht
    · rename_i e
      constructor
      · intro h; rw [h] at ht; cases ht
      · rintro ⟨-, h, -⟩; exact absurd e h
    · rename_i n2
      cases h : s'.ticks.get? key <;> cases h' : s.ticks.get? key <;> rw [h, h'] at ht <;> simp_all

theorem depositPos_fixed {k : PoolKey} {l u : Int} {L h : Nat} {p p' : Pool} {fl fu : Int × Nat × Nat × Nat × Nat}
    (e : p'.fixed = p.fixed) : depositPos k l u L h p' fl fu = depositPos k l u L h p fl fu := by
  cases p; cases p'
  simp only [Pool.fixed, Pool.mk.injEq] at e
  obtain ⟨-, h1, h2, h3, h4, h5, h6, h7, -, h8⟩ := e
  unfold depositPos
  simp only [h2, h3, h4]

theorem xor_swap {W a b a' b' : Nat} {A B A' B' e11 e12 e21 e22 : Prop} [Decidable A] [Decidable B] [Decidable A'] [Decidable B']
    [Decidable e11] [Decidable e12] [Decidable e21] [Decidable e22]
    (h11 : e11 → a = a' ∧ (A ↔ A')) (h12 : e12 → a = b' ∧ (A ↔ B')) (h21 : e21 → b = a' ∧ (B ↔ A')) (h22 : e22 → b = b' ∧ (B ↔ B'))
    (d1 : ¬ (e11 ∧ e12)) (d2 : ¬ (e11 ∧ e21)) (d3 : ¬ (e12 ∧ e22)) (d4 : ¬ (e21 ∧ e22)) :
    W ^^^ (if A then a else 0) ^^^ (if B then b else 0) ^^^ (if A' ∧ ¬ e11 ∧ ¬ e21 then a' else 0) ^^^
        (if B' ∧ ¬ e12 ∧ ¬ e22 then b' else 0) =
      W ^^^ (if A' then a' else 0) ^^^ (if B' then b' else 0) ^^^ (if A ∧ ¬ e11 ∧ ¬ e12 then a else 0) ^^^
        (if B ∧ ¬ e21 ∧ ¬ e22 then b else 0) := by
  by_cases x11 : e11
  · obtain ⟨rfl, i1⟩ := h11 x11
    have n12 : ¬ e12 := fun h => d1 ⟨x11, h⟩
    have n21 : ¬ e21 := fun h => d2 ⟨x11, h⟩
    by_cases x22 : e22
    · obtain ⟨rfl, i2⟩ := h22 x22
      simp only [x11, x22, not_true, false_and, and_false, if_false, Nat.xor_zero, i1, i2]
    · simp only [x11, x22, n12, n21, not_true, not_false_iff, and_false, and_true, if_false, Nat.xor_zero, i1]
      ac_rfl
  · by_cases x12 : e12
    · obtain ⟨rfl, i1⟩ := h12 x12
      have n22 : ¬ e22 := fun h => d3 ⟨x12, h⟩
      by_cases x21 : e21
      · obtain ⟨rfl, i2⟩ := h21 x21
        simp only [x12, x21, not_true, false_and, and_false, if_false, Nat.xor_zero, i1, i2]
        ac_rfl
      · simp only [x11, x12, x21, n22, not_true, not_false_iff, and_false, and_true, if_false, Nat.xor_zero, i1]
        ac_rfl
    · by_cases x21 : e21
      · obtain ⟨rfl, i2⟩ := h21 x21
        have n22 : ¬ e22 := fun h => d4 ⟨x21, h⟩
        simp only [x11, x12, x21, n22, not_true, not_false_iff, and_false, and_true, if_false, Nat.xor_zero, i2]
        ac_rfl
      · by_cases x22 : e22
        · obtain ⟨rfl, i2⟩ := h22 x22
          simp only [x11, x12, x21, x22, not_true, not_false_iff, and_false, and_true, if_false, Nat.xor_zero, i2]
          ac_rfl
        · simp only [x11, x12, x21, x22, not_false_iff, and_true]
          ac_rfl

/-- Two deposits of different accounts, made in either order, end in the same state. -/
theorem Deposit.swap {c : Chain} {s s1 s2 s1' s2' : Store} {env : Env} {ia ib : Info} {k k' : PoolKey} {l u l' u' : Int} {L L' : Nat}
    {oa ob oa' ob' : List OutMsg} {pa pb pa' pb' : Pool} {al au bl bu al' au' bl' bu' : Int × Nat × Nat × Nat × Nat}
    (hne : ia.sender ≠ ib.sender)
    (hk : k.wf) (hk' : k'.wf) (hl : i32 l) (hu : i32 u) (hl' : i32 l') (hu' : i32 u')
    (d1 : Deposit c s s1 env ia k l u L oa pa al au) (d2 : Deposit c s1 s2 env ib k' l' u' L' ob pb bl bu)
    (d3 : Deposit c s s1' env ib k' l' u' L' ob' pb' bl' bu') (d4 : Deposit c s1' s2' env ia k l u L oa' pa' al' au')
    (m2 : MReach c s2) (m2' : MReach c s2') : NoTrace s2 s2' ∧ oa' = oa ∧ ob' = ob := by
  have e1 : bl = bl' := (d1.base d2.baseL).unique d3.baseL
  have e2 : bu = bu' := (d1.base d2.baseU).unique d3.baseU
  have e3 : al' = al := (d3.base d4.baseL).unique d1.baseL
  have e4 : au' = au := (d3.base d4.baseU).unique d1.baseU
  subst e1 e2 e3 e4
  -- the pools
  have hpools : k = k' ∧ pb = depositPool l u L env.millis pa ∧ pa' = depositPool l' u' L' env.millis pa ∧ pb' = pa ∨
      k.key ≠ k'.key ∧ pb = pb' ∧ pa' = pa := by
    by_cases e : k.key = k'.key
    · have ek := PoolKey.key_inj hk hk' e
      subst ek
      refine .inl ⟨rfl, ?_⟩
      have x1 := d1.pool
      have x2 := d2.pool
      have x3 := d3.pool
      have x4 := d4.pool
      rw [x1, Option.some.injEq] at x3
      subst x3
      rw [d1.pools, KV.get?_insert, if_pos rfl, Option.some.injEq] at x2
      rw [d3.pools, KV.get?_insert, if_pos rfl, Option.some.injEq] at x4
      exact ⟨x2.symm, x4.symm, rfl⟩
    · refine .inr ⟨e, ?_⟩
      have x2 := d2.pool
      have x4 := d4.pool
      rw [d1.pools, KV.get?_insert, if_neg (Ne.symm e), d3.pool, Option.some.injEq] at x2
      rw [d3.pools, KV.get?_insert, if_neg e, d1.pool, Option.some.injEq] at x4
      exact ⟨x2.symm, x4.symm⟩
  have hfa : pa'.fixed = pa.fixed := by
    rcases hpools with ⟨-, -, rfl, -⟩ | ⟨-, -, rfl⟩ <;> rfl
  have hfb : pb.fixed = pb'.fixed := by
    rcases hpools with ⟨-, rfl, -, rfl⟩ | ⟨-, rfl, -⟩ <;> rfl
  have hcalc : ∀ {p p' : Pool} (L : Nat) (u l : Int), p'.fixed = p.fixed →
      calculateAmountDelta p'.tick p'.sqrtPrice L true u l = calculateAmountDelta p.tick p.sqrtPrice L true u l := by
    intro p p' L u l e
    have h1 : p'.tick = p.tick := show p'.fixed.tick = p.fixed.tick by rw [e]
    have h2 : p'.sqrtPrice = p.sqrtPrice := show p'.fixed.sqrtPrice = p.fixed.sqrtPrice by rw [e]
    rw [h1, h2]
  have hla : getPositionLength s1' ia.sender = getPositionLength s ia.sender := by
    unfold getPositionLength
    rw [d3.posLen, KV.get?_insert, if_neg hne]
  have hlb : getPositionLength s1 ib.sender = getPositionLength s ib.sender := by
    unfold getPositionLength
    rw [d1.posLen, KV.get?_insert, if_neg hne.symm]
  have hid : ∀ m n, positionKey ia.sender m ≠ positionKey ib.sender n := by
    intro m n e
    unfold positionKey at e
    exact hne (List.append_inj' e (by simp [beBytes_length])).1
  have hpos : s2'.positions = s2.positions := by
    rw [d4.positions, d3.positions, d2.positions, d1.positions, hla, hlb, depositPos_fixed hfa, depositPos_fixed hfb]
    refine KV.ext_get? fun id => ?_
    simp only [KV.get?_insert]
    by_cases x : id = positionKey ia.sender (getPositionLength s ia.sender)
    · rw [if_pos x, if_neg (by rw [x]; exact hid _ _), if_pos x]
    · rw [if_neg x, if_neg x]
  have hlen : s2'.posLen = s2.posLen := by
    rw [d4.posLen, d3.posLen, d2.posLen, d1.posLen, hla, hlb]
    refine KV.ext_get? fun id => ?_
    simp only [KV.get?_insert]
    by_cases x : id = ia.sender
    · rw [if_pos x, if_neg (by rw [x]; exact hne), if_pos x]
    · rw [if_neg x, if_neg x]
  have hS : ∀ k i, liquidityStartingAt s2' k i = liquidityStartingAt s2 k i := by
    intro k i; unfold liquidityStartingAt sumPositions positionsOf; rw [hpos]
  have hE : ∀ k i, liquidityEndingAt s2' k i = liquidityEndingAt s2 k i := by
    intro k i; unfold liquidityEndingAt sumPositions positionsOf; rw [hpos]
  have hfix : ∀ key, (s2'.ticks.get? key).map Tick.fixed = (s2.ticks.get? key).map Tick.fixed := by
    intro key
    rw [d4.ticks, d3.ticks, d2.ticks, d1.ticks]
    have hb : ∀ {i j : Int} {k k' : PoolKey} {f f' : Int × Nat × Nat × Nat × Nat}, Base s env.millis (tickKey k i) f →
        Base s env.millis (tickKey k' j) f' → key = tickKey k i → key = tickKey k' j → f = f' := by
      intro i j k k' f f' h h' e e'
      rw [← e] at h
      rw [← e'] at h'
      exact h.unique h'
    have ba := d1.baseL
    have ba' := d1.baseU
    have bb := d3.baseL
    have bb' := d3.baseU
    by_cases x1 : key = tickKey k u <;> by_cases x2 : key = tickKey k l <;> by_cases x3 : key = tickKey k' u' <;>
      by_cases x4 : key = tickKey k' l'
    all_goals first
      | exact absurd (x2.symm.trans x1) d1.keys
      | exact absurd (x4.symm.trans x3) d3.keys
      | skip
    · rw [if_pos x1, if_pos x3, hb ba' bb' x1 x3]
    · rw [if_pos x1, if_neg x3, if_pos x4, hb ba' bb x1 x4]
    · rw [if_pos x1, if_neg x3, if_neg x4, if_pos x1]
    · rw [if_neg x1, if_pos x2, if_pos x3, hb ba bb' x2 x3]
    · rw [if_neg x1, if_pos x2, if_neg x3, if_pos x4, hb ba bb x2 x4]
    · rw [if_neg x1, if_pos x2, if_neg x3, if_neg x4, if_neg x1, if_pos x2]
    · rw [if_neg x1, if_neg x2, if_pos x3, if_pos x3]
    · rw [if_neg x1, if_neg x2, if_neg x3, if_pos x4, if_neg x3, if_pos x4]
    · rw [if_neg x1, if_neg x2, if_neg x3, if_neg x4, if_neg x3, if_neg x4, if_neg x1, if_neg x2]
  refine ⟨⟨by rw [d4.config, d3.config, d2.config, d1.config], by rw [d4.operators, d3.operators, d2.operators, d1.operators],
    fun key => ?_, fun key => ?_, fun key => ?_, hpos, fun v => by rw [hlen]⟩, ?_, ?_⟩
  · congr 1
    rw [d4.pools, d3.pools, d2.pools, d1.pools]
    simp only [KV.get?_insert]
    rcases hpools with ⟨rfl, rfl, rfl, rfl⟩ | ⟨hkk, rfl, rfl⟩
    · by_cases x : key = k.key
      · rw [if_pos x, if_pos x]
        congr 1
        unfold depositPool
        simp only [Pool.mk.injEq, and_true]
        split <;> split <;> omega
      · rw [if_neg x, if_neg x, if_neg x, if_neg x]
    · by_cases x : key = k.key
      · rw [if_pos x, if_neg (by rw [x]; exact hkk), if_pos x]
      · rw [if_neg x, if_neg x]
  · have hf := hfix key
    cases h : s2.ticks.get? key with
    | none => rw [h] at hf; cases h' : s2'.ticks.get? key with
      | none => rfl
      | some t' => rw [h'] at hf; cases hf
    | some t =>
      cases h' : s2'.ticks.get? key with
      | none => rw [h, h'] at hf; cases hf
      | some t' =>
        rw [h, h', Option.map_some, Option.map_some, Option.some.injEq] at hf
        obtain ⟨kk, ek, hrec⟩ := m2.struct.ticks _ _ h
        have v1 := (m2.tickSum kk t.index hrec.kwf hrec.ok.i32).eq
        have v2 := (m2'.tickSum kk t.index hrec.kwf hrec.ok.i32).eq
        unfold tickVal at v1 v2
        rw [← ek, h] at v1
        rw [← ek, h'] at v2
        rw [hS, hE] at v2
        have hg : t'.gross = t.gross := v2.1.trans v1.1.symm
        have hn : t'.net = t.net := v2.2.trans v1.2.symm
        rw [Option.map_some, Option.map_some]
        congr 1
        have hc : t'.change = t.change ∧ (t'.sign = t.sign ∨ t.change = 0) := by
          unfold Tick.net at hn
          cases e1 : t.sign <;> cases e2 : t'.sign <;> simp [e1, e2] at hn ⊢ <;> omega
        refine tick_back_plain ?_ hc.2
        have e6 := hc.1
        unfold Tick.fixed at hf
        simp only [Prod.mk.injEq] at hf
        obtain ⟨f1, f2, f3, f4, f5⟩ := hf
        cases t; cases t'
        simp only at *
        simp only [Tick.mk.injEq]
        exact ⟨f1, trivial, e6, hg, f2, f3, f4, f5⟩
  · rw [d4.bitmap, d3.bitmap, d2.bitmap, d1.bitmap]
    simp only [d1.absent, d3.absent]
    have hx : ∀ {i j : Int} {k k' : PoolKey}, k.wf → k'.wf → i32 i → i32 j → tickKey k i = tickKey k' j →
        bitMask k i key = bitMask k' j key ∧ (s.ticks.get? (tickKey k i) = none ↔ s.ticks.get? (tickKey k' j) = none) := by
      intro i j k k' h1 h2 h3 h4 e
      obtain ⟨rfl, rfl⟩ := tickKey_inj h1 h2 h3 h4 e
      exact ⟨rfl, Iff.rfl⟩
    have := @xor_swap ((s.bitmap.get? key).getD 0) (bitMask k' l' key) (bitMask k' u' key) (bitMask k l key) (bitMask k u key)
      (s.ticks.get? (tickKey k' l') = none) (s.ticks.get? (tickKey k' u') = none) (s.ticks.get? (tickKey k l) = none)
      (s.ticks.get? (tickKey k u) = none) (tickKey k l = tickKey k' l') (tickKey k u = tickKey k' l') (tickKey k l = tickKey k' u')
      (tickKey k u = tickKey k' u') inferInstance inferInstance inferInstance inferInstance inferInstance inferInstance inferInstance
      inferInstance (fun e => hx hk' hk hl' hl e.symm) (fun e => hx hk' hk hl' hu e.symm) (fun e => hx hk' hk hu' hl e.symm)
      (fun e => hx hk' hk hu' hu e.symm) (fun e => d1.keys (e.1.trans e.2.symm)) (fun e => d3.keys (e.1.symm.trans e.2))
      (fun e => d3.keys (e.1.symm.trans e.2)) (fun e => d1.keys (e.1.trans e.2.symm))
    simp only [ne_eq, eq_comm (a := tickKey k' l'), eq_comm (a := tickKey k' u')]
    exact this
  · obtain ⟨a, m1, m2, x1, x2, x3, rfl⟩ := d1.paid
    obtain ⟨a', m1', m2', y1, y2, y3, rfl⟩ := d4.paid
    rw [hcalc L u l hfa, x1, ok_inj] at y1
    subst y1
    rw [x2, ok_inj] at y2
    rw [x3, ok_inj] at y3
    rw [y2, y3]
  · obtain ⟨a, m1, m2, x1, x2, x3, rfl⟩ := d2.paid
    obtain ⟨a', m1', m2', y1, y2, y3, rfl⟩ := d3.paid
    rw [← hcalc L' u' l' hfb, x1, ok_inj] at y1
    subst y1
    rw [x2, ok_inj] at y2
    rw [x3, ok_inj] at y3
    rw [y2, y3]

end OraiV3
