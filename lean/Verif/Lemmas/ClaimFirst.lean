import Verif.Lemmas.Payout
import Verif.Lemmas.Liveness
import Verif.Lemmas.Trace

/-!
# Claiming the fees of a position before closing it
-/

namespace OraiV3

/-- A claim touches a tick record at most in the sign of a zero change. -/
theorem tick_claim {t t1 : Tick} {maxL : Nat} {up : Bool} (h : t.update 0 maxL up true = .ok t1) :
    t1 = t ∨ (t.change = 0 ∧ t.sign = up ∧ t1 = { t with sign := !up }) := by
  unfold Tick.update at h
  rw [bind_ok] at h
  obtain ⟨g, hg, h⟩ := h
  have hg' : g = t.gross := by
    unfold Tick.newGross at hg
    simp only [if_true, bind_ok, checkedAdd_ok, ite_error_ok, pure_ok] at hg
    omega
  subst hg'
  unfold Tick.updateChange at h
  split at h
  · rename_i hx
    split at h
    · rw [pure_ok] at h
      left; rw [← h]; rfl
    · rename_i hc
      rw [pure_ok] at h
      right
      have h0 : t.change = 0 := by simp only at hc; omega
      have hs : t.sign = up := by
        simp only at hx
        cases hs : t.sign <;> cases up <;> simp_all
      refine ⟨h0, hs, ?_⟩
      rw [← h, hs]
      cases t
      simp only at h0
      subst h0
      rfl
  · rw [bind_ok] at h
    obtain ⟨n, hn, h⟩ := h
    rw [add128_ok] at hn
    rw [pure_ok] at h
    left
    rw [← h, ← hn.2]
    rfl

/-- Taking liquidity away from a tick gives the same whether or not fees were claimed before. -/
theorem tick_claim_remove {t t1 t2 t3 : Tick} {maxL maxL' L : Nat} {up : Bool} (h : t.update 0 maxL up true = .ok t1)
    (h1 : t1.update L maxL' up false = .ok t2) (h2 : t.update L maxL' up false = .ok t3) : t2 = t3 := by
  rcases tick_claim h with rfl | ⟨h0, hs, rfl⟩
  · rw [h1, ok_inj] at h2; exact h2
  · unfold Tick.update at h1 h2
    rw [bind_ok] at h1 h2
    obtain ⟨g, hg, h1⟩ := h1
    obtain ⟨g', hg', h2⟩ := h2
    have hg1 : t.newGross false L maxL' = .ok g := hg
    rw [hg1, ok_inj] at hg'
    subst hg'
    cases t
    simp only at h0 hs
    subst h0 hs
    unfold Tick.updateChange at h1 h2
    rename_i sign _ _ _ _ _
    cases sign <;> simp only [Bool.not_true, Bool.not_false, Bool.xor_false, Bool.xor_true, if_true, if_false,
      Bool.false_eq_true, bne_self_eq_false, Nat.not_lt_zero, gt_iff_lt, bind_ok, add128_ok, pure_ok, Nat.zero_add, Nat.sub_zero] at h1 h2 <;> (obtain ⟨c, hc, h2⟩ := h2; rw [← h1, ← h2, hc.2])

theorem settle_bitmap {s s' t t' : Store} {k : PoolKey} {i : Int} {r : Tick} (hi : r.index = i) (hb : s'.bitmap = s.bitmap)
    (h : settleTick s k i r = .ok t) (h' : settleTick s' k i r = .ok t') : t'.bitmap = t.bitmap := by
  obtain ⟨-, -, b1⟩ := settleTick_view hi h
  obtain ⟨-, -, b2⟩ := settleTick_view hi h'
  split at b1
  · rename_i z
    rw [if_pos z] at b2
    obtain ⟨c1, x1, -, x2⟩ := b1
    obtain ⟨c2, y1, -, y2⟩ := b2
    rw [x1, ok_inj] at y1
    subst y1
    rw [x2, y2]
    unfold getChunk
    rw [hb]
  · rename_i z
    rw [if_neg z] at b2
    rw [b1, b2, hb]

/-- Removing an entry of an account's list gives the same whatever the entry says. -/
theorem removeAt_insert {s s1 t t1 : Store} {o : Bytes} {i : Nat} {p p1 q : Position} (hw : i < U32) (hlen : getPositionLength s o < U32)
    (hp : s1.positions = s.positions.insert (positionKey o i) q) (hl : s1.posLen = s.posLen)
    (h : removePositionAt s o i = .ok (t, p)) (h1 : removePositionAt s1 o i = .ok (t1, p1)) :
    t1.positions = t.positions ∧ t1.posLen = t.posLen := by
  obtain ⟨n, e1, -, e3⟩ := removePositionAt_inv h
  obtain ⟨n', f1, -, f3⟩ := removePositionAt_inv h1
  have hn : n' = n := by
    unfold getPositionLength at e1 f1
    rw [hl] at f1
    omega
  subst hn
  rcases e3 with ⟨a, last, b, rfl⟩ | ⟨a, rfl⟩ <;> rcases f3 with ⟨a', last', b', rfl⟩ | ⟨a', rfl⟩ <;> try omega
  · have hne : positionKey o n' ≠ positionKey o i := fun e => by
      have := (positionKey_inj (by omega) hw e).2
      omega
    rw [hp, KV.get?_insert, if_neg hne, b, Option.some.injEq] at b'
    subst b'
    refine ⟨KV.ext_get? fun key => ?_, by rw [hl]⟩
    simp only
    rw [hp, KV.get?_insert, KV.get?_insert, KV.get?_erase, KV.get?_erase, KV.get?_insert]
    by_cases hk : key = positionKey o i
    · rw [if_pos hk, if_pos hk]
    · rw [if_neg hk, if_neg hk, if_neg hk]
  · refine ⟨KV.ext_get? fun key => ?_, by rw [hl]⟩
    simp only
    rw [hp, KV.get?_erase, KV.get?_erase, KV.get?_insert]
    by_cases hk : key = positionKey o i
    · rw [if_pos hk, if_pos hk]
    · rw [if_neg hk, if_neg hk, if_neg hk]

/-- Closing a position leaves the same storage whether or not its fees were claimed before. -/
theorem claim_remove_store {c : Chain} {s s1 t t1 : Store} {env env' : Env} {info : Info} {i : Nat} {o o' o1 : List OutMsg}
    (hw : i < U32) (hs : Struct s) (hs1 : Struct s1) (hi : PosInv s) (hc : claimFee c s env info i = .ok (s1, o))
    (h : removePosition c s env' info i = .ok (t, o')) (h1 : removePosition c s1 env' info i = .ok (t1, o1)) : t1 = t := by
  obtain ⟨pos, tl, tu, pool, r, x1, x2, x3, x4, x5, x6, x7, x8, x9, x10, x11, x12, x13, -, x14, -⟩ := claimFee_view hs hc
  obtain ⟨pos0, tl0, tu0, pool0, r0, sr, sa, sb, y1, y2, y3, y4, y5, y6, y7, -, -, y8, y9, y10, y11, y12, y13, y14, y15, y16, y17, y18,
    y19, -⟩ := removePosition_view hs h
  obtain ⟨pos1, tl1, tu1, pool1, r1, sr', sa', sb', z1, z2, z3, z4, z5, z6, z7, -, -, z8, z9, z10, z11, z12, z13, z14, z15, z16, z17, z18,
    z19, -⟩ := removePosition_view hs1 h1
  have hok := hs.positions _ _ x1
  rw [x1, Option.some.injEq] at y1
  subst y1
  rw [x2, Option.some.injEq] at y2
  rw [x3, Option.some.injEq] at y3
  rw [x6, Option.some.injEq] at y6
  subst y2 y3 y6
  obtain ⟨q, d1, d2, d3, d4, d5, -⟩ := Position.modify_inv x7
  obtain ⟨q0, e1, e2, e3, e4, e5, -⟩ := Position.modify_inv y7
  obtain ⟨q1, f1, f2, f3, f4, f5, -⟩ := Position.modify_inv z7
  obtain ⟨ox, oy, lq, -, -, -, u4, -, -, u7⟩ := Position.update_inv d3
  simp only [if_true, Nat.add_zero] at u4
  rw [x13, KV.get?_insert, if_pos rfl, Option.some.injEq] at z1
  have k1 : pos1.poolKey = pos.poolKey := by rw [← z1, u7]
  have k2 : pos1.lower = pos.lower := by rw [← z1, u7]
  have k3 : pos1.upper = pos.upper := by rw [← z1, u7]
  have k4 : pos1.liquidity = pos.liquidity := by rw [← z1, u7]; exact u4.2
  rw [k1, k2, x14, if_pos rfl, Option.some.injEq] at z2
  have hkey : tickKey pos.poolKey pos.upper ≠ tickKey pos.poolKey pos.lower := fun e => by
    have := (tickKey_inj hok.kwf hok.kwf hok.upper.i32 hok.lower.i32 e).2
    have := hok.lt
    omega
  rw [k1, k3, x14, if_neg hkey, if_pos rfl, Option.some.injEq] at z3
  rw [k1, x12, KV.get?_insert, if_pos rfl, Option.some.injEq] at z6
  subst z2 z3 z6
  rw [k4, k1] at f1 f2
  have tL : r1.lower = r0.lower := tick_claim_remove d1 f1 e1
  have tU : r1.upper = r0.upper := tick_claim_remove d2 f2 e2
  have hpool : r1.pool = r0.pool := by
    obtain ⟨a, liq, g1, g2, g3⟩ := Pool.updateLiquidity_inv d4
    have hl : liq = pool.liquidity := by
      split at g2 <;> simp only [if_true, Nat.add_zero] at g2
      · exact g2.2
      · exact g2
    have hp : r.pool = { pool with lastTs := env.millis } := by rw [d5, g3, hl]
    rw [hp, k4, tL, tU] at f4
    change Pool.updateLiquidity { pool with lastTs := env'.millis } pos.liquidity false r0.upper.index r0.lower.index = .ok q1 at f4
    rw [f4, ok_inj] at e4
    rw [f5, e5, e4]
  rw [k1, k2, tL] at z10
  rw [k1, k3, tU] at z11
  rw [k2, tL] at z8
  rw [k3, tU] at z9
  have b1 : sa'.bitmap = sa.bitmap := settle_bitmap z8 (show (savePool s1 pos.poolKey r1.pool).bitmap = (savePool s pos.poolKey r0.pool).bitmap from x10) y10 z10
  have b2 : sb'.bitmap = sb.bitmap := settle_bitmap z9 b1 y11 z11
  obtain ⟨p1, p2⟩ := removeAt_insert hw (hi.len info.sender) x13 x11 y12 z12
  have w1 : t1.config = t.config := by rw [z13, y13, x8]
  have w2 : t1.operators = t.operators := by rw [z14, y14, x9]
  have w3 : t1.bitmap = t.bitmap := by rw [z15, y15, b2]
  have w4 : t1.pools = t.pools := by
    rw [z16, y16, x12, k1, hpool]
    refine KV.ext_get? fun key => ?_
    rw [KV.get?_insert, KV.get?_insert, KV.get?_insert]
    split <;> rfl
  have w5 : t1.positions = t.positions := by rw [z17, y17, p1]
  have w6 : t1.posLen = t.posLen := by rw [z18, y18, p2]
  have w7 : t1.ticks = t.ticks := by
    refine KV.ext_get? fun key => ?_
    rw [z19, y19, k1, k2, k3, tL, tU, x14]
    by_cases h1 : key = tickKey pos.poolKey pos.upper
    · rw [if_pos h1, if_pos h1]
    · rw [if_neg h1, if_neg h1]
      by_cases h2 : key = tickKey pos.poolKey pos.lower
      · simp only [if_pos h2, if_neg h1]
      · simp only [if_neg h2, if_neg h1]
  cases t; cases t1
  simp only at w1 w2 w3 w4 w5 w6 w7
  subst w1 w2 w3 w4 w5 w6 w7
  rfl

/-! ## Payments -/

theorem move_zero (l : Ledger) (a : Asset) (x y : Bytes) : l.move a x y 0 = .ok l := by
  unfold Ledger.move
  rw [if_neg (by omega), ok_inj]
  cases l
  simp only [Nat.sub_zero, Nat.add_zero, Ledger.mk.injEq, and_true]
  funext b z
  unfold upd
  by_cases hb : b = a
  · simp only [hb, if_true]
    by_cases hy : z = y
    · simp only [hy, if_true]
      split
      · rename_i e; rw [e]
      · rfl
    · simp only [if_neg hy]
      split
      · rename_i e; rw [e]
      · rfl
  · simp only [if_neg hb]

theorem applyAll_parts (c : Chain) : ∀ (ms ms' : List OutMsg) (l : Ledger),
    l.applyAll c (ms ++ ms') = l.applyAll c ms >>= fun l' => l'.applyAll c ms'
  | [], ms', l => rfl
  | m :: ms, ms', l => by
    show (l.apply c m >>= fun l1 => l1.applyAll c (ms ++ ms')) = (l.apply c m >>= fun l1 => l1.applyAll c ms) >>= _
    rw [bind_assoc]
    congr 1
    funext l1
    exact applyAll_parts c ms ms' l1

theorem pay_eq (c : Chain) (l : Ledger) (d : Bytes) (n : Nat) (info : Info) :
    l.applyAll c (assetTransfer c d n info) = l.move (tokenAsset c d) c.self info.sender n := by
  unfold assetTransfer tokenAsset
  split
  · rename_i e; subst e; exact (move_zero _ _ _ _).symm
  · split
    · exact bind_pure _
    · exact bind_pure _

/-- Balances after `x` has paid `n` to `y`. -/
def paidOn (x y : Bytes) (f : Bytes → Nat) (n : Nat) (z : Bytes) : Nat := if z = x then f x - n else if z = y then f y + n else f z

theorem move_paid {l l' : Ledger} {a : Asset} {x y : Bytes} {n : Nat} (hne : x ≠ y) :
    l.move a x y n = .ok l' ↔ n ≤ l.bal a x ∧ l'.allow = l.allow ∧
      ∀ b z, l'.bal b z = if b = a then paidOn x y (l.bal a) n z else l.bal b z := by
  unfold Ledger.move
  rw [ite_error_ok, ok_inj]
  have key : ∀ b z, upd l.bal a (upd (upd (l.bal a) x (l.bal a x - n)) y ((upd (l.bal a) x (l.bal a x - n)) y + n)) b z =
      if b = a then paidOn x y (l.bal a) n z else l.bal b z := by
    intro b z
    unfold upd paidOn
    by_cases hb : b = a
    · rw [if_pos hb, if_pos hb]
      by_cases hy : z = y
      · have hx : ¬ z = x := fun e => hne (e.symm.trans hy)
        rw [if_pos hy, if_neg hx, if_pos hy, if_neg (fun e => hne e.symm)]
      · rw [if_neg hy, if_neg hy]
    · rw [if_neg hb, if_neg hb]
  constructor
  · rintro ⟨h, rfl⟩
    exact ⟨by omega, rfl, key⟩
  · rintro ⟨h, h1, h2⟩
    refine ⟨by omega, ?_⟩
    cases l'
    simp only at h1 h2
    simp only [Ledger.mk.injEq]
    refine ⟨?_, h1.symm⟩
    funext b z
    rw [key, h2]

/-- Balances after two tokens have been paid. -/
theorem pay_two {c : Chain} {l l' : Ledger} {dx dy who : Bytes} {m n : Nat} (hne : c.self ≠ who) (hd : dx ≠ dy) :
    (l.applyAll c (assetTransfer c dx m ⟨who, []⟩ ++ assetTransfer c dy n ⟨who, []⟩) = .ok l') ↔
      m ≤ l.bal (tokenAsset c dx) c.self ∧ n ≤ l.bal (tokenAsset c dy) c.self ∧ l'.allow = l.allow ∧
      ∀ b z, l'.bal b z = if b = tokenAsset c dx then paidOn c.self who (l.bal (tokenAsset c dx)) m z else
        if b = tokenAsset c dy then paidOn c.self who (l.bal (tokenAsset c dy)) n z else l.bal b z := by
  have ha : tokenAsset c dy ≠ tokenAsset c dx := fun e => hd (tokenAsset_inj e).symm
  simp only [applyAll_parts, pay_eq, bind_ok, move_paid hne]
  constructor
  · rintro ⟨l1, ⟨h1, h2, h3⟩, h4, h5, h6⟩
    have e : l1.bal (tokenAsset c dy) = l.bal (tokenAsset c dy) := by funext z; rw [h3, if_neg ha]
    rw [e] at h4 h6
    refine ⟨h1, h4, h5.trans h2, fun b z => ?_⟩
    rw [h6, h3]
    by_cases hb : b = tokenAsset c dx
    · rw [if_pos hb, if_pos hb, if_neg (fun e => ha (e.symm.trans hb))]
    · rw [if_neg hb, if_neg hb]
  · rintro ⟨h1, h2, h3, h4⟩
    refine ⟨⟨fun b z => if b = tokenAsset c dx then paidOn c.self who (l.bal (tokenAsset c dx)) m z else l.bal b z, l.allow⟩,
      ⟨h1, rfl, fun _ _ => rfl⟩, ?_, h3, fun b z => ?_⟩
    · simp only [if_neg ha]; exact h2
    · simp only [if_neg ha]
      rw [h4]
      by_cases hb : b = tokenAsset c dx
      · rw [if_pos hb, if_pos hb, if_neg (fun e => ha (e.symm.trans hb))]
      · rw [if_neg hb, if_neg hb]

theorem paidOn_add {x y : Bytes} (hne : x ≠ y) (f : Bytes → Nat) (m n : Nat) :
    paidOn x y (paidOn x y f m) n = paidOn x y f (n + m) := by
  funext z
  unfold paidOn
  by_cases hx : z = x
  · simp only [hx, if_true]; omega
  · by_cases hy : z = y
    · simp only [hy, if_neg (fun e : y = x => hne e.symm), if_true]; omega
    · simp only [if_neg hx, if_neg hy]

/-- Paying two amounts of two tokens at once or in two parts is the same. -/
theorem pay_split {c : Chain} {l l' : Ledger} {dx dy who : Bytes} {fx fy px py : Nat} (hne : c.self ≠ who) (hd : dx ≠ dy) :
    (l.applyAll c (assetTransfer c dx (px + fx) ⟨who, []⟩ ++ assetTransfer c dy (py + fy) ⟨who, []⟩) = .ok l') ↔
    ∃ l1, l.applyAll c (assetTransfer c dx fx ⟨who, []⟩ ++ assetTransfer c dy fy ⟨who, []⟩) = .ok l1 ∧
      l1.applyAll c (assetTransfer c dx px ⟨who, []⟩ ++ assetTransfer c dy py ⟨who, []⟩) = .ok l' := by
  have ha : tokenAsset c dy ≠ tokenAsset c dx := fun e => hd (tokenAsset_inj e).symm
  have self : ∀ f n, paidOn c.self who f n c.self = f c.self - n := fun f n => by unfold paidOn; rw [if_pos rfl]
  simp only [pay_two hne hd]
  have key : ∀ l1 : Ledger, (∀ b z, l1.bal b z = if b = tokenAsset c dx then paidOn c.self who (l.bal (tokenAsset c dx)) fx z else
        if b = tokenAsset c dy then paidOn c.self who (l.bal (tokenAsset c dy)) fy z else l.bal b z) → 
      l1.bal (tokenAsset c dx) = paidOn c.self who (l.bal (tokenAsset c dx)) fx ∧
      l1.bal (tokenAsset c dy) = paidOn c.self who (l.bal (tokenAsset c dy)) fy := by
    intro l1 h
    exact ⟨by funext z; rw [h, if_pos rfl], by funext z; rw [h, if_neg ha, if_pos rfl]⟩
  constructor
  · rintro ⟨h1, h2, h3, h4⟩
    refine ⟨⟨fun b z => if b = tokenAsset c dx then paidOn c.self who (l.bal (tokenAsset c dx)) fx z else
        if b = tokenAsset c dy then paidOn c.self who (l.bal (tokenAsset c dy)) fy z else l.bal b z, l.allow⟩,
      ⟨by omega, by omega, rfl, fun _ _ => rfl⟩, ?_⟩
    obtain ⟨k1, k2⟩ := key ⟨fun b z => if b = tokenAsset c dx then paidOn c.self who (l.bal (tokenAsset c dx)) fx z else
        if b = tokenAsset c dy then paidOn c.self who (l.bal (tokenAsset c dy)) fy z else l.bal b z, l.allow⟩ (fun _ _ => rfl)
    rw [k1, k2, self, self, paidOn_add hne, paidOn_add hne]
    refine ⟨by omega, by omega, h3, fun b z => ?_⟩
    rw [h4]
    split
    · rfl
    · split
      · rfl
      · rename_i n1 n2
        simp only [if_neg n1, if_neg n2]
  · rintro ⟨l1, ⟨h1, h2, h3, h4⟩, g1, g2, g3, g4⟩
    obtain ⟨k1, k2⟩ := key l1 h4
    rw [k1, self] at g1
    rw [k2, self] at g2
    rw [k1, k2, paidOn_add hne, paidOn_add hne] at g4
    refine ⟨by omega, by omega, g3.trans h3, fun b z => ?_⟩
    rw [g4, h4]
    split
    · rfl
    · split <;> rfl

end OraiV3
