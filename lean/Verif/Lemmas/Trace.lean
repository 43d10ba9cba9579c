import Verif.TraceSpec
import Verif.Lemmas.OpenClose
import Verif.Lemmas.TickSum
import Verif.Lemmas.Bitmap
import Verif.Lemmas.PosInv
import Verif.Lemmas.RelStore

/-!
# Opening and closing a position leaves no trace
-/

namespace OraiV3

/-- Taking away what was added to a tick. -/
theorem tick_back {t t1 t2 : Tick} {delta maxL maxL' : Nat} {up : Bool} (h : t.update delta maxL up true = .ok t1)
    (h' : t1.update delta maxL' up false = .ok t2) :
    t2 = { t with sign := t2.sign } ∧ (t2.sign = t.sign ∨ t.change = 0) := by
  obtain ⟨a1, a2, a3, a4, a5, a6, a7, -⟩ := Tick.update_inv h
  obtain ⟨b1, b2, b3, b4, b5, b6, b7, -⟩ := Tick.update_inv h'
  simp only [if_true, Bool.false_eq_true, if_false] at a6 b6
  have hn : t2.net = t.net := by
    rw [b7, a7]
    cases up
    · rw [if_neg (by decide), if_pos (by decide)]; omega
    · rw [if_pos (by decide), if_neg (by decide)]; omega
  have hg : t2.gross = t.gross := by omega
  have hc : t2.change = t.change ∧ (t2.sign = t.sign ∨ t.change = 0) := by
    unfold Tick.net at hn
    cases e1 : t.sign <;> cases e2 : t2.sign <;> simp [e1, e2] at hn ⊢ <;> omega
  refine ⟨?_, hc.2⟩
  have e1 := b1.trans a1
  have e2 := b2.trans a2
  have e3 := b3.trans a3
  have e4 := b4.trans a4
  have e5 := b5.trans a5
  have e6 := hc.1
  cases t; cases t2
  simp only at e1 e2 e3 e4 e5 e6 hg
  subst e1 e2 e3 e4 e5 e6 hg
  rfl

theorem tick_back_plain {t t2 : Tick} (h : t2 = { t with sign := t2.sign }) (h' : t2.sign = t.sign ∨ t.change = 0) :
    t2.plain = t.plain := by
  rcases h' with e | e
  · rw [e] at h; rw [h]
  · rw [h]
    unfold Tick.plain
    simp only [e, if_true]

theorem plain_eq {a b : Tick} (h : b.plain = a.plain) : b = { a with sign := b.sign } ∧ (b.sign = a.sign ∨ a.change = 0) := by
  unfold Tick.plain at h
  cases a; cases b
  simp only at h
  split at h <;> split at h <;> simp only [Tick.mk.injEq] at h <;> simp only [Tick.mk.injEq] at * <;>
    obtain ⟨rfl, h2, rfl, rfl, rfl, rfl, rfl, rfl⟩ := h
  · rename_i h3 _; exact ⟨⟨rfl, trivial, rfl, rfl, rfl, rfl, rfl, rfl⟩, .inr h3⟩
  · contradiction
  · contradiction
  · exact ⟨⟨rfl, trivial, rfl, rfl, rfl, rfl, rfl, rfl⟩, .inl h2⟩

/-- The bit a tick has in the bitmap. -/
def bitMask (k : PoolKey) (i : Int) (key : Bytes) : Nat :=
  match tickToPosition i k.tier.spacing with
  | .ok c => if key = bitmapKey c.1 k then 2 ^ c.2 else 0
  | .error _ => 0

theorem flip_mask {m m' : KV Nat} {k : PoolKey} {i : Int} {c : Nat × Nat} (hc : tickToPosition i k.tier.spacing = .ok c)
    (h : m' = m.insert (bitmapKey c.1 k) (flipBit ((m.get? (bitmapKey c.1 k)).getD 0) c.2)) (key : Bytes) :
    (m'.get? key).getD 0 = (m.get? key).getD 0 ^^^ bitMask k i key := by
  unfold bitMask
  rw [hc, h, KV.get?_insert]
  simp only
  split
  · rename_i e; rw [e]; rfl
  · rw [Nat.xor_zero]

theorem create_mask {s : Store} {now : Nat} {k : PoolKey} {i : Int} {r : Store × Tick} {pool : Pool}
    (hp : s.pools.get? k.key = some pool) (h : getOrCreateTick s now k i = .ok r) (key : Bytes) :
    (r.1.bitmap.get? key).getD 0 =
      (s.bitmap.get? key).getD 0 ^^^ (if s.ticks.get? (tickKey k i) = none then bitMask k i key else 0) := by
  obtain ⟨-, -, hb⟩ := getOrCreateTick_view hp h
  rcases hb with ⟨h1, h2⟩ | ⟨h1, c, h2, -, h4⟩
  · rw [h2, if_neg (by rw [h1]; simp), Nat.xor_zero]
  · rw [if_pos h1]
    exact flip_mask h2 h4 key

theorem settle_mask {s s' : Store} {k : PoolKey} {i : Int} {t : Tick} (hi : t.index = i)
    (h : settleTick s k i t = .ok s') (key : Bytes) :
    (s'.bitmap.get? key).getD 0 = (s.bitmap.get? key).getD 0 ^^^ (if t.gross = 0 then bitMask k i key else 0) := by
  obtain ⟨-, -, hb⟩ := settleTick_view hi h
  by_cases z : t.gross = 0
  · rw [if_pos z] at hb ⊢
    obtain ⟨c, h2, -, h4⟩ := hb
    exact flip_mask h2 h4 key
  · rw [if_neg z] at hb ⊢
    rw [hb, Nat.xor_zero]

theorem TickUsed.gross {s : Store} (ht : TickSum s) {k : PoolKey} (hk : k.wf) {pool : Pool} {now : Nat} {i : Int}
    (hi : i32 i) {t : Tick} (h : TickUsed s k pool now i t) : t.gross = 0 ↔ s.ticks.get? (tickKey k i) = none := by
  rcases h with h | ⟨h0, _, h2⟩
  · have := ht k i hk hi
    unfold TickSumAt tickVal at this
    rw [h] at this
    simp only [Option.map_some] at this
    rw [h]
    simp [this.1]
  · obtain ⟨_, _, e, _⟩ := Tick.create_inv h2
    simp [h0, e]

theorem open_close {c : Chain} {s s1 s2 : Store} {env env' : Env} {info info' : Info} {k : PoolKey}
    {l u : Int} {L lo hi : Nat} {out out' : List OutMsg} (hm : MReach c s) (hs1 : Struct s1)
    (hw : (Msg.createPosition k l u L lo hi).wf)
    (h : createPosition c s env info k l u L lo hi = .ok (s1, out)) (he : info'.sender = info.sender)
    (h' : removePosition c s1 env' info' (getPositionLength s info.sender) = .ok (s2, out')) : NoTrace s s2 := by
  have hs := hm.struct
  have hts := hm.tickSum
  have hpi := hm.posInv
  obtain ⟨pool, tl, tu, r, rl, m1, m2, hp, hL, hlu, U1, U2, il, iu, G1, Gl, ⟨ru, G2, Gu, B1⟩, _, _, hmod, c1, o1, e1, e2, p1, p2, e3, -, -,
    -⟩ := createPosition_view hs hw h
  obtain ⟨pos, tl', tu', pool', r', sr, sa, sb, f1, f2, f3, _, _, f4, hmod', _, _, jl, ju, S1, S2, R1, c2, o2, B2, q1, q2, q3, q4,
    -⟩ := removePosition_view hs1 h'
  obtain ⟨q, d1, d2, d3, d4, d5, d6, d7⟩ := Position.modify_inv hmod
  obtain ⟨q', d1', d2', d3', d4', d5', d6', d7'⟩ := Position.modify_inv hmod'
  obtain ⟨ox, oy, lq, u1, u2, u3, u4, u5, u6, u7⟩ := Position.update_inv d3
  obtain ⟨a, liq, g1, g2, g3⟩ := Pool.updateLiquidity_inv d4
  obtain ⟨a', liq', g1', g2', g3'⟩ := Pool.updateLiquidity_inv d4'
  rw [he, e2, KV.get?_insert, if_pos rfl, Option.some.injEq] at f1
  subst f1
  have hk : r.pos.poolKey = k := by rw [u7]
  have hl : r.pos.lower = l := by rw [u7]
  have hu : r.pos.upper = u := by rw [u7]
  simp only [if_true] at u4
  have hliq : r.pos.liquidity = L := by rw [u7]; simp only; omega
  have hkey : tickKey k l ≠ tickKey k u := fun e => hlu (tickKey_inj hw.1 hw.1 hw.2.1 hw.2.2.1 e).2
  rw [hk, hl, e3, if_neg hkey, if_pos rfl, Option.some.injEq] at f2
  rw [hk, hu, e3, if_pos rfl, Option.some.injEq] at f3
  rw [hk, e1, KV.get?_insert, if_pos rfl, Option.some.injEq] at f4
  subst f2 f3 f4
  rw [hliq] at d1' d2'
  obtain ⟨bl, bl'⟩ := tick_back d1 d1'
  obtain ⟨bu, bu'⟩ := tick_back d2 d2'
  have gl : r'.lower.gross = tl.gross := by rw [bl]
  have gu : r'.upper.gross = tu.gross := by rw [bu]
  have zl := U1.gross hts hw.1 hw.2.1
  have zu := U2.gross hts hw.1 hw.2.2.1
  rw [hk, hl] at S1
  rw [hk, hu] at S2
  -- the pool
  have hpl : r.pool = { pool with lastTs := env.millis, liquidity := liq } := by rw [d5, g3]
  have hpl' : r'.pool = { pool with lastTs := env'.millis, liquidity := liq' } := by rw [d5', g3', hpl]
  have hback : liq' = pool.liquidity := by
    rw [hpl, hliq, (Tick.update_inv d1').1, (Tick.update_inv d2').1] at g1'
    change calculateAmountDelta pool.tick pool.sqrtPrice L false r.upper.index r.lower.index = .ok a' at g1'
    change calculateAmountDelta pool.tick pool.sqrtPrice L true r.upper.index r.lower.index = .ok a at g1
    have e := (amountDelta_down_le_up g1 g1').2.2
    rw [e, hpl, hliq] at g2'
    simp only [if_true, Bool.false_eq_true, if_false] at g2 g2'
    split at g2
    · rename_i hr
      rw [if_pos hr] at g2'
      omega
    · rename_i hr
      rw [if_neg hr] at g2'
      omega
  rw [hback] at hpl'
  refine ⟨c2.trans c1, o2.trans o1, fun key => ?_, fun key => ?_, fun key => ?_, ?_, fun v => ?_⟩
  · rw [q1, hk, e1, KV.get?_insert, KV.get?_insert]
    split
    · rename_i e
      rw [e, hp, hpl']
      rfl
    · rfl
  · have hT : ∀ (i : Int) (t t2 : Tick), i32 i → TickUsed s k pool env.millis i t → t2 = { t with sign := t2.sign } →
        (t2.sign = t.sign ∨ t.change = 0) → (t.gross = 0 ↔ s.ticks.get? (tickKey k i) = none) →
        (if t2.gross = 0 then none else some t2).map Tick.plain = (s.ticks.get? (tickKey k i)).map Tick.plain := by
      intro i t t2 hi hU h1 h2 hz
      have hg : t2.gross = t.gross := by rw [h1]
      rw [hg]
      rcases hU with hU | ⟨hU, -⟩
      · rw [if_neg (by rw [hz, hU]; simp), hU, Option.map_some, Option.map_some, tick_back_plain h1 h2]
      · rw [if_pos (hz.2 hU), hU]
    rw [q4, hk, hl, hu]
    split
    · rename_i e
      rw [e]
      exact hT u tu r'.upper hw.2.2.1 U2 bu bu' zu
    · rename_i n1
      split
      · rename_i e
        rw [e]
        exact hT l tl r'.lower hw.2.1 U1 bl bl' zl
      · rename_i n2
        rw [e3, if_neg n1, if_neg n2]
  · obtain ⟨-, w1, -⟩ := getOrCreateTick_view hp G1
    obtain ⟨t1, bm1, F1⟩ := getOrCreateTick_frame G1
    have hp1 : rl.1.pools.get? k.key = some pool := by rw [F1]; exact hp
    have hx : rl.1.ticks.get? (tickKey k u) = s.ticks.get? (tickKey k u) := by rw [w1, if_neg hkey.symm]
    have hb : (savePool s1 k r'.pool).bitmap = ru.1.bitmap := B1
    rw [B2, settle_mask (ju.trans hu) S2, settle_mask (jl.trans hl) S1, hb, create_mask hp1 G2, create_mask hp G1, hx]
    simp only [gl, gu, zl, zu]
    generalize (if s.ticks.get? (tickKey k l) = none then bitMask k l key else 0) = A
    generalize (if s.ticks.get? (tickKey k u) = none then bitMask k u key else 0) = B
    generalize (s.bitmap.get? key).getD 0 = C
    rw [Nat.xor_assoc C A B, Nat.xor_assoc C, Nat.xor_assoc C, Nat.xor_assoc A B A, Nat.xor_comm B A, ← Nat.xor_assoc A A B,
      Nat.xor_self, Nat.zero_xor, Nat.xor_self, Nat.xor_zero]
  · obtain ⟨m, z1, z2, z3⟩ := removePositionAt_inv R1
    rw [he] at z1 z2 z3
    have hlen : getPositionLength s1 info.sender = getPositionLength s info.sender + 1 := by
      unfold getPositionLength
      rw [p1, KV.get?_insert, if_pos rfl]
      rfl
    have hm' : m = getPositionLength s info.sender := by omega
    rcases z3 with ⟨z3, -⟩ | ⟨-, z3⟩
    · omega
    · have hnone : s.positions.get? (positionKey info.sender (getPositionLength s info.sender)) = none := by
        have := hpi.iff info.sender (getPositionLength s info.sender) (by omega)
        cases hx : s.positions.get? (positionKey info.sender (getPositionLength s info.sender)) with
        | none => rfl
        | some q => exact absurd (this.1 ⟨q, hx⟩) (Nat.lt_irrefl _)
      rw [q2, z3]
      refine KV.ext_get? fun id => ?_
      simp only
      rw [KV.get?_erase, e2, KV.get?_insert]
      split
      · rename_i e; rw [e, hnone]
      · rfl
  · obtain ⟨m, z1, z2, z3⟩ := removePositionAt_inv R1
    rw [he] at z1 z2 z3
    have hlen : getPositionLength s1 info.sender = getPositionLength s info.sender + 1 := by
      unfold getPositionLength
      rw [p1, KV.get?_insert, if_pos rfl]
      rfl
    have hm' : m = getPositionLength s info.sender := by omega
    rcases z3 with ⟨z3, -⟩ | ⟨-, z3⟩
    · omega
    · rw [q3, z3]
      simp only
      rw [KV.get?_insert, p1, KV.get?_insert]
      split
      · rename_i e
        rw [e, hm']
        rfl
      · rfl

/-- Storages without a difference behave alike. -/
theorem NoTrace.related {s s' : Store} (h : NoTrace s s') {n : Nat} (hs : Struct s)
    (ht : ∀ (k : PoolKey) (p : Pool), k.wf → s.pools.get? k.key = some p → p.startTs ≤ n) :
    SR false true true (fun _ => True) n n (fun _ => True) (fun _ => True) s s' s s' where
  config := h.config
  operators := h.operators
  pools k _ := by
    have e := h.pools k.key
    revert e
    cases hp : s.pools.get? k.key with
    | none => cases s'.pools.get? k.key <;> intro e <;> simp [ORel] at e ⊢
    | some p =>
      cases s'.pools.get? k.key with
      | none => intro e; simp at e
      | some p' =>
        intro e
        rw [Option.map_some, Option.map_some, Option.some.injEq] at e
        obtain ⟨k', ek, hk', -⟩ := hs.pools _ _ hp
        have hst := ht k' p hk' (ek ▸ hp)
        have hl := (hs.fg _ _ hp).2.2
        cases p; cases p'
        simp only [Pool.mk.injEq] at e
        obtain ⟨rfl, rfl, rfl, rfl, rfl, rfl, rfl, rfl, -, rfl⟩ := e
        exact ⟨rfl, hst, hst, fun _ => hl⟩
  ticks k i _ := by
    have e := h.ticks (tickKey k i)
    revert e
    cases hp : s.ticks.get? (tickKey k i) with
    | none => cases s'.ticks.get? (tickKey k i) <;> intro e <;> simp [ORel] at e ⊢
    | some p =>
      cases s'.ticks.get? (tickKey k i) with
      | none => intro e; simp at e
      | some p' =>
        intro e
        rw [Option.map_some, Option.map_some, Option.some.injEq] at e
        obtain ⟨k', -, hr⟩ := hs.ticks _ _ hp
        obtain ⟨e1, e2⟩ := plain_eq e
        refine ⟨⟨p.secondsOutside, p'.sign, e1, ?_⟩, fun _ => hr.gross⟩
        rcases e2 with e2 | e2
        · exact .inl e2
        · exact .inr ⟨rfl, e2⟩
  bitmap k i _ := ⟨(h.bitmap _).symm, by simp⟩
  positions id _ := by
    rw [h.positions]
    cases s.positions.get? id with
    | none => trivial
    | some q => exact ⟨rfl, by simp⟩
  posLen u _ := ⟨h.posLen u, by simp⟩
  expires _ _ _ _ := trivial
  kPools _ _ := ⟨rfl, rfl⟩
  kTicks _ _ := ⟨rfl, rfl⟩
  kBitmap _ _ := ⟨rfl, rfl⟩
  kPositions _ hn := absurd trivial hn
  kPosLen _ hn := absurd trivial hn
  kConfig hW := by simp at hW
  kOperators hW := by simp at hW

end OraiV3
