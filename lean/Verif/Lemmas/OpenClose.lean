import Verif.Lemmas.Struct
import Verif.Lemmas.Amounts
import Verif.Lemmas.PoolEvo

/-!
# Opening a position and closing it again
-/

namespace OraiV3

theorem wsub_self {a : Nat} (h : a < U128) : wsub a a = 0 := by
  unfold wsub
  have : a + (U128 - a) = U128 := by omega
  rw [this, Nat.mod_self]

theorem toFee_zero {L f : Nat} (h : feeGrowthToFee 0 L = .ok f) : f = 0 := by
  unfold feeGrowthToFee at h
  rw [cast128_ok] at h
  have := h.2
  simp at this
  exact this.symm

theorem Struct.tokens_ne {s : Store} (h : Struct s) {k : PoolKey} {p : Pool} (hk : k.wf)
    (hp : s.pools.get? k.key = some p) : k.tokenX ≠ k.tokenY := by
  obtain ⟨k', e, hk', _, hv⟩ := h.pools _ _ hp
  rw [PoolKey.key_inj hk hk' e]
  intro e
  rw [e, bytesLt_irrefl] at hv
  simp at hv

/-- Removing what was just added gives back at most what was taken, and no fees. -/
theorem modify_roundtrip {p : Position} {pool : Pool} {tu tl : Tick} {L now now' ts ts' : Nat} {r r' : ModifyRes}
    (hx : p.owedX = 0) (hy : p.owedY = 0) (hl : p.liquidity = 0)
    (h : p.modify pool tu tl L true now ts = .ok r)
    (h' : r.pos.modify r.pool r.upper r.lower r.pos.liquidity false now' ts' = .ok r') :
    r'.x ≤ r.x ∧ r'.y ≤ r.y ∧ r'.pos.owedX = 0 ∧ r'.pos.owedY = 0 := by
  obtain ⟨q, d1, d2, d3, d4, d5, d6, d7⟩ := Position.modify_inv h
  obtain ⟨q', e1, e2, e3, e4, e5, e6, e7⟩ := Position.modify_inv h'
  obtain ⟨a, liq, f1, f2, f3⟩ := Pool.updateLiquidity_inv d4
  obtain ⟨a', liq', g1, g2, g3⟩ := Pool.updateLiquidity_inv e4
  obtain ⟨ox, oy, l, u1, u2, u3, u4, u5, u6, u7⟩ := Position.update_inv d3
  obtain ⟨ox', oy', l', v1, v2, v3, v4, v5, v6, v7⟩ := Position.update_inv e3
  have hox : ox = 0 := by
    rw [hl] at u2; unfold feeGrowthToFee at u2; rw [cast128_ok] at u2; simp at u2; exact u2.symm
  have hoy : oy = 0 := by
    rw [hl] at u3; unfold feeGrowthToFee at u3; rw [cast128_ok] at u3; simp at u3; exact u3.symm
  simp only [if_true] at u4
  have hpos : r.pos.owedX = 0 ∧ r.pos.owedY = 0 ∧ r.pos.liquidity = L := by
    rw [u7]; exact ⟨by simp only; omega, by simp only; omega, by simp only; omega⟩
  have hfx : r.pos.fgInX =
      feeGrowthInside r.lower.index r.lower.outX r.upper.index r.upper.outX pool.tick pool.fgX := by rw [u7]
  have hfy : r.pos.fgInY =
      feeGrowthInside r.lower.index r.lower.outY r.upper.index r.upper.outY pool.tick pool.fgY := by rw [u7]
  obtain ⟨il, _, olx, oly, _⟩ := Tick.update_inv e1
  obtain ⟨iu, _, oux, ouy, _⟩ := Tick.update_inv e2
  have hpool : r.pool.tick = pool.tick ∧ r.pool.sqrtPrice = pool.sqrtPrice ∧ r.pool.fgX = pool.fgX ∧
      r.pool.fgY = pool.fgY := by rw [d5, f3]; exact ⟨rfl, rfl, rfl, rfl⟩
  obtain ⟨p1, p2, p3, p4⟩ := hpool
  rw [il, iu, olx, oux, p1, p3, hfx, wsub_self (feeGrowthInside_lt _ _ _ _ _ _)] at v2
  rw [il, iu, oly, ouy, p1, p4, hfy, wsub_self (feeGrowthInside_lt _ _ _ _ _ _)] at v3
  have hx' := toFee_zero v2
  have hy' := toFee_zero v3
  change calculateAmountDelta pool.tick pool.sqrtPrice L true r.upper.index r.lower.index = .ok a at f1
  change calculateAmountDelta r.pool.tick r.pool.sqrtPrice r.pos.liquidity false r'.upper.index r'.lower.index = .ok a' at g1
  rw [p1, p2, il, iu, hpos.2.2] at g1
  obtain ⟨k1, k2, _⟩ := amountDelta_down_le_up f1 g1
  refine ⟨?_, ?_, ?_, ?_⟩
  · rw [e6, g3, d6, f3]; exact k1
  · rw [e7, g3, d7, f3]; exact k2
  · rw [v7]; show r.pos.owedX + ox' = 0; omega
  · rw [v7]; show r.pos.owedY + oy' = 0; omega

/-- Creating and removing a position: amounts. -/
theorem createRemove_amounts {c : Chain} {s s1 s2 : Store} {env env' : Env} {info info' : Info} {k : PoolKey}
    {l u : Int} {L lo hi : Nat} {out out' : List OutMsg} (hs : Struct s) (hs1 : Struct s1)
    (hw : (Msg.createPosition k l u L lo hi).wf)
    (h : createPosition c s env info k l u L lo hi = .ok (s1, out)) (he : info'.sender = info.sender)
    (h' : removePosition c s1 env' info' (getPositionLength s info.sender) = .ok (s2, out')) :
    ∃ x y x' y' m1 m2, k.tokenX ≠ k.tokenY ∧ x' ≤ x ∧ y' ≤ y ∧
      assetTransferFrom c k.tokenX x info = .ok m1 ∧ assetTransferFrom c k.tokenY y info = .ok m2 ∧
      out = m1 ++ m2 ∧
      out' = assetTransfer c k.tokenX x' info' ++ assetTransfer c k.tokenY y' info' := by
  obtain ⟨pool, tl, tu, r, rl, m1, m2, hp, hL, hlu, _, _, il, iu, _, _, _, _, _, hm, _, _, e1, e2, _, _, e3, t1, t2,
    eo⟩ := createPosition_view hs hw h
  obtain ⟨pos, tl', tu', pool', r', sr, sa, sb, f1, f2, f3, _, _, f4, hm', _, _, _, _, _, _, _, _, _, _, _, _, _, _,
    eo'⟩ := removePosition_view hs1 h'
  obtain ⟨q, d1, d2, d3, d4, d5, d6, d7⟩ := Position.modify_inv hm
  obtain ⟨ox, oy, lq, u1, u2, u3, u4, u5, u6, u7⟩ := Position.update_inv d3
  have hne : k.tokenX ≠ k.tokenY := hs.tokens_ne hw.1 hp
  rw [he, e2, KV.get?_insert, if_pos rfl, Option.some.injEq] at f1
  subst f1
  have hk : r.pos.poolKey = k := by rw [u7]
  have hl : r.pos.lower = l := by rw [u7]
  have hu : r.pos.upper = u := by rw [u7]
  have hkey : tickKey k l ≠ tickKey k u := fun e => hlu (tickKey_inj hw.1 hw.1 hw.2.1 hw.2.2.1 e).2
  rw [hk, hl, e3, if_neg hkey, if_pos rfl, Option.some.injEq] at f2
  rw [hk, hu, e3, if_pos rfl, Option.some.injEq] at f3
  rw [hk, e1, KV.get?_insert, if_pos rfl, Option.some.injEq] at f4
  subst f2 f3 f4
  obtain ⟨g1, g2, g3, g4⟩ := modify_roundtrip rfl rfl rfl hm hm'
  refine ⟨r.x, r.y, r'.x + r'.pos.owedX, r'.y + r'.pos.owedY, m1, m2, hne, by omega, by omega, t1, t2, eo, ?_⟩
  rw [eo', hk]

end OraiV3
