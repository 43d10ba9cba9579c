import Verif.Lemmas.OpenClose
import Verif.Lemmas.Liveness
import Verif.Lemmas.Active
import Verif.Lemmas.Solvent
import Verif.Lemmas.Deposit
import Verif.Lemmas.Literal

/-!
# Closing a position right after it was opened
-/

namespace OraiV3

/-- Adding liquidity leaves at least that much active in the pool, if the range contains its tick, and nothing to be paid as
fees. -/
theorem createPosition_closable {c : Chain} {s s1 : Store} {env env' : Env} {info info' : Info} {k : PoolKey}
    {l u : Int} {L lo hi : Nat} {out : List OutMsg} (hr : Reach c s) (hr1 : Reach c s1)
    (hw : (Msg.createPosition k l u L lo hi).wf)
    (h : createPosition c s env info k l u L lo hi = .ok (s1, out)) (he : info'.sender = info.sender) :
    ∃ s2 out', removePosition c s1 env' info' (getPositionLength s info.sender) = .ok (s2, out') := by
  have hs := hr.mreach.struct
  have hm1 := hr1.mreach
  obtain ⟨pool, tl, tu, r, rl, m1, m2, hp, hL, hlu, _, _, il, iu, _, _, _, _, _, hm, _, _, e1, e2, _, hlt, e3, t1, t2,
    eo⟩ := createPosition_view hs hw h
  obtain ⟨q, d1, d2, d3, d4, d5, d6, d7⟩ := Position.modify_inv hm
  obtain ⟨a, liq, f1, f2, f3⟩ := Pool.updateLiquidity_inv d4
  obtain ⟨ox, oy, lq, u1, u2, u3, u4, u5, u6, u7⟩ := Position.update_inv d3
  have hk : r.pos.poolKey = k := by rw [u7]
  have hl : r.pos.lower = l := by rw [u7]
  have hu : r.pos.upper = u := by rw [u7]
  simp only [if_true] at u4
  have hq : r.pos.liquidity = L := by rw [u7]; simp only; omega
  have jl : r.lower.index = l := by rw [(Tick.update_inv d1).1, il]
  have ju : r.upper.index = u := by rw [(Tick.update_inv d2).1, iu]
  change calculateAmountDelta pool.tick pool.sqrtPrice L true r.upper.index r.lower.index = .ok a at f1
  rw [jl, ju] at f1
  have hpt : r.pool.tick = pool.tick := by rw [d5, f3]
  have hpp : r.pool.sqrtPrice = pool.sqrtPrice := by rw [d5, f3]
  have hpl : r.pool.liquidity = liq := by rw [d5, f3]
  have hpx : r.pool.fgX = pool.fgX := by rw [d5, f3]
  have hpy : r.pool.fgY = pool.fgY := by rw [d5, f3]
  have hkey : tickKey k l ≠ tickKey k u := fun e => hlu (tickKey_inj hw.1 hw.1 hw.2.1 hw.2.2.1 e).2
  have g1 : s1.positions.get? (positionKey info'.sender (getPositionLength s info.sender)) = some r.pos := by
    rw [he, e2, KV.get?_insert, if_pos rfl]
  have g2 : s1.pools.get? r.pos.poolKey.key = some r.pool := by rw [hk, e1, KV.get?_insert, if_pos rfl]
  have g3 : s1.ticks.get? (tickKey k l) = some r.lower := by rw [e3, if_neg hkey, if_pos rfl]
  have g4 : s1.ticks.get? (tickKey k u) = some r.upper := by rw [e3, if_pos rfl]
  obtain ⟨i1, i2⟩ := growthInside_both (pool := r.pool) g3 g4 jl ju
  have acc : ∀ x, accrued s1 x r.pos = 0 := by
    intro x
    unfold accrued accruedIn
    rw [g2]
    cases x
    · show wsub (growthInside s1.ticks r.pos.poolKey r.pool false r.pos.lower r.pos.upper) r.pos.fgInY * r.pos.liquidity = 0
      have hf : r.pos.fgInY =
        feeGrowthInside r.lower.index r.lower.outY r.upper.index r.upper.outY pool.tick pool.fgY := by rw [u7]
      rw [hk, hl, hu, i2, hpt, hpy, hf, wsub_self (feeGrowthInside_lt _ _ _ _ _ _), Nat.zero_mul]
    · show wsub (growthInside s1.ticks r.pos.poolKey r.pool true r.pos.lower r.pos.upper) r.pos.fgInX * r.pos.liquidity = 0
      have hf : r.pos.fgInX =
        feeGrowthInside r.lower.index r.lower.outX r.upper.index r.upper.outX pool.tick pool.fgX := by rw [u7]
      rw [hk, hl, hu, i1, hpt, hpx, hf, wsub_self (feeGrowthInside_lt _ _ _ _ _ _), Nat.zero_mul]
  have hok := hm1.struct.positions _ _ g1
  refine removePosition_ok' hm1.struct hm1.posInv hm1.tickSum hm1.bitInv hm1.price (by omega) g1 g2 ?_ ?_
  · intro h1 h2
    rw [hl, hpt] at h1
    rw [hu, hpt] at h2
    rw [amountDelta_inside f1, if_pos (by simp [h1, h2])] at f2
    simp only [if_true] at f2
    rw [hq, hpl]
    omega
  · intro b hb
    rw [hpt, hpp, hl, hu, hq] at hb
    obtain ⟨b1, b2, -⟩ := amountDelta_down_le_up f1 hb
    rw [acc, acc]
    have ok1 := hok.lower
    have ok2 := hok.upper
    rw [hk, hl] at ok1
    rw [hk, hu] at ok2
    obtain ⟨-, c1, c2⟩ := amountDelta_clamp (hr.mreach.price _ _ hw.1 hp) ok1 ok2 f1
    have := getDeltaX_lt c1
    have := getDeltaY_lt c2
    omega

/-- After a deposit the contract has at least what was charged. -/
theorem deposit_self {c : Chain} {info : Info} (hne : info.sender ≠ c.self) {k : PoolKey} {x y : Nat} {b b' : Asset → Nat}
    {m1 m2 : List OutMsg} (h1 : assetTransferFrom c k.tokenX x info = .ok m1) (h2 : assetTransferFrom c k.tokenY y info = .ok m2)
    (hd : k.tokenX ≠ k.tokenY)
    (hb : ∀ a, (b' a : Int) = b a + fundsDelta c info.sender info.funds a c.self + outDelta c (m1 ++ m2) a c.self) :
    x ≤ b' (tokenAsset c k.tokenX) ∧ y ≤ b' (tokenAsset c k.tokenY) := by
  constructor
  · have e := hb (tokenAsset c k.tokenX)
    rw [outDelta_append, funds_self hne] at e
    have c1 := charge_self hne h1 k.tokenX
    have c2 := charge_self hne h2 k.tokenX
    rw [if_neg (Ne.symm hd), if_neg (fun e => hd e.1.symm)] at c2
    rw [if_pos rfl] at c1
    clear hb h1 h2
    cases hc : c.isAddr k.tokenX <;> simp [hc] at c1 e <;> omega
  · have e := hb (tokenAsset c k.tokenY)
    rw [outDelta_append, funds_self hne] at e
    have c1 := charge_self hne h1 k.tokenY
    have c2 := charge_self hne h2 k.tokenY
    rw [if_neg hd, if_neg (fun e => hd e.1)] at c1
    rw [if_pos rfl] at c2
    clear hb h1 h2
    cases hc : c.isAddr k.tokenY <;> simp [hc] at c2 e <;> omega

end OraiV3
