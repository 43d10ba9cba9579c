import Verif.HandoverSpec
import Verif.Lemmas.ClaimFirst
import Verif.Lemmas.Positions
import Verif.PayoutSpec

/-!
# Positions that change hands
-/

namespace OraiV3

/-- What a call does that gives a position to somebody. -/
theorem handover_inv {c : Chain} {s s1 : Store} {env : Env} {info : Info} {msg : Msg} {A B : Bytes} {i : Nat} {out : List OutMsg}
    (hm : HandsOver msg info.sender A i B) (h : execute c env info msg s = .ok (s1, out)) :
    i < U32 ∧ ∃ q sr, s.positions.get? (positionKey A i) = some q ∧ removePositionAt s A i = .ok (sr, q) ∧
      addPosition sr B { q with approvals := [] } = .ok s1 := by
  obtain ⟨hw, hd⟩ := execute_ok.1 h
  have nft : ∀ {s'}, i < 2 ^ 32 → transferNftInternal s env info B (positionKey A i) = .ok s' →
      i < U32 ∧ ∃ q sr, s.positions.get? (positionKey A i) = some q ∧ removePositionAt s A i = .ok (sr, q) ∧
        addPosition sr B { q with approvals := [] } = .ok s' := by
    intro s' hi h
    obtain ⟨owner, q, sr, p, h1, h2, -, h4, h5⟩ := transferNftInternal_inv h
    rw [tokenOwner_positionKey, ok_inj] at h1
    subst h1
    rw [tokenIndex_positionKey _ hi] at h4
    obtain ⟨-, -, hp, -⟩ := removePositionAt_inv h4
    rw [h2, Option.some.injEq] at hp
    subst hp
    exact ⟨hi, q, sr, h2, h4, h5⟩
  cases msg <;> simp only [HandsOver] at hm
  · obtain ⟨rfl, rfl, rfl⟩ := hm
    obtain ⟨q, sr, h1, h2, -, h4, -⟩ := transferPosition_inv hd
    exact ⟨hw, q, sr, h1, h2, h4⟩
  · obtain ⟨hi, rfl, rfl⟩ := hm
    simp only [dispatch, transferNft, bind_ok, pure_ok, Prod.mk.injEq] at hd
    obtain ⟨s', hs, rfl, -⟩ := hd
    exact nft hi hs
  · obtain ⟨hi, rfl, rfl⟩ := hm
    simp only [dispatch, sendNft, bind_ok, pure_ok, Prod.mk.injEq] at hd
    obtain ⟨s', hs, rfl, -⟩ := hd
    exact nft hi hs

/-- The storage after a position was handed over. -/
theorem handover_view {s sr s1 : Store} {A B : Bytes} {i : Nat} {q q' : Position} (hp : PosInv s) (hi : i < U32)
    (h : removePositionAt s A i = .ok (sr, q)) (h1 : addPosition sr B q' = .ok s1) :
    s1.config = s.config ∧ s1.pools = s.pools ∧ s1.ticks = s.ticks ∧ s1.bitmap = s.bitmap ∧ s1.operators = s.operators ∧
    getPositionLength s1 B = getPositionLength sr B + 1 ∧ getPositionLength sr B + 1 < U32 ∧
    s1.positions = sr.positions.insert (positionKey B (getPositionLength sr B)) q' ∧
    sr.positions.get? (positionKey B (getPositionLength sr B)) = none := by
  obtain ⟨ps, pl, rfl⟩ := removePositionAt_frame h
  obtain ⟨hn, rfl⟩ := addPosition_ok.1 h1
  refine ⟨rfl, rfl, rfl, rfl, rfl, ?_, hn, rfl, ?_⟩
  · show ((KV.insert _ B _).get? B).getD 0 = _
    rw [KV.get?_insert, if_pos rfl]; rfl
  · have hp' := (hp.remove hi h).2
    have := hp'.iff B (getPositionLength { s with positions := ps, posLen := pl } B) (by omega)
    cases hx : ps.get? (positionKey B (getPositionLength { s with positions := ps, posLen := pl } B)) with
    | none => rfl
    | some p => exact absurd (this.1 ⟨p, hx⟩) (Nat.lt_irrefl _)

/-- What is unclaimed depends on pools and ticks only. -/
theorem accrued_congr {s s1 : Store} (h1 : s1.pools = s.pools) (h2 : s1.ticks = s.ticks) (x : Bool) (q : Position) :
    accrued s1 x q = accrued s x q := by
  unfold accrued
  rw [h1, h2]

/-- The same payment to two accounts. -/
theorem pay_either {c : Chain} {l : Ledger} {dx dy A B : Bytes} {m n : Nat} (hA : A ≠ c.self) (hB : B ≠ c.self) (hd : dx ≠ dy)
    {t t1 : Store} :
    ((∃ l', l.applyAll c (assetTransfer c dx m ⟨A, []⟩ ++ assetTransfer c dy n ⟨A, []⟩) = .ok l') ↔
      ∃ l', l.applyAll c (assetTransfer c dx m ⟨B, []⟩ ++ assetTransfer c dy n ⟨B, []⟩) = .ok l') ∧
    ∀ l1 l2, l.applyAll c (assetTransfer c dx m ⟨A, []⟩ ++ assetTransfer c dy n ⟨A, []⟩) = .ok l1 →
      l.applyAll c (assetTransfer c dx m ⟨B, []⟩ ++ assetTransfer c dy n ⟨B, []⟩) = .ok l2 →
      SamePayment c l A ⟨t, l1⟩ B ⟨t1, l2⟩ := by
  have ha : tokenAsset c dy ≠ tokenAsset c dx := fun e => hd (tokenAsset_inj e).symm
  have ex : ∀ W : Bytes, W ≠ c.self → ((∃ l', l.applyAll c (assetTransfer c dx m ⟨W, []⟩ ++ assetTransfer c dy n ⟨W, []⟩) = .ok l') ↔
      m ≤ l.bal (tokenAsset c dx) c.self ∧ n ≤ l.bal (tokenAsset c dy) c.self) := by
    intro W hW
    constructor
    · rintro ⟨l', h⟩
      obtain ⟨h1, h2, -⟩ := (pay_two (fun e => hW e.symm) hd).1 h
      exact ⟨h1, h2⟩
    · rintro ⟨h1, h2⟩
      exact ⟨⟨fun a w => if a = tokenAsset c dx then paidOn c.self W (l.bal (tokenAsset c dx)) m w
          else if a = tokenAsset c dy then paidOn c.self W (l.bal (tokenAsset c dy)) n w else l.bal a w, l.allow⟩,
        (pay_two (fun e => hW e.symm) hd).2 ⟨h1, h2, rfl, fun _ _ => rfl⟩⟩
  refine ⟨(ex A hA).trans (ex B hB).symm, fun l1 l2 h1 h2 a => ?_⟩
  obtain ⟨-, -, -, g1⟩ := (pay_two (fun e => hA e.symm) hd).1 h1
  obtain ⟨-, -, -, g2⟩ := (pay_two (fun e => hB e.symm) hd).1 h2
  have p1 : ∀ (W : Bytes) f k, W ≠ c.self → paidOn c.self W f k W = f W + k := fun W f k hW => by
    unfold paidOn; rw [if_neg hW, if_pos rfl]
  have p2 : ∀ (W : Bytes) f k, paidOn c.self W f k c.self = f c.self - k := fun W f k => by
    unfold paidOn; rw [if_pos rfl]
  simp only
  rw [g1, g2, g1, g2]
  by_cases c1 : a = tokenAsset c dx
  · simp only [if_pos c1, p1 A _ _ hA, p1 B _ _ hB, p2]
    rw [c1]
    exact ⟨by push_cast; omega, trivial⟩
  · by_cases c2 : a = tokenAsset c dy
    · simp only [if_neg c1, if_pos c2, p1 A _ _ hA, p1 B _ _ hB, p2]
      rw [c2]
      exact ⟨by push_cast; omega, trivial⟩
    · simp only [if_neg c1, if_neg c2]
      exact ⟨by omega, trivial⟩

/-- Taking the position out again. -/
theorem handover_removeAt {s sr s1 t : Store} {A B : Bytes} {i : Nat} {q q' p : Position} (hp : PosInv s) (hi : i < U32)
    (h : removePositionAt s A i = .ok (sr, q)) (h1 : addPosition sr B q' = .ok s1)
    (h2 : removePositionAt s1 B (getPositionLength sr B) = .ok (t, p)) :
    t.positions = sr.positions ∧ ∀ o, getPositionLength t o = getPositionLength sr o := by
  obtain ⟨-, -, -, -, -, v1, -, v2, v3⟩ := handover_view hp hi h h1
  obtain ⟨hn, hs1⟩ := addPosition_ok.1 h1
  obtain ⟨n, e1, -, e3⟩ := removePositionAt_inv h2
  rcases e3 with ⟨e4, -⟩ | ⟨-, rfl⟩
  · omega
  have hnn : n = getPositionLength sr B := by omega
  subst hnn
  refine ⟨KV.ext_get? fun key => ?_, fun o => ?_⟩
  · show (s1.positions.erase _).get? key = _
    rw [v2, KV.get?_erase, KV.get?_insert]
    by_cases hk : key = positionKey B (getPositionLength sr B)
    · rw [if_pos hk, hk, v3]
    · rw [if_neg hk, if_neg hk]
  · show ((s1.posLen.insert B _).get? o).getD 0 = _
    rw [KV.get?_insert]
    by_cases ho : o = B
    · rw [if_pos ho, ho]; rfl
    · rw [if_neg ho, hs1]
      show ((KV.insert _ B _).get? o).getD 0 = _
      rw [KV.get?_insert, if_neg ho]; rfl

/-- Closing the position leaves the same storage, whoever holds it. -/
theorem handover_remove {c : Chain} {s sr s1 t t1 : Store} {env : Env} {A B : Bytes} {i : Nat} {q : Position} {o o1 : List OutMsg}
    (hs : Struct s) (hs1 : Struct s1) (hp : PosInv s) (hi : i < U32)
    (h : removePositionAt s A i = .ok (sr, q)) (h1 : addPosition sr B { q with approvals := [] } = .ok s1)
    (hr : removePosition c s env ⟨A, []⟩ i = .ok (t, o))
    (hr1 : removePosition c s1 env ⟨B, []⟩ (getPositionLength sr B) = .ok (t1, o1)) :
    t1.config = t.config ∧ t1.pools = t.pools ∧ t1.ticks = t.ticks ∧ t1.bitmap = t.bitmap ∧ t1.operators = t.operators ∧
    t1.positions = t.positions ∧ ∀ o, positionList t1 o = positionList t o := by
  obtain ⟨v1, v2, v3, v4, v5, v6, v7, v8, v9⟩ := handover_view hp hi h h1
  obtain ⟨pos, tl, tu, pool, r, sr0, sa, sb, y1, y2, y3, y4, y5, y6, y7, -, -, y8, y9, y10, y11, y12, y13, y14, y15, y16, y17, y18,
    y19, -⟩ := removePosition_view hs hr
  obtain ⟨pos1, tl1, tu1, pool1, r1, sr', sa', sb', z1, z2, z3, z4, z5, z6, z7, -, -, z8, z9, z10, z11, z12, z13, z14, z15, z16, z17, z18,
    z19, -⟩ := removePosition_view hs1 hr1
  rw [h, ok_inj, Prod.mk.injEq] at y12
  obtain ⟨rfl, rfl⟩ := y12
  rw [v8, KV.get?_insert, if_pos rfl, Option.some.injEq] at z1
  subst z1
  simp only at z2 z3 z4 z5 z6 z7 z8 z9 z10 z11 z16 z19
  rw [v3, y2, Option.some.injEq] at z2
  rw [v3, y3, Option.some.injEq] at z3
  rw [v2, y6, Option.some.injEq] at z6
  subst z2 z3 z6
  obtain ⟨q0, e1, e2, e3, e4, e5, -⟩ := Position.modify_inv y7
  obtain ⟨q1, f1, f2, f3, f4, f5, -⟩ := Position.modify_inv z7
  have tL : r1.lower = r.lower := ok_inj.1 (f1.symm.trans e1)
  have tU : r1.upper = r.upper := ok_inj.1 (f2.symm.trans e2)
  rw [tL, tU] at f4
  have hpool : r1.pool = r.pool := by rw [f5, e5, ok_inj.1 (f4.symm.trans e4)]
  rw [tL] at z10 z8
  rw [tU] at z11 z9
  have b1 : sa'.bitmap = sa.bitmap :=
    settle_bitmap z8 (show (savePool s1 q.poolKey r1.pool).bitmap = (savePool s q.poolKey r.pool).bitmap from v4) y10 z10
  have b2 : sb'.bitmap = sb.bitmap := settle_bitmap z9 b1 y11 z11
  obtain ⟨p1, p2⟩ := handover_removeAt hp hi h h1 z12
  have hpos : t1.positions = t.positions := by rw [z17, y17, p1]
  refine ⟨by rw [z13, y13, v1], by rw [z16, y16, hpool, v2], KV.ext_get? fun key => ?_, by rw [z15, y15, b2], by rw [z14, y14, v5], hpos,
    fun o => ?_⟩
  · rw [z19, y19, tL, tU, v3]
  · have hl : getPositionLength t1 o = getPositionLength t o := by
      have := p2 o
      unfold getPositionLength at this ⊢
      rw [z18, y18, this]
    unfold positionList
    rw [hpos, hl]

/-- Claiming the fees leaves the same storage but for where the position is, whoever holds it. -/
theorem handover_claim {c : Chain} {s sr s1 t t1 : Store} {env : Env} {A B : Bytes} {i : Nat} {q : Position} {o o1 : List OutMsg}
    (hs : Struct s) (hs1 : Struct s1) (hp : PosInv s) (hi : i < U32)
    (h : removePositionAt s A i = .ok (sr, q)) (h1 : addPosition sr B { q with approvals := [] } = .ok s1)
    (hr : claimFee c s env ⟨A, []⟩ i = .ok (t, o))
    (hr1 : claimFee c s1 env ⟨B, []⟩ (getPositionLength sr B) = .ok (t1, o1)) :
    t1.config = t.config ∧ t1.pools = t.pools ∧ t1.ticks = t.ticks ∧ t1.bitmap = t.bitmap ∧ t1.operators = t.operators ∧
    ∃ p p1, t.positions.get? (positionKey A i) = some p ∧ t1.positions.get? (positionKey B (getPositionLength sr B)) = some p1 ∧
      SamePosition p p1 := by
  obtain ⟨v1, v2, v3, v4, v5, v6, v7, v8, v9⟩ := handover_view hp hi h h1
  obtain ⟨-, -, hq, -⟩ := removePositionAt_inv h
  obtain ⟨pos, tl, tu, pool, r, y1, y2, y3, y4, y5, y6, y7, y8, y9, y10, y11, y12, y13, -, y14, -⟩ := claimFee_view hs hr
  obtain ⟨pos1, tl1, tu1, pool1, r1, z1, z2, z3, z4, z5, z6, z7, z8, z9, z10, z11, z12, z13, -, z14, -⟩ := claimFee_view hs1 hr1
  rw [hq, Option.some.injEq] at y1
  subst y1
  rw [v8, KV.get?_insert, if_pos rfl, Option.some.injEq] at z1
  subst z1
  simp only at z2 z3 z4 z5 z6 z7 z12 z14
  rw [v3, y2, Option.some.injEq] at z2
  rw [v3, y3, Option.some.injEq] at z3
  rw [v2, y6, Option.some.injEq] at z6
  subst z2 z3 z6
  obtain ⟨q0, e1, e2, e3, e4, e5, -⟩ := Position.modify_inv y7
  obtain ⟨q1, f1, f2, f3, f4, f5, -⟩ := Position.modify_inv z7
  have tL : r1.lower = r.lower := ok_inj.1 (f1.symm.trans e1)
  have tU : r1.upper = r.upper := ok_inj.1 (f2.symm.trans e2)
  rw [tL, tU] at f3 f4
  have hpool : r1.pool = r.pool := by rw [f5, e5, ok_inj.1 (f4.symm.trans e4)]
  refine ⟨by rw [z8, y8, v1], by rw [z12, y12, hpool, v2], KV.ext_get? fun key => ?_, by rw [z10, y10, v4], by rw [z9, y9, v5], _, _,
    by rw [y13, KV.get?_insert, if_pos rfl], by rw [z13, KV.get?_insert, if_pos rfl], ?_⟩
  · rw [z14, y14, tL, tU, v3]
  · obtain ⟨ox, oy, l, a1, a2, a3, a4, a5, a6, a7⟩ := Position.update_inv e3
    obtain ⟨ox', oy', l', b1, b2, b3, b4, b5, b6, b7⟩ := Position.update_inv f3
    simp only [if_true, Nat.add_zero] at a4 b4
    unfold SamePosition
    rw [a7, b7, a4.2, b4.2]

end OraiV3
