import Verif.Lemmas.Active
import Mathlib.Algebra.BigOperators.Intervals
import Mathlib.Order.Interval.Finset.Basic
import Mathlib.Data.Int.Interval

/-!
# Cap: the liquidity of all positions of a pool fits into 128 bits
-/

namespace OraiV3

/-- Below the cap at every tick. -/
def CapInv (s : Store) : Prop :=
  ∀ (k : PoolKey) (i : Int), k.wf → i32 i → liquidityStartingAt s k i + liquidityEndingAt s k i = 0 ∨
    liquidityStartingAt s k i + liquidityEndingAt s k i < maxLiquidityPerTick k.tier.spacing

theorem CapInv.congr {s s' : Store} (h : CapInv s) (h1 : ∀ k i, liquidityStartingAt s' k i = liquidityStartingAt s k i)
    (h2 : ∀ k i, liquidityEndingAt s' k i = liquidityEndingAt s k i) : CapInv s' := by
  intro k i hk hi
  rw [h1, h2]; exact h k i hk hi

theorem CapInv.micro {c : Chain} {s s' : Store} (hs : Struct s) (hi : PosInv s) (ht : TickSum s) (h : CapInv s)
    (hm : Micro c s s') : CapInv s' := by
  have same : ∀ {s' : Store}, s'.positions = s.positions → CapInv s' := fun h2 =>
    h.congr (fun _ _ => sumPositions_congr h2 _ _) (fun _ _ => sumPositions_congr h2 _ _)
  have edit : ∀ {s' : Store} {id : Bytes} {p p' : Position}, s.positions.get? id = some p →
      s'.positions = s.positions.insert id p' → p'.what = p.what → CapInv s' := by
    intro s' id p p' hp he hw
    simp only [Position.what, Prod.mk.injEq] at hw
    refine h.congr (fun _ _ => ?_) (fun _ _ => ?_)
    · exact sumPositions_edit hp he _ _ hw.1 (by rw [hw.2.1, hw.2.2.2])
    · exact sumPositions_edit hp he _ _ hw.1 (by rw [hw.2.2.1, hw.2.2.2])
  cases hm with
  | @config cfg cfg' hc hf ht => exact same rfl
  | opers ops => exact same rfl
  | @poolMeta k p rcv px py hk hp hx hy => exact same rfl
  | @newPool _ env t0 t1 tier price tick out hw h =>
    obtain ⟨_, k', _, _, _, _, _, _, _, rfl, _⟩ := createPool_inv h
    exact same rfl
  | @create _ env info k l u L lo hi' out hw h' =>
    obtain ⟨p, hwhat, hperm⟩ := createPosition_sum hs hi hw h'
    obtain ⟨pool, tl, tu, r, rl, m1, m2, hp, hL, hlu, vl, vu, il, iu, _, _, _, _, _, hm, e1, e2, e3, e4, e5, hU, htk, _⟩ :=
      createPosition_view hs hw h'
    obtain ⟨hk, hl, hu, _⟩ := hw
    obtain ⟨q, d1, d2, _⟩ := Position.modify_inv hm
    obtain ⟨_, _, _, _, _, g1, n1, _⟩ := Tick.update_inv d1
    obtain ⟨_, _, _, _, _, g2, n2, _⟩ := Tick.update_inv d2
    simp only [if_true] at g1 g2
    simp only [Position.what, Prod.mk.injEq] at hwhat
    obtain ⟨w1, w2, w3, w4⟩ := hwhat
    intro k' i' hk' hi''
    have hold := h k' i' hk' hi''
    have holde := (ht k' i' hk' hi'').eq
    have hvl := vl.val
    have hvu := vu.val
    have hS : liquidityStartingAt s' k' i' =
        (if k = k' ∧ l = i' then L else 0) + liquidityStartingAt s k' i' := by
      unfold liquidityStartingAt
      rw [sumPositions_cons hperm, w1, w2, w4]
      by_cases e1 : k = k' <;> by_cases e2 : l = i' <;> simp [e1, e2]
    have hE : liquidityEndingAt s' k' i' =
        (if k = k' ∧ u = i' then L else 0) + liquidityEndingAt s k' i' := by
      unfold liquidityEndingAt
      rw [sumPositions_cons hperm, w1, w3, w4]
      by_cases e1 : k = k' <;> by_cases e2 : u = i' <;> simp [e1, e2]
    rw [hS, hE]
    by_cases a : k = k' ∧ l = i'
    · obtain ⟨rfl, rfl⟩ := a
      rw [if_pos ⟨rfl, rfl⟩, if_neg (fun e => hlu e.2.symm)]
      rw [← hvl] at holde
      simp only at holde
      right; omega
    · rw [if_neg a]
      by_cases b : k = k' ∧ u = i'
      · obtain ⟨rfl, rfl⟩ := b
        rw [if_pos ⟨rfl, rfl⟩]
        rw [← hvu] at holde
        simp only at holde
        right; omega
      · rw [if_neg b]; omega
  | @claim _ env info i out hw h' =>
    obtain ⟨pos, tl, tu, pool, r, hpos, htl, htu, il, iu, hp, hm, _, _, _, _, _, hp', _, htk, _⟩ := claimFee_view hs h'
    obtain ⟨q, d1, d2, d3, _⟩ := Position.modify_inv hm
    obtain ⟨ox, oy, l', _, _, _, w, _, _, e⟩ := Position.update_inv d3
    simp only [if_true, Nat.add_zero] at w
    exact edit hpos hp' (by rw [e, w.2]; rfl)
  | @remove _ env info i out hw h' =>
    obtain ⟨p, hpos', hperm⟩ := removePosition_sum hs hi hw h'
    intro k' i' hk' hi'
    have hold := h k' i' hk' hi'
    have hS : liquidityStartingAt s' k' i' ≤ liquidityStartingAt s k' i' := by
      unfold liquidityStartingAt
      rw [sumPositions_cons hperm]; omega
    have hE : liquidityEndingAt s' k' i' ≤ liquidityEndingAt s k' i' := by
      unfold liquidityEndingAt
      rw [sumPositions_cons hperm]; omega
    omega
  | @move s1 _ o r i p hw h1 h2 =>
    exact h.congr (fun _ _ => sumPositions_move hi hw h1 h2 _ _ rfl) (fun _ _ => sumPositions_move hi hw h1 h2 _ _ rfl)
  | @appr id p a h' => exact edit h' rfl rfl
  | @swap info now k d amount b limit x hk ha hl h' =>
    obtain ⟨t, e1⟩ := swapInternal_frame h'
    exact same (by rw [e1])

theorem MReach.cap {c : Chain} {s : Store} (h : MReach c s) : CapInv s := by
  induction h with
  | init sender fee hf => intro k i _ _; left; rfl
  | step hr hm ih => exact ih.micro hr.struct hr.posInv hr.tickSum hm

/-! ## The sum over all ticks -/

theorem sum_list_finset (ps : List Position) (J : Finset Int) (f : Int → Position → Nat) :
    ∑ j ∈ J, (ps.map (f j)).sum = (ps.map (fun p => ∑ j ∈ J, f j p)).sum := by
  induction ps with
  | nil => simp
  | cons p l ih => simp only [List.map_cons, List.sum_cons, Finset.sum_add_distrib, ih]

theorem sum_pick {ts : Nat} {t : Int} (ht : TickOk ts t) (L : Nat) :
    ∑ j ∈ Finset.Icc (-(221818 / ts : Int)) (221818 / ts), (if t = ts * j then L else 0) = L := by
  have hp := ht.pos
  obtain ⟨hts, hmod, hb⟩ := TickOk_iff.1 ht
  obtain ⟨q, hq⟩ := ht.dvd
  have hmem : q ∈ Finset.Icc (-(221818 / ts : Int)) (221818 / ts) := by
    rw [Finset.mem_Icc]
    have h1 : (ts : Int) * q ≤ 221818 ∧ -221818 ≤ (ts : Int) * q := by
      have h3 := ht.range
      have hM : MAX_TICK = 221818 := rfl
      omega
    have h0 : (0 : Int) < ts := by omega
    constructor
    · have := Int.le_ediv_of_mul_le h0 (show -q * (ts : Int) ≤ 221818 by nlinarith)
      omega
    · exact Int.le_ediv_of_mul_le h0 (by nlinarith)
  rw [Finset.sum_eq_single_of_mem q hmem, if_pos hq]
  intro j _ hj
  rw [if_neg]
  intro e
  apply hj
  have h0 : (ts : Int) ≠ 0 := by omega
  exact (Int.eq_of_mul_eq_mul_left h0 (hq.symm.trans e)).symm

theorem cap_arith {ts T : Nat} (h0 : 0 < ts) (h1 : ts ≤ 100) (hT : 2 * T ≤ (2 * (221818 / ts) + 1) * maxLiquidityPerTick ts) :
    T < U128 := by
  have hD : 2 * (221818 / ts) ≤ (2 * 221818 + 1) / ts := by
    rw [Nat.le_div_iff_mul_le h0]
    have := Nat.div_mul_le_self 221818 ts
    nlinarith
  have hD1 : 1 ≤ (2 * 221818 + 1) / ts := by rw [Nat.le_div_iff_mul_le h0]; omega
  have hc : maxLiquidityPerTick ts * ((2 * 221818 + 1) / ts) ≤ U128 - 1 := Nat.div_mul_le_self _ _
  generalize maxLiquidityPerTick ts = m at *
  generalize (2 * 221818 + 1) / ts = D at *
  generalize 221818 / ts = n at *
  have hU : 1 ≤ U128 := by norm_num
  generalize U128 = U at *
  have h2 : (2 * n + 1) * m ≤ (2 * D) * m := Nat.mul_le_mul_right _ (by omega)
  have h3 : 2 * D * m = 2 * (m * D) := by ring
  omega

theorem total_list {ps : List Position} {ts : Nat} (h0 : 0 < ts) (h1 : ts ≤ 100)
    (hok : ∀ p ∈ ps, TickOk ts p.lower ∧ TickOk ts p.upper)
    (hcap : ∀ i, i32 i → (ps.map (fun p => if p.lower = i then p.liquidity else 0)).sum +
      (ps.map (fun p => if p.upper = i then p.liquidity else 0)).sum ≤ maxLiquidityPerTick ts) :
    (ps.map (fun p => p.liquidity)).sum < U128 := by
  refine cap_arith h0 h1 ?_
  set J := Finset.Icc (-(221818 / ts : Int)) (221818 / ts) with hJ
  have hsum : 2 * (ps.map (fun p => p.liquidity)).sum =
      ∑ j ∈ J, ((ps.map (fun p => if p.lower = ts * j then p.liquidity else 0)).sum +
        (ps.map (fun p => if p.upper = ts * j then p.liquidity else 0)).sum) := by
    rw [Finset.sum_add_distrib, sum_list_finset, sum_list_finset, two_mul]
    congr 2 <;> refine List.map_congr_left (fun p hp => ?_)
    · exact (sum_pick (hok p hp).1 _).symm
    · exact (sum_pick (hok p hp).2 _).symm
  rw [hsum]
  have hcard : J.card = 2 * (221818 / ts) + 1 := by
    rw [hJ, Int.card_Icc]
    have h3 : (221818 : Int) / ts = ((221818 / ts : Nat) : Int) := by push_cast; rfl
    rw [h3]
    omega
  rw [← hcard]
  have hle : ∀ j ∈ J, (ps.map (fun p => if p.lower = ts * j then p.liquidity else 0)).sum +
      (ps.map (fun p => if p.upper = ts * j then p.liquidity else 0)).sum ≤ maxLiquidityPerTick ts := by
    intro j hj
    rw [hJ, Finset.mem_Icc] at hj
    refine hcap _ ?_
    have h3 : (ts : Int) * (221818 / ts) ≤ 221818 := Int.mul_ediv_self_le (by omega)
    have h4 : (ts : Int) * j ≤ ts * (221818 / ts) := Int.mul_le_mul_of_nonneg_left hj.2 (by omega)
    have h5 : (ts : Int) * (-(221818 / ts)) ≤ ts * j := Int.mul_le_mul_of_nonneg_left hj.1 (by omega)
    have h6 : (ts : Int) * (-(221818 / ts)) = -(ts * (221818 / ts)) := by ring
    unfold i32
    omega
  have := Finset.sum_le_card_nsmul J _ _ hle
  simpa using this

theorem CapInv.le {s : Store} (hc : CapInv s) {k : PoolKey} (hk : k.wf) {i : Int} (hi : i32 i) :
    liquidityStartingAt s k i + liquidityEndingAt s k i ≤ maxLiquidityPerTick k.tier.spacing := by
  rcases hc k i hk hi with h | h
  · rw [h]; exact Nat.zero_le _
  · exact h.le

/-- The liquidity of all open positions of a pool together is below `2^128`. -/
theorem total_lt {s : Store} (hs : Struct s) (hc : CapInv s) {k : PoolKey} (hk : k.wf) (hv : k.tier.Valid) :
    sumPositions s k (fun p => p.liquidity) < U128 :=
  total_list hv.1 hv.2.1 (fun _ hp => ⟨(hs.posOf hp).2.1, (hs.posOf hp).2.2.1⟩) (fun _ hi => hc.le hk hi)

theorem inRange_le {s : Store} {k : PoolKey} {t : Int} :
    liquidityInRange s k t ≤ sumPositions s k (fun p => p.liquidity) := by
  unfold liquidityInRange sumPositions
  induction positionsOf s k with
  | nil => simp
  | cons p l ih =>
    simp only [List.map_cons, List.sum_cons]
    split <;> omega

/-- The same with one more position, if its two ticks stay below the cap. -/
theorem total_add_lt {s : Store} (hs : Struct s) (hc : CapInv s) {k : PoolKey} (hk : k.wf) (hv : k.tier.Valid)
    {l u : Int} {L : Nat} (hl : TickOk k.tier.spacing l) (hu : TickOk k.tier.spacing u) (hlu : l ≠ u)
    (h1 : liquidityStartingAt s k l + liquidityEndingAt s k l + L < maxLiquidityPerTick k.tier.spacing)
    (h2 : liquidityStartingAt s k u + liquidityEndingAt s k u + L < maxLiquidityPerTick k.tier.spacing) :
    sumPositions s k (fun p => p.liquidity) + L < U128 := by
  have := total_list (ps := (⟨k, L, l, u, 0, 0, 0, 0, 0, []⟩ : Position) :: positionsOf s k) hv.1 hv.2.1 (fun p hp => by
    rcases List.mem_cons.1 hp with rfl | hp
    · exact ⟨hl, hu⟩
    · exact ⟨(hs.posOf hp).2.1, (hs.posOf hp).2.2.1⟩) (fun i hi => by
    have h3 := hc.le hk hi
    unfold liquidityStartingAt liquidityEndingAt sumPositions at h1 h2 h3
    simp only [List.map_cons, List.sum_cons]
    by_cases a : l = i
    · subst a
      rw [if_pos rfl, if_neg (Ne.symm hlu)]; omega
    · rw [if_neg a]
      by_cases b : u = i
      · subst b
        rw [if_pos rfl]; omega
      · rw [if_neg b]; omega)
  simp only [List.map_cons, List.sum_cons] at this
  unfold sumPositions
  omega

end OraiV3
