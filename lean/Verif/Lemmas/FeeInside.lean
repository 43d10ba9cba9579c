import Verif.FeeSpec
import Verif.Lemmas.Active
import Verif.Lemmas.Fees
import Mathlib.Tactic.Ring
import Mathlib.Tactic.Linarith

/-!
# Fee growth inside a range
-/

namespace OraiV3

/-! ## Arithmetic modulo `2^128` -/

theorem wsub_wsub_self {g a : Nat} (_hg : g < U128) (ha : a < U128) : wsub g (wsub g a) = a := by
  unfold wsub U128 at *; omega

theorem inside_mid {l u t : Int} {lo uo g : Nat} (h1 : l ≤ t) (h2 : t < u) :
    feeGrowthInside l lo u uo t g = wsub (wsub g lo) uo := by
  unfold feeGrowthInside
  simp only [ge_iff_le, h1, h2, if_true]

theorem inside_below {l u t : Int} {lo uo g : Nat} (hlu : l < u) (h1 : t < l) (hg : g < U128) (hl : lo < U128) :
    feeGrowthInside l lo u uo t g = wsub lo uo := by
  unfold feeGrowthInside
  simp only [ge_iff_le, if_neg (show ¬ l ≤ t by omega), if_pos (show t < u by omega), wsub_wsub_self hg hl]

theorem inside_above {l u t : Int} {lo uo g : Nat} (hlu : l < u) (h1 : u ≤ t) (_hg : g < U128) (_hl : lo < U128)
    (hu : uo < U128) : feeGrowthInside l lo u uo t g = wsub uo lo := by
  unfold feeGrowthInside
  simp only [ge_iff_le, if_pos (show l ≤ t by omega), if_neg (show ¬ t < u by omega)]
  unfold wsub U128 at *; omega

theorem wsub_wadd_wsub {g a b d : Nat} (_ha : a < U128) (_hb : b < U128) :
    wsub (wsub (wadd g d) a) b = wadd (wsub (wsub g a) b) d := by
  unfold wsub wadd U128 at *; omega

theorem wadd_zero {a : Nat} (h : a < U128) : wadd a 0 = a := by
  unfold wadd; rw [Nat.add_zero, Nat.mod_eq_of_lt h]

/-- Growing while the tick stays between the same used ticks. -/
theorem inside_grow {l u t t' : Int} {lo uo g d : Nat} (hlu : l < u) (hg : g < U128) (hl : lo < U128) (hu : uo < U128)
    (h1 : l ≤ t ↔ l ≤ t') (h2 : u ≤ t ↔ u ≤ t') :
    feeGrowthInside l lo u uo t' (wadd g d) =
      wadd (feeGrowthInside l lo u uo t g) (if l ≤ t ∧ t < u then d else 0) := by
  by_cases a : l ≤ t
  · by_cases b : t < u
    · rw [if_pos ⟨a, b⟩, inside_mid a b, inside_mid (h1.1 a) (by omega), wsub_wadd_wsub hl hu]
    · rw [if_neg (by omega), inside_above hlu (by omega) hg hl hu, inside_above hlu (by omega) (wadd_lt _ _) hl hu,
        wadd_zero (wsub_lt _ _)]
  · rw [if_neg (by omega), inside_below hlu (by omega) hg hl, inside_below hlu (by omega) (wadd_lt _ _) hl,
      wadd_zero (wsub_lt _ _)]

/-- Crossing a tick: its counter is mirrored and the current tick changes sides. -/
theorem inside_cross {l u t t' i : Int} {lo uo lo' uo' g : Nat} (hlu : l < u) (hg : g < U128) (hl : lo < U128) (hu : uo < U128)
    (el : lo' = if l = i then wsub g lo else lo) (eu : uo' = if u = i then wsub g uo else uo)
    (h1 : l ≠ i → (l ≤ t ↔ l ≤ t')) (h2 : u ≠ i → (u ≤ t ↔ u ≤ t'))
    (h3 : l = i → (l ≤ t ↔ ¬ l ≤ t')) (h4 : u = i → (u ≤ t ↔ ¬ u ≤ t')) :
    feeGrowthInside l lo' u uo' t' g = feeGrowthInside l lo u uo t g := by
  have hl' : lo' < U128 := by rw [el]; split; exact wsub_lt _ _; exact hl
  have hu' : uo' < U128 := by rw [eu]; split; exact wsub_lt _ _; exact hu
  have sw : ∀ a b c : Nat, b < U128 → c < U128 → wsub (wsub a b) c = wsub (wsub a c) b := by
    intro a b c hb hc
    unfold wsub U128 at *; omega
  by_cases a : l = i
  · have b : u ≠ i := by omega
    rw [if_pos a] at el
    rw [if_neg b] at eu
    have h3 := h3 a
    have h2 := h2 b
    subst el eu
    by_cases c : l ≤ t
    · have d : ¬ l ≤ t' := h3.1 c
      rw [inside_below hlu (by omega) hg hl', inside_mid c (by omega)]
    · have d : l ≤ t' := by by_contra e; exact c (h3.2 e)
      rw [inside_below hlu (by omega) hg hl, inside_mid d (by omega), wsub_wsub_self hg hl]
  · rw [if_neg a] at el
    have h1 := h1 a
    subst el
    by_cases b : u = i
    · rw [if_pos b] at eu
      have h4 := h4 b
      subst eu
      by_cases c : u ≤ t
      · have d : ¬ u ≤ t' := h4.1 c
        rw [inside_above hlu c hg hl hu, inside_mid (by omega) (by omega), sw _ _ _ hl (wsub_lt _ _), wsub_wsub_self hg hu]
      · have d : u ≤ t' := by by_contra e; exact c (h4.2 e)
        rw [inside_above hlu d hg hl hu', inside_mid (by omega) (by omega), sw _ _ _ hl hu]
    · rw [if_neg b] at eu
      have h2 := h2 b
      subst eu
      by_cases c : l ≤ t
      · by_cases d : t < u
        · rw [inside_mid c d, inside_mid (by omega) (by omega)]
        · rw [inside_above hlu (by omega) hg hl hu, inside_above hlu (by omega) hg hl hu]
      · rw [inside_below hlu (by omega) hg hl, inside_below hlu (by omega) hg hl]


/-! ## Charging a fee -/

theorem Pool.Bounded.fg {p : Pool} (h : p.Bounded) (x : Bool) : p.fg x < U128 := by
  unfold Pool.fg; cases x
  · exact h.2.1
  · exact h.1

theorem growth_le {g L a pp o S D : Nat} (e : D = S) (hg : a * D / L = g) : g * L + (o + pp) * S ≤ (o + (pp + a)) * S := by
  subst e
  have : g * L ≤ a * D := by rw [← hg]; exact Nat.div_mul_le_self _ _
  calc g * L + (o + pp) * D ≤ a * D + (o + pp) * D := by omega
    _ = (o + (pp + a)) * D := by ring

theorem growth_ge {g L a pp o S D : Nat} (e : D = S) (hL : 0 < L) (hg : a * D / L = g) :
    (o + (pp + a)) * S ≤ (g + 1) * L + (o + pp) * S := by
  subst e
  have : a * D < (g + 1) * L := by
    have := Nat.lt_div_mul_add (a := a * D) hL
    rw [hg] at this
    rw [Nat.add_mul, Nat.one_mul]
    exact this
  calc (o + (pp + a)) * D = a * D + (o + pp) * D := by ring
    _ ≤ (g + 1) * L + (o + pp) * D := by omega

theorem one_more {a L o1 o2 f S : Nat} (h : (o1 + f) * S ≤ (a + 1) * L + o2 * S) : (o1 + f) * S ≤ (a + 2) * L + o2 * S := by
  nlinarith [Nat.zero_le L]

theorem two_fees_ge {a b L o o1 o2 f f2 S : Nat} (h1 : (o + f) * S ≤ (a + 1) * L + o1 * S) (h2 : (o1 + f2) * S ≤ (b + 1) * L + o2 * S) :
    (o + (f + f2)) * S ≤ (a + b + 2) * L + o2 * S := by
  nlinarith

theorem two_fees {a b L o o1 o2 f f2 S : Nat} (h1 : a * L + o1 * S ≤ (o + f) * S) (h2 : b * L + o2 * S ≤ (o1 + f2) * S) :
    (a + b) * L + o2 * S ≤ (o + (f + f2)) * S := by
  nlinarith

theorem wadd_wadd {a b c : Nat} : wadd (wadd a b) c = wadd a (b + c) := by
  unfold wadd; rw [Nat.mod_add_mod, Nat.add_assoc]

theorem zero_le {o a S L : Nat} : 0 * L + o * S ≤ (o + a) * S := by
  rw [Nat.zero_mul, Nat.zero_add]
  exact Nat.mul_le_mul_right _ (by omega)

theorem fgX_set {pool p : Pool} {a b : Nat} (h : p = { pool with fgX := a, protoX := b }) :
    p.fg true = a ∧ p.fg false = pool.fg false ∧ p.proto false = pool.proto false := by
  subst h; exact ⟨rfl, rfl, rfl⟩

theorem fgY_set {pool p : Pool} {a b : Nat} (h : p = { pool with fgY := a, protoY := b }) :
    p.fg false = a ∧ p.fg true = pool.fg true ∧ p.proto true = pool.proto true := by
  subst h; exact ⟨rfl, rfl, rfl⟩

/-- Charging a fee: growth for the liquidity and protocol fee together stay below it. -/
theorem addFee_growth {pool p : Pool} {amount : Nat} {d : Bool} {pf : Nat} (hb : pool.Bounded)
    (h : pool.addFee amount d pf = .ok p) :
    ∃ δ, p.fg d = wadd (pool.fg d) δ ∧ p.fg (!d) = pool.fg (!d) ∧ p.proto (!d) = pool.proto (!d) ∧
      pool.proto d ≤ p.proto d ∧
      δ * pool.liquidity + p.proto d * 10 ^ 34 ≤ (pool.proto d + amount) * 10 ^ 34 ∧
      ((pool.liquidity = 0 → amount = 0) →
        (pool.proto d + amount) * 10 ^ 34 ≤ (δ + 1) * pool.liquidity + p.proto d * 10 ^ 34) := by
  obtain ⟨h0, h1⟩ := Pool.addFee_inv h
  rcases h1 with ⟨hz, rfl⟩ | ⟨-, hL, g, hg, h1⟩
  · refine ⟨0, (wadd_zero (hb.fg d)).symm, rfl, rfl, Nat.le_refl _, zero_le, fun h => ?_⟩
    have : amount = 0 := hz.elim id h
    rw [this]
    exact Nat.le_add_left _ _
  · unfold feeGrowthFromFee at hg
    rw [if_neg hL, cast128_ok, Nat.mul_assoc] at hg
    have e : FGR * LIQ = 10 ^ 34 := by decide
    have key := growth_le (pp := protoPart amount pf) (o := pool.proto d) e hg.2
    have key' := growth_ge (pp := protoPart amount pf) (o := pool.proto d) e (Nat.pos_of_ne_zero hL) hg.2
    rw [Nat.add_sub_cancel' h0] at key key'
    have hpr : p.proto d = pool.proto d + protoPart amount pf := by
      cases d
      · simp only [Bool.false_eq_true, if_false] at h1; rw [h1.2]; simp only [Pool.proto, Bool.false_eq_true, if_false]
      · simp only [if_true] at h1; rw [h1.2]; simp only [Pool.proto, if_true]
    rw [← hpr] at key key'
    have hset : p.fg d = wadd (pool.fg d) g ∧ p.fg (!d) = pool.fg (!d) ∧ p.proto (!d) = pool.proto (!d) := by
      cases d
      · exact fgY_set h1.2
      · exact fgX_set h1.2
    exact ⟨g, hset.1, hset.2.1, hset.2.2, by rw [hpr]; exact Nat.le_add_right _ _, key, fun _ => key'⟩

/-! ## Crossed ticks -/

/-- The tick map once the crossed ticks are saved. -/
def withTicks (m : KV Tick) (k : PoolKey) (l : List Tick) : KV Tick :=
  l.foldl (fun m t => m.insert (tickKey k t.index) t) m

theorem withTicks_snoc (m : KV Tick) (k : PoolKey) (l : List Tick) (t : Tick) :
    withTicks m k (l ++ [t]) = (withTicks m k l).insert (tickKey k t.index) t := by
  simp [withTicks]

theorem outAt_insert {m : KV Tick} {k : PoolKey} (hk : k.wf) {t : Tick} (ht : i32 t.index) {i : Int} (hi : i32 i) (x : Bool) :
    outAt (m.insert (tickKey k t.index) t) k x i = if i = t.index then t.out x else outAt m k x i := by
  unfold outAt
  rw [KV.get?_insert]
  by_cases e : i = t.index
  · rw [if_pos (by rw [e]), if_pos e]
  · rw [if_neg (fun h => e (tickKey_inj hk hk hi ht h).2), if_neg e]

theorem withTicks_get {k : PoolKey} {key : Bytes} : ∀ (l : List Tick) (m : KV Tick), (∀ t ∈ l, key ≠ tickKey k t.index) →
    (withTicks m k l).get? key = m.get? key
  | [], _, _ => rfl
  | t :: l, m, h => by
    show (withTicks (m.insert (tickKey k t.index) t) k l).get? key = _
    rw [withTicks_get l _ (fun t' ht' => h t' (by simp [ht'])), KV.get?_insert, if_neg (h t (by simp))]

theorem outAt_withTicks {m : KV Tick} {k : PoolKey} (hk : k.wf) {l : List Tick} {i : Int} (hi : i32 i) (x : Bool)
    (h : ∀ t ∈ l, i32 t.index ∧ t.index ≠ i) : outAt (withTicks m k l) k x i = outAt m k x i := by
  unfold outAt
  rw [withTicks_get _ _ (fun t ht e => (h t ht).2 (tickKey_inj hk hk hi (h t ht).1 e).2.symm)]

theorem saveTicks_withTicks {k : PoolKey} : ∀ {l : List Tick} {s s' : Store}, saveTicks s k l = .ok s' →
    s'.ticks = withTicks s.ticks k l
  | [], s, s', h => by simp only [saveTicks, ok_inj] at h; subst h; rfl
  | t :: l, s, s', h => by
    simp only [saveTicks, bind_ok, updateTick_ok] at h
    obtain ⟨s1, ⟨_, h1⟩, h2⟩ := h
    rw [saveTicks_withTicks h2, h1]
    rfl

/-- What is known of the crossed ticks and the counters while a swap runs. -/
structure CrossInv (s : Store) (k : PoolKey) (d : Bool) (st : SwapState) : Prop where
  pool : st.pool.Bounded
  used : ∀ t ∈ st.ticks, TickOk k.tier.spacing t.index ∧ UsedTick s k t.index ∧
    if d then st.pool.tick < t.index else t.index ≤ st.pool.tick
  outs : ∀ x i, outAt (withTicks s.ticks k st.ticks) k x i < U128

theorem Struct.outAt_lt {s : Store} (hs : Struct s) (k : PoolKey) (x : Bool) (i : Int) : outAt s.ticks k x i < U128 := by
  unfold outAt
  cases h : s.ticks.get? (tickKey k i) with
  | none => show 0 < U128; decide
  | some t =>
    obtain ⟨k', e, hr⟩ := hs.ticks _ _ h
    unfold Tick.out
    cases x
    · exact hr.outY
    · exact hr.outX

/-- What one iteration does to the fee counters. -/
structure IterFees (s : Store) (pr : SwapParams) (st st' : SwapState) (δ fees : Nat) : Prop where
  cross : CrossInv s pr.key pr.xToY st'
  grow : st'.pool.fg pr.xToY = wadd (st.pool.fg pr.xToY) δ
  other : st'.pool.fg (!pr.xToY) = st.pool.fg (!pr.xToY)
  protoOther : st'.pool.proto (!pr.xToY) = st.pool.proto (!pr.xToY)
  proto : st.pool.proto pr.xToY ≤ st'.pool.proto pr.xToY
  bound : δ * st.pool.liquidity + st'.pool.proto pr.xToY * 10 ^ 34 ≤ (st.pool.proto pr.xToY + fees) * 10 ^ 34
  lower : (st.pool.proto pr.xToY + fees) * 10 ^ 34 ≤ (δ + 2) * st.pool.liquidity + st'.pool.proto pr.xToY * 10 ^ 34
  path : ∀ j, TickOk pr.key.tier.spacing j → UsedTick s pr.key j →
    if pr.xToY then st.pool.tick < j → st'.pool.tick < j else j ≤ st.pool.tick → j ≤ st'.pool.tick
  inside : ∀ x l u, TickOk pr.key.tier.spacing l → TickOk pr.key.tier.spacing u → UsedTick s pr.key l →
    UsedTick s pr.key u → l < u →
    growthInside (withTicks s.ticks pr.key st'.ticks) pr.key st'.pool x l u =
      wadd (growthInside (withTicks s.ticks pr.key st.ticks) pr.key st.pool x l u)
        (if x = pr.xToY ∧ l ≤ st.pool.tick ∧ st.pool.tick < u then δ else 0)

theorem SameRegion.iff {s : Store} {k : PoolKey} {a b : Int} (h : SameRegion s k a b) {j : Int}
    (hj : TickOk k.tier.spacing j) (hu : UsedTick s k j) : j ≤ a ↔ j ≤ b := by
  constructor
  · intro h1
    by_contra h2
    exact h j hj (.inr ⟨by omega, h1⟩) hu
  · intro h1
    by_contra h2
    exact h j hj (.inl ⟨by omega, h1⟩) hu

/-- `fg` of each token after charging. -/
theorem fg_grow {d : Bool} {p p' : Pool} {δ : Nat} (hb : p.Bounded) (h1 : p'.fg d = wadd (p.fg d) δ) (h2 : p'.fg (!d) = p.fg (!d))
    (x : Bool) : p'.fg x = wadd (p.fg x) (if x = d then δ else 0) := by
  by_cases e : x = d
  · rw [if_pos e, e, h1]
  · rw [if_neg e, wadd_zero (hb.fg x)]
    have : x = !d := by cases x <;> cases d <;> simp_all
    rw [this, h2]

theorem iter_fees {s : Store} {pr : SwapParams} {st st' : SwapState} {i : Int} {ini : Bool} {r : SwapResult}
    {cfg : Config} {p1 : Pool} {rem : Nat} {u : TickUpdRes} (hs : Struct s) (ht : TickSum s) (hk : pr.key.wf)
    (hv : IterView s pr st st' i ini r cfg p1 rem u)
    (h : LoopOk pr.xToY pr.key.tier.spacing pr.limit st.pool st.remaining) (hr : st.remaining ≠ 0)
    (h' : LoopOk pr.xToY pr.key.tier.spacing pr.limit st'.pool st'.remaining)
    (hc : CrossInv s pr.key pr.xToY st) :
    (∃ δ, IterFees s pr st st' δ (r.feeAmount + u.total)) ∨
      (st'.remaining = 0 ∧ ¬ RegularPool s pr.key pr.xToY pr.byAmountIn pr.limit st'.pool) := by
  obtain ⟨q, hq, hp1⟩ := hv.fee
  have hb1 : p1.Bounded := by
    have := addFee_bounded hq hc.pool
    rw [hp1]; exact this
  have hkp := addFee_keep hq
  obtain ⟨δ, g1, g2, g3, g4, g5, g6⟩ := addFee_growth hc.pool hq
  have hz : st.pool.liquidity = 0 → r.feeAmount = 0 := fun e => by
    have := hv.step
    rw [e] at this
    rw [step_zero this]
  have f1 : p1.fg pr.xToY = wadd (st.pool.fg pr.xToY) δ := by rw [← g1, hp1]; rfl
  have f2 : p1.fg (!pr.xToY) = st.pool.fg (!pr.xToY) := by rw [← g2, hp1]; rfl
  have f3 : p1.proto (!pr.xToY) = st.pool.proto (!pr.xToY) := by rw [← g3, hp1]; rfl
  have f4 : st.pool.proto pr.xToY ≤ p1.proto pr.xToY := by rw [hp1]; exact g4
  have f5 : δ * st.pool.liquidity + p1.proto pr.xToY * 10 ^ 34 ≤ (st.pool.proto pr.xToY + r.feeAmount) * 10 ^ 34 := by
    rw [hp1]; exact g5
  have f7 : (st.pool.proto pr.xToY + r.feeAmount) * 10 ^ 34 ≤ (δ + 1) * st.pool.liquidity + p1.proto pr.xToY * 10 ^ 34 := by
    rw [hp1]; exact g6 hz
  have f6 : p1.liquidity = st.pool.liquidity ∧ p1.tick = st.pool.tick := by
    rw [hp1]; exact ⟨hkp.1, hkp.2.2⟩
  have e1 : st'.pool = u.pool := by rw [hv.eq]
  have e2 : st'.ticks = pushCrossed st.ticks u.upd u.crossed := by rw [hv.eq]
  clear g1 g2 g3 g4 g5 g6 hkp
  cases hcr : u.crossed
  · rcases iter_region hs ht hk hv h hr h' hcr with hreg | hbad
    · left
      have e3 : st'.ticks = st.ticks := by
        rw [e2, hcr]; unfold pushCrossed; cases u.upd <;> rfl
      -- the final pool has grown by some δ'
      have hgrow : ∃ δ', st'.pool.Bounded ∧ st'.pool.fg pr.xToY = wadd (st.pool.fg pr.xToY) δ' ∧
          st'.pool.fg (!pr.xToY) = st.pool.fg (!pr.xToY) ∧ st'.pool.proto (!pr.xToY) = st.pool.proto (!pr.xToY) ∧
          st.pool.proto pr.xToY ≤ st'.pool.proto pr.xToY ∧
          δ' * st.pool.liquidity + st'.pool.proto pr.xToY * 10 ^ 34 ≤
            (st.pool.proto pr.xToY + (r.feeAmount + u.total)) * 10 ^ 34 ∧
          (st.pool.proto pr.xToY + (r.feeAmount + u.total)) * 10 ^ 34 ≤
            (δ' + 2) * st.pool.liquidity + st'.pool.proto pr.xToY * 10 ^ 34 := by
        rw [e1]
        rcases hv.fin with ⟨t, c1, c2, upd, rfl⟩ | ⟨e, c1, c2, c3, c4, rfl⟩ | ⟨e, t, tp, c1, c2, c3, c4, c5, c6, c7, c8, rfl⟩ |
          ⟨t, c1, c2, c3, c4, c5, c6, c7, c8⟩
        · exact ⟨δ, hb1, f1, f2, f3, f4, f5, one_more f7⟩
        · exact ⟨δ, hb1, f1, f2, f3, f4, f5, one_more f7⟩
        · simp at hcr
        · rcases c8 with ⟨d1, d2, p, d3, rfl⟩ | ⟨d1, rfl⟩
          · obtain ⟨δ2, g1, g2, g3, g4, g5, g6⟩ := addFee_growth hb1 d3
            have hz2 : p1.liquidity ≠ 0 := fun e => by
              unfold isEnoughAmountToChangePrice at c5
              rw [if_pos e, ok_inj] at c5
              simp at c5
            replace g6 := g6 (fun e => absurd e hz2)
            rw [c4] at f1 f2 f3 f4 f5 f7 ⊢
            have b2 := addFee_bounded d3 hb1
            refine ⟨δ + δ2, b2, ?_, g2.trans f2, g3.trans f3, Nat.le_trans f4 g4, ?_, ?_⟩
            · show p.fg true = _
              rw [g1, f1]
              exact wadd_wadd
            · show (δ + δ2) * st.pool.liquidity + p.proto true * 10 ^ 34 ≤ _
              rw [f6.1] at g5
              exact two_fees f5 g5
            · show _ ≤ (δ + δ2 + 2) * st.pool.liquidity + p.proto true * 10 ^ 34
              rw [f6.1] at g6
              exact two_fees_ge f7 g6
          · exact ⟨δ, hb1, f1, f2, f3, f4, f5, one_more f7⟩
      obtain ⟨δ', b, a1, a2, a3, a4, a5, a6⟩ := hgrow
      refine ⟨δ', ⟨⟨b, ?_, ?_⟩, a1, a2, a3, a4, a5, a6, ?_, ?_⟩⟩
      · intro t htt
        rw [e3] at htt
        obtain ⟨b1, b2, b3⟩ := hc.used t htt
        refine ⟨b1, b2, ?_⟩
        have := hreg.iff b1 b2
        cases hd : pr.xToY <;> simp only [hd, Bool.false_eq_true, if_false, if_true] at b3 ⊢ <;> omega
      · intro x j; rw [e3]; exact hc.outs x j
      · intro j hj hu
        have := hreg.iff hj hu
        split <;> omega
      · intro x l u' hl hu ul uu hlu
        rw [e3]
        simp only [growthInside_code]
        have := inside_grow (d := if x = pr.xToY then δ' else 0) hlu (hc.pool.fg x) (hc.outs x l) (hc.outs x u')
          (hreg.iff hl ul) (hreg.iff hu uu)
        rw [fg_grow hc.pool a1 a2 x, this]
        congr 1
        by_cases hx : x = pr.xToY <;> simp [hx]
    · exact .inr ⟨hbad.1, hbad.2.choose_spec.1.irregular⟩
  · left
    obtain ⟨gap, usedi⟩ := iter_used hs ht hk hv
    rcases hv.fin with ⟨t, c1, c2, upd, rfl⟩ | ⟨e, c1, c2, c3, c4, rfl⟩ | ⟨e, t, tp, c1, c2, c3, c4, c5, c6, c7, c8, rfl⟩ |
      ⟨t, c1, c2, c3, c4, c5, c6, c7, c8⟩
    · simp at hcr
    · simp at hcr
    · obtain ⟨liq, -, d2, d3, d4⟩ := Tick.cross_inv c8
      have ui := usedi.2 c2
      have hli : liq < U128 := by
        have := hb1.2.2
        split at d2
        · omega
        · change _ ∧ liq = p1.liquidity - _ at d2; omega
      have hb' : st'.pool.Bounded := by
        rw [e1]
        simp only [d4]
        exact ⟨hb1.1, hb1.2.1, hli⟩
      have gt : st'.ticks = st.ticks ++ [tp.1] := e2
      have gi : tp.1.index = i := by rw [d3]; exact c6
      have pf : ∀ x, st'.pool.fg x = p1.fg x := fun x => by rw [e1]; simp only [d4]; rfl
      have pp : ∀ x, st'.pool.proto x = p1.proto x := fun x => by rw [e1]; simp only [d4]; rfl
      have pt : st'.pool.tick = if pr.xToY && e then i - pr.key.tier.spacing else i := by rw [e1]
      have hdir := hv.dir
      have p0 := hv.ok.pos
      -- sides
      have side : ∀ j, TickOk pr.key.tier.spacing j → UsedTick s pr.key j →
          (j ≠ i → (j ≤ st.pool.tick ↔ j ≤ st'.pool.tick)) ∧ (j = i → (j ≤ st.pool.tick ↔ ¬ j ≤ st'.pool.tick)) := by
        intro j hj hu
        rw [pt]
        have hg := gap j hj
        cases hd : pr.xToY
        · simp only [hd, Bool.false_eq_true, if_false, Bool.false_and] at hdir hg ⊢
          refine ⟨fun hne => ?_, fun he => by omega⟩
          constructor
          · omega
          · intro h1
            by_contra h2
            exact hg ⟨by omega, by omega⟩ hu
        · have he := c7 hd
          simp only [hd, he, if_true, Bool.and_self] at hdir hg ⊢
          refine ⟨fun hne => ?_, fun he => by omega⟩
          constructor
          · intro h1
            by_contra h2
            by_cases h3 : i < j
            · exact hg ⟨h3, h1⟩ hu
            · have := dvd_lt_step p0 hj.dvd hv.ok.dvd (by omega)
              omega
          · omega
      have hlo : ∀ x, outAt (withTicks s.ticks pr.key st.ticks) pr.key x i = t.out x := by
        intro x
        rw [outAt_withTicks hk hv.ok.i32 x]
        · unfold outAt; rw [c5]
        · intro t' ht'
          obtain ⟨b1, b2, b3⟩ := hc.used t' ht'
          refine ⟨b1.i32, ?_⟩
          cases hd : pr.xToY <;> simp only [hd, Bool.false_eq_true, if_false, if_true] at b3 hdir <;> omega
      have hout : ∀ x, tp.1.out x = wsub (p1.fg x) (t.out x) := by
        intro x; rw [d3]; cases x <;> rfl
      have hnew : ∀ x j, TickOk pr.key.tier.spacing j → outAt (withTicks s.ticks pr.key st'.ticks) pr.key x j =
          if j = i then wsub (p1.fg x) (outAt (withTicks s.ticks pr.key st.ticks) pr.key x j)
          else outAt (withTicks s.ticks pr.key st.ticks) pr.key x j := by
        intro x j hj
        rw [gt, withTicks_snoc, outAt_insert hk (by rw [gi]; exact hv.ok.i32) hj.i32, gi, hout]
        by_cases e : j = i
        · rw [if_pos e, if_pos e, e, hlo]
        · rw [if_neg e, if_neg e]
      refine ⟨δ, ⟨⟨hb', ?_, ?_⟩, ?_, ?_, ?_, ?_, ?_, ?_, ?_, ?_⟩⟩
      · intro t' ht'
        rw [gt, List.mem_append, List.mem_singleton] at ht'
        rcases ht' with ht' | rfl
        · obtain ⟨b1, b2, b3⟩ := hc.used t' ht'
          refine ⟨b1, b2, ?_⟩
          have hne : t'.index ≠ i := by
            intro e
            cases hd : pr.xToY <;> simp only [hd, Bool.false_eq_true, if_false, if_true] at b3 hdir <;> omega
          have := (side _ b1 b2).1 hne
          cases hd : pr.xToY <;> simp only [hd, Bool.false_eq_true, if_false, if_true] at b3 ⊢ <;> omega
        · rw [gi]
          refine ⟨hv.ok, ui, ?_⟩
          have := (side i hv.ok ui).2 rfl
          cases hd : pr.xToY <;> simp only [hd, Bool.false_eq_true, if_false, if_true] at hdir ⊢ <;> omega
      · intro x j
        rw [gt, withTicks_snoc]
        unfold outAt
        rw [KV.get?_insert]
        split
        · rename_i heq
          split at heq
          · rw [Option.some.injEq] at heq
            rw [← heq, hout]; exact wsub_lt _ _
          · have := hc.outs x j
            unfold outAt at this
            rw [heq] at this
            exact this
        · decide
      · rw [pf]; exact f1
      · rw [pf]; exact f2
      · rw [pp]; exact f3
      · rw [pp]; exact f4
      · rw [pp]; exact f5
      · rw [pp]; exact one_more f7
      · intro j hj hu
        have := side j hj hu
        by_cases e : j = i
        · have h1 := this.2 e
          cases hd : pr.xToY <;> simp only [hd, Bool.false_eq_true, if_false, if_true] at hdir ⊢ <;> omega
        · have h1 := this.1 e
          cases hd : pr.xToY <;> simp only [Bool.false_eq_true, if_false, if_true] <;> omega
      · intro x l u' hl hu ul uu hlu
        have hb1x := hb1.fg x
        simp only [growthInside_code]
        rw [hnew x l hl, hnew x u' hu, pf]
        rw [inside_cross (t := st.pool.tick) (i := i) hlu hb1x (hc.outs x l) (hc.outs x u') rfl rfl (side l hl ul).1 (side u' hu uu).1
          (side l hl ul).2 (side u' hu uu).2]
        have := inside_grow (d := if x = pr.xToY then δ else 0) (t := st.pool.tick) (t' := st.pool.tick) hlu (hc.pool.fg x)
          (hc.outs x l) (hc.outs x u') Iff.rfl Iff.rfl
        rw [fg_grow hc.pool f1 f2 x, this]
        congr 1
        by_cases hx : x = pr.xToY <;> simp [hx]
    · rcases c8 with ⟨d1, d2, p, d3, rfl⟩ | ⟨d1, rfl⟩ <;> simp at hcr

end OraiV3
