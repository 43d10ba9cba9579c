import Verif.Lemmas.Bitmap

/-!
# Search: the bitmap search loops
-/

namespace OraiV3

theorem lowestBit_spec : ∀ (n v b : Nat), v ≠ 0 → v < 2 ^ n →
    ∃ j, j < n ∧ lowestBit n v b = b + j ∧ v.testBit j = true ∧ ∀ i, i < j → v.testBit i = false
  | 0, v, b, h0, h1 => by omega
  | n + 1, v, b, h0, h1 => by
    unfold lowestBit
    split
    · rename_i h
      obtain ⟨j, a1, a2, a3, a4⟩ := lowestBit_spec n (v / 2) (b + 1) (by omega) (by
        rw [Nat.pow_succ] at h1; omega)
      refine ⟨j + 1, by omega, by rw [a2]; omega, by rw [Nat.testBit_succ]; exact a3, fun i hi => ?_⟩
      cases i with
      | zero => simp [h]
      | succ i => rw [Nat.testBit_succ]; exact a4 i (by omega)
    · rename_i h
      refine ⟨0, by omega, by omega, ?_, fun i hi => by omega⟩
      simp; omega

theorem highestBit_spec : ∀ (v b : Nat), v % 2 ^ (b + 1) > 0 →
    highestBit v b ≤ b ∧ v.testBit (highestBit v b) = true ∧
      ∀ i, highestBit v b < i → i ≤ b → v.testBit i = false
  | v, 0, h => by
    have h : v % 2 > 0 := by simpa using h
    have e : highestBit v 0 = 0 := by unfold highestBit; split <;> rfl
    rw [e]
    refine ⟨Nat.le_refl _, by simp; omega, fun i h1 h2 => by omega⟩
  | v, b + 1, h => by
    unfold highestBit
    by_cases h1 : v / 2 ^ (b + 1) % 2 = 1
    · rw [if_pos h1]
      refine ⟨Nat.le_refl _, ?_, fun i h1 h2 => by omega⟩
      rw [Nat.testBit_eq_decide_div_mod_eq]; simp [h1]
    · rw [if_neg h1]
      have h2 : v % 2 ^ (b + 1) > 0 := by
        have := Nat.mod_pow_succ (x := v) (b := 2) (k := b + 1)
        have h3 : v / 2 ^ (b + 1) % 2 = 0 := by omega
        rw [h3, Nat.mul_zero, Nat.add_zero] at this
        rw [this] at h
        exact h
      obtain ⟨a1, a2, a3⟩ := highestBit_spec v b h2
      refine ⟨by omega, a2, fun i b1 b2 => ?_⟩
      by_cases e : i = b + 1
      · subst e; rw [Nat.testBit_eq_decide_div_mod_eq]; simp; omega
      · exact a3 i b1 (by omega)

theorem mod_two_pow_eq_zero {v b : Nat} (h : v % 2 ^ b = 0) {i : Nat} (hi : i < b) : v.testBit i = false := by
  have : (v % 2 ^ b).testBit i = v.testBit i := by rw [Nat.testBit_mod_two_pow]; simp [hi]
  rw [← this, h]; exact Nat.zero_testBit _

theorem div_two_pow_eq_zero {v b : Nat} (h : v / 2 ^ b = 0) {i : Nat} (hi : b ≤ i) : v.testBit i = false := by
  have h1 : v < 2 ^ b := by
    rcases Nat.div_eq_zero_iff.1 h with h | h
    · have := Nat.two_pow_pos b; omega
    · exact h
  exact Nat.testBit_lt_two_pow (Nat.lt_of_lt_of_le h1 (Nat.pow_le_pow_right (by decide) hi))

theorem bitOf_chunk {bm : Nat → Nat} {m c : Nat} (h1 : c * 64 ≤ m) (h2 : m < c * 64 + 64) :
    bitOf bm m = (bm c).testBit (m - c * 64) := by
  unfold bitOf
  have e1 : m / 64 = c := by omega
  have e2 : m % 64 = m - c * 64 := by omega
  rw [e1, e2]

/-- The upward loop finds the first set bit. -/
theorem nextInitLoop_spec {bm : Nat → Nat} (hbm : ∀ c, bm c < 2 ^ 64) {ts lc lb : Nat} (hlb : lb < 64) :
    ∀ (n c b : Nat), b < 64 → lc + 1 ≤ n + c →
    match nextInitLoop bm ts lc lb n c b with
    | some i => ∃ m, i = tickOfBit ts m ∧ c * 64 + b ≤ m ∧ m ≤ lc * 64 + lb ∧ bitOf bm m = true ∧
        ∀ m', c * 64 + b ≤ m' → m' < m → bitOf bm m' = false
    | none => ∀ m', c * 64 + b ≤ m' → m' ≤ lc * 64 + lb → bitOf bm m' = false
  | 0, c, b, hb, hn => by
    unfold nextInitLoop
    intro m' h1 h2
    omega
  | n + 1, c, b, hb, hn => by
    unfold nextInitLoop
    simp only []
    by_cases h1 : c < lc ∨ (c = lc ∧ b ≤ lb)
    · rw [if_pos h1]
      by_cases h2 : bm c / 2 ^ b ≠ 0
      · rw [if_pos h2]
        have hlt : bm c / 2 ^ b < 2 ^ 64 := Nat.lt_of_le_of_lt (Nat.div_le_self _ _) (hbm c)
        obtain ⟨j, j1, j2, j3, j4⟩ := lowestBit_spec 64 (bm c / 2 ^ b) b h2 hlt
        rw [j2]
        rw [Nat.testBit_div_two_pow] at j3
        have hj : b + j < 64 := by
          by_contra hc
          have : (bm c).testBit (j + b) = false :=
            Nat.testBit_lt_two_pow (Nat.lt_of_lt_of_le (hbm c) (Nat.pow_le_pow_right (by decide) (by omega)))
          rw [this] at j3
          exact absurd j3 (by decide)
        have hset : bitOf bm (c * 64 + (b + j)) = true := by
          rw [bitOf_chunk (c := c) (by omega) (by omega)]
          have : c * 64 + (b + j) - c * 64 = j + b := by omega
          rw [this]; exact j3
        have hmin : ∀ m', c * 64 + b ≤ m' → m' < c * 64 + (b + j) → bitOf bm m' = false := by
          intro m' a1 a2
          rw [bitOf_chunk (c := c) (by omega) (by omega)]
          have := j4 (m' - c * 64 - b) (by omega)
          rw [Nat.testBit_div_two_pow] at this
          have e : m' - c * 64 - b + b = m' - c * 64 := by omega
          rw [e] at this
          exact this
        by_cases h3 : c < lc ∨ (c = lc ∧ b + j ≤ lb)
        · rw [if_pos h3]
          refine ⟨c * 64 + (b + j), ?_, by omega, by omega, hset, hmin⟩
          unfold tickOfBit
          rw [max_tdiv]
          simp only [CHUNK_SIZE]
          push_cast
          rfl
        · rw [if_neg h3]
          intro m' a1 a2
          exact hmin m' a1 (by omega)
      · rw [if_neg h2]
        have h2 : bm c / 2 ^ b = 0 := Decidable.not_not.1 h2
        have hz : ∀ m', c * 64 + b ≤ m' → m' < c * 64 + 64 → bitOf bm m' = false := by
          intro m' a1 a2
          rw [bitOf_chunk (c := c) (by omega) (by omega)]
          exact div_two_pow_eq_zero h2 (by omega)
        have ih := nextInitLoop_spec hbm (ts := ts) (lc := lc) hlb n (c + 1) 0 (by omega) (by omega)
        split
        · rename_i i he
          rw [he] at ih
          obtain ⟨m, b1, b2, b3, b4, b5⟩ := ih
          refine ⟨m, b1, by omega, b3, b4, fun m' a1 a2 => ?_⟩
          by_cases e : m' < c * 64 + 64
          · exact hz m' a1 e
          · exact b5 m' (by omega) a2
        · rename_i he
          rw [he] at ih
          intro m' a1 a2
          by_cases e : m' < c * 64 + 64
          · exact hz m' a1 e
          · exact ih m' (by omega) a2
    · rw [if_neg h1]
      intro m' a1 a2
      omega

/-- The downward loop finds the last set bit. -/
theorem prevInitLoop_spec {bm : Nat → Nat} {ts lc lb : Nat} (hlb : lb < 64) :
    ∀ (n c b : Nat), b < 64 → c + 1 ≤ n + lc →
    match prevInitLoop bm ts lc lb n c b with
    | some i => ∃ m, i = tickOfBit ts m ∧ lc * 64 + lb ≤ m ∧ m ≤ c * 64 + b ∧ bitOf bm m = true ∧
        ∀ m', m < m' → m' ≤ c * 64 + b → bitOf bm m' = false
    | none => ∀ m', lc * 64 + lb ≤ m' → m' ≤ c * 64 + b → bitOf bm m' = false
  | 0, c, b, hb, hn => by
    unfold prevInitLoop
    intro m' h1 h2
    omega
  | n + 1, c, b, hb, hn => by
    unfold prevInitLoop
    simp only []
    by_cases h1 : c > lc ∨ (c = lc ∧ b ≥ lb)
    · rw [if_pos h1]
      by_cases h2 : bm c % 2 ^ (b + 1) > 0
      · rw [if_pos h2]
        obtain ⟨j1, j2, j3⟩ := highestBit_spec (bm c) b h2
        generalize highestBit (bm c) b = j at j1 j2 j3 ⊢
        have hset : bitOf bm (c * 64 + j) = true := by
          rw [bitOf_chunk (c := c) (by omega) (by omega)]
          have : c * 64 + j - c * 64 = j := by omega
          rw [this]; exact j2
        have hmin : ∀ m', c * 64 + j < m' → m' ≤ c * 64 + b → bitOf bm m' = false := by
          intro m' a1 a2
          rw [bitOf_chunk (c := c) (by omega) (by omega)]
          exact j3 _ (by omega) (by omega)
        by_cases h3 : c > lc ∨ (c = lc ∧ j ≥ lb)
        · rw [if_pos h3]
          refine ⟨c * 64 + j, ?_, by omega, by omega, hset, hmin⟩
          unfold tickOfBit
          rw [max_tdiv]
          simp only [CHUNK_SIZE]
          push_cast
          rfl
        · rw [if_neg h3]
          intro m' a1 a2
          exact hmin m' (by omega) a2
      · rw [if_neg h2]
        have hz : ∀ m', c * 64 ≤ m' → m' ≤ c * 64 + b → bitOf bm m' = false := by
          intro m' a1 a2
          rw [bitOf_chunk (c := c) (by omega) (by omega)]
          exact mod_two_pow_eq_zero (b := b + 1) (by omega) (by omega)
        by_cases h3 : c = 0
        · rw [if_pos h3]
          intro m' a1 a2
          exact hz m' (by omega) a2
        · rw [if_neg h3]
          have ih := prevInitLoop_spec (bm := bm) (ts := ts) (lc := lc) hlb n (c - 1) 63 (by omega) (by omega)
          have e63 : (c - 1) * 64 + 63 + 1 = c * 64 := by omega
          split
          · rename_i i he
            rw [he] at ih
            obtain ⟨m, b1, b2, b3, b4, b5⟩ := ih
            refine ⟨m, b1, b2, by omega, b4, fun m' a1 a2 => ?_⟩
            by_cases e : c * 64 ≤ m'
            · exact hz m' e a2
            · exact b5 m' a1 (by omega)
          · rename_i he
            rw [he] at ih
            intro m' a1 a2
            by_cases e : c * 64 ≤ m'
            · exact hz m' e a2
            · exact ih m' a1 (by omega)
    · rw [if_neg h1]
      intro m' a1 a2
      omega

/-! ## In terms of ticks -/

/-- The bit of a tick is set. -/
def tickSet (bm : Nat → Nat) (ts : Nat) (i : Int) : Prop := bitOf bm (bitOfTick ts i) = true

theorem getSearchLimit_up {ts : Nat} {t : Int} (h : TickOk ts t) :
    getSearchLimit t ts true = .ok (min (t + 256 * ts) (getMaxTick ts)) := by
  obtain ⟨h0, hq, h1, h2⟩ := h.bits
  unfold getSearchLimit
  rw [if_neg (by omega)]
  simp only [if_true]
  congr 1
  have e : t.tdiv ts = t / ts := by
    have := Int.tdiv_eq_ediv_of_dvd (a := t) (b := ts) ⟨t / ts, by rw [Int.mul_comm]; exact hq⟩
    exact this
  rw [e, max_tdiv, getMaxTick_half]
  have hR : TICK_SEARCH_RANGE = 256 := rfl
  rw [hR]
  have hts : (0 : Int) ≤ ts := by omega
  generalize hqq : t / (ts : Int) = q at *
  rw [hq]
  have hd : q * ts + 256 * ts = (q + 256) * ts := by rw [Int.add_mul]
  rw [hd]
  rcases Int.le_total (q + 256) (halfTicks ts) with hle | hle
  · rw [Int.min_eq_left hle, Int.min_eq_left (Int.mul_le_mul_of_nonneg_right hle hts)]
  · rw [Int.min_eq_right hle, Int.min_eq_right (Int.mul_le_mul_of_nonneg_right hle hts)]

theorem getSearchLimit_down {ts : Nat} {t : Int} (h : TickOk ts t) :
    getSearchLimit t ts false = .ok (max (t - 256 * ts) (-getMaxTick ts)) := by
  obtain ⟨h0, hq, h1, h2⟩ := h.bits
  unfold getSearchLimit
  rw [if_neg (by omega)]
  simp only [Bool.false_eq_true, if_false]
  congr 1
  have e : t.tdiv ts = t / ts := by
    have := Int.tdiv_eq_ediv_of_dvd (a := t) (b := ts) ⟨t / ts, by rw [Int.mul_comm]; exact hq⟩
    exact this
  rw [e, Int.neg_tdiv, max_tdiv, getMaxTick_half]
  have hR : TICK_SEARCH_RANGE = 256 := rfl
  rw [hR]
  have hts : (0 : Int) ≤ ts := by omega
  generalize hqq : t / (ts : Int) = q at *
  rw [hq, ← Int.neg_mul]
  have hd : q * ts - 256 * ts = (q - 256) * ts := by rw [Int.sub_mul]
  rw [hd]
  rcases Int.le_total (q - 256) (-(halfTicks ts : Int)) with hle | hle
  · rw [Int.max_eq_right hle, Int.max_eq_right (Int.mul_le_mul_of_nonneg_right hle hts)]
  · rw [Int.max_eq_left hle, Int.max_eq_left (Int.mul_le_mul_of_nonneg_right hle hts)]

theorem upLimit_ok {ts : Nat} {t : Int} (h : TickOk ts t) : TickOk ts (min (t + 256 * ts) (getMaxTick ts)) := by
  obtain ⟨h0, hq, h1, h2⟩ := h.bits
  have hts : (0 : Int) ≤ ts := by omega
  have hd : t + 256 * ts = (t / ts + 256) * ts := by rw [Int.add_mul, ← hq]
  rw [hd, getMaxTick_half]
  rcases Int.le_total (t / ts + 256) (halfTicks ts) with hle | hle
  · rw [Int.min_eq_left (Int.mul_le_mul_of_nonneg_right hle hts)]
    exact tickOk_mul h0 (by omega) hle
  · rw [Int.min_eq_right (Int.mul_le_mul_of_nonneg_right hle hts)]
    exact tickOk_mul h0 (by omega) (Int.le_refl _)

theorem downLimit_ok {ts : Nat} {t : Int} (h : TickOk ts t) : TickOk ts (max (t - 256 * ts) (-getMaxTick ts)) := by
  obtain ⟨h0, hq, h1, h2⟩ := h.bits
  have hts : (0 : Int) ≤ ts := by omega
  have hd : t - 256 * ts = (t / ts - 256) * ts := by rw [Int.sub_mul, ← hq]
  rw [hd, getMaxTick_half, ← Int.neg_mul]
  rcases Int.le_total (t / ts - 256) (-(halfTicks ts : Int)) with hle | hle
  · rw [Int.max_eq_right (Int.mul_le_mul_of_nonneg_right hle hts)]
    exact tickOk_mul h0 (Int.le_refl _) (by omega)
  · rw [Int.max_eq_left (Int.mul_le_mul_of_nonneg_right hle hts)]
    exact tickOk_mul h0 hle (by omega)

theorem bitOfTick_mono {ts : Nat} {a b : Int} (ha : TickOk ts a) (hb : TickOk ts b) :
    (bitOfTick ts a < bitOfTick ts b ↔ a < b) ∧ (bitOfTick ts a ≤ bitOfTick ts b ↔ a ≤ b) := by
  obtain ⟨h0, qa, a1, a2⟩ := ha.bits
  obtain ⟨_, qb, b1, b2⟩ := hb.bits
  have hts : (0 : Int) < ts := by omega
  have key : ∀ x y : Int, x = x / ts * ts → y = y / ts * ts → (x ≤ y ↔ x / ts ≤ y / ts) := by
    intro x y hx hy
    constructor
    · exact fun h => Int.ediv_le_ediv hts h
    · intro h; rw [hx, hy]; exact Int.mul_le_mul_of_nonneg_right h (Int.le_of_lt hts)
  have k1 := key a b qa qb
  have k2 := key b a qb qa
  have e1 : ((bitOfTick ts a : Nat) : Int) = a / ts + halfTicks ts := by unfold bitOfTick; omega
  have e2 : ((bitOfTick ts b : Nat) : Int) = b / ts + halfTicks ts := by unfold bitOfTick; omega
  generalize a / (ts : Int) = qa at *
  generalize b / (ts : Int) = qb at *
  omega

theorem tickOfBit_ok {ts m : Nat} (h0 : 0 < ts) (h : m ≤ 2 * halfTicks ts) : TickOk ts (tickOfBit ts m) := by
  unfold tickOfBit
  exact tickOk_mul h0 (by omega) (by omega)

theorem bitOfTick_le {ts : Nat} {t : Int} (h : TickOk ts t) : bitOfTick ts t ≤ 2 * halfTicks ts := by
  obtain ⟨_, _, _, h2⟩ := h.bits
  unfold bitOfTick
  omega

/-- The search upwards. -/
theorem nextInitialized_spec {bm : Nat → Nat} (hbm : ∀ c, bm c < 2 ^ 64) {ts : Nat} {t : Int} (h : TickOk ts t) :
    ∃ r, nextInitialized bm t ts = .ok r ∧
    match r with
    | some i => t < i ∧ i ≤ min (t + 256 * ts) (getMaxTick ts) ∧ TickOk ts i ∧ tickSet bm ts i ∧
        ∀ j, TickOk ts j → t < j → j < i → ¬ tickSet bm ts j
    | none => ∀ j, TickOk ts j → t < j → j ≤ min (t + 256 * ts) (getMaxTick ts) → ¬ tickSet bm ts j := by
  have hq := h.bits
  have hts : (0 : Int) < ts := by omega
  unfold nextInitialized
  rw [getSearchLimit_up h]
  simp only [ok_bind]
  by_cases hM : t + ts > MAX_TICK
  · rw [if_pos hM]
    refine ⟨none, rfl, fun j hj h1 _ hset => ?_⟩
    have hr := hj.range
    obtain ⟨_, qj, _, _⟩ := hj.bits
    obtain ⟨_, qt, _, _⟩ := hq
    have : t / ts < j / ts := by
      by_contra hc
      have hc : j / ts ≤ t / ts := by omega
      have := Int.mul_le_mul_of_nonneg_right hc (Int.le_of_lt hts)
      omega
    have h3 : t / ts + 1 ≤ j / ts := by omega
    have := Int.mul_le_mul_of_nonneg_right h3 (Int.le_of_lt hts)
    rw [Int.add_mul] at this
    omega
  · rw [if_neg hM]
    have hok1 : TickOk ts (t + ts) := by
      obtain ⟨h0, qt, b1, b2⟩ := hq
      have e : t + ts = (t / ts + 1) * ts := by rw [Int.add_mul, ← qt]; omega
      rw [e]
      have := quot_bounds (q := t / ts + 1) h0 (by rw [← e]; have := h.range; have : MAX_TICK = 221818 := rfl; omega) (by
        rw [← e]; have : MAX_TICK = 221818 := rfl; omega)
      exact tickOk_mul h0 this.1 this.2
    have hokl := upLimit_ok h
    rw [tickToPosition_ok hok1, tickToPosition_ok hokl]
    simp only [ok_bind]
    refine ⟨_, rfl, ?_⟩
    generalize hlim : min (t + 256 * ts) (getMaxTick ts) = lim at *
    have hs := nextInitLoop_spec hbm (ts := ts) (lc := bitOfTick ts lim / 64) (lb := bitOfTick ts lim % 64)
      (Nat.mod_lt _ (by decide)) (bitOfTick ts lim / 64 + 1 - bitOfTick ts (t + ts) / 64) (bitOfTick ts (t + ts) / 64)
      (bitOfTick ts (t + ts) % 64) (Nat.mod_lt _ (by decide)) (by omega)
    have em : bitOfTick ts (t + ts) / 64 * 64 + bitOfTick ts (t + ts) % 64 = bitOfTick ts (t + ts) := by omega
    have el : bitOfTick ts lim / 64 * 64 + bitOfTick ts lim % 64 = bitOfTick ts lim := by omega
    rw [em, el] at hs
    have nxt : ∀ j, TickOk ts j → t < j → bitOfTick ts (t + ts) ≤ bitOfTick ts j := by
      intro j hj hlt
      have a1 := (bitOfTick_mono h hj).1.2 hlt
      have : bitOfTick ts (t + ts) = bitOfTick ts t + 1 := by
        unfold bitOfTick
        have : (t + (ts : Int)) / ts = t / ts + 1 := by
          have := Int.add_mul_ediv_right t 1 (show (ts : Int) ≠ 0 by omega)
          rwa [Int.one_mul] at this
        rw [this]; omega
      omega
    split
    · rename_i i he
      rw [he] at hs
      obtain ⟨m, rfl, m1, m2, m3, m4⟩ := hs
      have hmle : m ≤ 2 * halfTicks ts := by have := bitOfTick_le hokl; omega
      have hmok := tickOfBit_ok hq.1 hmle
      have hbm' := bitOfTick_tickOfBit hq.1 m
      refine ⟨?_, ?_, hmok, ?_, fun j hj a1 a2 => ?_⟩
      · have := (bitOfTick_mono hok1 hmok).2.1 (by rw [hbm']; exact m1); omega
      · exact (bitOfTick_mono hmok hokl).2.1 (by rw [hbm']; exact m2)
      · unfold tickSet; rw [hbm']; exact m3
      · unfold tickSet
        rw [m4 _ (nxt j hj a1) (by have := (bitOfTick_mono hj hmok).1.2 a2; rwa [hbm'] at this)]
        decide
    · rename_i he
      rw [he] at hs
      intro j hj a1 a2
      unfold tickSet
      rw [hs _ (nxt j hj a1) ((bitOfTick_mono hj hokl).2.2 a2)]
      decide

/-- The search downwards. -/
theorem prevInitialized_spec {bm : Nat → Nat} {ts : Nat} {t : Int} (h : TickOk ts t) :
    ∃ r, prevInitialized bm t ts = .ok r ∧
    match r with
    | some i => i ≤ t ∧ max (t - 256 * ts) (-getMaxTick ts) ≤ i ∧ TickOk ts i ∧ tickSet bm ts i ∧
        ∀ j, TickOk ts j → i < j → j ≤ t → ¬ tickSet bm ts j
    | none => ∀ j, TickOk ts j → j ≤ t → max (t - 256 * ts) (-getMaxTick ts) ≤ j → ¬ tickSet bm ts j := by
  have hq := h.bits
  unfold prevInitialized
  have hokl := downLimit_ok h
  rw [getSearchLimit_down h]
  simp only [ok_bind]
  rw [tickToPosition_ok h, tickToPosition_ok hokl]
  simp only [ok_bind]
  refine ⟨_, rfl, ?_⟩
  generalize hlim : max (t - 256 * ts) (-getMaxTick ts) = lim at *
  have hs := prevInitLoop_spec (bm := bm) (ts := ts) (lc := bitOfTick ts lim / 64) (lb := bitOfTick ts lim % 64)
    (Nat.mod_lt _ (by decide)) (bitOfTick ts t / 64 + 1 - bitOfTick ts lim / 64) (bitOfTick ts t / 64)
    (bitOfTick ts t % 64) (Nat.mod_lt _ (by decide)) (by omega)
  have em : bitOfTick ts t / 64 * 64 + bitOfTick ts t % 64 = bitOfTick ts t := by omega
  have el : bitOfTick ts lim / 64 * 64 + bitOfTick ts lim % 64 = bitOfTick ts lim := by omega
  rw [em, el] at hs
  split
  · rename_i i he
    rw [he] at hs
    obtain ⟨m, rfl, m1, m2, m3, m4⟩ := hs
    have hmle : m ≤ 2 * halfTicks ts := by have := bitOfTick_le h; omega
    have hmok := tickOfBit_ok hq.1 hmle
    have hbm' := bitOfTick_tickOfBit hq.1 m
    refine ⟨?_, ?_, hmok, ?_, fun j hj a1 a2 => ?_⟩
    · exact (bitOfTick_mono hmok h).2.1 (by rw [hbm']; exact m2)
    · exact (bitOfTick_mono hokl hmok).2.1 (by rw [hbm']; exact m1)
    · unfold tickSet; rw [hbm']; exact m3
    · unfold tickSet
      rw [m4 _ (by have := (bitOfTick_mono hmok hj).1.2 a1; rwa [hbm'] at this) ((bitOfTick_mono hj h).2.2 a2)]
      decide
  · rename_i he
    rw [he] at hs
    intro j hj a1 a2
    unfold tickSet
    rw [hs _ ((bitOfTick_mono hokl hj).2.2 a2) ((bitOfTick_mono hj h).2.2 a1)]
    decide

end OraiV3
