import Verif.Lemmas.Liveness
import Verif.Lemmas.Deposit

/-!
# When a deposit goes through
-/

namespace OraiV3

theorem divToTokenUp_of_le {nom den L : Nat} (h1 : 0 < den) (h2 : nom ≤ L * den) (hL : L < U128) :
    ∃ x, divToTokenUp nom den = .ok x := by
  unfold divToTokenUp
  rw [if_neg (by omega)]
  dsimp only
  have hq : (nom * SPR + (den - 1)) / den ≤ L * SPR := by
    rw [← Nat.lt_succ_iff, Nat.div_lt_iff_lt_mul h1]
    have : nom * SPR ≤ L * den * SPR := Nat.mul_le_mul_right _ h2
    have e : (L * SPR).succ * den = L * den * SPR + den := by rw [Nat.succ_mul]; ring
    omega
  have hb : L * SPR + SPR ≤ U128 * SPR := by
    have := Nat.mul_le_mul_right SPR (show L + 1 ≤ U128 from hL)
    rw [Nat.add_mul, Nat.one_mul] at this
    exact this
  have hU : U128 * SPR < U256 := by norm_num
  have hs : 0 < SPR := by norm_num
  generalize (nom * SPR + (den - 1)) / den = q at *
  rw [if_neg (by omega), if_neg (by omega)]
  refine ⟨_, cast128_of_lt (Nat.lt_of_le_of_lt (m := L) ?_ hL)⟩
  rw [← Nat.lt_succ_iff, Nat.div_lt_iff_lt_mul hs, Nat.succ_mul]
  omega

theorem getDeltaX_up_ok' {a b L : Nat} (ha : 10 ^ 19 + 10 ^ 18 ≤ a) (hb : 10 ^ 19 + 10 ^ 18 ≤ b) (hL : L < U128) :
    ∃ x, getDeltaX a b L true = .ok x := by
  unfold getDeltaX
  simp only [if_true]
  have hsq : SPR + 10 ^ 18 * max a b ≤ a * b := by
    have hmm : max a b * min a b = a * b := by
      rcases Nat.le_total a b with h | h
      · rw [Nat.max_eq_right h, Nat.min_eq_left h, Nat.mul_comm]
      · rw [Nat.max_eq_left h, Nat.min_eq_right h]
    have h1 : 10 ^ 19 + 10 ^ 18 ≤ min a b := by omega
    have h2 : 10 ^ 19 + 10 ^ 18 ≤ max a b := by omega
    have h4 : max a b * (10 ^ 19 + 10 ^ 18) ≤ max a b * min a b := Nat.mul_le_mul_left _ h1
    have h5 : SPR ≤ (10 ^ 19 + 10 ^ 18) * 10 ^ 19 := by norm_num
    have h6 : (10 ^ 19 + 10 ^ 18) * 10 ^ 19 ≤ max a b * 10 ^ 19 := Nat.mul_le_mul_right _ h2
    rw [hmm] at h4
    have h7 : max a b * (10 ^ 19 + 10 ^ 18) = max a b * 10 ^ 19 + 10 ^ 18 * max a b := by ring
    generalize (10 : Nat) ^ 19 = A at *
    generalize (10 : Nat) ^ 18 = B at *
    generalize SPR = S at *
    generalize a * b = P at *
    generalize max a b * A = Q at *
    generalize B * max a b = R at *
    generalize (A + B) * A = T at *
    omega
  have c1 := floor_spec (absDiff a b * L) LIQ (by norm_num)
  have c2 := floor_spec (a * b) SPR (by norm_num)
  have hd : absDiff a b ≤ max a b := by unfold absDiff; split <;> omega
  have hs : SPR = LIQ * 10 ^ 18 := spr_eq
  have hsp : 0 < SPR := by norm_num
  have e4 : absDiff a b * L ≤ max a b * L := Nat.mul_le_mul_right _ hd
  generalize absDiff a b * L / LIQ = nom at *
  generalize a * b / SPR = den at *
  have hden : 10 ^ 18 * max a b ≤ den * SPR := by
    generalize (10 : Nat) ^ 18 * max a b = R at *
    generalize a * b = P at *
    generalize SPR = S at *
    generalize den * S = D at *
    omega
  have hmax : 0 < 10 ^ 18 * max a b := by
    exact Nat.mul_pos (by norm_num) (by omega)
  have hpos : 0 < den := by
    rcases Nat.eq_zero_or_pos den with h | h
    · rw [h, Nat.zero_mul] at hden; omega
    · exact h
  refine divToTokenUp_of_le (L := L) hpos ?_ hL
  refine Nat.le_of_mul_le_mul_right (c := SPR) ?_ hsp
  have g1 : nom * SPR = nom * LIQ * 10 ^ 18 := by rw [hs]; ring
  have g2 : nom * LIQ * 10 ^ 18 ≤ max a b * L * 10 ^ 18 := Nat.mul_le_mul_right _ (c1.1.trans e4)
  have g3 : L * (10 ^ 18 * max a b) ≤ L * (den * SPR) := Nat.mul_le_mul_left _ hden
  rw [g1]
  calc nom * LIQ * 10 ^ 18 ≤ max a b * L * 10 ^ 18 := g2
    _ = L * (10 ^ 18 * max a b) := by ring
    _ ≤ L * (den * SPR) := g3
    _ = L * den * SPR := by ring

theorem getDeltaX_up_ok {a b L : Nat} (ha : MIN_SQRT_PRICE ≤ a) (hb : MIN_SQRT_PRICE ≤ b) (hL : L < U128) :
    ∃ x, getDeltaX a b L true = .ok x :=
  getDeltaX_up_ok' (Nat.le_trans (by norm_num) ha) (Nat.le_trans (by norm_num) hb) hL

theorem getDeltaY_up_ok {a b L : Nat} (ha : a ≤ MAX_SQRT_PRICE) (hb : b ≤ MAX_SQRT_PRICE) (hL : L < U128) :
    ∃ y, getDeltaY a b L true = .ok y := by
  unfold getDeltaY
  simp only [if_true]
  refine ⟨_, cast128_of_lt (Nat.lt_of_le_of_lt (m := L) ?_ hL)⟩
  have hd : absDiff a b ≤ LIQ * SPR := by
    have : MAX_SQRT_PRICE ≤ LIQ * SPR := by norm_num
    unfold absDiff
    split <;> omega
  have h1 : absDiff a b * L ≤ SPR * L * LIQ := by
    calc absDiff a b * L ≤ LIQ * SPR * L := Nat.mul_le_mul_right _ hd
      _ = SPR * L * LIQ := by ring
  have h2 : (absDiff a b * L + (LIQ - 1)) / LIQ ≤ L * SPR := by
    rw [← Nat.lt_succ_iff, Nat.div_lt_iff_lt_mul (by norm_num), Nat.succ_mul, Nat.mul_comm L SPR]
    have : 0 < LIQ := by norm_num
    generalize SPR * L * LIQ = P at h1 ⊢
    generalize absDiff a b * L = Q at h1 ⊢
    clear hd
    generalize LIQ = K at this ⊢
    omega
  rw [← Nat.lt_succ_iff, Nat.div_lt_iff_lt_mul (by norm_num), Nat.succ_mul]
  have : 0 < SPR := by norm_num
  generalize (absDiff a b * L + (LIQ - 1)) / LIQ = q at h2 ⊢
  generalize L * SPR = P at h2 ⊢
  clear h1 hd
  generalize SPR = K at this ⊢
  omega

/-- Depositing any liquidity at any price: the amounts can be computed. -/
theorem amountDelta_up_ok {ts : Nat} {p : Pool} {L : Nat} {l u : Int} (hok : PoolOk ts p) (h1 : TickOk ts l) (h2 : TickOk ts u)
    (h3 : l < u) (hL : L < U128) :
    ∃ r, calculateAmountDelta p.tick p.sqrtPrice L true u l = .ok r ∧ (r.2.2 = true ↔ l ≤ p.tick ∧ p.tick < u) := by
  have p1 := calculateSqrtPrice_ok' h1
  have p2 := calculateSqrtPrice_ok' h2
  have q1 := h1.price_min
  have q2 := h2.price_min
  have q3 := h1.price_max
  have q4 := h2.price_max
  have q5 := hok.min
  have q6 := hok.max
  generalize sqrtPriceAt l = pl at *
  generalize sqrtPriceAt u = pu at *
  unfold calculateAmountDelta
  rw [if_neg (by omega)]
  by_cases c1 : p.tick < l
  · obtain ⟨x, hx⟩ := getDeltaX_up_ok q1 q2 hL
    rw [if_pos c1]
    exact ⟨(x, 0, false), bind_of_ok p1 (bind_of_ok p2 (bind_of_ok hx rfl)), by simp; omega⟩
  · rw [if_neg c1]
    by_cases c2 : p.tick < u
    · obtain ⟨x, hx⟩ := getDeltaX_up_ok q5 q2 hL
      obtain ⟨y, hy⟩ := getDeltaY_up_ok q3 q6 hL
      rw [if_pos c2]
      exact ⟨(x, y, true), bind_of_ok p2 (bind_of_ok hx (bind_of_ok p1 (bind_of_ok hy rfl))), by simp; omega⟩
    · obtain ⟨y, hy⟩ := getDeltaY_up_ok q3 q4 hL
      rw [if_neg c2]
      exact ⟨(0, y, false), bind_of_ok p1 (bind_of_ok p2 (bind_of_ok hy rfl)), by simp; omega⟩

/-- Adding liquidity to a tick with room for it. -/
theorem Tick.update_add_ok {t : Tick} {S E L maxL : Nat} {isUpper : Bool} (hg : t.gross = S + E) (hn : t.net = (S : Int) - E)
    (hm : t.gross + L < maxL) (hM : maxL ≤ U128) : ∃ t', t.update L maxL isUpper true = .ok t' := by
  have h1 : t.newGross true L maxL = .ok (t.gross + L) := by
    unfold Tick.newGross
    simp only [if_true]
    refine bind_of_ok (cast128_of_lt (n := t.gross + L) (by omega)) ?_
    rw [if_neg (by omega)]
    rfl
  have h2 : ∃ t', ({ t with gross := t.gross + L } : Tick).updateChange L (xor true isUpper) = .ok t' := by
    unfold Tick.updateChange
    split
    · split <;> exact ⟨_, rfl⟩
    · have : t.change + L < U128 := by
        unfold Tick.net at hn
        cases hs : t.sign <;> simp [hs] at hn <;> omega
      exact ⟨_, bind_of_ok (cast128_of_lt this) rfl⟩
  obtain ⟨t', h2⟩ := h2
  exact ⟨t', bind_of_ok h1 h2⟩

theorem Tick.create_ok {ts : Nat} {i : Int} {pool : Pool} {now : Nat} (hi : TickOk ts i) (hn : pool.startTs ≤ now) :
    ∃ t, Tick.create i pool now = .ok t := by
  unfold Tick.create
  dsimp only
  rw [calculateSqrtPrice_ok' hi]
  by_cases hb : i ≤ pool.tick
  · simp only [hb, decide_true, if_true]
    exact ⟨_, bind_of_ok rfl (bind_of_ok (subP_ok.2 ⟨hn, rfl⟩) rfl)⟩
  · simp only [hb, decide_false, Bool.false_eq_true, if_false]
    exact ⟨_, rfl⟩

/-- A valid tick is found or can be created. -/
theorem getOrCreateTick_ok {s : Store} (h : BitInv s) {k : PoolKey} {i : Int} {now : Nat} {pool : Pool} (hk : k.wf) (hv : k.tier.Valid)
    (ht : TickOk k.tier.spacing i) (hp : s.pools.get? k.key = some pool) (hn : pool.startTs ≤ now) :
    ∃ r, getOrCreateTick s now k i = .ok r := by
  unfold getOrCreateTick
  split
  · exact ⟨_, rfl⟩
  · rename_i e he
    have hno : s.ticks.get? (tickKey k i) = none := by
      cases hx : s.ticks.get? (tickKey k i) with
      | none => rfl
      | some t => rw [getTick_ok.2 hx] at he; cases he
    obtain ⟨t, hc⟩ := Tick.create_ok ht hn
    obtain ⟨b0, bq, bl, bu⟩ := ht.bits
    have hb := h.bit k (bitOfTick k.tier.spacing i) hk (by omega) hv.2.1 (bitOfTick_lt bu)
    rw [tickOfBit_bitOfTick bq bl, hno] at hb
    have hbit : bitAt (getChunk s k (bitOfTick k.tier.spacing i / 64)) (bitOfTick k.tier.spacing i % 64) = 0 := by
      rw [bitAt_testBit]
      unfold bitOf at hb
      rw [hb]
      simp
    unfold createTick
    refine ⟨_, bind_of_ok ht (bind_of_ok (getPool_ok.2 hp) (bind_of_ok hc (bind_of_ok (addTick_ok.2 ⟨hno, rfl⟩) (bind_of_ok
      (a := { s with ticks := s.ticks.insert (tickKey k i) t, bitmap := s.bitmap.insert (bitmapKey (bitOfTick k.tier.spacing i / 64) k) (flipBit (getChunk s k (bitOfTick k.tier.spacing i / 64)) (bitOfTick k.tier.spacing i % 64)) })
      ?_ rfl))))⟩
    unfold flipBitmap
    refine bind_of_ok (tickToPosition_ok ht) ?_
    have : getChunk { s with ticks := s.ticks.insert (tickKey k i) t } k (bitOfTick k.tier.spacing i / 64) =
        getChunk s k (bitOfTick k.tier.spacing i / 64) := rfl
    dsimp only
    rw [this, if_neg (by simpa using hbit)]
    rfl

/-- The sums a found or new tick stands for. -/
theorem TickUsed.sums {s : Store} (hs : Struct s) (ht : TickSum s) {k : PoolKey} {pool : Pool} {now : Nat} {i : Int} {t : Tick}
    (hk : k.wf) (hi : i32 i) (h : TickUsed s k pool now i t) :
    TickOk k.tier.spacing i ∧ t.index = i ∧ t.gross = liquidityStartingAt s k i + liquidityEndingAt s k i ∧
      t.net = (liquidityStartingAt s k i : Int) - liquidityEndingAt s k i := by
  have h1 := (ht k i hk hi).eq
  unfold tickVal at h1
  rcases h with h | ⟨h, hok, hc⟩
  · obtain ⟨e, hr⟩ := hs.tick hk hi h
    rw [h] at h1
    refine ⟨by rw [← e]; exact hr.ok, e, h1.1, h1.2⟩
  · obtain ⟨e, _, hg, hnet, _⟩ := Tick.create_inv hc
    rw [h] at h1
    refine ⟨hok, e, ?_, ?_⟩
    · rw [hg]; exact h1.1
    · rw [hnet]; exact h1.2

theorem maxLiquidityPerTick_le (ts : Nat) : maxLiquidityPerTick ts ≤ U128 := by
  unfold maxLiquidityPerTick
  exact (Nat.div_le_self _ _).trans (Nat.sub_le _ _)

end OraiV3
