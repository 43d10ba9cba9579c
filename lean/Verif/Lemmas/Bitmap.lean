import Verif.Lemmas.TickSum

/-!
# Bitmap: a bit of the tick bitmap is set exactly for the stored ticks
-/

namespace OraiV3

/-- The number of usable ticks on each side of zero. -/
def halfTicks (ts : Nat) : Nat := 221818 / ts

theorem max_tdiv (ts : Nat) : MAX_TICK.tdiv ts = (halfTicks ts : Int) := by
  show (221818 : Int).tdiv ts = ((221818 / ts : Nat) : Int)
  rw [Int.tdiv_eq_ediv_of_nonneg (by decide)]
  rfl

theorem getMaxTick_half (ts : Nat) : getMaxTick ts = (halfTicks ts : Int) * ts := by
  unfold getMaxTick
  rw [max_tdiv]

/-- The tick a bit of the bitmap stands for. -/
def tickOfBit (ts m : Nat) : Int := ((m : Int) - halfTicks ts) * ts

/-- Position of a tick's bit in the bitmap. -/
def bitOfTick (ts : Nat) (t : Int) : Nat := (t / ts + halfTicks ts).toNat

theorem tmod_zero_mul {t : Int} {ts : Nat} (h : t.tmod ts = 0) : t = t / ts * ts := by
  have h1 : (ts : Int) ∣ t := Int.dvd_of_tmod_eq_zero h
  exact (Int.ediv_mul_cancel h1).symm

theorem halfTicks_spec {ts : Nat} (h0 : 0 < ts) : halfTicks ts * ts ≤ 221818 ∧ 221818 < (halfTicks ts + 1) * ts := by
  unfold halfTicks
  exact ⟨Nat.div_mul_le_self _ _, by have := Nat.lt_div_mul_add (a := 221818) h0; rw [Nat.add_mul]; omega⟩

theorem halfTicks_le (ts : Nat) : halfTicks ts ≤ 221818 := Nat.div_le_self _ _

/-- A multiple of the spacing within the tick range. -/
theorem quot_bounds {ts : Nat} (h0 : 0 < ts) {q : Int} (h1 : -221818 ≤ q * ts) (h2 : q * ts ≤ 221818) :
    -(halfTicks ts : Int) ≤ q ∧ q ≤ halfTicks ts := by
  obtain ⟨_, hs⟩ := halfTicks_spec h0
  have hs' : (221818 : Int) < ((halfTicks ts : Int) + 1) * ts := by exact_mod_cast hs
  have hts : (0 : Int) < ts := by exact_mod_cast h0
  constructor
  · by_contra hc
    have : q ≤ -((halfTicks ts : Int) + 1) := by omega
    have := Int.mul_le_mul_of_nonneg_right this (Int.le_of_lt hts)
    rw [Int.neg_mul] at this
    omega
  · by_contra hc
    have : (halfTicks ts : Int) + 1 ≤ q := by omega
    have := Int.mul_le_mul_of_nonneg_right this (Int.le_of_lt hts)
    omega

theorem tickToPosition_inv {t : Int} {ts : Nat} {c : Nat × Nat} (h : tickToPosition t ts = .ok c) :
    0 < ts ∧ t = t / ts * ts ∧ -(halfTicks ts : Int) ≤ t / ts ∧ t / ts ≤ halfTicks ts ∧
      c = (bitOfTick ts t / 64, bitOfTick ts t % 64) := by
  unfold tickToPosition at h
  rw [ite_error_ok, ite_error_ok, ite_error_ok, ok_inj] at h
  obtain ⟨h0, h1, h2, rfl⟩ := h
  have h0' : 0 < ts := by omega
  have h2 : t.tmod ts = 0 := Decidable.not_not.1 h2
  have hq := tmod_zero_mul h2
  have h1 := Decidable.not_not.1 h1
  have hb := quot_bounds (q := t / ts) h0' (by rw [← hq]; exact h1.1) (by rw [← hq]; exact h1.2)
  refine ⟨h0', hq, hb.1, hb.2, ?_⟩
  have hm : (t + MAX_TICK).tdiv ts = ((bitOfTick ts t : Nat) : Int) := by
    rw [Int.tdiv_eq_ediv_of_nonneg (by omega)]
    have hts : (ts : Int) ≠ 0 := by omega
    have : t + MAX_TICK = MAX_TICK + t / ts * ts := by rw [← hq]; omega
    rw [this, Int.add_mul_ediv_right _ _ hts]
    have : MAX_TICK / (ts : Int) = (halfTicks ts : Int) := rfl
    rw [this]
    unfold bitOfTick
    omega
  rw [hm, Int.tdiv_eq_ediv_of_nonneg (by omega), Int.tmod_eq_emod_of_nonneg (by omega)]
  show (((bitOfTick ts t : Int) / 64).toNat, ((bitOfTick ts t : Int) % 64).toNat) = _
  have : bitOfTick ts t / 64 * 64 + bitOfTick ts t % 64 = bitOfTick ts t := by omega
  ext
  · show ((bitOfTick ts t : Int) / 64).toNat = bitOfTick ts t / 64; omega
  · show ((bitOfTick ts t : Int) % 64).toNat = bitOfTick ts t % 64; omega

theorem TickOk.bits {ts : Nat} {t : Int} (h : TickOk ts t) :
    0 < ts ∧ t = t / ts * ts ∧ -(halfTicks ts : Int) ≤ t / ts ∧ t / ts ≤ halfTicks ts := by
  obtain ⟨h0, h1, h2, h3⟩ := TickOk_iff.1 h
  have hr := h.range
  have h0' : 0 < ts := by omega
  have hq := tmod_zero_mul h1
  have hm : MAX_TICK = 221818 := rfl
  have hb := quot_bounds (q := t / ts) h0' (by rw [← hq]; omega) (by rw [← hq]; omega)
  exact ⟨h0', hq, hb.1, hb.2⟩

/-- Characterisation of usable ticks by their quotient. -/
theorem tickOk_mul {ts : Nat} (h0 : 0 < ts) {q : Int} (h1 : -(halfTicks ts : Int) ≤ q) (h2 : q ≤ halfTicks ts) :
    TickOk ts (q * ts) := by
  have hts : (0 : Int) ≤ ts := by omega
  refine TickOk_iff.2 ⟨by omega, Int.mul_tmod_left _ _, ?_, ?_⟩
  · rw [getMaxTick_half, ← Int.neg_mul]; exact Int.mul_le_mul_of_nonneg_right h1 hts
  · rw [getMaxTick_half]; exact Int.mul_le_mul_of_nonneg_right h2 hts

theorem tickToPosition_ok {ts : Nat} {t : Int} (h : TickOk ts t) :
    tickToPosition t ts = .ok (bitOfTick ts t / 64, bitOfTick ts t % 64) := by
  obtain ⟨h0, h1, _⟩ := TickOk_iff.1 h
  have hr := h.range
  have : ∃ c, tickToPosition t ts = .ok c := by
    unfold tickToPosition
    rw [if_neg h0, if_neg (by omega), if_neg (by omega)]
    exact ⟨_, rfl⟩
  obtain ⟨c, hc⟩ := this
  rw [hc, (tickToPosition_inv hc).2.2.2.2]

theorem tickOfBit_bitOfTick {ts : Nat} {t : Int} (hq : t = t / ts * ts) (hb : -(halfTicks ts : Int) ≤ t / ts) :
    tickOfBit ts (bitOfTick ts t) = t := by
  unfold tickOfBit bitOfTick
  have : (((t / ts + halfTicks ts).toNat : Nat) : Int) - halfTicks ts = t / ts := by omega
  rw [this]; exact hq.symm

theorem tickOfBit_inj {ts : Nat} (h0 : 0 < ts) {m m' : Nat} (h : tickOfBit ts m = tickOfBit ts m') : m = m' := by
  unfold tickOfBit at h
  have := Int.eq_of_mul_eq_mul_right (by omega) h
  omega

theorem bitOfTick_tickOfBit {ts : Nat} (h0 : 0 < ts) (m : Nat) : bitOfTick ts (tickOfBit ts m) = m := by
  unfold tickOfBit bitOfTick
  rw [Int.mul_ediv_cancel _ (by omega)]
  omega

theorem bitOfTick_lt {ts : Nat} {t : Int} (h : t / ts ≤ halfTicks ts) : bitOfTick ts t < 2 ^ 22 := by
  unfold bitOfTick
  have := halfTicks_le ts
  omega

theorem tickOfBit_i32 {ts m : Nat} (h : ts ≤ 100) (hm : m < 2 ^ 22) : i32 (tickOfBit ts m) := by
  have h1 := halfTicks_le ts
  have a1 : -(4194304 : Int) ≤ (m : Int) - halfTicks ts := by omega
  have a2 : (m : Int) - halfTicks ts ≤ 4194304 := by omega
  unfold tickOfBit
  have b1 := Int.mul_le_mul_of_nonneg_right a1 (show (0 : Int) ≤ ts by omega)
  have b2 := Int.mul_le_mul_of_nonneg_right a2 (show (0 : Int) ≤ ts by omega)
  constructor
  · refine Int.le_trans ?_ b1; omega
  · refine Int.lt_of_le_of_lt b2 ?_; omega

/-! ## Bits -/

/-- A bit of a pool's bitmap. -/
def bitOf (bm : Nat → Nat) (m : Nat) : Bool := (bm (m / 64)).testBit (m % 64)

theorem bitAt_testBit (v b : Nat) : bitAt v b = if v.testBit b then 1 else 0 := by
  unfold bitAt
  rw [Nat.testBit_eq_decide_div_mod_eq]
  have : v / 2 ^ b % 2 < 2 := Nat.mod_lt _ (by decide)
  by_cases h : v / 2 ^ b % 2 = 1
  · simp [h]
  · simp [h]; omega

theorem flipBit_testBit (v b b' : Nat) : (flipBit v b).testBit b' = Bool.xor (v.testBit b') (decide (b = b')) := by
  unfold flipBit
  rw [Nat.testBit_xor, Nat.testBit_two_pow]

theorem flipBit_lt {v b : Nat} (hv : v < 2 ^ 64) (hb : b < 64) : flipBit v b < 2 ^ 64 := by
  unfold flipBit
  exact Nat.xor_lt_two_pow hv (Nat.pow_lt_pow_right (by decide) hb)

/-- Flipping one bit. -/
theorem bitOf_flip {s s' : Store} {k : PoolKey} (hk : k.wf) {m : Nat} (hm : m < 2 ^ 22)
    (h : s'.bitmap = s.bitmap.insert (bitmapKey (m / 64) k) (flipBit (getChunk s k (m / 64)) (m % 64)))
    {k' : PoolKey} (hk' : k'.wf) {m' : Nat} (hm' : m' < 2 ^ 22) :
    bitOf (getChunk s' k') m' = Bool.xor (bitOf (getChunk s k') m') (decide (k' = k ∧ m' = m)) := by
  unfold bitOf getChunk
  rw [h, KV.get?_insert]
  have hU : U16 = 65536 := rfl
  by_cases e : bitmapKey (m' / 64) k' = bitmapKey (m / 64) k
  · obtain ⟨e1, rfl⟩ := bitmapKey_inj hk' hk (by omega) (by omega) e
    rw [if_pos e, Option.getD_some, flipBit_testBit]
    rw [e1]
    unfold getChunk
    congr 1
    by_cases e2 : m % 64 = m' % 64
    · have : m' = m := by omega
      simp [this]
    · have : m' ≠ m := fun e => e2 (by rw [e])
      simp [this, e2]
  · rw [if_neg e]
    have : ¬ (k' = k ∧ m' = m) := by rintro ⟨rfl, rfl⟩; exact e rfl
    simp [this]

theorem chunk_flip {s s' : Store} {k : PoolKey} {m : Nat}
    (h : s'.bitmap = s.bitmap.insert (bitmapKey (m / 64) k) (flipBit (getChunk s k (m / 64)) (m % 64)))
    (hc : ∀ k c, getChunk s k c < 2 ^ 64) (k' : PoolKey) (c : Nat) : getChunk s' k' c < 2 ^ 64 := by
  unfold getChunk
  rw [h, KV.get?_insert]
  split
  · exact flipBit_lt (hc _ _) (Nat.mod_lt _ (by decide))
  · exact hc _ _

/-! ## The invariant -/

/-- The bitmap shows exactly the stored ticks. -/
structure BitInv (s : Store) : Prop where
  chunk : ∀ k c, getChunk s k c < 2 ^ 64
  bit : ∀ k m, k.wf → 1 ≤ k.tier.spacing → k.tier.spacing ≤ 100 → m < 2 ^ 22 →
    bitOf (getChunk s k) m = (s.ticks.get? (tickKey k (tickOfBit k.tier.spacing m))).isSome

theorem BitInv.congr {s s' : Store} (h : BitInv s) (h1 : s'.bitmap = s.bitmap)
    (h2 : ∀ key, (s'.ticks.get? key).isSome = (s.ticks.get? key).isSome) : BitInv s' := by
  have e : ∀ k, getChunk s' k = getChunk s k := fun k => by funext c; unfold getChunk; rw [h1]
  exact ⟨fun k c => by rw [e]; exact h.chunk k c, fun k m a b c d => by rw [e, h2]; exact h.bit k m a b c d⟩

/-- Flipping the bit of a tick together with its presence. -/
theorem BitInv.flip {s s' : Store} (h : BitInv s) {k : PoolKey} (hk : k.wf) (h0 : k.tier.spacing ≤ 100) {i : Int}
    {c : Nat × Nat} (hc : tickToPosition i k.tier.spacing = .ok c)
    (hb : s'.bitmap = s.bitmap.insert (bitmapKey c.1 k) (flipBit (getChunk s k c.1) c.2))
    (ht : ∀ key, (s'.ticks.get? key).isSome = Bool.xor (s.ticks.get? key).isSome (decide (key = tickKey k i))) :
    BitInv s' := by
  obtain ⟨h1, hq, hl, hu, rfl⟩ := tickToPosition_inv hc
  refine ⟨chunk_flip hb h.chunk, fun k' m' hk' b1 b2 hm' => ?_⟩
  rw [bitOf_flip hk (bitOfTick_lt hu) hb hk' hm', h.bit k' m' hk' b1 b2 hm', ht]
  congr 1
  rw [decide_eq_decide]
  constructor
  · rintro ⟨rfl, rfl⟩
    rw [tickOfBit_bitOfTick hq hl]
  · intro e
    have hi : i32 i := by
      rw [← tickOfBit_bitOfTick hq hl]
      exact tickOfBit_i32 h0 (bitOfTick_lt hu)
    obtain ⟨rfl, e2⟩ := tickKey_inj hk' hk (tickOfBit_i32 b2 hm') hi e
    exact ⟨rfl, by rw [← e2, bitOfTick_tickOfBit (by omega)]⟩

theorem BitInv.getOrCreate {s : Store} (h : BitInv s) {now : Nat} {k : PoolKey} {i : Int} {r : Store × Tick}
    {pool : Pool} (hk : k.wf) (h0 : k.tier.spacing ≤ 100) (hp : s.pools.get? k.key = some pool)
    (hr : getOrCreateTick s now k i = .ok r) : BitInv r.1 := by
  obtain ⟨_, ht, hb⟩ := getOrCreateTick_view hp hr
  rcases hb with ⟨h1, h2⟩ | ⟨h1, c, h2, _, h4⟩
  · refine h.congr h2 (fun key => ?_)
    rw [ht]
    split
    · rename_i e; rw [e, h1]
    · rfl
  · refine h.flip hk h0 h2 h4 (fun key => ?_)
    rw [ht]
    by_cases e : key = tickKey k i
    · rw [if_pos e, e, h1]; simp
    · rw [if_neg e]; simp [e]

theorem BitInv.settle {s s' : Store} (h : BitInv s) {k : PoolKey} {i : Int} {t : Tick} (hk : k.wf)
    (h0 : k.tier.spacing ≤ 100) (hi : t.index = i) (he : (s.ticks.get? (tickKey k i)).isSome = true)
    (hr : settleTick s k i t = .ok s') : BitInv s' := by
  obtain ⟨ht, _, hb⟩ := settleTick_view hi hr
  by_cases z : t.gross = 0
  · rw [if_pos z] at hb
    obtain ⟨c, h2, _, h4⟩ := hb
    refine h.flip hk h0 h2 h4 (fun key => ?_)
    rw [ht]
    by_cases e : key = tickKey k i
    · rw [if_pos e, if_pos z, e, he]; simp
    · rw [if_neg e]; simp [e]
  · rw [if_neg z] at hb
    refine h.congr hb (fun key => ?_)
    rw [ht]
    by_cases e : key = tickKey k i
    · rw [if_pos e, if_neg z, e, he]; rfl
    · rw [if_neg e]

theorem BitInv.micro {c : Chain} {s s' : Store} (hs : Struct s) (hb : BitInv s) (hm : Micro c s s') : BitInv s' := by
  cases hm with
  | @config cfg cfg' hc hf ht => exact hb.congr rfl (fun _ => rfl)
  | opers ops => exact hb.congr rfl (fun _ => rfl)
  | @poolMeta k p rcv px py hk hp hx hy => exact hb.congr rfl (fun _ => rfl)
  | @newPool _ env t0 t1 tier price tick out hw h =>
    obtain ⟨_, k', _, _, _, _, _, _, _, rfl, _⟩ := createPool_inv h
    exact hb.congr rfl (fun _ => rfl)
  | @create _ env info k l u L lo hi' out hw h =>
    obtain ⟨pool, tl, tu, r, rl, m1, m2, hp, hL, hlu, vl, vu, il, iu, hrl, hrl2, ⟨ru, hru, hru2, hbm⟩, _, _, hm, e1, e2, e3,
      e4, e5, hU, htk, _⟩ := createPosition_view hs hw h
    have hk := hw.1
    have hsp := hs.tier hk hp
    have b1 := hb.getOrCreate hk hsp.2.1 hp hrl
    obtain ⟨t1, bm1, f1⟩ := getOrCreateTick_frame hrl
    have hp1 : rl.1.pools.get? k.key = some pool := by rw [f1]; exact hp
    have b2 := b1.getOrCreate hk hsp.2.1 hp1 hru
    refine b2.congr hbm (fun key => ?_)
    rw [htk, (getOrCreateTick_view hp1 hru).2.1, (getOrCreateTick_view hp hrl).2.1]
    split
    · rfl
    · split <;> rfl
  | @claim _ env info i out hw h =>
    obtain ⟨pos, tl, tu, pool, r, hpos, htl, htu, il, iu, hp, hm, _, _, hbm, _, _, hp', _, htk, _⟩ := claimFee_view hs h
    refine hb.congr hbm (fun key => ?_)
    rw [htk]
    split
    · rename_i e; rw [e, htl]; rfl
    · split
      · rename_i e; rw [e, htu]; rfl
      · rfl
  | @remove _ env info i out hw h =>
    obtain ⟨pos, tl, tu, pool, r, sr, s1, s2, hpos, htl, htu, il, iu, hp, hm, _, _, jl, ju, hs1, hs2, hr, e1, e2, e3, e5, e6,
      e7, htk, _⟩ := removePosition_view hs h
    have hok := hs.positions _ _ hpos
    have hk := hok.kwf
    have hsp := hs.tier hk hp
    have hlu : pos.lower ≠ pos.upper := by have := hok.lt; omega
    have hne : tickKey pos.poolKey pos.upper ≠ tickKey pos.poolKey pos.lower :=
      fun e => hlu (tickKey_inj hk hk hok.upper.i32 hok.lower.i32 e).2.symm
    have b0 : BitInv (savePool s pos.poolKey r.pool) := hb.congr rfl (fun _ => rfl)
    have b1 := b0.settle hk hsp.2.1 jl (by show (s.ticks.get? _).isSome = true; rw [htl]; rfl) hs1
    have hu1 : s1.ticks.get? (tickKey pos.poolKey pos.upper) = some tu := by
      rw [(settleTick_view jl hs1).1, if_neg hne]; exact htu
    have b2 := b1.settle hk hsp.2.1 ju (by rw [hu1]; rfl) hs2
    refine b2.congr e3 (fun key => ?_)
    rw [htk, (settleTick_view ju hs2).1, (settleTick_view jl hs1).1]
    rfl
  | @move s1 _ o r i p hw h1 h2 =>
    obtain ⟨_, rfl⟩ := addPosition_ok.1 h2
    obtain ⟨_, _, rfl⟩ := removePositionAt_frame h1
    exact hb.congr rfl (fun _ => rfl)
  | @appr id p a h => exact hb.congr rfl (fun _ => rfl)
  | @swap info now k d amount b limit x hk ha hl h =>
    refine hb.congr ?_ (fun key => ?_)
    · obtain ⟨t, e1⟩ := swapInternal_frame h
      rw [e1]
    · have := congrArg Option.isSome (swapInternal_core hs hk h key)
      simpa using this

theorem MReach.bitInv {c : Chain} {s : Store} (h : MReach c s) : BitInv s := by
  induction h with
  | init sender fee _ =>
    refine ⟨fun k c => ?_, fun k m _ _ _ _ => ?_⟩
    · show 0 < 2 ^ 64; decide
    · show Nat.testBit 0 _ = false
      exact Nat.zero_testBit _
  | step hr hm ih => exact ih.micro hr.struct hm

end OraiV3
