import Verif.Lemmas.Accept
import Verif.Lemmas.Cap
import Verif.Props.Active
import Verif.Props.Ticks
import Verif.Examples

/-!
# C58: which pools there are; C59: which deposits are accepted
-/

namespace OraiV3

/-! ## C58 -/

/-- **C58.** The parameters of every pool: its two tokens are different and in order, its tick spacing is between 1 and 100 and
its fee less than 100%.  The fee tiers on offer have such parameters too. -/
theorem C58_parameters {c : Chain} {s : Store} (hr : Reach c s) :
    (∀ (k : PoolKey) p, k.wf → s.pools.get? k.key = some p → bytesLt k.tokenX k.tokenY = true ∧ k.tokenX ≠ k.tokenY ∧
      1 ≤ k.tier.spacing ∧ k.tier.spacing ≤ 100 ∧ k.tier.fee < 10 ^ 12) ∧
    ∀ cfg, s.config = some cfg → ∀ t ∈ cfg.feeTiers, 1 ≤ t.spacing ∧ t.spacing ≤ 100 ∧ t.fee < 10 ^ 12 := by
  have hs := hr.mreach.struct
  refine ⟨fun k p hk hp => ?_, fun cfg hc t ht => ?_⟩
  · obtain ⟨k', e, hk', hv, hlt⟩ := hs.pools _ _ hp
    rw [← PoolKey.key_inj hk hk' e] at hv hlt
    refine ⟨hlt, ?_, hv⟩
    intro heq
    rw [heq, bytesLt_irrefl] at hlt
    cases hlt
  · obtain ⟨cfg', e, _, h⟩ := hs.cfg
    rw [hc, Option.some.injEq] at e
    subst e
    exact (h t ht).1

/-- The price belongs to the tick: it lies between the prices of this tick and the next; at the last tick it is that tick's. -/
def PriceFits (ts : Nat) (tick : Int) (price : Nat) : Prop :=
  if ValidTick ts (tick + ts) then sqrtPriceAt tick ≤ price ∧ price < sqrtPriceAt (tick + ts) else price = sqrtPriceAt tick

instance (ts : Nat) (tick : Int) (price : Nat) : Decidable (PriceFits ts tick price) := by unfold PriceFits; infer_instance

theorem checkTickToSqrtPrice_iff {ts : Nat} {tick : Int} {price : Nat} (ht : TickOk ts tick) :
    ∃ b, checkTickToSqrtPrice tick ts price = .ok b ∧ (b = true ↔ PriceFits ts tick price) := by
  have hpos := ht.pos
  have hle := (TickOk_iff.1 ht).2.2.2
  have hM : MAX_TICK = 221818 := rfl
  have hnext : TickOk ts (tick + ts) ↔ tick + ts ≤ MAX_TICK := by
    constructor
    · intro h; exact h.range.2
    · intro h
      refine ht.add ?_
      rcases Int.lt_or_eq_of_le hle with h2 | h2
      · exact h2
      · exfalso
        have h3 := (halfTicks_spec hpos).2
        rw [getMaxTick_half] at h2
        have h4 : (221818 : Int) < ((halfTicks ts : Int) + 1) * ts := by exact_mod_cast h3
        rw [Int.add_mul] at h4
        omega
  unfold checkTickToSqrtPrice PriceFits
  by_cases hgt : tick + ts > MAX_TICK
  · rw [if_pos hgt, if_neg (by rw [validTick_iff, hnext]; omega)]
    have he : tick = getMaxTick ts := by
      rcases Int.lt_or_eq_of_le hle with h2 | h2
      · have := (ht.add h2).range
        omega
      · exact h2
    rw [calculateSqrtPrice_ok' (ts := ts) (by rw [← he]; exact ht), ok_bind, ← he]
    exact ⟨_, rfl, by simp⟩
  · have h1 := hnext.2 (by omega)
    rw [if_neg hgt, if_pos (validTick_iff.2 h1), calculateSqrtPrice_ok' ht, ok_bind, calculateSqrtPrice_ok' h1, ok_bind]
    refine ⟨_, rfl, ?_⟩
    rw [decide_eq_true_iff]
    omega

/-- **C58.** Anybody can create a pool, exactly under these conditions: the tokens differ, the fee tier is on offer, the initial
tick is valid for its spacing and the initial price belongs to it, and the two tokens have no pool of this fee tier yet. -/
theorem C58_create {c : Chain} {s : Store} (hr : Reach c s) (env : Env) (info : Info) {a b : Bytes} {tier : FeeTier} {price : Nat}
    {tick : Int} (hw : (Msg.createPool a b tier price tick).wf) :
    (∃ s' out, execute c env info (.createPool a b tier price tick) s = .ok (s', out)) ↔
      a ≠ b ∧ (∃ cfg, s.config = some cfg ∧ tier ∈ cfg.feeTiers) ∧ ValidTick tier.spacing tick ∧ PriceFits tier.spacing tick price ∧
      s.pools.get? (PoolKey.key ⟨a, b, tier⟩) = none ∧ s.pools.get? (PoolKey.key ⟨b, a, tier⟩) = none := by
  have hs := hr.mreach.struct
  have hab : (⟨a, b, tier⟩ : PoolKey).wf := ⟨hw.1, hw.2.1, hw.2.2.1⟩
  have hba : (⟨b, a, tier⟩ : PoolKey).wf := ⟨hw.2.1, hw.1, hw.2.2.1⟩
  have hnone : ∀ {x y : Bytes}, (⟨x, y, tier⟩ : PoolKey).wf → bytesLt x y = false → s.pools.get? (PoolKey.key ⟨x, y, tier⟩) = none := by
    intro x y hk hlt
    cases hp : s.pools.get? (PoolKey.key ⟨x, y, tier⟩) with
    | none => rfl
    | some p =>
      have := ((C58_parameters hr).1 _ p hk hp).1
      rw [hlt] at this
      cases this
  have hkey : ∀ {k : PoolKey}, PoolKey.new a b tier = .ok k → a ≠ b ∧
      (s.pools.get? k.key = none ↔ s.pools.get? (PoolKey.key ⟨a, b, tier⟩) = none ∧ s.pools.get? (PoolKey.key ⟨b, a, tier⟩) = none) := by
    intro k hk
    unfold PoolKey.new at hk
    by_cases h : a = b
    · rw [if_pos h] at hk; cases hk
    · rw [if_neg h] at hk
      refine ⟨h, ?_⟩
      have hf := bytesLt_flip h
      cases hlt : bytesLt a b with
      | true =>
        rw [hlt, if_pos rfl, ok_inj] at hk
        subst hk
        have : bytesLt b a = false := by rw [hf, hlt]; rfl
        rw [hnone hba this]
        simp
      | false =>
        rw [hlt, if_neg (by simp), ok_inj] at hk
        subst hk
        rw [hnone hab hlt]
        simp
  constructor
  · rintro ⟨s', out, h⟩
    obtain ⟨cfg, k, pool, h1, h2, h3, h4, h5, h6, _⟩ := createPool_inv (execute_ok.1 h).2
    obtain ⟨hne, hk⟩ := hkey h4
    obtain ⟨bb, e, hb⟩ := checkTickToSqrtPrice_iff (price := price) h3
    refine ⟨hne, ⟨cfg, h1, h2⟩, validTick_iff.2 h3, ?_, hk.1 h5⟩
    unfold Pool.create at h6
    rw [e, ok_bind] at h6
    cases bb with
    | true => exact hb.1 rfl
    | false => cases h6
  · rintro ⟨hne, ⟨cfg, h1, h2⟩, h3, h4, h5⟩
    have h3' := validTick_iff.1 h3
    obtain ⟨k, hk⟩ : ∃ k, PoolKey.new a b tier = .ok k := by
      unfold PoolKey.new
      rw [if_neg hne]
      split <;> exact ⟨_, rfl⟩
    obtain ⟨bb, e, hb⟩ := checkTickToSqrtPrice_iff (price := price) h3'
    rw [hb.2 h4] at e
    unfold execute
    rw [if_pos hw]
    change ∃ s' out, createPool s env a b tier price tick = .ok (s', out)
    have hp : Pool.create price tick env.millis tier.spacing cfg.admin =
        .ok { sqrtPrice := price, tick := tick, startTs := env.millis, lastTs := env.millis, feeReceiver := cfg.admin } := by
      unfold Pool.create
      rw [e, ok_bind]
      rfl
    refine ⟨savePool s k { sqrtPrice := price, tick := tick, startTs := env.millis, lastTs := env.millis, feeReceiver := cfg.admin }, [], ?_⟩
    unfold createPool
    refine bind_of_ok (loadConfig_ok.2 h1) ?_
    rw [if_neg (by simpa using h2)]
    refine bind_of_ok h3' (bind_of_ok hk ?_)
    rw [if_neg (by rw [Bool.not_eq_true, KV.has_false_iff]; exact (hkey hk).2.2 h5), hp]
    rfl

/-- **C58.** The new pool has the given price and tick, no liquidity and no fees, and the admin as its fee receiver; it is found
under the two tokens in their order. -/
theorem C58_new_pool {c : Chain} {s s' : Store} {env : Env} {info : Info} {a b : Bytes} {tier : FeeTier} {price : Nat} {tick : Int}
    {out : List OutMsg} (h : execute c env info (.createPool a b tier price tick) s = .ok (s', out)) :
    ∃ cfg, s.config = some cfg ∧ out = [] ∧
      ∃ pool : Pool,
        s' = { s with pools := s.pools.insert (if bytesLt a b then PoolKey.mk a b tier else ⟨b, a, tier⟩).key pool } ∧
        pool.sqrtPrice = price ∧ pool.tick = tick ∧ pool.feeReceiver = cfg.admin ∧ pool.liquidity = 0 ∧
        pool.fgX = 0 ∧ pool.fgY = 0 ∧ pool.protoX = 0 ∧ pool.protoY = 0 := by
  obtain ⟨cfg, k, pool, h1, _, _, h4, _, h6, rfl, rfl⟩ := createPool_inv (execute_ok.1 h).2
  refine ⟨cfg, h1, rfl, ?_⟩
  unfold PoolKey.new at h4
  split at h4
  · cases h4
  · unfold Pool.create at h6
    rw [bind_ok] at h6
    obtain ⟨bb, _, h6⟩ := h6
    cases bb with
    | false => cases h6
    | true =>
      have e6 := ok_inj.1 h6
      subst e6
      refine ⟨{ sqrtPrice := price, tick := tick, startTs := env.millis, lastTs := env.millis, feeReceiver := cfg.admin }, ?_, rfl, rfl, rfl, rfl, rfl, rfl, rfl, rfl⟩
      by_cases hlt : bytesLt a b = true
      · rw [if_pos hlt, ok_inj] at h4
        rw [if_pos hlt, h4]; rfl
      · rw [if_neg hlt, ok_inj] at h4
        rw [if_neg hlt, h4]; rfl

open Demo in
/-- Anybody can create a pool; not twice, and not with a price that does not belong to the tick. -/
example :
    let s := state chain [(by_ alice, .addFeeTier tier)]
    let try_ := fun a b price tick => (execute chain env (by_ carol) (.createPool a b tier price tick) s).isOk
    try_ [97] [98] (10 ^ 24) 0 = true ∧ try_ [98] [97] (10 ^ 24) 0 = true ∧ try_ [97] [97] (10 ^ 24) 0 = false ∧
    try_ [97] [98] (10 ^ 24 - 1) 0 = false ∧ PriceFits tier.spacing 0 (10 ^ 24) ∧ ¬ PriceFits tier.spacing 0 (10 ^ 24 - 1) := by
  decide +kernel

/-! ## C59 -/

/-- The caller can be charged the amount: there is nothing to charge, the token is a contract (which is asked to move it), or
enough of the coin is attached. -/
def CanPay (c : Chain) (info : Info) (token : Bytes) (amount : Nat) : Prop :=
  amount = 0 ∨ c.isAddr token = true ∨ ∃ coin, info.funds.find? (fun x => x.denom = token) = some coin ∧ amount ≤ coin.amount

theorem canPay_iff {c : Chain} {info : Info} {token : Bytes} {amount : Nat} :
    CanPay c info token amount ↔ ∃ ms, assetTransferFrom c token amount info = .ok ms := by
  unfold CanPay assetTransferFrom
  by_cases h0 : amount = 0
  · rw [if_pos h0]; simp [h0]
  rw [if_neg h0]
  by_cases h1 : c.isAddr token = true
  · rw [if_pos h1]; simp [h1]
  rw [if_neg h1]
  cases info.funds.find? (fun x => x.denom = token) with
  | none => simp [h0, h1]
  | some coin =>
    by_cases h2 : coin.amount ≥ amount
    · simp only [if_pos h2]
      refine ⟨fun _ => ?_, fun _ => .inr (.inr ⟨_, rfl, h2⟩)⟩
      split <;> exact ⟨_, rfl⟩
    · simp only [if_neg h2]
      simp [h0, h1]
      omega

/-- **C59.** A deposit is accepted exactly if: the pool exists, the liquidity is not zero, the range is not empty and its ends
are valid ticks, the pool's price is within the caller's bounds, the liquidity at both ends stays below the cap, the pool's
liquidity (if the range is active) stays below 2^128, the caller has not 2^32 - 1 positions, and native coins to be charged are
attached.  Nothing else, in particular no price, range, fee history or amount, makes it fail. -/
theorem C59_deposit {c : Chain} {s : Store} (hr : Reach c s) (env : Env) (info : Info) {k : PoolKey} {l u : Int} {L lo hi : Nat}
    {msg : Msg} (hm : msg = .createPosition k l u L lo hi ∨ msg = .mint k l u L lo hi) (hw : msg.wf)
    (hn : ∀ p, s.pools.get? k.key = some p → p.startTs ≤ env.millis) :
    (∃ s' out, execute c env info msg s = .ok (s', out)) ↔
      ∃ p, s.pools.get? k.key = some p ∧ 0 < L ∧ l < u ∧ ValidTick k.tier.spacing l ∧ ValidTick k.tier.spacing u ∧
        lo ≤ p.sqrtPrice ∧ p.sqrtPrice ≤ hi ∧
        liquidityStartingAt s k l + liquidityEndingAt s k l + L < maxLiquidityPerTick k.tier.spacing ∧
        liquidityStartingAt s k u + liquidityEndingAt s k u + L < maxLiquidityPerTick k.tier.spacing ∧
        (l ≤ p.tick → p.tick < u → p.liquidity + L < U128) ∧
        getPositionLength s info.sender + 1 < U32 ∧
        ∃ x y act, calculateAmountDelta p.tick p.sqrtPrice L true u l = .ok (x, y, act) ∧
          CanPay c info k.tokenX x ∧ CanPay c info k.tokenY y := by
  have hmr := hr.mreach
  have hs := hmr.struct
  have hts := hmr.tickSum
  have hwf : k.wf ∧ i32 l ∧ i32 u ∧ L < U128 := by
    rcases hm with rfl | rfl <;> exact ⟨hw.1, hw.2.1, hw.2.2.1, hw.2.2.2.1⟩
  obtain ⟨hk, hl, hu, hL⟩ := hwf
  have hex : execute c env info msg s = createPosition c s env info k l u L lo hi := by
    unfold execute
    rw [if_pos hw]
    rcases hm with rfl | rfl <;> rfl
  rw [hex]
  have hne : ∀ {i j : Int}, i32 i → i32 j → i ≠ j → tickKey k i ≠ tickKey k j := by
    intro i j hi hj h e
    exact h (tickKey_inj hk hk hi hj e).2
  constructor
  · rintro ⟨s', out, h⟩
    obtain ⟨p, rl, ru, r, s1, s2, m1, m2, h1, h2, hp, h3, h4, h5, h6, _, _, h7, h8, _⟩ := createPosition_inv h
    obtain ⟨hlo, hhi, h5⟩ := Position.create_inv h5
    obtain ⟨q, a1, a2, _, a4, a5, a6, a7⟩ := Position.modify_inv h5
    obtain ⟨d, liq, b1, b2, b3⟩ := Pool.updateLiquidity_inv a4
    have hpr := hmr.price k p hk hp
    obtain ⟨v1, w1, _⟩ := getOrCreateTick_view hp h3
    have hp1 : rl.1.pools.get? k.key = some p := by
      obtain ⟨_, _, e⟩ := getOrCreateTick_frame h3
      rw [e]; exact hp
    obtain ⟨v2, _, _⟩ := getOrCreateTick_view hp1 h4
    have v2' : TickUsed s k p env.millis u ru.2 := by
      unfold TickUsed at v2 ⊢
      rw [w1, if_neg (hne hu hl (Ne.symm h2))] at v2
      exact v2
    obtain ⟨t1, i1, g1, _⟩ := v1.sums hs hts hk hl
    obtain ⟨t2, i2, g2, _⟩ := v2'.sums hs hts hk hu
    have c1 := Tick.update_inv a1
    have c2 := Tick.update_inv a2
    rw [c1.1, c2.1, i1, i2] at b1
    simp only [if_true] at c1 c2
    have hlt : l < u := by
      rcases Int.lt_trichotomy l u with h | h | h
      · exact h
      · exact absurd h h2
      · unfold calculateAmountDelta at b1
        rw [if_pos h] at b1
        cases b1
    obtain ⟨d', hd', hact⟩ := amountDelta_up_ok hpr t1 t2 hlt hL
    have hb1 : calculateAmountDelta p.tick p.sqrtPrice L true u l = .ok d := b1
    rw [hd', ok_inj] at hb1
    subst hb1
    have hlen : getPositionLength (savePool ru.1 k r.pool) info.sender = getPositionLength s info.sender := by
      obtain ⟨_, _, e⟩ := getOrCreateTick_frame h3
      obtain ⟨_, _, e2⟩ := getOrCreateTick_frame h4
      rw [e2, e]
      rfl
    have h6' := (addPosition_ok.1 h6).1
    rw [hlen] at h6'
    refine ⟨p, hp, Nat.pos_of_ne_zero h1, hlt, validTick_iff.2 t1, validTick_iff.2 t2, hlo, hhi, ?_, ?_, ?_, h6', ?_⟩
    · rw [← g1]; omega
    · rw [← g2]; omega
    · intro x1 x2
      rw [if_pos (hact.2 ⟨x1, x2⟩), if_pos rfl] at b2
      exact b2.1
    · refine ⟨d'.1, d'.2.1, d'.2.2, hd', canPay_iff.2 ⟨m1, ?_⟩, canPay_iff.2 ⟨m2, ?_⟩⟩
      · rw [← h7, a6, b3]
      · rw [← h8, a7, b3]
  · rintro ⟨p, hp, h1, hlt, t1, t2, hlo, hhi, g1, g2, hact, hlen, x, y, act, hd, hx, hy⟩
    rw [validTick_iff] at t1 t2
    have hv := hs.tier hk hp
    have hpr := hmr.price k p hk hp
    obtain ⟨rl, h3⟩ := getOrCreateTick_ok hmr.bitInv hk hv t1 hp (hn p hp)
    have hp1 : rl.1.pools.get? k.key = some p := by
      obtain ⟨_, _, e⟩ := getOrCreateTick_frame h3
      rw [e]; exact hp
    obtain ⟨ru, h4⟩ := getOrCreateTick_ok (hmr.bitInv.getOrCreate hk hv.2.1 hp h3) hk hv t2 hp1 (hn p hp)
    obtain ⟨v1, w1, _⟩ := getOrCreateTick_view hp h3
    obtain ⟨v2, w2, _⟩ := getOrCreateTick_view hp1 h4
    have hnk := hne hu hl (by omega)
    have v2' : TickUsed s k p env.millis u ru.2 := by
      unfold TickUsed at v2 ⊢
      rw [w1, if_neg hnk] at v2
      exact v2
    obtain ⟨_, i1, e1, n1⟩ := v1.sums hs hts hk hl
    obtain ⟨_, i2, e2, n2⟩ := v2'.sums hs hts hk hu
    obtain ⟨tl', a1⟩ := Tick.update_add_ok (isUpper := false) e1 n1 (by rw [e1]; exact g1) (maxLiquidityPerTick_le k.tier.spacing)
    obtain ⟨tu', a2⟩ := Tick.update_add_ok (isUpper := true) e2 n2 (by rw [e2]; exact g2) (maxLiquidityPerTick_le k.tier.spacing)
    obtain ⟨d', hd', hact'⟩ := amountDelta_up_ok hpr t1 t2 hlt hL
    rw [hd, ok_inj] at hd'
    subst hd'
    have hq : ∃ q, Pool.updateLiquidity { p with lastTs := env.millis } L true ru.2.index rl.2.index = .ok q := by
      rw [i1, i2]
      unfold Pool.updateLiquidity
      cases act with
      | true =>
        have := hact'.1 rfl
        exact ⟨_, bind_of_ok hd (bind_of_ok (cast128_of_lt (hact this.1 this.2)) rfl)⟩
      | false => exact ⟨_, bind_of_ok hd rfl⟩
    obtain ⟨q, hq⟩ := hq
    have hz : ∀ g : Nat, wsub g 0 * 0 / 10 ^ 34 < U128 := by
      intro g
      rw [Nat.mul_zero, Nat.zero_div]
      decide
    obtain ⟨r, h5⟩ := Position.modify_ok (pos := ⟨k, 0, rl.2.index, ru.2.index, 0, 0, env.height, 0, 0, []⟩) (pool := p) (now := env.millis) (l' := 0 + L) a1 a2 (by simp only; omega)
      (show checkedAdd _ 0 L = .ok (0 + L) from cast128_of_lt (by omega)) rfl rfl (hz _) (hz _) hq
    obtain ⟨q', b1, b2, _, b4, b5, b6, b7⟩ := Position.modify_inv h5
    obtain ⟨d2, liq, f1, _, f3⟩ := Pool.updateLiquidity_inv b4
    have j1 := (Tick.update_inv b1).1
    have j2 := (Tick.update_inv b2).1
    rw [j1, j2, i1, i2] at f1
    have f1' : calculateAmountDelta p.tick p.sqrtPrice L true u l = .ok d2 := f1
    rw [hd, ok_inj] at f1'
    subst f1'
    obtain ⟨m1, hm1⟩ := canPay_iff.1 hx
    obtain ⟨m2, hm2⟩ := canPay_iff.1 hy
    have hc : Position.create p k rl.2 ru.2 env.millis L lo hi env.height k.tier.spacing = .ok r := by
      unfold Position.create
      rw [if_neg (by omega)]
      exact h5
    have hlen' : getPositionLength (savePool ru.1 k r.pool) info.sender = getPositionLength s info.sender := by
      obtain ⟨_, _, e⟩ := getOrCreateTick_frame h3
      obtain ⟨_, _, e2⟩ := getOrCreateTick_frame h4
      rw [e2, e]
      rfl
    have hadd := (addPosition_ok (s := savePool ru.1 k r.pool) (o := info.sender) (p := r.pos)).2 ⟨by rw [hlen']; exact hlen, rfl⟩
    have hrx : r.x = x := by rw [b6, f3]
    have hry : r.y = y := by rw [b7, f3]
    unfold createPosition
    rw [if_neg (by omega), if_neg (by omega), hp]
    refine ⟨_, _, bind_of_ok h3 (bind_of_ok h4 (bind_of_ok hc (bind_of_ok hadd (bind_of_ok (updateTick_ok.2 ⟨?_, rfl⟩)
      (bind_of_ok (updateTick_ok.2 ⟨?_, rfl⟩) (bind_of_ok (by rw [hrx]; exact hm1) (bind_of_ok (by rw [hry]; exact hm2) rfl)))))))⟩
    · rw [j1, i1]
      change ∃ old, ru.1.ticks.get? (tickKey k l) = some old
      rw [w2, if_neg (Ne.symm hnk), w1, if_pos rfl]
      exact ⟨_, rfl⟩
    · rw [j2, i2]
      simp only
      rw [KV.get?_insert_other _ _ (by rw [j1, i1]; exact hnk)]
      change ∃ old, ru.1.ticks.get? (tickKey k u) = some old
      rw [w2, if_pos rfl]
      exact ⟨_, rfl⟩

/-- **C59**, tokens that are contracts: no condition about amounts is left. -/
theorem C59_deposit_contracts {c : Chain} {s : Store} (hr : Reach c s) (env : Env) (info : Info) {k : PoolKey} {l u : Int} {L lo hi : Nat}
    {msg : Msg} (hm : msg = .createPosition k l u L lo hi ∨ msg = .mint k l u L lo hi) (hw : msg.wf)
    (hn : ∀ p, s.pools.get? k.key = some p → p.startTs ≤ env.millis) (hx : c.isAddr k.tokenX = true) (hy : c.isAddr k.tokenY = true) :
    (∃ s' out, execute c env info msg s = .ok (s', out)) ↔
      ∃ p, s.pools.get? k.key = some p ∧ 0 < L ∧ l < u ∧ ValidTick k.tier.spacing l ∧ ValidTick k.tier.spacing u ∧
        lo ≤ p.sqrtPrice ∧ p.sqrtPrice ≤ hi ∧
        liquidityStartingAt s k l + liquidityEndingAt s k l + L < maxLiquidityPerTick k.tier.spacing ∧
        liquidityStartingAt s k u + liquidityEndingAt s k u + L < maxLiquidityPerTick k.tier.spacing ∧
        (l ≤ p.tick → p.tick < u → p.liquidity + L < U128) ∧
        getPositionLength s info.sender + 1 < U32 := by
  rw [C59_deposit hr env info hm hw hn]
  have hwf : k.wf ∧ L < U128 := by
    rcases hm with rfl | rfl <;> exact ⟨hw.1, hw.2.2.2.1⟩
  constructor
  · rintro ⟨p, hp, a1, a2, a3, a4, a5, a6, a7, a8, a9, a10, _⟩
    exact ⟨p, hp, a1, a2, a3, a4, a5, a6, a7, a8, a9, a10⟩
  · rintro ⟨p, hp, a1, a2, a3, a4, a5, a6, a7, a8, a9, a10⟩
    obtain ⟨d, hd, _⟩ := amountDelta_up_ok (hr.mreach.price k p hwf.1 hp) (validTick_iff.1 a3) (validTick_iff.1 a4) a2 hwf.2
    exact ⟨p, hp, a1, a2, a3, a4, a5, a6, a7, a8, a9, a10, d.1, d.2.1, d.2.2, hd, .inr (.inl hx), .inr (.inl hy)⟩

/-- **C59**, pools in which no swap went wrong (C01): the pool's liquidity cannot overflow either, because the caps of all ticks together leave
no room for that.  Such a deposit fails only for an unknown pool, empty or invalid arguments, the caller's own price bounds, the cap
of one of the two ticks, a full list, or missing coins. -/
theorem C59_deposit_regular {c : Chain} {s : Store} (hr : Reach c s) (env : Env) (info : Info) {k : PoolKey} (hdr : drift s k = 0) {l u : Int}
    {L lo hi : Nat} {msg : Msg} (hm : msg = .createPosition k l u L lo hi ∨ msg = .mint k l u L lo hi) (hw : msg.wf)
    (hn : ∀ p, s.pools.get? k.key = some p → p.startTs ≤ env.millis) :
    (∃ s' out, execute c env info msg s = .ok (s', out)) ↔
      ∃ p, s.pools.get? k.key = some p ∧ 0 < L ∧ l < u ∧ ValidTick k.tier.spacing l ∧ ValidTick k.tier.spacing u ∧
        lo ≤ p.sqrtPrice ∧ p.sqrtPrice ≤ hi ∧
        liquidityStartingAt s k l + liquidityEndingAt s k l + L < maxLiquidityPerTick k.tier.spacing ∧
        liquidityStartingAt s k u + liquidityEndingAt s k u + L < maxLiquidityPerTick k.tier.spacing ∧
        (positionList s info.sender).length + 1 < U32 ∧
        ∃ x y act, calculateAmountDelta p.tick p.sqrtPrice L true u l = .ok (x, y, act) ∧
          CanPay c info k.tokenX x ∧ CanPay c info k.tokenY y := by
  have hk : k.wf := by rcases hm with rfl | rfl <;> exact hw.1
  rw [C59_deposit hr env info hm hw hn, positionList_length]
  refine exists_congr fun p => and_congr_right fun hp => and_congr_right fun _ => and_congr_right fun h1 => and_congr_right fun h2 =>
    and_congr_right fun h3 => and_congr_right fun _ => and_congr_right fun _ => and_congr_right fun h4 => and_congr_right fun h5 => ?_
  refine ⟨fun h => h.2, fun h => ⟨fun _ _ => ?_, h⟩⟩
  have hst := hr.mreach.struct
  have := total_add_lt hst hr.mreach.cap hk (hst.tier hk hp) (validTick_iff.1 h2) (validTick_iff.1 h3) (by omega) h4 h5
  have h6 := inRange_le (s := s) (k := k) (t := p.tick)
  rw [← active_of hdr hp] at h6
  omega

open Demo in
/-- The hypothesis of `C59_deposit_regular` and one more case: after a swap the same deposit is accepted. -/
example : RegularReach chain (fun _ => True) (state chain crossing) ∧
    (execute chain env (by_ carol) (.createPosition key (-10) 10 (10 ^ 12) 0 (10 ^ 30)) (state chain crossing)).isOk = true :=
  ⟨state_regular (by decide +kernel) (by decide +kernel), by decide +kernel⟩

open Demo in
/-- The largest deposit at a tick that is used already, at the far end of the tick range, and one more. -/
example :
    let s := state chain setup
    let m := maxLiquidityPerTick tier.spacing
    (execute chain env (by_ carol) (.createPosition key (-10) 221810 (m - 10 ^ 12 - 1) 0 (10 ^ 30)) s).isOk = true ∧
    (execute chain env (by_ carol) (.createPosition key (-10) 221810 (m - 10 ^ 12) 0 (10 ^ 30)) s).isOk = false ∧
    liquidityStartingAt s key (-10) + liquidityEndingAt s key (-10) + (m - 10 ^ 12 - 1) < maxLiquidityPerTick key.tier.spacing := by
  decide +kernel

end OraiV3
