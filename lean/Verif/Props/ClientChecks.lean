import Verif.Client
import Verif.Props.Accept
import Verif.Props.Admin
import Verif.Props.Cap

/-!
# C77: the client's checks agree with the contract

The client library offers functions to form a pool key, to check a fee tier and a range, and to get the extreme prices.  Here
they are compared with what the contract accepts and stores.
-/

namespace OraiV3

/-! ## Pool keys -/

/-- Where the client forms no key, no such pool can be created, in any state.  Otherwise a pool created from the two tokens, in
either order, is stored under the client's key, which no pool had before. -/
theorem C77_pool_key {c : Chain} {s s' : Store} {env : Env} {info : Info} {a b : Bytes} {tier : FeeTier} {price : Nat} {tick : Int}
    {out : List OutMsg} (h : execute c env info (.createPool a b tier price tick) s = .ok (s', out)) :
    ∃ k pool, clientPoolKey a b tier = .ok k ∧ clientPoolKey b a tier = .ok k ∧
      s.pools.get? k.key = none ∧ s'.pools.get? k.key = some pool ∧ ∀ key, key ≠ k.key → s'.pools.get? key = s.pools.get? key := by
  obtain ⟨cfg, k, pool, h1, _, _, h4, h5, _, rfl, rfl⟩ := createPool_inv (execute_ok.1 h).2
  refine ⟨k, pool, h4, ?_, h5, ?_, fun key hk => ?_⟩
  · unfold PoolKey.new at h4
    unfold clientPoolKey clientIsTokenX
    by_cases hab : a = b
    · rw [if_pos hab] at h4; cases h4
    · rw [if_neg hab] at h4
      rw [if_neg (Ne.symm hab), bytesLt_flip hab]
      cases hlt : bytesLt a b with
      | true => rw [hlt] at h4; exact h4
      | false => rw [hlt] at h4; exact h4
  · unfold savePool
    simp only [KV.get?_insert, if_true]
  · unfold savePool
    simp only
    rw [KV.get?_insert_other _ _ hk]

/-- A token is X in the key of a pool exactly if the client says so. -/
theorem C77_token_x {a b : Bytes} {tier : FeeTier} {k : PoolKey} (h : clientPoolKey a b tier = .ok k) :
    (clientIsTokenX a b = true ↔ k.tokenX = a) ∧ (clientIsTokenX b a = true ↔ k.tokenX = b) ∧ k.tier = tier := by
  unfold clientPoolKey at h
  by_cases hab : a = b
  · rw [if_pos hab] at h; cases h
  · rw [if_neg hab] at h
    have hf := bytesLt_flip hab
    unfold clientIsTokenX at h ⊢
    cases hlt : bytesLt a b with
    | true =>
      rw [hlt] at h hf
      rw [if_pos rfl, ok_inj] at h
      subst h
      simp [hf, hab]
    | false =>
      rw [hlt] at h hf
      rw [if_neg (by simp), ok_inj] at h
      subst h
      simp [hf, Ne.symm hab]

/-! ## Fee tiers -/

/-- A fee tier with a fee other than 100 % passes the client's check exactly if the admin can add it, in any reachable state.
Missing: a fee of exactly 100 %, see `C77_tier_false`. -/
theorem C77_tier_partial {c : Chain} {s : Store} {env : Env} {info : Info} {cfg : Config} {tier : FeeTier}
    (hc : s.config = some cfg) (ha : info.sender = cfg.admin) (hw : tier.wf) (h100 : tier.fee ≠ 10 ^ 12) :
    clientFeeTier tier.fee tier.spacing = .ok tier ↔ ∃ s' out, execute c env info (.addFeeTier tier) s = .ok (s', out) := by
  rw [C67_accepted (msg := .addFeeTier tier) hc hw rfl]
  simp only [adminAccepted, ha, true_and]
  unfold clientFeeTier
  have hP : PCT = 10 ^ 12 := rfl
  rw [hP]
  generalize (10 : Nat) ^ 12 = P at *
  constructor
  · intro h
    by_cases h1 : tier.spacing = 0 ∨ tier.spacing > 100
    · rw [if_pos h1] at h; cases h
    · rw [if_neg h1] at h
      by_cases h2 : tier.fee > P
      · rw [if_pos h2] at h; cases h
      · omega
  · intro ⟨h1, h2, h3⟩
    rw [if_neg (by omega), if_neg (by omega)]

/-- The client accepts a fee of 100 %, the contract never does. -/
theorem C77_tier_false : clientFeeTier (10 ^ 12) 1 = .ok ⟨10 ^ 12, 1⟩ ∧
    ∀ c s env info, Reach c s → ¬ ∃ s' out, execute c env info (.addFeeTier ⟨10 ^ 12, 1⟩) s = .ok (s', out) := by
  refine ⟨by decide, fun c s env info hr h => ?_⟩
  obtain ⟨cfg, hc, -, -⟩ := hr.mreach.struct.cfg
  rw [C67_accepted hc (by decide) rfl] at h
  exact absurd h.2.2.2 (by simp)

/-! ## Ranges -/

/-- A range with two different ends passes the client's check exactly if it is not empty and both ends are valid ticks, which is what
the contract asks of the range of a deposit (C59).  Missing: equal ends, see `C77_range_false`. -/
theorem C77_range_partial {l u : Int} {ts : Nat} (hne : l ≠ u) :
    clientCheckTicks l u ts = .ok () ↔ l < u ∧ ValidTick ts l ∧ ValidTick ts u := by
  rw [validTick_iff, validTick_iff]
  unfold clientCheckTicks TickOk
  by_cases h : l > u
  · rw [if_pos h]
    exact ⟨nofun, fun h => by omega⟩
  · rw [if_neg h]
    simp only [bind_ok]
    exact ⟨fun ⟨_, h1, h2⟩ => ⟨by omega, h1, h2⟩, fun ⟨_, h1, h2⟩ => ⟨(), h1, h2⟩⟩

/-- No deposit in a range that the client refuses is ever accepted. -/
theorem C77_range_refused {c : Chain} {s : Store} (hr : Reach c s) {env : Env} {info : Info} {k : PoolKey} {l u : Int} {L lo hi : Nat}
    {msg : Msg} (hm : msg = .createPosition k l u L lo hi ∨ msg = .mint k l u L lo hi)
    (hn : ∀ p, s.pools.get? k.key = some p → p.startTs ≤ env.millis) (h : clientCheckTicks l u k.tier.spacing ≠ .ok ()) :
    ¬ ∃ s' out, execute c env info msg s = .ok (s', out) := by
  intro he
  have hw : msg.wf := by
    obtain ⟨_, _, he⟩ := he
    exact (execute_ok.1 he).1
  obtain ⟨p, _, _, h1, h2, h3, _⟩ := (C59_deposit hr env info hm hw hn).1 he
  exact h ((C77_range_partial (by omega)).2 ⟨h1, h2, h3⟩)

/-- The client accepts an empty range at any valid tick, the contract accepts none. -/
theorem C77_range_false {ts : Nat} {i : Int} (hi : ValidTick ts i) : clientCheckTicks i i ts = .ok () ∧
    ∀ c s env info (k : PoolKey) L lo hi, Reach c s → (∀ p, s.pools.get? k.key = some p → p.startTs ≤ env.millis) →
      ¬ ∃ s' out, execute c env info (.createPosition k i i L lo hi) s = .ok (s', out) := by
  constructor
  · unfold clientCheckTicks
    rw [if_neg (by omega)]
    have h : checkTick i ts = .ok () := validTick_iff.1 hi
    simp only [bind_ok]
    exact ⟨(), h, h⟩
  · intro c s env info k L lo hi hr hn he
    have hw : (Msg.createPosition k i i L lo hi).wf := by
      obtain ⟨_, _, he⟩ := he
      exact (execute_ok.1 he).1
    obtain ⟨p, _, _, h1, _⟩ := (C59_deposit hr env info (.inl rfl) hw hn).1 he
    omega

/-! ## Extreme prices -/

/-- The price of every pool is between the client's extreme prices for its spacing, in every reachable state. -/
theorem C77_prices {c : Chain} {s : Store} (hr : Reach c s) {k : PoolKey} (hk : k.wf) {p : Pool} (hp : s.pools.get? k.key = some p) :
    ∃ lo hi, clientMinSqrtPrice k.tier.spacing = .ok lo ∧ clientMaxSqrtPrice k.tier.spacing = .ok hi ∧
      lo ≤ p.sqrtPrice ∧ p.sqrtPrice ≤ hi := by
  have h := hr.mreach.price k p hk hp
  have h0 := h.tick.pos
  refine ⟨sqrtPriceAt (-getMaxTick k.tier.spacing), _, ?_, ?_, ?_, h.le_top⟩
  · unfold clientMinSqrtPrice
    rw [if_neg (by omega), getMinTick_eq]
    exact calculateSqrtPrice_ok' (minTick_ok h0)
  · unfold clientMaxSqrtPrice
    rw [if_neg (by omega)]
    exact calculateSqrtPrice_ok' (maxTick_ok h0)
  · exact Nat.le_trans ((minTick_ok h0).price_le h.tick (TickOk_iff.1 h.tick).2.2.1) h.lo

/-- They are attained: a pool can be created at either of them. -/
theorem C77_prices_attained {c : Chain} {s : Store} (hr : Reach c s) (env : Env) (info : Info) {cfg : Config} {a b : Bytes} {tier : FeeTier}
    (hc : s.config = some cfg) (ht : tier ∈ cfg.feeTiers) (hab : a ≠ b) (h1 : a.length < U16) (h2 : b.length < U16)
    (hn1 : s.pools.get? (PoolKey.key ⟨a, b, tier⟩) = none) (hn2 : s.pools.get? (PoolKey.key ⟨b, a, tier⟩) = none) {price : Nat}
    (hx : clientMinSqrtPrice tier.spacing = .ok price ∨ clientMaxSqrtPrice tier.spacing = .ok price) :
    ∃ tick s' out, execute c env info (.createPool a b tier price tick) s = .ok (s', out) := by
  obtain ⟨cfg', e, -, hv⟩ := hr.mreach.struct.cfg
  rw [hc, Option.some.injEq] at e
  subst e
  obtain ⟨⟨h0, h100, -⟩, hw⟩ := hv tier ht
  have hmin := minTick_ok h0
  have hmax := maxTick_ok h0
  have hM : MAX_TICK = 221818 := rfl
  have hpos : 0 < getMaxTick tier.spacing := by
    rcases Int.lt_or_eq_of_le (getMaxTick_bounds tier.spacing).1 with h | h
    · exact h
    · exfalso
      have h3 := (halfTicks_spec h0).2
      rw [getMaxTick_half] at h
      have h4 : (221818 : Int) < ((halfTicks tier.spacing : Int) + 1) * tier.spacing := by exact_mod_cast h3
      rw [Int.add_mul] at h4
      omega
  have hlt : ∀ {t : Int}, TickOk tier.spacing t → sqrtPriceAt t < U128 := fun h =>
    Nat.lt_of_le_of_lt h.price_max (by decide)
  have key : ∀ {t : Int}, TickOk tier.spacing t → ∃ tick s' out, execute c env info (.createPool a b tier (sqrtPriceAt t) tick) s = .ok (s', out) := by
    intro t h
    refine ⟨t, (C58_create hr env info ⟨h1, h2, hw, hlt h, h.i32⟩).2 ⟨hab, ⟨cfg, hc, ht⟩, validTick_iff.2 h, ?_, hn1, hn2⟩⟩
    unfold PriceFits
    split
    · rename_i hn
      exact ⟨Nat.le_refl _, h.price_lt (validTick_iff.1 hn) (by omega)⟩
    · rfl
  rcases hx with hx | hx
  · unfold clientMinSqrtPrice at hx
    rw [if_neg (by omega), getMinTick_eq, calculateSqrtPrice_ok' hmin, ok_inj] at hx
    subst hx
    exact key hmin
  · unfold clientMaxSqrtPrice at hx
    rw [if_neg (by omega), calculateSqrtPrice_ok' hmax, ok_inj] at hx
    subst hx
    exact key hmax

/-- The checks at work: keys in either order, the tiers and ranges at the edge, the extreme prices of a spacing of 10. -/
example : clientPoolKey [98] [97] Demo.tier = .ok Demo.key ∧ clientIsTokenX [98] [97] = false ∧
    clientFeeTier (10 ^ 12 - 1) 100 = .ok ⟨10 ^ 12 - 1, 100⟩ ∧ errorOf (clientFeeTier 0 101) = some .invalidTickSpacing ∧
    (clientCheckTicks (-221810) 221810 10).isOk = true ∧ errorOf (clientCheckTicks (-10) 5 10) = some .invalidTickSpacing ∧
    errorOf (clientCheckTicks 10 (-10) 10) = some .tickLowerGreater ∧
    clientMinSqrtPrice 10 = .ok (sqrtPriceAt (-221810)) ∧ clientMaxSqrtPrice 10 = .ok (sqrtPriceAt 221810) := by
  decide +kernel

/-- A state in which the hypotheses of the theorems hold. -/
example : ∃ s, Reach Demo.chain s ∧ (∃ cfg, s.config = some cfg ∧ Demo.tier ∈ cfg.feeTiers) ∧
    (∃ p, s.pools.get? Demo.key.key = some p) ∧ s.pools.get? (PoolKey.key ⟨[97], [99], Demo.tier⟩) = none ∧
    s.pools.get? (PoolKey.key ⟨[99], [97], Demo.tier⟩) = none := by
  refine ⟨_, Demo.state_reach (ms := Demo.setup) (by decide +kernel), ?_, ?_, by decide +kernel, by decide +kernel⟩
  · cases h : (Demo.state Demo.chain Demo.setup).config with
    | none =>
      have : (Demo.state Demo.chain Demo.setup).config.isSome = true := by decide +kernel
      rw [h] at this; cases this
    | some cfg =>
      refine ⟨cfg, rfl, ?_⟩
      have : ∀ x ∈ (Demo.state Demo.chain Demo.setup).config, Demo.tier ∈ x.feeTiers := by decide +kernel
      exact this cfg (by rw [h]; rfl)
  · exact Option.isSome_iff_exists.1 (by decide +kernel)

end OraiV3
