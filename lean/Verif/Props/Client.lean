import Verif.Client
import Verif.Props.Sim
import Verif.Props.Liveness
import Verif.Props.Swap

/-!
# C47, C48: what the client's helpers predict
-/

namespace OraiV3

/-! ## C47: predicted payouts -/

/-- The client's fee calculation on the pool, the position and its two ticks. -/
def feePrediction (pool : Pool) (pos : Position) (tl tu : Tick) : M (Nat × Nat) :=
  clientFee tl.index tl.outX tl.outY tu.index tu.outX tu.outY pool.tick pool.fgX pool.fgY pos.fgInX pos.fgInY pos.liquidity

theorem feePrediction_eq {s : Store} (hs : Struct s) {id : Bytes} {pos : Position} {pool : Pool} {tl tu : Tick}
    (hpos : s.positions.get? id = some pos) (htl : s.ticks.get? (tickKey pos.poolKey pos.lower) = some tl)
    (htu : s.ticks.get? (tickKey pos.poolKey pos.upper) = some tu) (hp : s.pools.get? pos.poolKey.key = some pool) {x y : Nat} :
    feePrediction pool pos tl tu = .ok (x, y) ↔
      (x = accrued s true pos / 10 ^ 34 ∧ x < U128) ∧ (y = accrued s false pos / 10 ^ 34 ∧ y < U128) := by
  have hok := hs.positions _ _ hpos
  have il := (hs.tick hok.kwf hok.lower.i32 htl).1
  have iu := (hs.tick hok.kwf hok.upper.i32 htu).1
  have ha : ∀ z, accrued s z pos =
      wsub (feeGrowthInside tl.index (tl.out z) tu.index (tu.out z) pool.tick (pool.fg z)) (pos.fgIn z) * pos.liquidity := by
    intro z
    unfold accrued
    rw [hp]
    simp only [accruedIn]
    rw [growthInside_eq htl htu, il, iu]
  have e1 := ha true
  have e2 := ha false
  simp only [Tick.out, Pool.fg, Position.fgIn, if_true, if_false, Bool.false_eq_true] at e1 e2
  rw [e1, e2]
  unfold feePrediction clientFee feeGrowthToFee
  simp only [bind_ok, cast128_ok, pure_ok, Prod.mk.injEq]
  constructor
  · rintro ⟨a, ⟨a1, a2⟩, b, ⟨b1, b2⟩, rfl, rfl⟩
    exact ⟨⟨a2.symm, a2 ▸ a1⟩, b2.symm, b2 ▸ b1⟩
  · rintro ⟨⟨a1, a2⟩, b1, b2⟩
    exact ⟨x, ⟨a1 ▸ a2, a1.symm⟩, y, ⟨b1 ▸ b2, b1.symm⟩, rfl, rfl⟩

/-- What the queries report about a position: the position, its two ticks and its pool. -/
structure Reported (s : Store) (who : Bytes) (i : Nat) (pos : Position) (pool : Pool) (tl tu : Tick) : Prop where
  position : getPosition s who i = .ok pos
  lower : getTick s pos.poolKey pos.lower = .ok tl
  upper : getTick s pos.poolKey pos.upper = .ok tu
  pool : queryPool s pos.poolKey.tokenX pos.poolKey.tokenY pos.poolKey.tier = .ok pool

theorem Reported.view {s : Store} (hs : Struct s) {who : Bytes} {i : Nat} {pos : Position} {pool : Pool} {tl tu : Tick}
    (h : Reported s who i pos pool tl tu) :
    s.positions.get? (positionKey who i) = some pos ∧ s.ticks.get? (tickKey pos.poolKey pos.lower) = some tl ∧
    s.ticks.get? (tickKey pos.poolKey pos.upper) = some tu ∧ s.pools.get? pos.poolKey.key = some pool := by
  have hpos := getPosition_ok.1 h.position
  have hok := hs.positions _ _ hpos
  obtain ⟨p, hp⟩ := hok.pool
  have e := (queryPool_of_key hs hok.kwf hp).symm.trans h.pool
  rw [ok_inj] at e
  exact ⟨hpos, getTick_ok.1 h.lower, getTick_ok.1 h.upper, e ▸ hp⟩

/-- The queries answer for every position an account has. -/
theorem C47_reported {c : Chain} {s : Store} (hr : Reach c s) {who : Bytes} {i : Nat} (hi : i < getPositionLength s who) :
    ∃ pos pool tl tu, Reported s who i pos pool tl tu := by
  have hm := hr.mreach
  obtain ⟨_, pos, hpos⟩ := position_exists hm.posInv hi
  have hok := hm.struct.positions _ _ hpos
  obtain ⟨pool, hp⟩ := hok.pool
  obtain ⟨tl, tu, htl, htu, _⟩ := position_records hm.struct hm.tickSum hpos
  exact ⟨pos, pool, tl, tu, getPosition_ok.2 hpos, getTick_ok.2 htl, getTick_ok.2 htu, queryPool_of_key hm.struct hok.kwf hp⟩

/-- **C47.** If the client's fee calculation gives `(x, y)` for the position, ticks and pool as the queries report them,
then the owner's claim at this moment is accepted and sends the owner `x` and `y`. -/
theorem C47_claim_accepted {c : Chain} {s : Store} (hr : Reach c s) {env : Env} {info : Info} {i : Nat} {pos : Position}
    {pool : Pool} {tl tu : Tick} (hi : i < getPositionLength s info.sender) (hq : Reported s info.sender i pos pool tl tu)
    {x y : Nat} (h : feePrediction pool pos tl tu = .ok (x, y)) :
    ∃ s', execute c env info (.claimFee i) s =
      .ok (s', assetTransfer c pos.poolKey.tokenX x info ++ assetTransfer c pos.poolKey.tokenY y info) := by
  have hm := hr.mreach
  obtain ⟨hpos, htl, htu, hp⟩ := hq.view hm.struct
  obtain ⟨⟨h1, h2⟩, h3, h4⟩ := (feePrediction_eq hm.struct hpos htl htu hp).1 h
  obtain ⟨s', out, he⟩ := C41_accepted hr (env := env) hi (fun q hq x => by
    rw [hpos, Option.some.injEq] at hq
    subst hq
    cases x
    · rw [← h3]; exact h4
    · rw [← h1]; exact h2)
  have he' := (execute_ok.1 he).2
  simp only [dispatch] at he'
  obtain ⟨pos', _, _, _, hpos', _, _, _, _, _, _, ho, _⟩ := claim_owes hm.struct he'
  rw [hpos, Option.some.injEq] at hpos'
  subst hpos'
  rw [← h1, ← h3] at ho
  exact ⟨s', ho ▸ he⟩

/-- **C47.** Whenever a claim is accepted, the client's calculation just before it gives exactly what is sent. -/
theorem C47_claim {c : Chain} {s s' : Store} (hr : Reach c s) {env : Env} {info : Info} {i : Nat} {pos : Position}
    {pool : Pool} {tl tu : Tick} {out : List OutMsg} (hq : Reported s info.sender i pos pool tl tu)
    (h : execute c env info (.claimFee i) s = .ok (s', out)) :
    ∃ x y, feePrediction pool pos tl tu = .ok (x, y) ∧
      out = assetTransfer c pos.poolKey.tokenX x info ++ assetTransfer c pos.poolKey.tokenY y info := by
  have hm := hr.mreach
  obtain ⟨hpos, htl, htu, hp⟩ := hq.view hm.struct
  have he := (execute_ok.1 h).2
  simp only [dispatch] at he
  obtain ⟨pos', tl', tu', pool', r, hpos', htl', htu', il, iu, hp', hmod, _, _, _, _, _, _, _, _, ho⟩ := claimFee_view hm.struct he
  rw [hpos, Option.some.injEq] at hpos'
  subst hpos'
  obtain ⟨o1, o2, -⟩ := modify_owed (hm.struct.positions _ _ hpos) htl' htu' il iu hp' hmod
  obtain ⟨q', d1, d2, d3, _⟩ := Position.modify_inv hmod
  obtain ⟨ox, oy, l', _, _, _, _, w1, w2, e⟩ := Position.update_inv d3
  refine ⟨r.pos.owedX, r.pos.owedY, (feePrediction_eq hm.struct hpos htl htu hp).2 ⟨⟨o1, ?_⟩, o2, ?_⟩, ho⟩
  · rw [e]; exact w1
  · rw [e]; exact w2

/-- **C47.** Whenever the removal of a position is accepted, what is sent is, in each token, the amount the client's
`calculateAmountDelta` gives for the whole liquidity plus the fee the client's calculation gives. -/
theorem C47_remove {c : Chain} {s s' : Store} (hr : Reach c s) {env : Env} {info : Info} {i : Nat} {pos : Position}
    {pool : Pool} {tl tu : Tick} {out : List OutMsg} (hq : Reported s info.sender i pos pool tl tu)
    (h : execute c env info (.removePosition i) s = .ok (s', out)) :
    ∃ a fx fy, calculateAmountDelta pool.tick pool.sqrtPrice pos.liquidity false pos.upper pos.lower = .ok a ∧
      feePrediction pool pos tl tu = .ok (fx, fy) ∧
      out = assetTransfer c pos.poolKey.tokenX (a.1 + fx) info ++ assetTransfer c pos.poolKey.tokenY (a.2.1 + fy) info := by
  have hm := hr.mreach
  obtain ⟨hpos, htl, htu, hp⟩ := hq.view hm.struct
  have he := (execute_ok.1 h).2
  simp only [dispatch] at he
  obtain ⟨pos', tl', tu', pool', r, sr, s1, s2, hpos', htl', htu', il, iu, hp', hmod, _, _, jl, ju, _, _, _, _, _, _, _, _, _, _,
    ho⟩ := removePosition_view hm.struct he
  rw [hpos, Option.some.injEq] at hpos'
  subst hpos'
  rw [hp, Option.some.injEq] at hp'
  subst hp'
  obtain ⟨o1, o2, -⟩ := modify_owed (hm.struct.positions _ _ hpos) htl' htu' il iu hp hmod
  obtain ⟨q', d1, d2, d3, d4, d5, d6, d7⟩ := Position.modify_inv hmod
  obtain ⟨ox, oy, l', _, _, _, _, w1, w2, e⟩ := Position.update_inv d3
  obtain ⟨b, liq, b1, b2, b3⟩ := Pool.updateLiquidity_inv d4
  simp only at b1
  rw [jl, ju] at b1
  refine ⟨b, r.pos.owedX, r.pos.owedY, b1, (feePrediction_eq hm.struct hpos htl htu hp).2 ⟨⟨o1, ?_⟩, o2, ?_⟩, ?_⟩
  · rw [e]; exact w1
  · rw [e]; exact w2
  · have ex : r.x = b.1 := by rw [d6, b3]
    have ey : r.y = b.2.1 := by rw [d7, b3]
    rw [← ex, ← ey]
    exact ho

/-- The hypotheses hold after the swaps of `Demo.crossing`, where the first position of both accounts has earned something. -/
example : ∃ s, Reach Demo.chain s ∧ ∀ who ∈ [Demo.alice, Demo.bob], 0 < getPositionLength s who ∧
    (match getPosition s who 0 with
    | .ok pos =>
      match getTick s pos.poolKey pos.lower, getTick s pos.poolKey pos.upper,
        queryPool s pos.poolKey.tokenX pos.poolKey.tokenY pos.poolKey.tier with
      | .ok tl, .ok tu, .ok pool =>
        match feePrediction pool pos tl tu with
        | .ok r => decide (0 < r.1 + r.2)
        | _ => false
      | _, _, _ => false
    | _ => false) = true :=
  ⟨Demo.state Demo.chain Demo.crossing, Demo.state_reach (by decide +kernel), by decide +kernel⟩

/-! ## C03: the client's check of a pool -/

/-- The client's check that a price belongs to a tick (`checkTickToSqrtPriceRelationship`, `/repo/wasm/custom.rs:88-109`,
textually the contract's) succeeds for every pool in every reachable state. -/
theorem C03_check {c : Chain} {s : Store} (hr : Reach c s) {k : PoolKey} (hk : k.wf) {p : Pool}
    (hp : s.pools.get? k.key = some p) : checkTickToSqrtPrice p.tick k.tier.spacing p.sqrtPrice = .ok true := by
  have h := hr.mreach.price k p hk hp
  have hpos := h.tick.pos
  unfold checkTickToSqrtPrice
  have hle := (TickOk_iff.1 h.tick).2.2.2
  split
  · rename_i hgt
    have he : p.tick = getMaxTick k.tier.spacing := by
      rcases Int.lt_or_eq_of_le hle with h2 | h2
      · have := (h.tick.add h2).range
        omega
      · exact h2
    rw [calculateSqrtPrice_ok' (ts := k.tier.spacing) (by rw [← he]; exact h.tick), ok_bind, h.top he]
    simp [pure, Except.pure]
  · rename_i hgt
    have hlt : p.tick < getMaxTick k.tier.spacing := by
      rcases Int.lt_or_eq_of_le hle with h2 | h2
      · exact h2
      · exfalso
        have h3 := (halfTicks_spec hpos).2
        rw [getMaxTick_half] at h2
        have h4 : (221818 : Int) < ((halfTicks k.tier.spacing : Int) + 1) * k.tier.spacing := by exact_mod_cast h3
        have hM : MAX_TICK = 221818 := rfl
        rw [Int.add_mul] at h4
        omega
    have h1 := h.hi hlt
    have h2 := h.lo
    rw [calculateSqrtPrice_ok' h.tick, ok_bind, calculateSqrtPrice_ok' (h.tick.add hlt), ok_bind]
    have : ¬ (p.sqrtPrice ≥ sqrtPriceAt (p.tick + k.tier.spacing) ∨ p.sqrtPrice < sqrtPriceAt p.tick) := by omega
    simp only [this, not_false_eq_true, decide_true]
    rfl

/-! ## C48: positions in the tickmap -/

theorem clientPositionToTick_eq {c b ts : Nat} : clientPositionToTick c b ts = tickOfBit ts (c * 64 + b) := by
  unfold clientPositionToTick tickOfBit
  have h1 : MAX_TICK - MAX_TICK.tmod ts = (halfTicks ts : Int) * ts := by
    have := Int.tdiv_mul_add_tmod MAX_TICK ts
    rw [max_tdiv] at this
    omega
  have h2 : CHUNK_SIZE = 64 := rfl
  rw [h1, h2]
  push_cast
  ring

/-- **C48.** The client's two conversions between ticks and places in the tickmap are inverse to each other: every valid tick
has a place and the place gives the tick back. -/
theorem C48_back {ts : Nat} {i : Int} (hi : ValidTick ts i) :
    ∃ p, clientTickToPosition i ts = .ok p ∧ p.1 ≤ getMaxChunk ts ∧ p.2 < 64 ∧ clientPositionToTick p.1 p.2 ts = i := by
  have hok := validTick_iff.1 hi
  obtain ⟨h0, hq, h1, h2⟩ := hok.bits
  have e := tickToPosition_ok hok
  refine ⟨_, e, tickToPosition_chunk_le e, Nat.mod_lt _ (by decide), ?_⟩
  rw [clientPositionToTick_eq]
  simp only
  rw [Nat.mul_comm, Nat.div_add_mod, tickOfBit_bitOfTick hq h1]

/-- **C48.** … and every place up to the last usable one belongs to a valid tick that gives the place back. -/
theorem C48_forth {ts c b : Nat} (h0 : 0 < ts) (hb : b < 64) (hc : c * 64 + b ≤ 2 * (221818 / ts)) :
    ValidTick ts (clientPositionToTick c b ts) ∧ clientTickToPosition (clientPositionToTick c b ts) ts = .ok (c, b) := by
  have hok := tickOfBit_ok h0 (show c * 64 + b ≤ 2 * halfTicks ts from hc)
  rw [clientPositionToTick_eq]
  refine ⟨validTick_iff.2 hok, ?_⟩
  unfold clientTickToPosition
  rw [tickToPosition_ok hok, bitOfTick_tickOfBit h0]
  have e1 : (c * 64 + b) / 64 = c := by omega
  have e2 : (c * 64 + b) % 64 = b := by omega
  rw [e1, e2]

/-- **C48.** In every reachable state, whatever range of the tickmap of a pool is asked for: every bit that is set in the
answer stands, by the client's conversion, for a tick at which an open position begins or ends. -/
theorem C48_decode {c : Chain} {s : Store} (hr : Reach c s) {k : PoolKey} (hk : k.wf) {pool : Pool}
    (hp : s.pools.get? k.key = some pool) {lower upper : Int} {d : Bool} {l : List (Nat × Nat)}
    (h : queryTickmap s k lower upper d = .ok l) {e : Nat × Nat} (he : e ∈ l) {b : Nat} (hb : e.2.testBit b = true) :
    b < 64 ∧ ValidTick k.tier.spacing (clientPositionToTick e.1 b k.tier.spacing) ∧
      UsedTick s k (clientPositionToTick e.1 b k.tier.spacing) := by
  have hm := hr.mreach
  have hb64 : b < 64 := by
    by_contra hc
    have h1 := (queryTickmap_view h).2.2.2.1 e he
    have h2 := hm.bitInv.chunk k e.1
    rw [← h1.2.2] at h2
    have : e.2 < 2 ^ b := Nat.lt_of_lt_of_le h2 (Nat.pow_le_pow_right (by decide) (by omega))
    rw [Nat.testBit_lt_two_pow this] at hb
    cases hb
  have ht := hm.struct.tier hk hp
  obtain ⟨h0, _, _, h4, _⟩ := queryTickmap_view h
  obtain ⟨_, h6, h7⟩ := h4 e he
  have hup : ∃ q, tickToPosition upper k.tier.spacing = .ok q := by
    unfold queryTickmap at h
    simp only [bind_ok] at h
    obtain ⟨_, _, q, hq, _⟩ := h
    exact ⟨q, hq⟩
  obtain ⟨q, hq⟩ := hup
  obtain ⟨_, _, _, u2, _⟩ := tickToPosition_inv hq
  have hle : e.1 * 64 + b < 2 ^ 22 := by
    have hh := halfTicks_le k.tier.spacing
    unfold bitOfTick at h6
    omega
  have hbit := hm.bitInv.bit k (e.1 * 64 + b) hk ht.1 ht.2.1 hle
  rw [bitOf_chunk (c := e.1) (by omega) (by omega), ← h7, Nat.add_sub_cancel_left, hb] at hbit
  rw [clientPositionToTick_eq]
  have hi := tickOfBit_i32 ht.2.1 hle
  obtain ⟨t, hg⟩ := Option.isSome_iff_exists.1 hbit.symm
  have hu := (C02_ticks_are_the_positions hr hk hi).1.1 ⟨t, getTick_ok.2 hg⟩
  obtain ⟨p, hp1, hp2⟩ := hu
  refine ⟨hb64, ?_, p, hp1, hp2⟩
  obtain ⟨_, o1, o2, _⟩ := hm.struct.posOf hp1
  rw [validTick_iff]
  rcases hp2 with e | e
  · rw [← e]; exact o1
  · rw [← e]; exact o2

/-- **C48.** Conversely every such tick between the two ends asked for is found among the bits of the answer, if the
answer is not cut off. -/
theorem C48_complete {c : Chain} {s : Store} (hr : Reach c s) {k : PoolKey} (hk : k.wf) {pool : Pool}
    (hp : s.pools.get? k.key = some pool) {lower upper : Int} {d : Bool} {l : List (Nat × Nat)}
    (h : queryTickmap s k lower upper d = .ok l) (hl : l.length < 1638) {i : Int} (hi : ValidTick k.tier.spacing i)
    (h1 : lower ≤ i) (h2 : i ≤ upper) (hu : UsedTick s k i) :
    ∃ e ∈ l, ∃ b, e.2.testBit b = true ∧ clientPositionToTick e.1 b k.tier.spacing = i := by
  obtain ⟨v, hv, hb⟩ := (C43_tickmap_is_the_positions hr hk hp h hl hi h1 h2).2 hu
  refine ⟨_, hv, _, hb, ?_⟩
  obtain ⟨h0, hq, a1, a2⟩ := (validTick_iff.1 hi).bits
  rw [clientPositionToTick_eq]
  show tickOfBit _ (bitOfTick k.tier.spacing i / 64 * 64 + bitOfTick k.tier.spacing i % 64) = i
  rw [Nat.mul_comm, Nat.div_add_mod, tickOfBit_bitOfTick hq a1]

/-- Ticks -20, 10 and 30 are in use; these are what the bits of the answer stand for. -/
example : ∃ s, Reach Demo.chain s ∧ Demo.key.wf ∧ (s.pools.get? Demo.key.key).isSome = true ∧
    (match queryTickmap s Demo.key (-221810) 221810 false with
    | .ok l => l.flatMap (fun e => ((List.range 64).filter (e.2.testBit ·)).map (clientPositionToTick e.1 · 10))
    | .error _ => []) = [-20, 10, 30] :=
  ⟨Demo.state Demo.chain Demo.shared, Demo.state_reach (by decide +kernel), by decide +kernel, by decide +kernel, by decide +kernel⟩

end OraiV3
