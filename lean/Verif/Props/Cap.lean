import Verif.Lemmas.Avoid
import Verif.Props.Active

/-!
# C27: the per-tick cap keeps liquidity within 128 bits
-/

namespace OraiV3

/-- In every reachable state the liquidity of all open positions of a pool together fits into 128 bits. -/
theorem C27_total {c : Chain} {s : Store} (hs : Reach c s) {k : PoolKey} {p : Pool} (hk : k.wf)
    (hp : s.pools.get? k.key = some p) : sumPositions s k (fun q => q.liquidity) < U128 :=
  total_lt hs.mreach.struct hs.mreach.cap hk (hs.mreach.struct.tier hk hp)

example : sumPositions (Demo.state Demo.chain Demo.crossing) Demo.key (fun q => q.liquidity) = 3 * 10 ^ 12 := by decide +kernel

/-- The states a swap computation passes through. -/
inductive SwapVisits (s : Store) (pr : SwapParams) : SwapState → SwapState → Prop where
  | refl (st : SwapState) : SwapVisits s pr st st
  | next {a b st : SwapState} : SwapVisits s pr a b → b.remaining ≠ 0 → swapIter s pr b = .ok st → SwapVisits s pr a st

theorem visits_ok {s : Store} {k : PoolKey} {pool : Pool} {d b : Bool} {limit now amount : Nat} {st : SwapState}
    (hs : Struct s) (hb : BitInv s) (ht : TickSum s) (hk : k.wf) (hp : s.pools.get? k.key = some pool)
    (hok : PoolOk k.tier.spacing pool) (ha : pool.liquidity = liquidityInRange s k pool.tick)
    (hl : if d then limit < pool.sqrtPrice else pool.sqrtPrice < limit)
    (h : SwapVisits s ⟨k, d, b, limit, now⟩ (swapStart pool amount) st) :
    LoopOk d k.tier.spacing limit st.pool st.remaining ∧
    (st.remaining ≠ 0 → st.pool.liquidity = liquidityInRange s k st.pool.tick) := by
  induction h with
  | refl => exact ⟨hok.loop hl, fun _ => ha⟩
  | @next b' st _ hr hi ih =>
    obtain ⟨h1, h2⟩ := ih
    obtain ⟨i, ini, r, cfg, p1, rem, u, hview⟩ := iter_view hs hb hk (hs.tier hk hp) h1.tick hi
    have h3 := iter_ok hview h1 hr
    refine ⟨h3, fun hr' => ?_⟩
    rcases iter_active hs ht hk hview h1 hr h3 (h2 hr) with h4 | h4
    · exact h4
    · exact absurd h4.1 hr'

/-- Crossing never overflows or underflows in a pool whose liquidity is that of its positions in range: whenever a swap, in whatever
state of its computation, comes to a tick that it would cross, crossing it succeeds (provided the block time is not
before the creation of the pool).  `pool` stands for the pool as it is at that moment: the liquidity and
the current tick are those of the computation. -/
theorem C27_crossing_partial {c : Chain} {s : Store} (hs : Reach c s) {k : PoolKey} (hdr : drift s k = 0) {p : Pool} (hk : k.wf)
    (hp : s.pools.get? k.key = some p) {d b : Bool} {limit now amount : Nat} {st : SwapState}
    (hl : if d then limit < p.sqrtPrice else p.sqrtPrice < limit)
    (hv : SwapVisits s ⟨k, d, b, limit, now⟩ (swapStart p amount) st) (hr : st.remaining ≠ 0)
    {target : Nat} {i : Int} {t : Tick} (hc : getCloserLimit (getChunk s k) limit d st.pool.tick k.tier.spacing = .ok (target, some (i, true)))
    (ht : getTick s k i = .ok t) {pool : Pool} (h1 : pool.liquidity = st.pool.liquidity) (h2 : pool.tick = st.pool.tick)
    (h3 : pool.startTs ≤ now) : ∃ tp, t.cross pool now = .ok tp := by
  have hm := hs.mreach
  have hst := hm.struct
  have hb := hm.bitInv
  have hts := hm.tickSum
  have hti := hst.tier hk hp
  obtain ⟨hlo, hact⟩ := visits_ok hst hb hts hk hp (hm.price k p hk hp) (active_of hdr hp) hl hv
  have hact := hact hr
  obtain ⟨j, ini, a1, a2, a3, a4, a5, a6⟩ := closer_view (hb.chunk k) hlo.tick hc
  have hj : j = i := by
    rcases a6 with ⟨-, e⟩ | ⟨-, e⟩
    · simp only [Prod.mk.injEq, Option.some.injEq] at e; exact e.2.1.symm
    · simp at e
  subst hj
  have ht' := getTick_ok.1 ht
  have hidx := (hst.tick hk a1.i32 ht').1
  have hnet := hts.net hk a1.i32 ht'
  have hstep := inRange_step hst a1
  have hlt := Nat.lt_of_le_of_lt (inRange_le (s := s) (k := k) (t := j)) (total_lt hst hm.cap hk hti)
  have hlt' := Nat.lt_of_le_of_lt (inRange_le (s := s) (k := k) (t := j - k.tier.spacing)) (total_lt hst hm.cap hk hti)
  have gap : ∀ j', TickOk k.tier.spacing j' →
      (if d then j < j' ∧ j' ≤ st.pool.tick else st.pool.tick < j' ∧ j' < j) → ¬ UsedTick s k j' := by
    intro j' hj' hjj hu
    have h4 := a5 j' hj' hjj
    rw [hb.isSome hk hti hj'] at h4
    exact h4 ((hts.used hst hk hj'.i32).1 hu)
  have hcross : ∃ liq, (if xor (decide (pool.tick ≥ t.index)) t.sign then
      checkedAdd .poolAddTickLiquidityOverflow pool.liquidity t.change
      else checkedSub .poolSubTickLiquidityUnderflow pool.liquidity t.change) = .ok liq := by
    rw [hidx, h1, h2, hact]
    unfold Tick.net at hnet
    cases d
    · simp only [Bool.false_eq_true, if_false] at a2 gap
      have h5 := dvd_lt_step a1.pos hlo.tick.dvd a1.dvd a2
      have h6 := inRange_const hst (k := k) (a := st.pool.tick) (b := j - k.tier.spacing) (by omega) (fun j' hj' b1 b2 =>
        gap j' hj' ⟨b1, by have := a1.pos; omega⟩)
      rw [h6, decide_eq_false (by omega)]
      cases hsg : t.sign
      · simp only [hsg, Bool.false_eq_true, if_false] at hnet
        simp only [Bool.xor_false, Bool.false_eq_true, if_false]
        exact ⟨_, checkedSub_ok.2 ⟨by omega, rfl⟩⟩
      · simp only [hsg, if_true] at hnet
        simp only [Bool.xor_true, Bool.not_false, if_true]
        exact ⟨_, checkedAdd_ok.2 ⟨by omega, rfl⟩⟩
    · simp only [if_true] at a2 gap
      have h6 := inRange_const hst (k := k) (a := j) (b := st.pool.tick) a2 (fun j' hj' b1 b2 => gap j' hj' ⟨b1, b2⟩)
      rw [← h6, decide_eq_true (by omega)]
      cases hsg : t.sign
      · simp only [hsg, Bool.false_eq_true, if_false] at hnet
        simp only [Bool.xor_false, if_true]
        exact ⟨_, checkedAdd_ok.2 ⟨by omega, rfl⟩⟩
      · simp only [hsg, if_true] at hnet
        simp only [Bool.xor_true, Bool.not_true, Bool.false_eq_true, if_false]
        exact ⟨_, checkedSub_ok.2 ⟨by omega, rfl⟩⟩
  obtain ⟨liq, hliq⟩ := hcross
  unfold Tick.cross
  rw [checkedSub_ok.2 ⟨h3, rfl⟩, ok_bind]
  split <;> rename_i hx
  · rw [if_pos hx] at hliq; rw [hliq]; exact ⟨_, rfl⟩
  · rw [if_neg hx] at hliq; rw [hliq]; exact ⟨_, rfl⟩

/-- The hypotheses are met, for instance by the first step of a swap down from the state after `crossing`. -/
example : (match (Demo.state Demo.chain Demo.crossing).pools.get? Demo.key.key with
    | some p => decide (getCloserLimit (getChunk (Demo.state Demo.chain Demo.crossing) Demo.key) MIN_SQRT_PRICE true p.tick 10 =
        .ok (sqrtPriceAt (-10), some (-10, true)) ∧ MIN_SQRT_PRICE < p.sqrtPrice ∧ p.startTs ≤ Demo.env.millis)
    | none => false) = true := by decide +kernel

/-- In such a pool opening a position is never refused because the pool's liquidity would overflow (the
per-tick cap is what refuses it). -/
theorem C27_create_partial {c : Chain} {s : Store} (hs : Reach c s) {env : Env} {info : Info} {k : PoolKey} (hdr : drift s k = 0)
    {l u : Int} {L lo hi : Nat} {msg : Msg} (hm : msg = .createPosition k l u L lo hi ∨ msg = .mint k l u L lo hi) :
    execute c env info msg s ≠ .error .updateLiquidityPlusOverflow := by
  have e : execute c env info msg s = execute c env info (.createPosition k l u L lo hi) s := by rcases hm with rfl | rfl <;> rfl
  rw [e]
  have hm := hs.mreach
  have hst := hm.struct
  by_cases hw : (Msg.createPosition k l u L lo hi).wf
  swap
  · unfold execute; rw [if_neg hw]; simp
  unfold execute
  rw [if_pos hw]
  obtain ⟨hk, hl, hu, hL, -⟩ := hw
  show Avoids _ (createPosition c s env info k l u L lo hi)
  by_cases hlu : l = u
  · unfold createPosition
    split
    · exact .error (by decide)
    · exact .error (by decide)
  refine avoid_create (.inl rfl) (fun pool rl ru hp h1 h2 => ?_)
  obtain ⟨v1, w1, -⟩ := getOrCreateTick_view hp h1
  obtain ⟨t1, bm1, e1⟩ := getOrCreateTick_frame h1
  have hp' : rl.1.pools.get? k.key = some pool := by rw [e1]; exact hp
  obtain ⟨v2, w2, -⟩ := getOrCreateTick_view hp' h2
  have hne : tickKey k u ≠ tickKey k l := fun e => hlu (tickKey_inj hk hk hu hl e).2.symm
  have v2' : TickUsed s k pool env.millis u ru.2 := by
    have : rl.1.ticks.get? (tickKey k u) = s.ticks.get? (tickKey k u) := by rw [w1, if_neg hne]
    unfold TickUsed at v2 ⊢
    rw [this] at v2
    exact v2
  obtain ⟨il, okl, -, -⟩ := v1.index hst hk hl
  obtain ⟨iu, oku, -, -⟩ := v2'.index hst hk hu
  unfold Position.create
  split
  · exact .error (by decide)
  refine avoid_modify (.inl rfl) (fun tl tu d1 d2 a1 a2 => ?_)
  obtain ⟨i1, _, _, _, _, g1, n1, _⟩ := Tick.update_inv d1
  obtain ⟨i2, _, _, _, _, g2, n2, _⟩ := Tick.update_inv d2
  simp only [if_true] at g1 g2 ⊢
  have hvl := v1.val
  have hvu := v2'.val
  have hel := (hm.tickSum k l hk hl).eq
  have heu := (hm.tickSum k u hk hu).eq
  rw [← hvl] at hel
  rw [← hvu] at heu
  simp only at hel heu
  have := total_add_lt hst hm.cap hk (hst.tier hk hp) okl oku hlu (L := L) (by omega) (by omega)
  have h5 := inRange_le (s := s) (k := k) (t := pool.tick)
  rw [← active_of hdr hp] at h5
  omega

/-- In such a pool a withdrawal is never refused because the pool's liquidity would underflow. -/
theorem C27_remove_partial {c : Chain} {s : Store} (hs : Reach c s) {env : Env} {info : Info} {i : Nat}
    (hdr : ∀ q, s.positions.get? (positionKey info.sender i) = some q → drift s q.poolKey = 0) :
    execute c env info (.removePosition i) s ≠ .error .updateLiquidityMinusOverflow := by
  have hm := hs.mreach
  have hst := hm.struct
  by_cases hw : (Msg.removePosition i).wf
  swap
  · unfold execute; rw [if_neg hw]; simp
  unfold execute
  rw [if_pos hw]
  show Avoids _ (removePosition c s env info i)
  refine avoid_remove (.inr rfl) (fun pos tl tu pool hpos h1 h2 hp => avoid_modify (.inr rfl) (fun tl' tu' d1 d2 a1 a2 => ?_))
  have hok := hst.positions _ _ hpos
  simp only [Bool.false_eq_true, if_false]
  rw [(Tick.update_inv d1).1, (hst.tick hok.kwf hok.lower.i32 h1).1] at a1
  rw [(Tick.update_inv d2).1, (hst.tick hok.kwf hok.upper.i32 h2).1] at a2
  rw [active_of (hdr _ hpos) hp]
  unfold liquidityInRange sumPositions
  have hmem : pos ∈ positionsOf s pos.poolKey := by
    unfold positionsOf
    rw [List.mem_filter]
    exact ⟨(mem_vals _ _).2 ⟨_, hpos⟩, by simp⟩
  have := List.single_le_sum (l := (positionsOf s pos.poolKey).map
    (fun p => if p.lower ≤ pool.tick ∧ pool.tick < p.upper then p.liquidity else 0)) (fun _ _ => Nat.zero_le _) _
    (List.mem_map.2 ⟨pos, hmem, rfl⟩)
  rwa [if_pos ⟨a1, a2⟩] at this

/-! ## The exception -/

/-- As in `limitOnTick`, with a second, larger position starting where the first ends. -/
def Demo.stuck : List (Info × Msg) := Demo.setup ++
  [(Demo.by_ Demo.bob, .createPosition Demo.key 10 20 (3 * 10 ^ 12) 0 (10 ^ 30)),
   (Demo.by_ Demo.carol, .swap Demo.key false 499 false (sqrtPriceAt 10))]

/-- In other pools crossing can underflow: after a swap has left the active
liquidity too small (here: at 10^12 instead of 3·10^12), the next tick above cannot be crossed. -/
theorem C27_false :
    ∃ (s : Store) (p : Pool) (t : Tick), Reach Demo.chain s ∧ s.pools.get? Demo.key.key = some p ∧
      getCloserLimit (getChunk s Demo.key) MAX_SQRT_PRICE false p.tick 10 = .ok (t.sqrtPrice, some (t.index, true)) ∧
      getTick s Demo.key t.index = .ok t ∧ t.cross p (Demo.env.millis) = .error .poolSubTickLiquidityUnderflow := by
  have hw : Demo.works Demo.chain Demo.stuck = true := by decide +kernel
  have hq : (match (Demo.state Demo.chain Demo.stuck).pools.get? Demo.key.key,
      (Demo.state Demo.chain Demo.stuck).ticks.get? (tickKey Demo.key 20) with
      | some p, some t => decide (t.index = 20 ∧
          getCloserLimit (getChunk (Demo.state Demo.chain Demo.stuck) Demo.key) MAX_SQRT_PRICE false p.tick 10 =
            .ok (t.sqrtPrice, some (t.index, true)) ∧
          t.cross p (Demo.env.millis) = .error .poolSubTickLiquidityUnderflow)
      | _, _ => false) = true := by decide +kernel
  split at hq
  · rename_i p t hp ht
    obtain ⟨h1, h2, h3⟩ := of_decide_eq_true hq
    exact ⟨_, p, t, Demo.state_reach hw, hp, h2, by rw [h1]; exact getTick_ok.2 ht, h3⟩
  · simp at hq

/-- The error a call ends with. -/
def errorOf {α : Type} : M α → Option Err
  | .ok _ => none
  | .error e => some e

/-- Then a swap through that tick fails. -/
example : errorOf (execute Demo.chain Demo.env (Demo.by_ Demo.bob) (.swap Demo.key false 5000 true MAX_SQRT_PRICE)
      (Demo.state Demo.chain Demo.stuck)) = some .panic := by decide +kernel

end OraiV3
