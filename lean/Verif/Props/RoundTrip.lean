import Verif.Lemmas.RoundTrip
import Verif.WorldExamples

/-!
# C46: no gain from trading back and forth

False as stated: see `C46_false`.  For swaps that end regularly, in a pool whose liquidity is right (C01), it holds.
-/

namespace OraiV3

/-- Whatever swaps are made in a pool, one after the other and by anybody: if all of them together take some of
one token out of the contract, they pay some of the other token in.  (For less than 10^14 price steps, and less than 10^14
divided by the price at the beginning, because of the rounding of the required amount of X.) -/
theorem C46_no_gain_partial {c : Chain} {k : PoolKey} {w w' : World} {n : Nat} {p0 : Pool} (hr : Reach c w.store) (hdr : drift w.store k = 0)
    (h : Trades c k w w' n) (hn : n < 10 ^ 14) (hp0 : w.store.pools.get? k.key = some p0)
    (hpn : n * priceVal p0.sqrtPrice ^ 2 < 10 ^ 14) :
    (w'.ledger.bal (tokenAsset c k.tokenX) c.self < w.ledger.bal (tokenAsset c k.tokenX) c.self →
      w.ledger.bal (tokenAsset c k.tokenY) c.self < w'.ledger.bal (tokenAsset c k.tokenY) c.self) ∧
    (w'.ledger.bal (tokenAsset c k.tokenY) c.self < w.ledger.bal (tokenAsset c k.tokenY) c.self →
      w.ledger.bal (tokenAsset c k.tokenX) c.self < w'.ledger.bal (tokenAsset c k.tokenX) c.self) := by
  obtain ⟨-, -, -, ⟨-, rfl⟩ | ⟨p, p', hp, -, hx, hy⟩⟩ := h.gain hr hdr
  · exact ⟨fun h => absurd h (lt_irrefl _), fun h => absurd h (lt_irrefl _)⟩
  rw [hp0, Option.some.injEq] at hp
  subst hp
  have hs := hr.mreach.struct
  generalize w'.ledger.bal (tokenAsset c k.tokenX) c.self = X' at *
  generalize w.ledger.bal (tokenAsset c k.tokenX) c.self = X at *
  generalize w'.ledger.bal (tokenAsset c k.tokenY) c.self = Y' at *
  generalize w.ledger.bal (tokenAsset c k.tokenY) c.self = Y at *
  have hε : (n : ℚ) / 10 ^ 14 < 1 := by
    rw [div_lt_one (by positivity)]
    exact_mod_cast hn
  constructor
  · intro hlt
    by_contra hge
    have a1 : (X' : ℚ) + 1 ≤ X := by exact_mod_cast hlt
    have a2 : (Y' : ℚ) ≤ Y := by exact_mod_cast Nat.le_of_not_lt hge
    rcases Nat.le_total p0.sqrtPrice p'.sqrtPrice with hp | hp
    · obtain ⟨-, b2, b3, -⟩ := sumQ_principal_mono hs k hp
      simp only at b2 b3
      have : 2 ^ 32 * (sumQ w.store k (fun q => q.principal false p'.sqrtPrice) -
          sumQ w.store k (fun q => q.principal false p0.sqrtPrice)) ≤ 0 := by linarith
      linarith
    · obtain ⟨b1, -⟩ := sumQ_principal_mono hs k hp
      simp only at b1
      linarith
  · intro hlt
    by_contra hge
    have a1 : (Y' : ℚ) + 1 ≤ Y := by exact_mod_cast hlt
    have a2 : (X' : ℚ) ≤ X := by exact_mod_cast Nat.le_of_not_lt hge
    rcases Nat.le_total p0.sqrtPrice p'.sqrtPrice with hp | hp
    · obtain ⟨-, b2, -⟩ := sumQ_principal_mono hs k hp
      simp only at b2
      linarith
    · have b4 := sumQ_principal_rate hs k hp
      have b5 : priceVal p0.sqrtPrice ^ 2 * (sumQ w.store k (fun q => q.principal true p'.sqrtPrice) -
          sumQ w.store k (fun q => q.principal true p0.sqrtPrice)) ≤ priceVal p0.sqrtPrice ^ 2 * (n / 10 ^ 14) :=
        mul_le_mul_of_nonneg_left (by linarith) (sq_nonneg _)
      have b6 : priceVal p0.sqrtPrice ^ 2 * (n / 10 ^ 14) < 1 := by
        rw [← mul_div_assoc, div_lt_one (by positivity), mul_comm]
        exact hpn
      linarith

/-- In particular whatever the price is, for up to 23000 price steps. -/
theorem C46_any_price_partial {c : Chain} {k : PoolKey} {w w' : World} {n : Nat} (hr : Reach c w.store) (hdr : drift w.store k = 0)
    (h : Trades c k w w' n) (hn : n ≤ 23000) :
    (w'.ledger.bal (tokenAsset c k.tokenX) c.self < w.ledger.bal (tokenAsset c k.tokenX) c.self →
      w.ledger.bal (tokenAsset c k.tokenY) c.self < w'.ledger.bal (tokenAsset c k.tokenY) c.self) ∧
    (w'.ledger.bal (tokenAsset c k.tokenY) c.self < w.ledger.bal (tokenAsset c k.tokenY) c.self →
      w.ledger.bal (tokenAsset c k.tokenX) c.self < w'.ledger.bal (tokenAsset c k.tokenX) c.self) := by
  obtain ⟨-, -, -, ⟨-, rfl⟩ | ⟨p, p', hp, -, -, -⟩⟩ := h.gain hr hdr
  · exact ⟨fun h => absurd h (lt_irrefl _), fun h => absurd h (lt_irrefl _)⟩
  refine C46_no_gain_partial hr hdr h (by omega) hp ?_
  obtain ⟨k', hk', e⟩ : ∃ k' : PoolKey, k'.wf ∧ k.key = k'.key := by
    obtain ⟨k', e, hk', -⟩ := hr.mreach.struct.pools _ _ hp
    exact ⟨k', hk', e⟩
  have hok := hr.mreach.price k' p hk' (by rw [← e]; exact hp)
  have hv := (priceVal_range (p := p.sqrtPrice) hok.min hok.max).1
  have hn' : (n : ℚ) ≤ 23000 := by exact_mod_cast hn
  have h0 : (0 : ℚ) ≤ n := Nat.cast_nonneg n
  calc (n : ℚ) * priceVal p.sqrtPrice ^ 2 ≤ 23000 * 2 ^ 32 := by
        rw [sq]; exact mul_le_mul hn' hv (mul_self_nonneg _) (by norm_num)
    _ < 10 ^ 14 := by norm_num

/-- Alone in the market: a trader who ends with as much of one token as before has not gained any of the other.
Nobody else's balances change, and no tokens are attached that the swaps do not take. -/
theorem C46_alone_partial {c : Chain} {k : PoolKey} {w w' : World} {n : Nat} (hr : Reach c w.store) (hdr : drift w.store k = 0)
    (h : Trades c k w w' n) (hn : n < 10 ^ 14) {p0 : Pool} (hp0 : w.store.pools.get? k.key = some p0)
    (hpn : n * priceVal p0.sqrtPrice ^ 2 < 10 ^ 14) {who : Bytes}
    (hX : w'.ledger.bal (tokenAsset c k.tokenX) who + w'.ledger.bal (tokenAsset c k.tokenX) c.self =
      w.ledger.bal (tokenAsset c k.tokenX) who + w.ledger.bal (tokenAsset c k.tokenX) c.self)
    (hY : w'.ledger.bal (tokenAsset c k.tokenY) who + w'.ledger.bal (tokenAsset c k.tokenY) c.self =
      w.ledger.bal (tokenAsset c k.tokenY) who + w.ledger.bal (tokenAsset c k.tokenY) c.self) :
    (w.ledger.bal (tokenAsset c k.tokenX) who < w'.ledger.bal (tokenAsset c k.tokenX) who →
      w'.ledger.bal (tokenAsset c k.tokenY) who < w.ledger.bal (tokenAsset c k.tokenY) who) ∧
    (w.ledger.bal (tokenAsset c k.tokenY) who < w'.ledger.bal (tokenAsset c k.tokenY) who →
      w'.ledger.bal (tokenAsset c k.tokenX) who < w.ledger.bal (tokenAsset c k.tokenX) who) := by
  obtain ⟨h1, h2⟩ := C46_no_gain_partial hr hdr h hn hp0 hpn
  constructor
  · intro hlt
    have := h1 (by omega)
    omega
  · intro hlt
    have := h2 (by omega)
    omega

namespace Demo

/-- A pool with a fee of 0.01 %. -/
def lowTier : FeeTier := ⟨10 ^ 8, 10⟩
def lowKey : PoolKey := ⟨[97], [98], lowTier⟩

/-- Alice provides all the liquidity, between ticks -1000 and 1000. -/
def wide : List (Info × Msg) :=
  [(by_ alice, .addFeeTier lowTier),
   (by_ alice, .createPool [97] [98] lowTier (10 ^ 24) 0),
   (by_ alice, .createPosition lowKey (-1000) 1000 (10 ^ 18) 0 (10 ^ 30))]

/-- Bob buys all the X in the pool, limiting the price to that of tick 1000; sells 40000000000 more than he bought; and buys
these back. -/
def pump : List (Info × Msg) :=
  [(by_ bob, .swap lowKey false 48768197566 false (sqrtPriceAt 1000)),
   (by_ bob, .swap lowKey true (48768197566 + 40000000000) true MIN_SQRT_PRICE),
   (by_ bob, .swap lowKey false 40000000000 false MAX_SQRT_PRICE)]

/-- The same trades stopping short of tick 1000. -/
def tame : List (Info × Msg) :=
  [(by_ bob, .swap lowKey false 48000000000 false (sqrtPriceAt 1000)),
   (by_ bob, .swap lowKey true (48000000000 + 40000000000) true MIN_SQRT_PRICE),
   (by_ bob, .swap lowKey false 40000000000 false MAX_SQRT_PRICE)]

/-- Single regular swaps in one pool, and their price steps. -/
def tradesW (c : Chain) (k : PoolKey) : List (Info × Msg) → World → Option (World × Nat)
  | [], w => some (w, 0)
  | (i, .swap k' d a b l) :: ms, w =>
    match w.tx c env i (.swap k' d a b l) with
    | .error _ => none
    | .ok w' =>
      if k' = k ∧ i.sender ≠ c.self ∧ RegularEnd w'.store k' d b l then
        (tradesW c k ms w').map (fun r => (r.1, swapSteps w.store env.millis k' d a b l + r.2))
      else none
  | _, _ => none

theorem Trades.trans {c : Chain} {k : PoolKey} {a b d : World} {n m : Nat} (h1 : Trades c k a b n) (h2 : Trades c k b d m) :
    Trades c k a d (n + m) := by
  induction h2 with
  | none => exact h1
  | more _ hne htx hreg ih => rw [← Nat.add_assoc]; exact .more ih hne htx hreg

theorem tradesW_trades {c : Chain} {k : PoolKey} : ∀ {ms : List (Info × Msg)} {w w' : World} {n : Nat},
    tradesW c k ms w = some (w', n) → Trades c k w w' n
  | [], w, w', n, h => by
    simp only [tradesW, Option.some.injEq, Prod.mk.injEq] at h
    obtain ⟨rfl, rfl⟩ := h
    exact .none _
  | (i, m) :: ms, w, w', n, h => by
    cases m <;> simp only [tradesW, reduceCtorEq] at h
    rename_i k' d a b l
    split at h
    · simp at h
    · rename_i w1 hw
      split at h
      · rename_i hc
        obtain ⟨rfl, hne, hreg⟩ := hc
        rw [Option.map_eq_some_iff] at h
        obtain ⟨⟨w2, m⟩, h1, h2⟩ := h
        simp only [Prod.mk.injEq] at h2
        obtain ⟨rfl, rfl⟩ := h2
        have := Trades.more (.none w) hne hw hreg
        rw [Nat.zero_add] at this
        exact Trades.trans this (tradesW_trades h1)
      · simp at h

end Demo

/-- Regular swaps back and forth: after them Bob has as much X as before and less Y. -/
example : ∃ w' n, Reach Demo.chain (Demo.world Demo.chain Demo.wide).store ∧ drift (Demo.world Demo.chain Demo.wide).store Demo.lowKey = 0 ∧
    Trades Demo.chain Demo.lowKey (Demo.world Demo.chain Demo.wide) w' n ∧ n ≤ 23000 ∧
    w'.ledger.bal (tokenAsset Demo.chain [97]) Demo.bob = (Demo.world Demo.chain Demo.wide).ledger.bal (tokenAsset Demo.chain [97]) Demo.bob ∧
    w'.ledger.bal (tokenAsset Demo.chain [98]) Demo.bob < (Demo.world Demo.chain Demo.wide).ledger.bal (tokenAsset Demo.chain [98]) Demo.bob := by
  have h : (Demo.tradesW Demo.chain Demo.lowKey Demo.tame (Demo.world Demo.chain Demo.wide)).isSome = true := by decide +kernel
  obtain ⟨⟨w', n⟩, hr⟩ := Option.isSome_iff_exists.1 h
  have key : ∀ r, Demo.tradesW Demo.chain Demo.lowKey Demo.tame (Demo.world Demo.chain Demo.wide) = some r → r.2 ≤ 23000 ∧
      r.1.ledger.bal (tokenAsset Demo.chain [97]) Demo.bob = (Demo.world Demo.chain Demo.wide).ledger.bal (tokenAsset Demo.chain [97]) Demo.bob ∧
      r.1.ledger.bal (tokenAsset Demo.chain [98]) Demo.bob < (Demo.world Demo.chain Demo.wide).ledger.bal (tokenAsset Demo.chain [98]) Demo.bob := by
    intro r hr
    have : ((Demo.tradesW Demo.chain Demo.lowKey Demo.tame (Demo.world Demo.chain Demo.wide)).map (fun r => decide (r.2 ≤ 23000 ∧
      r.1.ledger.bal (tokenAsset Demo.chain [97]) Demo.bob = (Demo.world Demo.chain Demo.wide).ledger.bal (tokenAsset Demo.chain [97]) Demo.bob ∧
      r.1.ledger.bal (tokenAsset Demo.chain [98]) Demo.bob < (Demo.world Demo.chain Demo.wide).ledger.bal (tokenAsset Demo.chain [98]) Demo.bob))) = some true := by
      decide +kernel
    rw [hr] at this
    simpa using this
  exact ⟨w', n, (Demo.world_history (T := fun _ => True) (n := 1) (by decide +kernel) (by decide +kernel)).regular.reach, by decide +kernel, Demo.tradesW_trades hr, key _ hr⟩

/-- The price at the beginning is 1 there, so the bound on the price steps is 10^14. -/
example : ((Demo.world Demo.chain Demo.wide).store.pools.get? Demo.lowKey.key).map (·.sqrtPrice) = some (10 ^ 24) ∧ priceVal (10 ^ 24) ^ 2 = 1 :=
  ⟨by decide +kernel, by unfold priceVal; norm_num⟩

/-- False as stated.  Bob makes three swaps in a pool in which only Alice has liquidity.  He ends with the X he
started with and gains 1262809663 units of Y, 2.5 % of what Alice has deposited.  (The first swap stops exactly on the price of
tick 1000; when the price falls again the pool counts Alice's liquidity twice.) -/
theorem C46_false : ∃ w w', WorldReach Demo.chain w ∧ Demo.runW Demo.chain Demo.pump w = .ok w' ∧
    w'.ledger.bal (tokenAsset Demo.chain [97]) Demo.bob = w.ledger.bal (tokenAsset Demo.chain [97]) Demo.bob ∧
    w'.ledger.bal (tokenAsset Demo.chain [98]) Demo.bob = w.ledger.bal (tokenAsset Demo.chain [98]) Demo.bob + 1262809663 := by
  have h : ((Demo.runW Demo.chain Demo.pump (Demo.world Demo.chain Demo.wide)).toOption.map (fun w' => decide (
    w'.ledger.bal (tokenAsset Demo.chain [97]) Demo.bob = (Demo.world Demo.chain Demo.wide).ledger.bal (tokenAsset Demo.chain [97]) Demo.bob ∧
    w'.ledger.bal (tokenAsset Demo.chain [98]) Demo.bob =
      (Demo.world Demo.chain Demo.wide).ledger.bal (tokenAsset Demo.chain [98]) Demo.bob + 1262809663))) = some true := by
    decide +kernel
  cases hr : Demo.runW Demo.chain Demo.pump (Demo.world Demo.chain Demo.wide) with
  | error e => rw [hr] at h; simp [Except.toOption] at h
  | ok w' =>
    rw [hr] at h
    simp only [Except.toOption, Option.map_some, Option.some.injEq, decide_eq_true_eq] at h
    exact ⟨_, w', Demo.world_reach (by decide +kernel), hr, h⟩

end OraiV3
