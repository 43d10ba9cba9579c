import Verif.Lemmas.Balance
import Verif.Props.Curve
import Verif.Props.Funds
import Verif.Props.Keep

/-!
# C99: the books balance

`poolOwes s k x` is what a pool owes in a token: what its open positions consist of at the current price, the fees they have not
been paid, and the protocol's part.  C04 says that the contract never owes more than it has.  Here it is said, for each call, that
what a pool owes changes by what the caller pays less what the caller gets, and by no less: what is paid in belongs to someone.
-/

namespace OraiV3

/-- **C99, swaps.**  After any history whose swaps in the pool end regularly, for any swap of `n` price steps that ends
regularly: what the sender pays is added to what the pool owes, and what the sender gets is taken from it.
* In the token paid, the debt grows by at most what is paid (and `10^-14` of the smallest unit per step).
* It grows by no less than what is paid up to a relative error of `10^-14`, one unit per step, and `2 * 10^-34` for each unit of
  stored liquidity per step, provided that no position's counter runs over (see C81): `M` is the most liquidity active anywhere.
* In the token received, the debt shrinks by at least what the sender gets, and by no more than that up to a relative error of
  `10^-13`, one unit per step and the amount that moves the price by one in its last digit (as in C82).
* No other pool's debt changes.
Missing: irregular ends and counters that run over, see `C99_swap_false` and `C99_counter_false`. -/
theorem C99_swap_partial {c : Chain} {w w' : World} {env : Env} {info : Info} {k : PoolKey} {d b : Bool} {amount limit M : Nat}
    (hr : Reach c w.store) (hdr : drift w.store k = 0) (hne : info.sender ≠ c.self) (hu : (info.funds.map Coin.denom).Nodup)
    (ho : ∀ x ∈ info.funds, x.denom ≠ tokenOut k d) (hM : ∀ t, liquidityInRange w.store k t ≤ M)
    (h : w.tx c env info (.swap k d amount b limit) = .ok w') (hreg : RegularEnd w'.store k d b limit) :
    ∃ p' paid got L n, w'.store.pools.get? k.key = some p' ∧
      w'.ledger.bal (tokenAsset c (tokenIn k d)) info.sender + paid = w.ledger.bal (tokenAsset c (tokenIn k d)) info.sender ∧
      w'.ledger.bal (tokenAsset c (tokenOut k d)) info.sender = w.ledger.bal (tokenAsset c (tokenOut k d)) info.sender + got ∧
      n = swapSteps w.store env.millis k d amount b limit ∧
      (L = p'.liquidity ∨ d = false ∧ (L : Int) = p'.liquidity - netAt w.store k p'.tick) ∧
      poolOwes w'.store k d ≤ poolOwes w.store k d + paid + n / 10 ^ 14 ∧
      ((∀ q ∈ positionsOf w.store k, accrued w.store d q + paid * 10 ^ 34 < 2 ^ 128 * q.liquidity) →
        poolOwes w.store k d + paid ≤ poolOwes w'.store k d + paid / 10 ^ 14 + n * (1 + 2 * M / 10 ^ 34)) ∧
      poolOwes w'.store k (!d) + got ≤ poolOwes w.store k (!d) ∧
      poolOwes w.store k (!d) ≤ poolOwes w'.store k (!d) + (got + n) * (1 + 1 / 10 ^ 13) + lastDigit (!d) L p'.sqrtPrice ∧
      ∀ k', k'.wf → k' ≠ k → ∀ z, poolOwes w'.store k' z = poolOwes w.store k' z := by
  obtain ⟨p, p', paid, got, L, n, hp, hp', e1, e2, en, hL, -, -, c1, c2⟩ := C82_curve_partial hr hdr hne hu ho h hreg
  obtain ⟨res, pool, m1, hk, hq, h1, hq', -⟩ := swap_tx h
  obtain rfl : p = pool := by rw [hp] at hq; exact Option.some.inj hq
  obtain rfl : p' = res.pool := by rw [hp'] at hq'; exact Option.some.inj hq'
  have hm := hr.mreach
  have hrg := regular_before h hp' hreg
  obtain ⟨ms, st, hMv, b1, b2, b3, b4, hlen, hcv⟩ :=
    swap_moves_curve hm.struct hm.bitInv hm.tickSum hk hp (hm.price k p hk hp) hdr h1 hrg
  obtain ⟨-, -, each, s1, s2, s3, s4, s5⟩ := hMv.tx hr hne hu ho h hp h1 b1 b2 b3 b4
  rw [hdr] at each
  obtain rfl : (ms.map (fun m => m.input + m.fee)).sum = paid := by omega
  rw [← en] at hlen
  obtain ⟨out, hex, -⟩ := tx_inv h
  obtain ⟨r, hin⟩ := swap_inv (execute_ok.1 hex).2
  obtain ⟨t, ef⟩ := swapInternal_frame hin
  have epos : w'.store.positions = w.store.positions := by simp only at ef; rw [ef]
  have eh : ∀ z x, held w'.store k z x = held w.store k z x := fun z x => sumQ_congr epos k _
  have et : ∀ z, totalAccrued w'.store k z = sumPositions w.store k (accrued w'.store z) := fun z => by
    unfold totalAccrued
    rw [sumPositions_congr epos]
  have f := moves_fees each
  have i1 := moves_inputs each
  have i2 := moves_exact each
  have i3 := moves_liquidity each hM
  rw [sum_input_fee] at s1
  rw [hlen] at i1 i2 i3
  rw [← hcv] at i1 i2
  unfold curveIn at i1 i2
  unfold curveOut at c1 c2
  have ap : (res.pool.proto d : ℚ) = p.proto d + ((ms.map PriceMove.protocol).sum : Nat) := by rw [s3]; push_cast; ring
  have f1 : ((sumPositions w.store k (fun q => earned ms q.lower q.upper * q.liquidity) : Nat) : ℚ) / 10 ^ 34 +
      ((ms.map PriceMove.protocol).sum : Nat) ≤ ((ms.map PriceMove.fee).sum : Nat) := by
    rw [← le_sub_iff_add_le, div_le_iff₀ (by positivity), sub_mul, le_sub_iff_add_le]
    exact_mod_cast f.1
  have f2 : (((ms.map PriceMove.fee).sum : Nat) : ℚ) ≤
      ((sumPositions w.store k (fun q => earned ms q.lower q.upper * q.liquidity) : Nat) : ℚ) / 10 ^ 34 +
        ((ms.map PriceMove.protocol).sum : Nat) + 2 * (n * M) / 10 ^ 34 := by
    have g : (((ms.map PriceMove.fee).sum : Nat) : ℚ) * 10 ^ 34 ≤
      ((sumPositions w.store k (fun q => earned ms q.lower q.upper * q.liquidity) : Nat) : ℚ) +
        ((ms.map PriceMove.protocol).sum : Nat) * 10 ^ 34 + 2 * (n * M) := by
      have := f.2.trans (Nat.add_le_add_left (Nat.mul_le_mul_left 2 i3) _)
      exact_mod_cast this
    have h34 : (0:ℚ) < 10 ^ 34 := by positivity
    have := (div_le_div_iff_of_pos_right h34).2 g
    rw [mul_div_cancel_right₀ _ h34.ne', add_div, add_div, mul_div_cancel_right₀ _ h34.ne'] at this
    linarith
  refine ⟨res.pool, _, got, L, n, hp', s1, e2, en, hL, ?_, fun hov => ?_, ?_, ?_, ?_⟩
  · rw [poolOwes_parts hp, poolOwes_parts hp', eh, et, ap]
    have g : sumPositions w.store k (accrued w'.store d) ≤ totalAccrued w.store k d +
        sumPositions w.store k (fun q => earned ms q.lower q.upper * q.liquidity) := by
      unfold totalAccrued
      rw [sumPositions_add]
      refine sumPositions_le fun q hq => ?_
      obtain ⟨-, u, -, a1, a2⟩ := s5 q hq
      rw [a1, a2, ← Nat.add_mul]
      exact Nat.mul_le_mul_right _ (Nat.mod_le _ _)
    have g' : ((sumPositions w.store k (accrued w'.store d) : Nat) : ℚ) / 10 ^ 34 ≤ (totalAccrued w.store k d : ℚ) / 10 ^ 34 +
        ((sumPositions w.store k (fun q => earned ms q.lower q.upper * q.liquidity) : Nat) : ℚ) / 10 ^ 34 := by
      rw [← add_div]
      exact (div_le_div_iff_of_pos_right (by positivity)).2 (by exact_mod_cast g)
    push_cast at *
    linarith
  · rw [poolOwes_parts hp, poolOwes_parts hp', eh, et, ap]
    have g : sumPositions w.store k (accrued w'.store d) = totalAccrued w.store k d +
        sumPositions w.store k (fun q => earned ms q.lower q.upper * q.liquidity) := by
      unfold totalAccrued
      rw [sumPositions_add]
      refine sumPositions_ext fun q hq => ?_
      obtain ⟨-, u, -, a1, a2⟩ := s5 q hq
      have o := hov q hq
      have o2 := earned_le hq (ms := ms)
      rw [a1, a2, ← Nat.add_mul]
      congr 1
      apply Nat.mod_eq_of_lt
      have o3 : (u + earned ms q.lower q.upper) * q.liquidity < 2 ^ 128 * q.liquidity := by
        rw [Nat.add_mul, ← a1]
        have := f.1
        rw [Nat.add_mul] at o
        omega
      exact Nat.lt_of_mul_lt_mul_right o3
    have g' : ((sumPositions w.store k (accrued w'.store d) : Nat) : ℚ) / 10 ^ 34 = (totalAccrued w.store k d : ℚ) / 10 ^ 34 +
        ((sumPositions w.store k (fun q => earned ms q.lower q.upper * q.liquidity) : Nat) : ℚ) / 10 ^ 34 := by
      rw [← add_div, g]
      push_cast
      rfl
    rw [g']
    have hf : (0 : ℚ) ≤ ((ms.map PriceMove.fee).sum : Nat) := Nat.cast_nonneg _
    have e : (n : ℚ) * (1 + 2 * M / 10 ^ 34) = n + 2 * (n * M) / 10 ^ 34 := by ring
    rw [e]
    push_cast at *
    linarith
  · rw [poolOwes_parts hp, poolOwes_parts hp', eh, et, s4]
    have g : sumPositions w.store k (accrued w'.store (!d)) = totalAccrued w.store k (!d) :=
      sumPositions_ext fun q hq => (s5 q hq).1
    rw [g]
    linarith
  · rw [poolOwes_parts hp, poolOwes_parts hp', eh, et, s4]
    have g : sumPositions w.store k (accrued w'.store (!d)) = totalAccrued w.store k (!d) :=
      sumPositions_ext fun q hq => (s5 q hq).1
    rw [g]
    linarith
  · intro k' hk' hn z
    exact swap_other_owes hk hin hk' hn z

/-- The hypotheses are met by two swaps that cross a tick: no counter runs over, and `10^40` bounds the liquidity. -/
example : Demo.bob ≠ Demo.chain.self ∧ drift (Demo.state Demo.chain Demo.threeRanges) Demo.key = 0 ∧
    (∀ t, liquidityInRange (Demo.state Demo.chain Demo.threeRanges) Demo.key t ≤ 10 ^ 40) ∧
    [true, false].all (fun d =>
      match World.tx Demo.chain ⟨Demo.state Demo.chain Demo.threeRanges, Demo.wealthy⟩ Demo.env (Demo.by_ Demo.bob)
        (.swap Demo.key d 80000000000 true (if d then MIN_SQRT_PRICE else MAX_SQRT_PRICE)) with
      | .ok w' => decide (RegularEnd w'.store Demo.key d true (if d then MIN_SQRT_PRICE else MAX_SQRT_PRICE)) &&
        (positionsOf (Demo.state Demo.chain Demo.threeRanges) Demo.key).all (fun q =>
          decide (accrued (Demo.state Demo.chain Demo.threeRanges) d q + 80000000000 * 10 ^ 34 < 2 ^ 128 * q.liquidity))
      | .error _ => false) = true := by
  refine ⟨by decide, by decide +kernel, fun t => ?_, by decide +kernel⟩
  have h : liquidityInRange (Demo.state Demo.chain Demo.threeRanges) Demo.key t ≤
      sumPositions (Demo.state Demo.chain Demo.threeRanges) Demo.key Position.liquidity :=
    sumPositions_le fun q _ => by split <;> omega
  exact h.trans (by decide +kernel)

/-- In the first of them Bob pays 80000000000 units of X for 72770758445 of Y, in three steps.  The pool owes at most two units
of X less than what was paid more than before, and less than two units of Y more than what Bob got less than before. -/
example : (match World.tx Demo.chain ⟨Demo.state Demo.chain Demo.threeRanges, Demo.wealthy⟩ Demo.env (Demo.by_ Demo.bob)
      (.swap Demo.key true 80000000000 true MIN_SQRT_PRICE) with
    | .ok w' => decide (
        poolOwes w'.store Demo.key true ≤ poolOwes (Demo.state Demo.chain Demo.threeRanges) Demo.key true + 80000000000 ∧
        poolOwes (Demo.state Demo.chain Demo.threeRanges) Demo.key true + 80000000000 ≤ poolOwes w'.store Demo.key true + 2 ∧
        poolOwes w'.store Demo.key false + 72770758445 ≤ poolOwes (Demo.state Demo.chain Demo.threeRanges) Demo.key false ∧
        poolOwes (Demo.state Demo.chain Demo.threeRanges) Demo.key false < poolOwes w'.store Demo.key false + 72770758447)
    | .error _ => false) = true := by
  decide +kernel

/-- False when a counter runs over: Bob pays 170141183500 units of Y, and the pool owes 170141183420 units of Y less than
before.  Nobody will ever get these tokens. -/
theorem C99_counter_false : ∃ w w' : World, RegularReach Demo.chain (fun _ => True) w.store ∧
    w.tx Demo.chain Demo.env (Demo.by_ Demo.bob) (.swap Demo.steepKey false 170141183500 true MAX_SQRT_PRICE) = .ok w' ∧
    RegularEnd w'.store Demo.steepKey false true MAX_SQRT_PRICE ∧
    w'.ledger.bal (.cw20 [98]) Demo.bob + 170141183500 = w.ledger.bal (.cw20 [98]) Demo.bob ∧
    poolOwes w'.store Demo.steepKey false + 170141183420 ≤ poolOwes w.store Demo.steepKey false := by
  have hr : RegularReach Demo.chain (fun _ => True) (Demo.state Demo.chain (Demo.overrun.take 4)) :=
    Demo.state_regular (by decide +kernel) (by decide +kernel)
  have h : (match World.tx Demo.chain ⟨Demo.state Demo.chain (Demo.overrun.take 4), Demo.wealthy⟩ Demo.env (Demo.by_ Demo.bob)
      (.swap Demo.steepKey false 170141183500 true MAX_SQRT_PRICE) with
    | .ok w' => decide (RegularEnd w'.store Demo.steepKey false true MAX_SQRT_PRICE) &&
        decide (w'.ledger.bal (.cw20 [98]) Demo.bob + 170141183500 = Demo.wealthy.bal (.cw20 [98]) Demo.bob) &&
        decide (poolOwes w'.store Demo.steepKey false + 170141183420 ≤
          poolOwes (Demo.state Demo.chain (Demo.overrun.take 4)) Demo.steepKey false)
    | .error _ => false) = true := by decide +kernel
  cases hx : World.tx Demo.chain ⟨Demo.state Demo.chain (Demo.overrun.take 4), Demo.wealthy⟩ Demo.env (Demo.by_ Demo.bob)
      (.swap Demo.steepKey false 170141183500 true MAX_SQRT_PRICE) with
  | error e => rw [hx] at h; cases h
  | ok w' =>
    rw [hx] at h
    simp only [Bool.and_eq_true, decide_eq_true_eq] at h
    exact ⟨⟨_, Demo.wealthy⟩, w', hr, hx, h.1.1, h.1.2, h.2⟩

/-- False after an irregular end: Bob gets 499 units of X, and the pool owes as much X as before. -/
theorem C99_swap_false : ∃ w w' : World, WorldReach Demo.chain w ∧
    w.tx Demo.chain Demo.env (Demo.by_ Demo.bob) (.swap Demo.key false 499 false (sqrtPriceAt 20)) = .ok w' ∧
    w'.ledger.bal (.cw20 Demo.key.tokenX) Demo.bob = w.ledger.bal (.cw20 Demo.key.tokenX) Demo.bob + 499 ∧
    poolOwes w'.store Demo.key true = poolOwes w.store Demo.key true := by
  have h : Demo.worksW Demo.chain Demo.halfDrained = true := by decide +kernel
  have h3 : (match (Demo.world Demo.chain Demo.halfDrained).tx Demo.chain Demo.env (Demo.by_ Demo.bob)
      (.swap Demo.key false 499 false (sqrtPriceAt 20)) with
    | .ok w' => decide (w'.ledger.bal (.cw20 Demo.key.tokenX) Demo.bob =
            (Demo.world Demo.chain Demo.halfDrained).ledger.bal (.cw20 Demo.key.tokenX) Demo.bob + 499 ∧
          poolOwes w'.store Demo.key true = poolOwes (Demo.world Demo.chain Demo.halfDrained).store Demo.key true)
    | .error _ => false) = true := by decide +kernel
  cases ht : (Demo.world Demo.chain Demo.halfDrained).tx Demo.chain Demo.env (Demo.by_ Demo.bob)
      (.swap Demo.key false 499 false (sqrtPriceAt 20)) with
  | error e => rw [ht] at h3; simp at h3
  | ok w' =>
    rw [ht] at h3
    have h4 := of_decide_eq_true h3
    exact ⟨_, w', Demo.world_reach h, ht, h4.1, h4.2⟩

/-- What a charge of `n` costs the sender: `n`; if nothing is charged, whatever of the coin is attached (it is not returned). -/
def costOf (c : Chain) (info : Info) (t : Bytes) (n : Nat) : Nat := if n = 0 then attachedOf c info t else n

private theorem charge_cost {c : Chain} {t : Bytes} {n : Nat} {info : Info} {ms : List OutMsg} (hne : info.sender ≠ c.self)
    (hu : (info.funds.map Coin.denom).Nodup) (h : assetTransferFrom c t n info = .ok ms) :
    fundsDelta c info.sender info.funds (tokenAsset c t) info.sender + outDelta c ms (tokenAsset c t) info.sender =
      -(costOf c info t n : Int) := by
  unfold costOf
  split
  · rename_i h0
    subst h0
    unfold assetTransferFrom at h
    rw [if_pos rfl, ok_inj] at h
    subst h
    rw [fundsDelta_sender_eq hne]
    simp [outDelta]
  · rename_i h0
    exact charge_exact hne hu h0 h

/-- **C99, deposits.**  Opening a position adds what it costs to what the pool owes: in token X at most `10^-14` of the smallest
unit more than what is charged, and at most one unit less (and one part in `10^14`); in token Y at most what is charged and less
than one unit less.  If nothing of a token is charged, coins of it that are attached are kept (C29). -/
theorem C99_open {c : Chain} {w w' : World} {env : Env} {info : Info} {k : PoolKey} {l u : Int} {L lo hi : Nat} {msg : Msg}
    (hm : msg = .createPosition k l u L lo hi ∨ msg = .mint k l u L lo hi)
    (hr : Reach c w.store) (hne : info.sender ≠ c.self) (hu : (info.funds.map Coin.denom).Nodup)
    (h : w.tx c env info msg = .ok w') :
    ∃ x y, w'.ledger.bal (tokenAsset c k.tokenX) info.sender + costOf c info k.tokenX x =
        w.ledger.bal (tokenAsset c k.tokenX) info.sender ∧
      w'.ledger.bal (tokenAsset c k.tokenY) info.sender + costOf c info k.tokenY y =
        w.ledger.bal (tokenAsset c k.tokenY) info.sender ∧
      poolOwes w'.store k true < poolOwes w.store k true + x + 1 / 10 ^ 14 ∧
      poolOwes w.store k true + x ≤ poolOwes w'.store k true + x / 10 ^ 14 + 1 ∧
      poolOwes w'.store k false ≤ poolOwes w.store k false + y ∧
      poolOwes w.store k false + y < poolOwes w'.store k false + 1 ∧
      ∀ k', k'.wf → k' ≠ k → ∀ z, poolOwes w'.store k' z = poolOwes w.store k' z := by
  obtain ⟨out, x1, b1⟩ := tx_inv h
  have hmr' := Reach.mreach (.step hr x1)
  have y1 : (Msg.createPosition k l u L lo hi).wf ∧
      createPosition c w.store env info k l u L lo hi = .ok (w'.store, out) := by
    rcases hm with rfl | rfl
    · exact execute_ok.1 x1
    · exact execute_ok.1 x1
  have hmr := hr.mreach
  obtain ⟨p, x, y, m1, m2, hp, hok, ok1, ok2, hlu, hxy, g1, g2, t1, t2, eo⟩ :=
    createPosition_charge hmr.struct hmr.price y1.1 y1.2
  obtain ⟨_, _, _, _, _, _, _, hst, _⟩ := PoolStep.create hmr.struct hmr'.struct hmr.posInv hmr.tickSum hmr.price y1.1 y1.2
  obtain ⟨q1, q2⟩ := create_equal hmr.struct hmr'.struct hmr.posInv hmr.tickSum hmr.price y1.1 y1.2 hp
  have hax : tokenAsset c k.tokenX ≠ tokenAsset c k.tokenY := fun e => hxy (tokenAsset_inj e)
  have hm0 : 0 < MIN_SQRT_PRICE := by norm_num
  obtain ⟨-, -, e1, e2⟩ := deltaX_up_exact g1
  have hd := dustX_small (ok1.clamp_min u p.sqrtPrice) ok2.price_min
  obtain ⟨e3, e4⟩ := deltaY_up_exact g2
  have hx : (0 : ℚ) ≤ x := Nat.cast_nonneg x
  unfold exactPositionX at q1
  unfold exactPositionY at q2
  refine ⟨x, y, ?_, ?_, by linarith, by nlinarith, by linarith, by linarith, hst.other⟩
  · have b := b1 (tokenAsset c k.tokenX) info.sender
    rw [eo, outDelta_append, assetTransferFrom_other t2 hax] at b
    have := charge_cost hne hu t1
    omega
  · have b := b1 (tokenAsset c k.tokenY) info.sender
    rw [eo, outDelta_append, assetTransferFrom_other t1 hax.symm] at b
    have := charge_cost hne hu t2
    omega

/-- Such a deposit, into the pool of the example above. -/
example : (match World.tx Demo.chain ⟨Demo.state Demo.chain Demo.threeRanges, Demo.wealthy⟩ Demo.env (Demo.by_ Demo.bob)
      (.createPosition Demo.key (-20) 30 (3 * 10 ^ 13) 0 (10 ^ 30)) with
    | .ok w' => decide (w'.ledger.bal (.cw20 [97]) Demo.bob + 44965 = Demo.wealthy.bal (.cw20 [97]) Demo.bob ∧
        w'.ledger.bal (.cw20 [98]) Demo.bob + 29984 = Demo.wealthy.bal (.cw20 [98]) Demo.bob ∧
        poolOwes (Demo.state Demo.chain Demo.threeRanges) Demo.key true + 44964 < poolOwes w'.store Demo.key true ∧
        poolOwes w'.store Demo.key true < poolOwes (Demo.state Demo.chain Demo.threeRanges) Demo.key true + 44965)
    | .error _ => false) = true := by
  decide +kernel

/-- **C99, payouts.**  Claiming fees, closing a position and withdrawing the protocol's fees take from what a pool owes at least
what the sender gets, and less than two units more (up to one part in `10^13` in token X). -/
theorem C99_payout {c : Chain} {w w' : World} {env : Env} {who : Bytes} {msg : Msg} (hm : msg.isPayout = true)
    (hr : Reach c w.store) (hne : who ≠ c.self) (h : w.tx c env ⟨who, []⟩ msg = .ok w') :
    ∃ (k : PoolKey) (x y : Nat), w'.ledger.bal (tokenAsset c k.tokenX) who = w.ledger.bal (tokenAsset c k.tokenX) who + x ∧
      w'.ledger.bal (tokenAsset c k.tokenY) who = w.ledger.bal (tokenAsset c k.tokenY) who + y ∧
      poolOwes w'.store k true + x ≤ poolOwes w.store k true ∧
      poolOwes w.store k true < poolOwes w'.store k true + (x + 2) * (1 + 1 / 10 ^ 13) ∧
      poolOwes w'.store k false + y ≤ poolOwes w.store k false ∧
      poolOwes w.store k false < poolOwes w'.store k false + y + 2 ∧
      ∀ k', k'.wf → k' ≠ k → ∀ z, poolOwes w'.store k' z = poolOwes w.store k' z := by
  obtain ⟨out, x1, b1⟩ := tx_inv h
  clear h
  have hmr := hr.mreach
  have hmr' := Reach.mreach (.step hr x1)
  have hw := (execute_ok.1 x1).1
  have h := (execute_ok.1 x1).2
  have main : ∃ (k : PoolKey) (x y : Nat), k.tokenX ≠ k.tokenY ∧
      (∀ k', k'.wf → k' ≠ k → ∀ z, poolOwes w'.store k' z = poolOwes w.store k' z) ∧
      out = assetTransfer c k.tokenX x ⟨who, []⟩ ++ assetTransfer c k.tokenY y ⟨who, []⟩ ∧
      poolOwes w'.store k true + x ≤ poolOwes w.store k true ∧
      poolOwes w.store k true < poolOwes w'.store k true + (x + 2) * (1 + 1 / 10 ^ 13) ∧
      poolOwes w'.store k false + y ≤ poolOwes w.store k false ∧
      poolOwes w.store k false < poolOwes w'.store k false + y + 2 := by
    cases msg <;> simp only [Msg.isPayout, Bool.false_eq_true] at hm <;> simp only [dispatch] at h
    case withdrawProtocolFee k =>
      simp only [withdrawProtocolFee, bind_ok, ite_error_ok, pure_ok, Prod.mk.injEq, getPool_ok] at h
      obtain ⟨p0, hp0, _, h, ho⟩ := h
      obtain ⟨m1, m2⟩ := meta_equal (s' := w'.store) (p' := { p0 with protoX := 0, protoY := 0 }) hw hp0
        (by rw [← h]; rfl) (by rw [← h]; rfl) (by rw [← h]; rfl) rfl rfl rfl rfl
      have k1 := m1 true
      have k2 := m1 false
      simp only [Pool.proto, if_true, Bool.false_eq_true, if_false, Nat.cast_zero, add_zero] at k1 k2
      have hx : (0 : ℚ) ≤ p0.protoX := Nat.cast_nonneg _
      exact ⟨k, p0.protoX, p0.protoY, swap_tokens_ne hmr.struct hw hp0 true, m2, ho.symm, by linarith, by linarith, by linarith, by linarith⟩
    case claimFee i =>
      obtain ⟨k, a, b, g1, g2, g3, g4, g5⟩ := claim_equal hmr.struct h
      have f1 := floor_le_q a
      have f2 := floor_gt a
      have f3 := floor_le_q b
      have f4 := floor_gt b
      have ha : (0 : ℚ) ≤ ((a / 10 ^ 34 : Nat) : ℚ) := Nat.cast_nonneg _
      exact ⟨k, _, _, g1, g2, g3, by linarith, by linarith, by linarith, by linarith⟩
    case removePosition i => exact remove_equal hmr.struct hmr'.struct hmr.posInv hmr'.tickSum hmr.price hw h
    case burn id =>
      obtain ⟨o, _, h1, _, _, h⟩ := burn_inv h
      exact remove_equal hmr.struct hmr'.struct hmr.posInv hmr'.tickSum hmr.price (tokenOwner_spec h1).2 h
  obtain ⟨k, x, y, hxy, hoth, eo, m1, m2, m3, m4⟩ := main
  have hax : tokenAsset c k.tokenX ≠ tokenAsset c k.tokenY := fun e => hxy (tokenAsset_inj e)
  refine ⟨k, x, y, ?_, ?_, m1, m2, m3, m4, hoth⟩
  · have b := b1 (tokenAsset c k.tokenX) who
    rw [eo, outDelta_append] at b
    have s1 := assetTransfer_sender (c := c) (d := k.tokenX) (n := x) (info := ⟨who, []⟩) hne (tokenAsset c k.tokenX)
    have s2 := assetTransfer_sender (c := c) (d := k.tokenY) (n := y) (info := ⟨who, []⟩) hne (tokenAsset c k.tokenX)
    rw [if_pos rfl] at s1
    rw [if_neg hax] at s2
    simp only at s1 s2 b
    rw [s1, s2] at b
    simp only [fundsDelta, List.map_nil, List.sum_nil] at b
    omega
  · have b := b1 (tokenAsset c k.tokenY) who
    rw [eo, outDelta_append] at b
    have s1 := assetTransfer_sender (c := c) (d := k.tokenX) (n := x) (info := ⟨who, []⟩) hne (tokenAsset c k.tokenY)
    have s2 := assetTransfer_sender (c := c) (d := k.tokenY) (n := y) (info := ⟨who, []⟩) hne (tokenAsset c k.tokenY)
    rw [if_neg hax.symm] at s1
    rw [if_pos rfl] at s2
    simp only at s1 s2 b
    rw [s1, s2] at b
    simp only [fundsDelta, List.map_nil, List.sum_nil] at b
    omega

/-- Such payouts: Alice claims the fees of the first swap of the example above, and closes the position. -/
example : [Msg.claimFee 0, .removePosition 0].all (fun m =>
    match World.tx Demo.chain ⟨Demo.state Demo.chain Demo.threeRanges, Demo.wealthy⟩ Demo.env (Demo.by_ Demo.bob)
      (.swap Demo.key true 80000000000 true MIN_SQRT_PRICE) with
    | .ok w => (match w.tx Demo.chain Demo.env ⟨Demo.alice, []⟩ m with
      | .ok w' => decide (w.ledger.bal (.cw20 [97]) Demo.alice < w'.ledger.bal (.cw20 [97]) Demo.alice)
      | .error _ => false)
    | .error _ => false) = true := by
  decide +kernel

/-- The calls that trade, deposit or pay out. -/
def Msg.movesTokens : Msg → Bool
  | .swap .. | .swapRoute .. | .createPosition .. | .mint .. => true
  | m => m.isPayout

/-- **C99, the rest.**  No other call changes what any pool owes, and none of them moves tokens but the coins attached. -/
theorem C99_rest {c : Chain} {w w' : World} {env : Env} {info : Info} {msg : Msg} (hm : msg.movesTokens = false)
    (hr : Reach c w.store) (hne : info.sender ≠ c.self) (h : w.tx c env info msg = .ok w') :
    (∀ k, k.wf → ∀ z, poolOwes w'.store k z = poolOwes w.store k z) ∧
      ∀ t, w'.ledger.bal (tokenAsset c t) info.sender + attachedOf c info t = w.ledger.bal (tokenAsset c t) info.sender := by
  obtain ⟨out, x1, b1⟩ := tx_inv h
  clear h
  have hmr := hr.mreach
  have hs := hmr.struct
  have hi := hmr.posInv
  have hw := (execute_ok.1 x1).1
  have h := (execute_ok.1 x1).2
  have main : (∀ k, k.wf → ∀ z, poolOwes w'.store k z = poolOwes w.store k z) ∧ ∀ a x, outDelta c out a x = 0 := by
    cases msg <;> simp only [Msg.movesTokens, Msg.isPayout, Bool.true_eq_false] at hm <;> simp only [dispatch] at h
    case changeAdmin a =>
      simp only [changeAdmin, bind_ok, ite_error_ok, pure_ok, Prod.mk.injEq, loadConfig_ok] at h
      obtain ⟨cfg, h0, _, h, ho⟩ := h
      rw [← h, ← ho]
      exact ⟨fun k _ z => rfl, fun _ _ => rfl⟩
    case changeProtocolFee f =>
      simp only [changeProtocolFee, bind_ok, ite_error_ok, pure_ok, Prod.mk.injEq, loadConfig_ok] at h
      obtain ⟨cfg, h0, _, h, ho⟩ := h
      rw [← h, ← ho]
      exact ⟨fun k _ z => rfl, fun _ _ => rfl⟩
    case changeFeeReceiver k r =>
      simp only [changeFeeReceiver, bind_ok, ite_error_ok, pure_ok, Prod.mk.injEq, getPool_ok] at h
      obtain ⟨_, _, _, p0, hp0, h, ho⟩ := h
      rw [← ho]
      obtain ⟨m1, m2⟩ := meta_equal (s' := w'.store) (p' := { p0 with feeReceiver := r }) hw hp0
        (by rw [← h]; rfl) (by rw [← h]; rfl) (by rw [← h]; rfl) rfl rfl rfl rfl
      refine ⟨fun k' hk' z => ?_, fun _ _ => rfl⟩
      by_cases e : k' = k
      · subst e
        have := m1 z
        have e : ({ p0 with feeReceiver := r } : Pool).proto z = p0.proto z := rfl
        rw [e] at this
        linarith
      · exact m2 k' hk' e z
    case transferPosition i r =>
      obtain ⟨pos, s1, _, h1, _, h2, ho⟩ := transferPosition_inv h
      rw [ho]
      exact ⟨fun k _ z => moved_owes hi hw h1 h2 k z, fun _ _ => rfl⟩
    case createPool t0 t1 tier price tick =>
      obtain ⟨ho, k, hp⟩ := PoolStep.newPool hs hw h
      rw [ho]
      refine ⟨fun k' hk' z => ?_, fun _ _ => rfl⟩
      by_cases e : k' = k
      · subst e
        obtain ⟨cfg, k0, pool, -, -, -, -, g5, -, g6, -⟩ := createPool_inv h
        apply le_antisymm
        · have gx := hp.x
          have gy := hp.y
          cases z
          · simpa using gy
          · simpa using gx
        · by_cases e : k'.key = k0.key
          · have : poolOwes w.store k' z = 0 := by unfold poolOwes; rw [e, g5]
            rw [this]
            exact poolOwes_nonneg _ _ _
          · rw [g6]
            exact (poolOwes_frame (s' := savePool w.store k0 pool) (KV.get?_insert_other _ _ e) (fun _ => rfl) rfl z).ge
      · exact hp.other k' hk' e z
    case addFeeTier t =>
      simp only [addFeeTier, bind_ok, ite_error_ok, pure_ok, Prod.mk.injEq, loadConfig_ok] at h
      obtain ⟨cfg, h0, _, h1, h2, h, ho⟩ := h
      rw [← h, ← ho]
      exact ⟨fun k _ z => rfl, fun _ _ => rfl⟩
    case removeFeeTier t =>
      simp only [removeFeeTier, bind_ok, ite_error_ok, ite_ok_error, pure_ok, Prod.mk.injEq, loadConfig_ok] at h
      obtain ⟨cfg, h0, _, _, h, ho⟩ := h
      rw [← h, ← ho]
      exact ⟨fun k _ z => rfl, fun _ _ => rfl⟩
    case transferNft r id =>
      simp only [transferNft, bind_ok, pure_ok, Prod.mk.injEq] at h
      obtain ⟨s2, h1, h, ho⟩ := h
      obtain ⟨o, pos, s1, p, e1, e2, _, e4, e5⟩ := transferNftInternal_inv h1
      have hsp := tokenOwner_spec e1
      obtain ⟨_, _, hp, _⟩ := removePositionAt_inv e4
      rw [hsp.1, e2] at hp
      cases hp
      rw [← ho, ← h]
      exact ⟨fun k _ z => moved_owes hi hsp.2 e4 e5 k z, fun _ _ => rfl⟩
    case sendNft ct id m =>
      simp only [sendNft, bind_ok, pure_ok, Prod.mk.injEq] at h
      obtain ⟨s2, h1, h, ho⟩ := h
      obtain ⟨o, pos, s1, p, e1, e2, _, e4, e5⟩ := transferNftInternal_inv h1
      have hsp := tokenOwner_spec e1
      obtain ⟨_, _, hp, _⟩ := removePositionAt_inv e4
      rw [hsp.1, e2] at hp
      cases hp
      rw [← ho, ← h]
      exact ⟨fun k _ z => moved_owes hi hsp.2 e4 e5 k z, fun _ _ => rfl⟩
    case approve sp id ex =>
      obtain ⟨_, _, _, hp, _, ho, _, e⟩ := updateApprovals_inv h
      rw [e, ho]
      exact ⟨fun k _ z => appr_owes hp _ k z, fun _ _ => rfl⟩
    case revoke sp id =>
      obtain ⟨_, _, _, hp, _, ho, _, e⟩ := updateApprovals_inv h
      rw [e, ho]
      exact ⟨fun k _ z => appr_owes hp _ k z, fun _ _ => rfl⟩
    case approveAll o ex =>
      simp only [approveAll, ite_error_ok, ok_inj, Prod.mk.injEq] at h
      rw [← h.2.1, ← h.2.2]
      exact ⟨fun k _ z => rfl, fun _ _ => rfl⟩
    case revokeAll o =>
      simp only [revokeAll, ok_inj, Prod.mk.injEq] at h
      rw [← h.1, ← h.2]
      exact ⟨fun k _ z => rfl, fun _ _ => rfl⟩
  refine ⟨main.1, fun t => ?_⟩
  have b := b1 (tokenAsset c t) info.sender
  rw [main.2, fundsDelta_sender_eq hne] at b
  omega

end OraiV3
