import Verif.Lemmas.Keep
import Verif.WorldExamples

/-!
# C81: earned fees are not taken away again

False as stated (`C81_false`): fees are counted per unit of liquidity, modulo `2^128`, and start again from zero when the counter runs
over.  As long as that cannot happen, a position that is left alone loses nothing, whatever anybody else does.
-/

namespace OraiV3

/-- As long as what a position has earned and what traders pay meanwhile stay below `2^128 / 10^34` (34028) units for each unit of
its stored liquidity, other calls never lower its earnings, and raise them by no more than what traders pay.  Missing: pools with
a trade that ends irregularly (C01), and the counter running over (`C81_false`). -/
theorem C81_keeps_partial {c : Chain} {q : Position} {x : Bool} {s s' : Store} {n : Nat} (hr : Reach c s) (hdr : drift s q.poolKey = 0)
    (h : LeftAlone c q x s s' n) (hn : accrued s x q + n * 10 ^ 34 < 2 ^ 128 * q.liquidity) :
    accrued s x q ≤ accrued s' x q ∧ accrued s' x q ≤ accrued s x q + n * 10 ^ 34 :=
  (alone_grows h hr hdr).2.2.bounds hn

/-- A position opened with nothing earned: what traders pay while it is open bounds what it has earned, and its earnings
are never negative or lost. -/
theorem C81_from_the_start_partial {c : Chain} {q : Position} {x : Bool} {s s' s'' : Store} {n m : Nat} (hr : Reach c s)
    (hdr : drift s q.poolKey = 0) (h0 : accrued s x q = 0) (h : LeftAlone c q x s s' n) (h' : LeftAlone c q x s' s'' m)
    (hn : (n + m) * 10 ^ 34 < 2 ^ 128 * q.liquidity) :
    accrued s' x q ≤ accrued s'' x q ∧ accrued s'' x q ≤ (n + m) * 10 ^ 34 := by
  obtain ⟨⟨hr', hdr'⟩, -, g1⟩ := alone_grows h hr hdr
  have hn' : n * 10 ^ 34 + m * 10 ^ 34 < 2 ^ 128 * q.liquidity := by rw [← Nat.add_mul]; exact hn
  have b1 := g1.bounds (by rw [h0, Nat.zero_add]; exact Nat.lt_of_le_of_lt (Nat.le_add_right _ _) hn')
  rw [h0, Nat.zero_add] at b1
  have b2 := C81_keeps_partial hr' hdr' h' (Nat.lt_of_le_of_lt (Nat.add_le_add_right b1.2 _) hn')
  refine ⟨b2.1, Nat.le_trans b2.2 ?_⟩
  rw [Nat.add_mul]
  exact Nat.add_le_add_right b1.2 _

namespace Demo

/-- A pool with a very high fee, one position, and two purchases that pay 170141183500 units each. -/
def steep : FeeTier := ⟨10 ^ 12 - 12, 100⟩
def steepKey : PoolKey := ⟨[97], [98], steep⟩
def overrun : List (Info × Msg) :=
  [(by_ alice, .addFeeTier steep),
   (by_ alice, .createPool [97] [98] steep (10 ^ 24) 0),
   (by_ alice, .createPosition steepKey (-10000) 10000 (10 ^ 7) 0 (10 ^ 30)),
   (by_ bob, .swap steepKey false 170141183500 true MAX_SQRT_PRICE),
   (by_ bob, .swap steepKey false 170141183500 true MAX_SQRT_PRICE)]

end Demo

/-- Alice has earned 170141183498 units of Y when Bob buys once more and pays another 170141183500; afterwards Alice has
earned 75.  Both swaps end regularly and Alice does nothing. -/
theorem C81_false : ∃ s s' out q n, RegularReach Demo.chain (fun _ => True) s ∧
    execute Demo.chain Demo.env (Demo.by_ Demo.bob) (.swap Demo.steepKey false 170141183500 true MAX_SQRT_PRICE) s = .ok (s', out) ∧
    LeftAlone Demo.chain q false s s' n ∧ accrued s false q / 10 ^ 34 = 170141183498 ∧ accrued s' false q / 10 ^ 34 = 75 := by
  have hr : RegularReach Demo.chain (fun _ => True) (Demo.state Demo.chain (Demo.overrun.take 4)) :=
    Demo.state_regular (by decide +kernel) (by decide +kernel)
  have h : (match execute Demo.chain Demo.env (Demo.by_ Demo.bob) (.swap Demo.steepKey false 170141183500 true MAX_SQRT_PRICE)
      (Demo.state Demo.chain (Demo.overrun.take 4)) with
    | .ok r => decide (RegularEnd r.1 Demo.steepKey false true MAX_SQRT_PRICE) &&
        (match (Demo.state Demo.chain (Demo.overrun.take 4)).positions.vals, r.1.positions.vals with
        | [q], [q'] => decide (q = q') && decide (accrued (Demo.state Demo.chain (Demo.overrun.take 4)) false q / 10 ^ 34 = 170141183498) &&
            decide (accrued r.1 false q / 10 ^ 34 = 75)
        | _, _ => false)
    | .error _ => false) = true := by decide +kernel
  cases hx : execute Demo.chain Demo.env (Demo.by_ Demo.bob) (.swap Demo.steepKey false 170141183500 true MAX_SQRT_PRICE)
      (Demo.state Demo.chain (Demo.overrun.take 4)) with
  | error e => rw [hx] at h; cases h
  | ok r =>
    obtain ⟨s', out⟩ := r
    rw [hx] at h
    simp only [Bool.and_eq_true, decide_eq_true_eq] at h
    obtain ⟨h1, h2⟩ := h
    split at h2
    · rename_i q q' e1 e2
      simp only [Bool.and_eq_true, decide_eq_true_eq] at h2
      obtain ⟨⟨rfl, h3⟩, h4⟩ := h2
      exact ⟨_, s', out, q, _, hr, hx, .call (.start (by rw [e1]; simp)) hx (fun _ => h1) (by rw [e2]; simp), h3, h4⟩
    · cases h2

/-- A stretch of history to which `C81_keeps_partial` applies: the first of the two swaps. -/
example : ∃ s s' q n, RegularReach Demo.chain (fun _ => True) s ∧ LeftAlone Demo.chain q false s s' n ∧
    accrued s false q + n * 10 ^ 34 < 2 ^ 128 * q.liquidity ∧ n = 170141183500 ∧ accrued s' false q / 10 ^ 34 = 170141183498 := by
  have hr : RegularReach Demo.chain (fun _ => True) (Demo.state Demo.chain (Demo.overrun.take 3)) :=
    Demo.state_regular (by decide +kernel) (by decide +kernel)
  have h : (match execute Demo.chain Demo.env (Demo.by_ Demo.bob) (.swap Demo.steepKey false 170141183500 true MAX_SQRT_PRICE)
      (Demo.state Demo.chain (Demo.overrun.take 3)) with
    | .ok r => decide (RegularEnd r.1 Demo.steepKey false true MAX_SQRT_PRICE) &&
        (match (Demo.state Demo.chain (Demo.overrun.take 3)).positions.vals, r.1.positions.vals with
        | [q], [q'] => decide (q = q') && decide (accrued (Demo.state Demo.chain (Demo.overrun.take 3)) false q +
            170141183500 * 10 ^ 34 < 2 ^ 128 * q.liquidity) && decide (accrued r.1 false q / 10 ^ 34 = 170141183498) &&
            decide (0 + paidInto Demo.chain Demo.env (Demo.by_ Demo.bob) (Demo.state Demo.chain (Demo.overrun.take 3)) q.poolKey false
              (.swap Demo.steepKey false 170141183500 true MAX_SQRT_PRICE) = 170141183500)
        | _, _ => false)
    | .error _ => false) = true := by decide +kernel
  cases hx : execute Demo.chain Demo.env (Demo.by_ Demo.bob) (.swap Demo.steepKey false 170141183500 true MAX_SQRT_PRICE)
      (Demo.state Demo.chain (Demo.overrun.take 3)) with
  | error e => rw [hx] at h; cases h
  | ok r =>
    obtain ⟨s', out⟩ := r
    rw [hx] at h
    simp only [Bool.and_eq_true, decide_eq_true_eq] at h
    obtain ⟨h1, h2⟩ := h
    split at h2
    · rename_i q q' e1 e2
      simp only [Bool.and_eq_true, decide_eq_true_eq] at h2
      obtain ⟨⟨⟨rfl, h3⟩, h4⟩, h5⟩ := h2
      have := LeftAlone.call (.start (c := Demo.chain) (x := false) (by rw [e1]; simp)) hx (fun _ => h1) (q := q) (by rw [e2]; simp)
      rw [h5] at this
      exact ⟨_, s', q, _, hr, this, h3, rfl, h4⟩
    · cases h2

end OraiV3
