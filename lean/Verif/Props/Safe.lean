import Verif.Lemmas.Safe
import Verif.Props.Active
import Verif.Props.Liveness

/-!
# C80: trades that cannot harm a pool can be told in advance

Several properties hold only as long as no swap ends in one of three special places (C01, C04, C05, C27, C33, C41, C46, C60,
C63).  Here the condition is moved to where it can be checked: before the trade is made.
-/

namespace OraiV3

open Demo

/-- A safe trade leaves the error of every pool's liquidity as it was. -/
theorem C80_trade {c : Chain} {s s' : Store} {env : Env} {info : Info} {k : PoolKey} {d : Bool} {amount : Nat} {b : Bool}
    {limit : Nat} {out : List OutMsg} (hr : Reach c s) (hs : SafeTrade s env k d amount b limit)
    (h : execute c env info (.swap k d amount b limit) s = .ok (s', out)) {k' : PoolKey} (hk : k'.wf) :
    drift s' k' = drift s k' :=
  C01_drift_swap_regular hr h (safe_call (P := fun _ => True) (msg := .swap k d amount b limit) hr (fun _ => hs) h trivial) hk

/-- After calls whose trades in a pool are safe, the pool's liquidity is that of the positions whose range contains the current tick. -/
theorem C80_liquidity {c : Chain} {s : Store} {k : PoolKey} (hs : SafeReach c (· = k) s) {p : Pool} (hk : k.wf)
    (hp : s.pools.get? k.key = some p) : p.liquidity = liquidityInRange s k p.tick := by
  have : RegularReach c (· = k) s := by
    clear hp
    induction hs with
    | init sender fee h => exact .init sender fee h
    | step _ h1 h2 ih => exact .step ih h2 (safe_call ih.reach h1 h2)
  exact C01_active_partial this hk hp

/-- Safe calls are regular, and everything proved of histories with regular swaps holds for them. -/
theorem SafeHistory.history {c : Chain} {T : Bytes → Prop} {w : World} {n : Nat} (h : SafeHistory c T w n) : History c T w n := by
  induction h with
  | init sender fee h l => exact .init sender fee h l
  | outside l _ h ih => exact .outside l ih h
  | @call w w' n env info msg _ h1 h2 h3 h4 ih =>
    refine .call ih h1 h4 ?_ h3
    unfold World.tx at h4
    simp only [bind_ok, pure_ok] at h4
    obtain ⟨_, _, ⟨s', ms⟩, h5, _, _, rfl⟩ := h4
    exact safe_call ih.regular.reach h2 h5

/-- After calls whose trades in pools that trade a token are safe, the contract holds what it owes in this token, up to `10^-14` of a unit per rounding. -/
theorem C80_solvent {c : Chain} {T : Bytes → Prop} {w : World} {n : Nat} (h : SafeHistory c T w n) {ks : List PoolKey} (hn : ks.Nodup)
    (hw : ∀ k ∈ ks, k.wf) {t : Bytes} (ht : T t) : owes w.store ks t ≤ w.ledger.bal (tokenAsset c t) c.self + n / 10 ^ 14 :=
  C04_solvent_partial h.history hn hw ht

/-- After such calls the owner of every position in these tokens can claim, and can withdraw, and is paid. -/
theorem C80_withdraw {c : Chain} {T : Bytes → Prop} {w : World} {n : Nat} (h : SafeHistory c T w n) (hn : n < 10 ^ 14) {env : Env} {who : Bytes} {i : Nat}
    (hT : ∀ pos, (positionList w.store who)[i]? = some (some pos) → T pos.poolKey.tokenX ∧ T pos.poolKey.tokenY)
    (hbal : ∀ t, T t → w.ledger.bal (tokenAsset c t) c.self < 2 ^ 128) (hi : i < (positionList w.store who).length) :
    (∃ w', w.tx c env ⟨who, []⟩ (.claimFee i) = .ok w') ∧ ∃ w', w.tx c env ⟨who, []⟩ (.removePosition i) = .ok w' := by
  have hi' : i < getPositionLength w.store who := by simpa [positionList] using hi
  have hT' : ∀ pos, w.store.positions.get? (positionKey who i) = some pos → T pos.poolKey.tokenX ∧ T pos.poolKey.tokenY :=
    fun pos hpos => hT pos (by simp [positionList, hi', hpos])
  have hb : ∀ pos, w.store.positions.get? (positionKey who i) = some pos →
      ∀ t ∈ [pos.poolKey.tokenX, pos.poolKey.tokenY], w.ledger.bal (tokenAsset c t) c.self < 2 ^ 128 := by
    intro pos hpos t ht
    simp only [List.mem_cons, List.not_mem_nil, or_false] at ht
    rcases ht with rfl | rfl
    exacts [hbal _ (hT' pos hpos).1, hbal _ (hT' pos hpos).2]
  exact ⟨C41_paid_partial h.history hn hT' hb hi', C33_paid_partial h.history hn hT' hb hi'⟩

/-! ## Examples -/

namespace Demo

/-- `SafeTrade`, computed. -/
def safeTrade (s : Store) (env : Env) (k : PoolKey) (d : Bool) (amount : Nat) (b : Bool) (limit : Nat) : Bool :=
  if d then
    b == false ||
      match queryQuote s env k d amount b limit with
      | .ok q => (positionsOf s k).all (fun r => [r.lower, r.upper].all (fun t =>
          decide (sqrtPriceAt t < q.targetPrice) || decide (10 ^ 24 ≤ (sqrtPriceAt t - q.targetPrice) * q.targetPrice)))
      | .error _ => true
  else (positionsOf s k).all (fun r => decide (sqrtPriceAt r.lower ≠ limit) && decide (sqrtPriceAt r.upper ≠ limit))

theorem safeTrade_iff {s : Store} {env : Env} {k : PoolKey} {d : Bool} {amount : Nat} {b : Bool} {limit : Nat} :
    safeTrade s env k d amount b limit = true ↔ SafeTrade s env k d amount b limit := by
  unfold safeTrade SafeTrade AtEnds
  cases d
  · simp
  · cases queryQuote s env k true amount b limit <;> simp

/-- Is a call that is not a route safe? -/
def safeMsg (s : Store) : Msg → Bool
  | .swap k d amount b limit => safeTrade s env k d amount b limit
  | .swapRoute _ _ _ _ => false
  | _ => true

/-- Run transactions one after the other, checking that single swaps are safe (routes are not allowed); the number of
roundings. -/
def runSafe (c : Chain) : List (Info × Msg) → World → Option (World × Nat)
  | [], w => some (w, 0)
  | (i, m) :: ms, w =>
    match w.tx c env i m with
    | .error _ => none
    | .ok w' =>
      if i.sender ≠ c.self ∧ safeMsg w.store m = true then (runSafe c ms w').map (fun x => (x.1, roundings c env i w.store m + x.2)) else none

theorem runSafe_history (c : Chain) (T : Bytes → Prop) : ∀ (ms : List (Info × Msg)) (w w' : World) (n m : Nat), SafeHistory c T w n →
    runSafe c ms w = some (w', m) → SafeHistory c T w' (n + m)
  | [], w, w', n, m, hs, h => by
    simp only [runSafe, Option.some.injEq, Prod.mk.injEq] at h
    obtain ⟨rfl, rfl⟩ := h
    exact hs
  | (i, msg) :: ms, w, w', n, m, hs, h => by
    unfold runSafe at h
    cases he : w.tx c env i msg with
    | error e => rw [he] at h; cases h
    | ok w1 =>
      rw [he] at h
      simp only at h
      split at h
      swap
      · cases h
      · rename_i hc
        simp only [Option.map_eq_some_iff] at h
        obtain ⟨⟨w2, m2⟩, h1, h2⟩ := h
        simp only [Prod.mk.injEq] at h2
        obtain ⟨rfl, rfl⟩ := h2
        rw [← Nat.add_assoc]
        refine runSafe_history c T ms w1 _ _ m2 (.call hs hc.1 ?_ ?_ he) h1
        · cases msg <;> first | trivial | exact fun _ => safeTrade_iff.1 hc.2 | exact absurd hc.2 (by simp [safeMsg])
        · cases msg <;> first | trivial | exact absurd hc.2 (by simp [safeMsg])

end Demo

/-- Swaps across ticks in both directions are safe as they come: a sale of an exact amount of X leaves the first position
and enters the second, and a purchase comes back. -/
example : ∃ w n, SafeHistory Demo.chain (fun _ => True) w n ∧ n < 10 ^ 14 ∧ 0 < (positionList w.store Demo.bob).length ∧ w.store.pools.get? Demo.key.key ≠ none := by
  have h : (match Demo.runSafe Demo.chain Demo.crossing Demo.fresh with
    | some (w, n) => decide (n < 10 ^ 14) && decide (0 < (positionList w.store Demo.bob).length) &&
        (w.store.pools.get? Demo.key.key).isSome
    | none => false) = true := by decide +kernel
  cases hx : Demo.runSafe Demo.chain Demo.crossing Demo.fresh with
  | none => rw [hx] at h; cases h
  | some x =>
    obtain ⟨w, n⟩ := x
    rw [hx] at h
    simp only [Bool.and_eq_true, decide_eq_true_eq] at h
    have := Demo.runSafe_history Demo.chain (fun _ => True) Demo.crossing Demo.fresh w 0 n (.init _ _ (by decide) _) hx
    rw [Nat.zero_add] at this
    exact ⟨w, n, this, h.1.1, h.1.2, fun e => by rw [e] at h; simp at h⟩

/-- The last trades of the three histories that leave a pool with a wrong liquidity are not safe, and those of the harmless
ones are. -/
example : (∀ h ∈ [Demo.limitOnTick, Demo.stall, Demo.passing],
      (match h.getLast? with
      | some (_, .swap k d amount b limit) => Demo.safeTrade (Demo.state Demo.chain h.dropLast) Demo.env k d amount b limit
      | _ => true) = false) ∧
    ∀ n ∈ [Demo.crossing.length - 1, Demo.crossing.length], (match (Demo.crossing.take n).getLast? with
      | some (_, .swap k d amount b limit) => Demo.safeTrade (Demo.state Demo.chain (Demo.crossing.take n).dropLast) Demo.env k d amount b limit
      | _ => false) = true := by
  decide +kernel

end OraiV3
