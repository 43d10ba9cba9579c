import Verif.Lemmas.Return
import Verif.Props.Adjacent
import Verif.Props.Amounts
import Verif.Props.Liveness
import Verif.Props.Nft
import Verif.Props.Solvency

/-!
# C100: Closing a position at the price it was opened at

`Opening` and `Closing` (`Props/Split.lean`) are a call that opens and a call that closes a position with the given pool, range,
price and liquidity, and the amounts that the caller paid and got.  Nothing is said about which state they happen in: everything may
have happened between the two.
-/

namespace OraiV3

/-- **C100, amounts.**  Whoever closes a position while the price is what it was when it was opened gets back the deposit, besides the
fees: at most one unit of token Y is missing, and at most two units and two parts in 10^14 of token X; never more than the deposit. -/
theorem C100_return {c : Chain} {k : PoolKey} {l u : Int} {P L x y x' y' : Nat}
    (h : Opening c k l u P L x y) (h' : Closing c k l u P L x' y') :
    (y' ≤ y ∧ y ≤ y' + 1) ∧ x' ≤ x ∧ (x : ℚ) * (1 - 1 / 10 ^ 14) < x' * (1 + 1 / 10 ^ 14) + 2 + 2 / 10 ^ 14 := by
  obtain ⟨-, a1, a2, a3, a4⟩ := opening_exact h
  obtain ⟨-, b1, b2, b3, b4⟩ := closing_exact h'
  refine ⟨⟨?_, ?_⟩, ?_, ?_⟩
  · exact_mod_cast b3.trans a3
  · have : (y : ℚ) < ((y' + 2 : Nat) : ℚ) := by push_cast; linarith
    have := Nat.cast_lt.1 this
    omega
  · have : (x' : ℚ) < ((x + 1 : Nat) : ℚ) := by
      push_cast
      have : (1 : ℚ) / 10 ^ 14 < 1 := by norm_num
      linarith
    have := Nat.cast_lt.1 this
    omega
  · linarith

/-- For deposits of less than 10^13 units that is two units of token X at most. -/
theorem C100_small {c : Chain} {k : PoolKey} {l u : Int} {P L x y x' y' : Nat}
    (h : Opening c k l u P L x y) (h' : Closing c k l u P L x' y') (hx : x < 10 ^ 13) : x' ≤ x ∧ x ≤ x' + 2 := by
  obtain ⟨-, h1, h2⟩ := C100_return h h'
  refine ⟨h1, ?_⟩
  have e : (x : ℚ) < 10 ^ 13 := by exact_mod_cast hx
  have e' : (x' : ℚ) ≤ x := by exact_mod_cast h1
  have : (x : ℚ) < ((x' + 3 : Nat) : ℚ) := by
    push_cast
    have a : (x : ℚ) / 10 ^ 14 ≤ 1 / 10 := by linarith
    have b : (x' : ℚ) / 10 ^ 14 ≤ 1 / 10 := by linarith
    have d : (2 : ℚ) / 10 ^ 14 ≤ 1 / 10 := by norm_num
    have h3 : (x : ℚ) - x / 10 ^ 14 < x' + x' / 10 ^ 14 + 2 + 2 / 10 ^ 14 := by
      have := h2
      ring_nf at this ⊢
      linarith
    linarith
  have := Nat.cast_lt.1 this
  omega

/-- **C100, at once.**  Whoever has opened a position can close it in the next call, at any time, in every reachable state and whatever
the contract owes to others: the call is accepted and the contract is able to pay. -/
theorem C100_at_once {c : Chain} {w w1 : World} {env env' : Env} {info : Info} {m m' : Msg} (hr : Reach c w.store)
    (hne : info.sender ≠ c.self) (ho : Opens m) (hc : Closes info.sender (positionList w.store info.sender).length m')
    (h : w.tx c env info m = .ok w1) : ∃ w2, w1.tx c env' ⟨info.sender, []⟩ m' = .ok w2 := by
  obtain ⟨out, x1, b1⟩ := tx_inv h
  have hr1 := Reach.step hr x1
  have hs := hr.mreach.struct
  obtain ⟨k, l, u, L, lo, hi, ho⟩ := ho
  have y1 : (Msg.createPosition k l u L lo hi).wf ∧
      createPosition c w.store env info k l u L lo hi = .ok (w1.store, out) := by
    rcases ho with rfl | rfl
    · exact execute_ok.1 x1
    · exact execute_ok.1 x1
  obtain ⟨_, _, _, r, _, _, _, _, _, _, _, _, _, _, _, _, _, _, _, _, _, _, _, e2, _, hlt, _⟩ :=
    createPosition_view hs y1.1 y1.2
  obtain ⟨s2, out', hx⟩ := createPosition_closable (env' := env') (info' := ⟨info.sender, []⟩) hr hr1 y1.1 y1.2 rfl
  obtain ⟨x, y, x', y', m1, m2, hxy, hx', hy', t1, t2, eo, eo'⟩ :=
    createRemove_amounts hs hr1.mreach.struct y1.1 y1.2 rfl hx
  subst eo eo'
  obtain ⟨p1, p2⟩ := deposit_self (b := fun a => w.ledger.bal a c.self) (b' := fun a => w1.ledger.bal a c.self) hne t1 t2 hxy
    (fun a => b1 a c.self)
  rw [positionList_length] at hc
  have hex : execute c env' ⟨info.sender, []⟩ (.removePosition (getPositionLength w.store info.sender)) w1.store = .ok (s2, _) :=
    execute_ok.2 ⟨show getPositionLength w.store info.sender < U32 by omega, hx⟩
  rcases hc with rfl | rfl
  · exact payout_tx hex hxy (hx'.trans p1) (hy'.trans p2)
  · refine payout_tx ((C17_burn_partial hr1).2 ⟨info.sender, _, r.pos, (isToken_iff hr1).2 ⟨rfl, ?_, ?_⟩, Or.inl rfl, hex⟩) hxy
      (hx'.trans p1) (hy'.trans p2)
    · omega
    · rw [e2, KV.get?_insert, if_pos rfl]

/-! ## The hypotheses can be met -/

/-- Alice's position was opened before two others; closing it at the same price returns one unit less of each token. -/
example : Opening Demo.chain Demo.key (-10) 10 (10 ^ 24 + 4187) (10 ^ 15) 499851 499851 ∧
    Closing Demo.chain Demo.key (-10) 10 (10 ^ 24 + 4187) (10 ^ 15) 499850 499850 :=
  ⟨halves_opening (by decide +kernel), halves_closing (i := 2) (by decide +kernel)⟩

/-- The ledger in which everybody but the contract has plenty. -/
def Demo.penniless : Ledger := ⟨fun _ who => if who = Demo.chain.self then 0 else 10 ^ 40, fun _ _ => 10 ^ 40⟩

/-- Bob opens a position in a state in which the one Bob has cannot be closed, and closes it. -/
def Demo.reopens : Bool :=
  match World.tx Demo.chain ⟨Demo.state Demo.chain Demo.stuck, Demo.penniless⟩ Demo.env ⟨Demo.bob, []⟩
    (.createPosition Demo.key (-10) 10 (10 ^ 6) 0 (10 ^ 30)) with
  | .ok w1 => (w1.tx Demo.chain Demo.env ⟨Demo.bob, []⟩ (.removePosition 1)).isOk &&
      (w1.tx Demo.chain Demo.env ⟨Demo.bob, []⟩ (.burn (positionKey Demo.bob 1))).isOk &&
      !(w1.tx Demo.chain Demo.env ⟨Demo.bob, []⟩ (.removePosition 0)).isOk
  | .error _ => false

/-- In the state of `C33_false`, in which Bob cannot close the position Bob already has, and with a contract that has nothing at all,
Bob opens another one; closing it by either call is accepted, closing the old one is not. -/
example : Reach Demo.chain (Demo.state Demo.chain Demo.stuck) ∧
    (positionList (Demo.state Demo.chain Demo.stuck) Demo.bob).length = 1 ∧
    (∃ w1, World.tx Demo.chain ⟨Demo.state Demo.chain Demo.stuck, Demo.penniless⟩ Demo.env ⟨Demo.bob, []⟩
        (.createPosition Demo.key (-10) 10 (10 ^ 6) 0 (10 ^ 30)) = .ok w1 ∧
      (w1.tx Demo.chain Demo.env ⟨Demo.bob, []⟩ (.removePosition 1)).isOk = true ∧
      (w1.tx Demo.chain Demo.env ⟨Demo.bob, []⟩ (.burn (positionKey Demo.bob 1))).isOk = true ∧
      (w1.tx Demo.chain Demo.env ⟨Demo.bob, []⟩ (.removePosition 0)).isOk = false) := by
  refine ⟨Demo.state_reach (by decide +kernel), by decide +kernel, ?_⟩
  have h : Demo.reopens = true := by decide +kernel
  unfold Demo.reopens at h
  split at h
  · rename_i w1 e
    simp only [Bool.and_eq_true, Bool.not_eq_true'] at h
    exact ⟨w1, e, h.1.1, h.1.2, h.2⟩
  · simp at h

end OraiV3
