import Verif.Ledger
import Verif.Examples
import Verif.Lemmas.OpenClose
import Verif.Lemmas.Ledger
import Verif.Lemmas.PosOps
import Verif.Lemmas.ExactLemmas

/-!
# C06, C25: rounding of token amounts
-/

namespace OraiV3

/-! ## C25: rounding favours the pool

`get_delta_x`, `get_delta_y` compute every amount the contract charges or pays for liquidity.  `true`
is the mode used for charging, `false` the mode used for paying. -/

/-- Token Y: the charged amount is the exact amount rounded up. -/
theorem C25_charge_y {a b L y : Nat} (h : getDeltaY a b L true = .ok y) :
    exactY L a b ≤ y ∧ (y : ℚ) < exactY L a b + 1 := deltaY_up_exact h

/-- Token Y: the paid amount is the exact amount rounded down. -/
theorem C25_pay_y {a b L y : Nat} (h : getDeltaY a b L false = .ok y) :
    (y : ℚ) ≤ exactY L a b ∧ exactY L a b < y + 1 := deltaY_down_exact h

/-- Token X: the paid amount is at most the exact amount, and not much less. -/
theorem C25_pay_x {a b L x : Nat} (h : getDeltaX a b L false = .ok x) :
    (x : ℚ) ≤ exactX L a b ∧ exactX L a b < (x + 1) * (1 + dustX a b) + dustX a b :=
  (deltaX_down_exact h).2.2

/-- Token X: the charged amount can be below the exact amount, because the product of price
difference and liquidity is rounded down first, but by less than `dustX`. -/
theorem C25_charge_x {a b L x : Nat} (h : getDeltaX a b L true = .ok x) :
    exactX L a b < x + dustX a b ∧ (x : ℚ) * (1 - dustX a b) ≤ exactX L a b + 1 :=
  (deltaX_up_exact h).2.2

/-- In the price range of the contract `dustX` is below `10^-14` of the smallest unit. -/
theorem C25_dust {a b : Nat} (ha : MIN_SQRT_PRICE ≤ a) (hb : MIN_SQRT_PRICE ≤ b) : dustX a b < 1 / 10 ^ 14 :=
  dustX_small ha hb

/-- The exception is real: here the exact amount is positive and nothing is charged. -/
theorem C25_charge_x_below_exact :
    ∃ a b L, MIN_SQRT_PRICE ≤ a ∧ b ≤ MAX_SQRT_PRICE ∧ getDeltaX a b L true = .ok 0 ∧ 0 < exactX L a b := by
  refine ⟨10 ^ 24, 10 ^ 24 + 1, 1, by decide, by decide, by decide +kernel, ?_⟩
  rw [exactX_eq (by norm_num) (by norm_num)]
  norm_num [absDiff]

example : getDeltaX (10 ^ 24) (2 * 10 ^ 24) (3 * 10 ^ 6) true = .ok 2 ∧
    getDeltaX (10 ^ 24) (2 * 10 ^ 24) (3 * 10 ^ 6) false = .ok 1 ∧
    getDeltaY (10 ^ 24) (15 * 10 ^ 23) (3 * 10 ^ 6) true = .ok 2 ∧
    getDeltaY (10 ^ 24) (15 * 10 ^ 23) (3 * 10 ^ 6) false = .ok 1 := by decide +kernel

/-! ## C06: opening and closing a position is never profitable -/

/-- The two messages that open a position. -/
def Opens (m : Msg) : Prop := ∃ k l u L lo hi, m = .createPosition k l u L lo hi ∨ m = .mint k l u L lo hi

/-- The messages with which `who` closes the position with index `i`. -/
def Closes (who : Bytes) (i : Nat) (m : Msg) : Prop := m = .removePosition i ∨ m = .burn (positionKey who i)

/-- Whoever opens a position and closes it in the next call, at any time, has afterwards at most what
they had before, of every asset. -/
theorem C06_no_profit {c : Chain} {w w1 w2 : World} {env env' : Env} {info info' : Info} {m m' : Msg}
    (hr : Reach c w.store) (hne : info.sender ≠ c.self) (he : info'.sender = info.sender)
    (ho : Opens m) (hc : Closes info.sender (positionList w.store info.sender).length m')
    (h1 : w.tx c env info m = .ok w1) (h2 : w1.tx c env' info' m' = .ok w2) (a : Asset) :
    w2.ledger.bal a info.sender ≤ w.ledger.bal a info.sender := by
  obtain ⟨out, x1, b1⟩ := tx_inv h1
  obtain ⟨out', x2, b2⟩ := tx_inv h2
  have hs := hr.mreach.struct
  have hs1 := (Reach.step hr x1).mreach.struct
  rw [positionList_length] at hc
  obtain ⟨k, l, u, L, lo, hi, ho⟩ := ho
  have y1 : (Msg.createPosition k l u L lo hi).wf ∧
      createPosition c w.store env info k l u L lo hi = .ok (w1.store, out) := by
    rcases ho with rfl | rfl
    · exact execute_ok.1 x1
    · exact execute_ok.1 x1
  obtain ⟨_, _, _, _, _, _, _, _, _, _, _, _, _, _, _, _, _, _, _, _, _, _, _, _, _, hlt, _⟩ :=
    createPosition_view hs y1.1 y1.2
  have y2 : removePosition c w1.store env' info' (getPositionLength w.store info.sender) = .ok (w2.store, out') := by
    have x2 := (execute_ok.1 x2).2
    rcases hc with rfl | rfl
    · exact x2
    · obtain ⟨_, _, _, _, _, h⟩ := burn_inv x2
      rw [tokenIndex_positionKey _ (by omega)] at h
      exact h
  obtain ⟨x, y, x', y', m1, m2, hxy, hx, hy, t1, t2, eo, eo'⟩ := createRemove_amounts hs hs1 y1.1 y1.2 he y2
  have hne' : info'.sender ≠ c.self := by rw [he]; exact hne
  have e1 := b1 a info.sender
  have e2 := b2 a info.sender
  rw [eo, outDelta_append] at e1
  have s1 := assetTransfer_sender (c := c) (d := k.tokenX) (n := x') hne' a
  have s2 := assetTransfer_sender (c := c) (d := k.tokenY) (n := y') hne' a
  rw [he] at s1 s2
  rw [eo', outDelta_append, s1, s2, he] at e2
  have f1 := fundsDelta_sender hne info.funds a
  have f2 := fundsDelta_sender hne info'.funds a
  have hax : tokenAsset c k.tokenX ≠ tokenAsset c k.tokenY := fun e => hxy (tokenAsset_inj e)
  by_cases hX : a = tokenAsset c k.tokenX
  · subst hX
    have g1 := assetTransferFrom_sender hne t1
    have g2 := assetTransferFrom_other t2 hax info.sender
    rw [if_pos rfl, if_neg hax] at e2
    omega
  · have g1 := assetTransferFrom_other t1 hX info.sender
    by_cases hY : a = tokenAsset c k.tokenY
    · subst hY
      have g2 := assetTransferFrom_sender hne t2
      rw [if_neg hX, if_pos rfl] at e2
      omega
    · have g2 := assetTransferFrom_other t2 hY info.sender
      rw [if_neg hX, if_neg hY] at e2
      omega

/-- Everybody has plenty of everything and lets the contract take it; the contract holds nothing. -/
def Demo.rich : Ledger := ⟨fun _ h => if h = [0] then 0 else 10 ^ 40, fun _ _ => 10 ^ 40⟩

/-- A position of 500 X and 500 Y is opened by Bob and closed again; one unit of each stays behind. -/
example : (do
    let w1 ← World.tx Demo.chain ⟨Demo.state Demo.chain Demo.setup, Demo.rich⟩ Demo.env (Demo.by_ Demo.bob)
      (.createPosition Demo.key (-10) 10 (10 ^ 12) 0 (10 ^ 30))
    let w2 ← w1.tx Demo.chain Demo.env (Demo.by_ Demo.bob) (.removePosition 0)
    pure (w1.ledger.bal (.cw20 [97]) Demo.bob, w2.ledger.bal (.cw20 [97]) Demo.bob) : M (Nat × Nat)) =
      .ok (10 ^ 40 - 500, 10 ^ 40 - 1) := by decide +kernel

end OraiV3
