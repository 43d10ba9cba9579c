import Verif.Props.Adjacent
import Verif.Props.Access

/-!
# C102: The price bounds of a deposit bound its cost
-/

namespace OraiV3

/-- At a higher price a position contains less X and more Y. -/
theorem exactPosition_mono {L a b P Q : Nat} (h0 : 0 < a) (h1 : a ≤ b) (h : P ≤ Q) :
    exactPositionX L a b Q ≤ exactPositionX L a b P ∧ exactPositionY L a b P ≤ exactPositionY L a b Q := by
  unfold exactPositionX exactPositionY
  have e1 : a ≤ clampPrice a b P := by unfold clampPrice; omega
  have e2 : clampPrice a b P ≤ clampPrice a b Q := by unfold clampPrice; omega
  have e3 : clampPrice a b Q ≤ b := by unfold clampPrice; omega
  rw [exactX_add (L := L) (Nat.lt_of_lt_of_le h0 e1) e2 e3, exactY_add (L := L) e1 e2]
  have := exactX_nonneg L (clampPrice a b P) (clampPrice a b Q)
  have := exactY_nonneg L (clampPrice a b P) (clampPrice a b Q)
  constructor <;> linarith

/-- **C102.**  A position that is opened with the price bounds `lo` and `hi` costs, at whatever price it is opened, no more X than the
range contains at `lo` and no more Y than it contains at `hi`, rounded up to whole units; and no less than it contains at `hi` and
`lo`.  (X is computed with 24 decimals, which leaves an error of one part in 10^14.) -/
theorem C102_cost {c : Chain} {w w' : World} {env : Env} {info : Info} {k : PoolKey} {l u : Int} {L lo hi x y : Nat} {msg : Msg}
    (hm : msg = .createPosition k l u L lo hi ∨ msg = .mint k l u L lo hi) (hr : Reach c w.store) (hne : info.sender ≠ c.self)
    (hn : (info.funds.map Coin.denom).Nodup) (h : w.tx c env info msg = .ok w')
    (hx : ∀ coin ∈ info.funds, coin.denom = k.tokenX → x < coin.amount)
    (hy : ∀ coin ∈ info.funds, coin.denom = k.tokenY → y < coin.amount)
    (ex : w'.ledger.bal (tokenAsset c k.tokenX) info.sender + x = w.ledger.bal (tokenAsset c k.tokenX) info.sender)
    (ey : w'.ledger.bal (tokenAsset c k.tokenY) info.sender + y = w.ledger.bal (tokenAsset c k.tokenY) info.sender) :
    (x : ℚ) * (1 - 1 / 10 ^ 14) ≤ exactPositionX L (sqrtPriceAt l) (sqrtPriceAt u) lo + 1 ∧
      (y : ℚ) < exactPositionY L (sqrtPriceAt l) (sqrtPriceAt u) hi + 1 ∧
      exactPositionX L (sqrtPriceAt l) (sqrtPriceAt u) hi < x + 1 / 10 ^ 14 ∧
      exactPositionY L (sqrtPriceAt l) (sqrtPriceAt u) lo ≤ y := by
  obtain ⟨out, he, -⟩ := tx_inv h
  obtain ⟨p, hp, h1, h2⟩ := C13_position_price_bounds hm he
  obtain ⟨⟨p0, p1⟩, a1, a2, a3, a4⟩ := opening_exact (P := p.sqrtPrice)
    ⟨w, w', env, info, msg, lo, hi, p, hr, hne, hn, hp, rfl, hm, h, hx, hy, ex, ey⟩
  obtain ⟨b1, b2⟩ := exactPosition_mono (L := L) p0 p1 h1
  obtain ⟨b3, b4⟩ := exactPosition_mono (L := L) p0 p1 h2
  refine ⟨?_, ?_, ?_, ?_⟩ <;> linarith

/-- **C102, what is taken moves with the price.**  Of two openings of the same range and liquidity, in any states, the one at the higher
price takes no less Y and, up to a unit and one part in 10^14, no more X. -/
theorem C102_price {c : Chain} {k : PoolKey} {l u : Int} {P Q L x y x' y' : Nat}
    (h : Opening c k l u P L x y) (h' : Opening c k l u Q L x' y') (hPQ : P ≤ Q) :
    y ≤ y' ∧ (x' : ℚ) * (1 - 1 / 10 ^ 14) < x + 1 + 1 / 10 ^ 14 := by
  obtain ⟨⟨p0, p1⟩, a1, a2, a3, a4⟩ := opening_exact h
  obtain ⟨-, b1, b2, b3, b4⟩ := opening_exact h'
  obtain ⟨c1, c2⟩ := exactPosition_mono (L := L) p0 p1 hPQ
  refine ⟨?_, by linarith⟩
  have : (y : ℚ) < ((y' + 1 : Nat) : ℚ) := by push_cast; linarith
  have := Nat.cast_lt.1 this
  omega

/-! ## The hypotheses can be met -/

/-- Bob opens a position with bounds around the price `10^24 + 4187`, and pays 499851 units of each token. -/
example : ∃ w', World.tx Demo.chain ⟨Demo.state Demo.chain Demo.halves, Demo.wealthy⟩ Demo.env ⟨Demo.bob, []⟩
      (.createPosition Demo.key (-10) 10 (10 ^ 15) (10 ^ 24) (10 ^ 24 + 10 ^ 20)) = .ok w' ∧
    w'.ledger.bal (tokenAsset Demo.chain Demo.key.tokenX) Demo.bob + 499851 = 10 ^ 40 ∧
    w'.ledger.bal (tokenAsset Demo.chain Demo.key.tokenY) Demo.bob + 499851 = 10 ^ 40 := by
  have h : (match World.tx Demo.chain ⟨Demo.state Demo.chain Demo.halves, Demo.wealthy⟩ Demo.env ⟨Demo.bob, []⟩
      (.createPosition Demo.key (-10) 10 (10 ^ 15) (10 ^ 24) (10 ^ 24 + 10 ^ 20)) with
    | .ok w' => decide (w'.ledger.bal (tokenAsset Demo.chain Demo.key.tokenX) Demo.bob + 499851 = 10 ^ 40 ∧
        w'.ledger.bal (tokenAsset Demo.chain Demo.key.tokenY) Demo.bob + 499851 = 10 ^ 40)
    | .error _ => false) = true := by decide +kernel
  split at h
  · rename_i w' e
    exact ⟨w', e, of_decide_eq_true h⟩
  · cases h

-- with bounds that do not contain the price it is refused
example : errorOf (World.tx Demo.chain ⟨Demo.state Demo.chain Demo.halves, Demo.wealthy⟩ Demo.env ⟨Demo.bob, []⟩
    (.createPosition Demo.key (-10) 10 (10 ^ 15) (10 ^ 24) (10 ^ 24 + 4186))) = some .priceLimitReached := by decide +kernel

/-- Bob opens the same position after swaps have raised the price. -/
def Demo.opensLater (P x y : Nat) : Bool :=
  (((Demo.state Demo.chain Demo.halvesSwapped).pools.get? Demo.key.key).map (·.sqrtPrice) == some P) &&
  match World.tx Demo.chain ⟨Demo.state Demo.chain Demo.halvesSwapped, Demo.wealthy⟩ Demo.env ⟨Demo.bob, []⟩
    (.createPosition Demo.key (-10) 10 (10 ^ 15) 0 (10 ^ 30)) with
  | .ok w' => decide (w'.ledger.bal (.cw20 [97]) Demo.bob + x = 10 ^ 40 ∧ w'.ledger.bal (.cw20 [98]) Demo.bob + y = 10 ^ 40)
  | .error _ => false

theorem later_reach : Reach Demo.chain (Demo.state Demo.chain Demo.halvesSwapped) := Demo.state_reach (by decide +kernel)

theorem later_opening {P x y : Nat} (h : Demo.opensLater P x y = true) :
    Opening Demo.chain Demo.key (-10) 10 P (10 ^ 15) x y := by
  unfold Demo.opensLater at h
  rw [Bool.and_eq_true] at h
  obtain ⟨h1, h⟩ := h
  cases hp : (Demo.state Demo.chain Demo.halvesSwapped).pools.get? Demo.key.key with
  | none => rw [hp] at h1; simp at h1
  | some p =>
    rw [hp] at h1
    simp only [Option.map_some, beq_iff_eq, Option.some.injEq] at h1
    cases ht : World.tx Demo.chain ⟨Demo.state Demo.chain Demo.halvesSwapped, Demo.wealthy⟩ Demo.env ⟨Demo.bob, []⟩
        (.createPosition Demo.key (-10) 10 (10 ^ 15) 0 (10 ^ 30)) with
    | error e => rw [ht] at h; simp at h
    | ok w' =>
      rw [ht] at h
      simp only [decide_eq_true_eq] at h
      exact ⟨⟨Demo.state Demo.chain Demo.halvesSwapped, Demo.wealthy⟩, w', Demo.env, ⟨Demo.bob, []⟩, _, 0, 10 ^ 30, p,
        later_reach, by decide, by decide, hp, h1, Or.inl rfl, ht, fun _ hc => absurd hc (by simp),
        fun _ hc => absurd hc (by simp), h.1, h.2⟩

-- the higher price takes 252325 X and 747437 Y instead of 499851 each
example : Opening Demo.chain Demo.key (-10) 10 (10 ^ 24 + 4187) (10 ^ 15) 499851 499851 ∧
    Opening Demo.chain Demo.key (-10) 10 1000247586500000000000000 (10 ^ 15) 252325 747437 :=
  ⟨halves_opening (by decide +kernel), later_opening (by decide +kernel)⟩

end OraiV3
