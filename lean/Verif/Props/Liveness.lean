import Verif.Lemmas.Liveness
import Verif.Props.Cap
import Verif.Props.Solvency

/-!
# C33 and C41: withdrawals and claims cannot be blocked

C33 and C41 are false as stated: see `C33_false` and `C41_false`.  The cause is the wrong pool liquidity after a swap that ends in one of the two ways
`RegularEnd` excludes; without such swaps every owner can withdraw.
-/

namespace OraiV3

/-- Whoever has more than `i` positions has one with that number. -/
theorem position_exists {s : Store} (h : PosInv s) {who : Bytes} {i : Nat} (hi : i < getPositionLength s who) :
    i < U32 ∧ ∃ pos, s.positions.get? (positionKey who i) = some pos := by
  have hw : i < U32 := by have := h.len who; omega
  exact ⟨hw, (h.iff who i hw).2 hi⟩

/-- A single position is owed no more than its pool owes. -/
theorem worth_le_owes {s : Store} (hs : Struct s) {id : Bytes} {pos : Position} {pool : Pool}
    (hpos : s.positions.get? id = some pos) (hp : s.pools.get? pos.poolKey.key = some pool) (x : Bool) :
    pos.principal x pool.sqrtPrice + (accrued s x pos : ℚ) / 10 ^ 34 ≤
      owes s [pos.poolKey] (if x then pos.poolKey.tokenX else pos.poolKey.tokenY) := by
  have hk := (hs.positions _ _ hpos).kwf
  have hne : pos.poolKey.tokenX ≠ pos.poolKey.tokenY := swap_tokens_ne hs hk hp true
  have hmem : pos ∈ positionsOf s pos.poolKey := mem_positionsOf.2 ⟨(mem_vals _ _).2 ⟨_, hpos⟩, rfl⟩
  have h1 := le_sumQ hmem (worth s x) (fun q _ => worth_nonneg s x q)
  have h2 : worth s x pos = pos.principal x pool.sqrtPrice + (accrued s x pos : ℚ) / 10 ^ 34 := by
    unfold worth; rw [hp]
  have h3 : poolOwes s pos.poolKey x = sumQ s pos.poolKey (worth s x) + pool.proto x := by
    unfold poolOwes; rw [hp]
  have h4 : (0 : ℚ) ≤ pool.proto x := Nat.cast_nonneg _
  have h5 : owes s [pos.poolKey] (if x then pos.poolKey.tokenX else pos.poolKey.tokenY) = poolOwes s pos.poolKey x := by
    cases x
    · simp [owes, hne]
    · simp [owes, Ne.symm hne]
  rw [h5, h3]
  linarith

/-- In every state: the owner can remove a position, provided the liquidity of its pool is right and the amounts to be paid (the
position's tokens, rounded down, and its fees) fit into 128 bits. -/
theorem C33_accepted_partial {c : Chain} {s : Store} (hr : Reach c s) {env : Env} {info : Info} {i : Nat}
    (hi : i < getPositionLength s info.sender)
    (hdr : ∀ pos, s.positions.get? (positionKey info.sender i) = some pos → drift s pos.poolKey = 0)
    (hfit : ∀ pos pool, s.positions.get? (positionKey info.sender i) = some pos → s.pools.get? pos.poolKey.key = some pool →
      ∀ x (m : Nat), (m : ℚ) ≤ pos.principal x pool.sqrtPrice → m + accrued s x pos / 10 ^ 34 < 2 ^ 128) :
    ∃ s' out, execute c env info (.removePosition i) s = .ok (s', out) := by
  have hm := hr.mreach
  obtain ⟨hw, pos, hpos⟩ := position_exists hm.posInv hi
  have hok := hm.struct.positions _ _ hpos
  obtain ⟨pool, hp⟩ := hok.pool
  have hmem : pos ∈ positionsOf s pos.poolKey := mem_positionsOf.2 ⟨(mem_vals _ _).2 ⟨_, hpos⟩, rfl⟩
  obtain ⟨s', out, h⟩ := removePosition_ok (c := c) (env := env) hm.struct hm.posInv hm.tickSum hm.bitInv hm.price hw hpos hp
    (fun h1 h2 => by
      rw [active_of (hdr pos hpos) hp]
      have := le_sumPositions hmem (fun p => if p.lower ≤ pool.tick ∧ pool.tick < p.upper then p.liquidity else 0)
      simpa [liquidityInRange, h1, h2] using this)
    (hfit pos pool hpos hp)
  exact ⟨s', out, execute_ok.2 ⟨hw, h⟩⟩

/-- Claims and removals send the tokens of the position's pool only. -/
theorem payout_tokens {c : Chain} {s s' : Store} {env : Env} {info : Info} {i : Nat} {out : List OutMsg} {msg : Msg} (hr : Reach c s)
    (hm : msg = .claimFee i ∨ msg = .removePosition i) (he : execute c env info msg s = .ok (s', out)) {T : Bytes → Prop}
    (hT : ∀ pos, s.positions.get? (positionKey info.sender i) = some pos → T pos.poolKey.tokenX ∧ T pos.poolKey.tokenY) :
    ∀ m ∈ out, ∀ t, m.token? = some t → T t := by
  have key : ∀ d z, T d → ∀ m ∈ assetTransfer c d z info, ∀ t, m.token? = some t → T t := by
    intro d z hd m hm t ht
    unfold assetTransfer at hm
    split at hm
    · cases hm
    · split at hm <;> rw [List.mem_singleton] at hm <;> subst hm <;> simp only [OutMsg.token?, Option.some.injEq] at ht <;> exact ht ▸ hd
  have hmr := hr.mreach
  have hw := (execute_ok.1 he).1
  have h := (execute_ok.1 he).2
  rcases hm with rfl | rfl <;> simp only [dispatch] at h
  · obtain ⟨pos, _, _, _, hpos, _, _, _, _, _, _, rfl, _⟩ := claim_owes hmr.struct h
    intro m hm
    rcases List.mem_append.1 hm with hm | hm
    · exact key _ _ (hT pos hpos).1 m hm
    · exact key _ _ (hT pos hpos).2 m hm
  · obtain ⟨pos, _, _, _, _, hpos, _, _, _, _, rfl, _⟩ := remove_owes hmr.struct hmr.posInv hmr.price hw h
    intro m hm
    rcases List.mem_append.1 hm with hm | hm
    · exact key _ _ (hT pos hpos).1 m hm
    · exact key _ _ (hT pos hpos).2 m hm

/-- In every history of calls by all users, with any other transactions in between, whose swaps in pools that trade the tokens of the
position end regularly: whenever the contract holds less than `2^128` of the two tokens, the owner can remove the position and is paid. -/
theorem C33_paid_partial {c : Chain} {T : Bytes → Prop} {w : World} {n : Nat} (h : History c T w n) (hn : n < 10 ^ 14)
    {env : Env} {who : Bytes} {i : Nat}
    (hT : ∀ pos, w.store.positions.get? (positionKey who i) = some pos → T pos.poolKey.tokenX ∧ T pos.poolKey.tokenY)
    (hbal : ∀ pos, w.store.positions.get? (positionKey who i) = some pos →
      ∀ t ∈ [pos.poolKey.tokenX, pos.poolKey.tokenY], w.ledger.bal (tokenAsset c t) c.self < 2 ^ 128)
    (hi : i < getPositionLength w.store who) : ∃ w', w.tx c env ⟨who, []⟩ (.removePosition i) = .ok w' := by
  have hm := h.regular.reach.mreach
  have : ∃ s' out, execute c env ⟨who, []⟩ (.removePosition i) w.store = .ok (s', out) := by
    refine C33_accepted_partial h.regular.reach hi
      (fun pos hpos => h.regular.active _ (hm.struct.positions _ _ hpos).kwf (.inl (hT pos hpos).1)) (fun pos pool hpos hp x m hle => ?_)
    have hk := (hm.struct.positions _ _ hpos).kwf
    have h1 := worth_le_owes hm.struct hpos hp x
    refine Nat.lt_of_le_of_lt (C04_whole_units_partial h hn (ks := [pos.poolKey]) (by simp) (by simpa using hk)
      (t := if x then pos.poolKey.tokenX else pos.poolKey.tokenY) (by cases x; exacts [(hT pos hpos).2, (hT pos hpos).1]) ?_) (hbal pos hpos _ (by cases x <;> simp))
    refine le_trans ?_ h1
    push_cast
    have := floor_le_q (accrued w.store x pos)
    push_cast at this
    linarith
  obtain ⟨s', out, he⟩ := this
  exact C04_payout_partial h hn rfl he (payout_tokens h.regular.reach (.inr rfl) he hT)

/-- In every history (regular or not): the owner of a position can claim its fees at any time, provided they fit into 128 bits. -/
theorem C41_accepted {c : Chain} {s : Store} (hr : Reach c s) {env : Env} {info : Info} {i : Nat}
    (hi : i < getPositionLength s info.sender)
    (hfit : ∀ pos, s.positions.get? (positionKey info.sender i) = some pos → ∀ x, accrued s x pos / 10 ^ 34 < 2 ^ 128) :
    ∃ s' out, execute c env info (.claimFee i) s = .ok (s', out) := by
  have hm := hr.mreach
  obtain ⟨hw, pos, hpos⟩ := position_exists hm.posInv hi
  obtain ⟨s', out, h⟩ := claimFee_ok (c := c) (env := env) hm.struct hm.posInv hm.tickSum hm.cap hm.price hw hpos (hfit pos hpos)
  exact ⟨s', out, execute_ok.2 ⟨hw, h⟩⟩

/-- In every such history, whenever the contract holds less than `2^128` of the two tokens, the owner can claim and
is paid. -/
theorem C41_paid_partial {c : Chain} {T : Bytes → Prop} {w : World} {n : Nat} (h : History c T w n) (hn : n < 10 ^ 14)
    {env : Env} {who : Bytes} {i : Nat}
    (hT : ∀ pos, w.store.positions.get? (positionKey who i) = some pos → T pos.poolKey.tokenX ∧ T pos.poolKey.tokenY)
    (hbal : ∀ pos, w.store.positions.get? (positionKey who i) = some pos →
      ∀ t ∈ [pos.poolKey.tokenX, pos.poolKey.tokenY], w.ledger.bal (tokenAsset c t) c.self < 2 ^ 128)
    (hi : i < getPositionLength w.store who) : ∃ w', w.tx c env ⟨who, []⟩ (.claimFee i) = .ok w' := by
  have hm := h.regular.reach.mreach
  have : ∃ s' out, execute c env ⟨who, []⟩ (.claimFee i) w.store = .ok (s', out) := by
    refine C41_accepted h.regular.reach hi (fun pos hpos x => ?_)
    have hok := hm.struct.positions _ _ hpos
    obtain ⟨pool, hp⟩ := hok.pool
    have h1 := worth_le_owes hm.struct hpos hp x
    refine Nat.lt_of_le_of_lt (C04_whole_units_partial h hn (ks := [pos.poolKey]) (by simp) (by simpa using hok.kwf)
      (t := if x then pos.poolKey.tokenX else pos.poolKey.tokenY) (by cases x; exacts [(hT pos hpos).2, (hT pos hpos).1]) ?_) (hbal pos hpos _ (by cases x <;> simp))
    refine le_trans ?_ h1
    have := floor_le_q (accrued w.store x pos)
    have := principal_nonneg pos x pool.sqrtPrice
    push_cast at *
    linarith
  obtain ⟨s', out, he⟩ := this
  exact C04_payout_partial h hn rfl he (payout_tokens h.regular.reach (.inl rfl) he hT)

/-- The hypotheses of the theorems above hold after the swaps of `Demo.crossing`. -/
example : ∃ n, n < 10 ^ 14 ∧ History Demo.chain (fun _ => True) (Demo.world Demo.chain Demo.crossing) n ∧
    ∀ who ∈ [Demo.alice, Demo.bob], 0 < getPositionLength (Demo.world Demo.chain Demo.crossing).store who ∧
      (match (Demo.world Demo.chain Demo.crossing).store.positions.get? (positionKey who 0) with
      | some pos => decide (∀ t ∈ [pos.poolKey.tokenX, pos.poolKey.tokenY],
          (Demo.world Demo.chain Demo.crossing).ledger.bal (tokenAsset Demo.chain t) Demo.chain.self < 2 ^ 128)
      | none => false) = true :=
  ⟨_, by decide +kernel, Demo.world_history (by decide +kernel) (n := (Demo.countW Demo.chain Demo.crossing Demo.fresh).getD 0)
    (by decide +kernel), by decide +kernel⟩

/-- C33 as stated is false.  Bob has opened a position that starts at tick 10; Carol's swap stops exactly at the price of
tick 10.  The contract now takes tick 10 to be reached but has not added Bob's liquidity, and Bob cannot withdraw. -/
theorem C33_false : ∃ s, Reach Demo.chain s ∧ 0 < getPositionLength s Demo.bob ∧
    errorOf (execute Demo.chain Demo.env (Demo.by_ Demo.bob) (.removePosition 0) s) = some .updateLiquidityMinusOverflow := by
  have hw : Demo.works Demo.chain Demo.stuck = true := by decide +kernel
  exact ⟨_, Demo.state_reach hw, by decide +kernel, by decide +kernel⟩

namespace Demo

/-- As `feeTheft`, without Alice's second deposit: Bob opens a position that starts at tick 10, Carol's swap stops exactly there
and a second swap goes on to tick 20.  The contract credits Bob's position with fees nobody paid. -/
def unpaid : List (Info × Msg) :=
  setup ++ [(by_ bob, .createPosition key 10 20 (10 ^ 15) 0 (10 ^ 30)),
   (by_ carol, .swap key false 499 false (sqrtPriceAt 10)),
   (by_ carol, .swap key false 400 false (sqrtPriceAt 20))]

end Demo

/-- C41 as stated is false: nothing Bob is credited with comes near 128 bits, but the contract does not have that much, and
every claim of Bob's fails.  Alice, who opened the pool's first position, can still claim. -/
theorem C41_false : ∃ ms w, Demo.runW Demo.chain ms Demo.fresh = .ok w ∧ WorldReach Demo.chain w ∧
    0 < getPositionLength w.store Demo.bob ∧
    (∀ x, ∀ pos ∈ w.store.positions.get? (positionKey Demo.bob 0), accrued w.store x pos / 10 ^ 34 < 10 ^ 5) ∧
    errorOf (w.tx Demo.chain Demo.env (Demo.by_ Demo.bob) (.claimFee 0)) = some .transferFailed ∧
    (w.tx Demo.chain Demo.env (Demo.by_ Demo.alice) (.claimFee 0)).isOk = true := by
  have h : Demo.worksW Demo.chain Demo.unpaid = true := by decide +kernel
  exact ⟨Demo.unpaid, _, Demo.world_run h, Demo.world_reach h, by decide +kernel, by decide +kernel, by decide +kernel,
    by decide +kernel⟩

end OraiV3
