import Verif.Props.Quote
import Verif.Props.Solvency

/-!
# C29: attached native funds

False as stated, in both respects: a coin attached to a call that needs none of it is kept
(`C29_zero_false`), and every hop of a route that takes a coin gives back all of the attached amount it does not
itself use, so that a route taking a coin twice pays the attached amount out twice (`C29_false`).
`C29_route_law` is the exact law for all routes; `C29_route_partial` the intended behaviour, which holds if no coin
is the input of two hops and only coins that are taken are attached.  For single swaps see `C07_exact_input` and
`C11_swap_as_quoted`, for deposits `C25_deposit`.
-/

namespace OraiV3

/-- The token a hop takes. -/
def Hop.tokenIn (h : Hop) : Bytes := OraiV3.tokenIn h.poolKey h.xToY
/-- The token a hop gives. -/
def Hop.tokenOut (h : Hop) : Bytes := OraiV3.tokenOut h.poolKey h.xToY

/-- Total of token `t` among pairs of a token and an amount. -/
def totalOf (t : Bytes) (l : List (Bytes × Nat)) : Nat := ((l.filter (fun x => x.1 = t)).map (·.2)).sum

/-- What is attached of a token (nothing if it is a cw20 token). -/
def attachedOf (c : Chain) (info : Info) (t : Bytes) : Nat :=
  if c.isAddr t then 0 else ((info.funds.filter (fun x => x.denom = t)).map Coin.amount).sum

theorem fundsDelta_sender_eq {c : Chain} {info : Info} (hne : info.sender ≠ c.self) (t : Bytes) :
    fundsDelta c info.sender info.funds (tokenAsset c t) info.sender = -(attachedOf c info t : Int) := by
  unfold attachedOf
  cases hc : c.isAddr t
  · have e : tokenAsset c t = .native t := by simp [tokenAsset, hc]
    rw [e, fundsDelta_native, if_neg hne, if_pos rfl]
    simp [attached]
  · have e : tokenAsset c t = .cw20 t := by simp [tokenAsset, hc]
    rw [e, fundsDelta_cw20]
    simp

theorem totalOf_cons (t : Bytes) (x : Bytes × Nat) (l : List (Bytes × Nat)) :
    totalOf t (x :: l) = (if x.1 = t then x.2 else 0) + totalOf t l := by
  unfold totalOf
  by_cases h : x.1 = t
  · simp [h]
  · simp [h]

/-- The messages of a route. -/
theorem route_delta {c : Chain} {info : Info} {now : Nat} (hne : info.sender ≠ c.self)
    (hu : (info.funds.map Coin.denom).Nodup) : ∀ {hops : List Hop} {s s' : Store} {a fin : Nat} {m out : List OutMsg},
    MReach c s → (∀ h ∈ hops, h.poolKey.wf) → a < U128 →
    swapRouteInternal c info now hops s a m = .ok (s', fin, out) →
    ∃ outs : List Nat, outs.length = hops.length ∧ (a :: outs).getLast? = some fin ∧
      ∀ t, outDelta c out (tokenAsset c t) info.sender =
        outDelta c m (tokenAsset c t) info.sender + totalOf t ((hops.map Hop.tokenOut).zip outs)
          - totalOf t ((hops.map Hop.tokenIn).zip (a :: outs))
          + (hops.map Hop.tokenIn).count t * (attachedOf c info t : Int)
  | [], s, s', a, fin, m, out, _, _, _, h => by
    simp only [swapRouteInternal, ok_inj, Prod.mk.injEq] at h
    obtain ⟨_, rfl, rfl⟩ := h
    exact ⟨[], rfl, rfl, fun t => by simp [totalOf]⟩
  | hh :: hops, s, s', a, fin, m, out, hm, hw, ha, h => by
    simp only [swapRouteInternal, bind_ok] at h
    obtain ⟨x, hx, h⟩ := h
    have hk := hw hh (by simp)
    have hm' : MReach c x.1 := .step hm (.swap (c := c) hk ha (by unfold hopLimit; split <;> decide) hx)
    obtain ⟨outs, e1, e2, e3⟩ := route_delta hne hu hm' (fun h hh => hw h (by simp [hh])) (swapInternal_out_lt hx) h
    obtain ⟨pool, hp, _⟩ := swapInternal_view hm.struct hk hx
    obtain ⟨_, m1, hc, _, _, h8, h7⟩ := swapInternal_inv hx
    have hnt := swap_tokens_ne hm.struct hk hp hh.xToY
    have hok := hm.price _ pool hk hp
    have hin := swap_amount_in hm.struct hm.bitInv hk hp hok hc
    have hpos := (swap_positive hm.struct hm.bitInv hk hp hok hc).1
    refine ⟨x.2.2.amountOut :: outs, by simp [e1], by rw [List.getLast?_cons_cons]; exact e2, fun t => ?_⟩
    rw [e3 t, outDelta_append, h7, outDelta_append]
    change _ + (_ + outDelta c (assetTransfer c hh.tokenOut _ info) _ _) + _ - _ + _ = _
    change assetTransferFrom c hh.tokenIn _ info = _ at h8
    change hh.tokenIn ≠ hh.tokenOut at hnt
    rw [assetTransfer_sender hne]
    simp only [List.map_cons, List.zip_cons_cons, totalOf_cons, List.count_cons]
    have q1 : outDelta c m1 (tokenAsset c t) info.sender =
        if hh.tokenIn = t then (attachedOf c info t : Int) - a else 0 := by
      split
      · rename_i e
        rw [← e]
        have := charge_exact hne hu hpos h8
        rw [fundsDelta_sender_eq hne] at this
        omega
      · rename_i e
        exact assetTransferFrom_other h8 (fun e' => e (tokenAsset_inj e').symm) _
    have q2 : (if tokenAsset c t = tokenAsset c hh.tokenOut then (x.2.2.amountOut : Int) else 0) =
        if hh.tokenOut = t then (x.2.2.amountOut : Int) else 0 := by
      by_cases e : hh.tokenOut = t
      · rw [if_pos e, if_pos (by rw [e])]
      · rw [if_neg e, if_neg (fun e' => e (tokenAsset_inj e').symm)]
    rw [q1, q2]
    by_cases e : hh.tokenIn = t
    · have e' : ¬ hh.tokenOut = t := fun h => hnt (e.trans h.symm)
      simp only [if_pos e, if_neg e', beq_iff_eq]
      push_cast
      ring
    · simp only [if_neg e, beq_iff_eq]
      push_cast
      by_cases e' : hh.tokenOut = t
      · simp only [if_pos e']; ring
      · simp only [if_neg e']; ring

/-- What a route does to the balances of the sender: hop after hop the output of one becomes the input of the next, and
each hop that takes a coin gives back *all* that is attached of it beyond what this one hop needs. -/
theorem C29_route_law {c : Chain} {w w' : World} {env : Env} {info : Info} {a e sl : Nat} {hops : List Hop}
    (hr : Reach c w.store) (hne : info.sender ≠ c.self) (hn : (info.funds.map Coin.denom).Nodup)
    (h : w.tx c env info (.swapRoute a e sl hops) = .ok w') :
    ∃ outs : List Nat, outs.length = hops.length ∧
      ∀ t, w'.ledger.bal (tokenAsset c t) info.sender + totalOf t ((hops.map Hop.tokenIn).zip (a :: outs)) + attachedOf c info t =
        w.ledger.bal (tokenAsset c t) info.sender + totalOf t ((hops.map Hop.tokenOut).zip outs) +
          (hops.map Hop.tokenIn).count t * attachedOf c info t := by
  obtain ⟨out, h1, h2⟩ := tx_inv h
  obtain ⟨hw, h1⟩ := execute_ok.1 h1
  simp only [dispatch] at h1
  obtain ⟨fin, m, h3, _, _⟩ := swapRoute_inv h1
  obtain ⟨outs, e1, _, e3⟩ := route_delta hne hn hr.mreach hw.2.2.2 hw.1 h3
  refine ⟨outs, e1, fun t => ?_⟩
  have h4 := h2 (tokenAsset c t) info.sender
  rw [e3 t, fundsDelta_sender_eq hne] at h4
  have : outDelta c [] (tokenAsset c t) info.sender = 0 := rfl
  rw [this] at h4
  zify
  linarith

/-- The intended behaviour: if no token is the input of two hops, and only coins that some hop takes are
attached, the sender's balance of each token changes by exactly what the hops give and take, however much is attached. -/
theorem C29_route_partial {c : Chain} {w w' : World} {env : Env} {info : Info} {a e sl : Nat} {hops : List Hop}
    (hr : Reach c w.store) (hne : info.sender ≠ c.self) (hn : (info.funds.map Coin.denom).Nodup)
    (hi : (hops.map Hop.tokenIn).Nodup) (hf : ∀ x ∈ info.funds, ∃ h ∈ hops, x.denom = h.tokenIn)
    (h : w.tx c env info (.swapRoute a e sl hops) = .ok w') :
    ∃ outs : List Nat, outs.length = hops.length ∧
      ∀ t, w'.ledger.bal (tokenAsset c t) info.sender + totalOf t ((hops.map Hop.tokenIn).zip (a :: outs)) =
        w.ledger.bal (tokenAsset c t) info.sender + totalOf t ((hops.map Hop.tokenOut).zip outs) := by
  obtain ⟨outs, e1, e2⟩ := C29_route_law hr hne hn h
  refine ⟨outs, e1, fun t => ?_⟩
  have h2 := e2 t
  have h3 : (hops.map Hop.tokenIn).count t * attachedOf c info t = attachedOf c info t := by
    by_cases hm : t ∈ hops.map Hop.tokenIn
    · rw [List.count_eq_one_of_mem hi hm, Nat.one_mul]
    · have : attachedOf c info t = 0 := by
        unfold attachedOf
        split
        · rfl
        · have : info.funds.filter (fun x => x.denom = t) = [] := by
            rw [List.filter_eq_nil_iff]
            intro x hx he
            obtain ⟨h, hh, e⟩ := hf x hx
            exact hm (List.mem_map.2 ⟨h, hh, by rw [← e]; simpa using he⟩)
          simp [this]
      rw [this, Nat.mul_zero]
  omega

/-! ## Witnesses -/

namespace Demo

/-- `n` units of both coins. -/
def coins (n : Nat) : List Coin := [⟨[97], n⟩, ⟨[98], n⟩]

/-- A pool of two native coins with Alice's wide position. -/
def natives : List (Info × Msg) :=
  [(by_ alice, .addFeeTier tier),
   (by_ alice, .createPool [97] [98] tier (10 ^ 24) 0),
   (⟨alice, coins (10 ^ 6)⟩, .createPosition key (-10000) 10000 (10 ^ 12) 0 (10 ^ 30))]

/-- A second pool of native coins. -/
def nativesBC : List (Info × Msg) := natives ++
  [(by_ alice, .createPool [98] [99] tier (10 ^ 24) 0),
   (⟨alice, [⟨[98], 10 ^ 6⟩, ⟨[99], 10 ^ 6⟩]⟩, .createPosition keyBC (-10000) 10000 (10 ^ 12) 0 (10 ^ 30))]

/-- Forth and back and forth again. -/
def zigzag : List Hop := [⟨key, true⟩, ⟨key, false⟩, ⟨key, true⟩]

end Demo

/-- A route that takes the same coin twice.  Bob attaches 100000 units of both coins and swaps 1000 forth and back and
forth: afterwards Bob has 99000 units of X and 968 units of Y more than before, all of it Alice's, whose position is
no longer covered by what the contract holds. -/
theorem C29_false : ∃ w w' : World, WorldReach Demo.nativeChain w ∧
    w.tx Demo.nativeChain Demo.env ⟨Demo.bob, Demo.coins 100000⟩ (.swapRoute 1000 0 0 Demo.zigzag) = .ok w' ∧
    w'.ledger.bal (.native [97]) Demo.bob = w.ledger.bal (.native [97]) Demo.bob + 99000 ∧
    w'.ledger.bal (.native [98]) Demo.bob = w.ledger.bal (.native [98]) Demo.bob + 968 ∧
    (w'.ledger.bal (.native [97]) Demo.nativeChain.self : ℚ) + 99000 < owes w'.store [Demo.key] [97] := by
  have h : (match (Demo.world Demo.nativeChain Demo.natives).tx Demo.nativeChain Demo.env ⟨Demo.bob, Demo.coins 100000⟩
      (.swapRoute 1000 0 0 Demo.zigzag) with
    | .ok w' => decide (w'.ledger.bal (.native [97]) Demo.bob =
          (Demo.world Demo.nativeChain Demo.natives).ledger.bal (.native [97]) Demo.bob + 99000) &&
        decide (w'.ledger.bal (.native [98]) Demo.bob =
          (Demo.world Demo.nativeChain Demo.natives).ledger.bal (.native [98]) Demo.bob + 968) &&
        decide ((w'.ledger.bal (.native [97]) Demo.nativeChain.self : ℚ) + 99000 < owes w'.store [Demo.key] [97])
    | .error _ => false) = true := by decide +kernel
  cases hx : (Demo.world Demo.nativeChain Demo.natives).tx Demo.nativeChain Demo.env ⟨Demo.bob, Demo.coins 100000⟩
      (.swapRoute 1000 0 0 Demo.zigzag) with
  | error e => rw [hx] at h; cases h
  | ok w' =>
    rw [hx] at h
    simp only [Bool.and_eq_true, decide_eq_true_eq] at h
    exact ⟨_, w', Demo.world_reach (by decide +kernel), hx, h.1.1, h.1.2, h.2⟩

/-- A coin that is not needed.  Bob opens a position above the price, which takes 1489 units of X and none of Y, and loses
the 5000 units of Y attached to the call. -/
theorem C29_zero_false : ∃ w w' : World, WorldReach Demo.nativeChain w ∧
    w.tx Demo.nativeChain Demo.env ⟨Demo.bob, Demo.coins 5000⟩ (.createPosition Demo.key 100 200 (3 * 10 ^ 11) 0 (10 ^ 30)) = .ok w' ∧
    w'.ledger.bal (.native [97]) Demo.bob + 1489 = w.ledger.bal (.native [97]) Demo.bob ∧
    w'.ledger.bal (.native [98]) Demo.bob + 5000 = w.ledger.bal (.native [98]) Demo.bob ∧
    owes w'.store [Demo.key] [98] = owes w.store [Demo.key] [98] := by
  have h : (match (Demo.world Demo.nativeChain Demo.natives).tx Demo.nativeChain Demo.env ⟨Demo.bob, Demo.coins 5000⟩
      (.createPosition Demo.key 100 200 (3 * 10 ^ 11) 0 (10 ^ 30)) with
    | .ok w' => decide (w'.ledger.bal (.native [97]) Demo.bob + 1489 =
          (Demo.world Demo.nativeChain Demo.natives).ledger.bal (.native [97]) Demo.bob) &&
        decide (w'.ledger.bal (.native [98]) Demo.bob + 5000 =
          (Demo.world Demo.nativeChain Demo.natives).ledger.bal (.native [98]) Demo.bob) &&
        decide (owes w'.store [Demo.key] [98] = owes (Demo.world Demo.nativeChain Demo.natives).store [Demo.key] [98])
    | .error _ => false) = true := by decide +kernel
  cases hx : (Demo.world Demo.nativeChain Demo.natives).tx Demo.nativeChain Demo.env ⟨Demo.bob, Demo.coins 5000⟩
      (.createPosition Demo.key 100 200 (3 * 10 ^ 11) 0 (10 ^ 30)) with
  | error e => rw [hx] at h; cases h
  | ok w' =>
    rw [hx] at h
    simp only [Bool.and_eq_true, decide_eq_true_eq] at h
    exact ⟨_, w', Demo.world_reach (by decide +kernel), hx, h.1.1, h.1.2, h.2⟩

/-- The hypotheses of `C29_route_partial` are met by a route of two hops with both inputs attached; the result does not
depend on how much is attached. -/
example : ∀ n ∈ [100000, 200000], (do
    let w := Demo.world Demo.nativeChain Demo.nativesBC
    let w' ← w.tx Demo.nativeChain Demo.env ⟨Demo.bob, Demo.coins n⟩ (.swapRoute 1000 0 0 [⟨Demo.key, true⟩, ⟨Demo.keyBC, true⟩])
    pure ([[97], [98], [99]].map (fun t => (w'.ledger.bal (.native t) Demo.bob : Int) - w.ledger.bal (.native t) Demo.bob)) :
      M (List Int)) = .ok [-1000, 0, 978] := by decide +kernel

end OraiV3
