import Verif.Lemmas.Quote
import Verif.Props.Swap
import Verif.Props.Cap
import Verif.Query

/-!
# Quotes: C11 (one swap) and C12 (routes)

Queries get no write access to the storage, so that they change nothing holds by their type.
-/

namespace OraiV3

theorem fundsDelta_none {c : Chain} {info : Info} {t : Bytes} (hu : ∀ x ∈ info.funds, x.denom ≠ t) (h : Bytes) :
    fundsDelta c info.sender info.funds (tokenAsset c t) h = 0 := by
  cases hc : c.isAddr t
  · have e : tokenAsset c t = .native t := by simp [tokenAsset, hc]
    rw [e, fundsDelta_native]
    have : info.funds.filter (fun x => x.denom = t) = [] := by
      rw [List.filter_eq_nil_iff]
      intro x hx
      simpa using hu x hx
    simp [attached, this]
  · have e : tokenAsset c t = .cw20 t := by simp [tokenAsset, hc]
    rw [e, fundsDelta_cw20]

/-! ## C11: a quote is what the swap does -/

/-- A successful swap transaction is quoted beforehand: the sender pays the quoted input and receives the
quoted output, the pool ends at the quoted price, and the quoted ticks are those the swap stores. -/
theorem C11_swap_as_quoted {c : Chain} {w w' : World} {env : Env} {info : Info} {k : PoolKey} {d : Bool} {amount limit : Nat}
    {b : Bool} (hr : Reach c w.store) (hne : info.sender ≠ c.self) (hn : (info.funds.map Coin.denom).Nodup)
    (hu : ∀ x ∈ info.funds, x.denom ≠ tokenOut k d)
    (h : w.tx c env info (.swap k d amount b limit) = .ok w') :
    ∃ q, queryQuote w.store env k d amount b limit = .ok q ∧
      w'.ledger.bal (tokenAsset c (tokenIn k d)) info.sender + q.amountIn =
        w.ledger.bal (tokenAsset c (tokenIn k d)) info.sender ∧
      w'.ledger.bal (tokenAsset c (tokenOut k d)) info.sender =
        w.ledger.bal (tokenAsset c (tokenOut k d)) info.sender + q.amountOut ∧
      (∃ p, w'.store.pools.get? k.key = some p ∧ p.sqrtPrice = q.targetPrice) ∧
      ∀ id, (w'.store.ticks.get? id = w.store.ticks.get? id ∧ ∀ t ∈ q.ticks, id ≠ tickKey k t.index) ∨
        ∃ t ∈ q.ticks, id = tickKey k t.index ∧ w'.store.ticks.get? id = some t := by
  obtain ⟨out, e1, -⟩ := tx_inv h
  obtain ⟨-, e1⟩ := execute_ok.1 e1
  simp only [dispatch] at e1
  obtain ⟨res', e2⟩ := swap_inv e1
  obtain ⟨s1, _, e3, e4, e5, _, _⟩ := swapInternal_inv e2
  obtain ⟨res, pool, m1, hk, hp, h1, hp', h2, h3⟩ := swap_tx h
  have e : res' = res := by rw [h1] at e3; exact (ok_inj.1 e3).symm
  subst e
  have hm := hr.mreach
  have hok := hm.price k pool hk hp
  obtain ⟨z1, z2⟩ := swap_positive hm.struct hm.bitInv hk hp hok h1
  have hnt := swap_tokens_ne hm.struct hk hp d
  have h4 := h3 (tokenAsset c (tokenIn k d)) info.sender
  have h5 := h3 (tokenAsset c (tokenOut k d)) info.sender
  rw [outDelta_append, assetTransfer_sender hne, if_neg (fun e => hnt (tokenAsset_inj e))] at h4
  rw [outDelta_append, assetTransfer_sender hne, if_pos rfl,
    assetTransferFrom_other h2 (fun e => hnt (tokenAsset_inj e).symm)] at h5
  have h6 := charge_exact hne hn z1 h2
  have h7 := fundsDelta_none (c := c) hu info.sender
  refine ⟨⟨res'.amountIn, res'.amountOut, res'.pool.sqrtPrice, res'.ticks⟩, ?_, ?_, ?_, ⟨_, hp', rfl⟩, ?_⟩
  · unfold queryQuote
    rw [h1]; rfl
  · show _ + res'.amountIn = _
    omega
  · show _ = _ + res'.amountOut
    omega
  · have : w'.store.ticks = s1.ticks := by
      have := congrArg Store.ticks e5
      exact this
    rw [this]
    exact saveTicks_view e4

/-- The other direction, for the contract call itself: when the quote fails, the swap fails with the same
error; when the quote succeeds, the swap succeeds and takes and pays the quoted amounts, unless it fails
because the coins attached do not cover the quoted input. -/
theorem C11_quote_as_swapped {c : Chain} {s : Store} (hr : Reach c s) {env : Env} {info : Info} {k : PoolKey} {d : Bool}
    {amount limit : Nat} {b : Bool} (hw : (Msg.swap k d amount b limit).wf) :
    (∀ e, queryQuote s env k d amount b limit = .error e →
      execute c env info (.swap k d amount b limit) s = .error e) ∧
    ∀ q, queryQuote s env k d amount b limit = .ok q →
      (c.isAddr (tokenIn k d) = false ∧ execute c env info (.swap k d amount b limit) s = .error .invalidFunds ∧
        ∀ x ∈ info.funds, info.funds.find? (fun y => y.denom = tokenIn k d) = some x → x.amount < q.amountIn) ∨
      ∃ s' charge, execute c env info (.swap k d amount b limit) s =
        .ok (s', charge ++ assetTransfer c (tokenOut k d) q.amountOut info) ∧
        assetTransferFrom c (tokenIn k d) q.amountIn info = .ok charge := by
  have hx : execute c env info (.swap k d amount b limit) s = swap c s env info k d amount b limit := by
    unfold execute
    rw [if_pos hw]
    rfl
  rw [hx]
  constructor
  · intro e he
    unfold queryQuote at he
    cases hc : calculateSwap s env.millis k d amount b limit with
    | ok r => rw [hc] at he; cases he
    | error e' =>
      rw [hc, error_bind] at he
      simp only [Except.error.injEq] at he
      subst he
      unfold swap swapInternal
      rw [hc]; rfl
  · intro q hq
    unfold queryQuote at hq
    rw [bind_ok] at hq
    obtain ⟨r, hc, hq⟩ := hq
    rw [pure_ok] at hq
    subst hq
    have hcr := calculateSwap_crossed hr.mreach.struct hw.1 hc
    rcases swapInternal_of_calc (c := c) (info := info) hc (fun t ht => by
      obtain ⟨t0, h0, _⟩ := hcr t ht; exact ⟨t0, h0⟩) with ⟨e, he, h1⟩ | ⟨s', out, h1⟩
    · left
      have h2 : swap c s env info k d amount b limit = .error e := by unfold swap; rw [h1]; rfl
      rw [h2]
      change assetTransferFrom c (tokenIn k d) r.amountIn info = _ at he
      unfold assetTransferFrom at he
      split at he
      · simp at he
      split at he
      · simp at he
      rename_i hA
      refine ⟨by simpa using hA, ?_, ?_⟩
      · split at he
        · split at he
          · split at he <;> simp at he
          · simp only [Except.error.injEq] at he; rw [← he]
        · simp only [Except.error.injEq] at he; rw [← he]
      · intro x _ hx
        rw [hx] at he
        simp only at he
        split at he
        · split at he <;> simp at he
        · show x.amount < r.amountIn
          omega
    · right
      obtain ⟨s1, m1, _, _, _, h4, h5⟩ := swapInternal_inv h1
      refine ⟨s', m1, ?_, h4⟩
      unfold swap
      rw [h1, ok_bind]
      show Except.ok (s', out) = _
      simp only at h5
      rw [h5]
      rfl

/-- Bob is quoted 100 for 98 and gets just that. -/
example : (do
    let s := Demo.state Demo.chain Demo.setup
    let q ← queryQuote s Demo.env Demo.key true 100 true MIN_SQRT_PRICE
    let w ← World.tx Demo.chain ⟨s, Demo.wealthy⟩ Demo.env (Demo.by_ Demo.bob) (.swap Demo.key true 100 true MIN_SQRT_PRICE)
    pure (q.amountIn, q.amountOut, w.ledger.bal (.cw20 [97]) Demo.bob, w.ledger.bal (.cw20 [98]) Demo.bob) :
      M (Nat × Nat × Nat × Nat)) = .ok (100, 98, 10 ^ 40 - 100, 10 ^ 40 + 98) := by decide +kernel

/-! ## C12: a route quote is what the route pays -/

/-- A successful route through different pools pays the sender exactly the quoted amount of the token the
route ends with, provided the route does not use that token before and the sender attaches none of it. -/
theorem C12_route_as_quoted {c : Chain} {w w' : World} {env : Env} {info : Info} {a e sl : Nat} {hops : List Hop} {last : Hop}
    (hr : Reach c w.store) (hne : info.sender ≠ c.self)
    (hn : ((hops ++ [last]).map Hop.poolKey).Nodup)
    (ht : ∀ h ∈ hops, h.poolKey.tokenX ≠ tokenOut last.poolKey last.xToY ∧ h.poolKey.tokenY ≠ tokenOut last.poolKey last.xToY)
    (hu : ∀ x ∈ info.funds, x.denom ≠ tokenOut last.poolKey last.xToY)
    (h : w.tx c env info (.swapRoute a e sl (hops ++ [last])) = .ok w') :
    ∃ q, queryQuoteRoute w.store env a (hops ++ [last]) = .ok q ∧
      w'.ledger.bal (tokenAsset c (tokenOut last.poolKey last.xToY)) info.sender =
        w.ledger.bal (tokenAsset c (tokenOut last.poolKey last.xToY)) info.sender + q := by
  obtain ⟨out, h1, h2⟩ := tx_inv h
  obtain ⟨hw, h1⟩ := execute_ok.1 h1
  simp only [dispatch] at h1
  obtain ⟨fin, m, h3, _, _⟩ := swapRoute_inv h1
  have hws := hw.2.2.2
  refine ⟨fin, route_of_swap hws hn ⟨rfl, fun _ _ => .refl _ _⟩ h3, ?_⟩
  have key : ∀ (hs : List Hop), (∀ h ∈ hs, h.poolKey.tokenX ≠ tokenOut last.poolKey last.xToY ∧
        h.poolKey.tokenY ≠ tokenOut last.poolKey last.xToY) → (∀ h ∈ hs ++ [last], h.poolKey.wf) →
      ∀ (s : Store) (a : Nat) (ms : List OutMsg), Struct s → a < U128 →
      swapRouteInternal c info env.millis (hs ++ [last]) s a ms = .ok (w'.store, fin, out) →
      outDelta c out (tokenAsset c (tokenOut last.poolKey last.xToY)) info.sender =
        outDelta c ms (tokenAsset c (tokenOut last.poolKey last.xToY)) info.sender + fin := by
    intro hs
    induction hs with
    | nil =>
      intro _ hws s a ms hst _ h
      simp only [List.nil_append, swapRouteInternal, bind_ok, ok_inj, Prod.mk.injEq] at h
      obtain ⟨x, hx, _, h5, h6⟩ := h
      obtain ⟨pool, hp, _⟩ := swapInternal_view hst (hws last (by simp)) hx
      obtain ⟨_, m1, _, _, _, h8, h7⟩ := swapInternal_inv hx
      have hnt := swap_tokens_ne hst (hws last (by simp)) hp last.xToY
      rw [← h6, h7, outDelta_append, outDelta_append]
      have e1 := assetTransferFrom_other h8 (a := tokenAsset c (tokenOut last.poolKey last.xToY))
        (fun e => hnt (tokenAsset_inj e).symm) info.sender
      have e2 := assetTransfer_sender (c := c) (d := tokenOut last.poolKey last.xToY) (n := x.2.2.amountOut) hne
        (tokenAsset c (tokenOut last.poolKey last.xToY))
      rw [if_pos rfl] at e2
      rw [e1]
      change _ + (_ + outDelta c (assetTransfer c (tokenOut last.poolKey last.xToY) _ info) _ _) = _
      rw [e2, h5]
      omega
    | cons hd tl ih =>
      intro ht hws s a ms hst ha h
      simp only [List.cons_append, swapRouteInternal, bind_ok] at h
      obtain ⟨x, hx, h⟩ := h
      have hst' : Struct x.1 := hst.micro (.swap (c := c) (hws hd (by simp)) ha
        (by unfold hopLimit; split <;> decide) hx)
      have := ih (fun h hm => ht h (by simp [hm])) (fun h hm => hws h (by simp at hm ⊢; tauto)) _ _ _ hst' (swapInternal_out_lt hx) h
      rw [this, outDelta_append]
      obtain ⟨_, m1, _, _, _, h8, h7⟩ := swapInternal_inv hx
      obtain ⟨t1, t2⟩ := ht hd (by simp)
      have e1 := assetTransferFrom_other h8 (a := tokenAsset c (tokenOut last.poolKey last.xToY))
        (fun e => by have := tokenAsset_inj e; split at this <;> simp_all) info.sender
      have e2 := assetTransfer_sender (c := c) (d := tokenOut hd.poolKey hd.xToY) (n := x.2.2.amountOut) hne
        (tokenAsset c (tokenOut last.poolKey last.xToY))
      rw [if_neg (fun e => by
        have := tokenAsset_inj e
        unfold tokenOut at this
        unfold tokenOut at t1 t2
        split at this <;> simp_all)] at e2
      rw [h7, outDelta_append, e1]
      change _ + (_ + outDelta c (assetTransfer c (tokenOut hd.poolKey hd.xToY) _ info) _ _) + _ = _
      rw [e2]
      omega
  have h4 := key hops ht hws _ _ _ hr.mreach.struct hw.1 h3
  have h5 := h2 (tokenAsset c (tokenOut last.poolKey last.xToY)) info.sender
  rw [h4, fundsDelta_none hu] at h5
  simp only [outDelta, List.map_nil, List.sum_nil] at h5
  omega

/-- With cw20 tokens the call succeeds whenever the quote reaches the minimum the caller asks for, that is
`expected · (100% − slippage)` rounded up, and its last payment is the quoted amount. -/
theorem C12_quoted_route_accepted {c : Chain} {s : Store} (hr : Reach c s) (hc : ∀ t, c.isAddr t = true) {env : Env}
    {info : Info} {a e sl : Nat} {hops : List Hop} {last : Hop} (hw : (Msg.swapRoute a e sl (hops ++ [last])).wf)
    (hn : ((hops ++ [last]).map Hop.poolKey).Nodup) {q : Nat}
    (hq : queryQuoteRoute s env a (hops ++ [last]) = .ok q) (hsl : sl ≤ 10 ^ 12)
    (hmin : e * (10 ^ 12 - sl) ≤ q * 10 ^ 12) :
    ∃ s' rest, execute c env info (.swapRoute a e sl (hops ++ [last])) s =
      .ok (s', rest ++ assetTransfer c (tokenOut last.poolKey last.xToY) q info) := by
  obtain ⟨s', out, h1⟩ := swap_of_route (c := c) (info := info) (m := []) hr.mreach.struct hc hw.2.2.2 hn
    ⟨rfl, fun _ _ => .refl _ _⟩ hq
  have hm : (e * (PCT - sl) + (PCT - 1)) / PCT ≤ q := by
    rw [← Nat.lt_succ_iff, Nat.div_lt_iff_lt_mul (by decide), Nat.succ_mul]
    have : PCT = 10 ^ 12 := rfl
    rw [this]
    omega
  have hq128 : q < U128 := by
    have h2 := h1
    clear h1 hm hmin hq hn
    have key : ∀ (hs : List Hop) (s : Store) (a : Nat) (ms : List OutMsg),
        swapRouteInternal c info env.millis (hs ++ [last]) s a ms = .ok (s', q, out) → q < U128 := by
      intro hs
      induction hs with
      | nil =>
        intro s a ms h
        simp only [List.nil_append, swapRouteInternal, bind_ok, ok_inj, Prod.mk.injEq] at h
        obtain ⟨x, hx, _, h5, _⟩ := h
        rw [← h5]
        exact swapInternal_out_lt hx
      | cons hd tl ih =>
        intro s a ms h
        simp only [List.cons_append, swapRouteInternal, bind_ok] at h
        obtain ⟨x, _, h⟩ := h
        exact ih _ _ _ h
    exact key _ _ _ _ h2
  have hmo : calculateMinAmountOut e sl = .ok ((e * (PCT - sl) + (PCT - 1)) / PCT) := by
    unfold calculateMinAmountOut
    have h2 : subP PCT sl = .ok (PCT - sl) := subP_ok.2 ⟨hsl, rfl⟩
    rw [h2, ok_bind]
    exact cast128_ok.2 ⟨by omega, rfl⟩
  have hx : execute c env info (.swapRoute a e sl (hops ++ [last])) s = .ok (s', out) := by
    unfold execute
    rw [if_pos hw]
    show swapRoute c s env info a e sl (hops ++ [last]) = _
    unfold swapRoute
    rw [h1, ok_bind, hmo, ok_bind]
    simp only
    rw [if_neg (by omega)]
    rfl
  have key : ∀ (hs : List Hop) (s : Store) (a : Nat) (ms : List OutMsg),
      swapRouteInternal c info env.millis (hs ++ [last]) s a ms = .ok (s', q, out) →
      ∃ rest, out = rest ++ assetTransfer c (tokenOut last.poolKey last.xToY) q info := by
    intro hs
    induction hs with
    | nil =>
      intro s a ms h
      simp only [List.nil_append, swapRouteInternal, bind_ok, ok_inj, Prod.mk.injEq] at h
      obtain ⟨x, hx, _, h5, h6⟩ := h
      obtain ⟨_, m1, _, _, _, _, h7⟩ := swapInternal_inv hx
      exact ⟨ms ++ m1, by rw [← h6, h7, h5, List.append_assoc]; rfl⟩
    | cons hd tl ih =>
      intro s a ms h
      simp only [List.cons_append, swapRouteInternal, bind_ok] at h
      obtain ⟨x, _, h⟩ := h
      exact ih _ _ _ h
  obtain ⟨rest, hrest⟩ := key _ _ _ _ h1
  exact ⟨s', rest, by rw [hx, hrest]⟩

namespace Demo

/-- A second pool, for the tokens `[98]` and `[99]`. -/
def keyBC : PoolKey := ⟨[98], [99], tier⟩

/-- Two pools with wide positions. -/
def twoPools : List (Info × Msg) :=
  [(by_ alice, .addFeeTier tier),
   (by_ alice, .createPool [97] [98] tier (10 ^ 24) 0),
   (by_ alice, .createPool [98] [99] tier (10 ^ 24) 0),
   (by_ alice, .createPosition key (-10000) 10000 (10 ^ 12) 0 (10 ^ 30)),
   (by_ alice, .createPosition keyBC (-10000) 10000 (10 ^ 12) 0 (10 ^ 30))]

end Demo

/-- A route through both pools, quoted and then swapped. -/
example : (do
    let s := Demo.state Demo.chain Demo.twoPools
    let q ← queryQuoteRoute s Demo.env 100000 [⟨Demo.key, true⟩, ⟨Demo.keyBC, true⟩]
    let w ← World.tx Demo.chain ⟨s, Demo.wealthy⟩ Demo.env (Demo.by_ Demo.bob)
      (.swapRoute 100000 q 0 [⟨Demo.key, true⟩, ⟨Demo.keyBC, true⟩])
    pure (q, w.ledger.bal (.cw20 [97]) Demo.bob, w.ledger.bal (.cw20 [98]) Demo.bob, w.ledger.bal (.cw20 [99]) Demo.bob) :
      M (Nat × Nat × Nat × Nat)) = .ok (81878, 10 ^ 40 - 100000, 10 ^ 40, 10 ^ 40 + 81878) := by decide +kernel

/-- Without the condition that the pools differ the quote is wrong: a route that visits a pool twice is
quoted more than it pays (here 81878 instead of 68294, so that even a tolerance of 10% makes the call fail), because `QuoteRoute` computes every hop on the unchanged storage. -/
theorem C12_same_pool_false : ∃ s q, Reach Demo.chain s ∧
    queryQuoteRoute s Demo.env 100000 [⟨Demo.key, true⟩, ⟨Demo.key, true⟩] = .ok q ∧
    (swapRouteInternal Demo.chain (Demo.by_ Demo.bob) Demo.env.millis [⟨Demo.key, true⟩, ⟨Demo.key, true⟩] s 100000 []).map
      (fun r => r.2.1) = .ok 68294 ∧ 68294 < q ∧
    errorOf (execute Demo.chain Demo.env (Demo.by_ Demo.bob) (.swapRoute 100000 q (10 ^ 11) [⟨Demo.key, true⟩, ⟨Demo.key, true⟩]) s) =
      some .amountUnderMinimumAmountOut := by
  refine ⟨Demo.state Demo.chain Demo.twoPools, 81878, Demo.state_reach (by decide +kernel), by decide +kernel,
    by decide +kernel, by decide, by decide +kernel⟩

end OraiV3
