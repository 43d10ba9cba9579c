import Verif.Lemmas.Events
import Verif.Lemmas.OpenClose
import Verif.Lemmas.Active
import Verif.Props.Funds
import Verif.WorldExamples

/-!
# C61: the attributes of a response say what the call did

`respond` (`Verif/Events.lean`) is `execute` with the attributes of the response; `readNat`, `readInt` and `readDec` are
how somebody who sees only the texts understands them.  The attributes never say anything wrong.  They do not say
everything: `C61_pool_not_named` and `C61_receiver_not_named` are two calls each with the same event and different
effects.
-/

namespace OraiV3

/-- The token amount found under a key. -/
def amountOf (as : List Attr) (key : String) : Option Nat := (attr? as key).bind readNat
/-- The integer found under a key. -/
def intOf (as : List Attr) (key : String) : Option Int := (attr? as key).bind readInt
/-- The decimal fraction found under a key. -/
def decOf (as : List Attr) (key : String) : Option Rat := (attr? as key).bind readDec

/-- An event about a position: whose it is, what liquidity it has, its range and the price of its pool. -/
def Reports (as : List Attr) (who : Bytes) (pos : Position) (pool : Pool) : Prop :=
  attr? as "address" = some who ∧ decOf as "liquidity" = some ((pos.liquidity : Rat) / 10 ^ 6) ∧
  intOf as "lower_tick" = some pos.lower ∧ intOf as "upper_tick" = some pos.upper ∧
  decOf as "current_sqrt_price" = some ((pool.sqrtPrice : Rat) / 10 ^ 24)

/-- The response with attributes belongs to the call: it succeeds exactly when the call does, with the same new
storage and the same messages. -/
theorem C61_same_call (c : Chain) (env : Env) (info : Info) (msg : Msg) (s : Store) :
    (respond c env info msg s).map (fun r => (r.1, r.2.1)) = execute c env info msg s :=
  respond_drop c env info msg s

/-- The event names the action. -/
theorem C61_action {c : Chain} {env : Env} {info : Info} {msg : Msg} {s s' : Store} {out : List OutMsg} {as : List Attr}
    (h : respond c env info msg s = .ok (s', out, as)) : attr? as "action" = some (ascii msg.action) := by
  obtain ⟨-, h⟩ := respond_ok h
  cases msg <;> simp only [respondWf] at h
  case createPosition | mint =>
    obtain ⟨_, _, _, _, _, _, _, _, e⟩ := createPositionR_attrs h
    rw [e]; rfl
  case swap => obtain ⟨_, _, e⟩ := swapR_attrs h; rw [e]; rfl
  case swapRoute => obtain ⟨_, _, e⟩ := swapRouteR_attrs h; rw [e]; rfl
  case claimFee => obtain ⟨_, _, _, _, _, e⟩ := claimFeeR_attrs h; rw [e]; rfl
  case removePosition => obtain ⟨_, _, _, _, _, _, _, _, _, _, e⟩ := removePositionR_attrs h; rw [e]; rfl
  case burn => obtain ⟨_, _, _, _, _, _, _, _, _, _, e⟩ := removePositionR_attrs (burnR_attrs h); rw [e]; rfl
  all_goals rw [withAttrs_attrs h]; rfl

/-- An event about an approval or a transfer names the two parties. -/
theorem C61_parties {c : Chain} {env : Env} {info : Info} {msg : Msg} {s s' : Store} {out : List OutMsg} {as : List Attr}
    (h : respond c env info msg s = .ok (s', out, as)) :
    (∀ r id, msg = .transferNft r id → attr? as "sender" = some info.sender ∧ attr? as "recipient" = some r) ∧
    (∀ r id m, msg = .sendNft r id m → attr? as "sender" = some info.sender ∧ attr? as "recipient" = some r) ∧
    (∀ p id ex, msg = .approve p id ex → attr? as "sender" = some info.sender ∧ attr? as "spender" = some p) ∧
    (∀ p id, msg = .revoke p id → attr? as "sender" = some info.sender ∧ attr? as "spender" = some p) ∧
    (∀ o ex, msg = .approveAll o ex → attr? as "sender" = some info.sender ∧ attr? as "operator" = some o) ∧
    (∀ o, msg = .revokeAll o → attr? as "sender" = some info.sender ∧ attr? as "operator" = some o) ∧
    (∀ a, msg = .changeAdmin a → attr? as "new_admin" = some a) := by
  obtain ⟨-, h⟩ := respond_ok h
  refine ⟨?_, ?_, ?_, ?_, ?_, ?_, ?_⟩ <;> intros <;> subst msg <;> simp only [respondWf] at h <;>
    rw [withAttrs_attrs h] <;> simp [attr?, action]

/-- A swap reports exactly what the sender pays and exactly what the sender receives. -/
theorem C61_swap {c : Chain} {w w' : World} {env : Env} {info : Info} {k : PoolKey} {d : Bool} {amount : Nat} {b : Bool}
    {limit : Nat} {s' : Store} {out : List OutMsg} {as : List Attr} (hr : Reach c w.store) (hne : info.sender ≠ c.self)
    (hu : (info.funds.map Coin.denom).Nodup) (ho : attachedOf c info (tokenOut k d) = 0)
    (h : w.tx c env info (.swap k d amount b limit) = .ok w')
    (ha : respond c env info (.swap k d amount b limit) w.store = .ok (s', out, as)) :
    ∃ paid got, amountOf as "amount_in" = some paid ∧ amountOf as "amount_out" = some got ∧
      w'.ledger.bal (tokenAsset c (tokenIn k d)) info.sender + paid =
        w.ledger.bal (tokenAsset c (tokenIn k d)) info.sender ∧
      w'.ledger.bal (tokenAsset c (tokenOut k d)) info.sender =
        w.ledger.bal (tokenAsset c (tokenOut k d)) info.sender + got := by
  obtain ⟨res, pool, m1, hk, hp, h1, -, h2, h3⟩ := swap_tx h
  obtain ⟨res', e1, e2⟩ := swapR_attrs (respond_ok ha).2
  obtain ⟨_, _, e3, -⟩ := swapInternal_inv e1
  have e4 : res' = res := by
    have := e3.symm.trans h1
    rwa [ok_inj] at this
  subst e4
  have hm := hr.mreach
  have hok := hm.price k pool hk hp
  have hnt := swap_tokens_ne hm.struct hk hp d
  have hz := (swap_positive hm.struct hm.bitInv hk hp hok h1).1
  refine ⟨res'.amountIn, res'.amountOut, ?_, ?_, ?_, ?_⟩
  · rw [e2]; simp [amountOf, attr?, action, readNat_amount]
  · rw [e2]; simp [amountOf, attr?, action, readNat_amount]
  · have h4 := h3 (tokenAsset c (tokenIn k d)) info.sender
    rw [outDelta_append, assetTransfer_sender hne, if_neg (fun e => hnt (tokenAsset_inj e))] at h4
    have h5 := charge_exact hne hu hz h2
    omega
  · have h4 := h3 (tokenAsset c (tokenOut k d)) info.sender
    rw [outDelta_append, assetTransfer_sender hne, if_pos rfl,
      assetTransferFrom_other h2 (fun e => hnt (tokenAsset_inj e).symm), fundsDelta_sender_eq hne, ho] at h4
    omega

/-- A claim reports exactly what the sender receives of either token. -/
theorem C61_claim {c : Chain} {w w' : World} {env : Env} {info : Info} {i : Nat} {s' : Store} {out : List OutMsg}
    {as : List Attr} (hr : Reach c w.store) (hne : info.sender ≠ c.self) (h : w.tx c env info (.claimFee i) = .ok w')
    (ha : respond c env info (.claimFee i) w.store = .ok (s', out, as)) :
    ∃ pos x y, w.store.positions.get? (positionKey info.sender i) = some pos ∧
      amountOf as "amount_x" = some x ∧ amountOf as "amount_y" = some y ∧
      w'.ledger.bal (tokenAsset c pos.poolKey.tokenX) info.sender + attachedOf c info pos.poolKey.tokenX =
        w.ledger.bal (tokenAsset c pos.poolKey.tokenX) info.sender + x ∧
      w'.ledger.bal (tokenAsset c pos.poolKey.tokenY) info.sender + attachedOf c info pos.poolKey.tokenY =
        w.ledger.bal (tokenAsset c pos.poolKey.tokenY) info.sender + y := by
  obtain ⟨o, h1, h2⟩ := tx_inv h
  have h3 := respond_execute ha
  rw [h1, ok_inj, Prod.mk.injEq] at h3
  obtain ⟨pos, x, y, hp, e1, e2⟩ := claimFeeR_attrs (respond_ok ha).2
  have hs := hr.mreach.struct
  have hpos := hs.positions _ _ hp
  obtain ⟨pool, hpool⟩ := hpos.pool
  have hnt := hs.tokens_ne hpos.kwf hpool
  have ho := h3.2.trans e1
  subst ho
  refine ⟨pos, x, y, hp, ?_, ?_, ?_, ?_⟩
  · rw [e2]; simp [amountOf, attr?, action, readNat_amount]
  · rw [e2]; simp [amountOf, attr?, action, readNat_amount]
  · have h4 := h2 (tokenAsset c pos.poolKey.tokenX) info.sender
    rw [outDelta_append, assetTransfer_sender hne, assetTransfer_sender hne, if_pos rfl,
      if_neg (fun e => hnt (tokenAsset_inj e)), fundsDelta_sender_eq hne] at h4
    omega
  · have h4 := h2 (tokenAsset c pos.poolKey.tokenY) info.sender
    rw [outDelta_append, assetTransfer_sender hne, assetTransfer_sender hne, if_pos rfl,
      if_neg (fun e => hnt (tokenAsset_inj e).symm), fundsDelta_sender_eq hne] at h4
    omega

/-- A route reports the amount of its last payment. -/
theorem C61_route {c : Chain} {env : Env} {info : Info} {s s' : Store} {out : List OutMsg} {a e sl : Nat}
    {hops : List Hop} {last : Hop} {as : List Attr}
    (h : respond c env info (.swapRoute a e sl (hops ++ [last])) s = .ok (s', out, as)) :
    ∃ fin rest, amountOf as "amount_out" = some fin ∧
      out = rest ++ assetTransfer c (tokenOut last.poolKey last.xToY) fin info := by
  obtain ⟨fin, h1, h2⟩ := swapRouteR_attrs (respond_ok h).2
  have key : ∀ (hops : List Hop) (s : Store) (a : Nat) (ms : List OutMsg),
      swapRouteInternal c info env.millis (hops ++ [last]) s a ms = .ok (s', fin, out) →
      ∃ rest, out = rest ++ assetTransfer c (tokenOut last.poolKey last.xToY) fin info := by
    intro hops
    induction hops with
    | nil =>
      intro s a ms h
      simp only [List.nil_append, swapRouteInternal, bind_ok, ok_inj, Prod.mk.injEq] at h
      obtain ⟨x, hx, _, h5, h6⟩ := h
      obtain ⟨_, m1, _, _, _, _, h7⟩ := swapInternal_inv hx
      exact ⟨ms ++ m1, by rw [← h6, h7, h5, List.append_assoc]; rfl⟩
    | cons hd tl ih =>
      intro s a ms h
      simp only [List.cons_append, swapRouteInternal, bind_ok] at h
      obtain ⟨x, _, h⟩ := h
      exact ih _ _ _ h
  obtain ⟨rest, hr⟩ := key hops s a [] h1
  refine ⟨fin, rest, ?_, hr⟩
  rw [h2]; simp [amountOf, attr?, action, readNat_amount]

theorem reports_positionAttrs (name : String) (who : Bytes) (pos : Position) (pool : Pool) :
    Reports (positionAttrs name who pos.liquidity pos.lower pos.upper pool.sqrtPrice) who pos pool := by
  refine ⟨?_, ?_, ?_, ?_, ?_⟩ <;>
    simp [decOf, intOf, attr?, action, positionAttrs, readDec_showDec, readInt_showInt]

/-- A new position is reported as it is stored, with the price of its pool. -/
theorem C61_create {c : Chain} {env : Env} {info : Info} {s s' : Store} {out : List OutMsg} {k : PoolKey} {l u : Int}
    {L lo hi : Nat} {msg : Msg} {as : List Attr} (hr : Reach c s)
    (hm : msg = .createPosition k l u L lo hi ∨ msg = .mint k l u L lo hi)
    (h : respond c env info msg s = .ok (s', out, as)) :
    ∃ pos pool, s'.positions.get? (positionKey info.sender (getPositionLength s info.sender)) = some pos ∧
      pos.poolKey = k ∧ pos.liquidity = L ∧ s'.pools.get? k.key = some pool ∧ Reports as info.sender pos pool := by
  have hx := (execute_ok.1 (respond_execute h)).2
  obtain ⟨hw, h⟩ := respond_ok h
  have hw' : (Msg.createPosition k l u L lo hi).wf := by rcases hm with rfl | rfl <;> exact hw
  have hx' : createPosition c s env info k l u L lo hi = .ok (s', out) := by rcases hm with rfl | rfl <;> exact hx
  have h' : createPositionR c s env info k l u L lo hi = .ok (s', out, as) := by rcases hm with rfl | rfl <;> exact h
  obtain ⟨pool, rl, ru, r, hp, g1, g2, g3, e⟩ := createPositionR_attrs h'
  obtain ⟨pool', tl, tu, r', rl', m1, m2, hp', -, -, -, -, il, iu, q1, q2, ⟨ru', q3, q4, -⟩, -, -, hmod, -, -, e1, e2, -⟩ :=
    createPosition_view hr.mreach.struct hw' hx'
  have c1 : pool' = pool := by rw [hp] at hp'; exact (Option.some.inj hp').symm
  have c2 : rl' = rl := by rw [g1, ok_inj] at q1; exact q1.symm
  subst c1 c2
  have c3 : ru' = ru := by rw [g2, ok_inj] at q3; exact q3.symm
  subst c3
  obtain ⟨-, -, g4⟩ := Position.create_inv g3
  rw [q2, q4, il, iu, hmod, ok_inj] at g4
  subst g4
  obtain ⟨_, d1, d2, d3, -⟩ := Position.modify_inv hmod
  obtain ⟨_, _, liq, _, _, _, d4, _, _, d5⟩ := Position.update_inv d3
  simp only [if_true] at d4
  have f1 : r'.pos.lower = l := by rw [d5]
  have f2 : r'.pos.upper = u := by rw [d5]
  have f3 : r'.pos.liquidity = L := by rw [d5]; simp only; omega
  have f4 : r'.pos.poolKey = k := by rw [d5]
  refine ⟨r'.pos, r'.pool, ?_, f4, f3, ?_, ?_⟩
  · rw [e2]; exact KV.get?_insert_same _ _ _
  · rw [e1]; exact KV.get?_insert_same _ _ _
  · rw [e, (Tick.update_inv d1).1, (Tick.update_inv d2).1, il, iu, ← f1, ← f2, ← f3]
    exact reports_positionAttrs _ _ _ _

/-- A removed position is reported as it was stored, with the price of its pool. -/
theorem C61_remove {c : Chain} {env : Env} {info : Info} {s s' : Store} {out : List OutMsg} {i : Nat} {msg : Msg}
    {as : List Attr} (hr : Reach c s)
    (hm : msg = .removePosition i ∨ ∃ id, msg = .burn id ∧ i = beNat (id.drop (id.length - 4)))
    (h : respond c env info msg s = .ok (s', out, as)) :
    ∃ pos pool, s.positions.get? (positionKey info.sender i) = some pos ∧
      s.pools.get? pos.poolKey.key = some pool ∧ Reports as info.sender pos pool := by
  obtain ⟨-, h⟩ := respond_ok h
  have h' : removePositionR c s env info i = .ok (s', out, as) := by
    rcases hm with rfl | ⟨id, rfl, rfl⟩
    · exact h
    · exact burnR_attrs h
  obtain ⟨pos, lower, upper, pool, r, hp, hl, hu, hpool, g, e⟩ := removePositionR_attrs h'
  have hs := hr.mreach.struct
  have hpos := hs.positions _ _ hp
  have il := (hs.tick hpos.kwf hpos.lower.i32 hl).1
  have iu := (hs.tick hpos.kwf hpos.upper.i32 hu).1
  obtain ⟨q, g1, -, -, g2⟩ := Position.remove_inv g
  obtain ⟨_, d1, d2, -⟩ := Position.modify_inv g1
  have g3 := (modify_liquidity g1).2.1
  refine ⟨pos, pool, hp, hpool, ?_⟩
  have f1 : r.lower.index = pos.lower := by rw [g2]; exact (Tick.update_inv d1).1.trans il
  have f2 : r.upper.index = pos.upper := by rw [g2]; exact (Tick.update_inv d2).1.trans iu
  have f3 : r.pool.sqrtPrice = pool.sqrtPrice := by rw [g2]; exact g3
  rw [e, f1, f2, f3]
  exact reports_positionAttrs _ _ _ _

/-! ## Examples -/

namespace Demo

/-- The attributes of a call in the state after some calls (none if it fails). -/
def eventOf (ms : List (Info × Msg)) (i : Info) (m : Msg) : List Attr :=
  match respond chain env i m (state chain ms) with | .ok r => r.2.2 | .error _ => []

end Demo

open Demo in
example : eventOf setup (by_ bob) (.swap key true 100 true MIN_SQRT_PRICE) =
    [⟨"action", ascii "swap"⟩, ⟨"amount_in", ascii "100"⟩, ⟨"amount_out", ascii "98"⟩] := by decide +kernel

open Demo in
example : eventOf setup (by_ bob) (.createPosition key (-20) 30 1234567 0 (10 ^ 30)) =
    [⟨"action", ascii "create_position"⟩, ⟨"address", bob⟩, ⟨"liquidity", ascii "1.234567"⟩, ⟨"lower_tick", ascii "-20"⟩,
     ⟨"upper_tick", ascii "30"⟩, ⟨"current_sqrt_price", ascii "1.0000000000000000000000000"⟩] := by decide +kernel

open Demo in
example : eventOf setup (by_ alice) (.removePosition 0) =
    [⟨"action", ascii "remove_position"⟩, ⟨"address", alice⟩, ⟨"liquidity", ascii "1000000.0000000"⟩,
     ⟨"lower_tick", ascii "-10"⟩, ⟨"upper_tick", ascii "10"⟩,
     ⟨"current_sqrt_price", ascii "1.0000000000000000000000000"⟩] := by decide +kernel

open Demo in
example : eventOf (setup ++ [(by_ bob, .swap key true 300 true MIN_SQRT_PRICE)]) (by_ alice) (.claimFee 0) =
    [⟨"action", ascii "claim_fee"⟩, ⟨"amount_x", ascii "3"⟩, ⟨"amount_y", ascii "0"⟩] := by decide +kernel

open Demo in
example : eventOf setup (by_ bob) (.swapRoute 300 300 (2 * 10 ^ 10) [⟨key, true⟩]) =
    [⟨"action", ascii "swap_route"⟩, ⟨"amount_out", ascii "296"⟩] := by decide +kernel

open Demo in
example : eventOf setup (by_ alice) (.transferNft bob (positionKey alice 0)) =
    [⟨"action", ascii "transfer_nft"⟩, ⟨"sender", alice⟩, ⟨"recipient", bob⟩] := by decide +kernel

/-! ## What the events leave out -/

namespace Demo
/-- A second pool of the same two tokens. -/
def otherTier : FeeTier := ⟨2 * 10 ^ 10, 10⟩
def otherKey : PoolKey := ⟨[97], [98], otherTier⟩
def samePair : List (Info × Msg) :=
  setup ++ [(by_ alice, .addFeeTier otherTier), (by_ alice, .createPool [97] [98] otherTier (10 ^ 24) 0)]
end Demo

open Demo in
/-- Opening a position in one pool or in another can look the same: the event does not name the pool. -/
theorem C61_pool_not_named :
    eventOf samePair (by_ bob) (.createPosition key (-10) 10 (10 ^ 9) 0 (10 ^ 30)) =
      eventOf samePair (by_ bob) (.createPosition otherKey (-10) 10 (10 ^ 9) 0 (10 ^ 30)) ∧
    eventOf samePair (by_ bob) (.createPosition key (-10) 10 (10 ^ 9) 0 (10 ^ 30)) ≠ [] ∧ key ≠ otherKey := by decide +kernel

open Demo in
/-- Giving a position away looks the same whoever receives it. -/
theorem C61_receiver_not_named :
    eventOf setup (by_ alice) (.transferPosition 0 bob) = eventOf setup (by_ alice) (.transferPosition 0 carol) ∧
    eventOf setup (by_ alice) (.transferPosition 0 bob) ≠ [] := by decide +kernel

end OraiV3
