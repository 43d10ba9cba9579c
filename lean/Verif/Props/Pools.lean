import Verif.Lemmas.Fees
import Verif.Lemmas.Keys
import Verif.Shares
import Verif.Examples

/-!
# Pools, fee tiers, protocol fees: C19, C20, C28
-/

namespace OraiV3
open Demo

/-! ## C19: one pool per pair and tier -/

/-- The same unordered pair of tokens. -/
def SamePair (a b c d : Bytes) : Prop := (a = c ∧ b = d) ∨ (a = d ∧ b = c)

/-- Pools stay. -/
theorem Steps.pool_stays {c : Chain} {s s' : Store} (h : Steps c s s') :
    ∀ {key p}, s.pools.get? key = some p → ∃ p', s'.pools.get? key = some p' := by
  induction h with
  | refl => exact fun hp => ⟨_, hp⟩
  | tail _ he ih =>
    intro key p hp
    obtain ⟨q, hq⟩ := ih hp
    obtain ⟨q', hq', _⟩ := execute_pools he key q hq
    exact ⟨q', hq'⟩

/-- C19, uniqueness.  After a pool was created for a pair of tokens and a fee tier, no matter what calls
succeed in between, creating a pool for the same pair, in either order, and the same tier fails. -/
theorem C19_no_second_pool {c : Chain} {env env' : Env} {info info' : Info} {s s1 s2 : Store}
    {out : List OutMsg} {a b a' b' : Bytes} {tier : FeeTier} {price price' : Nat} {tick tick' : Int}
    (h1 : execute c env info (.createPool a b tier price tick) s = .ok (s1, out)) (h2 : Steps c s1 s2)
    (hp : SamePair a b a' b') :
    ∃ e, execute c env' info' (.createPool a' b' tier price' tick') s2 = .error e := by
  cases hx : execute c env' info' (.createPool a' b' tier price' tick') s2 with
  | error e => exact ⟨e, rfl⟩
  | ok r =>
    exfalso
    obtain ⟨_, k, pool, _, _, _, hk, _, _, rfl, _⟩ := createPool_inv (execute_ok.1 h1).2
    obtain ⟨_, k', _, _, _, _, hk', hn, _⟩ := createPool_inv (out := r.2) (s' := r.1) (execute_ok.1 hx).2
    have : k' = k := by
      rcases hp with ⟨rfl, rfl⟩ | ⟨rfl, rfl⟩
      · rw [hk] at hk'; exact ((ok_inj).1 hk').symm
      · rw [PoolKey.new_symm, hk] at hk'; exact ((ok_inj).1 hk').symm
    subst this
    obtain ⟨p', hp'⟩ := h2.pool_stays (key := k'.key) (p := pool) (by simp [savePool, KV.get?_insert])
    rw [hp'] at hn
    simp at hn

/-- C19, preservation.  Creating a pool leaves every existing pool as it is. -/
theorem C19_create_keeps_pools {c : Chain} {env : Env} {info : Info} {s s1 : Store} {out : List OutMsg}
    {a b : Bytes} {tier : FeeTier} {price : Nat} {tick : Int}
    (h : execute c env info (.createPool a b tier price tick) s = .ok (s1, out)) {key : Bytes} {p : Pool}
    (hp : s.pools.get? key = some p) : s1.pools.get? key = some p := by
  obtain ⟨_, k, pool, _, _, _, hk, hn, _, rfl, _⟩ := createPool_inv (execute_ok.1 h).2
  simp only [savePool, KV.get?_insert]
  rw [if_neg, hp]
  rintro rfl
  rw [hp] at hn
  simp at hn

/-- C19, permanence.  A pool once created is there after any further calls, with the creation time it had. -/
theorem C19_pool_never_removed {c : Chain} {s s' : Store} (h : Steps c s s') {key : Bytes} {p : Pool}
    (hp : s.pools.get? key = some p) : ∃ p', s'.pools.get? key = some p' ∧ p'.startTs = p.startTs := by
  induction h with
  | refl => exact ⟨p, hp, rfl⟩
  | tail _ he ih =>
    obtain ⟨q, hq, e⟩ := ih
    obtain ⟨q', hq', hr⟩ := execute_pools he key q hq
    exact ⟨q', hq', hr.1.trans e⟩

-- A pool is created, another pool is created afterwards, and then a second pool of the first kind fails.
example : works chain [(by_ alice, .addFeeTier tier), (by_ bob, .createPool [97] [98] tier (10 ^ 24) 0),
    (by_ bob, .createPool [99] [98] tier (10 ^ 24) 0)] = true := by decide +kernel
example : ∃ s1 out, execute chain env (by_ bob) (.createPool [97] [98] tier (10 ^ 24) 0)
    (state chain [(by_ alice, .addFeeTier tier)]) = .ok (s1, out) := by
  cases h : execute chain env (by_ bob) (.createPool [97] [98] tier (10 ^ 24) 0)
    (state chain [(by_ alice, .addFeeTier tier)]) with
  | ok r => exact ⟨r.1, r.2, rfl⟩
  | error e =>
    have : (execute chain env (by_ bob) (.createPool [97] [98] tier (10 ^ 24) 0)
      (state chain [(by_ alice, .addFeeTier tier)])).isOk = true := by decide +kernel
    rw [h] at this
    simp [Except.isOk, Except.toBool] at this

/-! ## C20: fee tiers -/

/-- The fee tiers of a storage. -/
def feeTiersOf (s : Store) : List FeeTier := (s.config.map (·.feeTiers)).getD []

/-- C20 is false.  The admin can add a tier twice; removing it then leaves it in the list. -/
theorem C20_false :
    ¬ (∀ (c : Chain) (s : Store), Reach c s → (feeTiersOf s).Nodup) ∧
    ¬ (∀ (c : Chain) (env : Env) (info : Info) (s s' : Store) (out : List OutMsg) (t : FeeTier), Reach c s →
      execute c env info (.removeFeeTier t) s = .ok (s', out) → t ∉ feeTiersOf s') := by
  constructor
  · intro h
    have hr : Reach chain (state chain [(by_ alice, .addFeeTier tier), (by_ alice, .addFeeTier tier)]) :=
      state_reach (by decide +kernel)
    have := h _ _ hr
    revert this
    decide +kernel
  · intro h
    have hr : Reach chain (state chain [(by_ alice, .addFeeTier tier), (by_ alice, .addFeeTier tier)]) :=
      state_reach (by decide +kernel)
    cases hx : execute chain env (by_ alice) (.removeFeeTier tier)
        (state chain [(by_ alice, .addFeeTier tier), (by_ alice, .addFeeTier tier)]) with
    | error e =>
      have : (execute chain env (by_ alice) (.removeFeeTier tier)
        (state chain [(by_ alice, .addFeeTier tier), (by_ alice, .addFeeTier tier)])).isOk = true := by
        decide +kernel
      rw [hx] at this
      simp [Except.isOk, Except.toBool] at this
    | ok r =>
      have h1 := h _ _ _ _ r.1 r.2 _ hr hx
      have h2 : (match execute chain env (by_ alice) (.removeFeeTier tier)
          (state chain [(by_ alice, .addFeeTier tier), (by_ alice, .addFeeTier tier)]) with
        | .ok r => decide (tier ∈ feeTiersOf r.1) | .error _ => false) = true := by decide +kernel
      rw [hx] at h2
      exact h1 (of_decide_eq_true h2)

/-- C20, what holds: adding appends exactly the new tier, removing takes away exactly one occurrence of a
listed tier (so a tier that is listed once is gone), removing an unlisted tier fails, and no other call
changes the list. -/
theorem C20_fee_tiers_partial {c : Chain} {env : Env} {info : Info} {msg : Msg} {s s' : Store}
    {out : List OutMsg} (h : execute c env info msg s = .ok (s', out)) :
    (∀ t, msg = .addFeeTier t → feeTiersOf s' = feeTiersOf s ++ [t]) ∧
    (∀ t, msg = .removeFeeTier t → t ∈ feeTiersOf s ∧ feeTiersOf s' = (feeTiersOf s).erase t ∧
      ((feeTiersOf s).Nodup → t ∉ feeTiersOf s')) ∧
    ((∀ t, msg ≠ .addFeeTier t) → (∀ t, msg ≠ .removeFeeTier t) → feeTiersOf s' = feeTiersOf s) := by
  refine ⟨?_, ?_, ?_⟩
  · rintro t rfl
    replace h := (execute_ok.1 h).2
    simp only [dispatch, addFeeTier, bind_ok, ite_error_ok, pure_ok, Prod.mk.injEq, loadConfig_ok] at h
    obtain ⟨cfg, h1, _, _, _, h2, _⟩ := h
    rw [← h2]
    simp [feeTiersOf, h1]
  · rintro t rfl
    replace h := (execute_ok.1 h).2
    simp only [dispatch, removeFeeTier, bind_ok, ite_error_ok, ite_ok_error, pure_ok, Prod.mk.injEq,
      loadConfig_ok] at h
    obtain ⟨cfg, h1, _, h3, h2, _⟩ := h
    rw [← h2]
    simp only [feeTiersOf, h1, Option.map_some, Option.getD_some]
    exact ⟨h3, trivial, fun hn => hn.not_mem_erase⟩
  · intro n1 n2
    by_cases hm : msg.isConfig = true
    · replace h := (execute_ok.1 h).2
      cases msg <;> simp only [Msg.isConfig, Bool.false_eq_true] at hm <;> simp only [dispatch] at h
      case addFeeTier t => exact absurd rfl (n1 t)
      case removeFeeTier t => exact absurd rfl (n2 t)
      case changeAdmin =>
        simp only [changeAdmin, bind_ok, ite_error_ok, loadConfig_ok, pure_ok, Prod.mk.injEq] at h
        obtain ⟨_, h1, _, h2, _⟩ := h
        rw [← h2]; simp [feeTiersOf, h1]
      case changeProtocolFee =>
        simp only [changeProtocolFee, bind_ok, ite_error_ok, loadConfig_ok, pure_ok, Prod.mk.injEq] at h
        obtain ⟨_, h1, _, h2, _⟩ := h
        rw [← h2]; simp [feeTiersOf, h1]
    · rw [feeTiersOf, execute_config h (by simpa using hm)]; rfl

example : works chain [(by_ alice, .addFeeTier tier), (by_ alice, .addFeeTier ⟨5, 1⟩),
    (by_ alice, .removeFeeTier tier)] = true := by decide +kernel

/-! ## C28: protocol fee accounting -/

/-- Total of the shares. -/
def sharesUp (pf : Nat) (fees : List Nat) : Nat := (fees.map (shareUp pf)).sum

theorem protoSum_eq (pf : Nat) (fs : List Nat) : protoSum pf fs = sharesUp pf fs := rfl

/-- C28, swaps.  A swap adds to the recorded protocol fee of its pool, in the token paid in, the rounded-up
share of each fee it charged; no share exceeds its fee, and the fees are part of the amount paid in,
which is the amount the contract collects from the sender.  The other token's record is unchanged. -/
theorem C28_swap_records_share {c : Chain} {env : Env} {info : Info} {s s' : Store} {out : List OutMsg}
    {k : PoolKey} {d : Bool} {a : Nat} {b : Bool} {l : Nat} {cfg : Config} (hc : s.config = some cfg)
    (h : execute c env info (.swap k d a b l) s = .ok (s', out)) :
    ∃ p p' fees paidIn m rest, s.pools.get? k.key = some p ∧ s'.pools.get? k.key = some p' ∧
      (∀ f ∈ fees, shareUp cfg.protocolFee f ≤ f) ∧ fees.sum ≤ paidIn ∧
      assetTransferFrom c (if d then k.tokenX else k.tokenY) paidIn info = .ok m ∧ out = m ++ rest ∧
      (if d then p'.protoX = p.protoX + sharesUp cfg.protocolFee fees ∧ p'.protoY = p.protoY
       else p'.protoY = p.protoY + sharesUp cfg.protocolFee fees ∧ p'.protoX = p.protoX) := by
  obtain ⟨r, h⟩ := swap_inv (execute_ok.1 h).2
  obtain ⟨s1, m1, h1, h2, h3, h4, h5⟩ := swapInternal_inv h
  obtain ⟨pool, fs, hp, hch, hsum⟩ := calculateSwap_charged hc h1
  refine ⟨pool, r.pool, fs, r.amountIn, m1, _, hp, ?_, hch.1, hsum, h4, h5, hch.2⟩
  simp only at h3
  rw [h3]
  simp [savePool, KV.get?_insert]

/-- C28, all other ways.  For every successful call and every pool: either it is the fee receiver's withdrawal,
which pays the sender exactly the recorded amounts and sets them to zero, or the records change by rounded-up
shares of charged fees, none larger than its fee; and they change at all only if the call is a swap on this pool
or a route through it. -/
theorem C28_protocol_fee_accounting {c : Chain} {env : Env} {info : Info} {msg : Msg} {s s' : Store}
    {out : List OutMsg} {cfg : Config} (hc : s.config = some cfg)
    (h : execute c env info msg s = .ok (s', out)) {key : Bytes} {p : Pool} (hp : s.pools.get? key = some p) :
    ∃ p', s'.pools.get? key = some p' ∧
      ((∃ k, msg = .withdrawProtocolFee k ∧ k.key = key ∧ info.sender = p.feeReceiver ∧
          p' = { p with protoX := 0, protoY := 0 } ∧
          out = assetTransfer c k.tokenX p.protoX info ++ assetTransfer c k.tokenY p.protoY info) ∨
       (∃ fx fy, (∀ f ∈ fx ++ fy, shareUp cfg.protocolFee f ≤ f) ∧
          p'.protoX = p.protoX + sharesUp cfg.protocolFee fx ∧
          p'.protoY = p.protoY + sharesUp cfg.protocolFee fy ∧
          ((p'.protoX = p.protoX ∧ p'.protoY = p.protoY) ∨
            (∃ k d a b l, msg = .swap k d a b l ∧ k.key = key) ∨
            (∃ a e sl hops h, msg = .swapRoute a e sl hops ∧ h ∈ hops ∧ h.poolKey.key = key)))) := by
  obtain ⟨p', hp', _, _, _, h4⟩ := execute_pools h key p hp
  refine ⟨p', hp', ?_⟩
  rcases h4 with h4 | ⟨k, rfl, hk⟩ | h4 | h4
  · exact .inr ⟨[], [], by simp, by simp [sharesUp, h4.1], by simp [sharesUp, h4.2], .inl h4⟩
  · left
    replace h := (execute_ok.1 h).2
    simp only [dispatch, withdrawProtocolFee, bind_ok, ite_error_ok, getPool_ok, pure_ok, Prod.mk.injEq, hk,
      hp] at h
    obtain ⟨_, h1, h2, h3, h5⟩ := h
    cases h1
    refine ⟨k, rfl, hk, ?_, ?_, h5.symm⟩
    · rw [ne_eq, Decidable.not_not] at h2; exact h2.symm
    · rw [← h3] at hp'
      simp [savePool, hk, KV.get?_insert] at hp'
      exact hp'.symm
  · right
    obtain ⟨k, d, a, b, l, rfl, rfl⟩ := h4
    obtain ⟨r, h⟩ := swap_inv (execute_ok.1 h).2
    obtain ⟨s1, m1, h1, h2, h3, _, _⟩ := swapInternal_inv h
    obtain ⟨pool, fs, hq, hch, _⟩ := calculateSwap_charged hc h1
    rw [hp] at hq; cases hq
    have e : p' = r.pool := by
      simp only at h3
      rw [h3] at hp'
      simp [savePool, KV.get?_insert] at hp'
      exact hp'.symm
    obtain ⟨b1, b2, b3⟩ := hch.both
    exact ⟨_, _, b1, by rw [e]; exact b2, by rw [e]; exact b3, .inr (.inl ⟨k, d, a, b, l, rfl, rfl⟩)⟩
  · right
    obtain ⟨a, e, sl, hops, hh, rfl, hm, hk⟩ := h4
    obtain ⟨fin, m, h1, _, _⟩ := swapRoute_inv (execute_ok.1 h).2
    obtain ⟨q, fx, fy, hq, b1, b2, b3⟩ := swapRouteInternal_charged hc h1 key p hp
    rw [hp'] at hq; cases hq
    exact ⟨fx, fy, b1, b2, b3, .inr (.inr ⟨a, e, sl, hops, hh, rfl, hm, hk⟩)⟩

-- With a protocol share of 10%, a swap leaves a recorded fee which the fee receiver (Alice) withdraws.
example : ((state chain (setup ++ [(by_ alice, .changeProtocolFee (10 ^ 11)),
    (by_ bob, .swap key true 300 true MIN_SQRT_PRICE)])).pools.get? key.key).map (·.protoX) = some 1 := by
  decide +kernel
example : works chain (setup ++ [(by_ alice, .changeProtocolFee (10 ^ 11)),
    (by_ bob, .swap key true 300 true MIN_SQRT_PRICE), (by_ alice, .withdrawProtocolFee key)]) = true := by
  decide +kernel

end OraiV3
