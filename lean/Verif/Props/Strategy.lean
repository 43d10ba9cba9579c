import Verif.Lemmas.Strategy
import Verif.Props.Party
import Verif.Props.RoundTrip

/-!
# C89: no sequence of swaps, deposits and withdrawals gains at the pool's price

False as stated: see `C89_false`.  For swaps that end regularly, in a pool whose liquidity is right (C01), it holds.
-/

namespace OraiV3

theorem group_sum {f f' : Bytes → ℚ} {who : Bytes} : ∀ {G : List Bytes}, G.Nodup → who ∈ G → (∀ a ∈ G, a ≠ who → f' a = f a) →
    (G.map f').sum = (G.map f).sum + (f' who - f who)
  | [], _, h, _ => by simp at h
  | a :: G, hn, hm, h => by
    obtain ⟨h1, h2⟩ := List.nodup_cons.1 hn
    simp only [List.map_cons, List.sum_cons]
    by_cases e : a = who
    · subst e
      rw [List.map_congr_left (fun b hb => h b (by simp [hb]) (fun e => h1 (e ▸ hb)))]
      ring
    · rw [group_sum h2 ((List.mem_cons.1 hm).resolve_left (fun e' => e e'.symm)) (fun b hb => h b (by simp [hb])), h a (by simp) e]
      ring

/-- What the accounts of the group have in a token. -/
def balancesOf (c : Chain) (w : World) (G : List Bytes) (t : Bytes) : ℚ :=
  (G.map (fun a => (w.ledger.bal (tokenAsset c t) a : ℚ))).sum

theorem balancesOf_step {c : Chain} {w w' : World} {G : List Bytes} {env : Env} {info : Info} {msg : Msg} (hG : G.Nodup)
    (hself : c.self ∉ G) (hg : info.sender ∈ G) (h : w.tx c env info msg = .ok w') (t : Bytes) :
    balancesOf c w' G t = balancesOf c w G t - gainIn c w w' t := by
  have hne : info.sender ≠ c.self := fun e => hself (e ▸ hg)
  unfold balancesOf gainIn
  rw [group_sum (f := fun a => (w.ledger.bal (tokenAsset c t) a : ℚ)) hG hg (fun a ha e => by
    rw [(C66_third_parties h e).1 (fun e => hself (e ▸ ha)) (tokenAsset c t)])]
  have := C66_conserved h hne (tokenAsset c t)
  have e : ((w'.ledger.bal (tokenAsset c t) info.sender : ℚ)) + w'.ledger.bal (tokenAsset c t) c.self =
    w.ledger.bal (tokenAsset c t) info.sender + w.ledger.bal (tokenAsset c t) c.self := by exact_mod_cast this
  linarith

private theorem acts_wf {c : Chain} {s s' : Store} {k : PoolKey} {env : Env} {info : Info} {msg : Msg} {out : List OutMsg} (hr : Reach c s)
    (h : execute c env info msg s = .ok (s', out)) (ha : ActsIn s k info.sender msg) : k.wf := by
  have hw := (execute_ok.1 h).1
  cases msg <;> simp only [ActsIn] at ha
  all_goals first
    | (obtain ⟨q, q1, q2⟩ := ha; exact q2 ▸ (hr.mreach.struct.positions _ _ (held_get q1)).kwf)
    | (subst ha; exact hw.1)

private theorem strategy_gain {c : Chain} {G : List Bytes} {k : PoolKey} {w w' : World} {n : Nat} (hr : Reach c w.store) (hdr : drift w.store k = 0)
    (hG : G.Nodup) (hself : c.self ∉ G) (h : Strategy c G k w w' n) :
    Reach c w'.store ∧ (k.wf → drift w'.store k = 0) ∧ rest w'.store G k = rest w.store G k ∧
    stake w'.store G k true + balancesOf c w' G k.tokenX ≤ stake w.store G k true + balancesOf c w G k.tokenX + n / 10 ^ 14 ∧
    stake w'.store G k false + balancesOf c w' G k.tokenY ≤ stake w.store G k false + balancesOf c w G k.tokenY := by
  induction h with
  | none => exact ⟨hr, fun _ => hdr, rfl, by simp, le_refl _⟩
  | @more w1 w2 n env info msg ht hg htx ha hreg ih =>
    obtain ⟨i1, i0, i2, i3, i4⟩ := ih
    have hne : info.sender ≠ c.self := fun e => hself (e ▸ hg)
    obtain ⟨out, x1, -⟩ := tx_inv htx
    have hwf := acts_wf i1 x1 ha
    obtain ⟨hst, -, -⟩ := strategy_step i1 (i0 hwf) hne hg htx ha hreg
    have b1 := balancesOf_step hG hself hg htx k.tokenX
    have b2 := balancesOf_step hG hself hg htx k.tokenY
    refine ⟨.step i1 x1, fun _ => drift_step i1 hwf (i0 hwf) x1 hreg, (hst.rest k).trans i2, ?_, ?_⟩
    · have := hst.x
      rw [b1]
      push_cast
      rw [add_div]
      linarith
    · have := hst.y
      rw [b2]
      linarith
  | @share w1 w2 n env info i other ht hg ho htx ih =>
    obtain ⟨i1, i0, i2, i3, i4⟩ := ih
    have hne : info.sender ≠ c.self := fun e => hself (e ▸ hg)
    obtain ⟨out, x1, -⟩ := tx_inv htx
    obtain ⟨s1, s2, s3⟩ := share_step i1 hne hg ho htx
    have b1 := balancesOf_step hG hself hg htx k.tokenX
    have b2 := balancesOf_step hG hself hg htx k.tokenY
    refine ⟨.step i1 x1, fun hwf => drift_step i1 hwf (i0 hwf) x1 trivial, (s1 k).trans i2, ?_, ?_⟩
    · rw [b1, s2]
      linarith [s3 k.tokenX]
    · rw [b2, s2]
      linarith [s3 k.tokenY]

/-- **C89**.  Some accounts act in one pool, with swaps, new positions, withdrawals, claims and positions changing hands
among them, in any order and any number, while nobody else acts.  Valued at the price the pool had at the beginning, everything they have at the end - balances
and positions with their fees - is worth no more than what they had at the beginning (up to 10^-14 units of X per rounding of
an amount of X). -/
theorem C89_no_gain_partial {c : Chain} {G : List Bytes} {k : PoolKey} {w w' : World} {n : Nat} {p : Pool} (hr : Reach c w.store) (hdr : drift w.store k = 0)
    (hG : G.Nodup) (hself : c.self ∉ G) (hp : w.store.pools.get? k.key = some p) (h : Strategy c G k w w' n) :
    priceVal p.sqrtPrice ^ 2 * wealth c w' G k true + wealth c w' G k false ≤
      priceVal p.sqrtPrice ^ 2 * wealth c w G k true + wealth c w G k false + priceVal p.sqrtPrice ^ 2 * (n / 10 ^ 14) := by
  obtain ⟨hr', -, h1, h2, h3⟩ := strategy_gain hr hdr hG hself h
  have hm := hr.mreach
  have hm' := hr'.mreach
  rw [stake_held hm.posInv hG, stake_held hm'.posInv hG, h1, priceAt_some hp] at h2 h3
  have ht := rest_tangent hm.struct G k p.sqrtPrice (priceAt w'.store k)
  unfold wealth
  simp only [if_true, Bool.false_eq_true, if_false]
  unfold balancesOf at h2 h3
  have h2' := mul_le_mul_of_nonneg_left h2 (sq_nonneg (priceVal p.sqrtPrice))
  simp only [mul_add] at h2' ⊢
  linarith

/-- Without positions before and after: an account which ends with more of one token has less of the other. -/
theorem C89_no_free_money_partial {c : Chain} {who : Bytes} {k : PoolKey} {w w' : World} {n : Nat} {p : Pool} (hr : Reach c w.store) (hdr : drift w.store k = 0)
    (hself : who ≠ c.self) (hp : w.store.pools.get? k.key = some p) (h : Strategy c [who] k w w' n)
    (h0 : positionsHeld w.store [who] k = []) (h1 : positionsHeld w'.store [who] k = [])
    (hn : n < 10 ^ 14) (hpn : n * priceVal p.sqrtPrice ^ 2 < 10 ^ 14) :
    (w.ledger.bal (tokenAsset c k.tokenX) who < w'.ledger.bal (tokenAsset c k.tokenX) who →
      w'.ledger.bal (tokenAsset c k.tokenY) who < w.ledger.bal (tokenAsset c k.tokenY) who) ∧
    (w.ledger.bal (tokenAsset c k.tokenY) who < w'.ledger.bal (tokenAsset c k.tokenY) who →
      w'.ledger.bal (tokenAsset c k.tokenX) who < w.ledger.bal (tokenAsset c k.tokenX) who) := by
  have key := C89_no_gain_partial hr hdr (by simp) (by simpa using Ne.symm hself) hp h
  have hP : 0 < priceVal p.sqrtPrice := by
    obtain ⟨k', e, hk', -⟩ := hr.mreach.struct.pools _ _ hp
    have hok := hr.mreach.price k' p hk' (by rw [← e]; exact hp)
    have h1 := hok.min
    have hm : 0 < MIN_SQRT_PRICE := by norm_num
    exact priceVal_pos (by omega)
  unfold wealth at key
  rw [h0, h1] at key
  simp only [List.map_cons, List.map_nil, List.sum_cons, List.sum_nil, add_zero, if_true, Bool.false_eq_true, if_false] at key
  generalize priceVal p.sqrtPrice = v at *
  generalize w'.ledger.bal (tokenAsset c k.tokenX) who = X' at *
  generalize w.ledger.bal (tokenAsset c k.tokenX) who = X at *
  generalize w'.ledger.bal (tokenAsset c k.tokenY) who = Y' at *
  generalize w.ledger.bal (tokenAsset c k.tokenY) who = Y at *
  have hv : 0 < v ^ 2 := by positivity
  constructor
  · intro hlt
    by_contra hge
    have a1 : (X : ℚ) + 1 ≤ X' := by exact_mod_cast hlt
    have a2 : (Y : ℚ) ≤ Y' := by exact_mod_cast Nat.le_of_not_lt hge
    have hε : (n : ℚ) / 10 ^ 14 < 1 := by
      rw [div_lt_one (by positivity)]
      exact_mod_cast hn
    have b1 : v ^ 2 * ((X : ℚ) + 1) ≤ v ^ 2 * X' := mul_le_mul_of_nonneg_left a1 hv.le
    have b2 : v ^ 2 * ((n : ℚ) / 10 ^ 14) < v ^ 2 * 1 := mul_lt_mul_of_pos_left hε hv
    rw [mul_add] at b1
    linarith
  · intro hlt
    by_contra hge
    have a1 : (Y : ℚ) + 1 ≤ Y' := by exact_mod_cast hlt
    have a2 : (X : ℚ) ≤ X' := by exact_mod_cast Nat.le_of_not_lt hge
    have b1 : v ^ 2 * (X : ℚ) ≤ v ^ 2 * X' := mul_le_mul_of_nonneg_left a2 hv.le
    have b6 : v ^ 2 * ((n : ℚ) / 10 ^ 14) < 1 := by
      rw [← mul_div_assoc, div_lt_one (by positivity), mul_comm]
      exact hpn
    linarith

namespace Demo

/-- `ActsIn`, computed. -/
def actsIn (s : Store) (k : PoolKey) (who : Bytes) : Msg → Bool
  | .swap k' .. | .createPosition k' .. | .mint k' .. => decide (k' = k)
  | .removePosition i | .claimFee i => ((positionList s who)[i]?.bind id).any (fun q => decide (q.poolKey = k))
  | .burn id => ((positionList s who)[tokenIndex id]?.bind (fun o => o)).any (fun q => decide (q.poolKey = k))
  | _ => false

theorem actsIn_held {l : List (Option Position)} {i : Nat} {k : PoolKey} (h : (l[i]?.bind (fun o => o)).any (fun q => decide (q.poolKey = k)) = true) :
    ∃ q, l[i]? = some (some q) ∧ q.poolKey = k := by
  rw [Option.any_eq_true] at h
  obtain ⟨q, h1, h2⟩ := h
  rw [Option.bind_eq_some_iff] at h1
  obtain ⟨o, h1, rfl⟩ := h1
  exact ⟨q, h1, by simpa using h2⟩

theorem actsIn_acts {s : Store} {k : PoolKey} {who : Bytes} {m : Msg} (h : actsIn s k who m = true) : ActsIn s k who m := by
  cases m <;> simp only [actsIn, Bool.false_eq_true] at h <;> simp only [ActsIn]
  all_goals first | exact actsIn_held h | exact of_decide_eq_true h

/-- `RegularCall` of a call that is not a route, computed. -/
def regularB (s' : Store) : Msg → Bool
  | .swap k d _ b limit => decide (RegularEnd s' k d b limit)
  | .swapRoute .. => false
  | _ => true

theorem regularB_regular {c : Chain} {P : PoolKey → Prop} {i : Info} {s s' : Store} {m : Msg} (h : regularB s' m = true) : RegularCall c P env i s s' m := by
  cases m <;> simp only [regularB, Bool.false_eq_true] at h <;> simp only [RegularCall]
  exact fun _ => of_decide_eq_true h

/-- A position that changes hands among the accounts `G`. -/
def shares (G : List Bytes) : Msg → Bool
  | .transferPosition _ r => decide (r ∈ G)
  | _ => false

theorem shares_spec {G : List Bytes} {m : Msg} (h : shares G m = true) : ∃ i r, m = .transferPosition i r ∧ r ∈ G := by
  cases m <;> simp only [shares, decide_eq_true_eq, Bool.false_eq_true] at h
  exact ⟨_, _, rfl, h⟩

/-- Calls of the accounts `G` in one pool, and their roundings. -/
def strategyW (c : Chain) (G : List Bytes) (k : PoolKey) : List (Info × Msg) → World → Option (World × Nat)
  | [], w => some (w, 0)
  | (i, m) :: ms, w =>
    match w.tx c env i m with
    | .error _ => none
    | .ok w' =>
      if i.sender ∈ G ∧ actsIn w.store k i.sender m = true ∧ regularB w'.store m = true then
        (strategyW c G k ms w').map (fun r => (r.1, roundings c env i w.store m + r.2))
      else if i.sender ∈ G ∧ shares G m = true then strategyW c G k ms w'
      else none

theorem Strategy.trans {c : Chain} {G : List Bytes} {k : PoolKey} {a b d : World} {n m : Nat} (h1 : Strategy c G k a b n)
    (h2 : Strategy c G k b d m) : Strategy c G k a d (n + m) := by
  induction h2 with
  | none => exact h1
  | more _ hg htx ha hreg ih => rw [← Nat.add_assoc]; exact .more ih hg htx ha hreg
  | share _ hg ho htx ih => exact .share ih hg ho htx

theorem strategyW_strategy {c : Chain} {G : List Bytes} {k : PoolKey} : ∀ {ms : List (Info × Msg)} {w w' : World} {n : Nat},
    strategyW c G k ms w = some (w', n) → Strategy c G k w w' n
  | [], w, w', n, h => by
    simp only [strategyW, Option.some.injEq, Prod.mk.injEq] at h
    obtain ⟨rfl, rfl⟩ := h
    exact .none _
  | (i, m) :: ms, w, w', n, h => by
    simp only [strategyW] at h
    split at h
    · simp at h
    · rename_i w1 hw
      split at h
      · rename_i hc
        obtain ⟨h1, h2, h3⟩ := hc
        rw [Option.map_eq_some_iff] at h
        obtain ⟨⟨w2, m⟩, e1, e2⟩ := h
        simp only [Prod.mk.injEq] at e2
        obtain ⟨rfl, rfl⟩ := e2
        have := Strategy.more (.none w) h1 hw (actsIn_acts h2) (regularB_regular h3)
        rw [Nat.zero_add] at this
        exact Strategy.trans this (strategyW_strategy e1)
      · split at h
        · rename_i hc
          obtain ⟨h1, h2⟩ := hc
          obtain ⟨j, r, rfl, hr⟩ := shares_spec h2
          have := Strategy.trans (Strategy.share (.none w) h1 hr hw) (strategyW_strategy h)
          rwa [Nat.zero_add] at this
        · simp at h

/-- Bob buys X, provides liquidity at the higher price, Carol sells into it, Bob claims and withdraws, and sells. -/
def jit : List (Info × Msg) :=
  [(by_ bob, .swap lowKey false 20000000000 true MAX_SQRT_PRICE),
   (by_ bob, .createPosition lowKey (-100) 800 (10 ^ 18) 0 (10 ^ 30)),
   (by_ carol, .swap lowKey true 30000000000 true MIN_SQRT_PRICE),
   (by_ bob, .claimFee 0),
   (by_ carol, .swap lowKey false 10000000000 true MAX_SQRT_PRICE),
   (by_ bob, .removePosition 0),
   (by_ bob, .swap lowKey true 10000000000 true MIN_SQRT_PRICE)]

/-- The same, and then Bob opens a position and gives it to Carol, who closes it. -/
def jitShared : List (Info × Msg) :=
  jit ++ [(by_ bob, .createPosition lowKey (-100) 800 (10 ^ 18) 0 (10 ^ 30)), (by_ bob, .transferPosition 0 carol), (by_ carol, .removePosition 0)]

end Demo

/-- Bob and Carol act together; Alice has the rest of the liquidity. -/
example : ∃ w' n, Reach Demo.chain (Demo.world Demo.chain Demo.wide).store ∧ drift (Demo.world Demo.chain Demo.wide).store Demo.lowKey = 0 ∧
    Strategy Demo.chain [Demo.bob, Demo.carol] Demo.lowKey (Demo.world Demo.chain Demo.wide) w' n ∧
    [Demo.bob, Demo.carol].Nodup ∧ Demo.chain.self ∉ [Demo.bob, Demo.carol] ∧ 6 ≤ n ∧ n < 100 := by
  have h : ((Demo.strategyW Demo.chain [Demo.bob, Demo.carol] Demo.lowKey Demo.jitShared (Demo.world Demo.chain Demo.wide)).map
      (fun r => decide (6 ≤ r.2 ∧ r.2 < 100))) = some true := by decide +kernel
  rw [Option.map_eq_some_iff] at h
  obtain ⟨⟨w', n⟩, hr, hn⟩ := h
  have hn' : 6 ≤ n ∧ n < 100 := of_decide_eq_true hn
  exact ⟨w', n, (Demo.world_history (T := fun _ => True) (n := 1) (by decide +kernel) (by decide +kernel)).regular.reach, by decide +kernel, Demo.strategyW_strategy hr,
    by decide +kernel, by decide +kernel, hn'⟩

/-- Bob alone, with no position before and after. -/
example : ∃ w' n, Strategy Demo.chain [Demo.bob] Demo.lowKey (Demo.world Demo.chain Demo.wide) w' n ∧
    positionsHeld (Demo.world Demo.chain Demo.wide).store [Demo.bob] Demo.lowKey = [] ∧
    positionsHeld w'.store [Demo.bob] Demo.lowKey = [] ∧ 3 ≤ n ∧ n < 100 ∧
    w'.ledger.bal (tokenAsset Demo.chain [98]) Demo.bob < (Demo.world Demo.chain Demo.wide).ledger.bal (tokenAsset Demo.chain [98]) Demo.bob := by
  have h : ((Demo.strategyW Demo.chain [Demo.bob] Demo.lowKey (Demo.jit.filter (fun m => decide (m.1.sender = Demo.bob)))
      (Demo.world Demo.chain Demo.wide)).map
      (fun r => decide ((positionsHeld r.1.store [Demo.bob] Demo.lowKey).isEmpty = true ∧ 3 ≤ r.2 ∧ r.2 < 100 ∧
        r.1.ledger.bal (tokenAsset Demo.chain [98]) Demo.bob <
          (Demo.world Demo.chain Demo.wide).ledger.bal (tokenAsset Demo.chain [98]) Demo.bob))) = some true := by decide +kernel
  have h0 : (positionsHeld (Demo.world Demo.chain Demo.wide).store [Demo.bob] Demo.lowKey).isEmpty = true := by decide +kernel
  rw [Option.map_eq_some_iff] at h
  obtain ⟨⟨w', n⟩, hr, hn⟩ := h
  obtain ⟨h1, h2, h3, h4⟩ := of_decide_eq_true hn
  exact ⟨w', n, Demo.strategyW_strategy hr, List.isEmpty_iff.1 h0, List.isEmpty_iff.1 h1, h2, h3, h4⟩

/-- False as stated: with the three swaps of `C46_false` Bob, who has no positions, gains 1262809663 units of Y and no
X is missing; the price at the beginning is 1. -/
theorem C89_false : ∃ w w' p, WorldReach Demo.chain w ∧ Demo.runW Demo.chain Demo.pump w = .ok w' ∧
    w.store.pools.get? Demo.lowKey.key = some p ∧ priceVal p.sqrtPrice ^ 2 = 1 ∧
    wealth Demo.chain w' [Demo.bob] Demo.lowKey true = wealth Demo.chain w [Demo.bob] Demo.lowKey true ∧
    wealth Demo.chain w' [Demo.bob] Demo.lowKey false = wealth Demo.chain w [Demo.bob] Demo.lowKey false + 1262809663 := by
  have h : ((Demo.runW Demo.chain Demo.pump (Demo.world Demo.chain Demo.wide)).toOption.map (fun w' => decide (
    w'.ledger.bal (tokenAsset Demo.chain Demo.lowKey.tokenX) Demo.bob =
      (Demo.world Demo.chain Demo.wide).ledger.bal (tokenAsset Demo.chain Demo.lowKey.tokenX) Demo.bob ∧
    w'.ledger.bal (tokenAsset Demo.chain Demo.lowKey.tokenY) Demo.bob =
      (Demo.world Demo.chain Demo.wide).ledger.bal (tokenAsset Demo.chain Demo.lowKey.tokenY) Demo.bob + 1262809663 ∧
    (positionsHeld w'.store [Demo.bob] Demo.lowKey).isEmpty = true))) = some true := by
    decide +kernel
  have h0 : (positionsHeld (Demo.world Demo.chain Demo.wide).store [Demo.bob] Demo.lowKey).isEmpty = true := by decide +kernel
  have hp : ((Demo.world Demo.chain Demo.wide).store.pools.get? Demo.lowKey.key).map (·.sqrtPrice) = some (10 ^ 24) := by decide +kernel
  rw [Option.map_eq_some_iff] at hp
  obtain ⟨p, hp, hv⟩ := hp
  cases hr : Demo.runW Demo.chain Demo.pump (Demo.world Demo.chain Demo.wide) with
  | error e => rw [hr] at h; simp [Except.toOption] at h
  | ok w' =>
    rw [hr] at h
    simp only [Except.toOption, Option.map_some, Option.some.injEq, decide_eq_true_eq] at h
    obtain ⟨h1, h2, h3⟩ := h
    refine ⟨_, w', p, Demo.world_reach (by decide +kernel), hr, hp, by rw [hv]; unfold priceVal; norm_num, ?_, ?_⟩
    · unfold wealth
      rw [List.isEmpty_iff.1 h3, List.isEmpty_iff.1 h0]
      simp only [List.map_cons, List.map_nil, List.sum_cons, List.sum_nil, add_zero, if_true]
      rw [h1]
    · unfold wealth
      rw [List.isEmpty_iff.1 h3, List.isEmpty_iff.1 h0]
      simp only [List.map_cons, List.map_nil, List.sum_cons, List.sum_nil, add_zero, Bool.false_eq_true, if_false]
      rw [h2]
      push_cast
      ring

end OraiV3
