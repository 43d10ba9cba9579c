import Verif.Lemmas.Arbitrage
import Verif.Props.Funds
import Verif.Props.Strategy

/-!
# C94: pools whose prices agree cannot be played against each other

False as stated: see `C94_false`.  For swaps that end regularly, in pools whose liquidity is right (C01), and routes that pay with
each native coin once (C29), it holds.
-/

namespace OraiV3

private theorem strategies_gain {c : Chain} {G : List Bytes} {ks : List PoolKey} {w w' : World} {n : Nat} (hr : Reach c w.store)
    (hdr : ActiveIn (· ∈ ks) w.store) (hn : ks.Nodup) (hwf : ∀ k ∈ ks, k.wf)
    (hG : G.Nodup) (hself : c.self ∉ G) (h : Strategies c G ks w w' n) :
    Reach c w'.store ∧ ActiveIn (· ∈ ks) w'.store ∧ (∀ k, rest w'.store G k = rest w.store G k) ∧ ∀ t,
    stakes w'.store G ks t + balancesOf c w' G t ≤ stakes w.store G ks t + balancesOf c w G t + n / 10 ^ 14 := by
  induction h with
  | none => exact ⟨hr, hdr, fun _ => rfl, fun t => by simp⟩
  | @more w1 w2 n env info msg ht hg htx ha hreg hc ih =>
    obtain ⟨i1, i0, i2, i3⟩ := ih
    have hne : info.sender ≠ c.self := fun e => hself (e ▸ hg)
    obtain ⟨out, x1, -⟩ := tx_inv htx
    obtain ⟨s1, s2⟩ := among_step i1 i0 hn hwf hne hg htx ha hreg hc
    refine ⟨.step i1 x1, i0.step i1 x1 hreg, fun k => (s1 k).trans (i2 k), fun t => ?_⟩
    have a := s2 t
    have b := i3 t
    rw [balancesOf_step hG hself hg htx t]
    push_cast
    rw [add_div]
    linarith
  | @share w1 w2 n env info i other ht hg ho htx ih =>
    obtain ⟨i1, i0, i2, i3⟩ := ih
    have hne : info.sender ≠ c.self := fun e => hself (e ▸ hg)
    obtain ⟨out, x1, -⟩ := tx_inv htx
    obtain ⟨s1, s2, s3⟩ := share_step i1 hne hg ho htx
    refine ⟨.step i1 x1, i0.step i1 x1 trivial, fun k => (s1 k).trans (i2 k), fun t => ?_⟩
    rw [balancesOf_step hG hself hg htx t, stakes_congr (fun k _ z => s2 k z)]
    linarith [i3 t, s3 t]

/-- **C94.**  Some accounts act in some pools, with swaps, routes, new positions, withdrawals, claims and positions
changing hands among them, in any order and any number, while nobody else acts.  If the prices of these pools agree at the beginning - there are values of the tokens such that
each pool trades at their ratio - then everything the accounts have at the end, balances and positions with their fees, is worth no
more than what they had at the beginning (up to 10^-14 units of each token per rounding). -/
theorem C94_no_arbitrage_partial {c : Chain} {G : List Bytes} {ts : List Bytes} {ks : List PoolKey} {v : Bytes → ℚ} {w w' : World} {n : Nat}
    (hr : Reach c w.store) (hks : ks.Nodup) (hwf : ∀ k ∈ ks, k.wf) (hdr : ∀ k ∈ ks, drift w.store k = 0)
    (hts : ts.Nodup) (htok : ∀ k ∈ ks, k.tokenX ∈ ts ∧ k.tokenY ∈ ts) (hG : G.Nodup) (hself : c.self ∉ G)
    (hv : ∀ t ∈ ts, 0 ≤ v t) (hp : ∀ k ∈ ks, PricedAt w.store v k) (h : Strategies c G ks w w' n) :
    fortune c w' G ts ks v ≤ fortune c w G ts ks v + (ts.map v).sum * (n / 10 ^ 14) := by
  obtain ⟨hr', -, h1, h2⟩ := strategies_gain hr (fun k _ hk => hdr k hk) hks hwf hG hself h
  have hm := hr.mreach
  have hm' := hr'.mreach
  -- token by token
  have e1 : (ts.map (fun t => v t * stakes w'.store G ks t)).sum + (ts.map (fun t => v t * balancesOf c w' G t)).sum ≤
      (ts.map (fun t => v t * stakes w.store G ks t)).sum + (ts.map (fun t => v t * balancesOf c w G t)).sum +
      (ts.map v).sum * (n / 10 ^ 14) := by
    have a : (ts.map (fun t => v t * (stakes w'.store G ks t + balancesOf c w' G t))).sum ≤
        (ts.map (fun t => v t * (stakes w.store G ks t + balancesOf c w G t + n / 10 ^ 14))).sum :=
      sum_le_map (fun t ht => mul_le_mul_of_nonneg_left (h2 t) (hv t ht))
    simp only [mul_add] at a
    rw [sum_add_map, sum_add_map, sum_add_map] at a
    have b : (ts.map (fun t => v t * ((n : ℚ) / 10 ^ 14))).sum = (ts.map v).sum * (n / 10 ^ 14) := List.sum_map_mul_right ..
    linarith
  rw [stakes_value hts v htok, stakes_value hts v htok] at e1
  -- pool by pool
  have e2 : ∀ (s : Store), PosInv s → (ks.map (fun k => v k.tokenX * stake s G k true + v k.tokenY * stake s G k false)).sum =
      (ks.map (fun k => v k.tokenX * ((rest s G k).map (fun q => q.principal true (priceAt s k))).sum +
        v k.tokenY * ((rest s G k).map (fun q => q.principal false (priceAt s k))).sum)).sum +
      (ks.map (fun k => ((positionsHeld s G k).map (fun q => v k.tokenX * worth s true q + v k.tokenY * worth s false q)).sum)).sum := by
    intro s hi
    rw [← sum_add_map]
    refine congrArg List.sum (List.map_congr_left fun k _ => ?_)
    rw [stake_held hi hG, stake_held hi hG, sum_mul_map]
    ring
  have e3 : (ks.map (fun k => v k.tokenX * ((rest w.store G k).map (fun q => q.principal true (priceAt w.store k))).sum +
        v k.tokenY * ((rest w.store G k).map (fun q => q.principal false (priceAt w.store k))).sum)).sum ≤
      (ks.map (fun k => v k.tokenX * ((rest w'.store G k).map (fun q => q.principal true (priceAt w'.store k))).sum +
        v k.tokenY * ((rest w'.store G k).map (fun q => q.principal false (priceAt w'.store k))).sum)).sum := by
    refine sum_le_map (fun k hk => ?_)
    obtain ⟨p, hp1, hp2⟩ := hp k hk
    have ht := mul_le_mul_of_nonneg_left (rest_tangent hm.struct G k p.sqrtPrice (priceAt w'.store k)) (hv _ (htok k hk).2)
    rw [h1 k, priceAt_some hp1, hp2]
    linarith
  rw [e2 _ hm.posInv, e2 _ hm'.posInv] at e1
  unfold fortune
  unfold balancesOf at e1
  linarith

/-- Without positions before and after: an account which ends with no less of any token has exactly what it had. -/
theorem C94_no_free_money_partial {c : Chain} {who : Bytes} {ts : List Bytes} {ks : List PoolKey} {v : Bytes → ℚ} {w w' : World} {n : Nat}
    (hr : Reach c w.store) (hks : ks.Nodup) (hwf : ∀ k ∈ ks, k.wf) (hdr : ∀ k ∈ ks, drift w.store k = 0)
    (hts : ts.Nodup) (htok : ∀ k ∈ ks, k.tokenX ∈ ts ∧ k.tokenY ∈ ts) (hself : who ≠ c.self)
    (hv : ∀ t ∈ ts, 0 ≤ v t) (hp : ∀ k ∈ ks, PricedAt w.store v k) (h : Strategies c [who] ks w w' n)
    (h0 : ∀ k ∈ ks, positionsHeld w.store [who] k = []) (h1 : ∀ k ∈ ks, positionsHeld w'.store [who] k = [])
    (hn : ∀ t ∈ ts, (ts.map v).sum * n < 10 ^ 14 * v t)
    (hge : ∀ t ∈ ts, w.ledger.bal (tokenAsset c t) who ≤ w'.ledger.bal (tokenAsset c t) who) :
    ∀ t ∈ ts, w'.ledger.bal (tokenAsset c t) who = w.ledger.bal (tokenAsset c t) who := by
  intro t ht
  refine Nat.le_antisymm (Nat.le_of_not_lt fun hlt => ?_) (hge t ht)
  have key := C94_no_arbitrage_partial hr hks hwf hdr hts htok (by simp) (by simpa using Ne.symm hself) hv hp h
  have z : ∀ w0 : World, (∀ k ∈ ks, positionsHeld w0.store [who] k = []) →
      fortune c w0 [who] ts ks v = (ts.map (fun t => v t * (w0.ledger.bal (tokenAsset c t) who : ℚ))).sum := by
    intro w0 hh
    unfold fortune
    rw [List.map_congr_left (l := ks) (g := fun _ => (0 : ℚ)) (fun k hk => by rw [hh k hk]; rfl)]
    simp
  rw [z w h0, z w' h1] at key
  have e : v t ≤ (ts.map (fun t => v t * ((w'.ledger.bal (tokenAsset c t) who : ℚ) - w.ledger.bal (tokenAsset c t) who))).sum := by
    have a : (1 : ℚ) ≤ (w'.ledger.bal (tokenAsset c t) who : ℚ) - w.ledger.bal (tokenAsset c t) who := by
      have : (w.ledger.bal (tokenAsset c t) who : ℚ) + 1 ≤ w'.ledger.bal (tokenAsset c t) who := by exact_mod_cast hlt
      linarith
    refine le_trans ?_ (List.single_le_sum (l := ts.map (fun t => v t *
      ((w'.ledger.bal (tokenAsset c t) who : ℚ) - w.ledger.bal (tokenAsset c t) who))) ?_ _ (List.mem_map.2 ⟨t, ht, rfl⟩))
    · have := mul_le_mul_of_nonneg_left a (hv t ht)
      linarith
    · intro x hx
      obtain ⟨u, hu, rfl⟩ := List.mem_map.1 hx
      exact mul_nonneg (hv u hu) (sub_nonneg.2 (by exact_mod_cast hge u hu))
  have e2 : (ts.map (fun t => v t * (w'.ledger.bal (tokenAsset c t) who : ℚ))).sum =
      (ts.map (fun t => v t * ((w'.ledger.bal (tokenAsset c t) who : ℚ) - w.ledger.bal (tokenAsset c t) who))).sum +
      (ts.map (fun t => v t * (w.ledger.bal (tokenAsset c t) who : ℚ))).sum := by
    rw [← sum_add_map]
    refine congrArg List.sum (List.map_congr_left fun u _ => by ring)
  have e3 : (ts.map v).sum * (n / 10 ^ 14) < v t := by
    rw [← mul_div_assoc, div_lt_iff₀ (by positivity)]
    linarith [hn t ht]
  linarith

namespace Demo

/-- `ActsAmong`, computed. -/
def actsAmong (s : Store) (ks : List PoolKey) (who : Bytes) : Msg → Bool
  | .swapRoute _ _ _ hops => decide (∀ h ∈ hops, h.poolKey ∈ ks)
  | m => ks.any (fun k => actsIn s k who m)

theorem actsAmong_acts {s : Store} {ks : List PoolKey} {who : Bytes} {m : Msg} (h : actsAmong s ks who m = true) : ActsAmong s ks who m := by
  cases m
  case swapRoute => simpa only [actsAmong, ActsAmong, decide_eq_true_eq] using h
  all_goals
    simp only [actsAmong, List.any_eq_true] at h
    obtain ⟨k, hk, h⟩ := h
    exact ⟨k, hk, actsIn_acts h⟩

/-- `RegularRoute`, computed. -/
def regularRoute (c : Chain) (info : Info) (now : Nat) : List Hop → Store → Nat → Bool
  | [], _, _ => true
  | h :: hs, s, amount =>
    match swapInternal c s info now h.poolKey h.xToY amount true (hopLimit h.xToY) with
    | .ok r => decide (RegularEnd r.1 h.poolKey h.xToY true (hopLimit h.xToY)) && regularRoute c info now hs r.1 r.2.2.amountOut
    | .error _ => true

theorem regularRoute_regular {c : Chain} {P : PoolKey → Prop} {info : Info} {now : Nat} : ∀ {hops : List Hop} {s : Store} {a : Nat},
    regularRoute c info now hops s a = true → RegularRoute c P info now hops s a
  | [], _, _, _ => trivial
  | h :: hs, s, a, hr => by
    intro r e
    simp only [regularRoute, e, Bool.and_eq_true, decide_eq_true_eq] at hr
    exact ⟨fun _ => hr.1, regularRoute_regular hr.2⟩

/-- `RegularCall` and `ChargedOnce`, computed. -/
def orderly (c : Chain) (i : Info) (s s' : Store) : Msg → Bool
  | .swapRoute a _ _ hops => regularRoute c i env.millis hops s a && decide ((hops.map (fun h => tokenIn h.poolKey h.xToY)).Nodup)
  | m => regularB s' m

theorem orderly_spec {c : Chain} {P : PoolKey → Prop} {i : Info} {s s' : Store} {m : Msg} (h : orderly c i s s' m = true) :
    RegularCall c P env i s s' m ∧ ChargedOnce c (fun _ => True) m := by
  cases m
  case swapRoute =>
    simp only [orderly, Bool.and_eq_true, decide_eq_true_eq] at h
    exact ⟨regularRoute_regular h.1, fun t _ _ => List.nodup_iff_count_le_one.1 h.2 t⟩
  all_goals exact ⟨regularB_regular h, trivial⟩

/-- Calls of the accounts `G` in some pools, and their roundings. -/
def strategiesW (c : Chain) (G : List Bytes) (ks : List PoolKey) : List (Info × Msg) → World → Option (World × Nat)
  | [], w => some (w, 0)
  | (i, m) :: ms, w =>
    match w.tx c env i m with
    | .error _ => none
    | .ok w' =>
      if i.sender ∈ G ∧ actsAmong w.store ks i.sender m = true ∧ orderly c i w.store w'.store m = true then
        (strategiesW c G ks ms w').map (fun r => (r.1, roundings c env i w.store m + r.2))
      else if i.sender ∈ G ∧ shares G m = true then strategiesW c G ks ms w'
      else none

theorem Strategies.trans {c : Chain} {G : List Bytes} {ks : List PoolKey} {a b d : World} {n m : Nat} (h1 : Strategies c G ks a b n)
    (h2 : Strategies c G ks b d m) : Strategies c G ks a d (n + m) := by
  induction h2 with
  | none => exact h1
  | more _ hg htx ha hreg hc ih => rw [← Nat.add_assoc]; exact .more ih hg htx ha hreg hc
  | share _ hg ho htx ih => exact .share ih hg ho htx

theorem strategiesW_strategies {c : Chain} {G : List Bytes} {ks : List PoolKey} : ∀ {ms : List (Info × Msg)} {w w' : World} {n : Nat},
    strategiesW c G ks ms w = some (w', n) → Strategies c G ks w w' n
  | [], w, w', n, h => by
    simp only [strategiesW, Option.some.injEq, Prod.mk.injEq] at h
    obtain ⟨rfl, rfl⟩ := h
    exact .none _
  | (i, m) :: ms, w, w', n, h => by
    simp only [strategiesW] at h
    split at h
    · simp at h
    · rename_i w1 hw
      split at h
      · rename_i hc
        obtain ⟨h1, h2, h3⟩ := hc
        rw [Option.map_eq_some_iff] at h
        obtain ⟨⟨w2, m⟩, e1, e2⟩ := h
        simp only [Prod.mk.injEq] at e2
        obtain ⟨rfl, rfl⟩ := e2
        have := Strategies.more (.none w) h1 hw (actsAmong_acts h2) (orderly_spec h3).1 (orderly_spec (i := i) (s := w.store) (P := fun _ => True) h3).2
        rw [Nat.zero_add] at this
        exact Strategies.trans this (strategiesW_strategies e1)
      · split at h
        · rename_i hc
          obtain ⟨h1, h2⟩ := hc
          obtain ⟨j, r, rfl, hr⟩ := shares_spec h2
          have := Strategies.trans (Strategies.share (.none w) h1 hr hw) (strategiesW_strategies h)
          rwa [Nat.zero_add] at this
        · simp at h

/-- Three pools that trade three tokens against each other, all at price 1. -/
def trioKeys : List PoolKey := [⟨[97], [98], tier⟩, ⟨[98], [99], tier⟩, ⟨[97], [99], tier⟩]

def trio : List (Info × Msg) :=
  [(by_ alice, .addFeeTier tier),
   (by_ alice, .createPool [97] [98] tier (10 ^ 24) 0), (by_ alice, .createPool [98] [99] tier (10 ^ 24) 0),
   (by_ alice, .createPool [97] [99] tier (10 ^ 24) 0),
   (by_ alice, .createPosition ⟨[97], [98], tier⟩ (-1000) 1000 (10 ^ 15) 0 (10 ^ 30)),
   (by_ alice, .createPosition ⟨[98], [99], tier⟩ (-1000) 1000 (10 ^ 15) 0 (10 ^ 30)),
   (by_ alice, .createPosition ⟨[97], [99], tier⟩ (-1000) 1000 (10 ^ 15) 0 (10 ^ 30))]

/-- Bob goes round the three pools, moves a price, provides liquidity, goes round the other way, and leaves. -/
def round : List (Info × Msg) :=
  [(by_ bob, .swapRoute 100000 0 (10 ^ 12) [⟨⟨[97], [98], tier⟩, true⟩, ⟨⟨[98], [99], tier⟩, true⟩, ⟨⟨[97], [99], tier⟩, false⟩]),
   (by_ bob, .swap ⟨[98], [99], tier⟩ true 3000000 true MIN_SQRT_PRICE),
   (by_ bob, .createPosition ⟨[97], [99], tier⟩ (-100) 100 (10 ^ 14) 0 (10 ^ 30)),
   (by_ bob, .swapRoute 2000000 0 (10 ^ 12) [⟨⟨[97], [99], tier⟩, true⟩, ⟨⟨[98], [99], tier⟩, false⟩, ⟨⟨[97], [98], tier⟩, false⟩]),
   (by_ bob, .removePosition 0)]

/-- The same, except that Bob gives the position to Carol, who closes it. -/
def roundShared : List (Info × Msg) := round.dropLast ++ [(by_ bob, .transferPosition 0 carol), (by_ carol, .removePosition 0)]

end Demo

/-- The hypotheses hold of it, with all tokens worth the same. -/
example : ∃ w' n, Reach Demo.chain (Demo.world Demo.chain Demo.trio).store ∧ Demo.trioKeys.Nodup ∧ (∀ k ∈ Demo.trioKeys, k.wf) ∧
    (∀ k ∈ Demo.trioKeys, drift (Demo.world Demo.chain Demo.trio).store k = 0) ∧
    (∀ k ∈ Demo.trioKeys, PricedAt (Demo.world Demo.chain Demo.trio).store (fun _ => 1) k) ∧
    Strategies Demo.chain [Demo.bob, Demo.carol] Demo.trioKeys (Demo.world Demo.chain Demo.trio) w' n ∧ 8 ≤ n ∧ n < 100 ∧
    (∀ k ∈ Demo.trioKeys, positionsHeld (Demo.world Demo.chain Demo.trio).store [Demo.bob, Demo.carol] k = []) ∧
    (∀ k ∈ Demo.trioKeys, positionsHeld w'.store [Demo.bob, Demo.carol] k = []) ∧
    fortune Demo.chain w' [Demo.bob, Demo.carol] [[97], [98], [99]] Demo.trioKeys (fun _ => 1) + 1000 <
      fortune Demo.chain (Demo.world Demo.chain Demo.trio) [Demo.bob, Demo.carol] [[97], [98], [99]] Demo.trioKeys (fun _ => 1) := by
  have h : ((Demo.strategiesW Demo.chain [Demo.bob, Demo.carol] Demo.trioKeys Demo.roundShared (Demo.world Demo.chain Demo.trio)).map
      (fun r => decide (8 ≤ r.2 ∧ r.2 < 100 ∧ (∀ k ∈ Demo.trioKeys, (positionsHeld r.1.store [Demo.bob, Demo.carol] k).isEmpty = true) ∧
        fortune Demo.chain r.1 [Demo.bob, Demo.carol] [[97], [98], [99]] Demo.trioKeys (fun _ => 1) + 1000 <
          fortune Demo.chain (Demo.world Demo.chain Demo.trio) [Demo.bob, Demo.carol] [[97], [98], [99]] Demo.trioKeys (fun _ => 1)))) = some true := by
    decide +kernel
  have h0 : ∀ k ∈ Demo.trioKeys, (positionsHeld (Demo.world Demo.chain Demo.trio).store [Demo.bob, Demo.carol] k).isEmpty = true := by decide +kernel
  have hp : ∀ k ∈ Demo.trioKeys, ((Demo.world Demo.chain Demo.trio).store.pools.get? k.key).map (·.sqrtPrice) = some (10 ^ 24) := by decide +kernel
  rw [Option.map_eq_some_iff] at h
  obtain ⟨⟨w', n⟩, hr, hn⟩ := h
  obtain ⟨h1, h2, h3, h4⟩ := of_decide_eq_true hn
  refine ⟨w', n, (Demo.world_history (T := fun _ => True) (n := 3) (by decide +kernel) (by decide +kernel)).regular.reach, by decide +kernel, by decide +kernel, by decide +kernel, fun k hk => ?_,
    Demo.strategiesW_strategies hr, h1, h2, fun k hk => List.isEmpty_iff.1 (h0 k hk), fun k hk => List.isEmpty_iff.1 (h3 k hk), h4⟩
  have := hp k hk
  rw [Option.map_eq_some_iff] at this
  obtain ⟨p, e1, e2⟩ := this
  exact ⟨p, e1, by rw [e2]; unfold priceVal; norm_num⟩

/-- Bob alone, as in the second theorem. -/
example : ∃ w' n, Strategies Demo.chain [Demo.bob] Demo.trioKeys (Demo.world Demo.chain Demo.trio) w' n ∧ 8 ≤ n ∧ 3 * n < 10 ^ 14 ∧
    (∀ k ∈ Demo.trioKeys, positionsHeld (Demo.world Demo.chain Demo.trio).store [Demo.bob] k = []) ∧
    (∀ k ∈ Demo.trioKeys, positionsHeld w'.store [Demo.bob] k = []) := by
  have h : ((Demo.strategiesW Demo.chain [Demo.bob] Demo.trioKeys Demo.round (Demo.world Demo.chain Demo.trio)).map
      (fun r => decide (8 ≤ r.2 ∧ 3 * r.2 < 10 ^ 14 ∧ (∀ k ∈ Demo.trioKeys, (positionsHeld r.1.store [Demo.bob] k).isEmpty = true)))) = some true := by
    decide +kernel
  have h0 : ∀ k ∈ Demo.trioKeys, (positionsHeld (Demo.world Demo.chain Demo.trio).store [Demo.bob] k).isEmpty = true := by decide +kernel
  rw [Option.map_eq_some_iff] at h
  obtain ⟨⟨w', n⟩, hr, hn⟩ := h
  obtain ⟨h1, h2, h3⟩ := of_decide_eq_true hn
  exact ⟨w', n, Demo.strategiesW_strategies hr, h1, h2, fun k hk => List.isEmpty_iff.1 (h0 k hk), fun k hk => List.isEmpty_iff.1 (h3 k hk)⟩

/-- False as stated, without any irregular swap: the route of `C29_false`, which pays with the same native coin twice, makes Bob, who
has no positions, richer by 99968 units at a price of 1.  (Another witness is `C89_false`.) -/
theorem C94_false : ∃ w w' : World, WorldReach Demo.nativeChain w ∧ PricedAt w.store (fun _ => 1) Demo.key ∧ drift w.store Demo.key = 0 ∧
    w.tx Demo.nativeChain Demo.env ⟨Demo.bob, Demo.coins 100000⟩ (.swapRoute 1000 0 0 Demo.zigzag) = .ok w' ∧
    fortune Demo.nativeChain w' [Demo.bob] [[97], [98]] [Demo.key] (fun _ => 1) =
      fortune Demo.nativeChain w [Demo.bob] [[97], [98]] [Demo.key] (fun _ => 1) + 99968 := by
  have h : (match (Demo.world Demo.nativeChain Demo.natives).tx Demo.nativeChain Demo.env ⟨Demo.bob, Demo.coins 100000⟩
      (.swapRoute 1000 0 0 Demo.zigzag) with
    | .ok w' => decide (fortune Demo.nativeChain w' [Demo.bob] [[97], [98]] [Demo.key] (fun _ => 1) =
      fortune Demo.nativeChain (Demo.world Demo.nativeChain Demo.natives) [Demo.bob] [[97], [98]] [Demo.key] (fun _ => 1) + 99968)
    | .error _ => false) = true := by decide +kernel
  have hp : ((Demo.world Demo.nativeChain Demo.natives).store.pools.get? Demo.key.key).map (·.sqrtPrice) = some (10 ^ 24) := by decide +kernel
  rw [Option.map_eq_some_iff] at hp
  obtain ⟨p, e1, e2⟩ := hp
  cases hx : (Demo.world Demo.nativeChain Demo.natives).tx Demo.nativeChain Demo.env ⟨Demo.bob, Demo.coins 100000⟩
      (.swapRoute 1000 0 0 Demo.zigzag) with
  | error e => rw [hx] at h; cases h
  | ok w' =>
    rw [hx] at h
    exact ⟨_, w', Demo.world_reach (by decide +kernel), ⟨p, e1, by rw [e2]; unfold priceVal; norm_num⟩, by decide +kernel, hx, of_decide_eq_true h⟩

end OraiV3
