import Verif.Lemmas.RelExec
import Verif.Lemmas.Frame
import Verif.Lemmas.Micro
import Verif.Examples
import Verif.Props.Quote

/-!
# C55: independent calls; C56: the clock; C57: the trader
-/

namespace OraiV3

/-! ## C55 -/

theorem Msg.usesPool_wf {s : Store} (hs : Struct s) {msg : Msg} (hw : msg.wf) {sender : Bytes} {k : PoolKey}
    (h : msg.usesPool s sender k) : k.wf := by
  have hpos : ∀ id, (∃ p, s.positions.get? id = some p ∧ p.poolKey = k) → k.wf := by
    rintro id ⟨p, hp, rfl⟩
    exact (hs.positions _ _ hp).kwf
  cases msg <;> simp only [Msg.usesPool, Msg.onPool] at h <;> try exact h.elim
  case withdrawProtocolFee => rw [← h]; exact hw
  case changeFeeReceiver => rw [← h]; exact hw
  case createPosition => rw [← h]; exact hw.1
  case mint => rw [← h]; exact hw.1
  case swap => rw [← h]; exact hw.1
  case swapRoute => obtain ⟨x, hx, rfl⟩ := h; exact hw.2.2.2 x hx
  case createPool =>
    rcases h with rfl | rfl
    · exact ⟨hw.1, hw.2.1, hw.2.2.1⟩
    · exact ⟨hw.2.1, hw.1, hw.2.2.1⟩
  case claimFee => exact hpos _ h
  case removePosition => exact hpos _ h
  case burn => exact hpos _ h

/-- Both calls are about pools and positions (they change neither the settings nor an account's operators), they use no
pool in common, and they look into no account's positions in common. -/
structure Independent (s : Store) (a : Bytes) (ma : Msg) (b : Bytes) (mb : Msg) : Prop where
  first : ma.global = false
  second : mb.global = false
  pools : ∀ k, ¬ (ma.usesPool s a k ∧ mb.usesPool s b k)
  accounts : ∀ u ∈ ma.accounts a, u ∉ mb.accounts b

theorem Independent.symm {s : Store} {a : Bytes} {ma : Msg} {b : Bytes} {mb : Msg} (h : Independent s a ma b mb) :
    Independent s b mb a ma :=
  ⟨h.second, h.first, fun k hk => h.pools k hk.symm, fun u hu hu' => h.accounts u hu' hu⟩

abbrev Foot (n : Nat) (s : Store) (a : Bytes) (ma : Msg) : Store → Store → Store → Store → Prop :=
  SR true false false (fun _ => True) n n (fun k => ma.usesPool s a k) (fun u => u ∈ ma.accounts a)

theorem ORel.of_eq {α : Type} {R : α → α → Prop} (hR : ∀ a, R a a) {x y : Option α} (h : x = y) : ORel R x y := by
  subst h
  cases x
  · trivial
  · exact hR _

theorem Foot.self (n : Nat) (s : Store) (a : Bytes) (ma : Msg) (t : Store) : Foot n s a ma t t t t where
  config := rfl
  operators := rfl
  pools _ _ := ORel.of_eq PRel.refl rfl
  ticks _ _ _ := ORel.of_eq TRel.refl rfl
  bitmap _ _ _ := ⟨rfl, fun _ => rfl⟩
  positions _ _ := ORel.of_eq QRel.refl rfl
  posLen _ _ := ⟨rfl, fun _ => rfl⟩
  expires := by simp
  kPools _ _ := ⟨rfl, rfl⟩
  kTicks _ _ := ⟨rfl, rfl⟩
  kBitmap _ _ := ⟨rfl, rfl⟩
  kPositions _ _ := ⟨rfl, rfl⟩
  kPosLen _ _ := ⟨rfl, rfl⟩
  kConfig _ := ⟨rfl, rfl⟩
  kOperators _ := ⟨rfl, rfl⟩

theorem Foot.run {c : Chain} {env : Env} {info : Info} {msg : Msg} {s t t' u : Store} (hg : msg.global = false)
    (h : Foot env.millis s info.sender msg t t' s u) :
    Rel (fun x y => Foot env.millis s info.sender msg t t' x.1 y.1 ∧ y.2 = x.2) (execute c env info msg s) (execute c env info msg u) :=
  SR.execute h rfl rfl (fun _ => rfl) rfl trivial c (fun _ => hg) (fun _ hk => hk) (fun _ hu => hu) (by simp)

/-- After the second call, the data the first call uses is as before. -/
theorem Foot.after {c : Chain} {s s1 : Store} {env : Env} {ia ib : Info} {ma mb : Msg} {out : List OutMsg} (hs : Struct s)
    (hwa : ma.wf) (hi : Independent s ia.sender ma ib.sender mb) (h : execute c env ib mb s = .ok (s1, out)) (n : Nat) :
    Foot n s ia.sender ma s s1 s s1 := by
  have hwb := (execute_ok.1 h).1
  obtain ⟨r, hr, hf, -⟩ := (Foot.run (c := c) hi.second (Foot.self env.millis s ib.sender mb s)).of_ok h
  rw [h, ok_inj] at hr
  subst hr
  have hne : ∀ k, ma.usesPool s ia.sender k → ∀ k', mb.usesPool s ib.sender k' → k ≠ k' := by
    rintro k hk k' hk' rfl
    exact hi.pools k ⟨hk, hk'⟩
  have hwf : ∀ k, ma.usesPool s ia.sender k → k.wf := fun k hk => Msg.usesPool_wf hs hwa hk
  have hwf' : ∀ k, mb.usesPool s ib.sender k → k.wf := fun k hk => Msg.usesPool_wf hs hwb hk
  exact {
    config := (hf.kConfig rfl).1
    operators := (hf.kOperators rfl).1
    pools := fun k hk => ORel.of_eq PRel.refl (hf.kPools k.key fun k' hk' => key_ne (hwf k hk) (hwf' k' hk') (hne k hk k' hk')).1.symm
    ticks := fun k i hk => ORel.of_eq TRel.refl
      (hf.kTicks (tickKey k i) fun k' j hk' => tickKey_ne (hwf k hk) (hwf' k' hk') (hne k hk k' hk') i j).1.symm
    bitmap := fun k i hk => by
      rw [(hf.kBitmap (bitmapKey i k) fun k' j hk' => bitmapKey_ne (hwf k hk) (hwf' k' hk') (hne k hk k' hk') i j).1]
      exact ⟨rfl, fun _ => rfl⟩
    positions := fun id hid => ORel.of_eq QRel.refl (hf.kPositions id (hi.accounts _ hid)).1.symm
    posLen := fun u hu => by
      rw [(hf.kPosLen u (hi.accounts _ hu)).1]
      exact ⟨rfl, fun _ => rfl⟩
    expires := by simp
    kPools := fun _ _ => ⟨rfl, rfl⟩
    kTicks := fun _ _ => ⟨rfl, rfl⟩
    kBitmap := fun _ _ => ⟨rfl, rfl⟩
    kPositions := fun _ _ => ⟨rfl, rfl⟩
    kPosLen := fun _ _ => ⟨rfl, rfl⟩
    kConfig := fun _ => ⟨rfl, rfl⟩
    kOperators := fun _ => ⟨rfl, rfl⟩ }

/-- **C55.** Another user's call on other pools and other accounts' positions changes nothing about a call: whether it is
accepted, the error if not, and the payments it makes. -/
theorem C55_outcome {c : Chain} {s s1 : Store} {env envB : Env} {ia ib : Info} {ma mb : Msg} {out : List OutMsg} (hr : Reach c s)
    (hi : Independent s ia.sender ma ib.sender mb) (hb : execute c envB ib mb s = .ok (s1, out)) :
    (execute c env ia ma s1).map (·.2) = (execute c env ia ma s).map (·.2) := by
  by_cases hw : ma.wf
  · have h := Foot.run (c := c) (env := env) (info := ia) hi.first (Foot.after hr.mreach.struct hw hi hb env.millis)
    revert h
    cases execute c env ia ma s <;> cases execute c env ia ma s1 <;> intro h
    · exact congrArg Except.error (show _ = _ from h).symm
    · exact h.elim
    · exact h.elim
    · exact congrArg Except.ok h.2
  · unfold execute
    rw [if_neg hw, if_neg hw]

/-- **C55.** The order of the two calls does not matter: the same storage is reached and the same payments are made. -/
theorem C55_commute {c : Chain} {s s1 s2 : Store} {envA envB : Env} {ia ib : Info} {ma mb : Msg} {oa ob : List OutMsg}
    (hr : Reach c s) (hi : Independent s ia.sender ma ib.sender mb) (ha : execute c envA ia ma s = .ok (s1, oa))
    (hb : execute c envB ib mb s1 = .ok (s2, ob)) :
    ∃ s1', execute c envB ib mb s = .ok (s1', ob) ∧ execute c envA ia ma s1' = .ok (s2, oa) := by
  have hs := hr.mreach.struct
  have hwa := (execute_ok.1 ha).1
  have hwb := (execute_ok.1 hb).1
  -- the second call from the start
  have h1 := Foot.run (c := c) (env := envB) (info := ib) hi.second (Foot.after hs hwb hi.symm ha envB.millis)
  rw [hb] at h1
  cases hb' : execute c envB ib mb s with
  | error e => rw [hb'] at h1; exact h1.elim
  | ok r =>
    rw [hb'] at h1
    obtain ⟨t, o⟩ := r
    obtain ⟨hf1, rfl⟩ := h1
    simp only at hf1
    -- the first call afterwards
    have h2 := Foot.run (c := c) (env := envA) (info := ia) hi.first (Foot.after hs hwa hi hb' envA.millis)
    rw [ha] at h2
    obtain ⟨y, hy, hf2, ho⟩ := h2.of_ok rfl
    obtain ⟨t2, o2⟩ := y
    simp only at hf2 ho
    subst ho
    -- frames of the first runs
    obtain ⟨r, hr1, hfa, -⟩ := (Foot.run (c := c) hi.first (Foot.self envA.millis s ia.sender ma s)).of_ok ha
    rw [ha, ok_inj] at hr1
    subst hr1
    simp only at hfa
    refine ⟨t, rfl, ?_⟩
    rw [hy, ok_inj, Prod.mk.injEq]
    refine ⟨?_, rfl⟩
    have hor : ∀ {α : Type} {x y : Option α} {R : α → α → Prop}, (∀ a b, R a b → a = b) → ORel R x y → x = y := by
      intro α x y R hR h
      cases x <;> cases y
      · rfl
      · exact h.elim
      · exact h.elim
      · rw [hR _ _ h]
    have e1 : t2.config = s2.config := by
      rw [(hf2.kConfig rfl).2, (hf1.kConfig rfl).2, (hf1.kConfig rfl).1, (hfa.kConfig rfl).1]
    have e2 : t2.operators = s2.operators := by
      rw [(hf2.kOperators rfl).2, (hf1.kOperators rfl).2, (hf1.kOperators rfl).1, (hfa.kOperators rfl).1]
    have e3 : t2.pools = s2.pools := KV.ext_get? fun key => by
      by_cases hA : ∀ k, ma.usesPool s ia.sender k → key ≠ k.key
      · rw [(hf2.kPools key hA).2]
        by_cases hB : ∀ k, mb.usesPool s ib.sender k → key ≠ k.key
        · rw [(hf1.kPools key hB).1, (hf1.kPools key hB).2, (hfa.kPools key hA).1]
        · simp only [not_forall, not_not] at hB
          obtain ⟨k, hk, rfl⟩ := hB
          exact hor (fun _ _ h => h.eq) (hf1.pools k hk)
      · simp only [not_forall, not_not] at hA
        obtain ⟨k, hk, rfl⟩ := hA
        rw [← hor (fun _ _ h => h.eq) (hf2.pools k hk)]
        exact ((hf1.kPools k.key fun k' hk' => key_ne (Msg.usesPool_wf hs hwa hk) (Msg.usesPool_wf hs hwb hk')
          (by rintro rfl; exact hi.pools k ⟨hk, hk'⟩)).2).symm
    have e4 : t2.ticks = s2.ticks := KV.ext_get? fun key => by
      by_cases hA : ∀ k i, ma.usesPool s ia.sender k → key ≠ tickKey k i
      · rw [(hf2.kTicks key hA).2]
        by_cases hB : ∀ k i, mb.usesPool s ib.sender k → key ≠ tickKey k i
        · rw [(hf1.kTicks key hB).1, (hf1.kTicks key hB).2, (hfa.kTicks key hA).1]
        · simp only [not_forall, not_not] at hB
          obtain ⟨k, i, hk, rfl⟩ := hB
          exact hor (fun _ _ h => h.eq) (hf1.ticks k i hk)
      · simp only [not_forall, not_not] at hA
        obtain ⟨k, i, hk, rfl⟩ := hA
        rw [← hor (fun _ _ h => h.eq) (hf2.ticks k i hk)]
        exact ((hf1.kTicks (tickKey k i) fun k' j hk' => tickKey_ne (Msg.usesPool_wf hs hwa hk) (Msg.usesPool_wf hs hwb hk')
          (by rintro rfl; exact hi.pools k ⟨hk, hk'⟩) i j).2).symm
    have e5 : t2.bitmap = s2.bitmap := KV.ext_get? fun key => by
      by_cases hA : ∀ k i, ma.usesPool s ia.sender k → key ≠ bitmapKey i k
      · rw [(hf2.kBitmap key hA).2]
        by_cases hB : ∀ k i, mb.usesPool s ib.sender k → key ≠ bitmapKey i k
        · rw [(hf1.kBitmap key hB).1, (hf1.kBitmap key hB).2, (hfa.kBitmap key hA).1]
        · simp only [not_forall, not_not] at hB
          obtain ⟨k, i, hk, rfl⟩ := hB
          exact (hf1.bitmap k i hk).2 rfl
      · simp only [not_forall, not_not] at hA
        obtain ⟨k, i, hk, rfl⟩ := hA
        rw [← (hf2.bitmap k i hk).2 rfl]
        exact ((hf1.kBitmap (bitmapKey i k) fun k' j hk' => bitmapKey_ne (Msg.usesPool_wf hs hwa hk) (Msg.usesPool_wf hs hwb hk')
          (by rintro rfl; exact hi.pools k ⟨hk, hk'⟩) i j).2).symm
    have e6 : t2.positions = s2.positions := KV.ext_get? fun id => by
      by_cases hA : id.take (id.length - 4) ∈ ma.accounts ia.sender
      · rw [← hor (fun _ _ h => h.eq) (hf2.positions id hA), (hf1.kPositions id (hi.accounts _ hA)).2]
      · rw [(hf2.kPositions id hA).2]
        by_cases hB : id.take (id.length - 4) ∈ mb.accounts ib.sender
        · exact hor (fun _ _ h => h.eq) (hf1.positions id hB)
        · rw [(hf1.kPositions id hB).1, (hf1.kPositions id hB).2, (hfa.kPositions id hA).1]
    have e7 : t2.posLen = s2.posLen := KV.ext_get? fun u => by
      by_cases hA : u ∈ ma.accounts ia.sender
      · rw [(hf2.posLen u hA).2 rfl, (hf1.kPosLen u (hi.accounts _ hA)).2]
      · rw [(hf2.kPosLen u hA).2]
        by_cases hB : u ∈ mb.accounts ib.sender
        · rw [(hf1.posLen u hB).2 rfl]
        · rw [(hf1.kPosLen u hB).1, (hf1.kPosLen u hB).2, (hfa.kPosLen u hA).1]
    cases t2; cases s2
    simp only at e1 e2 e3 e4 e5 e6 e7
    subst e1 e2 e3 e4 e5 e6 e7
    rfl

namespace Demo

/-- Bob trades in one pool, Carol removes their position from another. -/
def localCalls : List (Info × Msg) := twoPools ++ [(by_ carol, .createPosition keyBC (-10) 10 (10 ^ 12) 0 (10 ^ 30))]

end Demo

example : Independent (Demo.state Demo.chain Demo.localCalls) Demo.bob (.swap Demo.key true 800 true MIN_SQRT_PRICE)
    Demo.carol (.removePosition 0) where
  first := rfl
  second := rfl
  pools := by
    rintro k ⟨h1, p, hp, h2⟩
    have hp' : ((Demo.state Demo.chain Demo.localCalls).positions.get? (positionKey Demo.carol 0)).map (·.poolKey) = some Demo.keyBC := by
      decide +kernel
    rw [hp, Option.map_some, Option.some.injEq, h2, ← h1] at hp'
    exact absurd hp' (by decide)
  accounts := by simp [Msg.accounts]

/-- Both orders are possible. -/
example :
    Demo.works Demo.chain (Demo.localCalls ++ [(Demo.by_ Demo.bob, .swap Demo.key true 800 true MIN_SQRT_PRICE),
      (Demo.by_ Demo.carol, .removePosition 0)]) = true ∧
    Demo.works Demo.chain (Demo.localCalls ++ [(Demo.by_ Demo.carol, .removePosition 0),
      (Demo.by_ Demo.bob, .swap Demo.key true 800 true MIN_SQRT_PRICE)]) = true := by decide +kernel

/-- In the same pool the order matters: Carol gets something else after Bob's swap. -/
example :
    let s := Demo.state Demo.chain Demo.localCalls
    let x := execute Demo.chain Demo.env (Demo.by_ Demo.bob) (.swap Demo.key true 800000 true MIN_SQRT_PRICE) s
    let y := x.bind fun r => execute Demo.chain Demo.env (Demo.by_ Demo.carol) (.swap Demo.key true 800 true MIN_SQRT_PRICE) r.1
    let z := execute Demo.chain Demo.env (Demo.by_ Demo.carol) (.swap Demo.key true 800 true MIN_SQRT_PRICE) s
    y.toOption.map (·.2) ≠ z.toOption.map (·.2) := by decide +kernel

/-! ## C56 -/

theorem SR.later {zs W : Bool} {E : Expiration → Prop} {n n' m m' : Nat} {K : PoolKey → Prop} {U : Bytes → Prop} {s0 s0' s s' : Store}
    (h : SR false zs W E n n' K U s0 s0' s s') (hm : n ≤ m) (hm' : n' ≤ m') : SR false zs W E m m' K U s0 s0' s s' :=
  { h with
    pools := fun k hk => by
      have := h.pools k hk
      revert this
      cases s.pools.get? k.key <;> cases s'.pools.get? k.key <;> intro this
      · exact this
      · exact this
      · exact this
      · exact ⟨this.1, this.2.1.trans hm, this.2.2.1.trans hm', this.2.2.2⟩ }

theorem SR.sameButTimes {E : Expiration → Prop} {n n' : Nat} {s0 s s' : Store}
    (h : SR false false true E n n' (fun _ => True) (fun _ => True) s0 s0 s s') : SameButTimes s s' := by
  have hor : ∀ {α : Type} {x y : Option α} {R : α → α → Prop} {f : α → α}, (∀ a b, R a b → f a = f b) → ORel R x y →
      y.map f = x.map f := by
    intro α x y R f hR h
    cases x <;> cases y
    · rfl
    · exact h.elim
    · exact h.elim
    · exact congrArg some (hR _ _ h).symm
  exact {
    config := h.config
    operators := h.operators
    pools := fun key => by
      by_cases hA : ∀ k : PoolKey, True → key ≠ k.key
      · rw [(h.kPools key hA).1, (h.kPools key hA).2]
      · simp only [not_forall, not_not] at hA
        obtain ⟨k, hk, rfl⟩ := hA
        exact hor (fun _ _ h => h.1) (h.pools k hk)
    ticks := fun key => by
      by_cases hA : ∀ (k : PoolKey) (i : Int), True → key ≠ tickKey k i
      · rw [(h.kTicks key hA).1, (h.kTicks key hA).2]
      · simp only [not_forall, not_not] at hA
        obtain ⟨k, i, hk, rfl⟩ := hA
        refine hor (fun a b h => ?_) (h.ticks k i hk)
        obtain ⟨so, sg, rfl, hsg, -⟩ := h.form
        rcases hsg with rfl | ⟨hz, -⟩
        · rfl
        · simp at hz
    bitmap := fun key => by
      by_cases hA : ∀ (k : PoolKey) i, True → key ≠ bitmapKey i k
      · rw [(h.kBitmap key hA).1, (h.kBitmap key hA).2]
      · simp only [not_forall, not_not] at hA
        obtain ⟨k, i, hk, rfl⟩ := hA
        exact (h.bitmap k i hk).1.symm
    positions := fun id => hor (fun _ _ h => h.1) (h.positions id trivial)
    posLen := fun u => (h.posLen u trivial).2 rfl }

/-- The times of the blocks do not decrease. -/
def Forward (l : List Env) : Prop := l.Pairwise fun a b => a.millis ≤ b.millis

theorem run_two {c : Chain} {zs : Bool} {E : Expiration → Prop} (hn : E .never) {s0 s0' : Store} :
    ∀ (calls : List (Env × Env × Info × Msg)) {n n' : Nat} {s s' : Store},
      SR false zs true E n n' (fun _ => True) (fun _ => True) s0 s0' s s' →
      (∀ x ∈ calls, n ≤ x.1.millis ∧ n' ≤ x.2.1.millis) →
      Forward (calls.map (·.1)) → Forward (calls.map (·.2.1)) →
      (∀ x ∈ calls, ∀ e, E e → e.isExpired x.2.1 = e.isExpired x.1) →
      (∀ x ∈ calls, ∀ e ∈ x.2.2.2.expirations, E e) →
      (runCalls c (calls.map fun x => (x.2.1, x.2.2)) s').2 = (runCalls c (calls.map fun x => (x.1, x.2.2)) s).2 ∧
      ∃ m m', SR false zs true E m m' (fun _ => True) (fun _ => True) s0 s0' (runCalls c (calls.map fun x => (x.1, x.2.2)) s).1
        (runCalls c (calls.map fun x => (x.2.1, x.2.2)) s').1
  | [], _, _, _, _, h, _, _, _, _, _ => ⟨rfl, _, _, h⟩
  | (env, env', info, msg) :: rest, n, n', s, s', h, hle, hf, hf', hE, hX => by
    have h0 := hle _ List.mem_cons_self
    have h1 := h.later h0.1 h0.2
    have hx := SR.execute h1 (env := env) (env' := env') rfl rfl (by simp) (show SameClock false E env env' from hE _ List.mem_cons_self)
      hn c (info := info) (msg := msg) (by simp) (fun _ _ => trivial) (fun _ _ => trivial) (fun _ => hX _ List.mem_cons_self)
    unfold Forward at hf hf'
    simp only [List.map_cons, List.pairwise_cons, List.mem_map, forall_exists_index, and_imp] at hf hf'
    have hle' : ∀ x ∈ rest, env.millis ≤ x.1.millis ∧ env'.millis ≤ x.2.1.millis := fun x hx =>
      ⟨hf.1 _ x hx rfl, hf'.1 _ x hx rfl⟩
    have hE' : ∀ x ∈ rest, ∀ e, E e → e.isExpired x.2.1 = e.isExpired x.1 := fun x hx => hE x (List.mem_cons_of_mem _ hx)
    have hX' : ∀ x ∈ rest, ∀ e ∈ x.2.2.2.expirations, E e := fun x hx => hX x (List.mem_cons_of_mem _ hx)
    simp only [List.map_cons, runCalls]
    revert hx
    cases execute c env info msg s <;> cases execute c env' info msg s' <;> intro hx
    · have := run_two (c := c) hn rest h1 hle' hf.2 hf'.2 hE' hX'
      exact ⟨by rw [this.1, show _ = _ from hx], this.2⟩
    · exact hx.elim
    · exact hx.elim
    · obtain ⟨hx1, hx2⟩ := hx
      have := run_two (c := c) hn rest hx1 hle' hf.2 hf'.2 hE' hX'
      exact ⟨congrArg₂ (fun o l => Except.ok o :: l) hx2 this.1, this.2⟩

/-- **C56.** Make the same calls at different times (and heights): as long as the approvals set by these calls are valid
or not alike whenever a call is made, every call gives the same result, and in the end the storages differ in timestamps
only.  In particular no amount, price, fee or liquidity depends on the clock. -/
theorem C56_clock (c : Chain) (sender : Bytes) (fee : Nat) (calls : List (Env × Env × Info × Msg))
    (hf : Forward (calls.map (·.1))) (hf' : Forward (calls.map (·.2.1)))
    (hE : ∀ x ∈ calls, ∀ y ∈ calls, ∀ e ∈ y.2.2.2.expirations, e.ValidAt x.2.1 ↔ e.ValidAt x.1) :
    (runCalls c (calls.map fun x => (x.2.1, x.2.2)) (instantiate sender fee)).2 =
      (runCalls c (calls.map fun x => (x.1, x.2.2)) (instantiate sender fee)).2 ∧
    SameButTimes (runCalls c (calls.map fun x => (x.1, x.2.2)) (instantiate sender fee)).1
      (runCalls c (calls.map fun x => (x.2.1, x.2.2)) (instantiate sender fee)).1 := by
  have h0 : SR false false true (fun e => e = .never ∨ ∃ y ∈ calls, e ∈ y.2.2.2.expirations) 0 0 (fun _ => True) (fun _ => True)
      (instantiate sender fee) (instantiate sender fee) (instantiate sender fee) (instantiate sender fee) := {
    config := rfl
    operators := rfl
    pools := fun _ _ => trivial
    ticks := fun _ _ _ => trivial
    bitmap := fun _ _ _ => ⟨rfl, fun _ => rfl⟩
    positions := fun _ _ => trivial
    posLen := fun _ _ => ⟨rfl, fun _ => rfl⟩
    expires := fun _ id e h => by
      change none = some e at h
      cases h
    kPools := fun _ _ => ⟨rfl, rfl⟩
    kTicks := fun _ _ => ⟨rfl, rfl⟩
    kBitmap := fun _ _ => ⟨rfl, rfl⟩
    kPositions := fun _ _ => ⟨rfl, rfl⟩
    kPosLen := fun _ _ => ⟨rfl, rfl⟩
    kConfig := fun _ => ⟨rfl, rfl⟩
    kOperators := fun _ => ⟨rfl, rfl⟩ }
  have := run_two (c := c) (Or.inl rfl) calls h0 (fun _ _ => ⟨Nat.zero_le _, Nat.zero_le _⟩) hf hf' ?_ fun x hx e he => Or.inr ⟨x, hx, he⟩
  · obtain ⟨h1, _, _, h2⟩ := this
    exact ⟨h1, h2.sameButTimes⟩
  rintro x hx e (rfl | ⟨y, hy, he⟩)
  · rfl
  · exact expired_eq (hE x hx y hy e he)

namespace Demo

/-- Calls at two speeds: a second apart and a day apart, among them one that fails. -/
def twoSpeeds : List (Env × Env × Info × Msg) :=
  (setup ++ ([(by_ bob, .swap key true 400 true MIN_SQRT_PRICE), (by_ bob, .claimFee 0), (by_ alice, .claimFee 0),
    (by_ alice, .approveAll bob (some (.atHeight 5000)))] : List (Info × Msg))).zipIdx.map fun x =>
    (⟨100 + x.2, (100 + x.2) * 10 ^ 9⟩, ⟨100 + 7 * x.2, (100 + 86400 * x.2) * 10 ^ 9⟩, x.1)

end Demo

example : Forward (Demo.twoSpeeds.map (·.1)) ∧ Forward (Demo.twoSpeeds.map (·.2.1)) ∧
    (∀ x ∈ Demo.twoSpeeds, ∀ y ∈ Demo.twoSpeeds, ∀ e ∈ y.2.2.2.expirations, e.ValidAt x.2.1 ↔ e.ValidAt x.1) ∧
    ((runCalls Demo.chain (Demo.twoSpeeds.map fun x => (x.1, x.2.2)) (instantiate Demo.alice 0)).2.map (·.isOk)) =
      [true, true, true, true, false, true, true] := by
  refine ⟨?_, ?_, ?_, ?_⟩
  · unfold Forward; decide +kernel
  · unfold Forward; decide +kernel
  · decide +kernel
  · decide +kernel

/-! ## C57 -/

theorem swapInternal_forUser (c : Chain) (s : Store) {info info' : Info} (hf : info'.funds = info.funds) (now : Nat) (k : PoolKey)
    (d : Bool) (amount : Nat) (b : Bool) (limit : Nat) :
    swapInternal c s info' now k d amount b limit =
      (swapInternal c s info now k d amount b limit).map fun r => (r.1, r.2.1.map (OutMsg.forUser info'.sender), r.2.2) := by
  have h1 : ∀ t x, assetTransferFrom c t x info' = (assetTransferFrom c t x info).map (·.map (OutMsg.forUser info'.sender)) := by
    intro t x
    unfold assetTransferFrom
    rw [hf]
    split
    · rfl
    · split
      · rfl
      · split
        · split
          · split <;> rfl
          · rfl
        · rfl
  have h2 : ∀ t x, assetTransfer c t x info' = (assetTransfer c t x info).map (OutMsg.forUser info'.sender) := by
    intro t x
    unfold assetTransfer
    split
    · rfl
    · split <;> rfl
  unfold swapInternal
  cases calculateSwap s now k d amount b limit with
  | error e => rfl
  | ok r =>
    rw [ok_bind, ok_bind]
    cases saveTicks s k r.ticks with
    | error e => rfl
    | ok s1 =>
      rw [ok_bind, ok_bind]
      simp only
      rw [h1, h2]
      cases assetTransferFrom c (if d then k.tokenX else k.tokenY) r.amountIn info with
      | error e => rfl
      | ok m => 
        change Except.ok (_, List.map _ m ++ List.map _ _, r) = Except.ok (_, List.map _ (m ++ _), r)
        rw [List.map_append]

theorem swapRouteInternal_forUser (c : Chain) {info info' : Info} (hf : info'.funds = info.funds) (now : Nat) :
    ∀ (hops : List Hop) (s : Store) (amount : Nat) (msgs : List OutMsg),
      swapRouteInternal c info' now hops s amount (msgs.map (OutMsg.forUser info'.sender)) =
        (swapRouteInternal c info now hops s amount msgs).map fun r => (r.1, r.2.1, r.2.2.map (OutMsg.forUser info'.sender))
  | [], _, _, _ => rfl
  | h :: hs, s, amount, msgs => by
    unfold swapRouteInternal
    rw [swapInternal_forUser c s hf]
    cases swapInternal c s info now h.poolKey h.xToY amount true (hopLimit h.xToY) with
    | error e => rfl
    | ok r =>
      rw [ok_bind]
      change swapRouteInternal c info' now hs r.1 r.2.2.amountOut _ = _
      rw [← List.map_append]
      exact swapRouteInternal_forUser c hf now hs _ _ _

/-- **C57.** Trading terms are the same for everybody: a swap, or a route of swaps, sent with the same coins by another
account is accepted or refused alike, does the same to the storage and makes the same payments, from and to that account. -/
theorem C57_everybody (c : Chain) (env : Env) (s : Store) (info info' : Info) (hf : info'.funds = info.funds) (msg : Msg)
    (hm : (∃ k d amount b limit, msg = .swap k d amount b limit) ∨ ∃ amount out slip hops, msg = .swapRoute amount out slip hops) :
    execute c env info' msg s =
      (execute c env info msg s).map fun r => (r.1, r.2.map (OutMsg.forUser info'.sender)) := by
  unfold execute
  by_cases hw : msg.wf
  · rw [if_pos hw, if_pos hw]
    rcases hm with ⟨k, d, amount, b, limit, rfl⟩ | ⟨amount, out, slip, hops, rfl⟩
    · change OraiV3.swap c s env info' k d amount b limit = (OraiV3.swap c s env info k d amount b limit).map _
      unfold OraiV3.swap
      rw [swapInternal_forUser c s hf]
      cases swapInternal c s info env.millis k d amount b limit <;> rfl
    · change OraiV3.swapRoute c s env info' amount out slip hops = (OraiV3.swapRoute c s env info amount out slip hops).map _
      unfold OraiV3.swapRoute
      have := swapRouteInternal_forUser c hf env.millis hops s amount []
      rw [List.map_nil] at this
      rw [this]
      cases swapRouteInternal c info env.millis hops s amount [] with
      | error e => rfl
      | ok r =>
        rw [ok_bind]
        change (calculateMinAmountOut out slip >>= _) = _
        cases calculateMinAmountOut out slip with
        | error e => rfl
        | ok m =>
          rw [ok_bind, ok_bind]
          simp only
          split <;> rfl
  · rw [if_neg hw, if_neg hw]
    rfl

example : (execute Demo.chain Demo.env (Demo.by_ Demo.carol) (.swap Demo.key true 400 true MIN_SQRT_PRICE)
      (Demo.state Demo.chain Demo.setup)).toOption.map (·.2) =
    some [.cw20TransferFrom [97] Demo.carol Demo.chain.self 400, .cw20Transfer [98] Demo.carol 395] := by decide +kernel

end OraiV3
