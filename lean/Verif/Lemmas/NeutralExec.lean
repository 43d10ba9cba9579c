import Verif.Lemmas.Neutral

/-!
# Calls in two runs that differ in the protocol fee
-/

namespace OraiV3
variable {s s' : Store}

/-- Results of a call that may pay fees. -/
abbrev Paid (x y : M (Store × List OutMsg)) : Prop := Both (fun a b => SameButFees a.1 b.1) x y
/-- Results of a call that pays no fees. -/
abbrev Unpaid (x y : M (Store × List OutMsg)) : Prop := Both (fun a b => SameButFees a.1 b.1 ∧ b.2 = a.2) x y

namespace SameButFees

/-! ## Swaps -/

theorem swap (h : SameButFees s s') (c : Chain) (env : Env) (info : Info) (k : PoolKey) (d : Bool) (amount : Nat) (b : Bool) (lim : Nat) :
    Unpaid (OraiV3.swap c s env info k d amount b lim) (OraiV3.swap c s' env info k d amount b lim) := by
  unfold OraiV3.swap
  exact Both.bind (h.swapInternal c info env.millis k d amount b lim) fun r r' hr => Both.pure ⟨hr.1, hr.2.1⟩

theorem swapRoute (h : SameButFees s s') (c : Chain) (env : Env) (info : Info) (a e sl : Nat) (hops : List Hop) :
    Unpaid (OraiV3.swapRoute c s env info a e sl hops) (OraiV3.swapRoute c s' env info a e sl hops) := by
  unfold OraiV3.swapRoute
  refine Both.bind (swapRouteInternal c info env.millis hops a [] h) fun r r' hr => ?_
  rw [hr.2]
  refine Both.same _ fun m => ?_
  exact Both.ite (fun _ => Both.errL _ _) fun _ => Both.pure ⟨hr.1, rfl⟩

theorem route (h : SameButFees s s') (n : Nat) : ∀ (hops : List Hop) (amount : Nat),
    Both (fun a b => b = a) (OraiV3.route s n hops amount) (OraiV3.route s' n hops amount)
  | [], amount => Both.ok rfl
  | hop :: hops, amount => by
    unfold OraiV3.route
    refine Both.bind (h.calculateSwap n _ _ _ _ _) fun r r' hr => ?_
    rw [hr.amountOut]
    exact h.route n hops _

/-! ## Administration -/

theorem cfgForm {a b : Config} (h : a.feeless = b.feeless) : ∃ f, b = { a with protocolFee := f } := by
  refine ⟨b.protocolFee, ?_⟩
  cases a; cases b
  simp only [Config.feeless, Config.mk.injEq] at h
  obtain ⟨rfl, rfl, -⟩ := h
  rfl

theorem setConfig (h : SameButFees s s') {a b : Config} (hc : a.feeless = b.feeless) :
    SameButFees { s with config := some a } { s' with config := some b } :=
  { h with config := by simp [hc] }

theorem withdrawProtocolFee (h : SameButFees s s') (c : Chain) (info : Info) (k : PoolKey) :
    Paid (OraiV3.withdrawProtocolFee c s info k) (OraiV3.withdrawProtocolFee c s' info k) := by
  unfold OraiV3.withdrawProtocolFee
  refine Both.bind (h.getPool k) fun p p' hp => ?_
  obtain ⟨x, y, u, v, rfl⟩ := hp.form
  exact Both.ite (fun _ => Both.errL _ _) fun _ => Both.pure (h.savePool k rfl)

theorem changeFeeReceiver (h : SameButFees s s') (info : Info) (k : PoolKey) (r : Bytes) :
    Unpaid (OraiV3.changeFeeReceiver s info k r) (OraiV3.changeFeeReceiver s' info k r) := by
  unfold OraiV3.changeFeeReceiver
  refine Both.bind h.loadConfig fun a b hc => ?_
  obtain ⟨f, rfl⟩ := cfgForm hc
  refine Both.ite (fun _ => Both.errL _ _) fun _ => ?_
  refine Both.bind (h.getPool k) fun p p' hp => ?_
  obtain ⟨x, y, u, v, rfl⟩ := hp.form
  exact Both.pure ⟨h.savePool k rfl, rfl⟩

theorem createPool (h : SameButFees s s') (env : Env) (t0 t1 : Bytes) (tier : FeeTier) (p : Nat) (t : Int) :
    Unpaid (OraiV3.createPool s env t0 t1 tier p t) (OraiV3.createPool s' env t0 t1 tier p t) := by
  unfold OraiV3.createPool
  refine Both.bind h.loadConfig fun a b hc => ?_
  obtain ⟨f, rfl⟩ := cfgForm hc
  refine Both.ite (fun _ => Both.errL _ _) fun _ => ?_
  refine Both.same _ fun _ => Both.same _ fun k => ?_
  rw [omap_has h.pools]
  refine Both.ite (fun _ => Both.errL _ _) fun _ => ?_
  cases Pool.create p t env.millis tier.spacing a.admin with
  | error e => cases e <;> exact Both.errL _ _
  | ok q => exact Both.pure ⟨h.savePool k rfl, rfl⟩

/-! ## Positions -/

theorem createTick (h : SameButFees s s') (n : Nat) (k : PoolKey) (i : Int) :
    Both (fun x y => SameButFees x.1 y.1 ∧ TF x.2 y.2) (OraiV3.createTick s n k i) (OraiV3.createTick s' n k i) := by
  unfold OraiV3.createTick
  refine Both.same _ fun _ => ?_
  refine Both.bind (h.getPool k) fun p p' hp => ?_
  refine Both.bind (Tick.create_both hp i n) fun t t' ht => ?_
  refine Both.bind (h.addTick k i ht) fun x x' hx => ?_
  exact Both.bind (hx.flipBitmap _ _ _ _) fun y y' hy => Both.pure ⟨hy, ht⟩

theorem getOrCreateTick (h : SameButFees s s') (n : Nat) (k : PoolKey) (i : Int) :
    Both (fun x y => SameButFees x.1 y.1 ∧ TF x.2 y.2) (OraiV3.getOrCreateTick s n k i) (OraiV3.getOrCreateTick s' n k i) := by
  unfold OraiV3.getOrCreateTick OraiV3.getTick
  have := h.ticks (tickKey k i)
  revert this
  cases s.ticks.get? (tickKey k i) <;> cases s'.ticks.get? (tickKey k i) <;> intro this
  · exact h.createTick n k i
  · cases this
  · cases this
  · exact Both.ok ⟨h, Option.some.inj this⟩

theorem createPosition (h : SameButFees s s') (c : Chain) (env : Env) (info : Info) (k : PoolKey) (l u : Int) (L lo hi : Nat) :
    Unpaid (OraiV3.createPosition c s env info k l u L lo hi) (OraiV3.createPosition c s' env info k l u L lo hi) := by
  unfold OraiV3.createPosition
  refine Both.ite (fun _ => Both.errL _ _) fun _ => ?_
  refine Both.ite (fun _ => Both.errL _ _) fun _ => ?_
  have := h.pools k.key
  revert this
  cases s.pools.get? k.key <;> cases s'.pools.get? k.key <;> intro hp
  · exact Both.errL _ _
  · cases hp
  · cases hp
  refine Both.bind (h.getOrCreateTick env.millis k l) fun rl rl' hrl => ?_
  refine Both.bind (hrl.1.getOrCreateTick env.millis k u) fun ru ru' hru => ?_
  refine Both.bind (Position.create_both (Option.some.inj hp) hru.2 hrl.2 k _ L lo hi _ _) fun r r' hr => ?_
  refine Both.bind ((hru.1.savePool k hr.1.pool).addPosition info.sender hr.1.pos) fun x x' hx => ?_
  rw [hr.1.lower.index, hr.1.upper.index, hr.2.1, hr.2.2]
  refine Both.bind (hx.updateTick k _ hr.1.lower) fun y y' hy => ?_
  refine Both.bind (hy.updateTick k _ hr.1.upper) fun z z' hz => ?_
  exact Both.same _ fun m1 => Both.same _ fun m2 => Both.pure ⟨hz, rfl⟩

theorem claimFee (h : SameButFees s s') (c : Chain) (env : Env) (info : Info) (i : Nat) :
    Paid (OraiV3.claimFee c s env info i) (OraiV3.claimFee c s' env info i) := by
  unfold OraiV3.claimFee
  refine Both.bind (h.getPosition info.sender i) fun q q' hq => ?_
  rw [hq.key.1, hq.key.2.1, hq.key.2.2.1]
  refine Both.bind (h.getTick _ _) fun l l' hl => ?_
  refine Both.bind (h.getTick _ _) fun u u' hu => ?_
  refine Both.bind (h.getPool _) fun p p' hp => ?_
  refine Both.bind (Position.claimFee_both hq hp hu hl _) fun r r' hr => ?_
  refine Both.bind (h.updatePosition info.sender i hr.pos) fun x x' hx => ?_
  rw [hr.lower.index, hr.upper.index]
  refine Both.bind ((hx.savePool _ hr.pool).updateTick _ _ hr.upper) fun y y' hy => ?_
  exact Both.bind (hy.updateTick _ _ hr.lower) fun z z' hz => Both.pure hz

theorem settleTick (h : SameButFees s s') (k : PoolKey) (i : Int) {t t' : Tick} (ht : TF t t') :
    Both SameButFees (OraiV3.settleTick s k i t) (OraiV3.settleTick s' k i t') := by
  unfold OraiV3.settleTick removeTickAndFlip
  rw [ht.index, ht.gross]
  refine Both.ite (fun _ => Both.ite (fun _ => Both.errL _ _) fun _ => ?_) fun _ => h.updateTick k i ht
  exact Both.bind (h.flipBitmap _ _ _ _) fun x x' hx => hx.removeTick _ _

theorem removePosition (h : SameButFees s s') (c : Chain) (env : Env) (info : Info) (i : Nat) :
    Paid (OraiV3.removePosition c s env info i) (OraiV3.removePosition c s' env info i) := by
  unfold OraiV3.removePosition
  refine Both.bind (h.getPosition info.sender i) fun q q' hq => ?_
  rw [hq.key.1, hq.key.2.1, hq.key.2.2.1]
  refine Both.bind (h.getTick _ _) fun l l' hl => ?_
  refine Both.bind (h.getTick _ _) fun u u' hu => ?_
  refine Both.bind (h.getPool _) fun p p' hp => ?_
  refine Both.bind (Position.remove_both hq hp hu hl _ _) fun r r' hr => ?_
  refine Both.bind ((h.savePool _ hr.pool).settleTick _ _ hr.lower) fun x x' hx => ?_
  refine Both.bind (hx.settleTick _ _ hr.upper) fun y y' hy => ?_
  exact Both.bind (hy.removePositionAt info.sender i) fun z z' hz => Both.pure hz.1

theorem transferPosition (h : SameButFees s s') (c : Chain) (info : Info) (i : Nat) (rcv : Bytes) :
    Unpaid (OraiV3.transferPosition c s info i rcv) (OraiV3.transferPosition c s' info i rcv) := by
  unfold OraiV3.transferPosition
  refine Both.bind (h.getPosition info.sender i) fun q q' hq => ?_
  refine Both.bind (h.removePositionAt info.sender i) fun x x' hx => ?_
  refine Both.ite (fun _ => Both.errL _ _) fun _ => ?_
  exact Both.bind (hx.1.addPosition rcv (hq.setApprovals [])) fun y y' hy => Both.pure ⟨hy, rfl⟩

/-! ## Permissions -/

theorem isOperator (h : SameButFees s s') (env : Env) (o a : Bytes) : OraiV3.isOperator s' env o a = OraiV3.isOperator s env o a := by
  unfold OraiV3.isOperator
  rw [h.operators]

theorem checkCanSend (h : SameButFees s s') (env : Env) (info : Info) (o : Bytes) {q q' : Position} (hq : QF q q') :
    OraiV3.checkCanSend s' env info o q' = OraiV3.checkCanSend s env info o q := by
  unfold OraiV3.checkCanSend
  rw [h.isOperator, hq.key.2.2.2.2]

theorem checkCanApprove (h : SameButFees s s') (env : Env) (info : Info) (o : Bytes) :
    OraiV3.checkCanApprove s' env info o = OraiV3.checkCanApprove s env info o := by
  unfold OraiV3.checkCanApprove
  rw [h.isOperator]

theorem transferNftInternal (h : SameButFees s s') (env : Env) (info : Info) (rcv id : Bytes) :
    Both SameButFees (OraiV3.transferNftInternal s env info rcv id) (OraiV3.transferNftInternal s' env info rcv id) := by
  unfold OraiV3.transferNftInternal
  refine Both.same _ fun o => ?_
  refine Both.bind (h.getByKey id) fun q q' hq => ?_
  rw [h.checkCanSend env info o hq]
  refine Both.same _ fun _ => ?_
  refine Both.bind (h.removePositionAt o _) fun x x' hx => ?_
  exact hx.1.addPosition rcv (hq.setApprovals [])

theorem burn (h : SameButFees s s') (c : Chain) (env : Env) (info : Info) (id : Bytes) :
    Paid (OraiV3.burn c s env info id) (OraiV3.burn c s' env info id) := by
  unfold OraiV3.burn
  refine Both.bind (h.getByKey id) fun q q' hq => ?_
  refine Both.same _ fun o => ?_
  rw [h.checkCanSend env info o hq]
  exact Both.same _ fun _ => h.removePosition c env info _

theorem updateApprovals (h : SameButFees s s') (env : Env) (info : Info) (sp id : Bytes) (add : Bool) (x : Option Expiration) :
    Unpaid (OraiV3.updateApprovals s env info sp id add x) (OraiV3.updateApprovals s' env info sp id add x) := by
  unfold OraiV3.updateApprovals
  refine Both.same _ fun o => ?_
  refine Both.bind (h.getByKey id) fun q q' hq => ?_
  rw [h.checkCanApprove env info o]
  refine Both.same _ fun _ => ?_
  obtain ⟨x, y, u, v, rfl⟩ := hq.form
  refine Both.ite (fun _ => Both.ite (fun _ => Both.errL _ _) fun _ => ?_) fun _ => ?_
  · exact Both.pure ⟨{ h with positions := omap_insert rfl h.positions }, rfl⟩
  · exact Both.pure ⟨{ h with positions := omap_insert rfl h.positions }, rfl⟩

/-! ## All calls -/

/-- A call with the same message, or with another protocol fee. -/
theorem dispatch (h : SameButFees s s') (c : Chain) (env : Env) (info : Info) {msg msg' : Msg} (hm : msg.SameButRate msg') :
    Both (fun a b => SameButFees a.1 b.1 ∧ (msg.paysFees = false → b.2 = a.2))
      (OraiV3.dispatch c env info msg s) (OraiV3.dispatch c env info msg' s') := by
  have pd : ∀ {x y}, Paid x y → msg.paysFees = true → Both (fun a b => SameButFees a.1 b.1 ∧ (msg.paysFees = false → b.2 = a.2)) x y :=
    fun hx hp => hx.mono fun a b hab => ⟨hab, fun e => by rw [hp] at e; cases e⟩
  have up : ∀ {x y}, Unpaid x y → Both (fun a b => SameButFees a.1 b.1 ∧ (msg.paysFees = false → b.2 = a.2)) x y :=
    fun hx => hx.mono fun a b hab => ⟨hab.1, fun _ => hab.2⟩
  by_cases hr : ∃ f f', msg = .changeProtocolFee f ∧ msg' = .changeProtocolFee f'
  · obtain ⟨f, f', rfl, rfl⟩ := hr
    refine up ?_
    simp only [OraiV3.dispatch, changeProtocolFee]
    refine Both.bind h.loadConfig fun a b hc => ?_
    obtain ⟨f, rfl⟩ := cfgForm hc
    exact Both.ite (fun _ => Both.errL _ _) fun _ => Both.pure ⟨h.setConfig rfl, rfl⟩
  have e : msg = msg' := by
    unfold Msg.SameButRate at hm
    split at hm
    · exact (hr ⟨_, _, rfl, rfl⟩).elim
    · exact hm
  subst e
  cases msg with
  | changeAdmin a =>
    refine up ?_
    simp only [OraiV3.dispatch, changeAdmin]
    refine Both.bind h.loadConfig fun a b hc => ?_
    obtain ⟨f, rfl⟩ := cfgForm hc
    exact Both.ite (fun _ => Both.errL _ _) fun _ => Both.pure ⟨h.setConfig rfl, rfl⟩
  | changeProtocolFee f => exact (hr ⟨_, _, rfl, rfl⟩).elim
  | addFeeTier t =>
    refine up ?_
    simp only [OraiV3.dispatch, addFeeTier]
    refine Both.bind h.loadConfig fun a b hc => ?_
    obtain ⟨f, rfl⟩ := cfgForm hc
    refine Both.ite (fun _ => Both.errL _ _) fun _ => ?_
    refine Both.ite (fun _ => Both.errL _ _) fun _ => ?_
    exact Both.ite (fun _ => Both.errL _ _) fun _ => Both.pure ⟨h.setConfig rfl, rfl⟩
  | removeFeeTier t =>
    refine up ?_
    simp only [OraiV3.dispatch, removeFeeTier]
    refine Both.bind h.loadConfig fun a b hc => ?_
    obtain ⟨f, rfl⟩ := cfgForm hc
    refine Both.ite (fun _ => Both.errL _ _) fun _ => ?_
    exact Both.ite (fun _ => Both.pure ⟨h.setConfig rfl, rfl⟩) fun _ => Both.errL _ _
  | approveAll o e =>
    refine up ?_
    simp only [OraiV3.dispatch, approveAll]
    exact Both.ite (fun _ => Both.errL _ _) fun _ => Both.ok ⟨{ h with operators := by simp only [h.operators] }, rfl⟩
  | revokeAll o => exact up (Both.ok ⟨{ h with operators := by simp only [h.operators] }, rfl⟩)
  | withdrawProtocolFee k => exact pd (h.withdrawProtocolFee c info k) rfl
  | changeFeeReceiver k r => exact up (h.changeFeeReceiver info k r)
  | createPosition k l u L lo hi => exact up (h.createPosition c env info k l u L lo hi)
  | mint k l u L lo hi => exact up (h.createPosition c env info k l u L lo hi)
  | swap k d a b lim => exact up (h.swap c env info k d a b lim)
  | swapRoute a e sl hops => exact up (h.swapRoute c env info a e sl hops)
  | transferPosition i r => exact up (h.transferPosition c info i r)
  | claimFee i => exact pd (h.claimFee c env info i) rfl
  | removePosition i => exact pd (h.removePosition c env info i) rfl
  | createPool t0 t1 tier p t => exact up (h.createPool env t0 t1 tier p t)
  | transferNft r id => exact up (Both.bind (h.transferNftInternal env info r id) fun x x' hx => Both.pure ⟨hx, rfl⟩)
  | sendNft r id m => exact up (Both.bind (h.transferNftInternal env info r id) fun x x' hx => Both.pure ⟨hx, rfl⟩)
  | burn id => exact pd (h.burn c env info id) rfl
  | approve sp id e => exact up (h.updateApprovals env info sp id true e)
  | revoke sp id => exact up (h.updateApprovals env info sp id false none)

theorem execute (h : SameButFees s s') (c : Chain) (env : Env) (info : Info) {msg msg' : Msg} (hm : msg.SameButRate msg') :
    Both (fun a b => SameButFees a.1 b.1 ∧ (msg.paysFees = false → b.2 = a.2))
      (OraiV3.execute c env info msg s) (OraiV3.execute c env info msg' s') := by
  unfold OraiV3.execute
  intro a b h1 h2
  split at h1
  · split at h2
    · exact h.dispatch c env info hm a b h1 h2
    · cases h2
  · cases h1

end SameButFees

theorem SameButFees.refl (s : Store) : SameButFees s s := ⟨rfl, fun _ => rfl, fun _ => rfl, fun _ => rfl, rfl, rfl, rfl⟩

end OraiV3
