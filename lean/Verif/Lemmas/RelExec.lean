import Verif.Lemmas.RelStore

/-!
# The same call in two storages
-/

namespace OraiV3

section
variable {ex zs W : Bool} {E : Expiration → Prop} {n n' : Nat} {K : PoolKey → Prop} {U : Bytes → Prop} {s0 s0' s s' : Store}

/-! ## Swaps -/

/-- Related states of the swap loop. -/
structure LRel (ex zs : Bool) (n n' : Nat) (a b : SwapState) : Prop where
  pool : PRel ex zs n n' a.pool b.pool
  remaining : b.remaining = a.remaining
  totalIn : b.totalIn = a.totalIn
  totalOut : b.totalOut = a.totalOut
  fee : b.fee = a.fee
  ticks : List.Forall₂ (TRel ex zs) a.ticks b.ticks

theorem SR.tickUpdOf (h : SR ex zs W E n n' K U s0 s0' s s') {k : PoolKey} (hk : K k) (lt : Option (Int × Bool)) :
    Rel (URel ex zs) (tickUpdOf s k lt) (tickUpdOf s' k lt) := by
  unfold OraiV3.tickUpdOf
  match lt with
  | none => trivial
  | some (i, true) => exact Rel.bind (h.getTick hk i) fun a b hab => hab
  | some (i, false) => exact (rfl : i = i)

theorem forall₂_snoc {α : Type} {R : α → α → Prop} {x y : α} (h : R x y) : ∀ {l l' : List α}, List.Forall₂ R l l' →
    List.Forall₂ R (l ++ [x]) (l' ++ [y])
  | _, _, .nil => .cons h .nil
  | _, _, .cons h1 hl => .cons h1 (forall₂_snoc h hl)

theorem pushCrossed_rel {l l' : List Tick} {u u' : TickUpd} (hl : List.Forall₂ (TRel ex zs) l l') (hu : URel ex zs u u') (c : Bool) :
    List.Forall₂ (TRel ex zs) (pushCrossed l u c) (pushCrossed l' u' c) := by
  cases u <;> cases u' <;> cases c <;> simp only [URel] at hu <;> simp only [pushCrossed] <;> try exact hl
  exact forall₂_snoc hu hl

theorem SR.swapIter (h : SR ex zs W E n n' K U s0 s0' s s') (hn : ex = true → n = n') {k : PoolKey} (hk : K k) (d b : Bool) (lim : Nat)
    {st st' : SwapState} (hst : LRel ex zs n n' st st') :
    Rel (LRel ex zs n n') (swapIter s ⟨k, d, b, lim, n⟩ st) (swapIter s' ⟨k, d, b, lim, n'⟩ st') := by
  unfold OraiV3.swapIter
  have ec : OraiV3.getChunk s' k = OraiV3.getChunk s k := funext fun i => h.getChunk hk i
  simp only [ec, hst.pool.tick, hst.pool.price, hst.pool.liquidity, hst.remaining, hst.totalIn, hst.totalOut, hst.fee]
  refine Rel.bindSame _ fun cl => ?_
  refine Rel.bindSame _ fun r => ?_
  have tail : ∀ remaining : Nat, Rel (LRel ex zs n n') (do
      let cfg ← loadConfig s
      let pool ← st.pool.addFee r.feeAmount d cfg.protocolFee
      let fee ← add128 st.fee r.feeAmount
      let inFee ← add128 r.amountIn r.feeAmount
      let totalIn ← add128 st.totalIn inFee
      let totalOut ← add128 st.totalOut r.amountOut
      if r.nextPrice = lim ∧ remaining ≠ 0 then .error .priceLimitReached
      else do
        let upd ← OraiV3.tickUpdOf s k cl.2
        let u ← { pool with sqrtPrice := r.nextPrice }.updateTick r.nextPrice cl.1 upd remaining b d n cfg.protocolFee k.tier
        let totalIn ← add128 totalIn u.total
        if reachedTickLimit d k.tier.spacing u.pool.tick then .error .tickLimitReached
        else pure { pool := u.pool, remaining := u.remaining, totalIn := totalIn, totalOut := totalOut,
                    fee := fee, ticks := pushCrossed st.ticks u.upd u.crossed })
      (do
      let cfg ← loadConfig s'
      let pool ← st'.pool.addFee r.feeAmount d cfg.protocolFee
      let fee ← add128 st.fee r.feeAmount
      let inFee ← add128 r.amountIn r.feeAmount
      let totalIn ← add128 st.totalIn inFee
      let totalOut ← add128 st.totalOut r.amountOut
      if r.nextPrice = lim ∧ remaining ≠ 0 then .error .priceLimitReached
      else do
        let upd ← OraiV3.tickUpdOf s' k cl.2
        let u ← { pool with sqrtPrice := r.nextPrice }.updateTick r.nextPrice cl.1 upd remaining b d n' cfg.protocolFee k.tier
        let totalIn ← add128 totalIn u.total
        if reachedTickLimit d k.tier.spacing u.pool.tick then .error .tickLimitReached
        else pure { pool := u.pool, remaining := u.remaining, totalIn := totalIn, totalOut := totalOut,
                    fee := fee, ticks := pushCrossed st'.ticks u.upd u.crossed }) := by
    intro remaining
    unfold loadConfig
    rw [h.config]
    refine Rel.bindSame _ fun cfg => ?_
    refine Rel.bind (Pool.addFee_rel hst.pool _ _ _) fun p p' hp => ?_
    refine Rel.bindSame _ fun fee => ?_
    refine Rel.bindSame _ fun inFee => ?_
    refine Rel.bindSame _ fun ti => ?_
    refine Rel.bindSame _ fun tot => ?_
    refine Rel.ite (fun _ => Rel.error _) fun _ => ?_
    refine Rel.bind (h.tickUpdOf hk _) fun u u' hu => ?_
    refine Rel.bind (Pool.updateTick_rel hn (hp.setPrice _) hu _ _ _ _ _ _ _) fun v v' hv => ?_
    rw [← hv.2.2.1, hv.1.tick]
    refine Rel.bindSame _ fun ti' => ?_
    refine Rel.ite (fun _ => Rel.error _) fun _ => ?_
    refine ⟨hv.1, hv.2.2.2.1.symm, rfl, rfl, rfl, ?_⟩
    rw [← hv.2.2.2.2]
    exact pushCrossed_rel hst.ticks hv.2.1 _
  cases b
  · exact Rel.bindSame _ tail
  · exact Rel.bindSame _ fun _ => Rel.bindSame _ tail

theorem SR.swapLoop (h : SR ex zs W E n n' K U s0 s0' s s') (hn : ex = true → n = n') {k : PoolKey} (hk : K k) (d b : Bool) (lim : Nat) :
    ∀ (m : Nat) {st st' : SwapState}, LRel ex zs n n' st st' →
    Rel (LRel ex zs n n') (swapLoop s ⟨k, d, b, lim, n⟩ m st) (swapLoop s' ⟨k, d, b, lim, n'⟩ m st')
  | 0, st, st', hst => by
    unfold OraiV3.swapLoop
    rw [hst.remaining]
    exact Rel.ite (fun _ => hst) fun _ => Rel.error _
  | m + 1, st, st', hst => by
    unfold OraiV3.swapLoop
    rw [hst.remaining]
    refine Rel.ite (fun _ => hst) fun _ => ?_
    exact Rel.bind (h.swapIter hn hk d b lim hst) fun x y hxy => h.swapLoop hn hk d b lim m hxy

/-- Related results of a swap computation. -/
structure CRel (ex zs : Bool) (n n' : Nat) (a b : CalcSwapResult) : Prop where
  amountIn : b.amountIn = a.amountIn
  amountOut : b.amountOut = a.amountOut
  startPrice : b.startPrice = a.startPrice
  targetPrice : b.targetPrice = a.targetPrice
  fee : b.fee = a.fee
  pool : PRel ex zs n n' a.pool b.pool
  ticks : List.Forall₂ (TRel ex zs) a.ticks b.ticks

theorem SR.calculateSwap (h : SR ex zs W E n n' K U s0 s0' s s') (hn : ex = true → n = n') {k : PoolKey} (hk : K k) (d : Bool) (amount : Nat)
    (b : Bool) (lim : Nat) : Rel (CRel ex zs n n') (calculateSwap s n k d amount b lim) (calculateSwap s' n' k d amount b lim) := by
  unfold OraiV3.calculateSwap
  refine Rel.ite (fun _ => Rel.error _) fun _ => ?_
  refine Rel.bind (h.getPool hk) fun p p' hp => ?_
  rw [hp.price]
  refine Rel.ite (fun _ => Rel.error _) fun _ => ?_
  refine Rel.ite (fun _ => Rel.error _) fun _ => ?_
  refine Rel.bind (h.swapLoop hn hk d b lim swapFuel ⟨hp, rfl, rfl, rfl, rfl, .nil⟩) fun st st' hst => ?_
  rw [hst.totalOut]
  refine Rel.ite (fun _ => Rel.error _) fun _ => ?_
  exact ⟨hst.totalIn, rfl, rfl, hst.pool.price, hst.fee, hst.pool, hst.ticks⟩

theorem SR.saveTicks {k : PoolKey} (hk : K k) : ∀ {l l' : List Tick} {s s' : Store}, SR ex zs W E n n' K U s0 s0' s s' →
    List.Forall₂ (TRel ex zs) l l' → Rel (SR ex zs W E n n' K U s0 s0') (saveTicks s k l) (saveTicks s' k l')
  | _, _, _, _, h, .nil => h
  | _, _, _, _, h, .cons (l₁ := l) (l₂ := l') ht hl => by
    unfold OraiV3.saveTicks
    rw [ht.index.1]
    exact Rel.bind (h.updateTick hk _ ht) fun t t' htt => SR.saveTicks hk htt hl

theorem SR.swapInternal (h : SR ex zs W E n n' K U s0 s0' s s') (hn : ex = true → n = n') (c : Chain) (info : Info) {k : PoolKey} (hk : K k)
    (d : Bool) (amount : Nat) (b : Bool) (lim : Nat) :
    Rel (fun x y => SR ex zs W E n n' K U s0 s0' x.1 y.1 ∧ y.2.1 = x.2.1 ∧ y.2.2.amountOut = x.2.2.amountOut)
      (swapInternal c s info n k d amount b lim) (swapInternal c s' info n' k d amount b lim) := by
  unfold OraiV3.swapInternal
  refine Rel.bind (h.calculateSwap hn hk d amount b lim) fun r r' hr => ?_
  refine Rel.bind (SR.saveTicks hk h hr.ticks) fun t t' ht => ?_
  rw [hr.amountIn, hr.amountOut]
  refine Rel.bindSame _ fun m1 => ?_
  exact ⟨ht.setPool hk hr.pool, rfl, hr.amountOut⟩

theorem SR.swapRouteInternal (hn : ex = true → n = n') (c : Chain) (info : Info) : ∀ (hops : List Hop) {s s' : Store} (amount : Nat)
    (msgs : List OutMsg), SR ex zs W E n n' K U s0 s0' s s' → (∀ h ∈ hops, K h.poolKey) →
    Rel (fun x y => SR ex zs W E n n' K U s0 s0' x.1 y.1 ∧ y.2 = x.2)
      (swapRouteInternal c info n hops s amount msgs) (swapRouteInternal c info n' hops s' amount msgs)
  | [], _, _, _, _, h, _ => ⟨h, rfl⟩
  | hop :: hops, _, _, amount, msgs, h, hK => by
    unfold OraiV3.swapRouteInternal
    refine Rel.bind (h.swapInternal hn c info (hK hop (by simp)) hop.xToY amount true _) fun r r' hr => ?_
    rw [hr.2.1, hr.2.2]
    exact SR.swapRouteInternal hn c info hops _ _ hr.1 fun h' hh => hK h' (by simp [hh])

/-- Related results of a call. -/
abbrev XRel (ex zs W : Bool) (E : Expiration → Prop) (n n' : Nat) (K : PoolKey → Prop) (U : Bytes → Prop) (s0 s0' : Store) :
    M (Store × List OutMsg) → M (Store × List OutMsg) → Prop :=
  Rel (fun x y => SR ex zs W E n n' K U s0 s0' x.1 y.1 ∧ y.2 = x.2)

theorem SR.swap (h : SR ex zs W E n n' K U s0 s0' s s') {env env' : Env} (e1 : env.millis = n) (e2 : env'.millis = n')
    (hn : ex = true → n = n') (c : Chain) (info : Info) {k : PoolKey} (hk : K k) (d : Bool) (amount : Nat) (b : Bool) (lim : Nat) :
    XRel ex zs W E n n' K U s0 s0' (swap c s env info k d amount b lim) (swap c s' env' info k d amount b lim) := by
  unfold OraiV3.swap
  rw [e1, e2]
  exact Rel.bind (h.swapInternal hn c info hk d amount b lim) fun r r' hr => ⟨hr.1, hr.2.1⟩

theorem SR.swapRoute (h : SR ex zs W E n n' K U s0 s0' s s') {env env' : Env} (e1 : env.millis = n) (e2 : env'.millis = n')
    (hn : ex = true → n = n') (c : Chain) (info : Info) {hops : List Hop} (hK : ∀ h ∈ hops, K h.poolKey) (a e sl : Nat) :
    XRel ex zs W E n n' K U s0 s0' (swapRoute c s env info a e sl hops) (swapRoute c s' env' info a e sl hops) := by
  unfold OraiV3.swapRoute
  rw [e1, e2]
  refine Rel.bind (SR.swapRouteInternal hn c info hops a [] h hK) fun r r' hr => ?_
  rw [hr.2]
  refine Rel.bindSame _ fun m => ?_
  exact Rel.ite (fun _ => Rel.error _) fun _ => ⟨hr.1, rfl⟩

/-! ## Administration -/

theorem SR.withdrawProtocolFee (h : SR ex zs W E n n' K U s0 s0' s s') (c : Chain) (info : Info) {k : PoolKey} (hk : K k) :
    XRel ex zs W E n n' K U s0 s0' (withdrawProtocolFee c s info k) (withdrawProtocolFee c s' info k) := by
  unfold OraiV3.withdrawProtocolFee
  refine Rel.bind (h.getPool hk) fun p p' hp => ?_
  by_cases hf : p.feeReceiver ≠ info.sender
  · rw [if_pos hf, if_pos (by rw [hp.proto.2.2]; exact hf)]
    exact Rel.error _
  · rw [if_neg hf, if_neg (by rw [hp.proto.2.2]; exact hf)]
    refine ⟨h.setPool hk (hp.setProto 0 0), ?_⟩
    rw [hp.proto.1, hp.proto.2.1]

theorem SR.changeFeeReceiver (h : SR ex zs W E n n' K U s0 s0' s s') (info : Info) {k : PoolKey} (hk : K k) (r : Bytes) :
    XRel ex zs W E n n' K U s0 s0' (changeFeeReceiver s info k r) (changeFeeReceiver s' info k r) := by
  unfold OraiV3.changeFeeReceiver loadConfig
  rw [h.config]
  refine Rel.bindSame _ fun cfg => ?_
  refine Rel.ite (fun _ => Rel.error _) fun _ => ?_
  exact Rel.bind (h.getPool hk) fun p p' hp => ⟨h.setPool hk (hp.setReceiver r), rfl⟩

theorem SR.createPool (h : SR ex zs W E n n' K U s0 s0' s s') {env env' : Env} (e1 : env.millis = n) (e2 : env'.millis = n')
    (hn : ex = true → n = n') {t0 t1 : Bytes} {tier : FeeTier} (hK : K ⟨t0, t1, tier⟩ ∧ K ⟨t1, t0, tier⟩) (p : Nat) (t : Int) :
    XRel ex zs W E n n' K U s0 s0' (createPool s env t0 t1 tier p t) (createPool s' env' t0 t1 tier p t) := by
  unfold OraiV3.createPool loadConfig
  rw [h.config, e1, e2]
  refine Rel.bindSame _ fun cfg => ?_
  refine Rel.ite (fun _ => Rel.error _) fun _ => ?_
  refine Rel.bindSame _ fun _ => ?_
  refine Rel.bindSameOk _ fun k hk => ?_
  have hk : K k := by
    unfold PoolKey.new at hk
    split at hk
    · cases hk
    · split at hk
      · rw [ok_inj] at hk; rw [← hk]; exact hK.1
      · rw [ok_inj] at hk; rw [← hk]; exact hK.2
  rw [ORel.has (h.pools k hk)]
  refine Rel.ite (fun _ => Rel.error _) fun _ => ?_
  have hc := Pool.create_rel (zs := zs) (ex := ex) (n := n) (n' := n') hn p t tier.spacing cfg.admin
  revert hc
  cases Pool.create p t n tier.spacing cfg.admin <;> cases Pool.create p t n' tier.spacing cfg.admin <;> intro hc
  · obtain rfl : _ = _ := hc
    rename_i e
    cases e <;> exact Rel.error _
  · exact hc.elim
  · exact hc.elim
  · exact ⟨h.setPool hk hc, rfl⟩

/-! ## Positions -/

theorem SR.createTick (h : SR ex zs W E n n' K U s0 s0' s s') (hn : ex = true → n = n') {k : PoolKey} (hk : K k) (i : Int) :
    Rel (fun x y => SR ex zs W E n n' K U s0 s0' x.1 y.1 ∧ TRel ex zs x.2 y.2) (createTick s n k i) (createTick s' n' k i) := by
  unfold OraiV3.createTick
  refine Rel.bindSame _ fun _ => ?_
  refine Rel.bind (h.getPool hk) fun p p' hp => ?_
  refine Rel.bind (Tick.create_rel hn hp i) fun t t' ht => ?_
  refine Rel.bind (h.addTick hk i ht) fun x x' hx => ?_
  exact Rel.bind (hx.flipBitmap hk _ _ _) fun y y' hy => ⟨hy, ht⟩

theorem SR.getOrCreateTick (h : SR ex zs W E n n' K U s0 s0' s s') (hn : ex = true → n = n') {k : PoolKey} (hk : K k) (i : Int) :
    Rel (fun x y => SR ex zs W E n n' K U s0 s0' x.1 y.1 ∧ TRel ex zs x.2 y.2) (getOrCreateTick s n k i) (getOrCreateTick s' n' k i) := by
  unfold OraiV3.getOrCreateTick
  have := h.getTick hk i
  revert this
  cases OraiV3.getTick s k i <;> cases OraiV3.getTick s' k i <;> intro this
  · exact h.createTick hn hk i
  · exact this.elim
  · exact this.elim
  · exact ⟨h, this⟩

theorem SR.createPosition (h : SR ex zs W E n n' K U s0 s0' s s') {env env' : Env} (e1 : env.millis = n) (e2 : env'.millis = n')
    (hn : ex = true → n = n') (hb : ex = true → env.height = env'.height) (c : Chain) {info : Info} (hu : U info.sender)
    {k : PoolKey} (hk : K k) (l u : Int) (L lo hi : Nat) :
    XRel ex zs W E n n' K U s0 s0' (createPosition c s env info k l u L lo hi) (createPosition c s' env' info k l u L lo hi) := by
  unfold OraiV3.createPosition
  rw [e1, e2]
  refine Rel.ite (fun _ => Rel.error _) fun _ => ?_
  refine Rel.ite (fun _ => Rel.error _) fun _ => ?_
  have := h.pools k hk
  revert this
  cases s.pools.get? k.key <;> cases s'.pools.get? k.key <;> intro hp
  · exact Rel.error _
  · exact hp.elim
  · exact hp.elim
  refine Rel.bind (h.getOrCreateTick hn hk l) fun rl rl' hrl => ?_
  refine Rel.bind (hrl.1.getOrCreateTick hn hk u) fun ru ru' hru => ?_
  refine Rel.bind (Position.create_rel (E := E) hn hb hp hru.2 hrl.2 k L lo hi k.tier.spacing) fun r r' hr => ?_
  refine Rel.bind ((hru.1.setPool hk hr.2.1).addPosition hu hr.1) fun x x' hx => ?_
  rw [hr.2.2.1.index.1, hr.2.2.2.1.index.1, ← hr.2.2.2.2.1, ← hr.2.2.2.2.2]
  refine Rel.bind (hx.updateTick hk _ hr.2.2.1) fun y y' hy => ?_
  refine Rel.bind (hy.updateTick hk _ hr.2.2.2.1) fun z z' hz => ?_
  refine Rel.bindSame _ fun m1 => ?_
  exact Rel.bindSame _ fun m2 => ⟨hz, rfl⟩

theorem SR.claimFee (h : SR ex zs W E n n' K U s0 s0' s s') {env env' : Env} (e1 : env.millis = n) (e2 : env'.millis = n')
    (hn : ex = true → n = n') (c : Chain) {info : Info} (hu : U info.sender) {i : Nat}
    (hK : ∀ q, s.positions.get? (positionKey info.sender i) = some q → K q.poolKey) :
    XRel ex zs W E n n' K U s0 s0' (claimFee c s env info i) (claimFee c s' env' info i) := by
  unfold OraiV3.claimFee
  rw [e1, e2]
  refine Rel.bindOk (h.getPosition hu i) fun q q' hq _ hqq => ?_
  have hk := hK q (getPosition_ok.1 hq)
  rw [hqq.fields.1, hqq.fields.2.1, hqq.fields.2.2.1]
  refine Rel.bind (h.getTick hk _) fun l l' hl => ?_
  refine Rel.bind (h.getTick hk _) fun u u' hu' => ?_
  refine Rel.bind (h.getPool hk) fun p p' hp => ?_
  refine Rel.bind (Position.claimFee_rel hn hqq hp hu' hl) fun r r' hr => ?_
  refine Rel.bind (h.updatePosition hu i hr.1) fun x x' hx => ?_
  rw [hr.2.2.1.index.1, hr.2.2.2.1.index.1, ← hr.2.2.2.2.1, ← hr.2.2.2.2.2]
  refine Rel.bind ((hx.setPool hk hr.2.1).updateTick hk _ hr.2.2.2.1) fun y y' hy => ?_
  exact Rel.bind (hy.updateTick hk _ hr.2.2.1) fun z z' hz => ⟨hz, rfl⟩

theorem SR.settleTick (h : SR ex zs W E n n' K U s0 s0' s s') {k : PoolKey} (hk : K k) (i : Int) {t t' : Tick} (ht : TRel ex zs t t') :
    Rel (SR ex zs W E n n' K U s0 s0') (settleTick s k i t) (settleTick s' k i t') := by
  unfold OraiV3.settleTick removeTickAndFlip
  rw [ht.index.1, ht.index.2]
  refine Rel.ite (fun _ => Rel.ite (fun _ => Rel.error _) fun _ => ?_) fun _ => h.updateTick hk i ht
  exact Rel.bind (h.flipBitmap hk _ _ _) fun x x' hx => hx.removeTick hk _

theorem SR.removePosition (h : SR ex zs W E n n' K U s0 s0' s s') {env env' : Env} (e1 : env.millis = n) (e2 : env'.millis = n')
    (hn : ex = true → n = n') (c : Chain) {info : Info} (hu : U info.sender) {i : Nat}
    (hK : ∀ q, s.positions.get? (positionKey info.sender i) = some q → K q.poolKey) :
    XRel ex zs W E n n' K U s0 s0' (removePosition c s env info i) (removePosition c s' env' info i) := by
  unfold OraiV3.removePosition
  rw [e1, e2]
  refine Rel.bindOk (h.getPosition hu i) fun q q' hq _ hqq => ?_
  have hk := hK q (getPosition_ok.1 hq)
  rw [hqq.fields.1, hqq.fields.2.1, hqq.fields.2.2.1]
  refine Rel.bind (h.getTick hk _) fun l l' hl => ?_
  refine Rel.bind (h.getTick hk _) fun u u' hu' => ?_
  refine Rel.bind (h.getPool hk) fun p p' hp => ?_
  refine Rel.bind (Position.remove_rel hn hqq hp hu' hl _) fun r r' hr => ?_
  refine Rel.bind ((h.setPool hk hr.2.1).settleTick hk _ hr.2.2.1) fun x x' hx => ?_
  refine Rel.bind (hx.settleTick hk _ hr.2.2.2.1) fun y y' hy => ?_
  refine Rel.bind (hy.removePositionAt hu i) fun z z' hz => ?_
  refine ⟨hz.1, ?_⟩
  rw [hz.2.fields.1, ← hr.2.2.2.2.1, ← hr.2.2.2.2.2]

theorem SR.transferPosition (h : SR ex zs W E n n' K U s0 s0' s s') (c : Chain) {info : Info} (hu : U info.sender) (i : Nat)
    {rcv : Bytes} (hr : U rcv) :
    XRel ex zs W E n n' K U s0 s0' (transferPosition c s info i rcv) (transferPosition c s' info i rcv) := by
  unfold OraiV3.transferPosition
  refine Rel.bind (h.getPosition hu i) fun q q' hq => ?_
  refine Rel.bind (h.removePositionAt hu i) fun x x' hx => ?_
  refine Rel.ite (fun _ => Rel.error _) fun _ => ?_
  exact Rel.bind (hx.1.addPosition hr (hq.setApprovals (l := []) (by simp))) fun y y' hy => ⟨hy, rfl⟩

/-! ## Permissions -/

/-- The two runs see the same expirations. -/
def SameClock (ex : Bool) (E : Expiration → Prop) (env env' : Env) : Prop :=
  if ex then env = env' else ∀ e, E e → e.isExpired env' = e.isExpired env

theorem SR.isOperator (h : SR ex zs W E n n' K U s0 s0' s s') {env env' : Env} (hc : SameClock ex E env env') (o a : Bytes) :
    isOperator s' env' o a = isOperator s env o a := by
  unfold OraiV3.isOperator
  rw [h.operators]
  cases he : s.operators.get? (operatorKey o a) with
  | none => rfl
  | some e =>
    simp only
    cases ex
    · rw [hc e (h.expires rfl _ _ he)]
    · obtain rfl : env = env' := hc
      rfl

theorem SR.checkCanSend (h : SR ex zs W E n n' K U s0 s0' s s') {env env' : Env} (hc : SameClock ex E env env') (info : Info) (o : Bytes)
    {q q' : Position} (hq : QRel ex E q q') : checkCanSend s' env' info o q' = checkCanSend s env info o q := by
  unfold OraiV3.checkCanSend
  rw [h.isOperator hc, hq.fields.2.2.2.1]
  have : (q.approvals.any fun a => decide (a.spender = info.sender) && !a.expires.isExpired env') =
      q.approvals.any fun a => decide (a.spender = info.sender) && !a.expires.isExpired env := by
    cases ex
    · have ha := hq.form.2
      rw [Bool.eq_iff_iff, List.any_eq_true, List.any_eq_true]
      constructor
      · rintro ⟨a, h1, h2⟩; exact ⟨a, h1, by rw [hc a.expires (ha a h1)] at h2; exact h2⟩
      · rintro ⟨a, h1, h2⟩; exact ⟨a, h1, by rw [hc a.expires (ha a h1)]; exact h2⟩
    · obtain rfl : env = env' := hc
      rfl
  rw [this]

theorem SR.checkCanApprove (h : SR ex zs W E n n' K U s0 s0' s s') {env env' : Env} (hc : SameClock ex E env env') (info : Info) (o : Bytes) :
    checkCanApprove s' env' info o = checkCanApprove s env info o := by
  unfold OraiV3.checkCanApprove
  rw [h.isOperator hc]

theorem SR.transferNftInternal (h : SR ex zs W E n n' K U s0 s0' s s') {env env' : Env} (hc : SameClock ex E env env') (info : Info)
    {rcv id : Bytes} (hr : U rcv) (hid : U (id.take (id.length - 4))) :
    Rel (SR ex zs W E n n' K U s0 s0') (transferNftInternal s env info rcv id) (transferNftInternal s' env' info rcv id) := by
  unfold OraiV3.transferNftInternal
  refine Rel.bindSameOk _ fun o ho => ?_
  have hU : U o := by
    unfold tokenOwner at ho
    split at ho
    · cases ho
    · rw [ok_inj] at ho; rw [← ho]; exact hid
  refine Rel.bind (h.getByKey hid) fun q q' hq => ?_
  rw [h.checkCanSend hc info o hq]
  refine Rel.bindSame _ fun _ => ?_
  refine Rel.bind (h.removePositionAt hU _) fun x x' hx => ?_
  exact hx.1.addPosition hr (hq.setApprovals (l := []) (by simp))

theorem SR.burn (h : SR ex zs W E n n' K U s0 s0' s s') {env env' : Env} (e1 : env.millis = n) (e2 : env'.millis = n')
    (hn : ex = true → n = n') (hc : SameClock ex E env env') (c : Chain) {info : Info} (hu : U info.sender) {id : Bytes}
    (hid : U (id.take (id.length - 4)))
    (hK : ∀ q, s.positions.get? (positionKey info.sender (tokenIndex id)) = some q → K q.poolKey) :
    XRel ex zs W E n n' K U s0 s0' (burn c s env info id) (burn c s' env' info id) := by
  unfold OraiV3.burn
  refine Rel.bind (h.getByKey hid) fun q q' hq => ?_
  refine Rel.bindSame _ fun o => ?_
  rw [h.checkCanSend hc info o hq]
  refine Rel.bindSame _ fun _ => ?_
  exact h.removePosition e1 e2 hn c hu hK

theorem SR.updateApprovals (h : SR ex zs W E n n' K U s0 s0' s s') {env env' : Env} (hc : SameClock ex E env env') (info : Info)
    {sp id : Bytes} (hid : U (id.take (id.length - 4))) (add : Bool) {x : Option Expiration} (hx : ex = false → E (x.getD .never)) :
    XRel ex zs W E n n' K U s0 s0' (updateApprovals s env info sp id add x) (updateApprovals s' env' info sp id add x) := by
  unfold OraiV3.updateApprovals
  refine Rel.bindSame _ fun o => ?_
  refine Rel.bind (h.getByKey hid) fun q q' hq => ?_
  rw [h.checkCanApprove hc info o]
  refine Rel.bindSame _ fun _ => ?_
  have hexp : (x.getD .never).isExpired env' = (x.getD .never).isExpired env := by
    cases ex
    · exact hc _ (hx rfl)
    · obtain rfl : env = env' := hc
      rfl
  have hkept : ex = false → ∀ a ∈ q.approvals.filter (fun a => decide (a.spender ≠ sp)), E a.expires := by
    rintro rfl a ha
    exact hq.form.2 a (List.mem_filter.1 ha).1
  simp only [hq.fields.2.2.2.1, hexp]
  refine Rel.ite (fun _ => Rel.ite (fun _ => Rel.error _) fun _ => ?_) fun _ => ?_
  · refine ⟨h.setPos hid (hq.setApprovals fun he a ha => ?_), rfl⟩
    rcases List.mem_append.1 ha with ha | ha
    · exact hkept he a ha
    · rw [List.mem_singleton] at ha
      subst ha
      exact hx he
  · exact ⟨h.setPos hid (hq.setApprovals hkept), rfl⟩

/-! ## Settings -/

theorem SR.setConfig (h : SR ex zs true E n n' K U s0 s0' s s') (cfg : Option Config) :
    SR ex zs true E n n' K U s0 s0' { s with config := cfg } { s' with config := cfg } :=
  { h with config := rfl, kConfig := by simp }

theorem SR.setOperators (h : SR ex zs true E n n' K U s0 s0' s s') {m m' : KV Expiration} (hm : m' = m)
    (he : ex = false → ∀ id e, m.get? id = some e → E e) :
    SR ex zs true E n n' K U s0 s0' { s with operators := m } { s' with operators := m' } :=
  { h with operators := hm, expires := he, kOperators := by simp }

theorem SR.dispatch (h : SR ex zs W E n n' K U s0 s0' s s') {env env' : Env} (e1 : env.millis = n) (e2 : env'.millis = n')
    (hb : ex = true → env = env') (hc : SameClock ex E env env') (hnever : E .never) (c : Chain) {info : Info} {msg : Msg}
    (hW : W = false → msg.global = false) (hK : ∀ k, msg.usesPool s info.sender k → K k) (hU : ∀ u ∈ msg.accounts info.sender, U u)
    (hE : ex = false → ∀ e ∈ msg.expirations, E e) :
    XRel ex zs W E n n' K U s0 s0' (dispatch c env info msg s) (dispatch c env' info msg s') := by
  have hn : ex = true → n = n' := by
    intro he
    rw [← e1, ← e2, hb he]
  have hh : ex = true → env.height = env'.height := by
    intro he
    rw [hb he]
  have hexp : ∀ e, (ex = false → E e) → e.isExpired env' = e.isExpired env := by
    intro e he
    cases ex
    · exact hc _ (he rfl)
    · obtain rfl : env = env' := hc
      rfl
  cases msg with
  | changeAdmin a =>
    cases W
    · cases hW rfl
    · simp only [OraiV3.dispatch, changeAdmin, loadConfig]
      rw [h.config]
      refine Rel.bindSame _ fun cfg => ?_
      exact Rel.ite (fun _ => Rel.error _) fun _ => ⟨h.setConfig _, rfl⟩
  | changeProtocolFee f =>
    cases W
    · cases hW rfl
    · simp only [OraiV3.dispatch, changeProtocolFee, loadConfig]
      rw [h.config]
      refine Rel.bindSame _ fun cfg => ?_
      exact Rel.ite (fun _ => Rel.error _) fun _ => ⟨h.setConfig _, rfl⟩
  | addFeeTier t =>
    cases W
    · cases hW rfl
    · simp only [OraiV3.dispatch, addFeeTier, loadConfig]
      rw [h.config]
      refine Rel.bindSame _ fun cfg => ?_
      refine Rel.ite (fun _ => Rel.error _) fun _ => ?_
      refine Rel.ite (fun _ => Rel.error _) fun _ => ?_
      exact Rel.ite (fun _ => Rel.error _) fun _ => ⟨h.setConfig _, rfl⟩
  | removeFeeTier t =>
    cases W
    · cases hW rfl
    · simp only [OraiV3.dispatch, removeFeeTier, loadConfig]
      rw [h.config]
      refine Rel.bindSame _ fun cfg => ?_
      refine Rel.ite (fun _ => Rel.error _) fun _ => ?_
      exact Rel.ite (fun _ => ⟨h.setConfig _, rfl⟩) fun _ => Rel.error _
  | approveAll o e =>
    cases W
    · cases hW rfl
    · have hE' : ex = false → E (e.getD .never) := fun hx => hE hx _ (by simp [Msg.expirations])
      simp only [OraiV3.dispatch, approveAll, hexp _ hE']
      refine Rel.ite (fun _ => Rel.error _) fun _ => ⟨h.setOperators (by rw [h.operators]) fun hx id e' he => ?_, rfl⟩
      rw [KV.get?_insert] at he
      split at he
      · rw [Option.some.injEq] at he
        rw [← he]
        exact hE' hx
      · exact h.expires hx _ _ he
  | revokeAll o =>
    cases W
    · cases hW rfl
    · refine ⟨h.setOperators (by rw [h.operators]) fun hx id e' he => ?_, rfl⟩
      rw [KV.get?_erase] at he
      split at he
      · cases he
      · exact h.expires hx _ _ he
  | withdrawProtocolFee k => exact h.withdrawProtocolFee c info (hK k rfl)
  | changeFeeReceiver k r => exact h.changeFeeReceiver info (hK k rfl) r
  | createPosition k l u L lo hi => exact h.createPosition e1 e2 hn hh c (hU _ (by simp [Msg.accounts])) (hK k rfl) l u L lo hi
  | mint k l u L lo hi => exact h.createPosition e1 e2 hn hh c (hU _ (by simp [Msg.accounts])) (hK k rfl) l u L lo hi
  | swap k d a b lim => exact h.swap e1 e2 hn c info (hK k rfl) d a b lim
  | swapRoute a e sl hops => exact h.swapRoute e1 e2 hn c info (fun x hx => hK _ ⟨x, hx, rfl⟩) a e sl
  | transferPosition i r => exact h.transferPosition c (hU _ (by simp [Msg.accounts])) i (hU _ (by simp [Msg.accounts]))
  | claimFee i => exact h.claimFee e1 e2 hn c (hU _ (by simp [Msg.accounts])) fun q hq => hK _ ⟨q, hq, rfl⟩
  | removePosition i => exact h.removePosition e1 e2 hn c (hU _ (by simp [Msg.accounts])) fun q hq => hK _ ⟨q, hq, rfl⟩
  | createPool t0 t1 tier p t => exact h.createPool e1 e2 hn ⟨hK _ (.inl rfl), hK _ (.inr rfl)⟩ p t
  | transferNft r id =>
    exact Rel.bind (h.transferNftInternal hc info (hU _ (by simp [Msg.accounts])) (hU _ (by simp [Msg.accounts]))) fun x x' hx => ⟨hx, rfl⟩
  | sendNft r id m =>
    exact Rel.bind (h.transferNftInternal hc info (hU _ (by simp [Msg.accounts])) (hU _ (by simp [Msg.accounts]))) fun x x' hx => ⟨hx, rfl⟩
  | burn id =>
    exact h.burn e1 e2 hn hc c (hU _ (by simp [Msg.accounts])) (hU _ (by simp [Msg.accounts])) fun q hq => hK _ ⟨q, hq, rfl⟩
  | approve sp id e =>
    exact h.updateApprovals hc info (hU _ (by simp [Msg.accounts])) true fun hx => hE hx _ (by simp [Msg.expirations])
  | revoke sp id => exact h.updateApprovals hc info (hU _ (by simp [Msg.accounts])) false fun _ => hnever

theorem SR.execute (h : SR ex zs W E n n' K U s0 s0' s s') {env env' : Env} (e1 : env.millis = n) (e2 : env'.millis = n')
    (hb : ex = true → env = env') (hc : SameClock ex E env env') (hnever : E .never) (c : Chain) {info : Info} {msg : Msg}
    (hW : W = false → msg.global = false) (hK : ∀ k, msg.usesPool s info.sender k → K k) (hU : ∀ u ∈ msg.accounts info.sender, U u)
    (hE : ex = false → ∀ e ∈ msg.expirations, E e) :
    XRel ex zs W E n n' K U s0 s0' (execute c env info msg s) (execute c env' info msg s') := by
  unfold OraiV3.execute
  exact Rel.ite (fun _ => h.dispatch e1 e2 hb hc hnever c hW hK hU hE) fun _ => Rel.error _

end
end OraiV3
