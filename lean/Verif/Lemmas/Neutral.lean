import Mathlib.Data.List.Forall2
import Verif.NeutralSpec
import Verif.Lemmas.Monad
import Verif.Lemmas.KV

/-!
# Two runs that differ in the protocol fee

If two computations from storages that differ only in fees both succeed, their results differ only in fees.
-/

namespace OraiV3

/-- If both computations succeed, their results are related. -/
def Both {α β : Type} (R : α → β → Prop) (x : M α) (y : M β) : Prop := ∀ a b, x = .ok a → y = .ok b → R a b

namespace Both
variable {α β γ δ : Type}

theorem bind {R : α → β → Prop} {S : γ → δ → Prop} {x : M α} {y : M β} {f : α → M γ} {g : β → M δ}
    (h : Both R x y) (hf : ∀ a b, R a b → Both S (f a) (g b)) : Both S (x >>= f) (y >>= g) := by
  intro c d h1 h2
  obtain ⟨a, ha, h1⟩ := bind_ok.1 h1
  obtain ⟨b, hb, h2⟩ := bind_ok.1 h2
  exact hf a b (h a b ha hb) c d h1 h2

theorem same {S : γ → δ → Prop} (x : M α) {f : α → M γ} {g : α → M δ} (hf : ∀ a, Both S (f a) (g a)) :
    Both S (x >>= f) (x >>= g) :=
  bind (R := fun a b => a = b) (fun a b h h' => by rw [h, ok_inj] at h'; exact h') fun a b e => by subst e; exact hf a

theorem free {S : γ → δ → Prop} {x : M α} {y : M β} {f : α → M γ} {g : β → M δ} (hf : ∀ a b, Both S (f a) (g b)) :
    Both S (x >>= f) (y >>= g) := bind (R := fun _ _ => True) (fun _ _ _ _ => trivial) fun a b _ => hf a b

theorem ok {R : α → β → Prop} {a : α} {b : β} (h : R a b) : Both R (.ok a) (.ok b) := by
  intro x y h1 h2
  rw [ok_inj] at h1 h2
  subst h1; subst h2
  exact h

theorem pure {R : α → β → Prop} {a : α} {b : β} (h : R a b) : Both R (Pure.pure a) (Pure.pure b) := ok h

theorem errL {R : α → β → Prop} (e : Err) (y : M β) : Both R (.error e) y := fun a b h => by cases h
theorem errR {R : α → β → Prop} (e : Err) (x : M α) : Both R x (.error e) := fun a b _ h => by cases h

theorem ite {R : α → β → Prop} {p : Prop} [Decidable p] {a b : M α} {a' b' : M β}
    (h1 : p → Both R a a') (h2 : ¬ p → Both R b b') : Both R (if p then a else b) (if p then a' else b') := by
  split
  · exact h1 ‹_›
  · exact h2 ‹_›

theorem mono {R S : α → β → Prop} {x : M α} {y : M β} (h : Both R x y) (hs : ∀ a b, R a b → S a b) : Both S x y :=
  fun a b h1 h2 => hs a b (h a b h1 h2)

theorem refl {R : α → α → Prop} (x : M α) (h : ∀ a, R a a) : Both R x x := fun a b h1 h2 => by
  rw [h1, ok_inj] at h2; subst h2; exact h a
end Both

/-! ## Records -/

def PF (a b : Pool) : Prop := a.feeless = b.feeless
def TF (a b : Tick) : Prop := a.feeless = b.feeless
def QF (a b : Position) : Prop := a.feeless = b.feeless

theorem PF.form {a b : Pool} (h : PF a b) : ∃ x y u v, b = { a with fgX := x, fgY := y, protoX := u, protoY := v } := by
  refine ⟨b.fgX, b.fgY, b.protoX, b.protoY, ?_⟩
  cases a; cases b
  simp only [PF, Pool.feeless, Pool.mk.injEq] at h
  obtain ⟨rfl, rfl, rfl, -, -, -, -, rfl, rfl, rfl⟩ := h
  rfl

theorem TF.form {a b : Tick} (h : TF a b) : ∃ x y, b = { a with outX := x, outY := y } := by
  refine ⟨b.outX, b.outY, ?_⟩
  cases a; cases b
  simp only [TF, Tick.feeless, Tick.mk.injEq] at h
  obtain ⟨rfl, rfl, rfl, rfl, rfl, -, -, rfl⟩ := h
  rfl

theorem QF.form {a b : Position} (h : QF a b) : ∃ x y u v, b = { a with fgInX := x, fgInY := y, owedX := u, owedY := v } := by
  refine ⟨b.fgInX, b.fgInY, b.owedX, b.owedY, ?_⟩
  cases a; cases b
  simp only [QF, Position.feeless, Position.mk.injEq] at h
  obtain ⟨rfl, rfl, rfl, rfl, -, -, rfl, -, -, rfl⟩ := h
  rfl

theorem Tick.create_both {p p' : Pool} (h : PF p p') (i : Int) (n : Nat) : Both TF (Tick.create i p n) (Tick.create i p' n) := by
  obtain ⟨x, y, u, v, rfl⟩ := h.form
  unfold Tick.create
  cases calculateSqrtPrice i with
  | error e => exact Both.errL _ _
  | ok pr =>
    by_cases hb : i ≤ p.tick
    · simp only [hb, decide_true, if_true]
      exact Both.same (subP n p.startTs) fun _ => Both.pure rfl
    · simp only [hb, decide_false, Bool.false_eq_true, if_false]
      exact Both.pure rfl

theorem Tick.cross_both {p p' : Pool} {t t' : Tick} (h : PF p p') (ht : TF t t') (n : Nat) :
    Both (fun a b => TF a.1 b.1 ∧ PF a.2 b.2) (t.cross p n) (t'.cross p' n) := by
  obtain ⟨x, y, u, v, rfl⟩ := h.form
  obtain ⟨a, b, rfl⟩ := ht.form
  unfold Tick.cross
  refine Both.same (checkedSub .timestampSubOverflow n p.startTs) fun _ => ?_
  refine Both.ite (fun _ => ?_) fun _ => ?_
  · exact Both.same (checkedAdd .poolAddTickLiquidityOverflow p.liquidity t.change) fun _ => Both.pure ⟨rfl, rfl⟩
  · exact Both.same (checkedSub .poolSubTickLiquidityUnderflow p.liquidity t.change) fun _ => Both.pure ⟨rfl, rfl⟩

theorem Tick.update_both {t t' : Tick} (ht : TF t t') (delta maxL : Nat) (up dep : Bool) :
    Both TF (t.update delta maxL up dep) (t'.update delta maxL up dep) := by
  obtain ⟨a, b, rfl⟩ := ht.form
  unfold Tick.update
  refine Both.bind (R := fun a b => a = b) (Both.refl (t.newGross dep delta maxL) fun _ => rfl) fun g g' e => ?_
  subst e
  unfold Tick.updateChange
  refine Both.ite (fun _ => Both.ite (fun _ => Both.pure rfl) fun _ => Both.pure rfl) fun _ => ?_
  exact Both.same _ fun _ => Both.pure rfl

theorem Pool.addFee_fee {p q : Pool} {a : Nat} {inX : Bool} {f : Nat} (h : p.addFee a inX f = .ok q) : PF p q := by
  unfold Pool.addFee at h
  obtain ⟨proto, -, h⟩ := bind_ok.1 h
  obtain ⟨fee, -, h⟩ := bind_ok.1 h
  split at h
  · rw [pure_ok] at h; subst h; rfl
  · obtain ⟨g, -, h⟩ := bind_ok.1 h
    split at h
    all_goals
      obtain ⟨w, -, h⟩ := bind_ok.1 h
      rw [pure_ok] at h; subst h; rfl

theorem Pool.addFee_both {p p' : Pool} (h : PF p p') (a a' : Nat) (inX inX' : Bool) (f f' : Nat) :
    Both PF (p.addFee a inX f) (p'.addFee a' inX' f') := fun _ _ h1 h2 =>
  ((Pool.addFee_fee h1).symm.trans h).trans (Pool.addFee_fee h2)

theorem Pool.updateLiquidity_both {p p' : Pool} (h : PF p p') (delta : Nat) (sg : Bool) (u l : Int) :
    Both (fun a b => PF a.1 b.1 ∧ a.2 = b.2) (p.updateLiquidity delta sg u l) (p'.updateLiquidity delta sg u l) := by
  obtain ⟨x, y, w, v, rfl⟩ := h.form
  unfold Pool.updateLiquidity
  refine Both.same (calculateAmountDelta p.tick p.sqrtPrice delta sg u l) fun r => ?_
  refine Both.ite (fun _ => Both.ite (fun _ => ?_) fun _ => ?_) fun _ => Both.pure ⟨rfl, rfl⟩
  · exact Both.same (checkedAdd .updateLiquidityPlusOverflow p.liquidity delta) fun _ => Both.pure ⟨rfl, rfl⟩
  · exact Both.same (checkedSub .updateLiquidityMinusOverflow p.liquidity delta) fun _ => Both.pure ⟨rfl, rfl⟩

/-- Tick updates up to fees. -/
def UF : TickUpd → TickUpd → Prop
  | .noTick, .noTick => True
  | .init t, .init t' => TF t t'
  | .uninit i, .uninit i' => i = i'
  | _, _ => False

theorem PF.setTick {p p' : Pool} (h : PF p p') (t : Int) : PF { p with tick := t } { p' with tick := t } := by
  obtain ⟨x, y, w, v, rfl⟩ := h.form; rfl
theorem PF.setPrice {p p' : Pool} (h : PF p p') (t : Nat) : PF { p with sqrtPrice := t } { p' with sqrtPrice := t } := by
  obtain ⟨x, y, w, v, rfl⟩ := h.form; rfl
theorem PF.setLast {p p' : Pool} (h : PF p p') (t : Nat) : PF { p with lastTs := t } { p' with lastTs := t } := by
  obtain ⟨x, y, w, v, rfl⟩ := h.form; rfl
theorem PF.tick {p p' : Pool} (h : PF p p') : p'.tick = p.tick := by obtain ⟨x, y, w, v, rfl⟩ := h.form; rfl
theorem PF.price {p p' : Pool} (h : PF p p') : p'.sqrtPrice = p.sqrtPrice := by obtain ⟨x, y, w, v, rfl⟩ := h.form; rfl
theorem PF.liquidity {p p' : Pool} (h : PF p p') : p'.liquidity = p.liquidity := by obtain ⟨x, y, w, v, rfl⟩ := h.form; rfl
theorem PF.receiver {p p' : Pool} (h : PF p p') : p'.feeReceiver = p.feeReceiver := by obtain ⟨x, y, w, v, rfl⟩ := h.form; rfl

structure RF (a b : TickUpdRes) : Prop where
  pool : PF a.pool b.pool
  upd : UF a.upd b.upd
  total : b.total = a.total
  remaining : b.remaining = a.remaining
  crossed : b.crossed = a.crossed

theorem Pool.updateTick_both {p p' : Pool} {u u' : TickUpd} (h : PF p p') (hu : UF u u') (np lim rem : Nat) (b d : Bool) (n f f' : Nat)
    (tier : FeeTier) : Both RF (p.updateTick np lim u rem b d n f tier) (p'.updateTick np lim u' rem b d n f' tier) := by
  unfold Pool.updateTick
  have e : (u' = .noTick ∨ lim ≠ np) ↔ (u = .noTick ∨ lim ≠ np) := by
    cases u <;> cases u' <;> simp [UF] at hu ⊢
  simp only [e]
  refine Both.ite (fun _ => ?_) fun _ => ?_
  · exact Both.same _ fun t => Both.pure ⟨h.setTick t, hu, rfl, rfl, rfl⟩
  refine Both.bind (R := fun a b => a = b) (by rw [h.liquidity]; exact Both.refl _ fun _ => rfl) fun en en' e' => ?_
  subst e'
  cases u with
  | noTick => exact Both.errL _ _
  | uninit i =>
    cases u' with
    | uninit i' => cases hu; exact Both.pure ⟨h.setTick _, rfl, rfl, rfl, rfl⟩
    | noTick => exact hu.elim
    | init t => exact hu.elim
  | init t =>
    cases u' with
    | uninit i' => exact hu.elim
    | noTick => exact hu.elim
    | init t' =>
      have et : t'.index = t.index := by obtain ⟨_, _, rfl⟩ := TF.form hu; rfl
      simp only [et]
      refine Both.ite (fun _ => ?_) fun _ => ?_
      · intro a b' h1 h2
        cases h3 : t.cross p n with
        | error e => rw [h3] at h1; cases h1
        | ok tp =>
          cases h4 : t'.cross p' n with
          | error e => rw [h4] at h2; cases h2
          | ok tp' =>
            rw [h3] at h1; rw [h4] at h2
            obtain ⟨g1, g2⟩ := Tick.cross_both h hu n _ _ h3 h4
            rw [pure_ok] at h1 h2
            subst h1; subst h2
            exact ⟨g2.setTick _, g1, rfl, rfl, rfl⟩
      · refine Both.ite (fun _ => ?_) fun _ => Both.pure ⟨h.setTick _, hu, rfl, rfl, rfl⟩
        refine Both.ite (fun _ => ?_) fun _ => Both.pure ⟨h.setTick _, hu, rfl, rfl, rfl⟩
        exact Both.bind (Pool.addFee_both h _ _ _ _ _ _) fun q q' hq => Both.pure ⟨hq.setTick _, hu, rfl, rfl, rfl⟩

theorem Position.update_both {q q' : Position} (h : QF q q') (sg : Bool) (delta a b a' b' : Nat) :
    Both QF (q.update sg delta a b) (q'.update sg delta a' b') := by
  obtain ⟨x, y, u, v, rfl⟩ := h.form
  unfold Position.update
  refine Both.ite (fun _ => Both.errL _ _) fun _ => ?_
  refine Both.free fun _ _ => Both.free fun _ _ => ?_
  refine Both.bind (R := fun a b => a = b) (Both.refl (q.newLiquidity sg delta) fun _ => rfl) fun l l' e => ?_
  subst e
  exact Both.free fun _ _ => Both.free fun _ _ => Both.pure rfl

/-- Results of `Position.modify` up to fees. -/
structure MF (a b : ModifyRes) : Prop where
  pos : QF a.pos b.pos
  pool : PF a.pool b.pool
  lower : TF a.lower b.lower
  upper : TF a.upper b.upper

theorem TF.index {t t' : Tick} (h : TF t t') : t'.index = t.index := by obtain ⟨_, _, rfl⟩ := h.form; rfl
theorem TF.gross {t t' : Tick} (h : TF t t') : t'.gross = t.gross := by obtain ⟨_, _, rfl⟩ := h.form; rfl

theorem Position.modify_both {q q' : Position} {p p' : Pool} {u u' l l' : Tick} (h : QF q q') (hp : PF p p') (hu : TF u u') (hl : TF l l')
    (delta : Nat) (add : Bool) (n ts : Nat) :
    Both (fun a b => MF a b ∧ b.x = a.x ∧ b.y = a.y) (q.modify p u l delta add n ts) (q'.modify p' u' l' delta add n ts) := by
  unfold Position.modify
  refine Both.bind (Tick.update_both hl _ _ _ _) fun l1 l1' hl1 => ?_
  refine Both.bind (Tick.update_both hu _ _ _ _) fun u1 u1' hu1 => ?_
  refine Both.bind (Position.update_both h _ _ _ _ _ _) fun r r' hr => ?_
  simp only [hl1.index, hu1.index]
  refine Both.bind (Pool.updateLiquidity_both (hp.setLast n) _ _ _ _) fun z z' hz => ?_
  exact Both.pure ⟨⟨hr, hz.1, hl1, hu1⟩, by rw [hz.2], by rw [hz.2]⟩

theorem Position.create_both {p p' : Pool} {u u' l l' : Tick} (hp : PF p p') (hu : TF u u') (hl : TF l l') (k : PoolKey)
    (n L lo hi block ts : Nat) :
    Both (fun a b => MF a b ∧ b.x = a.x ∧ b.y = a.y) (Position.create p k l u n L lo hi block ts)
      (Position.create p' k l' u' n L lo hi block ts) := by
  unfold Position.create
  simp only [hp.price, hl.index, hu.index]
  refine Both.ite (fun _ => Both.errL _ _) fun _ => ?_
  exact Position.modify_both rfl hp hu hl _ _ _ _

theorem QF.key {q q' : Position} (h : QF q q') : q'.poolKey = q.poolKey ∧ q'.lower = q.lower ∧ q'.upper = q.upper ∧
    q'.liquidity = q.liquidity ∧ q'.approvals = q.approvals := by
  obtain ⟨x, y, u, v, rfl⟩ := h.form; exact ⟨rfl, rfl, rfl, rfl, rfl⟩

theorem QF.setApprovals {q q' : Position} (h : QF q q') (l : List Approval) : QF { q with approvals := l } { q' with approvals := l } := by
  obtain ⟨x, y, u, v, rfl⟩ := h.form; rfl

theorem Position.claimFee_both {q q' : Position} {p p' : Pool} {u u' l l' : Tick} (h : QF q q') (hp : PF p p') (hu : TF u u') (hl : TF l l')
    (n : Nat) : Both MF (q.claimFee p u l n) (q'.claimFee p' u' l' n) := by
  unfold Position.claimFee
  rw [h.key.1]
  refine Both.bind (Position.modify_both h hp hu hl _ _ _ _) fun r r' hr => Both.pure ⟨?_, hr.1.pool, hr.1.lower, hr.1.upper⟩
  obtain ⟨x, y, u, v, e⟩ := hr.1.pos.form
  rw [e]; rfl

theorem Position.remove_both {q q' : Position} {p p' : Pool} {u u' l l' : Tick} (h : QF q q') (hp : PF p p') (hu : TF u u') (hl : TF l l')
    (n ts : Nat) : Both MF (q.remove p n l u ts) (q'.remove p' n l' u' ts) := by
  unfold Position.remove
  rw [h.key.2.2.2.1]
  refine Both.bind (Position.modify_both h hp hu hl _ _ _ _) fun r r' hr => ?_
  exact Both.free fun _ _ => Both.free fun _ _ => Both.pure ⟨hr.1.pos, hr.1.pool, hr.1.lower, hr.1.upper⟩

/-! ## Storage -/

variable {s s' : Store}

theorem omap_insert {α β : Type} {f : α → β} {m m' : KV α} {k : Bytes} {v v' : α} (hv : f v = f v')
    (h : ∀ k', (m.get? k').map f = (m'.get? k').map f) : ∀ k', ((m.insert k v).get? k').map f = ((m'.insert k v').get? k').map f := by
  intro k'
  rw [KV.get?_insert, KV.get?_insert]
  split
  · simp [hv]
  · exact h k'

theorem omap_erase {α β : Type} {f : α → β} {m m' : KV α} {k : Bytes}
    (h : ∀ k', (m.get? k').map f = (m'.get? k').map f) : ∀ k', ((m.erase k).get? k').map f = ((m'.erase k).get? k').map f := by
  intro k'
  rw [KV.get?_erase, KV.get?_erase]
  split
  · rfl
  · exact h k'

theorem omap_some {α β : Type} {f : α → β} {m m' : KV α} {k : Bytes} (h : ∀ k', (m.get? k').map f = (m'.get? k').map f) {a b : α}
    (ha : m.get? k = some a) (hb : m'.get? k = some b) : f a = f b := by
  have := h k
  rw [ha, hb] at this
  exact Option.some.inj this

theorem omap_has {α β : Type} {f : α → β} {m m' : KV α} {k : Bytes} (h : ∀ k', (m.get? k').map f = (m'.get? k').map f) :
    m'.has k = m.has k := by
  have := h k
  unfold KV.has
  revert this
  cases m.get? k <;> cases m'.get? k <;> simp

namespace SameButFees

theorem getPool (h : SameButFees s s') (k : PoolKey) : Both PF (OraiV3.getPool s k) (OraiV3.getPool s' k) := by
  intro a b h1 h2
  unfold OraiV3.getPool at h1 h2
  cases e1 : s.pools.get? k.key with
  | none => rw [e1] at h1; cases h1
  | some p =>
    cases e2 : s'.pools.get? k.key with
    | none => rw [e2] at h2; cases h2
    | some p' =>
      rw [e1] at h1; rw [e2] at h2
      cases h1; cases h2
      exact omap_some h.pools e1 e2

theorem getTick (h : SameButFees s s') (k : PoolKey) (i : Int) : Both TF (OraiV3.getTick s k i) (OraiV3.getTick s' k i) := by
  intro a b h1 h2
  unfold OraiV3.getTick at h1 h2
  cases e1 : s.ticks.get? (tickKey k i) with
  | none => rw [e1] at h1; cases h1
  | some p =>
    cases e2 : s'.ticks.get? (tickKey k i) with
    | none => rw [e2] at h2; cases h2
    | some p' =>
      rw [e1] at h1; rw [e2] at h2
      cases h1; cases h2
      exact omap_some h.ticks e1 e2

theorem getByKey (h : SameButFees s s') (id : Bytes) : Both QF (getPositionByKey s id) (getPositionByKey s' id) := by
  intro a b h1 h2
  unfold getPositionByKey at h1 h2
  cases e1 : s.positions.get? id with
  | none => rw [e1] at h1; cases h1
  | some p =>
    cases e2 : s'.positions.get? id with
    | none => rw [e2] at h2; cases h2
    | some p' =>
      rw [e1] at h1; rw [e2] at h2
      cases h1; cases h2
      exact omap_some h.positions e1 e2

theorem getPosition (h : SameButFees s s') (o : Bytes) (i : Nat) : Both QF (OraiV3.getPosition s o i) (OraiV3.getPosition s' o i) :=
  h.getByKey _

theorem loadConfig (h : SameButFees s s') : Both (fun a b : Config => a.feeless = b.feeless) (OraiV3.loadConfig s) (OraiV3.loadConfig s') := by
  intro a b h1 h2
  unfold OraiV3.loadConfig at h1 h2
  have := h.config
  cases e1 : s.config with
  | none => rw [e1] at h1; cases h1
  | some p =>
    cases e2 : s'.config with
    | none => rw [e2] at h2; cases h2
    | some p' =>
      rw [e1] at h1; rw [e2] at h2
      rw [e1, e2] at this
      cases h1; cases h2
      exact Option.some.inj this

theorem getChunk (h : SameButFees s s') (k : PoolKey) : OraiV3.getChunk s' k = OraiV3.getChunk s k := by
  funext i
  unfold OraiV3.getChunk
  rw [h.bitmap]

theorem length (h : SameButFees s s') (u : Bytes) : getPositionLength s' u = getPositionLength s u := by
  unfold getPositionLength; rw [h.posLen]

theorem savePool (h : SameButFees s s') (k : PoolKey) {p p' : Pool} (hp : PF p p') :
    SameButFees (OraiV3.savePool s k p) (OraiV3.savePool s' k p') :=
  { h with pools := omap_insert hp h.pools }

theorem setTick (h : SameButFees s s') (key : Bytes) {t t' : Tick} (ht : TF t t') :
    SameButFees { s with ticks := s.ticks.insert key t } { s' with ticks := s'.ticks.insert key t' } :=
  { h with ticks := omap_insert ht h.ticks }

theorem delTick (h : SameButFees s s') (key : Bytes) :
    SameButFees { s with ticks := s.ticks.erase key } { s' with ticks := s'.ticks.erase key } :=
  { h with ticks := omap_erase h.ticks }

theorem addTick (h : SameButFees s s') (k : PoolKey) (i : Int) {t t' : Tick} (ht : TF t t') :
    Both SameButFees (OraiV3.addTick s k i t) (OraiV3.addTick s' k i t') := by
  unfold OraiV3.addTick
  rw [omap_has h.ticks]
  exact Both.ite (fun _ => Both.errL _ _) fun _ => Both.ok (h.setTick _ ht)

theorem updateTick (h : SameButFees s s') (k : PoolKey) (i : Int) {t t' : Tick} (ht : TF t t') :
    Both SameButFees (OraiV3.updateTick s k i t) (OraiV3.updateTick s' k i t') := by
  unfold OraiV3.updateTick
  rw [omap_has h.ticks]
  exact Both.ite (fun _ => Both.ok (h.setTick _ ht)) fun _ => Both.errL _ _

theorem removeTick (h : SameButFees s s') (k : PoolKey) (i : Int) :
    Both SameButFees (OraiV3.removeTick s k i) (OraiV3.removeTick s' k i) := by
  unfold OraiV3.removeTick
  rw [omap_has h.ticks]
  exact Both.ite (fun _ => Both.ok (h.delTick _)) fun _ => Both.errL _ _

theorem flipBitmap (h : SameButFees s s') (v : Bool) (i : Int) (ts : Nat) (k : PoolKey) :
    Both SameButFees (OraiV3.flipBitmap s v i ts k) (OraiV3.flipBitmap s' v i ts k) := by
  unfold OraiV3.flipBitmap
  rw [h.getChunk, h.bitmap]
  exact Both.same _ fun c => Both.ite (fun _ => Both.errL _ _) fun _ => Both.pure { h with bitmap := rfl }

theorem addPosition (h : SameButFees s s') (u : Bytes) {q q' : Position} (hq : QF q q') :
    Both SameButFees (OraiV3.addPosition s u q) (OraiV3.addPosition s' u q') := by
  unfold OraiV3.addPosition
  simp only [h.length, ← h.posLen]
  exact Both.ite (fun _ => Both.ok { h with positions := omap_insert hq h.positions, posLen := rfl }) fun _ => Both.errL _ _

theorem updatePosition (h : SameButFees s s') (u : Bytes) (i : Nat) {q q' : Position} (hq : QF q q') :
    Both SameButFees (OraiV3.updatePosition s u i q) (OraiV3.updatePosition s' u i q') := by
  unfold OraiV3.updatePosition
  simp only [h.length]
  exact Both.ite (fun _ => Both.errL _ _) fun _ => Both.ok { h with positions := omap_insert hq h.positions }

theorem removePositionAt (h : SameButFees s s') (u : Bytes) (i : Nat) :
    Both (fun a b => SameButFees a.1 b.1 ∧ QF a.2 b.2) (OraiV3.removePositionAt s u i) (OraiV3.removePositionAt s' u i) := by
  unfold OraiV3.removePositionAt
  simp only [h.length, ← h.posLen]
  refine Both.same _ fun n => ?_
  refine Both.bind (h.getPosition u i) fun q q' hq => ?_
  refine Both.ite (fun _ => ?_) fun _ => Both.pure ⟨{ h with positions := omap_erase h.positions, posLen := rfl }, hq⟩
  intro a b h1 h2
  cases e1 : s.positions.get? (positionKey u n) with
  | none => rw [e1] at h1; cases h1
  | some l =>
    cases e2 : s'.positions.get? (positionKey u n) with
    | none => rw [e2] at h2; cases h2
    | some l' =>
      rw [e1] at h1; rw [e2] at h2
      cases h1; cases h2
      exact ⟨{ h with positions := omap_insert (omap_some h.positions e1 e2) (omap_erase h.positions), posLen := rfl }, hq⟩

/-! ## Swaps -/

theorem tickUpdOf (h : SameButFees s s') (k : PoolKey) (lt : Option (Int × Bool)) :
    Both UF (OraiV3.tickUpdOf s k lt) (OraiV3.tickUpdOf s' k lt) := by
  unfold OraiV3.tickUpdOf
  match lt with
  | none => exact Both.pure trivial
  | some (i, true) => exact Both.bind (h.getTick k i) fun t t' ht => Both.pure ht
  | some (i, false) => exact Both.pure rfl
end SameButFees

/-- Loop states up to fees. -/
structure LF (a b : SwapState) : Prop where
  pool : PF a.pool b.pool
  remaining : b.remaining = a.remaining
  totalIn : b.totalIn = a.totalIn
  totalOut : b.totalOut = a.totalOut
  fee : b.fee = a.fee
  ticks : List.Forall₂ TF a.ticks b.ticks

theorem pushCrossed_fees {l l' : List Tick} {u u' : TickUpd} (hl : List.Forall₂ TF l l') (hu : UF u u') (c : Bool) :
    List.Forall₂ TF (pushCrossed l u c) (pushCrossed l' u' c) := by
  have snoc : ∀ {l l' : List Tick} {t t' : Tick}, List.Forall₂ TF l l' → TF t t' → List.Forall₂ TF (l ++ [t]) (l' ++ [t']) := by
    intro l l' t t' h ht
    induction h with
    | nil => exact .cons ht .nil
    | cons a _ ih => exact .cons a ih
  cases u <;> cases u' <;> cases c <;> first | exact hl | exact hu.elim | exact snoc hl hu

namespace SameButFees

theorem swapIter (h : SameButFees s s') (pr : SwapParams) {st st' : SwapState} (hst : LF st st') :
    Both LF (OraiV3.swapIter s pr st) (OraiV3.swapIter s' pr st') := by
  obtain ⟨k, d, b, lim, n⟩ := pr
  unfold OraiV3.swapIter
  simp only [h.getChunk, hst.pool.tick, hst.pool.price, hst.pool.liquidity, hst.remaining, hst.totalIn, hst.totalOut, hst.fee]
  refine Both.same _ fun cl => ?_
  refine Both.same _ fun r => ?_
  have tail : ∀ remaining : Nat, Both LF (do
      let cfg ← OraiV3.loadConfig s
      let pool ← st.pool.addFee r.feeAmount d cfg.protocolFee
      let fee ← add128 st.fee r.feeAmount
      let inFee ← add128 r.amountIn r.feeAmount
      let totalIn ← add128 st.totalIn inFee
      let totalOut ← add128 st.totalOut r.amountOut
      if r.nextPrice = lim ∧ remaining ≠ 0 then .error .priceLimitReached
      else do
        let upd ← OraiV3.tickUpdOf s k cl.2
        let u ← { pool with sqrtPrice := r.nextPrice }.updateTick r.nextPrice cl.1 upd remaining b d n
          cfg.protocolFee k.tier
        let totalIn ← add128 totalIn u.total
        if reachedTickLimit d k.tier.spacing u.pool.tick then .error .tickLimitReached
        else pure { pool := u.pool, remaining := u.remaining, totalIn := totalIn, totalOut := totalOut,
                    fee := fee, ticks := pushCrossed st.ticks u.upd u.crossed })
      (do
      let cfg ← OraiV3.loadConfig s'
      let pool ← st'.pool.addFee r.feeAmount d cfg.protocolFee
      let fee ← add128 st.fee r.feeAmount
      let inFee ← add128 r.amountIn r.feeAmount
      let totalIn ← add128 st.totalIn inFee
      let totalOut ← add128 st.totalOut r.amountOut
      if r.nextPrice = lim ∧ remaining ≠ 0 then .error .priceLimitReached
      else do
        let upd ← OraiV3.tickUpdOf s' k cl.2
        let u ← { pool with sqrtPrice := r.nextPrice }.updateTick r.nextPrice cl.1 upd remaining b d n
          cfg.protocolFee k.tier
        let totalIn ← add128 totalIn u.total
        if reachedTickLimit d k.tier.spacing u.pool.tick then .error .tickLimitReached
        else pure { pool := u.pool, remaining := u.remaining, totalIn := totalIn, totalOut := totalOut,
                    fee := fee, ticks := pushCrossed st'.ticks u.upd u.crossed }) := by
    intro remaining
    refine Both.free fun cfg cfg' => ?_
    refine Both.bind (Pool.addFee_both hst.pool _ _ _ _ _ _) fun p p' hp => ?_
    refine Both.same _ fun fee => ?_
    refine Both.same _ fun inFee => ?_
    refine Both.same _ fun ti => ?_
    refine Both.same _ fun tot => ?_
    refine Both.ite (fun _ => Both.errL _ _) fun _ => ?_
    refine Both.bind (h.tickUpdOf _ _) fun u u' hu => ?_
    refine Both.bind (Pool.updateTick_both (hp.setPrice _) hu _ _ _ _ _ _ _ _ _) fun v v' hv => ?_
    rw [hv.total, hv.pool.tick]
    refine Both.same _ fun ti' => ?_
    refine Both.ite (fun _ => Both.errL _ _) fun _ => ?_
    refine Both.pure ⟨hv.pool, hv.remaining, rfl, rfl, rfl, ?_⟩
    rw [hv.crossed]
    exact pushCrossed_fees hst.ticks hv.upd _
  cases b
  · exact Both.same _ tail
  · exact Both.same _ fun _ => Both.same _ tail

theorem swapLoop (h : SameButFees s s') (pr : SwapParams) : ∀ (m : Nat) {st st' : SwapState}, LF st st' →
    Both LF (OraiV3.swapLoop s pr m st) (OraiV3.swapLoop s' pr m st')
  | 0, st, st', hst => by
    unfold OraiV3.swapLoop
    rw [hst.remaining]
    exact Both.ite (fun _ => Both.ok hst) fun _ => Both.errL _ _
  | m + 1, st, st', hst => by
    unfold OraiV3.swapLoop
    rw [hst.remaining]
    refine Both.ite (fun _ => Both.ok hst) fun _ => ?_
    exact Both.bind (h.swapIter pr hst) fun x y hxy => h.swapLoop pr m hxy

end SameButFees

/-- Swap results up to fees. -/
structure CF (a b : CalcSwapResult) : Prop where
  amountIn : b.amountIn = a.amountIn
  amountOut : b.amountOut = a.amountOut
  startPrice : b.startPrice = a.startPrice
  targetPrice : b.targetPrice = a.targetPrice
  fee : b.fee = a.fee
  pool : PF a.pool b.pool
  ticks : List.Forall₂ TF a.ticks b.ticks

namespace SameButFees

theorem calculateSwap (h : SameButFees s s') (n : Nat) (k : PoolKey) (d : Bool) (amount : Nat) (b : Bool) (lim : Nat) :
    Both CF (OraiV3.calculateSwap s n k d amount b lim) (OraiV3.calculateSwap s' n k d amount b lim) := by
  unfold OraiV3.calculateSwap
  refine Both.ite (fun _ => Both.errL _ _) fun _ => ?_
  refine Both.bind (h.getPool k) fun p p' hp => ?_
  rw [hp.price]
  refine Both.ite (fun _ => Both.errL _ _) fun _ => ?_
  refine Both.ite (fun _ => Both.errL _ _) fun _ => ?_
  refine Both.bind (h.swapLoop _ _ ⟨hp, rfl, rfl, rfl, rfl, .nil⟩) fun st st' hst => ?_
  rw [hst.totalOut]
  refine Both.ite (fun _ => Both.errL _ _) fun _ => ?_
  exact Both.pure ⟨hst.totalIn, rfl, rfl, hst.pool.price, hst.fee, hst.pool, hst.ticks⟩

theorem saveTicks (k : PoolKey) {l l' : List Tick} (hl : List.Forall₂ TF l l') : ∀ {s s' : Store}, SameButFees s s' →
    Both SameButFees (OraiV3.saveTicks s k l) (OraiV3.saveTicks s' k l') := by
  induction hl with
  | nil => intro s s' h; exact Both.ok h
  | cons ht _ ih =>
    intro s s' h
    unfold OraiV3.saveTicks
    rw [ht.index]
    exact Both.bind (h.updateTick _ _ ht) fun a b hab => ih hab

theorem swapInternal (h : SameButFees s s') (c : Chain) (info : Info) (n : Nat) (k : PoolKey) (d : Bool) (amount : Nat) (b : Bool) (lim : Nat) :
    Both (fun x y => SameButFees x.1 y.1 ∧ y.2.1 = x.2.1 ∧ CF x.2.2 y.2.2)
      (OraiV3.swapInternal c s info n k d amount b lim) (OraiV3.swapInternal c s' info n k d amount b lim) := by
  unfold OraiV3.swapInternal
  refine Both.bind (h.calculateSwap n k d amount b lim) fun r r' hr => ?_
  refine Both.bind (saveTicks k hr.ticks h) fun t t' ht => ?_
  rw [hr.amountIn, hr.amountOut]
  exact Both.same _ fun m => Both.pure ⟨ht.savePool k hr.pool, rfl, hr⟩

theorem swapRouteInternal (c : Chain) (info : Info) (n : Nat) : ∀ (hops : List Hop) {s s' : Store} (amount : Nat) (ms : List OutMsg),
    SameButFees s s' → Both (fun x y => SameButFees x.1 y.1 ∧ y.2 = x.2)
      (OraiV3.swapRouteInternal c info n hops s amount ms) (OraiV3.swapRouteInternal c info n hops s' amount ms)
  | [], s, s', amount, ms, h => Both.ok ⟨h, rfl⟩
  | hop :: hops, s, s', amount, ms, h => by
    unfold OraiV3.swapRouteInternal
    refine Both.bind (h.swapInternal c info n _ _ _ _ _) fun r r' hr => ?_
    rw [hr.2.1, hr.2.2.amountOut]
    exact swapRouteInternal c info n hops _ _ hr.1

end SameButFees

end OraiV3
