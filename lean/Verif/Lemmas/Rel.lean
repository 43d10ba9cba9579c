import Verif.Spec
import Verif.Lemmas.Monad
import Verif.Lemmas.KV

/-!
# Two runs side by side

Relations between two storages that make every call give corresponding results.  With `ex = true` the parts in view are
equal; with `ex = false` they are equal up to block times and block heights.
-/

namespace OraiV3

/-- Both computations fail with the same error or both succeed with related results. -/
def Rel {α β : Type} (R : α → β → Prop) : M α → M β → Prop
  | .ok a, .ok b => R a b
  | .error e, .error e' => e = e'
  | _, _ => False

theorem Rel.refl {α : Type} {R : α → α → Prop} (h : ∀ a, R a a) (x : M α) : Rel R x x := by
  cases x
  · rfl
  · exact h _

theorem Rel.bind {α β γ δ : Type} {R : α → β → Prop} {S : γ → δ → Prop} {x : M α} {y : M β} {f : α → M γ} {g : β → M δ}
    (h : Rel R x y) (hf : ∀ a b, R a b → Rel S (f a) (g b)) : Rel S (x >>= f) (y >>= g) := by
  cases x with
  | error e =>
    cases y with
    | error e' => exact h
    | ok b => exact h.elim
  | ok a =>
    cases y with
    | error e' => exact h.elim
    | ok b => exact hf a b h

theorem Rel.bindOk {α β γ δ : Type} {R : α → β → Prop} {S : γ → δ → Prop} {x : M α} {y : M β} {f : α → M γ} {g : β → M δ}
    (h : Rel R x y) (hf : ∀ a b, x = .ok a → y = .ok b → R a b → Rel S (f a) (g b)) : Rel S (x >>= f) (y >>= g) := by
  cases x with
  | error e =>
    cases y with
    | error e' => exact h
    | ok b => exact h.elim
  | ok a =>
    cases y with
    | error e' => exact h.elim
    | ok b => exact hf a b rfl rfl h

theorem Rel.bindSame {α γ δ : Type} {S : γ → δ → Prop} (x : M α) {f : α → M γ} {g : α → M δ}
    (hf : ∀ a, Rel S (f a) (g a)) : Rel S (x >>= f) (x >>= g) := by
  cases x with
  | error e => exact rfl
  | ok a => exact hf a

theorem Rel.bindSameOk {α γ δ : Type} {S : γ → δ → Prop} (x : M α) {f : α → M γ} {g : α → M δ}
    (hf : ∀ a, x = .ok a → Rel S (f a) (g a)) : Rel S (x >>= f) (x >>= g) := by
  cases x with
  | error e => exact rfl
  | ok a => exact hf a rfl

theorem Rel.ok {α β : Type} {R : α → β → Prop} {a : α} {b : β} (h : R a b) : Rel R (.ok a) (.ok b) := h
theorem Rel.pure {α β : Type} {R : α → β → Prop} {a : α} {b : β} (h : R a b) : Rel R (Pure.pure a) (Pure.pure b) := h
theorem Rel.error {α β : Type} {R : α → β → Prop} (e : Err) : Rel R (.error e) (.error e) := rfl

theorem Rel.mono {α β : Type} {R S : α → β → Prop} {x : M α} {y : M β} (h : Rel R x y) (hs : ∀ a b, R a b → S a b) : Rel S x y := by
  cases x <;> cases y
  · exact h
  · exact h.elim
  · exact h.elim
  · exact hs _ _ h

theorem Rel.ite {α β : Type} {R : α → β → Prop} {p : Prop} [Decidable p] {a b : M α} {a' b' : M β}
    (h1 : p → Rel R a a') (h2 : ¬ p → Rel R b b') : Rel R (if p then a else b) (if p then a' else b') := by
  split
  · exact h1 ‹_›
  · exact h2 ‹_›

theorem Rel.eq_iff {α : Type} {x y : M α} : Rel (fun a b => a = b) x y ↔ x = y := by
  cases x <;> cases y <;> simp [Rel]

theorem Rel.of_ok {α β : Type} {R : α → β → Prop} {x : M α} {y : M β} {a : α} (h : Rel R x y) (hx : x = .ok a) :
    ∃ b, y = .ok b ∧ R a b := by
  subst hx
  cases y with
  | error e => exact h.elim
  | ok b => exact ⟨b, rfl, h⟩

/-- Related optional values. -/
def ORel {α : Type} (R : α → α → Prop) : Option α → Option α → Prop
  | none, none => True
  | some a, some b => R a b
  | _, _ => False

theorem ORel.has {α : Type} {R : α → α → Prop} {m m' : KV α} {k : Bytes} (h : ORel R (m.get? k) (m'.get? k)) :
    m.has k = m'.has k := by
  unfold KV.has
  revert h
  cases m.get? k <;> cases m'.get? k <;> simp [ORel]

theorem ORel.insert {α : Type} {R : α → α → Prop} {m m' : KV α} {k k' : Bytes} {v v' : α} (hv : R v v')
    (h : ORel R (m.get? k') (m'.get? k')) : ORel R ((m.insert k v).get? k') ((m'.insert k v').get? k') := by
  rw [KV.get?_insert, KV.get?_insert]
  split
  · exact hv
  · exact h

theorem ORel.erase {α : Type} {R : α → α → Prop} {m m' : KV α} {k k' : Bytes}
    (h : ORel R (m.get? k') (m'.get? k')) : ORel R ((m.erase k).get? k') ((m'.erase k).get? k') := by
  rw [KV.get?_erase, KV.get?_erase]
  split
  · trivial
  · exact h

/-! ## Records up to times -/

/-- Pools in two runs at the times `n` and `n'`. -/
def PRel (ex zs : Bool) (n n' : Nat) (a b : Pool) : Prop :=
  a.timeless = b.timeless ∧ if ex then a = b else a.startTs ≤ n ∧ b.startTs ≤ n' ∧ (zs = true → a.liquidity < U128)
/-- Ticks in two runs; with `zs` the sign of a zero liquidity change may differ. -/
def TRel (ex zs : Bool) (a b : Tick) : Prop :=
  if ex then a = b else
    (∃ so sg, b = { a with secondsOutside := so, sign := sg } ∧ (sg = a.sign ∨ (zs = true ∧ a.change = 0))) ∧
    (zs = true → a.gross < U128)
/-- Positions in two runs; `E` holds of the expirations of their approvals. -/
def QRel (ex : Bool) (E : Expiration → Prop) (a b : Position) : Prop :=
  a.timeless = b.timeless ∧ if ex then a = b else ∀ x ∈ a.approvals, E x.expires
def BRel (ex : Bool) (a b : Option Nat) : Prop := a.getD 0 = b.getD 0 ∧ (ex = true → a = b)

section
variable {ex zs : Bool} {n n' : Nat} {E : Expiration → Prop}

theorem PRel.refl (p : Pool) : PRel true zs n n' p p := ⟨rfl, rfl⟩
theorem TRel.refl (t : Tick) : TRel true zs t t := rfl
theorem QRel.refl (q : Position) : QRel true E q q := ⟨rfl, rfl⟩
theorem PRel.eq {a b : Pool} (h : PRel true zs n n' a b) : a = b := h.2
theorem TRel.eq {a b : Tick} (h : TRel true zs a b) : a = b := h
theorem QRel.eq {a b : Position} (h : QRel true E a b) : a = b := h.2

theorem PRel.form {a b : Pool} (h : PRel false zs n n' a b) :
    ∃ x y, b = { a with startTs := x, lastTs := y } ∧ a.startTs ≤ n ∧ x ≤ n' ∧ (zs = true → a.liquidity < U128) := by
  obtain ⟨h1, h2⟩ := h
  refine ⟨b.startTs, b.lastTs, ?_, h2⟩
  cases a; cases b
  simp only [Pool.timeless, Pool.mk.injEq] at h1
  obtain ⟨rfl, rfl, rfl, rfl, rfl, rfl, rfl, -, -, rfl⟩ := h1
  rfl

theorem PRel.mk {a : Pool} {x y : Nat} (h : a.startTs ≤ n) (hx : x ≤ n') (hl : zs = true → a.liquidity < U128) :
    PRel false zs n n' a { a with startTs := x, lastTs := y } := ⟨rfl, h, hx, hl⟩

theorem TRel.form {a b : Tick} (h : TRel false zs a b) :
    ∃ so sg, b = { a with secondsOutside := so, sign := sg } ∧ (sg = a.sign ∨ (zs = true ∧ a.change = 0)) ∧
      (zs = true → a.gross < U128) := by
  obtain ⟨⟨so, sg, h1, h2⟩, h3⟩ := h
  exact ⟨so, sg, h1, h2, h3⟩

theorem TRel.mk {a : Tick} {so : Nat} {sg : Bool} (h : sg = a.sign ∨ (zs = true ∧ a.change = 0)) (hg : zs = true → a.gross < U128) :
    TRel false zs a { a with secondsOutside := so, sign := sg } := ⟨⟨so, sg, rfl, h⟩, hg⟩

theorem QRel.form {a b : Position} (h : QRel false E a b) :
    (∃ x, b = { a with lastBlock := x }) ∧ ∀ x ∈ a.approvals, E x.expires := by
  obtain ⟨h1, h2⟩ := h
  refine ⟨⟨b.lastBlock, ?_⟩, h2⟩
  cases a; cases b
  simp only [Position.timeless, Position.mk.injEq] at h1
  obtain ⟨rfl, rfl, rfl, rfl, rfl, rfl, -, rfl, rfl, rfl⟩ := h1
  rfl

/-! ### What the two runs agree on -/

theorem PRel.tick {a b : Pool} (h : PRel ex zs n n' a b) : b.tick = a.tick := by
  cases ex
  · obtain ⟨x, y, rfl, _⟩ := h.form; rfl
  · rw [h.eq]

theorem PRel.price {a b : Pool} (h : PRel ex zs n n' a b) : b.sqrtPrice = a.sqrtPrice := by
  cases ex
  · obtain ⟨x, y, rfl, _⟩ := h.form; rfl
  · rw [h.eq]

theorem PRel.liquidity {a b : Pool} (h : PRel ex zs n n' a b) : b.liquidity = a.liquidity := by
  cases ex
  · obtain ⟨x, y, rfl, _⟩ := h.form; rfl
  · rw [h.eq]

theorem PRel.proto {a b : Pool} (h : PRel ex zs n n' a b) : b.protoX = a.protoX ∧ b.protoY = a.protoY ∧ b.feeReceiver = a.feeReceiver := by
  cases ex
  · obtain ⟨x, y, rfl, _⟩ := h.form; exact ⟨rfl, rfl, rfl⟩
  · rw [h.eq]; exact ⟨rfl, rfl, rfl⟩

theorem TRel.index {a b : Tick} (h : TRel ex zs a b) : b.index = a.index ∧ b.gross = a.gross := by
  cases ex
  · obtain ⟨x, sg, rfl, -⟩ := h.form; exact ⟨rfl, rfl⟩
  · rw [h.eq]; exact ⟨rfl, rfl⟩

theorem QRel.fields {a b : Position} (h : QRel ex E a b) : b.poolKey = a.poolKey ∧ b.lower = a.lower ∧ b.upper = a.upper ∧
    b.approvals = a.approvals ∧ b.liquidity = a.liquidity := by
  cases ex
  · obtain ⟨⟨x, rfl⟩, ha⟩ := h.form; exact ⟨rfl, rfl, rfl, rfl, rfl⟩
  · rw [h.eq]; exact ⟨rfl, rfl, rfl, rfl, rfl⟩

/-! ## Operations on records -/

theorem Tick.create_rel {p p' : Pool} (hn : ex = true → n = n') (h : PRel ex zs n n' p p') (i : Int) :
    Rel (TRel ex zs) (Tick.create i p n) (Tick.create i p' n') := by
  cases ex
  · obtain ⟨x, y, rfl, h1, h2⟩ := h.form
    unfold Tick.create
    cases calculateSqrtPrice i with
    | error e => exact Rel.error _
    | ok pr =>
      by_cases hb : i ≤ p.tick
      · simp only [hb, decide_true, if_true, subP, h1, h2.1]
        exact ⟨⟨_, _, rfl, .inl rfl⟩, fun _ => by show 0 < U128; decide⟩
      · simp only [hb, decide_false, Bool.false_eq_true, if_false]
        exact ⟨⟨_, _, rfl, .inl rfl⟩, fun _ => by show 0 < U128; decide⟩
  · obtain rfl := h.eq
    obtain rfl := hn rfl
    exact Rel.refl TRel.refl _

theorem checkedAdd_lt {e : Err} {a b x : Nat} (h : checkedAdd e a b = .ok x) : x < U128 := by
  have := cast128_ok.1 h
  omega

theorem checkedSub_le {e : Err} {a b x : Nat} (h : checkedSub e a b = .ok x) : x ≤ a := by
  unfold checkedSub at h
  split at h
  · rw [ok_inj] at h; omega
  · cases h

theorem Tick.cross_rel {p p' : Pool} {t t' : Tick} (hn : ex = true → n = n') (h : PRel ex zs n n' p p') (ht : TRel ex zs t t') :
    Rel (fun a b => TRel ex zs a.1 b.1 ∧ PRel ex zs n n' a.2 b.2) (t.cross p n) (t'.cross p' n') := by
  cases ex
  · obtain ⟨x, y, rfl, h1, h2⟩ := h.form
    obtain ⟨so, sg, rfl, hz, hg⟩ := ht.form
    obtain ⟨h2, h3⟩ := h2
    have e1 : checkedSub .timestampSubOverflow n p.startTs = .ok (n - p.startTs) := by unfold checkedSub; rw [if_pos h1]
    have e2 : checkedSub .timestampSubOverflow n' x = .ok (n' - x) := by unfold checkedSub; rw [if_pos h2]
    unfold Tick.cross
    simp only
    rw [e1, e2, ok_bind, ok_bind]
    rcases hz with rfl | ⟨hz, h0⟩
    · refine Rel.ite (fun _ => ?_) fun _ => ?_
      · exact Rel.bindSameOk _ fun a ha => ⟨⟨⟨_, _, rfl, .inl rfl⟩, hg⟩, ⟨rfl, h1, h2, fun _ => checkedAdd_lt ha⟩⟩
      · refine Rel.bindSameOk _ fun a ha => ⟨⟨⟨_, _, rfl, .inl rfl⟩, hg⟩, ⟨rfl, h1, h2, fun hz => ?_⟩⟩
        exact Nat.lt_of_le_of_lt (checkedSub_le ha) (h3 hz)
    · have a1 : checkedAdd .poolAddTickLiquidityOverflow p.liquidity t.change = .ok p.liquidity := by
        rw [h0]; exact cast128_ok.2 ⟨h3 hz, rfl⟩
      have a2 : checkedSub .poolSubTickLiquidityUnderflow p.liquidity t.change = .ok p.liquidity := by
        rw [h0]; unfold checkedSub; rw [if_pos (Nat.zero_le _)]; rfl
      rw [a1, a2, ok_bind, ok_bind, ite_self, ite_self]
      exact ⟨⟨⟨_, _, rfl, .inr ⟨hz, h0⟩⟩, hg⟩, ⟨rfl, h1, h2, h3⟩⟩
  · obtain rfl := h.eq
    obtain rfl := ht.eq
    obtain rfl := hn rfl
    exact Rel.refl (fun a => ⟨TRel.refl _, PRel.refl _⟩) _

theorem updateChange_zero {t : Tick} (h : t.change = 0) {delta : Nat} (hd : delta < U128) (add : Bool) :
    t.updateChange delta add = .ok { t with change := delta, sign := add } := by
  unfold Tick.updateChange
  rw [h]
  by_cases hx : xor t.sign add = true
  · rw [if_pos hx, if_neg (Nat.not_lt_zero _)]
    have : (!t.sign) = add := by revert hx; cases t.sign <;> cases add <;> simp
    rw [this]
    rfl
  · rw [if_neg hx]
    have e : t.sign = add := by revert hx; cases t.sign <;> cases add <;> simp
    have : add128 0 delta = .ok delta := by unfold add128; exact cast128_ok.2 ⟨by omega, by omega⟩
    rw [this, ok_bind, ← e]
    rfl

theorem newGross_lt {t : Tick} {dep : Bool} {delta maxL g : Nat} (h : t.newGross dep delta maxL = .ok g) (ht : t.gross < U128) :
    delta < U128 ∧ g < U128 := by
  unfold Tick.newGross at h
  split at h
  · rw [bind_ok] at h
    obtain ⟨m, h1, h2⟩ := h
    have := cast128_ok.1 h1
    rw [ite_error_ok] at h2
    have := pure_ok.1 h2.2
    omega
  · rw [ite_error_ok] at h
    have := pure_ok.1 h.2
    omega

theorem Tick.update_rel {t t' : Tick} (ht : TRel ex zs t t') (delta maxL : Nat) (up dep : Bool) :
    Rel (TRel ex zs) (t.update delta maxL up dep) (t'.update delta maxL up dep) := by
  cases ex
  · obtain ⟨so, sg, rfl, hz, hg⟩ := ht.form
    unfold Tick.update
    refine Rel.bindSameOk (t.newGross dep delta maxL) fun g hG => ?_
    have hg' : zs = true → g < U128 := fun hz => (newGross_lt hG (hg hz)).2
    rcases hz with rfl | ⟨hz, h0⟩
    · unfold Tick.updateChange
      refine Rel.ite (fun _ => Rel.ite (fun _ => ⟨⟨_, _, rfl, .inl rfl⟩, hg'⟩) fun _ => ⟨⟨_, _, rfl, .inl rfl⟩, hg'⟩) fun _ => ?_
      exact Rel.bindSame _ fun a => ⟨⟨_, _, rfl, .inl rfl⟩, hg'⟩
    · have hd := (newGross_lt hG (hg hz)).1
      rw [updateChange_zero (by exact h0) hd, updateChange_zero (by exact h0) hd]
      exact ⟨⟨_, _, rfl, .inl rfl⟩, hg'⟩
  · obtain rfl := ht.eq
    exact Rel.refl TRel.refl _

theorem Pool.create_rel (hn : ex = true → n = n') (price : Nat) (tick : Int) (ts : Nat) (rcv : Bytes) :
    Rel (PRel ex zs n n') (Pool.create price tick n ts rcv) (Pool.create price tick n' ts rcv) := by
  cases ex
  · unfold Pool.create
    refine Rel.bindSame _ fun ok => ?_
    split
    · exact Rel.error _
    · exact ⟨rfl, Nat.le_refl _, Nat.le_refl _, fun _ => by show 0 < U128; decide⟩
  · obtain rfl := hn rfl
    exact Rel.refl PRel.refl _

theorem Pool.addFee_rel {p p' : Pool} (h : PRel ex zs n n' p p') (a : Nat) (inX : Bool) (f : Nat) :
    Rel (PRel ex zs n n') (p.addFee a inX f) (p'.addFee a inX f) := by
  cases ex
  · obtain ⟨x, y, rfl, h1, h2⟩ := h.form
    unfold Pool.addFee
    refine Rel.bindSame _ fun proto => ?_
    refine Rel.bindSame _ fun pf => ?_
    refine Rel.ite (fun _ => ⟨rfl, h1, h2⟩) fun _ => ?_
    refine Rel.bindSame _ fun g => ?_
    refine Rel.ite (fun _ => ?_) fun _ => ?_
    · exact Rel.bindSame _ fun q => ⟨rfl, h1, h2⟩
    · exact Rel.bindSame _ fun q => ⟨rfl, h1, h2⟩
  · obtain rfl := h.eq
    exact Rel.refl PRel.refl _

theorem Pool.updateLiquidity_rel {p p' : Pool} (h : PRel ex zs n n' p p') (delta : Nat) (sg : Bool) (u l : Int) :
    Rel (fun a b => PRel ex zs n n' a.1 b.1 ∧ a.2 = b.2) (p.updateLiquidity delta sg u l) (p'.updateLiquidity delta sg u l) := by
  cases ex
  · obtain ⟨x, y, rfl, h1, h2⟩ := h.form
    unfold Pool.updateLiquidity
    refine Rel.bindSame _ fun r => ?_
    refine Rel.ite (fun _ => ?_) fun _ => ⟨⟨rfl, h1, h2⟩, rfl⟩
    refine Rel.ite (fun _ => ?_) fun _ => ?_
    · exact Rel.bindSameOk _ fun q hq => ⟨⟨rfl, h1, h2.1, fun _ => checkedAdd_lt hq⟩, rfl⟩
    · exact Rel.bindSameOk _ fun q hq => ⟨⟨rfl, h1, h2.1, fun hz => Nat.lt_of_le_of_lt (checkedSub_le hq) (h2.2 hz)⟩, rfl⟩
  · obtain rfl := h.eq
    exact Rel.refl (fun a => ⟨PRel.refl _, rfl⟩) _

/-- Related tick updates. -/
def URel (ex zs : Bool) : TickUpd → TickUpd → Prop
  | .noTick, .noTick => True
  | .init t, .init t' => TRel ex zs t t'
  | .uninit i, .uninit i' => i = i'
  | _, _ => False

theorem PRel.setTick {p p' : Pool} (h : PRel ex zs n n' p p') (t : Int) : PRel ex zs n n' { p with tick := t } { p' with tick := t } := by
  cases ex
  · obtain ⟨x, y, rfl, h1, h2⟩ := h.form
    exact ⟨rfl, h1, h2⟩
  · obtain rfl := h.eq
    exact PRel.refl _

theorem PRel.setPrice {p p' : Pool} (h : PRel ex zs n n' p p') (t : Nat) : PRel ex zs n n' { p with sqrtPrice := t } { p' with sqrtPrice := t } := by
  cases ex
  · obtain ⟨x, y, rfl, h1, h2⟩ := h.form
    exact ⟨rfl, h1, h2⟩
  · obtain rfl := h.eq
    exact PRel.refl _

theorem PRel.setProto {p p' : Pool} (h : PRel ex zs n n' p p') (a b : Nat) : PRel ex zs n n' { p with protoX := a, protoY := b } { p' with protoX := a, protoY := b } := by
  cases ex
  · obtain ⟨x, y, rfl, h1, h2⟩ := h.form
    exact ⟨rfl, h1, h2⟩
  · obtain rfl := h.eq
    exact PRel.refl _

theorem PRel.setReceiver {p p' : Pool} (h : PRel ex zs n n' p p') (r : Bytes) : PRel ex zs n n' { p with feeReceiver := r } { p' with feeReceiver := r } := by
  cases ex
  · obtain ⟨x, y, rfl, h1, h2⟩ := h.form
    exact ⟨rfl, h1, h2⟩
  · obtain rfl := h.eq
    exact PRel.refl _

theorem PRel.setLast {p p' : Pool} (hn : ex = true → n = n') (h : PRel ex zs n n' p p') : PRel ex zs n n' { p with lastTs := n } { p' with lastTs := n' } := by
  cases ex
  · obtain ⟨x, y, rfl, h1, h2⟩ := h.form
    exact ⟨rfl, h1, h2⟩
  · obtain rfl := h.eq
    obtain rfl := hn rfl
    exact PRel.refl _

/-- Related results of a tick update. -/
def RRel (ex zs : Bool) (n n' : Nat) (a b : TickUpdRes) : Prop :=
  PRel ex zs n n' a.pool b.pool ∧ URel ex zs a.upd b.upd ∧ a.total = b.total ∧ a.remaining = b.remaining ∧ a.crossed = b.crossed

theorem Pool.updateTick_rel {p p' : Pool} {u u' : TickUpd} (hn : ex = true → n = n') (h : PRel ex zs n n' p p') (hu : URel ex zs u u')
    (next lim rem : Nat) (b d : Bool) (f : Nat) (tier : FeeTier) :
    Rel (RRel ex zs n n') (p.updateTick next lim u rem b d n f tier) (p'.updateTick next lim u' rem b d n' f tier) := by
  have e : (u = .noTick ∨ lim ≠ next) ↔ (u' = .noTick ∨ lim ≠ next) := by
    cases u <;> cases u' <;> simp [URel] at hu ⊢
  unfold Pool.updateTick
  by_cases hc : u = .noTick ∨ lim ≠ next
  · rw [if_pos hc, if_pos (e.1 hc)]
    exact Rel.bindSame _ fun t => ⟨h.setTick _, hu, rfl, rfl, rfl⟩
  · rw [if_neg hc, if_neg (fun x => hc (e.2 x))]
    refine Rel.bind (R := fun a b => a = b) (by rw [h.liquidity]; exact Rel.eq_iff.2 rfl) fun en en' he => ?_
    subst he
    cases u with
    | noTick => exact absurd (.inl rfl) hc
    | uninit i =>
      cases u' with
      | noTick => exact hu.elim
      | init t => exact hu.elim
      | uninit j =>
        obtain rfl : i = j := hu
        exact ⟨h.setTick _, rfl, rfl, rfl, rfl⟩
    | init t =>
      cases u' with
      | noTick => exact hu.elim
      | uninit j => exact hu.elim
      | init t' =>
        have ht : TRel ex zs t t' := hu
        simp only [ht.index.1]
        refine Rel.ite (fun _ => ?_) fun _ => Rel.ite (fun _ => Rel.ite (fun _ => ?_) fun _ => ?_) fun _ => ?_
        · have hcr := Tick.cross_rel hn h ht
          cases hx : t.cross p n with
          | error e =>
            rw [hx] at hcr
            cases hy : t'.cross p' n' with
            | error e' => exact Rel.error _
            | ok r => rw [hy] at hcr; exact hcr.elim
          | ok r =>
            rw [hx] at hcr
            cases hy : t'.cross p' n' with
            | error e' => rw [hy] at hcr; exact hcr.elim
            | ok r' =>
              rw [hy] at hcr
              exact ⟨hcr.2.setTick _, hcr.1, rfl, rfl, rfl⟩
        · exact Rel.bind (Pool.addFee_rel h _ _ _) fun a b hab => ⟨hab.setTick _, ht, rfl, rfl, rfl⟩
        · exact ⟨h.setTick _, ht, rfl, rfl, rfl⟩
        · exact ⟨h.setTick _, ht, rfl, rfl, rfl⟩

theorem Position.update_rel {q q' : Position} (h : QRel ex E q q') (sg : Bool) (delta a b : Nat) :
    Rel (QRel ex E) (q.update sg delta a b) (q'.update sg delta a b) := by
  cases ex
  · obtain ⟨⟨x, rfl⟩, ha⟩ := h.form
    unfold Position.update
    refine Rel.ite (fun _ => Rel.error _) fun _ => ?_
    refine Rel.bindSame _ fun ox => ?_
    refine Rel.bindSame _ fun oy => ?_
    refine Rel.bindSameOk _ fun l hL => ?_
    refine Rel.bindSame _ fun ax => ?_
    refine Rel.bindSame _ fun ay => ?_
    exact ⟨rfl, ha⟩
  · obtain rfl := h.eq
    exact Rel.refl QRel.refl _

/-- Related results of a position change. -/
def MRel (ex zs : Bool) (E : Expiration → Prop) (n n' : Nat) (a b : ModifyRes) : Prop :=
  QRel ex E a.pos b.pos ∧ PRel ex zs n n' a.pool b.pool ∧ TRel ex zs a.lower b.lower ∧ TRel ex zs a.upper b.upper ∧ a.x = b.x ∧ a.y = b.y

theorem PRel.fg {a b : Pool} (h : PRel ex zs n n' a b) : b.fgX = a.fgX ∧ b.fgY = a.fgY := by
  cases ex
  · obtain ⟨x, y, rfl, _⟩ := h.form; exact ⟨rfl, rfl⟩
  · rw [h.eq]; exact ⟨rfl, rfl⟩

theorem TRel.out {a b : Tick} (h : TRel ex zs a b) : b.outX = a.outX ∧ b.outY = a.outY := by
  cases ex
  · obtain ⟨x, sg, rfl, -⟩ := h.form; exact ⟨rfl, rfl⟩
  · rw [h.eq]; exact ⟨rfl, rfl⟩

theorem Position.modify_rel {q q' : Position} {p p' : Pool} {u u' l l' : Tick} (hn : ex = true → n = n') (h : QRel ex E q q')
    (hp : PRel ex zs n n' p p') (hu : TRel ex zs u u') (hl : TRel ex zs l l') (delta : Nat) (add : Bool) (ts : Nat) :
    Rel (MRel ex zs E n n') (q.modify p u l delta add n ts) (q'.modify p' u' l' delta add n' ts) := by
  unfold Position.modify
  refine Rel.bind (Tick.update_rel hl _ _ _ _) fun l1 l1' hl1 => ?_
  refine Rel.bind (Tick.update_rel hu _ _ _ _) fun u1 u1' hu1 => ?_
  refine Rel.bind (R := QRel ex E) ?_ fun q1 q1' hq1 => ?_
  · simp only [hl1.index.1, hu1.index.1, hl1.out.1, hl1.out.2, hu1.out.1, hu1.out.2, hp.tick, hp.fg.1, hp.fg.2]
    exact Position.update_rel h _ _ _ _
  rw [hl1.index.1, hu1.index.1]
  refine Rel.bind (Pool.updateLiquidity_rel (hp.setLast hn) _ _ _ _) fun r r' hr => ?_
  exact ⟨hq1, hr.1, hl1, hu1, by rw [hr.2], by rw [hr.2]⟩

theorem Position.create_rel {p p' : Pool} {u u' l l' : Tick} {b b' : Nat} (hn : ex = true → n = n') (hb : ex = true → b = b')
    (hp : PRel ex zs n n' p p') (hu : TRel ex zs u u') (hl : TRel ex zs l l') (k : PoolKey) (L lo hi : Nat) (ts : Nat) :
    Rel (MRel ex zs E n n') (Position.create p k l u n L lo hi b ts) (Position.create p' k l' u' n' L lo hi b' ts) := by
  unfold Position.create
  simp only [hp.price, hl.index.1, hu.index.1]
  refine Rel.ite (fun _ => Rel.error _) fun _ => ?_
  refine Position.modify_rel hn ?_ hp hu hl _ _ _
  cases ex
  · exact ⟨rfl, by simp⟩
  · rw [hb rfl]
    exact QRel.refl _

theorem QRel.paid {q q' : Position} (h : QRel ex E q q') : QRel ex E { q with owedX := 0, owedY := 0 } { q' with owedX := 0, owedY := 0 } ∧
    q'.owedX = q.owedX ∧ q'.owedY = q.owedY := by
  cases ex
  · obtain ⟨⟨x, rfl⟩, ha⟩ := h.form
    exact ⟨⟨rfl, ha⟩, rfl, rfl⟩
  · obtain rfl := h.eq
    exact ⟨QRel.refl _, rfl, rfl⟩

theorem QRel.setApprovals {q q' : Position} (h : QRel ex E q q') {l : List Approval} (hE : ex = false → ∀ x ∈ l, E x.expires) :
    QRel ex E { q with approvals := l } { q' with approvals := l } := by
  cases ex
  · obtain ⟨⟨x, rfl⟩, ha⟩ := h.form
    exact ⟨rfl, hE rfl⟩
  · obtain rfl := h.eq
    exact QRel.refl _

theorem Position.claimFee_rel {q q' : Position} {p p' : Pool} {u u' l l' : Tick} (hn : ex = true → n = n') (h : QRel ex E q q')
    (hp : PRel ex zs n n' p p') (hu : TRel ex zs u u') (hl : TRel ex zs l l') :
    Rel (MRel ex zs E n n') (q.claimFee p u l n) (q'.claimFee p' u' l' n') := by
  unfold Position.claimFee
  rw [h.fields.1]
  refine Rel.bind (Position.modify_rel hn h hp hu hl _ _ _) fun a b hab => ?_
  exact ⟨hab.1.paid.1, hab.2.1, hab.2.2.1, hab.2.2.2.1, hab.1.paid.2.1.symm, hab.1.paid.2.2.symm⟩

theorem Position.remove_rel {q q' : Position} {p p' : Pool} {u u' l l' : Tick} (hn : ex = true → n = n') (h : QRel ex E q q')
    (hp : PRel ex zs n n' p p') (hu : TRel ex zs u u') (hl : TRel ex zs l l') (ts : Nat) :
    Rel (MRel ex zs E n n') (q.remove p n l u ts) (q'.remove p' n' l' u' ts) := by
  unfold Position.remove
  rw [h.fields.2.2.2.2]
  refine Rel.bind (Position.modify_rel hn h hp hu hl _ _ _) fun a b hab => ?_
  rw [← hab.2.2.2.2.1, ← hab.2.2.2.2.2, hab.1.paid.2.1, hab.1.paid.2.2]
  refine Rel.bindSame _ fun x => ?_
  refine Rel.bindSame _ fun y => ?_
  exact ⟨hab.1, hab.2.1, hab.2.2.1, hab.2.2.2.1, rfl, rfl⟩

end
end OraiV3
