import Verif.Lemmas.Cap
import Verif.Contract

/-!
# Avoid: which errors a computation cannot end with
-/

namespace OraiV3

/-- The computation does not end with this error. -/
def Avoids {α : Type} (e : Err) (x : M α) : Prop := x ≠ .error e

theorem Avoids.ok {α : Type} {e : Err} {a : α} : Avoids e (.ok a : M α) := by simp [Avoids]
theorem Avoids.pure {α : Type} {e : Err} {a : α} : Avoids e (pure a : M α) := Avoids.ok
theorem Avoids.error {α : Type} {e e' : Err} (h : e' ≠ e) : Avoids e (.error e' : M α) := by simpa [Avoids] using h

theorem Avoids.bind {α β : Type} {e : Err} {x : M α} {f : α → M β} (h1 : Avoids e x)
    (h2 : ∀ a, x = .ok a → Avoids e (f a)) : Avoids e (x >>= f) := by
  cases x with
  | error e' => simpa [Avoids, Bind.bind, Except.bind] using h1
  | ok a => exact h2 a rfl

theorem Avoids.ite {α : Type} {e : Err} {p : Prop} [Decidable p] {x y : M α} (h1 : p → Avoids e x) (h2 : ¬ p → Avoids e y) :
    Avoids e (if p then x else y) := by
  split
  · exact h1 ‹_›
  · exact h2 ‹_›

theorem Avoids.cast128 {e e' : Err} (h : e' ≠ e) {x : Nat} : Avoids e (cast128 e' x) :=
  .ite (fun _ => .ok) (fun _ => .error h)
theorem Avoids.checkedAdd {e e' : Err} (h : e' ≠ e) {x y : Nat} : Avoids e (checkedAdd e' x y) := .cast128 h
theorem Avoids.checkedSub {e e' : Err} (h : e' ≠ e) {x y : Nat} : Avoids e (checkedSub e' x y) :=
  .ite (fun _ => .ok) (fun _ => .error h)
theorem Avoids.add128 {e : Err} (h : Err.panic ≠ e) {x y : Nat} : Avoids e (add128 x y) := .cast128 h
theorem Avoids.subP {e : Err} (h : Err.panic ≠ e) {x y : Nat} : Avoids e (subP x y) :=
  .ite (fun _ => .ok) (fun _ => .error h)

/-- Walk through a computation made of binds, branches and errors. -/
macro "avoid" : tactic => `(tactic| repeat' (first
  | with_reducible exact Avoids.ok | with_reducible exact Avoids.pure | with_reducible exact Avoids.error (by decide)
  | with_reducible exact Avoids.cast128 (by decide) | with_reducible exact Avoids.checkedAdd (by decide)
  | with_reducible exact Avoids.checkedSub (by decide)
  | with_reducible exact Avoids.add128 (by decide) | with_reducible exact Avoids.subP (by decide)
  | with_reducible assumption
  | with_reducible refine Avoids.bind ?_ (fun _ _ => ?_)
  | with_reducible refine Avoids.ite (fun _ => ?_) (fun _ => ?_)
  | split))

section
variable {e : Err} (he : e = .updateLiquidityPlusOverflow ∨ e = .updateLiquidityMinusOverflow)
include he

theorem avoid_deltaX {a b L : Nat} {up : Bool} : Avoids e (getDeltaX a b L up) := by
  unfold getDeltaX divToTokenUp divToToken
  rcases he with rfl | rfl <;> simp only <;> avoid

theorem avoid_deltaY {a b L : Nat} {up : Bool} : Avoids e (getDeltaY a b L up) := by
  unfold getDeltaY
  rcases he with rfl | rfl <;> avoid

theorem avoid_price {t : Int} : Avoids e (calculateSqrtPrice t) := by
  unfold calculateSqrtPrice
  rcases he with rfl | rfl <;> avoid

theorem avoid_amounts {t : Int} {p L : Nat} {sg : Bool} {u l : Int} : Avoids e (calculateAmountDelta t p L sg u l) := by
  have h1 := @avoid_deltaX e he
  have h2 := @avoid_deltaY e he
  have h3 := @avoid_price e he
  unfold calculateAmountDelta
  rcases he with rfl | rfl <;>
  repeat' (first
    | with_reducible exact h1
    | with_reducible exact h2
    | with_reducible exact h3
    | with_reducible exact Avoids.pure
    | with_reducible exact Avoids.error (by decide)
    | with_reducible refine Avoids.bind ?_ (fun _ _ => ?_)
    | split)

theorem avoid_tickUpdate {t : Tick} {d m : Nat} {a b : Bool} : Avoids e (t.update d m a b) := by
  unfold Tick.update Tick.newGross Tick.updateChange
  rcases he with rfl | rfl <;> avoid

theorem avoid_posUpdate {p : Position} {sg : Bool} {d x y : Nat} : Avoids e (p.update sg d x y) := by
  unfold Position.update feeGrowthToFee Position.newLiquidity
  rcases he with rfl | rfl <;> avoid

/-- Only the pool's own liquidity can cause the error. -/
theorem avoid_modify {p : Position} {pool : Pool} {upper lower : Tick} {delta : Nat} {add : Bool} {now ts : Nat}
    (h : ∀ tl tu, lower.update delta (maxLiquidityPerTick ts) false add = .ok tl →
      upper.update delta (maxLiquidityPerTick ts) true add = .ok tu → tl.index ≤ pool.tick → pool.tick < tu.index →
      if add then pool.liquidity + delta < U128 else delta ≤ pool.liquidity) :
    Avoids e (p.modify pool upper lower delta add now ts) := by
  unfold Position.modify
  refine .bind (avoid_tickUpdate he) (fun tl hl => .bind (avoid_tickUpdate he) (fun tu hu => .bind (avoid_posUpdate he)
    (fun q hq => .bind ?_ (fun _ _ => .pure))))
  unfold Pool.updateLiquidity
  refine .bind (avoid_amounts he) (fun r hr => ?_)
  have hin := amountDelta_inside hr
  by_cases hc : r.2.2 = true
  · simp only [hc, if_true]
    rw [hin, decide_eq_true_eq] at hc
    have := h tl tu hl hu hc.1 hc.2
    cases add
    · simp only [Bool.false_eq_true, if_false] at this ⊢
      rw [checkedSub_ok.2 ⟨this, rfl⟩]; exact .ok
    · simp only [if_true] at this ⊢
      rw [checkedAdd_ok.2 ⟨this, rfl⟩]; exact .ok
  · simp only [hc]; exact .pure

theorem avoid_create {c : Chain} {s : Store} {env : Env} {info : Info} {k : PoolKey} {l u : Int} {L lo hi : Nat}
    (h : ∀ pool rl ru, s.pools.get? k.key = some pool → getOrCreateTick s env.millis k l = .ok rl →
      getOrCreateTick rl.1 env.millis k u = .ok ru → Avoids e (Position.create pool k rl.2 ru.2 env.millis L lo hi env.height k.tier.spacing)) :
    Avoids e (createPosition c s env info k l u L lo hi) := by
  have hg : ∀ s i, Avoids e (getOrCreateTick s env.millis k i) := by
    intro s i
    unfold getOrCreateTick
    split
    · exact .ok
    · unfold createTick checkTick getPool Tick.create addTick flipBitmap tickToPosition
      rcases he with rfl | rfl <;> avoid
  unfold createPosition
  split
  · rcases he with rfl | rfl <;> exact .error (by decide)
  split
  · rcases he with rfl | rfl <;> exact .error (by decide)
  split
  · rcases he with rfl | rfl <;> exact .error (by decide)
  · rename_i pool hp
    refine .bind (hg _ _) (fun rl h1 => .bind (hg _ _) (fun ru h2 => .bind (h pool rl ru hp h1 h2) (fun r hr => ?_)))
    unfold addPosition updateTick assetTransferFrom
    rcases he with rfl | rfl <;> avoid

theorem avoid_remove {c : Chain} {s : Store} {env : Env} {info : Info} {i : Nat}
    (h : ∀ pos tl tu pool, s.positions.get? (positionKey info.sender i) = some pos →
      s.ticks.get? (tickKey pos.poolKey pos.lower) = some tl → s.ticks.get? (tickKey pos.poolKey pos.upper) = some tu →
      s.pools.get? pos.poolKey.key = some pool →
      Avoids e (pos.modify pool tu tl pos.liquidity false env.millis pos.poolKey.tier.spacing)) :
    Avoids e (removePosition c s env info i) := by
  unfold removePosition
  have hs : ∀ s k i t, Avoids e (settleTick s k i t) := by
    intro s k i t
    unfold settleTick removeTickAndFlip flipBitmap tickToPosition removeTick updateTick
    rcases he with rfl | rfl <;> avoid
  have hr : ∀ s, Avoids e (removePositionAt s info.sender i) := by
    intro s
    unfold removePositionAt getPosition getPositionByKey
    rcases he with rfl | rfl <;> avoid
  refine .bind ?_ (fun pos h1 => .bind ?_ (fun tl h2 => .bind ?_ (fun tu h3 => .bind ?_ (fun pool h4 => .bind ?_ (fun r h5 =>
    .bind (hs _ _ _ _) (fun _ _ => .bind (hs _ _ _ _) (fun _ _ => .bind (hr _) (fun _ _ => .pure))))))))
  · unfold getPosition getPositionByKey
    rcases he with rfl | rfl <;> avoid
  · unfold getTick
    rcases he with rfl | rfl <;> avoid
  · unfold getTick
    rcases he with rfl | rfl <;> avoid
  · unfold getPool
    rcases he with rfl | rfl <;> avoid
  · unfold Position.remove
    refine .bind (h pos tl tu pool ?_ ?_ ?_ ?_) (fun _ _ => ?_)
    · unfold getPosition getPositionByKey at h1
      split at h1 <;> simp_all
    · unfold getTick at h2
      split at h2 <;> simp_all
    · unfold getTick at h3
      split at h3 <;> simp_all
    · unfold getPool at h4
      split at h4 <;> simp_all
    · rcases he with rfl | rfl <;> avoid

end

end OraiV3
