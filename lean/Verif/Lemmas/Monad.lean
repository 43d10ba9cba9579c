import Verif.Base

/-!
# Lemmas about the result monad and the checked operations
-/

namespace OraiV3

theorem bind_ok {α β : Type} {x : M α} {f : α → M β} {b : β} :
    (x >>= f) = .ok b ↔ ∃ a, x = .ok a ∧ f a = .ok b := by
  cases x with
  | error e => simp [bind, Except.bind]
  | ok a => simp [bind, Except.bind]

theorem pure_ok {α : Type} {a b : α} : ((pure a : M α) = .ok b) ↔ a = b := by
  simp [pure, Except.pure]

theorem ok_bind {α β : Type} (a : α) (f : α → M β) : ((Except.ok a : M α) >>= f) = f a := rfl
theorem error_bind {α β : Type} (e : Err) (f : α → M β) : ((Except.error e : M α) >>= f) = .error e := rfl

theorem error_ne_ok {α : Type} {e : Err} {b : α} : ((Except.error e : M α) = .ok b) ↔ False := by simp

theorem ok_inj {α : Type} {a b : α} : ((Except.ok a : M α) = .ok b) ↔ a = b := by simp

theorem ite_error_ok {α : Type} {c : Prop} [Decidable c] {e : Err} {x : M α} {b : α} :
    (if c then .error e else x) = .ok b ↔ ¬ c ∧ x = .ok b := by
  split <;> simp_all

theorem ite_ok_error {α : Type} {c : Prop} [Decidable c] {e : Err} {x : M α} {b : α} :
    (if c then x else .error e) = .ok b ↔ c ∧ x = .ok b := by
  split <;> simp_all

theorem cast128_ok {e : Err} {x b : Nat} : cast128 e x = .ok b ↔ x < U128 ∧ x = b := by
  unfold cast128; split <;> simp_all <;> omega

theorem add128_ok {x y b : Nat} : add128 x y = .ok b ↔ x + y < U128 ∧ x + y = b := cast128_ok

theorem checkedAdd_ok {e : Err} {x y b : Nat} : checkedAdd e x y = .ok b ↔ x + y < U128 ∧ x + y = b :=
  cast128_ok

theorem checkedSub_ok {e : Err} {x y b : Nat} : checkedSub e x y = .ok b ↔ y ≤ x ∧ x - y = b := by
  unfold checkedSub; split <;> simp_all <;> omega

theorem subP_ok {x y b : Nat} : subP x y = .ok b ↔ y ≤ x ∧ x - y = b := by
  unfold subP; split <;> simp_all <;> omega

end OraiV3
