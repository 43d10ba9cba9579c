import Verif.Ledger
import Verif.Lemmas.Struct

/-!
# The two tokens of a pool differ
-/

namespace OraiV3

theorem swap_tokens_ne {s : Store} (hs : Struct s) {k : PoolKey} {p : Pool} (hk : k.wf) (hp : s.pools.get? k.key = some p)
    (d : Bool) : tokenIn k d ≠ tokenOut k d := by
  obtain ⟨k', e, hk', _, hlt⟩ := hs.pools _ _ hp
  rw [← PoolKey.key_inj hk hk' e] at hlt
  have hne : k.tokenX ≠ k.tokenY := by
    intro e
    rw [e] at hlt
    have : ∀ b : Bytes, bytesLt b b = false := by
      intro b
      induction b with
      | nil => rfl
      | cons x xs ih => unfold bytesLt; simp [ih]
    rw [this] at hlt
    simp at hlt
  unfold tokenIn tokenOut
  cases d
  · simp only [Bool.false_eq_true, if_false]; exact Ne.symm hne
  · simp only [if_true]; exact hne

end OraiV3
