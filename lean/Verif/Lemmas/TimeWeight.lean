import Verif.TimeSpec
import Verif.Lemmas.FeeInside

/-!
# The counters of `TimeSpec`
-/

namespace OraiV3

theorem inside_eq (l u t : Int) (lo uo g : Nat) :
    secondsPerLiquidityInside l u t lo uo g = feeGrowthInside l lo u uo t g := rfl

theorem TimeBook.inside_lt (b : TimeBook) (l u : Int) : b.inside l u < 2 ^ 128 := wsub_lt _ _

theorem TimeBook.Ok.after {b : TimeBook} (h : b.Ok) (e : TimeEvent) : (b.after e).Ok := by
  cases e with
  | pass a => exact ⟨wadd_lt _ _, h.2⟩
  | move t =>
      refine ⟨h.1, fun j => ?_⟩
      show (if passed b.tick t j then _ else _) < _
      split
      · exact wsub_lt _ _
      · exact h.2 j

theorem wsub_join (a b c : Nat) (ha : a < U128) (hb : b < U128) : (wsub a b + wsub c a) % U128 = wsub c b := by
  unfold wsub
  rw [← Nat.add_mod]
  generalize U128 = U at *
  rw [show a + (U - b) + (c + (U - a)) = c + (U - b) + U by omega, Nat.add_mod_right]

theorem wsub_swap (a b c : Nat) : wsub (wsub a b) c = wsub (wsub a c) b := by
  unfold wsub
  generalize U128 = U at *
  rw [Nat.mod_add_mod, Nat.mod_add_mod, Nat.add_right_comm]

/-- The number for a range changes only by time passing in it. -/
theorem TimeBook.Ok.inside_after {b : TimeBook} (h : b.Ok) (e : TimeEvent) {l u : Int} (hlu : l < u) :
    (b.after e).inside l u =
      match e with
      | .pass a => wadd (b.inside l u) (if l ≤ b.tick ∧ b.tick < u then a else 0)
      | .move _ => b.inside l u := by
  have hg := h.1
  have hl := h.2 l
  have hu := h.2 u
  cases e with
  | pass a => exact inside_grow hlu hg hl hu Iff.rfl Iff.rfl
  | move t =>
      show feeGrowthInside l (if passed b.tick t l then _ else _) u (if passed b.tick t u then _ else _) t b.global =
        feeGrowthInside l (b.outside l) u (b.outside u) b.tick b.global
      have pl : passed b.tick t l = true ↔ ¬ (l ≤ b.tick ↔ l ≤ t) := by unfold passed; simp
      have pu : passed b.tick t u = true ↔ ¬ (u ≤ b.tick ↔ u ≤ t) := by unfold passed; simp
      generalize b.global = g at *
      generalize b.outside l = x at *
      generalize b.outside u = z at *
      generalize b.tick = s at *
      simp only [pl, pu]
      by_cases a1 : s < l <;> by_cases a2 : t < l <;> by_cases a3 : s < u <;> by_cases a4 : t < u <;> first | omega | skip
      · rw [if_neg (by omega), if_neg (by omega), inside_below hlu a1 hg hl, inside_below hlu a2 hg hl]
      · rw [if_pos (by omega), if_neg (by omega), inside_below hlu a1 hg hl, inside_mid (by omega) a4,
          wsub_wsub_self hg hl]
      · rw [if_pos (by omega), if_pos (by omega), inside_below hlu a1 hg hl,
          inside_above hlu (by omega) hg (wsub_lt _ _) (wsub_lt _ _)]
        unfold wsub U128 at *; omega
      · rw [if_pos (by omega), if_neg (by omega), inside_below hlu a2 hg (wsub_lt _ _), inside_mid (by omega) a3]
      · rw [if_pos (by omega), if_pos (by omega), inside_below hlu a2 hg (wsub_lt _ _),
          inside_above hlu (by omega) hg hl hu]
        unfold wsub U128 at *; omega
      · rw [if_neg (by omega), if_neg (by omega), inside_mid (by omega) a3, inside_mid (by omega) a4]
      · rw [if_neg (by omega), if_pos (by omega), inside_mid (by omega) a3,
          inside_above hlu (by omega) hg hl (wsub_lt _ _)]
        unfold wsub U128 at *; omega
      · rw [if_neg (by omega), if_pos (by omega), inside_mid (by omega) a4,
          inside_above hlu (by omega) hg hl hu]
        unfold wsub U128 at *; omega
      · rw [if_neg (by omega), if_neg (by omega), inside_above hlu (by omega) hg hl hu,
          inside_above hlu (by omega) hg hl hu]

end OraiV3
