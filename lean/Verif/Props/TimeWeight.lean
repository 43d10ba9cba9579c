import Verif.TimeSpec
import Verif.Lemmas.TimeWeight

/-!
# C83: time weighted by liquidity is counted exactly
-/

namespace OraiV3

/-- Time is accepted exactly if it is later than the last time, the liquidity is not zero and the result
fits; then it is the time per unit of liquidity, rounded down in the 24th decimal. -/
theorem C83_global (L now last v : Nat) :
    secondsPerLiquidityGlobal L now last = .ok v ↔
      last < now ∧ 0 < L ∧ v < 2 ^ 128 ∧ v * L ≤ (now - last) * 10 ^ 30 ∧ (now - last) * 10 ^ 30 < (v + 1) * L := by
  unfold secondsPerLiquidityGlobal
  by_cases a : now ≤ last
  · rw [if_pos a]
    exact ⟨nofun, fun h => absurd h.1 (by omega)⟩
  rw [if_neg a]
  by_cases b : L = 0
  · rw [if_pos b]
    exact ⟨nofun, fun h => absurd h.2.1 (by omega)⟩
  rw [if_neg b, cast128_ok]
  have e : (now - last) * SPL * LIQ = (now - last) * 10 ^ 30 := by
    rw [Nat.mul_assoc, show SPL * LIQ = 10 ^ 30 by decide]
  rw [e]
  generalize (now - last) * 10 ^ 30 = N
  have hL : 0 < L := by omega
  constructor
  · rintro ⟨h1, h2⟩
    subst h2
    refine ⟨by omega, hL, h1, Nat.div_mul_le_self _ _, ?_⟩
    rw [Nat.add_mul, Nat.one_mul]
    exact Nat.lt_div_mul_add hL
  · rintro ⟨_, _, h1, h2, h3⟩
    have : N / L = v := Nat.div_eq_of_lt_le h2 h3
    exact ⟨this ▸ h1, this⟩

/-- The three refusals, one for each condition. -/
theorem C83_refusals (L now last : Nat) :
    (now ≤ last → secondsPerLiquidityGlobal L now last = .error .timestampCheckFailed) ∧
    (last < now → L = 0 → secondsPerLiquidityGlobal L now last = .error .div) ∧
    (last < now → 0 < L → 2 ^ 128 * L ≤ (now - last) * 10 ^ 30 → secondsPerLiquidityGlobal L now last = .error .cast) := by
  unfold secondsPerLiquidityGlobal
  refine ⟨fun h => if_pos h, fun h1 h2 => by rw [if_neg (by omega), if_pos h2], fun h1 h2 h3 => ?_⟩
  rw [if_neg (by omega), if_neg (by omega)]
  have e : (now - last) * SPL * LIQ = (now - last) * 10 ^ 30 := by
    rw [Nat.mul_assoc, show SPL * LIQ = 10 ^ 30 by decide]
  rw [e]
  unfold cast128
  rw [if_neg]
  exact Nat.not_lt.2 ((Nat.le_div_iff_mul_le h2).2 h3)

/-- A whole liquidity unit (`10^6`) for one second is one whole unit of the counter; a millionth of it
overflows after about 340 282 366 seconds. -/
example : secondsPerLiquidityGlobal (10 ^ 6) 101 100 = .ok (10 ^ 24) ∧
    secondsPerLiquidityGlobal 3 101 100 = .ok 333333333333333333333333333333 ∧
    secondsPerLiquidityGlobal (10 ^ 6) 100 100 = .error .timestampCheckFailed ∧
    secondsPerLiquidityGlobal 0 101 100 = .error .div ∧
    secondsPerLiquidityGlobal 1 340282367 0 = .error .cast ∧
    (secondsPerLiquidityGlobal 1 340282366 0).isOk = true := by decide +kernel

/-- Over any history of time passing and the price moving, the number for a range grows by exactly what
passed while the price was in it, up to the counters wrapping round. -/
theorem C83_inside (b : TimeBook) (hb : b.Ok) (es : List TimeEvent) (l u : Int) (hlu : l < u) :
    (b.run es).inside l u = (b.inside l u + spentInside l u b.tick es) % 2 ^ 128 := by
  induction es generalizing b with
  | nil =>
      show b.inside l u = _
      rw [show spentInside l u b.tick [] = 0 from rfl, Nat.add_zero]
      exact (Nat.mod_eq_of_lt (TimeBook.inside_lt b l u)).symm
  | cons e es ih =>
      have := ih (b.after e) (hb.after e)
      rw [show b.run (e :: es) = (b.after e).run es from rfl, this, hb.inside_after e hlu]
      cases e with
      | pass a =>
          show _ = (b.inside l u + ((if l ≤ b.tick ∧ b.tick < u then a else 0) + spentInside l u b.tick es)) % _
          show (wadd (b.inside l u) (if l ≤ b.tick ∧ b.tick < u then a else 0) + spentInside l u b.tick es) % _ = _
          unfold wadd
          rw [Nat.mod_add_mod, Nat.add_assoc]
      | move t => rfl

/-- So what a range gathered between two looks at it is the wrapping difference, whatever the counters
were, as long as less than `2^128` passed. -/
theorem C83_difference (b : TimeBook) (hb : b.Ok) (es : List TimeEvent) (l u : Int) (hlu : l < u)
    (h : spentInside l u b.tick es < 2 ^ 128) :
    wsub ((b.run es).inside l u) (b.inside l u) = spentInside l u b.tick es := by
  rw [C83_inside b hb es l u hlu]
  have := TimeBook.inside_lt b l u
  unfold wsub U128 at *
  omega

/-- Two neighbouring ranges together count what the joined range counts. -/
theorem C83_adjacent (b : TimeBook) (hb : b.Ok) (l m u : Int) (h1 : l < m) (h2 : m < u) :
    (b.inside l m + b.inside m u) % 2 ^ 128 = b.inside l u := by
  have hg := hb.1
  have hl := hb.2 l
  have hm := hb.2 m
  have hu := hb.2 u
  unfold TimeBook.inside
  simp only [inside_eq]
  generalize b.global = g at *
  generalize b.outside l = x at *
  generalize b.outside m = y at *
  generalize b.outside u = z at *
  by_cases a : b.tick < l
  · rw [inside_below h1 a hg hl, inside_below h2 (by omega) hg hm, inside_below (by omega) a hg hl, Nat.add_comm]
    exact wsub_join _ _ _ hm hu
  · by_cases c : b.tick < m
    · rw [inside_mid (by omega) c, inside_below h2 c hg hm, inside_mid (by omega) (by omega), Nat.add_comm]
      exact wsub_join _ _ _ hm hu
    · by_cases d : b.tick < u
      · rw [inside_above h1 (by omega) hg hl hm, inside_mid (by omega) d, inside_mid (by omega) d,
          wsub_swap g y z, wsub_swap g x z]
        exact wsub_join _ _ _ hm hl
      · rw [inside_above h1 (by omega) hg hl hm, inside_above h2 (by omega) hg hm hu,
          inside_above (by omega) (by omega) hg hl hu]
        exact wsub_join _ _ _ hm hl

/-- Counters close to the top, the price leaving the range downwards, coming back and leaving upwards. -/
def Demo.timeBook : TimeBook := ⟨5, 2 ^ 128 - 3, fun j => if j ≤ 5 then 7 else 0⟩

example : Demo.timeBook.Ok := by
  refine ⟨by decide, fun j => ?_⟩
  show (if j ≤ 5 then 7 else 0) < U128
  split <;> decide

example :
    let es := [.pass 10, .move (-20), .pass 100, .move 0, .pass 1000, .move 50, .pass 10000]
    spentInside (-10) 10 5 es = 1010 ∧
    wsub ((Demo.timeBook.run es).inside (-10) 10) (Demo.timeBook.inside (-10) 10) = 1010 ∧
    (Demo.timeBook.run es).inside (-10) 10 < Demo.timeBook.inside (-10) 10 := by decide +kernel

end OraiV3
