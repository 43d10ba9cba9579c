import Verif.Lemmas.Search
import Verif.Query

/-!
# Count: counting set bits
-/

namespace OraiV3

/-- How many of `f a, …, f (a + n - 1)` hold. -/
def cnt (f : Nat → Bool) (a n : Nat) : Nat := ((List.range n).filter (fun i => f (a + i))).length

theorem cnt_zero (f : Nat → Bool) (a : Nat) : cnt f a 0 = 0 := rfl

theorem cnt_add (f : Nat → Bool) (a n m : Nat) : cnt f a (n + m) = cnt f a n + cnt f (a + n) m := by
  unfold cnt
  rw [List.range_add, List.filter_append, List.length_append, List.filter_map, List.length_map]
  congr 3
  funext i
  simp [Nat.add_assoc]

theorem cnt_congr {f g : Nat → Bool} {a b n : Nat} (h : ∀ i, i < n → f (a + i) = g (b + i)) : cnt f a n = cnt g b n := by
  unfold cnt
  congr 1
  apply List.filter_congr
  intro i hi
  exact h i (List.mem_range.1 hi)

theorem cnt_false {f : Nat → Bool} {a n : Nat} (h : ∀ i, i < n → f (a + i) = false) : cnt f a n = 0 := by
  unfold cnt
  rw [List.length_eq_zero_iff, List.filter_eq_nil_iff]
  intro i hi
  rw [h i (List.mem_range.1 hi)]
  decide

theorem popcount_eq : ∀ (n v : Nat), popcount n v = cnt v.testBit 0 n
  | 0, v => rfl
  | n + 1, v => by
    unfold popcount
    rw [popcount_eq n (v / 2), Nat.add_comm n 1, cnt_add]
    congr 1
    · unfold cnt
      by_cases h : v % 2 = 1
      · simp [List.range_succ, h]
      · have h : v % 2 = 0 := by omega
        simp [List.range_succ, h]
    · apply cnt_congr
      intro i _
      rw [Nat.zero_add, Nat.zero_add, Nat.add_comm, Nat.testBit_succ]

theorem activeBitsInRange_inv {v a b n : Nat} (h : activeBitsInRange v a b = .ok n) :
    a ≤ b ∧ b - a + 1 < 64 ∧ n = cnt v.testBit a (b - a + 1) := by
  unfold activeBitsInRange at h
  simp only [bind_ok, subP_ok, ite_error_ok, pure_ok] at h
  obtain ⟨w, ⟨h1, rfl⟩, h2, rfl⟩ := h
  refine ⟨h1, by omega, ?_⟩
  rw [popcount_eq]
  have e : 64 = (b - a + 1) + (64 - (b - a + 1)) := by omega
  conv => lhs; rw [e]
  rw [cnt_add]
  rw [cnt_false (a := 0 + (b - a + 1)), Nat.add_zero]
  · apply cnt_congr
    intro i hi
    rw [Nat.testBit_mod_two_pow, Nat.testBit_div_two_pow]
    simp only [Nat.zero_add, hi, decide_true, Bool.true_and]
    rw [Nat.add_comm]
  · intro i hi
    rw [Nat.testBit_mod_two_pow]
    simp

theorem activeBitsInRange_ok {v a b : Nat} (h1 : a ≤ b) (h2 : b - a + 1 < 64) : ∃ n, activeBitsInRange v a b = .ok n := by
  unfold activeBitsInRange
  have : subP b a = .ok (b - a) := subP_ok.2 ⟨h1, rfl⟩
  rw [this, ok_bind, if_neg (by omega)]
  exact ⟨_, rfl⟩

theorem cnt_chunk {bm : Nat → Nat} {c b n : Nat} (h : b + n ≤ 64) :
    cnt (bm c).testBit b n = cnt (bitOf bm) (c * 64 + b) n := by
  apply cnt_congr
  intro i hi
  rw [bitOf_chunk (c := c) (by omega) (by omega)]
  congr 1
  omega

theorem cnt_chunks (bm : Nat → Nat) (a : Nat) : ∀ n,
    ((List.range n).map (fun i => popcount 64 (bm (i + a)))).sum = cnt (bitOf bm) (a * 64) (n * 64)
  | 0 => rfl
  | n + 1 => by
    rw [List.range_succ, List.map_append, List.sum_append, cnt_chunks bm a n, Nat.add_mul, cnt_add]
    have e1 : ((List.map (fun i => popcount 64 (bm (i + a))) [n]).sum) = popcount 64 (bm (n + a)) := by simp
    have e2 : (n + a) * 64 + 0 = a * 64 + n * 64 := by omega
    rw [e1, popcount_eq, cnt_chunk (by omega), Nat.one_mul, e2]

/-- Where the words at the ends of the interval are not used completely. -/
def PartialWords (a b : Nat) : Prop :=
  if a / 64 = b / 64 then ¬ (a % 64 = 0 ∧ b % 64 = 63) else a % 64 ≠ 0 ∧ b % 64 ≠ 63

instance (a b : Nat) : Decidable (PartialWords a b) := by unfold PartialWords; infer_instance

theorem ticksAmount_spec {s : Store} {k : PoolKey} {l u : Int} (hl : TickOk k.tier.spacing l)
    (hu : TickOk k.tier.spacing u) (hlu : l ≤ u) :
    queryLiquidityTicksAmount s k l u =
      if PartialWords (bitOfTick k.tier.spacing l) (bitOfTick k.tier.spacing u)
      then .ok (cnt (bitOf (getChunk s k)) (bitOfTick k.tier.spacing l)
        (bitOfTick k.tier.spacing u - bitOfTick k.tier.spacing l + 1))
      else .error .panic := by
  unfold queryLiquidityTicksAmount
  simp only []
  obtain ⟨l0, l1, l2, l3⟩ := TickOk_iff.1 hl
  obtain ⟨u0, u1, u2, u3⟩ := TickOk_iff.1 hu
  rw [if_neg l0, if_neg (by rw [l1, u1]; simp), if_neg (by rw [getMinTick_eq]; omega), tickToPosition_ok hl,
    tickToPosition_ok hu]
  simp only [ok_bind]
  have hle := (bitOfTick_mono hl hu).2.2 hlu
  generalize bitOfTick k.tier.spacing l = a at *
  generalize bitOfTick k.tier.spacing u = b at *
  have eA : a / 64 * 64 + a % 64 = a := by omega
  have eB : b / 64 * 64 + b % 64 = b := by omega
  by_cases hc : b / 64 = a / 64
  · rw [if_pos hc]
    have hpw : PartialWords a b ↔ ¬ (a % 64 = 0 ∧ b % 64 = 63) := by unfold PartialWords; rw [if_pos hc.symm]
    by_cases hp : ¬ (a % 64 = 0 ∧ b % 64 = 63)
    · rw [if_pos (hpw.2 hp)]
      obtain ⟨n, hn⟩ := activeBitsInRange_ok (v := getChunk s k (a / 64)) (a := a % 64) (b := b % 64) (by omega) (by omega)
      obtain ⟨_, _, e⟩ := activeBitsInRange_inv hn
      rw [hn, e, cnt_chunk (by omega), eA]
      congr 2
      omega
    · rw [if_neg (fun e => hp (hpw.1 e))]
      unfold activeBitsInRange
      have : subP (b % 64) (a % 64) = .ok (b % 64 - a % 64) := subP_ok.2 ⟨by omega, rfl⟩
      rw [this, ok_bind, if_pos (by omega)]
  · rw [if_neg hc]
    have hpw : PartialWords a b ↔ a % 64 ≠ 0 ∧ b % 64 ≠ 63 := by
      unfold PartialWords; rw [if_neg (fun e => hc e.symm)]
    by_cases hp : a % 64 ≠ 0 ∧ b % 64 ≠ 63
    · rw [if_pos (hpw.2 hp)]
      obtain ⟨n, hn⟩ := activeBitsInRange_ok (v := getChunk s k (a / 64)) (a := a % 64) (b := 63) (by omega) (by omega)
      obtain ⟨_, _, e⟩ := activeBitsInRange_inv hn
      obtain ⟨n', hn'⟩ := activeBitsInRange_ok (v := getChunk s k (b / 64)) (a := 0) (b := b % 64) (by omega) (by omega)
      obtain ⟨_, _, e'⟩ := activeBitsInRange_inv hn'
      rw [hn, hn']
      simp only [ok_bind, rangeList, List.map_map]
      have hf : ((fun i => popcount 64 (getChunk s k i)) ∘ (fun x => x + (a / 64 + 1))) =
          (fun i => popcount 64 (getChunk s k (i + (a / 64 + 1)))) := rfl
      rw [hf, cnt_chunks, e, e', cnt_chunk (by omega), cnt_chunk (by omega), eA]
      show Except.ok _ = Except.ok _
      congr 1
      have s1 : b - a + 1 = (63 - a % 64 + 1) + ((b / 64 - (a / 64 + 1)) * 64 + (b % 64 - 0 + 1)) := by omega
      generalize h1 : 63 - a % 64 + 1 = x1 at *
      generalize h2 : (b / 64 - (a / 64 + 1)) * 64 = x2 at *
      generalize h3 : b % 64 - 0 + 1 = x3 at *
      rw [s1, cnt_add _ _ x1, cnt_add _ _ x2]
      have s2 : a + x1 = (a / 64 + 1) * 64 := by omega
      have s3 : (a / 64 + 1) * 64 + x2 = b / 64 * 64 + 0 := by omega
      rw [s2, s3]
      omega
    · rw [if_neg (fun e => hp (hpw.1 e))]
      by_cases ha : a % 64 = 0
      · have : activeBitsInRange (getChunk s k (a / 64)) (a % 64) 63 = .error .panic := by
          unfold activeBitsInRange
          have : subP 63 (a % 64) = .ok (63 - a % 64) := subP_ok.2 ⟨by omega, rfl⟩
          rw [this, ok_bind, if_pos (by omega)]
        rw [this]
        rfl
      · obtain ⟨n, hn⟩ := activeBitsInRange_ok (v := getChunk s k (a / 64)) (a := a % 64) (b := 63) (by omega) (by omega)
        have : activeBitsInRange (getChunk s k (b / 64)) 0 (b % 64) = .error .panic := by
          unfold activeBitsInRange
          have : subP (b % 64) 0 = .ok (b % 64 - 0) := subP_ok.2 ⟨by omega, rfl⟩
          rw [this, ok_bind, if_pos (by omega)]
        rw [hn, this]
        rfl

end OraiV3
