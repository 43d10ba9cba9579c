import Verif.Events
import Verif.Lemmas.Inv
import Mathlib.Data.Rat.Cast.Defs
import Mathlib.Tactic.FieldSimp
import Mathlib.Tactic.Ring
import Mathlib.Tactic.Linarith

/-!
# Helper lemmas about the attributes of responses: texts can be read back, `respond` does what `execute` does
-/

namespace OraiV3

/-! ## Reading back what was written -/

theorem digitChar_val {d : Nat} (h : d < 10) : (digitChar d).val = 48 + d := by
  unfold digitChar
  rw [Fin.val_ofNat]
  omega

theorem readDigit_digitChar {d : Nat} (h : d < 10) : readDigit (digitChar d) = some d := by
  unfold readDigit
  rw [digitChar_val h, if_pos (by omega)]
  congr 1
  omega

theorem readFrom_append (xs ys : Bytes) (a : Nat) : readFrom a (xs ++ ys) = (readFrom a xs).bind fun n => readFrom n ys := by
  induction xs generalizing a with
  | nil => rfl
  | cons x xs ih =>
    rw [List.cons_append, readFrom, readFrom]
    cases readDigit x with
    | none => rfl
    | some d => exact ih _

theorem readFrom_digit {a d : Nat} (h : d < 10) : readFrom a [digitChar d] = some (10 * a + d) := by
  unfold readFrom
  rw [readDigit_digitChar h]
  rfl

theorem readFrom_showDigits (fuel n a : Nat) (h : n < 10 ^ (fuel + 1)) :
    readFrom a (showDigits fuel n) = some (a * 10 ^ (showDigits fuel n).length + n) := by
  induction fuel generalizing n with
  | zero =>
    have : n % 10 = n := Nat.mod_eq_of_lt (by simpa using h)
    unfold showDigits
    rw [this, readFrom_digit (by simpa using h)]
    simp [Nat.mul_comm]
  | succ fuel ih =>
    unfold showDigits
    split
    · rw [readFrom_digit (by assumption)]
      simp [Nat.mul_comm]
    · rw [readFrom_append, ih _ (by rw [pow_succ] at h; omega), Option.bind_some, readFrom_digit (by omega),
        List.length_append, List.length_singleton, pow_succ]
      congr 1
      have := Nat.div_add_mod n 10
      ring_nf
      omega

theorem log2_fuel (n : Nat) : n < 10 ^ (Nat.log2 n + 1) :=
  lt_of_lt_of_le Nat.lt_log2_self (Nat.pow_le_pow_left (by omega) _)

theorem readFrom_showNat (n a : Nat) : readFrom a (showNat n) = some (a * 10 ^ (showNat n).length + n) :=
  readFrom_showDigits _ _ _ (log2_fuel n)

theorem showDigits_ne_nil (fuel n : Nat) : showDigits fuel n ≠ [] := by
  cases fuel with
  | zero => simp [showDigits]
  | succ fuel => unfold showDigits; split <;> simp

theorem readNat_eq {bs : Bytes} (h : bs ≠ []) : readNat bs = readFrom 0 bs := by
  cases bs with
  | nil => exact absurd rfl h
  | cons b bs => rfl

theorem readNat_showNat (n : Nat) : readNat (showNat n) = some n := by
  have h : showNat n ≠ [] := showDigits_ne_nil _ _
  rw [readNat_eq h, readFrom_showNat]
  simp

theorem showDigits_digit {fuel n : Nat} {b : Byte} (h : b ∈ showDigits fuel n) : 48 ≤ b.val ∧ b.val ≤ 57 := by
  induction fuel generalizing n with
  | zero =>
    simp only [showDigits, List.mem_singleton] at h
    subst h
    rw [digitChar_val (by omega)]
    omega
  | succ fuel ih =>
    unfold showDigits at h
    split at h
    · simp only [List.mem_singleton] at h
      subst h
      rw [digitChar_val (by assumption)]
      omega
    · rw [List.mem_append] at h
      rcases h with h | h
      · exact ih h
      · simp only [List.mem_singleton] at h
        subst h
        rw [digitChar_val (by omega)]
        omega

theorem showNat_digit {n : Nat} {b : Byte} (h : b ∈ showNat n) : 48 ≤ b.val ∧ b.val ≤ 57 := showDigits_digit h

theorem showNat_ne {n : Nat} {b : Byte} (h : b ∈ showNat n) {m : Byte} (hm : m.val < 48) : b ≠ m := by
  rintro rfl
  have := showNat_digit h
  omega

theorem readInt_showInt (i : Int) : readInt (showInt i) = some i := by
  unfold showInt
  split
  · rw [readInt, if_pos rfl, readNat_showNat, Option.map_some]
    congr 1
    omega
  · have hne : showNat i.natAbs ≠ [] := showDigits_ne_nil _ _
    have hr := readNat_showNat i.natAbs
    cases hs : showNat i.natAbs with
    | nil => exact absurd hs hne
    | cons b bs =>
      have hb : b ≠ 45 := showNat_ne (n := i.natAbs) (by rw [hs]; exact List.mem_cons_self) (by decide)
      rw [readInt, if_neg hb, ← hs, hr, Option.map_some]
      congr 1
      omega

theorem countDigits_eq (fuel' fuel n : Nat) (h0 : 0 < n) (h' : n < 10 ^ (fuel' + 1)) (h : n < 10 ^ fuel) :
    countDigits fuel n = (showDigits fuel' n).length := by
  induction fuel' generalizing fuel n with
  | zero =>
    cases fuel with
    | zero => simp at h; omega
    | succ fuel =>
      unfold countDigits
      rw [if_neg (by omega), show n / 10 = 0 by omega]
      cases fuel <;> simp [countDigits, showDigits]
  | succ fuel' ih =>
    cases fuel with
    | zero => simp at h; omega
    | succ fuel =>
      unfold countDigits showDigits
      rw [if_neg (by omega)]
      split
      · rw [show n / 10 = 0 by omega]
        cases fuel <;> simp [countDigits]
      · rw [ih fuel (n / 10) (by omega) (by rw [pow_succ] at h'; omega) (by rw [pow_succ] at h; omega), List.length_append,
          List.length_singleton, Nat.add_comm]

theorem showDigits_length (fuel n k : Nat) (h : n < 10 ^ (k + 1)) : (showDigits fuel n).length ≤ k + 1 := by
  induction fuel generalizing n k with
  | zero => simp [showDigits]
  | succ fuel ih =>
    unfold showDigits
    split
    · simp
    · cases k with
      | zero => simp at h; omega
      | succ k =>
        rw [List.length_append, List.length_singleton]
        have := ih (n / 10) k (by rw [pow_succ] at h; omega)
        omega

theorem readFrom_zeros (k : Nat) (bs : Bytes) : readFrom 0 (List.replicate k 48 ++ bs) = readFrom 0 bs := by
  induction k with
  | zero => rfl
  | succ k ih =>
    rw [List.replicate_succ, List.cons_append, readFrom, show readDigit 48 = some 0 from rfl]
    simpa using ih

theorem readDec_showNat (n : Nat) : readDec (showNat n) = some (n : Rat) := by
  unfold readDec
  have : (showNat n).dropWhile (fun b => b ≠ 46) = [] := by
    have := List.dropWhile_append_of_pos (l₁ := showNat n) (l₂ := []) (p := fun b => decide (b ≠ 46))
      fun b hb => decide_eq_true (showNat_ne hb (by decide))
    rw [List.append_nil] at this
    exact this
  rw [this]
  simp only [readNat_showNat, Option.map_some]

theorem frac_text (n f k : Nat) (hf : f < 10 ^ (k + 1)) (hn : f ≤ n) :
    readNat (List.replicate (k + 1 - countDigits (n + 1) f) 48 ++ showNat f) = some f ∧
    (f : Rat) / (10 : Rat) ^ (List.replicate (k + 1 - countDigits (n + 1) f) (48 : Byte) ++ showNat f).length =
      (f : Rat) / (10 : Rat) ^ (k + 1) := by
  constructor
  · rw [readNat_eq (by
      intro e
      exact showDigits_ne_nil _ _ (List.append_eq_nil_iff.1 e).2), readFrom_zeros, readFrom_showNat]
    simp
  · rcases Nat.eq_zero_or_pos f with rfl | h0
    · simp
    · have h1 := countDigits_eq (Nat.log2 f) (n + 1) f h0 (log2_fuel f)
        (lt_of_le_of_lt hn (lt_of_lt_of_le (Nat.lt_succ_self n) (Nat.lt_pow_self (by omega)).le))
      have h2 := showDigits_length (Nat.log2 f) f k hf
      rw [List.length_append, List.length_replicate, h1]
      unfold showNat
      rw [Nat.sub_add_cancel h2]

/-- The text of a decimal is exactly its value. -/
theorem readDec_showDec (scale n : Nat) : readDec (showDec scale n) = some ((n : Rat) / (10 : Rat) ^ scale) := by
  unfold showDec
  cases scale with
  | zero => rw [if_neg (by omega), readDec_showNat]; simp
  | succ k =>
    rw [if_pos (by omega)]
    generalize hq : n / 10 ^ (k + 1) = q
    generalize hf : n % 10 ^ (k + 1) = f
    have hlt : f < 10 ^ (k + 1) := by rw [← hf]; exact Nat.mod_lt _ (by positivity)
    have hle : f ≤ n := by rw [← hf]; exact Nat.mod_le _ _
    obtain ⟨h1, h2⟩ := frac_text n f k hlt hle
    have ht : ∀ b ∈ showNat q, (decide (b ≠ 46)) = true := fun b hb => decide_eq_true (showNat_ne hb (by decide))
    generalize List.replicate (k + 1 - countDigits (n + 1) f) (48 : Byte) ++ showNat f = fr at h1 h2 ⊢
    unfold readDec
    rw [List.dropWhile_append_of_pos ht, List.takeWhile_append_of_pos ht]
    rw [List.dropWhile_cons_of_neg (by simp), List.takeWhile_cons_of_neg (by simp), List.append_nil]
    simp only [readNat_showNat, h1, h2]
    congr 1
    have e : n = q * 10 ^ (k + 1) + f := by rw [← hq, ← hf, Nat.mul_comm]; exact (Nat.div_add_mod n _).symm
    rw [e]
    push_cast
    field_simp

/-- The text of a token amount is read as that amount. -/
theorem readNat_amount (n : Nat) : readNat (showDec 0 n) = some n := by
  unfold showDec
  rw [if_neg (by omega), readNat_showNat]

/-! ## `respond` is `execute` -/

/-- Forget the attributes. -/
def dropAttrs (r : M Resp) : M (Store × List OutMsg) := r.map fun r => (r.1, r.2.1)

theorem dropAttrs_error (e : Err) : dropAttrs (.error e) = .error e := rfl
theorem dropAttrs_pure (s : Store) (m : List OutMsg) (a : List Attr) : dropAttrs (pure (s, m, a)) = pure (s, m) := rfl
theorem dropAttrs_bind {α : Type} (x : M α) (f : α → M Resp) : dropAttrs (x >>= f) = x >>= fun a => dropAttrs (f a) := by
  cases x <;> rfl
theorem dropAttrs_withAttrs (as : List Attr) (r : M (Store × List OutMsg)) : dropAttrs (withAttrs as r) = r := by
  cases r <;> rfl
theorem dropAttrs_ok {r : M Resp} {s : Store} {m : List OutMsg} {as : List Attr} (h : r = .ok (s, m, as)) :
    dropAttrs r = .ok (s, m) := by rw [h]; rfl

theorem createPositionR_drop (c : Chain) (s : Store) (env : Env) (info : Info) (k : PoolKey) (l u : Int) (L lo hi : Nat) :
    dropAttrs (createPositionR c s env info k l u L lo hi) = createPosition c s env info k l u L lo hi := by
  unfold createPositionR createPosition
  by_cases h1 : L = 0
  · rw [if_pos h1, if_pos h1]; rfl
  rw [if_neg h1, if_neg h1]
  by_cases h2 : l = u
  · rw [if_pos h2, if_pos h2]; rfl
  rw [if_neg h2, if_neg h2]
  cases s.pools.get? k.key with
  | none => rfl
  | some pool => simp only [dropAttrs_bind, dropAttrs_pure]

theorem claimFeeR_drop (c : Chain) (s : Store) (env : Env) (info : Info) (i : Nat) :
    dropAttrs (claimFeeR c s env info i) = claimFee c s env info i := by
  unfold claimFeeR claimFee
  simp only [dropAttrs_bind, dropAttrs_pure]

theorem removePositionR_drop (c : Chain) (s : Store) (env : Env) (info : Info) (i : Nat) :
    dropAttrs (removePositionR c s env info i) = removePosition c s env info i := by
  unfold removePositionR removePosition
  simp only [dropAttrs_bind, dropAttrs_pure]

theorem swapR_drop (c : Chain) (s : Store) (env : Env) (info : Info) (k : PoolKey) (d : Bool) (a : Nat) (b : Bool) (l : Nat) :
    dropAttrs (swapR c s env info k d a b l) = swap c s env info k d a b l := by
  unfold swapR swap
  simp only [dropAttrs_bind, dropAttrs_pure]

theorem swapRouteR_drop (c : Chain) (s : Store) (env : Env) (info : Info) (a e sl : Nat) (hops : List Hop) :
    dropAttrs (swapRouteR c s env info a e sl hops) = swapRoute c s env info a e sl hops := by
  unfold swapRouteR swapRoute
  simp only [dropAttrs_bind]
  congr 1
  funext r
  congr 1
  funext m
  split <;> rfl

theorem burnR_drop (c : Chain) (s : Store) (env : Env) (info : Info) (id : Bytes) :
    dropAttrs (burnR c s env info id) = burn c s env info id := by
  unfold burnR burn
  simp only [dropAttrs_bind, removePositionR_drop]

theorem respond_drop (c : Chain) (env : Env) (info : Info) (msg : Msg) (s : Store) :
    dropAttrs (respond c env info msg s) = execute c env info msg s := by
  unfold respond execute
  split
  · cases msg <;> simp only [respondWf, dispatch, dropAttrs_withAttrs, createPositionR_drop, claimFeeR_drop,
      removePositionR_drop, swapR_drop, swapRouteR_drop, burnR_drop]
  · rfl

theorem respond_execute {c : Chain} {env : Env} {info : Info} {msg : Msg} {s s' : Store} {out : List OutMsg}
    {as : List Attr} (h : respond c env info msg s = .ok (s', out, as)) : execute c env info msg s = .ok (s', out) := by
  rw [← respond_drop]; exact dropAttrs_ok h

theorem respond_ok {c : Chain} {env : Env} {info : Info} {msg : Msg} {s : Store} {r : Resp}
    (h : respond c env info msg s = .ok r) : msg.wf ∧ respondWf c env info msg s = .ok r := by
  unfold respond at h
  split at h
  · exact ⟨by assumption, h⟩
  · simp at h

/-! ## What the attributes are -/

theorem swapR_attrs {c : Chain} {s s' : Store} {env : Env} {info : Info} {k : PoolKey} {d : Bool} {a : Nat} {b : Bool}
    {l : Nat} {out : List OutMsg} {as : List Attr} (h : swapR c s env info k d a b l = .ok (s', out, as)) :
    ∃ res, swapInternal c s info env.millis k d a b l = .ok (s', out, res) ∧
      as = [action "swap", ⟨"amount_in", showDec 0 res.amountIn⟩, ⟨"amount_out", showDec 0 res.amountOut⟩] := by
  unfold swapR at h
  simp only [bind_ok, pure_ok, Prod.mk.injEq] at h
  obtain ⟨⟨x, y, res⟩, h1, h2, h3, h4⟩ := h
  subst h2 h3
  exact ⟨res, h1, h4.symm⟩

theorem swapRouteR_attrs {c : Chain} {s s' : Store} {env : Env} {info : Info} {a e sl : Nat} {hops : List Hop}
    {out : List OutMsg} {as : List Attr} (h : swapRouteR c s env info a e sl hops = .ok (s', out, as)) :
    ∃ fin, swapRouteInternal c info env.millis hops s a [] = .ok (s', fin, out) ∧
      as = [action "swap_route", ⟨"amount_out", showDec 0 fin⟩] := by
  unfold swapRouteR at h
  simp only [bind_ok, pure_ok, ite_error_ok, Prod.mk.injEq] at h
  obtain ⟨⟨s1, fin, o⟩, h1, m, h2, h3, h4, h5, h6⟩ := h
  subst h4 h5
  exact ⟨fin, h1, h6.symm⟩

theorem claimFeeR_attrs {c : Chain} {s s' : Store} {env : Env} {info : Info} {i : Nat} {out : List OutMsg} {as : List Attr}
    (h : claimFeeR c s env info i = .ok (s', out, as)) :
    ∃ pos x y, s.positions.get? (positionKey info.sender i) = some pos ∧
      out = assetTransfer c pos.poolKey.tokenX x info ++ assetTransfer c pos.poolKey.tokenY y info ∧
      as = [action "claim_fee", ⟨"amount_x", showDec 0 x⟩, ⟨"amount_y", showDec 0 y⟩] := by
  unfold claimFeeR at h
  simp only [bind_ok, pure_ok, Prod.mk.injEq, getPosition_ok] at h
  obtain ⟨pos, h1, _, _, _, _, _, _, r, _, _, _, _, _, _, _, _, h9, h10⟩ := h
  exact ⟨pos, r.x, r.y, h1, h9.symm, h10.symm⟩

theorem createPositionR_attrs {c : Chain} {s s' : Store} {env : Env} {info : Info} {k : PoolKey} {l u : Int} {L lo hi : Nat}
    {out : List OutMsg} {as : List Attr} (h : createPositionR c s env info k l u L lo hi = .ok (s', out, as)) :
    ∃ pool rl ru r, s.pools.get? k.key = some pool ∧ getOrCreateTick s env.millis k l = .ok rl ∧
      getOrCreateTick rl.1 env.millis k u = .ok ru ∧
      Position.create pool k rl.2 ru.2 env.millis L lo hi env.height k.tier.spacing = .ok r ∧
      as = positionAttrs "create_position" info.sender L r.lower.index r.upper.index r.pool.sqrtPrice := by
  unfold createPositionR at h
  simp only [ite_error_ok] at h
  obtain ⟨hL, hlu, h⟩ := h
  split at h
  · simp at h
  · rename_i pool hp
    simp only [bind_ok, pure_ok, Prod.mk.injEq] at h
    obtain ⟨rl, h1, ru, h2, r, h3, s1, h4, s2, h5, s3, h6, m1, h7, m2, h8, h9, h10, h11⟩ := h
    exact ⟨pool, rl, ru, r, hp, h1, h2, h3, h11.symm⟩

theorem removePositionR_attrs {c : Chain} {s s' : Store} {env : Env} {info : Info} {i : Nat} {out : List OutMsg}
    {as : List Attr} (h : removePositionR c s env info i = .ok (s', out, as)) :
    ∃ pos lower upper pool r, s.positions.get? (positionKey info.sender i) = some pos ∧
      s.ticks.get? (tickKey pos.poolKey pos.lower) = some lower ∧
      s.ticks.get? (tickKey pos.poolKey pos.upper) = some upper ∧
      s.pools.get? pos.poolKey.key = some pool ∧
      pos.remove pool env.millis lower upper pos.poolKey.tier.spacing = .ok r ∧
      as = positionAttrs "remove_position" info.sender pos.liquidity r.lower.index r.upper.index r.pool.sqrtPrice := by
  unfold removePositionR at h
  simp only [bind_ok, pure_ok, Prod.mk.injEq, getPosition_ok, getTick_ok, getPool_ok] at h
  obtain ⟨pos, h1, lower, h2, upper, h3, pool, h4, r, h5, s1, h6, s2, h7, ⟨s3, pos'⟩, h8, h9, h10, h11⟩ := h
  exact ⟨pos, lower, upper, pool, r, h1, h2, h3, h4, h5, h11.symm⟩

theorem withAttrs_attrs {as as' : List Attr} {r : M (Store × List OutMsg)} {s : Store} {out : List OutMsg}
    (h : withAttrs as r = .ok (s, out, as')) : as' = as := by
  unfold withAttrs at h
  simp only [bind_ok, pure_ok, Prod.mk.injEq] at h
  obtain ⟨_, _, _, _, h⟩ := h
  exact h.symm

theorem burnR_attrs {c : Chain} {s s' : Store} {env : Env} {info : Info} {id : Bytes} {out : List OutMsg} {as : List Attr}
    (h : burnR c s env info id = .ok (s', out, as)) :
    removePositionR c s env info (tokenIndex id) = .ok (s', out, as) := by
  unfold burnR at h
  simp only [bind_ok] at h
  obtain ⟨_, _, _, _, _, _, h⟩ := h
  exact h

end OraiV3
