import Verif.Lemmas.Hostile
import Verif.Props.Liveness
import Verif.Props.Solvency

/-!
# C91: dishonest tokens

Anybody can create a pool for a token of their own making.  Such a token can lie about transfers, refuse them, and call the
contract in the middle of a transaction.  It cannot get at the other tokens: what the contract owes in a token that behaves like
one, in all pools together, those with dishonest tokens included, stays covered at every moment.  Of the swaps only those in
pools that trade this token matter.
-/

namespace OraiV3

/-- **C91.** Between transactions: what the contract owes in a token that behaves like one is covered by its balance, whatever the
other tokens do. -/
theorem C91_covered {c : Chain} {T : Bytes → Prop} {w : World} {n : Nat} (h : Nested c T w [] n) {ks : List PoolKey}
    (hn : ks.Nodup) (hw : ∀ k ∈ ks, k.wf) {t : Bytes} (ht : T t) :
    owes w.store ks t ≤ w.ledger.bal (tokenAsset c t) c.self + n / 10 ^ 14 := by
  simpa [outDelta] using h.solvent ks hn hw t ht

/-- **C91.** At every moment inside a transaction, with calls nested to any depth: the balance together with the payments still
to be carried out, received and made, covers what is owed then. -/
theorem C91_midway {c : Chain} {T : Bytes → Prop} {w : World} {ms : List OutMsg} {n : Nat} (h : Nested c T w ms n)
    {ks : List PoolKey} (hn : ks.Nodup) (hw : ∀ k ∈ ks, k.wf) {t : Bytes} (ht : T t) :
    owes w.store ks t ≤ w.ledger.bal (tokenAsset c t) c.self + (outDelta c ms (tokenAsset c t) c.self : ℚ) + n / 10 ^ 14 := by
  simpa using h.solvent ks hn hw t ht

/-- In whole units, up to a hundred trillion roundings. -/
theorem C91_whole_units {c : Chain} {T : Bytes → Prop} {w : World} {n : Nat} (h : Nested c T w [] n) (hn : n < 10 ^ 14)
    {ks : List PoolKey} (hk : ks.Nodup) (hw : ∀ k ∈ ks, k.wf) {t : Bytes} (ht : T t) {m : Nat}
    (hm : (m : ℚ) ≤ owes w.store ks t) : m ≤ w.ledger.bal (tokenAsset c t) c.self := by
  have h1 := C91_covered h hk hw ht
  have h2 : (n : ℚ) / 10 ^ 14 < 1 := by
    rw [div_lt_one (by positivity)]
    exact_mod_cast hn
  have h3 : (m : ℚ) < w.ledger.bal (tokenAsset c t) c.self + 1 := by linarith
  have : m < w.ledger.bal (tokenAsset c t) c.self + 1 := by exact_mod_cast h3
  omega

/-- **C91.** No payout ever fails for lack of tokens: if the contract accepts a claim, a removal, a burn or a withdrawal of the
protocol fee, and only tokens that behave like tokens are to be paid, then the payments succeed. -/
theorem C91_payout {c : Chain} {T : Bytes → Prop} {w : World} {n : Nat} (h : Nested c T w [] n) (hn : n < 10 ^ 14) {env : Env}
    {who : Bytes} {msg : Msg} (hm : msg.isPayout = true) {s' : Store} {out : List OutMsg}
    (he : execute c env ⟨who, []⟩ msg w.store = .ok (s', out)) (ho : ∀ m ∈ out, ∀ t, m.token? = some t → T t) :
    ∃ w', w.tx c env ⟨who, []⟩ msg = .ok w' := by
  obtain ⟨k, x, y, hout, hp, hne⟩ := payout_shape h.reach hm he
  obtain ⟨e1, e2⟩ := payout_le hp hne
  subst hout
  refine payout_tx he hne ?_ ?_
  · rcases transfer_tokens (fun m hm => ho m (List.mem_append.2 (.inl hm))) with h0 | h0
    · rw [h0]; exact Nat.zero_le _
    · exact C91_whole_units h hn (by simp) (by simpa using hp.wf) h0 e1
  · rcases transfer_tokens (fun m hm => ho m (List.mem_append.2 (.inr hm))) with h0 | h0
    · rw [h0]; exact Nat.zero_le _
    · exact C91_whole_units h hn (by simp) (by simpa using hp.wf) h0 e2

/-- **C91.** The owner of a position in two tokens that behave like tokens can remove it and is paid, whatever the other tokens do or
have done, as long as the contract holds less than `2^128` of the two. -/
theorem C91_withdraw {c : Chain} {T : Bytes → Prop} {w : World} {n : Nat} (h : Nested c T w [] n) (hn : n < 10 ^ 14)
    {env : Env} {who : Bytes} {i : Nat}
    (hT : ∀ pos, w.store.positions.get? (positionKey who i) = some pos → T pos.poolKey.tokenX ∧ T pos.poolKey.tokenY)
    (hbal : ∀ pos, w.store.positions.get? (positionKey who i) = some pos →
      ∀ t ∈ [pos.poolKey.tokenX, pos.poolKey.tokenY], w.ledger.bal (tokenAsset c t) c.self < 2 ^ 128)
    (hi : i < getPositionLength w.store who) : ∃ w', w.tx c env ⟨who, []⟩ (.removePosition i) = .ok w' := by
  have hm := h.reach.mreach
  have : ∃ s' out, execute c env ⟨who, []⟩ (.removePosition i) w.store = .ok (s', out) := by
    refine C33_accepted_partial h.reach hi
      (fun pos hpos => h.active _ (hm.struct.positions _ _ hpos).kwf (.inl (hT pos hpos).1)) (fun pos pool hpos hp x m hle => ?_)
    have hk := (hm.struct.positions _ _ hpos).kwf
    have h1 := worth_le_owes hm.struct hpos hp x
    refine Nat.lt_of_le_of_lt (C91_whole_units h hn (ks := [pos.poolKey]) (by simp) (by simpa using hk)
      (t := if x then pos.poolKey.tokenX else pos.poolKey.tokenY) (by cases x; exacts [(hT pos hpos).2, (hT pos hpos).1]) ?_) (hbal pos hpos _ (by cases x <;> simp))
    refine le_trans ?_ h1
    push_cast
    have := floor_le_q (accrued w.store x pos)
    push_cast at this
    linarith
  obtain ⟨s', out, he⟩ := this
  exact C91_payout h hn rfl he (payout_tokens h.reach (.inr rfl) he hT)

/-- **C91.** And can claim its fees and is paid. -/
theorem C91_claim {c : Chain} {T : Bytes → Prop} {w : World} {n : Nat} (h : Nested c T w [] n) (hn : n < 10 ^ 14)
    {env : Env} {who : Bytes} {i : Nat}
    (hT : ∀ pos, w.store.positions.get? (positionKey who i) = some pos → T pos.poolKey.tokenX ∧ T pos.poolKey.tokenY)
    (hbal : ∀ pos, w.store.positions.get? (positionKey who i) = some pos →
      ∀ t ∈ [pos.poolKey.tokenX, pos.poolKey.tokenY], w.ledger.bal (tokenAsset c t) c.self < 2 ^ 128)
    (hi : i < getPositionLength w.store who) : ∃ w', w.tx c env ⟨who, []⟩ (.claimFee i) = .ok w' := by
  have hm := h.reach.mreach
  have : ∃ s' out, execute c env ⟨who, []⟩ (.claimFee i) w.store = .ok (s', out) := by
    refine C41_accepted h.reach hi (fun pos hpos x => ?_)
    have hok := hm.struct.positions _ _ hpos
    obtain ⟨pool, hp⟩ := hok.pool
    have h1 := worth_le_owes hm.struct hpos hp x
    refine Nat.lt_of_le_of_lt (C91_whole_units h hn (ks := [pos.poolKey]) (by simp) (by simpa using hok.kwf)
      (t := if x then pos.poolKey.tokenX else pos.poolKey.tokenY) (by cases x; exacts [(hT pos hpos).2, (hT pos hpos).1]) ?_) (hbal pos hpos _ (by cases x <;> simp))
    refine le_trans ?_ h1
    have := floor_le_q (accrued w.store x pos)
    have := principal_nonneg pos x pool.sqrtPrice
    push_cast at *
    linarith
  obtain ⟨s', out, he⟩ := this
  exact C91_payout h hn rfl he (payout_tokens h.reach (.inl rfl) he hT)

/-- **C91.** A call made from inside another one finds a storage that calls made one after the other could have left: the contract
has finished its own work before any foreign code runs.  So all that is proved for reachable states holds there too. -/
theorem C91_reachable {c : Chain} {T : Bytes → Prop} {w : World} {ms : List OutMsg} {n : Nat} (h : Nested c T w ms n) :
    Reach c w.store := h.reach

/-- The histories of C04 are among these executions. -/
theorem C91_every_history {c : Chain} {T : Bytes → Prop} {w : World} {n : Nat} (h : History c T w n) : Nested c T w [] n := by
  induction h with
  | init sender fee hf l => exact .init sender fee hf l
  | @call w w' n env info msg _ hne ht hreg hd ih =>
    unfold World.tx at ht
    simp only [bind_ok, pure_ok] at ht
    obtain ⟨l1, h1, r, h2, l2, h3, rfl⟩ := ht
    exact Nested.deliver_all l1 (Nested.call ih trivial hne h1 h2 hreg hd) h3
  | outside l _ hl ih => exact .foreign l ih trivial hl

/-! ## A concrete execution

Only token `[98]` behaves like one.  Bob sells token `[97]` for it; before `[97]` carries out the transfer it calls the contract itself,
sells some more, and never takes the tokens from Bob at all.  Before that, swaps in another pool have ended irregularly. -/

namespace Demo

inductive Act where
  | call (i : Info) (m : Msg)
  | next

def onlyB (t : Bytes) : Bool := decide (t = [98])

def foreignB (T : Bytes → Bool) : OutMsg → Bool
  | .cw20Transfer t _ _ | .cw20TransferFrom t _ _ _ => !T t
  | .bankSend .. => false
  | .nftReceive .. => true

theorem foreignB_iff (T : Bytes → Bool) (m : OutMsg) : foreignB T m = true ↔ m.foreign (fun t => T t = true) := by
  cases m <;> simp [foreignB, OutMsg.foreign]

def openB (T : Bytes → Bool) : List OutMsg → Bool
  | [] => true
  | m :: _ => foreignB T m

/-- Pool of two other tokens. -/
def key96 : PoolKey := ⟨[96], [97], tier⟩

def regularN (T : Bytes → Bool) (s : Store) : Msg → Bool
  | .swap k d a b l => (!T k.tokenX && !T k.tokenY) || regularMsg s (.swap k d a b l)
  | m => regularMsg s m

theorem regularN_spec {T : Bytes → Bool} {s s' : Store} {i : Info} {m : Msg} (h : regularN T s' m = true) :
    RegularCall chain (PoolKey.trades (fun t => T t = true)) env i s s' m ∧ ChargedOnce chain (fun t => T t = true) m := by
  cases m <;> first | exact ⟨trivial, trivial⟩ | skip
  case swap k d a b l =>
    refine ⟨fun ht => ?_, trivial⟩
    simp only [regularN, Bool.or_eq_true, Bool.and_eq_true, Bool.not_eq_true'] at h
    rcases h with h | h
    · rcases ht with ht | ht
      · rw [h.1] at ht; exact Bool.noConfusion ht
      · rw [h.2] at ht; exact Bool.noConfusion ht
    · simpa [regularMsg] using h
  case swapRoute => simp [regularN, regularMsg] at h

def actN (T : Bytes → Bool) (st : World × List OutMsg × Nat) : Act → Option (World × List OutMsg × Nat)
  | .call i m =>
    match st.1.ledger.takeFunds chain i.sender i.funds, execute chain env i m st.1.store with
    | .ok l, .ok r => if openB T st.2.1 ∧ i.sender ≠ chain.self ∧ regularN T r.1 m = true then
        some (⟨r.1, l⟩, r.2 ++ st.2.1, st.2.2 + roundings chain env i st.1.store m) else none
    | _, _ => none
  | .next =>
    match st.2.1 with
    | [] => none
    | m :: ms => if foreignB T m then some (st.1, ms, st.2.2) else
      match st.1.ledger.apply chain m with
      | .ok l => some (⟨st.1.store, l⟩, ms, st.2.2)
      | .error _ => none

def runN (T : Bytes → Bool) : List Act → World × List OutMsg × Nat → Option (World × List OutMsg × Nat)
  | [], st => some st
  | a :: as, st => match actN T st a with
    | some st' => runN T as st'
    | none => none

theorem actN_nested {T : Bytes → Bool} {st st' : World × List OutMsg × Nat} {a : Act} (h : Nested chain (fun t => T t = true) st.1 st.2.1 st.2.2)
    (ha : actN T st a = some st') : Nested chain (fun t => T t = true) st'.1 st'.2.1 st'.2.2 := by
  cases a with
  | call i m =>
    simp only [actN] at ha
    split at ha
    · rename_i l r e1 e2
      split at ha
      · rename_i hc
        simp only [Option.some.injEq] at ha
        subst ha
        refine Nested.call h ?_ hc.2.1 e1 e2 (regularN_spec hc.2.2).1 (regularN_spec (s := st.1.store) (i := i) hc.2.2).2
        have := hc.1
        cases hq : st.2.1 with
        | nil => trivial
        | cons m' ms => rw [hq] at this; exact (foreignB_iff T m').1 this
      · simp at ha
    · simp at ha
  | next =>
    obtain ⟨w, ms, n⟩ := st
    cases ms with
    | nil => simp [actN] at ha
    | cons m ms =>
      simp only [actN] at ha
      split at ha
      · rename_i hf
        simp only [Option.some.injEq] at ha
        subst ha
        exact .done h ((foreignB_iff T m).1 hf)
      · rename_i hf
        split at ha
        · rename_i l e
          simp only [Option.some.injEq] at ha
          subst ha
          exact .deliver h (fun hh => hf ((foreignB_iff T m).2 hh)) e
        · simp at ha

theorem runN_nested {T : Bytes → Bool} : ∀ {as : List Act} {st st' : World × List OutMsg × Nat},
    Nested chain (fun t => T t = true) st.1 st.2.1 st.2.2 → runN T as st = some st' →
    Nested chain (fun t => T t = true) st'.1 st'.2.1 st'.2.2
  | [], st, st', h, hr => by simp only [runN, Option.some.injEq] at hr; exact hr ▸ h
  | a :: as, st, st', h, hr => by
    simp only [runN] at hr
    split at hr
    · rename_i st1 e
      exact runN_nested (actN_nested h e) hr
    · simp at hr

/-- Swaps of `[97]` for `[96]` that end irregularly; Bob's sale, and the token's own sale while it should be carrying out Bob's payment. -/
def callback : List Act :=
  [.call (by_ alice) (.addFeeTier tier), .call (by_ alice) (.createPool [97] [98] tier (10 ^ 24) 0),
   .call (by_ alice) (.createPosition key (-10) 10 (10 ^ 12) 0 (10 ^ 30)), .next, .next,
   .call (by_ alice) (.createPool [96] [97] tier (10 ^ 24) 0),
   .call (by_ alice) (.createPosition key96 (-10) 10 (10 ^ 12) 0 (10 ^ 30)), .next, .next,
   .call (by_ bob) (.swap key96 false 499 false (sqrtPriceAt 10)), .next, .next,
   .call (by_ bob) (.swap key true 100 true MIN_SQRT_PRICE), .call (by_ [97]) (.swap key true 50 true MIN_SQRT_PRICE)]

/-- Here `[98]` and `[99]` behave like tokens and `[97]` does not.  After the calls of `[97]`, Alice owns a position in `[98]` and `[99]`
and the hypotheses of `C91_withdraw` and `C91_claim` hold for it. -/
def twoTokens (t : Bytes) : Bool := decide (t = [98] ∨ t = [99])

def key98 : PoolKey := ⟨[98], [99], tier⟩

def besides : List Act :=
  [.call (by_ alice) (.addFeeTier tier), .call (by_ alice) (.createPool [98] [99] tier (10 ^ 24) 0),
   .call (by_ alice) (.createPosition key98 (-10) 10 (10 ^ 12) 0 (10 ^ 30)), .next, .next,
   .call (by_ bob) (.swap key98 true 100 true MIN_SQRT_PRICE), .next, .next,
   .call (by_ alice) (.createPool [97] [98] tier (10 ^ 24) 0),
   .call (by_ bob) (.createPosition key (-10) 10 (10 ^ 12) 0 (10 ^ 30)), .next, .next,
   .call (by_ bob) (.swap key true 100 true MIN_SQRT_PRICE), .call (by_ [97]) (.swap key true 50 true MIN_SQRT_PRICE),
   .next, .next, .next, .next]

end Demo

/-- In the middle of it four messages wait; at the end the contract has no `[97]` at all and the liquidity of the other pool is
wrong, but its `[98]` cover what it owes. -/
example : ∃ w ms n w' n', Nested Demo.chain (fun t => Demo.onlyB t = true) w ms n ∧ ms.length = 4 ∧
    Nested Demo.chain (fun t => Demo.onlyB t = true) w' [] n' ∧ n' < 10 ^ 14 ∧ drift w'.store Demo.key96 ≠ 0 ∧
    w'.ledger.bal (.cw20 [97]) [0] = 0 ∧ 600 < owes w'.store [Demo.key] [97] ∧
    300 < owes w'.store [Demo.key] [98] ∧ owes w'.store [Demo.key] [98] ≤ w'.ledger.bal (.cw20 [98]) [0] := by
  have e1 : (Demo.runN Demo.onlyB Demo.callback (Demo.fresh, [], 0)).isSome = true ∧
      (Demo.runN Demo.onlyB Demo.callback (Demo.fresh, [], 0)).all (fun r => decide (r.2.1.length = 4)) = true := by decide +kernel
  have e2 : (Demo.runN Demo.onlyB (Demo.callback ++ [.next, .next, .next, .next]) (Demo.fresh, [], 0)).isSome = true ∧
      (Demo.runN Demo.onlyB (Demo.callback ++ [.next, .next, .next, .next]) (Demo.fresh, [], 0)).all (fun r => decide (r.2.1 = [] ∧ r.2.2 < 10 ^ 14 ∧
        drift r.1.store Demo.key96 ≠ 0 ∧
        r.1.ledger.bal (.cw20 [97]) [0] = 0 ∧ 600 < owes r.1.store [Demo.key] [97] ∧ 300 < owes r.1.store [Demo.key] [98] ∧
        owes r.1.store [Demo.key] [98] ≤ r.1.ledger.bal (.cw20 [98]) [0])) = true := by decide +kernel
  obtain ⟨r1, h1⟩ := Option.isSome_iff_exists.1 e1.1
  obtain ⟨r2, h2⟩ := Option.isSome_iff_exists.1 e2.1
  have a1 := e1.2
  have a2 := e2.2
  rw [h1] at a1
  rw [h2] at a2
  simp only [Option.all_some, decide_eq_true_eq] at a1 a2
  have i : Nested Demo.chain (fun t => Demo.onlyB t = true) Demo.fresh [] 0 := .init _ _ (by decide) _
  refine ⟨r1.1, r1.2.1, r1.2.2, r2.1, r2.2.2, Demo.runN_nested i h1, a1, ?_, a2.2⟩
  have := Demo.runN_nested i h2
  rwa [a2.1] at this

example : ∃ w n, Nested Demo.chain (fun t => Demo.twoTokens t = true) w [] n ∧ n < 10 ^ 14 ∧
    w.ledger.bal (.cw20 [97]) [0] = 0 ∧ 0 < getPositionLength w.store Demo.alice ∧
    (w.store.positions.get? (positionKey Demo.alice 0)).any (fun pos => decide (Demo.twoTokens pos.poolKey.tokenX = true ∧
      Demo.twoTokens pos.poolKey.tokenY = true ∧ ∀ t ∈ [pos.poolKey.tokenX, pos.poolKey.tokenY],
        0 < w.ledger.bal (tokenAsset Demo.chain t) [0] ∧ w.ledger.bal (tokenAsset Demo.chain t) [0] < 2 ^ 128)) = true := by
  have e : (Demo.runN Demo.twoTokens Demo.besides (Demo.fresh, [], 0)).isSome = true ∧
      (Demo.runN Demo.twoTokens Demo.besides (Demo.fresh, [], 0)).all (fun r => decide (r.2.1 = [] ∧ r.2.2 < 10 ^ 14 ∧
        r.1.ledger.bal (.cw20 [97]) [0] = 0 ∧ 0 < getPositionLength r.1.store Demo.alice ∧
        (r.1.store.positions.get? (positionKey Demo.alice 0)).any (fun pos => decide (Demo.twoTokens pos.poolKey.tokenX = true ∧
          Demo.twoTokens pos.poolKey.tokenY = true ∧ ∀ t ∈ [pos.poolKey.tokenX, pos.poolKey.tokenY],
            0 < r.1.ledger.bal (tokenAsset Demo.chain t) [0] ∧
            r.1.ledger.bal (tokenAsset Demo.chain t) [0] < 2 ^ 128)) = true)) = true := by decide +kernel
  obtain ⟨r, h⟩ := Option.isSome_iff_exists.1 e.1
  have a := e.2
  rw [h] at a
  simp only [Option.all_some, decide_eq_true_eq] at a
  have i : Nested Demo.chain (fun t => Demo.twoTokens t = true) Demo.fresh [] 0 := .init _ _ (by decide) _
  have := Demo.runN_nested i h
  rw [a.1] at this
  exact ⟨r.1, r.2.2, this, a.2⟩

end OraiV3
