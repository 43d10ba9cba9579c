import Verif.Contract
import Verif.Lemmas.Monad
import Verif.Lemmas.KV

/-!
# Inversion lemmas: what a successful call did
-/

namespace OraiV3

theorem loadConfig_ok {s : Store} {cfg : Config} : loadConfig s = .ok cfg ↔ s.config = some cfg := by
  unfold loadConfig; split <;> simp_all

theorem getPool_ok {s : Store} {k : PoolKey} {p : Pool} : getPool s k = .ok p ↔ s.pools.get? k.key = some p := by
  unfold getPool; split <;> simp_all

theorem getTick_ok {s : Store} {k : PoolKey} {i : Int} {t : Tick} :
    getTick s k i = .ok t ↔ s.ticks.get? (tickKey k i) = some t := by
  unfold getTick; split <;> simp_all

theorem getPositionByKey_ok {s : Store} {key : Bytes} {p : Position} :
    getPositionByKey s key = .ok p ↔ s.positions.get? key = some p := by
  unfold getPositionByKey; split <;> simp_all

theorem getPosition_ok {s : Store} {o : Bytes} {i : Nat} {p : Position} :
    getPosition s o i = .ok p ↔ s.positions.get? (positionKey o i) = some p := getPositionByKey_ok

theorem addTick_ok {s s' : Store} {k : PoolKey} {i : Int} {t : Tick} :
    addTick s k i t = .ok s' ↔
      s.ticks.get? (tickKey k i) = none ∧ s' = { s with ticks := s.ticks.insert (tickKey k i) t } := by
  unfold addTick
  rw [ite_error_ok, ok_inj, Bool.not_eq_true, KV.has_false_iff]
  exact and_congr_right fun _ => eq_comm

theorem updateTick_ok {s s' : Store} {k : PoolKey} {i : Int} {t : Tick} :
    updateTick s k i t = .ok s' ↔
      (∃ old, s.ticks.get? (tickKey k i) = some old) ∧
        s' = { s with ticks := s.ticks.insert (tickKey k i) t } := by
  unfold updateTick
  rw [ite_ok_error, ok_inj, KV.has_iff]
  exact and_congr_right fun _ => eq_comm

theorem removeTick_ok {s s' : Store} {k : PoolKey} {i : Int} :
    removeTick s k i = .ok s' ↔
      (∃ old, s.ticks.get? (tickKey k i) = some old) ∧
        s' = { s with ticks := s.ticks.erase (tickKey k i) } := by
  unfold removeTick
  rw [ite_ok_error, ok_inj, KV.has_iff]
  exact and_congr_right fun _ => eq_comm

theorem addPosition_ok {s s' : Store} {o : Bytes} {p : Position} :
    addPosition s o p = .ok s' ↔
      getPositionLength s o + 1 < U32 ∧
        s' = { s with positions := s.positions.insert (positionKey o (getPositionLength s o)) p,
                      posLen := s.posLen.insert o (getPositionLength s o + 1) } := by
  unfold addPosition
  simp only [ite_ok_error, ok_inj]
  exact and_congr_right fun _ => eq_comm

theorem updatePosition_ok {s s' : Store} {o : Bytes} {i : Nat} {p : Position} :
    updatePosition s o i p = .ok s' ↔
      i < getPositionLength s o ∧ s' = { s with positions := s.positions.insert (positionKey o i) p } := by
  unfold updatePosition
  simp only [ite_error_ok, ok_inj, ge_iff_le, Nat.not_le]
  exact and_congr_right fun _ => eq_comm

theorem removePositionAt_inv {s s' : Store} {o : Bytes} {i : Nat} {p : Position}
    (h : removePositionAt s o i = .ok (s', p)) :
    ∃ n, getPositionLength s o = n + 1 ∧ s.positions.get? (positionKey o i) = some p ∧
      ((i < n ∧ ∃ last, s.positions.get? (positionKey o n) = some last ∧
          s' = { s with positions := (s.positions.erase (positionKey o n)).insert (positionKey o i) last,
                        posLen := s.posLen.insert o n }) ∨
       (n ≤ i ∧ s' = { s with positions := s.positions.erase (positionKey o i),
                              posLen := s.posLen.insert o n })) := by
  unfold removePositionAt at h
  rw [bind_ok] at h
  obtain ⟨n, hn, h⟩ := h
  rw [bind_ok] at h
  obtain ⟨q, hq, h⟩ := h
  rw [getPosition_ok] at hq
  rw [subP_ok] at hn
  refine ⟨n, by omega, ?_⟩
  by_cases hi : i < n
  · rw [if_pos hi] at h
    split at h
    · simp at h
    · rename_i last hl
      rw [pure_ok, Prod.mk.injEq] at h
      obtain ⟨h1, h2⟩ := h
      subst h2
      exact ⟨hq, .inl ⟨hi, last, hl, h1.symm⟩⟩
  · rw [if_neg hi, pure_ok, Prod.mk.injEq] at h
    obtain ⟨h1, h2⟩ := h
    subst h2
    exact ⟨hq, .inr ⟨by omega, h1.symm⟩⟩

theorem flipBitmap_inv {s s' : Store} {v : Bool} {t : Int} {ts : Nat} {k : PoolKey}
    (h : flipBitmap s v t ts k = .ok s') :
    ∃ c, tickToPosition t ts = .ok c ∧ decide (bitAt (getChunk s k c.1) c.2 = 0) = v ∧
      s' = { s with bitmap := s.bitmap.insert (bitmapKey c.1 k) (flipBit (getChunk s k c.1) c.2) } := by
  unfold flipBitmap at h
  rw [bind_ok] at h
  obtain ⟨c, hc, h⟩ := h
  simp only [ite_error_ok, pure_ok] at h
  exact ⟨c, hc, by simpa using h.1, h.2.symm⟩

theorem createTick_inv {s s' : Store} {now : Nat} {k : PoolKey} {i : Int} {t : Tick}
    (h : createTick s now k i = .ok (s', t)) :
    ∃ pool c, checkTick i k.tier.spacing = .ok () ∧ s.pools.get? k.key = some pool ∧
      Tick.create i pool now = .ok t ∧ s.ticks.get? (tickKey k i) = none ∧
      tickToPosition i k.tier.spacing = .ok c ∧ bitAt (getChunk s k c.1) c.2 = 0 ∧
      s' = { s with ticks := s.ticks.insert (tickKey k i) t,
                    bitmap := s.bitmap.insert (bitmapKey c.1 k) (flipBit (getChunk s k c.1) c.2) } := by
  unfold createTick at h
  simp only [bind_ok, getPool_ok, addTick_ok, pure_ok, Prod.mk.injEq] at h
  obtain ⟨⟨⟩, h1, pool, h2, t', h3, s1, ⟨h4, h5⟩, s2, h6, h7, h8⟩ := h
  subst h8 h7 h5
  obtain ⟨c, hc, hb, hs⟩ := flipBitmap_inv h6
  refine ⟨pool, c, h1, h2, h3, h4, hc, of_decide_eq_true hb, hs⟩

theorem getOrCreateTick_inv {s : Store} {now : Nat} {k : PoolKey} {i : Int} {r : Store × Tick}
    (h : getOrCreateTick s now k i = .ok r) :
    (s.ticks.get? (tickKey k i) = some r.2 ∧ r.1 = s) ∨
    (s.ticks.get? (tickKey k i) = none ∧ createTick s now k i = .ok (r.1, r.2)) := by
  unfold getOrCreateTick at h
  split at h
  · rename_i t ht
    rw [ok_inj] at h
    subst h
    exact .inl ⟨getTick_ok.1 ht, rfl⟩
  · rename_i e he
    right
    refine ⟨?_, h⟩
    cases hg : s.ticks.get? (tickKey k i) with
    | none => rfl
    | some t => rw [getTick_ok.2 hg] at he; simp at he

/-- Everything but ticks and bitmap is untouched by `getOrCreateTick`. -/
theorem getOrCreateTick_frame {s : Store} {now : Nat} {k : PoolKey} {i : Int} {r : Store × Tick}
    (h : getOrCreateTick s now k i = .ok r) :
    ∃ ticks bitmap, r.1 = { s with ticks := ticks, bitmap := bitmap } := by
  rcases getOrCreateTick_inv h with ⟨_, h⟩ | ⟨_, h⟩
  · exact ⟨s.ticks, s.bitmap, h⟩
  · obtain ⟨_, _, _, _, _, _, _, _, h⟩ := createTick_inv h
    exact ⟨_, _, h⟩

theorem createPosition_inv {c : Chain} {s s' : Store} {env : Env} {info : Info} {k : PoolKey}
    {l u : Int} {L lo hi : Nat} {out : List OutMsg}
    (h : createPosition c s env info k l u L lo hi = .ok (s', out)) :
    ∃ pool rl ru r s1 s2 m1 m2, L ≠ 0 ∧ l ≠ u ∧ s.pools.get? k.key = some pool ∧
      getOrCreateTick s env.millis k l = .ok rl ∧
      getOrCreateTick rl.1 env.millis k u = .ok ru ∧
      Position.create pool k rl.2 ru.2 env.millis L lo hi env.height k.tier.spacing = .ok r ∧
      addPosition (savePool ru.1 k r.pool) info.sender r.pos = .ok s1 ∧
      updateTick s1 k r.lower.index r.lower = .ok s2 ∧
      updateTick s2 k r.upper.index r.upper = .ok s' ∧
      assetTransferFrom c k.tokenX r.x info = .ok m1 ∧ assetTransferFrom c k.tokenY r.y info = .ok m2 ∧
      out = m1 ++ m2 := by
  unfold createPosition at h
  simp only [ite_error_ok] at h
  obtain ⟨hL, hlu, h⟩ := h
  split at h
  · simp at h
  · rename_i pool hp
    simp only [bind_ok, pure_ok, Prod.mk.injEq] at h
    obtain ⟨rl, h1, ru, h2, r, h3, s1, h4, s2, h5, s3, h6, m1, h7, m2, h8, h9, h10⟩ := h
    subst h9
    exact ⟨pool, rl, ru, r, s1, s2, m1, m2, hL, hlu, hp, h1, h2, h3, h4, h5, h6, h7, h8, h10.symm⟩

theorem claimFee_inv {c : Chain} {s s' : Store} {env : Env} {info : Info} {i : Nat} {out : List OutMsg}
    (h : claimFee c s env info i = .ok (s', out)) :
    ∃ pos lower upper pool r s1 s2,
      s.positions.get? (positionKey info.sender i) = some pos ∧
      s.ticks.get? (tickKey pos.poolKey pos.lower) = some lower ∧
      s.ticks.get? (tickKey pos.poolKey pos.upper) = some upper ∧
      s.pools.get? pos.poolKey.key = some pool ∧
      pos.claimFee pool upper lower env.millis = .ok r ∧
      updatePosition s info.sender i r.pos = .ok s1 ∧
      updateTick (savePool s1 pos.poolKey r.pool) pos.poolKey r.upper.index r.upper = .ok s2 ∧
      updateTick s2 pos.poolKey r.lower.index r.lower = .ok s' ∧
      out = assetTransfer c pos.poolKey.tokenX r.x info ++ assetTransfer c pos.poolKey.tokenY r.y info := by
  unfold claimFee at h
  simp only [bind_ok, pure_ok, Prod.mk.injEq, getPosition_ok, getTick_ok, getPool_ok] at h
  obtain ⟨pos, h1, lower, h2, upper, h3, pool, h4, r, h5, s1, h6, s2, h7, s3, h8, h9, h10⟩ := h
  subst h9
  exact ⟨pos, lower, upper, pool, r, s1, s2, h1, h2, h3, h4, h5, h6, h7, h8, h10.symm⟩

theorem removeTickAndFlip_inv {s s' : Store} {k : PoolKey} {t : Tick}
    (h : removeTickAndFlip s k t = .ok s') :
    t.gross = 0 ∧ ∃ c, tickToPosition t.index k.tier.spacing = .ok c ∧ bitAt (getChunk s k c.1) c.2 ≠ 0 ∧
      (∃ old, s.ticks.get? (tickKey k t.index) = some old) ∧
      s' = { s with ticks := s.ticks.erase (tickKey k t.index),
                    bitmap := s.bitmap.insert (bitmapKey c.1 k) (flipBit (getChunk s k c.1) c.2) } := by
  unfold removeTickAndFlip at h
  simp only [ite_error_ok, bind_ok, removeTick_ok] at h
  obtain ⟨h0, s1, h1, h2, h3⟩ := h
  obtain ⟨c, hc, hb, hs⟩ := flipBitmap_inv h1
  subst hs
  exact ⟨by simpa using h0, c, hc, by simpa using hb, h2, h3⟩

theorem settleTick_inv {s s' : Store} {k : PoolKey} {i : Int} {t : Tick}
    (h : settleTick s k i t = .ok s') :
    (t.gross = 0 ∧ removeTickAndFlip s k t = .ok s') ∨ (t.gross ≠ 0 ∧ updateTick s k i t = .ok s') := by
  unfold settleTick at h
  split at h
  · exact .inl ⟨‹_›, h⟩
  · exact .inr ⟨‹_›, h⟩

theorem settleTick_frame {s s' : Store} {k : PoolKey} {i : Int} {t : Tick}
    (h : settleTick s k i t = .ok s') :
    ∃ ticks bitmap, s' = { s with ticks := ticks, bitmap := bitmap } := by
  rcases settleTick_inv h with ⟨_, h⟩ | ⟨_, h⟩
  · obtain ⟨_, _, _, _, _, h⟩ := removeTickAndFlip_inv h
    exact ⟨_, _, h⟩
  · exact ⟨_, _, (updateTick_ok.1 h).2⟩

theorem removePosition_inv {c : Chain} {s s' : Store} {env : Env} {info : Info} {i : Nat}
    {out : List OutMsg} (h : removePosition c s env info i = .ok (s', out)) :
    ∃ pos lower upper pool r s1 s2 pos',
      s.positions.get? (positionKey info.sender i) = some pos ∧
      s.ticks.get? (tickKey pos.poolKey pos.lower) = some lower ∧
      s.ticks.get? (tickKey pos.poolKey pos.upper) = some upper ∧
      s.pools.get? pos.poolKey.key = some pool ∧
      pos.remove pool env.millis lower upper pos.poolKey.tier.spacing = .ok r ∧
      settleTick (savePool s pos.poolKey r.pool) pos.poolKey pos.lower r.lower = .ok s1 ∧
      settleTick s1 pos.poolKey pos.upper r.upper = .ok s2 ∧
      removePositionAt s2 info.sender i = .ok (s', pos') ∧
      out = assetTransfer c pos'.poolKey.tokenX r.x info ++ assetTransfer c pos'.poolKey.tokenY r.y info := by
  unfold removePosition at h
  simp only [bind_ok, pure_ok, Prod.mk.injEq, getPosition_ok, getTick_ok, getPool_ok] at h
  obtain ⟨pos, h1, lower, h2, upper, h3, pool, h4, r, h5, s1, h6, s2, h7, ⟨s3, pos'⟩, h8, h9, h10⟩ := h
  simp only at h9 h10
  subst h9
  exact ⟨pos, lower, upper, pool, r, s1, s2, pos', h1, h2, h3, h4, h5, h6, h7, h8, h10.symm⟩

theorem transferPosition_inv {c : Chain} {s s' : Store} {info : Info} {i : Nat} {rcv : Bytes}
    {out : List OutMsg} (h : transferPosition c s info i rcv = .ok (s', out)) :
    ∃ pos s1, s.positions.get? (positionKey info.sender i) = some pos ∧
      removePositionAt s info.sender i = .ok (s1, pos) ∧ c.isAddr rcv = true ∧
      addPosition s1 rcv { pos with approvals := [] } = .ok s' ∧ out = [] := by
  unfold transferPosition at h
  simp only [bind_ok, pure_ok, Prod.mk.injEq, getPosition_ok, ite_error_ok] at h
  obtain ⟨pos, h1, ⟨s1, pos'⟩, h2, h3, s2, h4, h5, h6⟩ := h
  subst h5
  obtain ⟨_, _, hp, _⟩ := removePositionAt_inv h2
  rw [h1] at hp
  cases hp
  exact ⟨pos, s1, h1, h2, by simpa using h3, h4, h6.symm⟩

theorem transferNftInternal_inv {s s' : Store} {env : Env} {info : Info} {rcp id : Bytes}
    (h : transferNftInternal s env info rcp id = .ok s') :
    ∃ owner pos s1 p, tokenOwner id = .ok owner ∧ s.positions.get? id = some pos ∧
      checkCanSend s env info owner pos = .ok () ∧
      removePositionAt s owner (tokenIndex id) = .ok (s1, p) ∧
      addPosition s1 rcp { pos with approvals := [] } = .ok s' := by
  unfold transferNftInternal at h
  simp only [bind_ok, getPositionByKey_ok] at h
  obtain ⟨owner, h1, pos, h2, ⟨⟩, h3, ⟨s1, p⟩, h4, h5⟩ := h
  exact ⟨owner, pos, s1, p, h1, h2, h3, h4, h5⟩

theorem burn_inv {c : Chain} {s s' : Store} {env : Env} {info : Info} {id : Bytes} {out : List OutMsg}
    (h : burn c s env info id = .ok (s', out)) :
    ∃ owner pos, tokenOwner id = .ok owner ∧ s.positions.get? id = some pos ∧
      checkCanSend s env info owner pos = .ok () ∧
      removePosition c s env info (tokenIndex id) = .ok (s', out) := by
  unfold burn at h
  simp only [bind_ok, getPositionByKey_ok] at h
  obtain ⟨pos, h1, owner, h2, ⟨⟩, h3, h4⟩ := h
  exact ⟨owner, pos, h2, h1, h3, h4⟩

theorem updateApprovals_inv {s s' : Store} {env : Env} {info : Info} {sp id : Bytes} {add : Bool}
    {ex : Option Expiration} {out : List OutMsg}
    (h : updateApprovals s env info sp id add ex = .ok (s', out)) :
    ∃ owner pos, tokenOwner id = .ok owner ∧ s.positions.get? id = some pos ∧
      checkCanApprove s env info owner = .ok () ∧ out = [] ∧
      (add = true → (ex.getD .never).isExpired env = false) ∧
      s' = { s with positions := (s.positions.insert id
               { pos with approvals := (pos.approvals.filter (fun a => a.spender ≠ sp)) ++
                   (if add then [⟨sp, ex.getD .never⟩] else []) }) } := by
  unfold updateApprovals at h
  simp only [bind_ok, getPositionByKey_ok] at h
  obtain ⟨owner, h1, pos, h2, ⟨⟩, h3, h4⟩ := h
  refine ⟨owner, pos, h1, h2, h3, ?_⟩
  cases add
  · simp only [Bool.false_eq_true, if_false, pure_ok, Prod.mk.injEq] at h4
    refine ⟨h4.2.symm, by simp, ?_⟩
    rw [← h4.1]; simp
  · simp only [if_true, ite_error_ok, pure_ok, Prod.mk.injEq] at h4
    refine ⟨h4.2.2.symm, by simpa using h4.1, ?_⟩
    rw [← h4.2.1]; simp

theorem saveTicks_frame {k : PoolKey} : ∀ {l : List Tick} {s s' : Store}, saveTicks s k l = .ok s' →
    ∃ ticks, s' = { s with ticks := ticks }
  | [], s, s', h => by simp only [saveTicks, ok_inj] at h; exact ⟨s.ticks, h.symm⟩
  | t :: l, s, s', h => by
    simp only [saveTicks, bind_ok, updateTick_ok] at h
    obtain ⟨s1, ⟨_, h1⟩, h2⟩ := h
    obtain ⟨ticks, h3⟩ := saveTicks_frame h2
    subst h1
    exact ⟨ticks, h3⟩

theorem calculateSwap_inv {s : Store} {now : Nat} {k : PoolKey} {d : Bool} {amount : Nat}
    {b : Bool} {limit : Nat} {r : CalcSwapResult} (h : calculateSwap s now k d amount b limit = .ok r) :
    ∃ pool st, amount ≠ 0 ∧ s.pools.get? k.key = some pool ∧ k.tier.spacing ≠ 0 ∧
      (if d then limit < pool.sqrtPrice ∧ limit ≤ MAX_SQRT_PRICE
        else pool.sqrtPrice < limit ∧ MIN_SQRT_PRICE ≤ limit) ∧
      swapLoop s ⟨k, d, b, limit, now⟩ swapFuel
        { pool := pool, remaining := amount, totalIn := 0, totalOut := 0, fee := 0, ticks := [] } = .ok st ∧
      st.totalOut ≠ 0 ∧
      r = { amountIn := st.totalIn, amountOut := st.totalOut, startPrice := pool.sqrtPrice,
            targetPrice := st.pool.sqrtPrice, fee := st.fee, pool := st.pool, ticks := st.ticks } := by
  unfold calculateSwap at h
  simp only [ite_error_ok, bind_ok, getPool_ok, pure_ok] at h
  obtain ⟨h0, pool, h1, h2, h3, st, h4, h5, h6⟩ := h
  refine ⟨pool, st, h0, h1, h3, ?_, h4, h5, h6.symm⟩
  cases d <;> simp at h2 ⊢ <;> omega

theorem swapInternal_inv {c : Chain} {s : Store} {info : Info} {now : Nat} {k : PoolKey} {d : Bool}
    {amount : Nat} {b : Bool} {limit : Nat} {x : Store × List OutMsg × CalcSwapResult}
    (h : swapInternal c s info now k d amount b limit = .ok x) :
    ∃ s1 m1, calculateSwap s now k d amount b limit = .ok x.2.2 ∧ saveTicks s k x.2.2.ticks = .ok s1 ∧
      x.1 = savePool s1 k x.2.2.pool ∧
      assetTransferFrom c (if d then k.tokenX else k.tokenY) x.2.2.amountIn info = .ok m1 ∧
      x.2.1 = m1 ++ assetTransfer c (if d then k.tokenY else k.tokenX) x.2.2.amountOut info := by
  unfold swapInternal at h
  simp only [bind_ok, pure_ok] at h
  obtain ⟨r, h1, s1, h2, m1, h3, h4⟩ := h
  subst h4
  exact ⟨s1, m1, h1, h2, rfl, h3, rfl⟩

theorem swap_inv {c : Chain} {s s' : Store} {env : Env} {info : Info} {k : PoolKey} {d : Bool}
    {amount : Nat} {b : Bool} {limit : Nat} {out : List OutMsg}
    (h : swap c s env info k d amount b limit = .ok (s', out)) :
    ∃ r, swapInternal c s info env.millis k d amount b limit = .ok (s', out, r) := by
  unfold swap at h
  simp only [bind_ok, pure_ok, Prod.mk.injEq] at h
  obtain ⟨⟨a, b, r⟩, h1, h2, h3⟩ := h
  subst h2 h3
  exact ⟨r, h1⟩

theorem swapRoute_inv {c : Chain} {s s' : Store} {env : Env} {info : Info} {a e sl : Nat} {hops : List Hop}
    {out : List OutMsg} (h : swapRoute c s env info a e sl hops = .ok (s', out)) :
    ∃ fin m, swapRouteInternal c info env.millis hops s a [] = .ok (s', fin, out) ∧
      calculateMinAmountOut e sl = .ok m ∧ m ≤ fin := by
  unfold swapRoute at h
  simp only [bind_ok, pure_ok, ite_error_ok, Prod.mk.injEq] at h
  obtain ⟨⟨s1, fin, o⟩, h1, m, h2, h3, h4, h5⟩ := h
  subst h4 h5
  exact ⟨fin, m, h1, h2, by simpa using h3⟩

theorem Pool.updateLiquidity_inv {pool : Pool} {delta : Nat} {sign : Bool} {upper lower : Int}
    {q : Pool × Nat × Nat} (h : pool.updateLiquidity delta sign upper lower = .ok q) :
    ∃ r liq, calculateAmountDelta pool.tick pool.sqrtPrice delta sign upper lower = .ok r ∧
      (if r.2.2 then
        (if sign then pool.liquidity + delta < U128 ∧ liq = pool.liquidity + delta
          else delta ≤ pool.liquidity ∧ liq = pool.liquidity - delta)
        else liq = pool.liquidity) ∧
      q = ({ pool with liquidity := liq }, r.1, r.2.1) := by
  unfold Pool.updateLiquidity at h
  rw [bind_ok] at h
  obtain ⟨a, ha, h⟩ := h
  refine ⟨a, ?_⟩
  cases h1 : a.2.2 <;> cases sign
  · simp only [h1, if_false, Bool.false_eq_true, bind_ok, pure_ok] at h
    obtain ⟨liq, h2, h3⟩ := h
    exact ⟨liq, ha, by simp [h2], h3.symm⟩
  · simp only [h1, if_false, Bool.false_eq_true, bind_ok, pure_ok] at h
    obtain ⟨liq, h2, h3⟩ := h
    exact ⟨liq, ha, by simp [h2], h3.symm⟩
  · simp only [h1, if_true, if_false, Bool.false_eq_true, bind_ok, checkedSub_ok, pure_ok] at h
    obtain ⟨liq, ⟨h2, h3⟩, h4⟩ := h
    exact ⟨liq, ha, by simp only [if_true, if_false, Bool.false_eq_true]; exact ⟨h2, h3.symm⟩, h4.symm⟩
  · simp only [h1, if_true, bind_ok, checkedAdd_ok, pure_ok] at h
    obtain ⟨liq, ⟨h2, h3⟩, h4⟩ := h
    exact ⟨liq, ha, by simp only [if_true, if_false, Bool.false_eq_true]; exact ⟨h2, h3.symm⟩, h4.symm⟩

theorem Position.update_inv {p pos : Position} {sign : Bool} {delta inX inY : Nat}
    (h : p.update sign delta inX inY = .ok pos) :
    ∃ ox oy l, ¬ (delta = 0 ∧ p.liquidity = 0) ∧
      feeGrowthToFee (wsub inX p.fgInX) p.liquidity = .ok ox ∧
      feeGrowthToFee (wsub inY p.fgInY) p.liquidity = .ok oy ∧
      (if sign then p.liquidity + delta < U128 ∧ l = p.liquidity + delta
        else delta ≤ p.liquidity ∧ l = p.liquidity - delta) ∧
      p.owedX + ox < U128 ∧ p.owedY + oy < U128 ∧
      pos = { p with liquidity := l, fgInX := inX, fgInY := inY, owedX := p.owedX + ox,
                     owedY := p.owedY + oy } := by
  unfold Position.update at h
  simp only [ite_error_ok, bind_ok, add128_ok, pure_ok] at h
  obtain ⟨h0, ox, h1, oy, h2, l, h3, ax, ⟨h4, rfl⟩, ay, ⟨h5, rfl⟩, h6⟩ := h
  refine ⟨ox, oy, l, h0, h1, h2, ?_, h4, h5, h6.symm⟩
  unfold Position.newLiquidity at h3
  cases sign
  · simp only [Bool.false_eq_true, if_false, ite_error_ok, pure_ok] at h3 ⊢
    exact ⟨by omega, h3.2.symm⟩
  · simp only [if_true, checkedAdd_ok] at h3 ⊢
    exact ⟨h3.1, h3.2.symm⟩

theorem Position.modify_inv {p : Position} {pool : Pool} {upper lower : Tick} {delta : Nat} {add : Bool}
    {now ts : Nat} {r : ModifyRes} (h : p.modify pool upper lower delta add now ts = .ok r) :
    ∃ q : Pool × Nat × Nat,
      lower.update delta (maxLiquidityPerTick ts) false add = .ok r.lower ∧
      upper.update delta (maxLiquidityPerTick ts) true add = .ok r.upper ∧
      p.update add delta
        (feeGrowthInside r.lower.index r.lower.outX r.upper.index r.upper.outX pool.tick pool.fgX)
        (feeGrowthInside r.lower.index r.lower.outY r.upper.index r.upper.outY pool.tick pool.fgY)
        = .ok r.pos ∧
      Pool.updateLiquidity { pool with lastTs := now } delta add r.upper.index r.lower.index = .ok q ∧
      r.pool = q.1 ∧ r.x = q.2.1 ∧ r.y = q.2.2 := by
  unfold Position.modify at h
  simp only [bind_ok, pure_ok] at h
  obtain ⟨lo, h1, up, h2, pos, h3, q, hq, rfl⟩ := h
  exact ⟨q, h1, h2, h3, hq, rfl, rfl, rfl⟩

theorem Position.create_inv {pool : Pool} {k : PoolKey} {lower upper : Tick} {now L lo hi block ts : Nat}
    {r : ModifyRes} (h : Position.create pool k lower upper now L lo hi block ts = .ok r) :
    lo ≤ pool.sqrtPrice ∧ pool.sqrtPrice ≤ hi ∧
      Position.modify { poolKey := k, liquidity := 0, lower := lower.index, upper := upper.index,
                        fgInX := 0, fgInY := 0, lastBlock := block, owedX := 0, owedY := 0,
                        approvals := [] } pool upper lower L true now ts = .ok r := by
  unfold Position.create at h
  simp only [ite_error_ok] at h
  exact ⟨by omega, by omega, h.2⟩

theorem Position.claimFee_inv {p : Position} {pool : Pool} {upper lower : Tick} {now : Nat}
    {r : ModifyRes} (h : p.claimFee pool upper lower now = .ok r) :
    ∃ q, p.modify pool upper lower 0 true now p.poolKey.tier.spacing = .ok q ∧
      r = { q with pos := { q.pos with owedX := 0, owedY := 0 }, x := q.pos.owedX, y := q.pos.owedY } := by
  unfold Position.claimFee at h
  simp only [bind_ok, pure_ok] at h
  obtain ⟨q, hq, h⟩ := h
  exact ⟨q, hq, h.symm⟩

theorem Position.remove_inv {p : Position} {pool : Pool} {upper lower : Tick} {now ts : Nat}
    {r : ModifyRes} (h : p.remove pool now lower upper ts = .ok r) :
    ∃ q, p.modify pool upper lower p.liquidity false now ts = .ok q ∧
      q.x + q.pos.owedX < U128 ∧ q.y + q.pos.owedY < U128 ∧
      r = { q with x := q.x + q.pos.owedX, y := q.y + q.pos.owedY } := by
  unfold Position.remove at h
  simp only [bind_ok, pure_ok, add128_ok] at h
  obtain ⟨q, hq, x, ⟨h1, rfl⟩, y, ⟨h2, rfl⟩, h⟩ := h
  exact ⟨q, hq, h1, h2, h.symm⟩

theorem execute_ok {c : Chain} {env : Env} {info : Info} {msg : Msg} {s : Store} {r : Store × List OutMsg} :
    execute c env info msg s = .ok r ↔ msg.wf ∧ dispatch c env info msg s = .ok r := by
  unfold execute; exact ite_ok_error

end OraiV3
