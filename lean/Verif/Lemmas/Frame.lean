import Verif.Lemmas.PosOps

/-!
# Calls on one pool leave the other pools alone
-/

namespace OraiV3

/-- Pool record, ticks and bitmap of a pool are the same. -/
def PoolFrame (k : PoolKey) (s s' : Store) : Prop :=
  s'.pools.get? k.key = s.pools.get? k.key ∧ (∀ i, s'.ticks.get? (tickKey k i) = s.ticks.get? (tickKey k i)) ∧
  ∀ c, s'.bitmap.get? (bitmapKey c k) = s.bitmap.get? (bitmapKey c k)

theorem PoolFrame.refl (k : PoolKey) (s : Store) : PoolFrame k s s := ⟨rfl, fun _ => rfl, fun _ => rfl⟩

theorem PoolFrame.trans {k : PoolKey} {s s1 s2 : Store} (h : PoolFrame k s s1) (h' : PoolFrame k s1 s2) :
    PoolFrame k s s2 :=
  ⟨h'.1.trans h.1, fun i => (h'.2.1 i).trans (h.2.1 i), fun i => (h'.2.2 i).trans (h.2.2 i)⟩

theorem PoolFrame.of_eq {k : PoolKey} {s s' : Store} (h1 : s'.pools = s.pools) (h2 : s'.ticks = s.ticks)
    (h3 : s'.bitmap = s.bitmap) : PoolFrame k s s' := ⟨by rw [h1], fun _ => by rw [h2], fun _ => by rw [h3]⟩

theorem tickKey_ne {k k' : PoolKey} (hk : k.wf) (hk' : k'.wf) (h : k ≠ k') (i j : Int) : tickKey k i ≠ tickKey k' j := by
  intro e
  unfold tickKey at e
  exact h (PoolKey.key_inj hk hk' (List.append_inj' e (by simp [i32Bytes, beBytes_length])).1)

theorem bitmapKey_ne {k k' : PoolKey} (hk : k.wf) (hk' : k'.wf) (h : k ≠ k') (i j : Nat) :
    bitmapKey i k ≠ bitmapKey j k' := by
  intro e
  unfold bitmapKey at e
  exact h (PoolKey.key_inj hk hk' (List.append_inj e (by simp [beBytes_length])).2)

theorem key_ne {k k' : PoolKey} (hk : k.wf) (hk' : k'.wf) (h : k ≠ k') : k.key ≠ k'.key :=
  fun e => h (PoolKey.key_inj hk hk' e)

theorem savePool_frame {k k' : PoolKey} (hk : k.wf) (hk' : k'.wf) (h : k ≠ k') (s : Store) (p : Pool) :
    PoolFrame k s (savePool s k' p) :=
  ⟨KV.get?_insert_other _ _ (key_ne hk hk' h), fun _ => rfl, fun _ => rfl⟩

theorem updateTick_frame' {k k' : PoolKey} (hk : k.wf) (hk' : k'.wf) (h : k ≠ k') {s s' : Store} {i : Int} {t : Tick}
    (hu : updateTick s k' i t = .ok s') : PoolFrame k s s' := by
  obtain ⟨_, rfl⟩ := updateTick_ok.1 hu
  exact ⟨rfl, fun _ => KV.get?_insert_other _ _ (tickKey_ne hk hk' h _ _), fun _ => rfl⟩

theorem saveTicks_frame' {k k' : PoolKey} (hk : k.wf) (hk' : k'.wf) (h : k ≠ k') :
    ∀ {l : List Tick} {s s' : Store}, saveTicks s k' l = .ok s' → PoolFrame k s s'
  | [], s, s', hu => by simp only [saveTicks, ok_inj] at hu; exact hu ▸ .refl _ _
  | t :: l, s, s', hu => by
    simp only [saveTicks, bind_ok] at hu
    obtain ⟨s1, h1, h2⟩ := hu
    exact (updateTick_frame' hk hk' h h1).trans (saveTicks_frame' hk hk' h h2)

theorem swapInternal_frame' {c : Chain} {s : Store} {info : Info} {now : Nat} {k k' : PoolKey} {d : Bool}
    {amount : Nat} {b : Bool} {limit : Nat} {x : Store × List OutMsg × CalcSwapResult}
    (hk : k.wf) (hk' : k'.wf) (hne : k ≠ k')
    (h : swapInternal c s info now k' d amount b limit = .ok x) : PoolFrame k s x.1 := by
  obtain ⟨s1, m1, h1, h2, h3, _, _⟩ := swapInternal_inv h
  rw [h3]
  exact (saveTicks_frame' hk hk' hne h2).trans (savePool_frame hk hk' hne _ _)

theorem swapRouteInternal_frame' {c : Chain} {info : Info} {now : Nat} {k : PoolKey} (hk : k.wf) :
    ∀ {hops : List Hop} {s s' : Store} {a fin : Nat} {m out : List OutMsg}, (∀ h ∈ hops, h.poolKey.wf) →
    (∀ h ∈ hops, k ≠ h.poolKey) →
    swapRouteInternal c info now hops s a m = .ok (s', fin, out) → PoolFrame k s s'
  | [], s, s', a, fin, m, out, _, _, h => by
    simp only [swapRouteInternal, ok_inj, Prod.mk.injEq] at h
    exact h.1 ▸ .refl _ _
  | hh :: hops, s, s', a, fin, m, out, hw, hn, h => by
    simp only [swapRouteInternal, bind_ok] at h
    obtain ⟨x, h1, h2⟩ := h
    exact (swapInternal_frame' hk (hw hh (by simp)) (hn hh (by simp)) h1).trans
      (swapRouteInternal_frame' hk (fun h hh => hw h (by simp [hh])) (fun h hh => hn h (by simp [hh])) h2)

theorem flipBitmap_frame' {k k' : PoolKey} (hk : k.wf) (hk' : k'.wf) (h : k ≠ k') {s s' : Store} {v : Bool} {t : Int}
    {ts : Nat} (hu : flipBitmap s v t ts k' = .ok s') : PoolFrame k s s' := by
  obtain ⟨c, _, _, rfl⟩ := flipBitmap_inv hu
  exact ⟨rfl, fun _ => rfl, fun _ => KV.get?_insert_other _ _ (bitmapKey_ne hk hk' h _ _)⟩

theorem getOrCreateTick_frame' {k k' : PoolKey} (hk : k.wf) (hk' : k'.wf) (h : k ≠ k') {s : Store} {now : Nat} {i : Int}
    {r : Store × Tick} (hu : getOrCreateTick s now k' i = .ok r) : PoolFrame k s r.1 := by
  rcases getOrCreateTick_inv hu with ⟨_, h2⟩ | ⟨_, h2⟩
  · rw [h2]; exact .refl _ _
  · obtain ⟨pool', c, h3, h4, h5, h6, h7, h8, h9⟩ := createTick_inv h2
    rw [h9]
    exact ⟨rfl, fun _ => KV.get?_insert_other _ _ (tickKey_ne hk hk' h _ _),
      fun _ => KV.get?_insert_other _ _ (bitmapKey_ne hk hk' h _ _)⟩

theorem settleTick_frame' {k k' : PoolKey} (hk : k.wf) (hk' : k'.wf) (h : k ≠ k') {s s' : Store} {i : Int} {t : Tick}
    (hu : settleTick s k' i t = .ok s') : PoolFrame k s s' := by
  rcases settleTick_inv hu with ⟨_, h1⟩ | ⟨_, h1⟩
  · obtain ⟨_, c, h2, h3, h4, h5⟩ := removeTickAndFlip_inv h1
    rw [h5]
    refine ⟨rfl, fun i => ?_, fun _ => KV.get?_insert_other _ _ (bitmapKey_ne hk hk' h _ _)⟩
    show (s.ticks.erase _).get? _ = _
    rw [KV.get?_erase, if_neg (tickKey_ne hk hk' h _ _)]
  · exact updateTick_frame' hk hk' h h1

theorem createPosition_frame' {c : Chain} {s s' : Store} {env : Env} {info : Info} {k k' : PoolKey}
    {l u : Int} {L lo hi : Nat} {out : List OutMsg} (hk : k.wf) (hk' : k'.wf) (hne : k ≠ k')
    (h : createPosition c s env info k' l u L lo hi = .ok (s', out)) : PoolFrame k s s' := by
  obtain ⟨pool, rl, ru, r, s1, s2, m1, m2, hL0, hlu, hp, h1, h2, h3, h4, h5, h6, h7, h8, h9⟩ := createPosition_inv h
  refine (getOrCreateTick_frame' hk hk' hne h1).trans ((getOrCreateTick_frame' hk hk' hne h2).trans
    ((savePool_frame hk hk' hne _ r.pool).trans (.trans ?_ ((updateTick_frame' hk hk' hne h5).trans
      (updateTick_frame' hk hk' hne h6)))))
  obtain ⟨_, rfl⟩ := addPosition_ok.1 h4
  exact .of_eq rfl rfl rfl

theorem claimFee_frame' {c : Chain} {s s' : Store} {env : Env} {info : Info} {i : Nat} {out : List OutMsg} {k : PoolKey}
    (hs : Struct s) (hk : k.wf) (hne : ∀ p, s.positions.get? (positionKey info.sender i) = some p → k ≠ p.poolKey)
    (h : claimFee c s env info i = .ok (s', out)) : PoolFrame k s s' := by
  obtain ⟨pos, lower, upper, pool, r, s1, s2, hp, hl, hu, hpool, h1, h2, h3, h4, h5⟩ := claimFee_inv h
  have hk' := (hs.positions _ _ hp).kwf
  have hne := hne _ hp
  obtain ⟨_, rfl⟩ := updatePosition_ok.1 h2
  exact (PoolFrame.of_eq rfl rfl rfl).trans ((savePool_frame hk hk' hne _ r.pool).trans
    ((updateTick_frame' hk hk' hne h3).trans (updateTick_frame' hk hk' hne h4)))

theorem removePosition_frame' {c : Chain} {s s' : Store} {env : Env} {info : Info} {i : Nat} {out : List OutMsg} {k : PoolKey}
    (hs : Struct s) (hk : k.wf) (hne : ∀ p, s.positions.get? (positionKey info.sender i) = some p → k ≠ p.poolKey)
    (h : removePosition c s env info i = .ok (s', out)) : PoolFrame k s s' := by
  obtain ⟨pos, lower, upper, pool, r, s1, s2, pos', hp, hl, hu, hpool, h1, h2, h3, h4, h5⟩ := removePosition_inv h
  have hk' := (hs.positions _ _ hp).kwf
  have hne := hne _ hp
  obtain ⟨ps, pl, e⟩ := removePositionAt_frame h4
  exact (savePool_frame hk hk' hne _ r.pool).trans ((settleTick_frame' hk hk' hne h2).trans
    ((settleTick_frame' hk hk' hne h3).trans (by rw [e]; exact .of_eq rfl rfl rfl)))

end OraiV3
