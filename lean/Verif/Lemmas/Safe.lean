import Verif.SafeSpec
import Verif.Lemmas.Route
import Verif.Lemmas.Owes

/-!
# Lemmas/Safe: safe trades end regularly (for C80)
-/

namespace OraiV3

theorem AtEnds.used {s : Store} {k : PoolKey} {P : Int → Prop} (h : AtEnds s k P) {t : Int} (hu : UsedTick s k t) : P t := by
  obtain ⟨q, hq, rfl | rfl⟩ := hu
  · exact (h q hq).1
  · exact (h q hq).2

theorem safe_internal {c : Chain} {s : Store} {env : Env} {info : Info} {k : PoolKey} {d : Bool} {amount : Nat} {b : Bool}
    {limit : Nat} {x : Store × List OutMsg × CalcSwapResult} (hk : k.wf) (hm' : MReach c x.1)
    (hs : SafeTrade s env k d amount b limit) (h : swapInternal c s info env.millis k d amount b limit = .ok x) :
    RegularEnd x.1 k d b limit := by
  obtain ⟨_, _, h1, _⟩ := swapInternal_inv h
  obtain ⟨t, e1⟩ := swapInternal_frame h
  have epos : x.1.positions = s.positions := by rw [e1]
  have hp' : x.1.pools.get? k.key = some x.2.2.pool := by rw [e1]; exact KV.get?_insert_same _ _ _
  have hu : ∀ j, UsedTick x.1 k j ↔ UsedTick s k j := fun j => by unfold UsedTick positionsOf; rw [epos]
  have hok := hm'.price k _ hk hp'
  intro p hp
  have hpe : x.2.2.pool = p := Option.some.inj (hp'.symm.trans hp)
  rw [hpe] at hok
  unfold SafeTrade at hs
  cases d with
  | false =>
    rw [if_neg (by decide)] at hs
    refine ⟨fun e1 e2 => ?_, nofun⟩
    rw [if_neg (by decide), e1]
    exact hs.used ((hu _).1 e2)
  | true =>
    rw [if_pos rfl] at hs
    rcases hs with hb | hs
    · exact ⟨fun _ _ => by rw [if_pos rfl]; exact hb, fun _ hb' => absurd hb' (by rw [hb]; decide)⟩
    · unfold queryQuote at hs
      rw [h1, ok_bind] at hs
      replace hs : AtEnds s k (fun t => sqrtPriceAt t < x.2.2.pool.sqrtPrice ∨
        10 ^ 24 ≤ (sqrtPriceAt t - x.2.2.pool.sqrtPrice) * x.2.2.pool.sqrtPrice) := hs
      rw [hpe] at hs
      refine ⟨fun e1 e2 => ?_, fun _ _ e2 => ?_⟩
      · exfalso
        rcases hs.used ((hu _).1 e2) with h2 | h2
        · exact absurd h2 (by rw [e1]; exact Nat.lt_irrefl _)
        · rw [← e1, Nat.sub_self, Nat.zero_mul] at h2
          exact absurd h2 (by decide)
      · rcases hs.used ((hu _).1 e2) with h2 | h2
        · exfalso
          have hst := hm'.struct
          have htk : TickOk k.tier.spacing (p.tick + k.tier.spacing) := by
            obtain ⟨q, hq, hj⟩ := e2
            obtain ⟨hq1, hq2⟩ := mem_positionsOf.1 hq
            obtain ⟨id, hid⟩ := memPos hq1
            have := hst.positions id q hid
            rw [← hq2]
            rcases hj with hj | hj
            · rw [hq2, ← hj]; exact hq2 ▸ this.lower
            · rw [hq2, ← hj]; exact hq2 ▸ this.upper
          have hle : p.tick + k.tier.spacing ≤ getMaxTick k.tier.spacing := (by have := TickOk_iff.1 htk; omega)
          have hts := (hst.tier hk hp').1
          have := hok.hi (by omega)
          omega
        · exact h2

/-- A safe route ends regularly, hop after hop. -/
theorem safe_route {c : Chain} {P : PoolKey → Prop} {env : Env} {info : Info} : ∀ (hops : List Hop) (s : Store) (a : Nat), Reach c s →
    (∀ h ∈ hops, h.poolKey.wf) → a < U128 → SafeRoute c P env info hops s a → RegularRoute c P info env.millis hops s a
  | [], _, _, _, _, _, _ => trivial
  | h :: hs, s, a, hr, hw, ha, hsafe => by
    intro r hx
    have hh := hw h (List.mem_cons_self ..)
    obtain ⟨h5, h6⟩ := (hop_call (b := r.2.2.amountOut) hh ha).2 ⟨r.2.2, hx, rfl⟩
    have hr' : Reach c r.1 := .step hr h5
    refine ⟨fun hP => safe_internal hh hr'.mreach (hsafe.1 hP) hx, ?_⟩
    exact safe_route hs r.1 r.2.2.amountOut hr' (fun x hx' => hw x (List.mem_cons_of_mem _ hx')) (swapInternal_out_lt hx)
      (hsafe.2 _ _ _ h5 h6)

/-- A safe call is regular. -/
theorem safe_call {c : Chain} {P : PoolKey → Prop} {env : Env} {info : Info} {s s' : Store} {msg : Msg} {out : List OutMsg} (hr : Reach c s)
    (hs : SafeCall c P env info s msg) (h : execute c env info msg s = .ok (s', out)) : RegularCall c P env info s s' msg := by
  have hw := (execute_ok.1 h).1
  have hd := (execute_ok.1 h).2
  have hr' : Reach c s' := .step hr h
  cases msg with
  | swap k d amount b limit =>
    obtain ⟨r, hx⟩ := swap_inv hd
    exact fun hP => safe_internal hw.1 (x := (s', out, r)) hr'.mreach (hs hP) hx
  | swapRoute amount e sl hops => exact safe_route hops s amount hr hw.2.2.2 hw.1 hs
  | _ => trivial

end OraiV3
