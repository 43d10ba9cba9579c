import Verif.ExitSpec
import Verif.Props.Trace

/-!
# Calls of several accounts in one block
-/

namespace OraiV3

theorem runCalls_append (c : Chain) (xs ys : List (Env × Info × Msg)) (s : Store) :
    runCalls c (xs ++ ys) s =
      ((runCalls c ys (runCalls c xs s).1).1, (runCalls c xs s).2 ++ (runCalls c ys (runCalls c xs s).1).2) := by
  induction xs generalizing s with
  | nil => rfl
  | cons x xs ih =>
    obtain ⟨env, info, msg⟩ := x
    rw [List.cons_append, runCalls, runCalls]
    cases execute c env info msg s with
    | error e => simp only [ih, List.cons_append]
    | ok r => simp only [ih, List.cons_append]

theorem runCalls_length (c : Chain) (xs : List (Env × Info × Msg)) (s : Store) : (runCalls c xs s).2.length = xs.length := by
  induction xs generalizing s with
  | nil => rfl
  | cons x xs ih =>
    obtain ⟨env, info, msg⟩ := x
    unfold runCalls
    cases execute c env info msg s with
    | error e => simp only [List.length_cons, ih]
    | ok r => simp only [List.length_cons, ih]

theorem SameView.trans {a b d : Store} (h : SameView a b) (h' : SameView b d) : SameView a d :=
  ⟨h'.config.trans h.config, h'.operators.trans h.operators, fun k => (h'.pools k).trans (h.pools k),
    fun k => (h'.ticks k).trans (h.ticks k), fun k => (h'.bitmap k).trans (h.bitmap k), fun k => (h'.positions k).trans (h.positions k),
    fun k => (h'.posLen k).trans (h.posLen k)⟩

theorem SameView.refl (s : Store) : SameView s s :=
  ⟨rfl, rfl, fun _ => rfl, fun _ => rfl, fun _ => rfl, fun _ => rfl, fun _ => rfl⟩

theorem Batch.forward {env : Env} (es : Batch) {calls : List (Env × Info × Msg)} (h : Forward (env :: calls.map (·.1))) :
    Forward (env :: ((es.calls env) ++ calls).map (·.1)) := by
  induction es with
  | nil => exact h
  | cons e es ih =>
    unfold Forward Batch.calls at *
    rw [List.map_cons, List.cons_append, List.map_cons, List.pairwise_cons]
    refine ⟨fun x hx => ?_, ih⟩
    rw [List.mem_cons] at hx
    rcases hx with rfl | hx
    · exact Nat.le_refl _
    · exact (List.pairwise_cons.1 ih).1 x hx

/-- If two neighbouring calls can be exchanged, all can be made in any order. -/
theorem Batch.any_order {c : Chain} {env : Env} {P : Msg → Prop}
    (hswap : ∀ {s s1 s2 : Store} {x y : Info × Msg} {ox oy : List OutMsg}, TimedReach c env.millis s → x.1.sender ≠ y.1.sender →
      P x.2 → P y.2 → execute c env x.1 x.2 s = .ok (s1, ox) → execute c env y.1 y.2 s1 = .ok (s2, oy) →
      ∃ s1' s2', execute c env y.1 y.2 s = .ok (s1', oy) ∧ execute c env x.1 x.2 s1' = .ok (s2', ox) ∧ NoTrace s2 s2')
    {es es' : Batch} (hp : es.Perm es') (hP : ∀ e ∈ es, P e.2) (hd : (es.map (·.1.sender)).Nodup) {s : Store}
    (hr : TimedReach c env.millis s) (hok : ∀ r ∈ (runCalls c (es.calls env) s).2, r.isOk)
    (calls : List (Env × Info × Msg)) (hf : Forward (env :: calls.map (·.1))) :
    (∀ r ∈ (runCalls c (es'.calls env) s).2, r.isOk) ∧ (Batch.results c env es' s).Perm (Batch.results c env es s) ∧
    (runCalls c calls (runCalls c (es'.calls env) s).1).2 = (runCalls c calls (runCalls c (es.calls env) s).1).2 ∧
    SameView (runCalls c calls (runCalls c (es.calls env) s).1).1 (runCalls c calls (runCalls c (es'.calls env) s).1).1 := by
  induction hp generalizing s with
  | nil => exact ⟨hok, List.Perm.refl _, rfl, SameView.refl _⟩
  | @cons x l l' hp ih =>
    rw [List.map_cons, List.nodup_cons] at hd
    unfold Batch.results
    simp only [Batch.calls, List.map_cons] at hok ih ⊢
    cases h : execute c env x.1 x.2 s with
    | error e =>
      rw [runCalls, h] at hok
      have := hok (.error e) (by simp)
      simp [Except.isOk, Except.toBool] at this
    | ok r =>
      obtain ⟨s1, o⟩ := r
      have one : ∀ l : Batch, runCalls c ((env, x.1, x.2) :: List.map (fun e => (env, e.1, e.2)) l) s =
          ((runCalls c (List.map (fun e => (env, e.1, e.2)) l) s1).1,
            .ok o :: (runCalls c (List.map (fun e => (env, e.1, e.2)) l) s1).2) := by
        intro l
        rw [runCalls, h]
      rw [one] at hok
      rw [one, one]
      simp only at hok ⊢
      obtain ⟨i1, i2, i3, i4⟩ := ih (fun e he => hP e (List.mem_cons_of_mem _ he)) hd.2 (s := s1) (.call hr rfl h) (fun r hr => hok r (List.mem_cons_of_mem _ hr))
      refine ⟨fun r hr => ?_, ?_, i3, i4⟩
      · rw [List.mem_cons] at hr
        rcases hr with rfl | hr
        · rfl
        · exact i1 r hr
      · rw [List.zip_cons_cons, List.zip_cons_cons]
        exact i2.cons _
  | swap x y l =>
    have hne : y.1.sender ≠ x.1.sender := by
      intro e
      simp [e] at hd
    have hx : ∀ (a b : Info × Msg) (t : Store), runCalls c (Batch.calls env (a :: b :: l)) t =
        runCalls c ((env, a.1, a.2) :: (env, b.1, b.2) :: Batch.calls env l) t := fun _ _ _ => rfl
    unfold Batch.results
    rw [hx, hx] at *
    cases h : execute c env y.1 y.2 s with
    | error e =>
      unfold runCalls at hok
      rw [h] at hok
      have := hok (.error e) (by simp)
      simp [Except.isOk, Except.toBool] at this
    | ok r =>
      obtain ⟨s1, oy⟩ := r
      cases h2 : execute c env x.1 x.2 s1 with
      | error e =>
        unfold runCalls at hok
        rw [h] at hok
        simp only at hok
        unfold runCalls at hok
        rw [h2] at hok
        have := hok (.error e) (by simp)
        simp [Except.isOk, Except.toBool] at this
      | ok r =>
        obtain ⟨s2, ox⟩ := r
        obtain ⟨s1', s2', hx', hy', hn⟩ := hswap hr hne (hP y (by simp)) (hP x (by simp)) h h2
        have two : ∀ {a b : Info × Msg} {t t1 t2 : Store} {oa ob : List OutMsg},
            execute c env a.1 a.2 t = .ok (t1, oa) → execute c env b.1 b.2 t1 = .ok (t2, ob) →
            runCalls c ((env, a.1, a.2) :: (env, b.1, b.2) :: Batch.calls env l) t =
              ((runCalls c (Batch.calls env l) t2).1, .ok oa :: .ok ob :: (runCalls c (Batch.calls env l) t2).2) := by
          intro a b t t1 t2 oa ob ha hb
          rw [runCalls, ha]
          simp only
          rw [runCalls, hb]
        rw [two h h2] at hok ⊢
        rw [two hx' hy']
        simp only
        obtain ⟨f1, f2⟩ := hn.future (.call (.call hr rfl h) rfl h2) (Batch.calls env l ++ calls) (Batch.forward l hf)
        rw [runCalls_append, runCalls_append] at f1 f2
        simp only at f1 f2
        obtain ⟨g1, g2⟩ := List.append_inj f1 (by rw [runCalls_length, runCalls_length])
        refine ⟨fun r hr => ?_, ?_, g2, f2⟩
        · rw [List.mem_cons, List.mem_cons, g1] at hr
          refine hok r ?_
          rw [List.mem_cons, List.mem_cons]
          rcases hr with e | e | e
          · exact .inr (.inl e)
          · exact .inl e
          · exact .inr (.inr e)
        · rw [g1]
          simp only [List.zip_cons_cons]
          exact List.Perm.swap _ _ _
  | trans p1 p2 ih1 ih2 =>
    obtain ⟨a1, a2, a3, a4⟩ := ih1 hP hd hr hok
    obtain ⟨b1, b2, b3, b4⟩ := ih2 (fun e he => hP e (p1.mem_iff.2 he)) ((p1.map _).nodup_iff.1 hd) hr a1
    exact ⟨b1, b2.trans a2, b3.trans a3, a4.trans b4⟩

end OraiV3
