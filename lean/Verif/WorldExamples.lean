import Verif.Solvency
import Verif.Props.Active

/-!
# WorldExamples: concrete histories with balances
-/

namespace OraiV3

/-- Histories of contract and balances, without any restriction on the calls. -/
inductive WorldReach (c : Chain) : World → Prop where
  | init (sender : Bytes) (fee : Nat) (h : fee < U64) (l : Ledger) : WorldReach c ⟨instantiate sender fee, l⟩
  | call {w w' : World} {env : Env} {info : Info} {msg : Msg} : WorldReach c w → w.tx c env info msg = .ok w' → WorldReach c w'

namespace Demo

/-- Run transactions one after the other, all must succeed. -/
def runW (c : Chain) : List (Info × Msg) → World → M World
  | [], w => .ok w
  | (i, m) :: ms, w => do
    let w ← w.tx c env i m
    runW c ms w

/-- The contract has nothing, everybody else has plenty. -/
def fair : Ledger := ⟨fun _ h => if h = [0] then 0 else 10 ^ 30, fun _ _ => 10 ^ 30⟩

/-- A fresh contract of Alice's. -/
def fresh : World := ⟨instantiate alice 0, fair⟩

/-- The world the calls lead to. -/
def world (c : Chain) (ms : List (Info × Msg)) : World := match runW c ms fresh with | .ok w => w | .error _ => fresh

def worksW (c : Chain) (ms : List (Info × Msg)) : Bool := (runW c ms fresh).isOk

theorem runW_reach (c : Chain) : ∀ (ms : List (Info × Msg)) (w w' : World), WorldReach c w → runW c ms w = .ok w' → WorldReach c w'
  | [], w, w', hs, h => by
    have : w = w' := by simpa [runW] using h
    exact this ▸ hs
  | (i, m) :: ms, w, w', hs, h => by
    unfold runW at h
    cases he : w.tx c env i m with
    | error e => rw [he] at h; simp [bind, Except.bind] at h
    | ok r => rw [he] at h; exact runW_reach c ms r w' (.call hs he) h

theorem world_run {c : Chain} {ms : List (Info × Msg)} (h : worksW c ms = true) : runW c ms fresh = .ok (world c ms) := by
  unfold worksW at h
  unfold world
  cases hr : runW c ms fresh with
  | error e => rw [hr] at h; simp [Except.isOk, Except.toBool] at h
  | ok s => rfl

theorem world_reach {c : Chain} {ms : List (Info × Msg)} (h : worksW c ms = true) : WorldReach c (world c ms) :=
  runW_reach c ms _ _ (.init _ _ (by decide) _) (world_run h)

/-- Is the call regular?  (Routes are not allowed.) -/
def regularMsg (s : Store) : Msg → Bool
  | .swap k d _ b limit => decide (RegularEnd s k d b limit)
  | .swapRoute _ _ _ _ => false
  | _ => true

/-- Single calls whose swaps end regularly (routes are not allowed), and how often they round. -/
def countW (c : Chain) : List (Info × Msg) → World → Option Nat
  | [], _ => some 0
  | (i, m) :: ms, w =>
    match w.tx c env i m with
    | .error _ => none
    | .ok w' =>
      if i.sender = c.self then none
      else if regularMsg w'.store m then (countW c ms w').map (fun n => roundings c env i w.store m + n) else none

theorem countW_history (c : Chain) (T : Bytes → Prop) : ∀ (ms : List (Info × Msg)) (w w' : World) (n m : Nat), History c T w n →
    countW c ms w = some m → runW c ms w = .ok w' → History c T w' (n + m)
  | [], w, w', n, m, hs, hc, h => by
    have : w = w' := by simpa [runW] using h
    simp only [countW, Option.some.injEq] at hc
    subst hc
    exact this ▸ hs
  | (i, msg) :: ms, w, w', n, m, hs, hc, h => by
    unfold runW at h
    unfold countW at hc
    cases he : w.tx c env i msg with
    | error e => rw [he] at h; simp [bind, Except.bind] at h
    | ok r =>
      rw [he] at h hc
      simp only at hc
      split at hc
      · simp at hc
      · rename_i hne
        split at hc
        · rename_i hreg
          rw [Option.map_eq_some_iff] at hc
          obtain ⟨m', h1, h2⟩ := hc
          rw [← h2, ← Nat.add_assoc]
          refine countW_history c T ms r w' _ m' (.call hs hne he ?_ ?_) h1 h
          · cases msg <;> simp_all [RegularCall, regularMsg]
          · cases msg <;> simp_all [ChargedOnce, regularMsg]
        · simp at hc

theorem world_history {c : Chain} {T : Bytes → Prop} {ms : List (Info × Msg)} {n : Nat} (h : worksW c ms = true) (hn : countW c ms fresh = some n) :
    History c T (world c ms) n := by
  have := countW_history c T ms fresh _ 0 n (.init _ _ (by decide) _) hn (world_run h)
  rwa [Nat.zero_add] at this

end Demo

end OraiV3
