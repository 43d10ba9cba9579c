import Verif.Spec

/-!
# Examples: concrete histories used to show that theorems are not vacuous and as counterexamples
-/

namespace OraiV3.Demo

/-- Contract address `[0]`; every string is an address, so every token is a cw20 token. -/
def chain : Chain := ⟨[0], fun _ => true⟩
/-- A chain on which no token string is an address: every token is a native coin. -/
def nativeChain : Chain := ⟨[0], fun _ => false⟩
def env : Env := ⟨1, 10 ^ 18⟩
def alice : Bytes := [1]
def bob : Bytes := [2]
def carol : Bytes := [3]
def by_ (who : Bytes) : Info := ⟨who, []⟩
def tier : FeeTier := ⟨10 ^ 10, 10⟩
def key : PoolKey := ⟨[97], [98], tier⟩

/-- Run calls one after the other, all must succeed. -/
def run (c : Chain) : List (Info × Msg) → Store → M Store
  | [], s => .ok s
  | (i, m) :: ms, s => do
    let r ← execute c env i m s
    run c ms r.1

theorem run_reach (c : Chain) : ∀ (ms : List (Info × Msg)) (s s' : Store), Reach c s → run c ms s = .ok s' → Reach c s'
  | [], s, s', hs, h => by
    have : s = s' := by simpa [run] using h
    exact this ▸ hs
  | (i, m) :: ms, s, s', hs, h => by
    unfold run at h
    cases he : execute c env i m s with
    | error e => rw [he] at h; simp [bind, Except.bind] at h
    | ok r => rw [he] at h; exact run_reach c ms r.1 s' (.step hs he) h

/-- A pool of the two tokens at price 1 with a first position of Alice's. -/
def setup : List (Info × Msg) :=
  [(by_ alice, .addFeeTier tier),
   (by_ alice, .createPool [97] [98] tier (10 ^ 24) 0),
   (by_ alice, .createPosition key (-10) 10 (10 ^ 12) 0 (10 ^ 30))]

/-- The storage the calls lead to (the empty storage if one of them fails). -/
def state (c : Chain) (ms : List (Info × Msg)) : Store :=
  match run c ms (instantiate alice 0) with | .ok s => s | .error _ => Store.empty

/-- Do all the calls succeed? -/
def works (c : Chain) (ms : List (Info × Msg)) : Bool := (run c ms (instantiate alice 0)).isOk

theorem state_reach {c : Chain} {ms : List (Info × Msg)} (h : works c ms = true) : Reach c (state c ms) := by
  unfold works at h
  unfold state
  cases hr : run c ms (instantiate alice 0) with
  | error e => rw [hr] at h; simp [Except.isOk, Except.toBool] at h
  | ok s => exact run_reach c ms _ _ (.init _ _ (by decide)) hr

example : works chain (setup ++ [(by_ bob, .createPosition key (-20) (-10) (10 ^ 33) 0 (10 ^ 30)),
   (by_ bob, .swap key true 800 true MIN_SQRT_PRICE)]) = true := by decide +kernel

end OraiV3.Demo
