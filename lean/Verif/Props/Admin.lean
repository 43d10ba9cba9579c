import Verif.AdminSpec
import Verif.Examples
import Verif.Props.Access

/-!
# C67: administrative calls do exactly what they say
-/

namespace OraiV3

/-- **C67**, effect.  After every successful call the settings are those of `settingsAfter` (so only the four calls listed there
change them), and each pool has the fee receiver of `receiverAfter`. -/
theorem C67_effect {c : Chain} {env : Env} {info : Info} {msg : Msg} {s s' : Store} {out : List OutMsg} {cfg : Config}
    (hc : s.config = some cfg) (h : execute c env info msg s = .ok (s', out)) :
    s'.config = some (settingsAfter cfg msg) ∧
    ∀ key p, s.pools.get? key = some p →
      ∃ p', s'.pools.get? key = some p' ∧ p'.feeReceiver = receiverAfter key p.feeReceiver msg := by
  constructor
  · by_cases hm : msg.isConfig = true
    · replace h := (execute_ok.1 h).2
      cases msg <;> simp only [Msg.isConfig, Bool.false_eq_true] at hm <;> simp only [dispatch] at h
      case changeAdmin =>
        simp only [changeAdmin, bind_ok, ite_error_ok, loadConfig_ok, hc, pure_ok, Prod.mk.injEq] at h
        obtain ⟨_, h1, _, h2, _⟩ := h
        cases h1; rw [← h2]; rfl
      case changeProtocolFee =>
        simp only [changeProtocolFee, bind_ok, ite_error_ok, loadConfig_ok, hc, pure_ok, Prod.mk.injEq] at h
        obtain ⟨_, h1, _, h2, _⟩ := h
        cases h1; rw [← h2]; rfl
      case addFeeTier =>
        simp only [addFeeTier, bind_ok, ite_error_ok, loadConfig_ok, hc, pure_ok, Prod.mk.injEq] at h
        obtain ⟨_, h1, _, _, _, h2, _⟩ := h
        cases h1; rw [← h2]; rfl
      case removeFeeTier =>
        simp only [removeFeeTier, bind_ok, ite_error_ok, loadConfig_ok, hc] at h
        obtain ⟨_, h1, _, h2⟩ := h
        cases h1
        split at h2
        · rw [pure_ok, Prod.mk.injEq] at h2; rw [← h2.1]; rfl
        · simp at h2
    · rw [execute_config h (by simpa using hm), hc]
      cases msg <;> simp [Msg.isConfig] at hm <;> rfl
  · intro key p hp
    obtain ⟨q, hq, hr⟩ := execute_pools h key p hp
    refine ⟨q, hq, ?_⟩
    by_cases hm : ∃ k r, msg = .changeFeeReceiver k r
    · obtain ⟨k, r, rfl⟩ := hm
      show q.feeReceiver = if k.key = key then r else p.feeReceiver
      by_cases hk : k.key = key
      · subst hk
        rw [if_pos rfl]
        replace h := (execute_ok.1 h).2
        simp only [dispatch, changeFeeReceiver, bind_ok, ite_error_ok, pure_ok, Prod.mk.injEq, savePool] at h
        obtain ⟨_, _, _, _, _, h, _⟩ := h
        rw [← h] at hq
        simp only [KV.get?_insert, if_true, Option.some.injEq] at hq
        rw [← hq]
      · rw [if_neg hk]
        rcases hr.2.1 with e | ⟨k', e, e'⟩
        · exact e
        · cases e; exact absurd e' hk
    · rcases hr.2.1 with e | ⟨k', e, _⟩
      · cases msg
        case changeFeeReceiver k r => exact absurd ⟨k, r, rfl⟩ hm
        all_goals exact e
      · exact absurd ⟨_, _, e⟩ hm

/-- **C14**, each setting has its call.  The admin changes only by `ChangeAdmin`, the protocol fee only by `ChangeProtocolFee`,
the fee tiers only by `AddFeeTier` and `RemoveFeeTier`, the fee receiver of a pool only by `ChangeFeeReceiver` for that pool, and
recorded protocol fees are taken only by `WithdrawProtocolFee` for that pool. -/
theorem C14_only_these_calls {c : Chain} {env : Env} {info : Info} {msg : Msg} {s s' : Store} {out : List OutMsg} {cfg cfg' : Config}
    (hc : s.config = some cfg) (hc' : s'.config = some cfg') (h : execute c env info msg s = .ok (s', out)) :
    (cfg'.admin ≠ cfg.admin → ∃ a, msg = .changeAdmin a) ∧
    (cfg'.protocolFee ≠ cfg.protocolFee → ∃ f, msg = .changeProtocolFee f) ∧
    (cfg'.feeTiers ≠ cfg.feeTiers → ∃ t, msg = .addFeeTier t ∨ msg = .removeFeeTier t) ∧
    ∀ key p p', s.pools.get? key = some p → s'.pools.get? key = some p' →
      (p'.feeReceiver ≠ p.feeReceiver → ∃ k r, k.key = key ∧ msg = .changeFeeReceiver k r) ∧
      (p'.protoX < p.protoX ∨ p'.protoY < p.protoY → ∃ k, k.key = key ∧ msg = .withdrawProtocolFee k) := by
  obtain ⟨h1, h2⟩ := C67_effect hc h
  rw [hc', Option.some.injEq] at h1
  subst h1
  refine ⟨fun hne => ?_, fun hne => ?_, fun hne => ?_, fun key p p' hp hp' => ⟨fun hne => ?_, fun hlt => ?_⟩⟩
  · cases msg <;> simp only [settingsAfter, ne_eq, not_true_eq_false] at hne
    exact ⟨_, rfl⟩
  · cases msg <;> simp only [settingsAfter, ne_eq, not_true_eq_false] at hne
    exact ⟨_, rfl⟩
  · cases msg <;> simp only [settingsAfter, ne_eq, not_true_eq_false] at hne
    · exact ⟨_, .inl rfl⟩
    · exact ⟨_, .inr rfl⟩
  · obtain ⟨q, hq, e⟩ := h2 key p hp
    rw [hp', Option.some.injEq] at hq
    subst hq
    rw [e] at hne
    cases msg <;> simp only [receiverAfter, ne_eq, not_true_eq_false] at hne
    split at hne
    · exact ⟨_, _, ‹_›, rfl⟩
    · exact absurd rfl hne
  · obtain ⟨q, hq, hr⟩ := execute_pools h key p hp
    rw [hp', Option.some.injEq] at hq
    subst hq
    rcases hr.2.2.1 with e | ⟨k, e, hk, _⟩
    · omega
    · exact ⟨k, hk, e⟩

/-- **C67**, acceptance.  A well-formed administrative call succeeds exactly if `adminAccepted`. -/
theorem C67_accepted {c : Chain} {env : Env} {info : Info} {msg : Msg} {s : Store} {cfg : Config}
    (hc : s.config = some cfg) (hw : msg.wf) (hm : msg.isAdmin = true) :
    (∃ s' out, execute c env info msg s = .ok (s', out)) ↔ adminAccepted s cfg info.sender msg := by
  rw [show execute c env info msg s = dispatch c env info msg s from if_pos hw]
  cases msg <;> simp only [Msg.isAdmin, Bool.false_eq_true] at hm <;>
    simp only [dispatch, adminAccepted, changeAdmin, withdrawProtocolFee, changeProtocolFee, changeFeeReceiver, addFeeTier,
      removeFeeTier, bind_ok, loadConfig_ok, getPool_ok, hc, Option.some.injEq, exists_eq_left', ite_error_ok, pure_ok,
      Prod.mk.injEq, ne_eq, Decidable.not_not]
  case changeAdmin => exact ⟨fun ⟨_, _, h, _⟩ => h, fun h => ⟨_, _, h, rfl, rfl⟩⟩
  case changeProtocolFee => exact ⟨fun ⟨_, _, h, _⟩ => h, fun h => ⟨_, _, h, rfl, rfl⟩⟩
  case withdrawProtocolFee =>
    exact ⟨fun ⟨_, _, p, hp, h, _⟩ => ⟨p, hp, h.symm⟩, fun ⟨p, hp, h⟩ => ⟨_, _, p, hp, h.symm, rfl, rfl⟩⟩
  case changeFeeReceiver => exact ⟨fun ⟨_, _, h, p, hp, _⟩ => ⟨h, p, hp⟩, fun ⟨h, p, hp⟩ => ⟨_, _, h, p, hp, rfl, rfl⟩⟩
  case addFeeTier t =>
    constructor
    · rintro ⟨_, _, h, h1, h2, _⟩
      unfold PCT at h2
      exact ⟨h, by omega, by omega, by omega⟩
    · rintro ⟨h, h1, h2, h3⟩
      exact ⟨_, _, h, by omega, by unfold PCT; omega, rfl, rfl⟩
  case removeFeeTier t =>
    constructor
    · rintro ⟨_, _, h, h1⟩
      split at h1
      · exact ⟨h, ‹_›⟩
      · simp at h1
    · rintro ⟨h, h1⟩
      exact ⟨_, _, h, by rw [if_pos h1]; rfl⟩

/-- **C67**, nothing else.  An administrative call changes nothing but the settings and the record of at most one pool, in
which it changes the fee receiver or empties the protocol fees; and only a withdrawal moves tokens. -/
theorem C67_nothing_else {c : Chain} {env : Env} {info : Info} {msg : Msg} {s s' : Store} {out : List OutMsg}
    (hm : msg.isAdmin = true) (h : execute c env info msg s = .ok (s', out)) :
    s' = { s with config := s'.config, pools := s'.pools } ∧
    (∀ key, s'.pools.get? key = s.pools.get? key ∨ ∃ p, s.pools.get? key = some p ∧
      ((∃ k r, msg = .changeFeeReceiver k r ∧ k.key = key ∧ s'.pools.get? key = some { p with feeReceiver := r }) ∨
       (∃ k, msg = .withdrawProtocolFee k ∧ k.key = key ∧ s'.pools.get? key = some { p with protoX := 0, protoY := 0 }))) ∧
    ((∀ k, msg ≠ .withdrawProtocolFee k) → out = []) := by
  replace h := (execute_ok.1 h).2
  cases msg <;> simp only [Msg.isAdmin, Bool.false_eq_true] at hm <;>
    simp only [dispatch, changeAdmin, withdrawProtocolFee, changeProtocolFee, changeFeeReceiver, addFeeTier,
      removeFeeTier, bind_ok, getPool_ok, ite_error_ok, pure_ok, Prod.mk.injEq] at h
  case changeAdmin => obtain ⟨_, _, _, rfl, rfl⟩ := h; exact ⟨rfl, fun _ => .inl rfl, fun _ => rfl⟩
  case changeProtocolFee => obtain ⟨_, _, _, rfl, rfl⟩ := h; exact ⟨rfl, fun _ => .inl rfl, fun _ => rfl⟩
  case addFeeTier => obtain ⟨_, _, _, _, _, rfl, rfl⟩ := h; exact ⟨rfl, fun _ => .inl rfl, fun _ => rfl⟩
  case removeFeeTier =>
    obtain ⟨_, _, _, h⟩ := h
    split at h
    · rw [pure_ok, Prod.mk.injEq] at h
      obtain ⟨rfl, rfl⟩ := h
      exact ⟨rfl, fun _ => .inl rfl, fun _ => rfl⟩
    · simp at h
  case withdrawProtocolFee k =>
    obtain ⟨p, hp, _, rfl, rfl⟩ := h
    refine ⟨rfl, fun key => ?_, fun hn => absurd rfl (hn k)⟩
    simp only [savePool, KV.get?_insert]
    by_cases hk : key = k.key
    · subst hk; exact .inr ⟨p, hp, .inr ⟨k, rfl, rfl, if_pos rfl⟩⟩
    · exact .inl (if_neg hk)
  case changeFeeReceiver k r =>
    obtain ⟨_, _, _, p, hp, rfl, rfl⟩ := h
    refine ⟨rfl, fun key => ?_, fun _ => rfl⟩
    simp only [savePool, KV.get?_insert]
    by_cases hk : key = k.key
    · subst hk; exact .inr ⟨p, hp, .inl ⟨k, r, rfl, rfl, if_pos rfl⟩⟩
    · exact .inl (if_neg hk)

namespace Demo

/-- Alice sets everything she can set, and hands over to Bob, who adds a fee tier. -/
def handover : List (Info × Msg) := setup ++
  [(by_ alice, .changeProtocolFee (10 ^ 11)), (by_ alice, .changeFeeReceiver key carol), (by_ alice, .removeFeeTier tier),
   (by_ alice, .changeAdmin bob), (by_ bob, .addFeeTier ⟨10 ^ 10, 100⟩)]

example : works chain handover = true ∧ (state chain handover).config = some ⟨bob, [⟨10 ^ 10, 100⟩], 10 ^ 11⟩ ∧
    ((state chain handover).pools.get? key.key).map Pool.feeReceiver = some carol ∧
    adminAccepted (state chain handover) ⟨bob, [⟨10 ^ 10, 100⟩], 10 ^ 11⟩ bob (.removeFeeTier ⟨10 ^ 10, 100⟩) := by
  refine ⟨by decide +kernel, by decide +kernel, by decide +kernel, ?_⟩
  unfold adminAccepted
  decide +kernel

end Demo

end OraiV3
