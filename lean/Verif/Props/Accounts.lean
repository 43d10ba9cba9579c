import Verif.Examples
import Verif.Props.Admin
import Verif.Lemmas.Accounts

/-!
# C68: positions and roles belong to accounts
-/

namespace OraiV3

/-- **C68**, what the contract ensures by itself.  `TransferPosition` goes to accounts only, so if the other calls that hand
something over are given accounts, everybody that owns a position, is the admin, or receives protocol fees is an account. -/
theorem C68_only_accounts_partial {c : Chain} {s : Store} (h : AccountReach c (Msg.Careful c) s) : OnlyAccounts c s := by
  obtain ⟨sender, fee, hf, ha, h⟩ := h
  induction h with
  | refl =>
    refine ⟨fun owner hne => absurd ?_ hne, fun cfg hc => ?_, fun key p hp => ?_⟩
    · simp [positionList, getPositionLength, instantiate, Store.empty, KV.get?, KV.empty, kvFind]
    · simp only [instantiate, Option.some.injEq] at hc
      rw [← hc]; exact ha
    · simp [instantiate, Store.empty, KV.get?, KV.empty, kvFind] at hp
  | @tail s1 s2 env info msg out hst h1 h2 hP he ih =>
    have hr := hst.reach (.init sender fee hf)
    obtain ⟨i1, i2, i3⟩ := ih
    obtain ⟨cfg, hcfg, -⟩ := hr.mreach.struct.cfg
    obtain ⟨e1, e2⟩ := C67_effect hcfg he
    have hadm := i2 cfg hcfg
    refine ⟨fun o hne => ?_, fun cfg' hc => ?_, fun key p' hp' => ?_⟩
    · by_cases hold : positionList s1 o = []
      · obtain ⟨q, hq⟩ := List.exists_mem_of_ne_nil _ hne
        obtain ⟨j, hj⟩ := List.getElem?_of_mem hq
        rcases longer_list hr he (by simp [hold]) hj with e | ⟨o', i, p, hop, _⟩
        · rw [e]; exact h1
        · cases msg <;> simp only [Msg.posOp, PosOp.move.injEq, reduceCtorEq] at hop
          case transferPosition i r =>
            have he' := (execute_ok.1 he).2
            simp only [dispatch] at he'
            obtain ⟨_, _, _, _, hac, _⟩ := transferPosition_inv he'
            rw [← hop.2.2]; exact hac
          case transferNft r id => rw [← hop.2.2]; exact hP
          case sendNft r id d => rw [← hop.2.2]; exact hP
      · exact i1 o hold
    · rw [e1, Option.some.injEq] at hc
      rw [← hc]
      cases msg
      case changeAdmin a => exact hP
      all_goals exact hadm
    · cases hp : s1.pools.get? key with
      | none =>
        obtain ⟨cfg', hc', e⟩ := execute_fresh hr.mreach.struct he key p' hp hp'
        rw [e]; exact i2 cfg' hc'
      | some p =>
        obtain ⟨p2, hp2, e⟩ := e2 key p hp
        rw [hp', Option.some.injEq] at hp2
        rw [hp2, e]
        have := i3 key p hp
        cases msg
        case changeFeeReceiver k r =>
          show c.isAddr (if k.key = key then r else p.feeReceiver) = true
          split
          · exact hP
          · exact this
        all_goals exact this

/-- **C68**, lost for ever.  As long as every call is sent by an account, a position that belongs to a string that is not an
account stays where it is, unchanged, whatever happens. -/
theorem C68_lost {c : Chain} {s s' : Store} (hr : AccountReach c (fun _ => True) s)
    (h : AccountSteps c (fun _ => True) s s') {owner : Bytes} (ho : c.isAddr owner = false) (hl : owner.length < 2 ^ 16) :
    positionList s owner <+: positionList s' owner := by
  obtain ⟨sender, fee, hf, _, h0⟩ := hr
  have hi := Orphan.steps (.init sender fee hf) ho hl (.init sender fee owner) h0
  exact (Orphan.steps (h0.reach (.init sender fee hf)) ho hl hi.1 h).2

/-- **C68**, lost settings.  If the admin is not an account, the settings and all fee receivers are frozen. -/
theorem C68_frozen {c : Chain} {P : Msg → Prop} {s s' : Store} (h : AccountSteps c P s s') {cfg : Config}
    (hc : s.config = some cfg) (ha : c.isAddr cfg.admin = false) :
    s'.config = s.config ∧ ∀ key p, s.pools.get? key = some p →
      ∃ p', s'.pools.get? key = some p' ∧ p'.feeReceiver = p.feeReceiver := by
  induction h with
  | refl => exact ⟨rfl, fun key p hp => ⟨p, hp, rfl⟩⟩
  | @tail s1 s2 env info msg out hst h1 h2 hP he ih =>
    obtain ⟨i1, i2⟩ := ih
    have hc1 : s1.config = some cfg := i1.trans hc
    have hne : info.sender ≠ cfg.admin := by rintro e; rw [← e, h1] at ha; simp at ha
    obtain ⟨a1, a2, -⟩ := C14_only_admin_changes_settings hc1 he
    refine ⟨?_, fun key p hp => ?_⟩
    · by_cases e : s2.config = s1.config
      · exact e.trans i1
      · exact absurd (a1 e) hne
    · obtain ⟨p1, hp1, e1⟩ := i2 key p hp
      obtain ⟨p2, hp2, -⟩ := (C67_effect hc1 he).2 key p1 hp1
      refine ⟨p2, hp2, ?_⟩
      by_cases e : p2.feeReceiver = p1.feeReceiver
      · exact e.trans e1
      · exact absurd (a2 key p1 p2 hp1 hp2 e) hne

namespace Demo

/-- A string that is not an account, and a chain on which all others are. -/
def nobody : Bytes := [9]
def chain9 : Chain := ⟨[0], fun a => a != nobody⟩

/-- Alice hands her position, the protocol fees and the contract to nobody. -/
def lost : List (Info × Msg) := setup ++
  [(by_ alice, .transferNft nobody (positionKey alice 0)), (by_ alice, .changeFeeReceiver key nobody),
   (by_ alice, .changeAdmin nobody)]

theorem run_accounts {c : Chain} {P : Msg → Prop} : ∀ (ms : List (Info × Msg)) (s0 s s' : Store), AccountSteps c P s0 s →
    (∀ m ∈ ms, c.isAddr m.1.sender = true ∧ m.1.sender.length < 2 ^ 16 ∧ P m.2) →
    run c ms s = .ok s' → AccountSteps c P s0 s'
  | [], s0, s, s', hs, _, h => by
    have : s = s' := by simpa [run] using h
    exact this ▸ hs
  | (i, m) :: ms, s0, s, s', hs, hP, h => by
    unfold run at h
    cases he : execute c env i m s with
    | error e => rw [he] at h; simp [bind, Except.bind] at h
    | ok r =>
      rw [he] at h
      have h0 := hP (i, m) List.mem_cons_self
      exact run_accounts ms s0 r.1 s' (.tail hs h0.1 h0.2.1 h0.2.2 he) (fun m' hm => hP m' (List.mem_cons_of_mem _ hm)) h

theorem state_accounts {c : Chain} {P : Msg → Prop} {ms : List (Info × Msg)} (h : works c ms = true)
    (ha : c.isAddr alice = true) (hP : ∀ m ∈ ms, c.isAddr m.1.sender = true ∧ m.1.sender.length < 2 ^ 16 ∧ P m.2) :
    AccountReach c P (state c ms) := by
  refine ⟨alice, 0, by decide, ha, ?_⟩
  unfold works at h
  unfold state
  cases hr : run c ms (instantiate alice 0) with
  | error e => rw [hr] at h; simp [Except.isOk, Except.toBool] at h
  | ok s => exact run_accounts ms _ _ _ (.refl _) hP hr

theorem lost_reach : AccountReach chain9 (fun _ => True) (state chain9 lost) :=
  state_accounts (by decide +kernel) (by decide +kernel) (by decide +kernel)

end Demo

open Demo

/-- **C68 is false of the code.**  All calls are sent by accounts, and in the end the position, the protocol fees and the
contract belong to a string that is not an account. -/
theorem C68_false : ∃ c s, AccountReach c (fun _ => True) s ∧
    (∃ owner p, c.isAddr owner = false ∧ positionList s owner = [some p] ∧ 0 < p.liquidity) ∧
    (∃ cfg, s.config = some cfg ∧ c.isAddr cfg.admin = false) ∧
    (∃ key p, s.pools.get? key = some p ∧ c.isAddr p.feeReceiver = false) := by
  refine ⟨chain9, _, lost_reach, ⟨nobody, ?_⟩, ⟨⟨nobody, [tier], 0⟩, by decide +kernel, by decide +kernel⟩, key.key, ?_⟩
  · have h : (positionList (state chain9 lost) nobody).length = 1 ∧
        ((positionList (state chain9 lost) nobody)[0]?.bind id).map Position.liquidity = some (10 ^ 12) := by decide +kernel
    generalize positionList (state chain9 lost) nobody = l at h
    match l, h with
    | [some p], h =>
      simp only [List.getElem?_cons_zero, Option.bind_some, id_eq, Option.map_some, Option.some.injEq] at h
      exact ⟨p, by decide +kernel, rfl, by rw [h.2]; decide⟩
    | [none], h => simp at h
    | [], h => simp at h
    | _ :: _ :: _, h => simp at h
  · have h : ((state chain9 lost).pools.get? key.key).map Pool.feeReceiver = some nobody := by decide +kernel
    rw [Option.map_eq_some_iff] at h
    obtain ⟨p, hp, e⟩ := h
    exact ⟨p, hp, by rw [e]; decide +kernel⟩

-- The hypotheses of the three theorems: careful calls, and the calls above.
example : AccountReach chain9 (Msg.Careful chain9) (state chain9 (setup ++
    [(by_ alice, .transferNft bob (positionKey alice 0)), (by_ bob, .transferPosition 0 carol), (by_ alice, .changeAdmin bob)])) ∧
    OnlyAccounts chain9 (state chain9 (setup ++
    [(by_ alice, .transferNft bob (positionKey alice 0)), (by_ bob, .transferPosition 0 carol), (by_ alice, .changeAdmin bob)])) := by
  have h : AccountReach chain9 (Msg.Careful chain9) (state chain9 (setup ++
      [(by_ alice, .transferNft bob (positionKey alice 0)), (by_ bob, .transferPosition 0 carol), (by_ alice, .changeAdmin bob)])) := by
    refine state_accounts (by decide +kernel) (by decide +kernel) ?_
    intro m hm
    simp only [setup, List.cons_append, List.nil_append, List.mem_cons, List.not_mem_nil, or_false] at hm
    rcases hm with rfl | rfl | rfl | rfl | rfl | rfl <;> exact ⟨by decide +kernel, by decide +kernel, by trivial⟩
  exact ⟨h, C68_only_accounts_partial h⟩

-- `TransferPosition` refuses what `TransferNft` accepts.
example : works chain9 (setup ++ [(by_ alice, .transferPosition 0 nobody)]) = false ∧
    works chain9 (setup ++ [(by_ alice, .transferNft nobody (positionKey alice 0))]) = true := by decide +kernel

end OraiV3
