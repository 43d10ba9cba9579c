import Verif.Lemmas.Raw
import Verif.Examples

/-!
# C62: one flat storage serves all the maps

`Verif/Raw.lean` describes the storage the chain gives to the contract: a single map from byte strings.  Every record of
the contract has a raw key of its own (`C62_keys`), every storage of the model has exactly one flat form (`C62_flat`,
`C62_unique`), reading and writing a record of the model is reading and writing that raw key (`C62_read`, `C62_write`,
`C62_remove`), and the listings over raw ranges find exactly the entries of the map (`C62_list`, `C62_list_operators`).
-/

namespace OraiV3

/-- Two records with the same raw key are the same record. -/
theorem C62_keys {a b : Area} {j k : Bytes} (h : rawKey a j = rawKey b k) : a = b ∧ (a.isMap = true → j = k) := rawKey_inj h

/-- The records of two maps whose names begin alike. -/
example : rawKey .positions ([95] ++ Demo.alice) ≠ rawKey .posLen Demo.alice ∧ Area.positions.isMap = true := by decide

/-- Every storage has a flat form … -/
theorem C62_flat (s : Store) : ∃ raw, Flat raw s := ⟨s.flat, s.flat_flat⟩

/-- … and only one. -/
theorem C62_unique {raw raw' : KV Cell} {s : Store} (h : Flat raw s) (h' : Flat raw' s) : raw = raw' := by
  apply KV.ext_get?
  intro r
  cases h1 : raw.get? r with
  | some v => exact ((h' r v).2 ((h r v).1 h1)).symm
  | none =>
    cases h2 : raw'.get? r with
    | none => rfl
    | some v => rw [(h r v).2 ((h' r v).1 h2)] at h1; simp at h1

/-- The flat form forgets nothing: two storages with the same flat form are equal. -/
theorem C62_faithful {raw : KV Cell} {s s' : Store} (h : Flat raw s) (h' : Flat raw s') : s = s' := by
  have hc : ∀ a k, s.cell k a = s'.cell k a := fun a k => (h.get a k).symm.trans (h'.get a k)
  have inj : ∀ {α : Type} {f : α → Cell} {x y : Option α}, (∀ a b, f a = f b → a = b) → x.map f = y.map f → x = y := by
    intro α f x y hf e
    cases x <;> cases y <;> simp at e ⊢
    exact hf _ _ e
  cases s
  cases s'
  congr
  · exact inj (fun _ _ e => Cell.config.inj e) (hc .config [])
  · exact KV.ext_get? fun k => inj (fun _ _ e => Cell.pool.inj e) (hc .pools k)
  · exact KV.ext_get? fun k => inj (fun _ _ e => Cell.position.inj e) (hc .positions k)
  · exact KV.ext_get? fun k => inj (fun _ _ e => Cell.posLen.inj e) (hc .posLen k)
  · exact KV.ext_get? fun k => inj (fun _ _ e => Cell.tick.inj e) (hc .ticks k)
  · exact KV.ext_get? fun k => inj (fun _ _ e => Cell.chunk.inj e) (hc .bitmap k)
  · exact KV.ext_get? fun k => inj (fun _ _ e => Cell.operator.inj e) (hc .operators k)

/-- Reading a raw key is reading the record. -/
theorem C62_read {raw : KV Cell} {s : Store} (h : Flat raw s) (k : Bytes) :
    raw.get? (rawKey .config k) = s.config.map .config ∧
    raw.get? (rawKey .pools k) = (s.pools.get? k).map .pool ∧
    raw.get? (rawKey .positions k) = (s.positions.get? k).map .position ∧
    raw.get? (rawKey .posLen k) = (s.posLen.get? k).map .posLen ∧
    raw.get? (rawKey .ticks k) = (s.ticks.get? k).map .tick ∧
    raw.get? (rawKey .bitmap k) = (s.bitmap.get? k).map .chunk ∧
    raw.get? (rawKey .operators k) = (s.operators.get? k).map .operator :=
  ⟨h.get .config k, h.get .pools k, h.get .positions k, h.get .posLen k, h.get .ticks k, h.get .bitmap k, h.get .operators k⟩

/-- Writing a raw key is writing that record and no other. -/
theorem C62_write {raw : KV Cell} {s : Store} (h : Flat raw s) (k : Bytes) :
    (∀ c, Flat (raw.insert (rawKey .config k) (.config c)) { s with config := some c }) ∧
    (∀ p, Flat (raw.insert (rawKey .pools k) (.pool p)) { s with pools := s.pools.insert k p }) ∧
    (∀ p, Flat (raw.insert (rawKey .positions k) (.position p)) { s with positions := s.positions.insert k p }) ∧
    (∀ n, Flat (raw.insert (rawKey .posLen k) (.posLen n)) { s with posLen := s.posLen.insert k n }) ∧
    (∀ t, Flat (raw.insert (rawKey .ticks k) (.tick t)) { s with ticks := s.ticks.insert k t }) ∧
    (∀ n, Flat (raw.insert (rawKey .bitmap k) (.chunk n)) { s with bitmap := s.bitmap.insert k n }) ∧
    (∀ e, Flat (raw.insert (rawKey .operators k) (.operator e)) { s with operators := s.operators.insert k e }) := by
  refine ⟨fun c => h.set ?_, fun v => h.set ?_, fun v => h.set ?_, fun v => h.set ?_, fun v => h.set ?_, fun v => h.set ?_,
    fun v => h.set ?_⟩
  · intro b j
    have e : rawKey b j = rawKey .config k ↔ b = .config := by
      constructor
      · exact fun h => (rawKey_inj h).1
      · rintro rfl; rfl
    cases b <;> simp [e, Store.cell]
  all_goals
    intro b j
    rw [if_congr (rawKey_eq_iff rfl) rfl rfl]
    cases b <;> simp [Store.cell, KV.get?_insert] <;> split <;> simp

/-- Removing a raw key is removing that record and no other. -/
theorem C62_remove {raw : KV Cell} {s : Store} (h : Flat raw s) (k : Bytes) :
    Flat (raw.erase (rawKey .positions k)) { s with positions := s.positions.erase k } ∧
    Flat (raw.erase (rawKey .ticks k)) { s with ticks := s.ticks.erase k } ∧
    Flat (raw.erase (rawKey .operators k)) { s with operators := s.operators.erase k } := by
  refine ⟨h.del ?_, h.del ?_, h.del ?_⟩ <;>
  · intro b j
    rw [if_congr (rawKey_eq_iff rfl) rfl rfl]
    cases b <;> simp [Store.cell, KV.get?_erase] <;> split <;> simp

/-- The listing of pools goes through exactly the entries of the map, in order. -/
theorem C62_list {raw : KV Cell} {s : Store} (h : Flat raw s) :
    scan raw Area.pools.prefix = s.pools.entries.map fun e => (e.1, Cell.pool e.2) := by
  have hl : Area.pools.prefix.getLast? = some 115 := by decide
  refine sorted_ext (scan_sorted raw hl (by decide)) (map_sorted _ s.pools.sorted) fun k v => ?_
  rw [mem_scan raw hl (by decide), ← rawKey_map (a := .pools) rfl, h.get, Store.cell, List.mem_map]
  constructor
  · intro hc
    rw [Option.map_eq_some_iff] at hc
    obtain ⟨p, hp, rfl⟩ := hc
    exact ⟨(k, p), (KV.mem_entries_iff _ _ _).2 hp, rfl⟩
  · rintro ⟨⟨k', p⟩, hp, e⟩
    simp only [Prod.mk.injEq] at e
    obtain ⟨rfl, rfl⟩ := e
    rw [(KV.mem_entries_iff _ _ _).1 hp, Option.map_some]

/-- The listing of an owner's operators goes through exactly that owner's entries, in order. -/
theorem C62_list_operators {raw : KV Cell} {s : Store} (h : Flat raw s) {owner : Bytes} {b : Byte}
    (hb : owner.getLast? = some b) (hlt : b.val < 255) :
    KSorted (scan raw (Area.operators.prefix ++ lenPrefixed owner)) ∧
    ∀ who c, (who, c) ∈ scan raw (Area.operators.prefix ++ lenPrefixed owner) ↔
      ∃ e, c = .operator e ∧ s.operators.get? (operatorKey owner who) = some e := by
  have hl : (Area.operators.prefix ++ lenPrefixed owner).getLast? = some b := by
    unfold lenPrefixed
    rw [List.getLast?_append, List.getLast?_append, hb]
    rfl
  refine ⟨scan_sorted raw hl hlt, fun who c => ?_⟩
  rw [mem_scan raw hl hlt, List.append_assoc]
  have e := h.get .operators (operatorKey owner who)
  rw [rawKey_map rfl] at e
  unfold operatorKey at e ⊢
  rw [e, Store.cell, Option.map_eq_some_iff]
  constructor
  · rintro ⟨x, h1, h2⟩; exact ⟨x, h2.symm, h1⟩
  · rintro ⟨x, h1, h2⟩; exact ⟨x, h2, h1.symm⟩

/-- A storage with a pool, ticks, a position and an operator, and the listing of its raw form. -/
example : Flat (Demo.state Demo.chain (Demo.setup ++ [(Demo.by_ Demo.alice, .approveAll Demo.bob none)])).flat
      (Demo.state Demo.chain (Demo.setup ++ [(Demo.by_ Demo.alice, .approveAll Demo.bob none)])) ∧
    (Demo.state Demo.chain (Demo.setup ++ [(Demo.by_ Demo.alice, .approveAll Demo.bob none)])).flat.entries.length = 9 ∧
    ((scan (Demo.state Demo.chain (Demo.setup ++ [(Demo.by_ Demo.alice, .approveAll Demo.bob none)])).flat
      (Area.operators.prefix ++ lenPrefixed Demo.alice)).map (·.1)) = [Demo.bob] :=
  ⟨Store.flat_flat _, by decide +kernel, by decide +kernel⟩

end OraiV3
