import Verif.Lemmas.Rel
import Verif.Lemmas.Inv
import Verif.Lemmas.Keys

/-!
# Two storages side by side
-/

namespace OraiV3

/-- Two runs, started in `s0` and `s0'`, have reached `s` and `s'`.  The data of the pools in `K` and of the accounts in
`U` correspond, and neither run has touched other data (except, if `W`, the settings and the operators).  The expirations
of approvals and operators satisfy `E`. -/
structure SR (ex zs W : Bool) (E : Expiration → Prop) (n n' : Nat) (K : PoolKey → Prop) (U : Bytes → Prop) (s0 s0' s s' : Store) : Prop where
  config : s'.config = s.config
  operators : s'.operators = s.operators
  pools : ∀ k, K k → ORel (PRel ex zs n n') (s.pools.get? k.key) (s'.pools.get? k.key)
  ticks : ∀ k i, K k → ORel (TRel ex zs) (s.ticks.get? (tickKey k i)) (s'.ticks.get? (tickKey k i))
  bitmap : ∀ k i, K k → BRel ex (s.bitmap.get? (bitmapKey i k)) (s'.bitmap.get? (bitmapKey i k))
  positions : ∀ id : Bytes, U (id.take (id.length - 4)) → ORel (QRel ex E) (s.positions.get? id) (s'.positions.get? id)
  posLen : ∀ u, U u → (s'.posLen.get? u).getD 0 = (s.posLen.get? u).getD 0 ∧ (zs = false → s'.posLen.get? u = s.posLen.get? u)
  expires : ex = false → ∀ id e, s.operators.get? id = some e → E e
  kPools : ∀ key, (∀ k, K k → key ≠ k.key) → s.pools.get? key = s0.pools.get? key ∧ s'.pools.get? key = s0'.pools.get? key
  kTicks : ∀ key, (∀ k i, K k → key ≠ tickKey k i) → s.ticks.get? key = s0.ticks.get? key ∧ s'.ticks.get? key = s0'.ticks.get? key
  kBitmap : ∀ key, (∀ k i, K k → key ≠ bitmapKey i k) → s.bitmap.get? key = s0.bitmap.get? key ∧ s'.bitmap.get? key = s0'.bitmap.get? key
  kPositions : ∀ id : Bytes, ¬ U (id.take (id.length - 4)) → s.positions.get? id = s0.positions.get? id ∧ s'.positions.get? id = s0'.positions.get? id
  kPosLen : ∀ u, ¬ U u → s.posLen.get? u = s0.posLen.get? u ∧ s'.posLen.get? u = s0'.posLen.get? u
  kConfig : W = false → s.config = s0.config ∧ s'.config = s0'.config
  kOperators : W = false → s.operators = s0.operators ∧ s'.operators = s0'.operators

section
variable {ex zs W : Bool} {E : Expiration → Prop} {n n' : Nat} {K : PoolKey → Prop} {U : Bytes → Prop} {s0 s0' s s' : Store}

/-! ## Writing -/

theorem SR.setPool (h : SR ex zs W E n n' K U s0 s0' s s') {k : PoolKey} (hk : K k) {p p' : Pool} (hp : PRel ex zs n n' p p') :
    SR ex zs W E n n' K U s0 s0' (savePool s k p) (savePool s' k p') :=
  { h with
    pools := fun k' hk' => ORel.insert hp (h.pools k' hk')
    kPools := fun key hkey => by
      unfold savePool
      simp only
      rw [KV.get?_insert_other _ _ (hkey k hk), KV.get?_insert_other _ _ (hkey k hk)]
      exact h.kPools key hkey }

theorem SR.setTick (h : SR ex zs W E n n' K U s0 s0' s s') {k : PoolKey} (hk : K k) (i : Int) {t t' : Tick} (ht : TRel ex zs t t') :
    SR ex zs W E n n' K U s0 s0' { s with ticks := s.ticks.insert (tickKey k i) t } { s' with ticks := s'.ticks.insert (tickKey k i) t' } :=
  { h with
    ticks := fun k' j hk' => ORel.insert ht (h.ticks k' j hk')
    kTicks := fun key hkey => by
      simp only
      rw [KV.get?_insert_other _ _ (hkey k i hk), KV.get?_insert_other _ _ (hkey k i hk)]
      exact h.kTicks key hkey }

theorem SR.delTick (h : SR ex zs W E n n' K U s0 s0' s s') {k : PoolKey} (hk : K k) (i : Int) :
    SR ex zs W E n n' K U s0 s0' { s with ticks := s.ticks.erase (tickKey k i) } { s' with ticks := s'.ticks.erase (tickKey k i) } :=
  { h with
    ticks := fun k' j hk' => ORel.erase (h.ticks k' j hk')
    kTicks := fun key hkey => by
      simp only
      rw [KV.get?_erase, KV.get?_erase, if_neg (hkey k i hk), if_neg (hkey k i hk)]
      exact h.kTicks key hkey }

theorem SR.setChunk (h : SR ex zs W E n n' K U s0 s0' s s') {k : PoolKey} (hk : K k) (i v : Nat) :
    SR ex zs W E n n' K U s0 s0' { s with bitmap := s.bitmap.insert (bitmapKey i k) v } { s' with bitmap := s'.bitmap.insert (bitmapKey i k) v } :=
  { h with
    bitmap := fun k' j hk' => by
      simp only
      rw [KV.get?_insert, KV.get?_insert]
      split
      · exact ⟨rfl, fun _ => rfl⟩
      · exact h.bitmap k' j hk'
    kBitmap := fun key hkey => by
      simp only
      rw [KV.get?_insert_other _ _ (hkey k i hk), KV.get?_insert_other _ _ (hkey k i hk)]
      exact h.kBitmap key hkey }

theorem SR.setPos (h : SR ex zs W E n n' K U s0 s0' s s') {id : Bytes} (hid : U (id.take (id.length - 4))) {q q' : Position} (hq : QRel ex E q q') :
    SR ex zs W E n n' K U s0 s0' { s with positions := s.positions.insert id q } { s' with positions := s'.positions.insert id q' } :=
  { h with
    positions := fun id' hid' => ORel.insert hq (h.positions id' hid')
    kPositions := fun key hkey => by
      have hne : key ≠ id := by rintro rfl; exact hkey hid
      simp only
      rw [KV.get?_insert_other _ _ hne, KV.get?_insert_other _ _ hne]
      exact h.kPositions key hkey }

theorem SR.delPos (h : SR ex zs W E n n' K U s0 s0' s s') {id : Bytes} (hid : U (id.take (id.length - 4))) :
    SR ex zs W E n n' K U s0 s0' { s with positions := s.positions.erase id } { s' with positions := s'.positions.erase id } :=
  { h with
    positions := fun id' hid' => ORel.erase (h.positions id' hid')
    kPositions := fun key hkey => by
      have hne : key ≠ id := by rintro rfl; exact hkey hid
      simp only
      rw [KV.get?_erase, KV.get?_erase, if_neg hne, if_neg hne]
      exact h.kPositions key hkey }

theorem SR.setLen (h : SR ex zs W E n n' K U s0 s0' s s') {u : Bytes} (hu : U u) (m : Nat) :
    SR ex zs W E n n' K U s0 s0' { s with posLen := s.posLen.insert u m } { s' with posLen := s'.posLen.insert u m } :=
  { h with
    posLen := fun u' hu' => by
      simp only
      rw [KV.get?_insert, KV.get?_insert]
      split
      · exact ⟨rfl, fun _ => rfl⟩
      · exact h.posLen u' hu'
    kPosLen := fun key hkey => by
      have hne : key ≠ u := by rintro rfl; exact hkey hu
      simp only
      rw [KV.get?_insert_other _ _ hne, KV.get?_insert_other _ _ hne]
      exact h.kPosLen key hkey }

/-! ## Reading -/

theorem SR.getPool (h : SR ex zs W E n n' K U s0 s0' s s') {k : PoolKey} (hk : K k) : Rel (PRel ex zs n n') (getPool s k) (getPool s' k) := by
  have := h.pools k hk
  unfold OraiV3.getPool
  revert this
  cases s.pools.get? k.key <;> cases s'.pools.get? k.key <;> simp [ORel, Rel]

theorem SR.getTick (h : SR ex zs W E n n' K U s0 s0' s s') {k : PoolKey} (hk : K k) (i : Int) : Rel (TRel ex zs) (getTick s k i) (getTick s' k i) := by
  have := h.ticks k i hk
  unfold OraiV3.getTick
  revert this
  cases s.ticks.get? (tickKey k i) <;> cases s'.ticks.get? (tickKey k i) <;> simp [ORel, Rel]

theorem SR.getByKey (h : SR ex zs W E n n' K U s0 s0' s s') {id : Bytes} (hid : U (id.take (id.length - 4))) :
    Rel (QRel ex E) (getPositionByKey s id) (getPositionByKey s' id) := by
  have := h.positions id hid
  unfold getPositionByKey
  revert this
  cases s.positions.get? id <;> cases s'.positions.get? id <;> simp [ORel, Rel]

theorem SR.getChunk (h : SR ex zs W E n n' K U s0 s0' s s') {k : PoolKey} (hk : K k) (i : Nat) : OraiV3.getChunk s' k i = OraiV3.getChunk s k i :=
  (h.bitmap k i hk).1.symm

theorem SR.length (h : SR ex zs W E n n' K U s0 s0' s s') {u : Bytes} (hu : U u) : getPositionLength s' u = getPositionLength s u := by
  unfold getPositionLength; rw [(h.posLen u hu).1]

theorem positionKey_take (o : Bytes) (i : Nat) : (positionKey o i).take ((positionKey o i).length - 4) = o := by
  unfold positionKey
  rw [List.length_append, beBytes_length, Nat.add_sub_cancel, List.take_left']
  rfl

theorem SR.getPosition (h : SR ex zs W E n n' K U s0 s0' s s') {u : Bytes} (hu : U u) (i : Nat) :
    Rel (QRel ex E) (OraiV3.getPosition s u i) (OraiV3.getPosition s' u i) :=
  h.getByKey (by rw [positionKey_take]; exact hu)

/-! ## Storage operations -/

theorem SR.addTick (h : SR ex zs W E n n' K U s0 s0' s s') {k : PoolKey} (hk : K k) (i : Int) {t t' : Tick} (ht : TRel ex zs t t') :
    Rel (SR ex zs W E n n' K U s0 s0') (addTick s k i t) (addTick s' k i t') := by
  unfold OraiV3.addTick
  rw [ORel.has (h.ticks k i hk)]
  exact Rel.ite (fun _ => Rel.error _) fun _ => h.setTick hk i ht

theorem SR.updateTick (h : SR ex zs W E n n' K U s0 s0' s s') {k : PoolKey} (hk : K k) (i : Int) {t t' : Tick} (ht : TRel ex zs t t') :
    Rel (SR ex zs W E n n' K U s0 s0') (updateTick s k i t) (updateTick s' k i t') := by
  unfold OraiV3.updateTick
  rw [ORel.has (h.ticks k i hk)]
  exact Rel.ite (fun _ => h.setTick hk i ht) fun _ => Rel.error _

theorem SR.removeTick (h : SR ex zs W E n n' K U s0 s0' s s') {k : PoolKey} (hk : K k) (i : Int) :
    Rel (SR ex zs W E n n' K U s0 s0') (removeTick s k i) (removeTick s' k i) := by
  unfold OraiV3.removeTick
  rw [ORel.has (h.ticks k i hk)]
  exact Rel.ite (fun _ => h.delTick hk i) fun _ => Rel.error _

theorem SR.flipBitmap (h : SR ex zs W E n n' K U s0 s0' s s') {k : PoolKey} (hk : K k) (v : Bool) (i : Int) (ts : Nat) :
    Rel (SR ex zs W E n n' K U s0 s0') (flipBitmap s v i ts k) (flipBitmap s' v i ts k) := by
  unfold OraiV3.flipBitmap
  refine Rel.bindSame _ fun c => ?_
  rw [h.getChunk hk]
  exact Rel.ite (fun _ => Rel.error _) fun _ => h.setChunk hk _ _

theorem SR.addPosition (h : SR ex zs W E n n' K U s0 s0' s s') {u : Bytes} (hu : U u) {q q' : Position} (hq : QRel ex E q q') :
    Rel (SR ex zs W E n n' K U s0 s0') (addPosition s u q) (addPosition s' u q') := by
  unfold OraiV3.addPosition
  simp only [h.length hu]
  exact Rel.ite (fun _ => (h.setPos (by rw [positionKey_take]; exact hu) hq).setLen hu _) fun _ => Rel.error _

theorem SR.updatePosition (h : SR ex zs W E n n' K U s0 s0' s s') {u : Bytes} (hu : U u) (i : Nat) {q q' : Position} (hq : QRel ex E q q') :
    Rel (SR ex zs W E n n' K U s0 s0') (updatePosition s u i q) (updatePosition s' u i q') := by
  unfold OraiV3.updatePosition
  rw [h.length hu]
  exact Rel.ite (fun _ => Rel.error _) fun _ => h.setPos (by rw [positionKey_take]; exact hu) hq

theorem SR.removePositionAt (h : SR ex zs W E n n' K U s0 s0' s s') {u : Bytes} (hu : U u) (i : Nat) :
    Rel (fun a b => SR ex zs W E n n' K U s0 s0' a.1 b.1 ∧ QRel ex E a.2 b.2) (removePositionAt s u i) (removePositionAt s' u i) := by
  unfold OraiV3.removePositionAt
  rw [h.length hu]
  refine Rel.bindSame _ fun m => ?_
  refine Rel.bind (h.getPosition hu i) fun q q' hq => ?_
  refine Rel.ite (fun _ => ?_) fun _ => ?_
  · have := h.positions (positionKey u m) (by rw [positionKey_take]; exact hu)
    revert this
    cases s.positions.get? (positionKey u m) <;> cases s'.positions.get? (positionKey u m) <;> intro this
    · exact Rel.error _
    · exact this.elim
    · exact this.elim
    · exact ⟨((h.delPos (by rw [positionKey_take]; exact hu)).setPos (by rw [positionKey_take]; exact hu) this).setLen hu _, hq⟩
  · exact ⟨(h.delPos (by rw [positionKey_take]; exact hu)).setLen hu _, hq⟩

end
end OraiV3
