import Verif.KecComp.Rel
import Verif.KecComp.Pure
import Verif.Threads.External
import Verif.Kec.Witness

/-!
# Model of the Keccak component shard circuit (`hashes/zkevm/src/keccak/component/circuit/shard.rs`)

The cells of the Keccak circuit are columns of another chip (`PCol.other 0 .. 4`: `is_final`, `hash_lo`, `hash_hi`, `bytes_left`,
`word_value`), loaded in the copy manager; the base circuit is a program in the main context of a `BaseCircuitBuilder`.
`SimpleFloorPlanner` puts the region of the Keccak circuit at row 0, since no region before it uses its columns.
-/

set_option autoImplicit false
set_option linter.unusedSectionVars false
namespace H2.KC
open H2.Kec H2.Ext H2.Phys
variable {p : ℕ} [Fact p.Prime]

/-- `KeccakAssignedValue`: a raw cell and its value, if known. -/
structure KCell (p : ℕ) where
  cell : PCell
  val : Option (Assigned p)

/-- vanilla/mod.rs:807-815 `KeccakAssignedRow` -/
structure KAssigned (p : ℕ) where
  (isFinal hashLo hashHi bytesLeft wordValue : KCell p)

/-- vanilla/mod.rs:832-876 `set_row`: the cells that are returned (the other effects on the region are in `advOf`, `fixOf`).  `known` is false
when halo2 drops the values (`Value::unknown()` at key generation). -/
def setRow (p : ℕ) (known : Bool) (offset : ℕ) (row : KRow) : KAssigned p :=
  let assign := fun (i n : ℕ) => (⟨⟨.other i, offset⟩, if known then some (.trivial ((n : ℕ) : ZMod p)) else none⟩ : KCell p)
  { isFinal := assign 0 row.isFinal.toNat
    hashLo := assign 1 row.hashLo
    hashHi := assign 2 row.hashHi
    bytesLeft := assign 3 row.bytesLeft
    wordValue := assign 4 row.wordValue }

/-- vanilla/mod.rs:818-829 `assign` -/
def assignRows (p : ℕ) (known : Bool) (rows : List KRow) : List (KAssigned p) := rows.zipIdx.map fun e => setRow p known e.2 e.1

/-- `Iterator::step_by`: the elements number 0, `n`, `2n`, … -/
def stepBy {α : Type} (n : ℕ) (l : List α) : List α := (List.range l.length).filterMap fun i => if i % n = 0 then l[i]? else none

/-- A computation on the copy manager. -/
abbrev XL (p : ℕ) := StateT (XMgr p) Option

/-- `load_external_assigned` (copy_constraints.rs:58-74) -/
def loadK (c : KCell p) : XL p (AV p) := fun m => m.loadAssigned c.cell c.val

/-- shard.rs:507-510: the words. -/
def loadWords : List (KAssigned p) → XL p (List (AV p))
  | [] => pure []
  | r :: rs => do
    let a ← loadK r.wordValue
    let as ← loadWords rs
    pure (a :: as)

/-- shard.rs:502-518: the closure on a chunk of 25 rounds (`rounds` without the last row, popped, for the words). -/
def loadChunk (rounds : List (KAssigned p)) : XL p (LoadedF (AV p)) := do
  if rounds.length = 25 then
    let r0 ← (fun g => (rounds[0]?).map fun r => (r, g) : XL p (KAssigned p))
    let bl ← loadK r0.bytesLeft
    let out ← (fun g => rounds.getLast?.map fun r => (r, g) : XL p (KAssigned p))
    let ws ← loadWords (rounds.dropLast.take 17)
    let fin ← loadK out.isFinal
    let lo ← loadK out.hashLo
    let hi ← loadK out.hashHi
    pure ⟨bl, ws, fin, lo, hi⟩
  else fun _ => none

/-- The loop of shard.rs:501-519. -/
def loadChunks : List (List (KAssigned p)) → XL p (List (LoadedF (AV p)))
  | [] => pure []
  | c :: cs => do
    let f ← loadChunk c
    let fs ← loadChunks cs
    pure (f :: fs)

/-- shard.rs:489-520 `transmute_keccak_assigned_to_virtual`; `step_by(0)` panics. -/
def transmute (rowsPerRound : ℕ) (rows : List (KAssigned p)) : XL p (List (LoadedF (AV p))) :=
  if rowsPerRound = 0 then fun _ => none else loadChunks (chunksOf 25 ((stepBy rowsPerRound rows).drop 1))

/-- shard.rs:284-297 `mock_load_keccak_assigned_rows`: `n` mocks of value 0. -/
def mockMany : ℕ → XL p (List (AV p))
  | 0 => pure []
  | n + 1 => do
    let a ← (fun g => g.mock 0 : XL p (AV p))
    let as ← mockMany n
    pure (a :: as)
@[inherit_doc mockMany]
def mockLoad : ℕ → XL p (List (LoadedF (AV p)))
  | 0 => pure []
  | n + 1 => do
    let bl ← (fun g => g.mock 0 : XL p (AV p))
    let ws ← mockMany 17
    let fin ← (fun g => g.mock 0 : XL p (AV p))
    let lo ← (fun g => g.mock 0 : XL p (AV p))
    let hi ← (fun g => g.mock 0 : XL p (AV p))
    let fs ← mockLoad n
    pure (⟨bl, ws, fin, lo, hi⟩ :: fs)

/-- shard.rs:311-330 `generate_base_circuit_witnesses` with `publish_outputs` (shard.rs:365-401): the cells of the instance columns.  `sp` is the
optimised Poseidon spec, `f` its permutation on native values (in `dummy_circuit_output`). -/
def shardProg (sp : PSpec p) (f : List (ZMod p) → List (ZMod p)) (capacity : ℕ) (raw : Bool) (fs : List (LoadedF (AV p))) : M p (List (List (AV p))) := do
  let h ← Hasher.init sp 3 2
  let keys ← encodeInputs h fs
  let d ← unwrap (dummyOutput f)
  let rows ← finalOutputs d keys fs
  publishOutputs h capacity raw rows

/-! ## Loading -/

/-- The state of a copy manager before the base circuit is synthesized: only external cells have a place, outside of the columns of the
builder. -/
structure XOk (g : XMgr p) : Prop where
  inv : XInv g
  ext : ∀ c x, g.cm.assigned c = some x → c.typeId = externalTypeId
  own : ∀ c x, g.cm.assigned c = some x → x.col.own = false

theorem xok_new : XOk (XMgr.new : XMgr p) := ⟨xinv_new, fun c x h => (by cases h), fun c x h => (by cases h)⟩

def Below (a b : CellMap) : Prop := ∀ c x, a c = some x → b c = some x

/-- Loading does not panic, keeps the places, and its result is right in every later map. -/
def Ld {α : Type} (m : XL p α) (Q : CellMap → α → Prop) : Prop :=
  ∀ g, XOk g → ∃ r g', m g = some (r, g') ∧ XOk g' ∧ g'.cm.eqs = g.cm.eqs ∧ g'.cm.consts = g.cm.consts ∧ Below g.cm.assigned g'.cm.assigned ∧
    ∀ A, Below g'.cm.assigned A → Q A r

theorem Ld.pure {α : Type} {Q : CellMap → α → Prop} {r : α} (h : ∀ A, Q A r) : Ld (Pure.pure r : XL p α) Q :=
  fun g hg => ⟨r, g, rfl, hg, rfl, rfl, fun _ _ h => h, fun A _ => h A⟩

theorem Ld.bind {α β : Type} {m : XL p α} {k : α → XL p β} {Q : CellMap → α → Prop} {R : CellMap → β → Prop} (h : Ld m Q)
    (h' : ∀ a, Ld (k a) (fun A b => Q A a → R A b)) : Ld (m >>= k) R := by
  intro g hg
  obtain ⟨a, g1, e1, ok1, q1, c1, b1, r1⟩ := h g hg
  obtain ⟨b, g2, e2, ok2, q2, c2, b2, r2⟩ := h' a g1 ok1
  refine ⟨b, g2, ?_, ok2, q2.trans q1, c2.trans c1, fun c x hc => b2 c x (b1 c x hc), fun A hA => r2 A hA (r1 A fun c x hc => hA c x (b2 c x hc))⟩
  show (m g).bind _ = _
  rw [e1]
  exact e2

theorem Ld.weaken {α : Type} {m : XL p α} {Q R : CellMap → α → Prop} (h : Ld m Q) (h' : ∀ A a, Q A a → R A a) : Ld m R := by
  intro g hg
  obtain ⟨a, g1, e1, ok1, q1, c1, b1, r1⟩ := h g hg
  exact ⟨a, g1, e1, ok1, q1, c1, b1, fun A hA => h' A a (r1 A hA)⟩

theorem Ld.opt {α β : Type} {o : Option α} {r : α} (ho : o = some r) {k : α → XL p β} {R : CellMap → β → Prop} (h : Ld (k r) R) :
    Ld ((fun g => o.map fun x => (x, g) : XL p α) >>= k) R := by
  subst ho
  exact h

/-- The virtual cell `a` is the raw cell `k`. -/
def LdAt (A : CellMap) (a : AV p) (k : KCell p) : Prop :=
  a.value = k.val.getD (.trivial 0) ∧ ∃ c, a.cell = some c ∧ c.typeId = externalTypeId ∧ A c = some k.cell

theorem loadK_ld (k : KCell p) (hk : k.cell.col.own = false) : Ld (loadK k) (fun A a => LdAt A a k) := by
  intro g hg
  refine ⟨⟨k.val.getD (.trivial 0), some (extCell g.count)⟩,
    { cm := { g.cm with assigned := g.cm.assigned.insert (extCell g.count) k.cell }, count := g.count + 1 }, ?_, ⟨?_, ?_, ?_⟩, rfl, rfl, ?_, ?_⟩
  · simp [loadK, XMgr.loadAssigned, hg.inv.load]
  · intro c x hc ht
    rcases insert_iff.1 hc with ⟨rfl, rfl⟩ | ⟨_, hc⟩
    · exact ⟨g.count, Nat.lt_succ_self _, rfl⟩
    · obtain ⟨n, hn, rfl⟩ := hg.inv c x hc ht
      exact ⟨n, Nat.lt_succ_of_lt hn, rfl⟩
  · intro c x hc
    rcases insert_iff.1 hc with ⟨rfl, rfl⟩ | ⟨_, hc⟩
    · rfl
    · exact hg.ext c x hc
  · intro c x hc
    rcases insert_iff.1 hc with ⟨rfl, rfl⟩ | ⟨_, hc⟩
    · exact hk
    · exact hg.own c x hc
  · intro c x hc
    refine insert_iff.2 (.inr ⟨?_, hc⟩)
    rintro rfl
    rw [hg.inv.free] at hc
    cases hc
  · exact fun A hA => ⟨rfl, _, rfl, rfl, hA _ _ (insert_iff.2 (.inl ⟨rfl, rfl⟩))⟩

theorem loadWords_ld : ∀ (rs : List (KAssigned p)), (∀ r ∈ rs, r.wordValue.cell.col.own = false) →
    Ld (loadWords rs) (fun A as => List.Forall₂ (LdAt A) as (rs.map (·.wordValue)))
  | [], _ => Ld.pure fun _ => .nil
  | r :: rs, h => (loadK_ld _ (h r (by simp))).bind fun a => (loadWords_ld rs fun r hr => h r (by simp [hr])).bind fun as =>
      Ld.pure fun _ h1 h2 => .cons h2 h1

/-- The loaded cells of a keccak_f are raw cells. -/
structure FAt (A : CellMap) (f : LoadedF (AV p)) (k : LoadedF (KCell p)) : Prop where
  bytesLeft : LdAt A f.bytesLeft k.bytesLeft
  words : List.Forall₂ (LdAt A) f.words k.words
  isFinal : LdAt A f.isFinal k.isFinal
  hashLo : LdAt A f.hashLo k.hashLo
  hashHi : LdAt A f.hashHi k.hashHi

/-- The cells of a keccak_f whose 25 rounds start with the rows `K 0`, …, `K 24`. -/
def cellsOf (K : ℕ → KAssigned p) : LoadedF (KCell p) :=
  ⟨(K 0).bytesLeft, (List.range 17).map fun i => (K i).wordValue, (K 24).isFinal, (K 24).hashLo, (K 24).hashHi⟩

/-- Rows in the columns of the Keccak circuit. -/
def KOwn (r : KAssigned p) : Prop := r.isFinal.cell.col.own = false ∧ r.hashLo.cell.col.own = false ∧ r.hashHi.cell.col.own = false ∧
  r.bytesLeft.cell.col.own = false ∧ r.wordValue.cell.col.own = false

theorem loadChunk_ld (K : ℕ → KAssigned p) (hK : ∀ i, KOwn (K i)) : Ld (loadChunk ((List.range 25).map K)) (fun A f => FAt A f (cellsOf K)) := by
  unfold loadChunk
  rw [if_pos (by simp)]
  have e : ((List.range 25).map K).dropLast.take 17 = (List.range 17).map K := by
    rw [← List.map_dropLast, ← List.map_take]; rfl
  rw [e]
  refine Ld.opt (r := K 0) rfl ((loadK_ld _ (hK 0).2.2.2.1).bind fun bl => Ld.opt (r := K 24) rfl ((loadWords_ld _ ?_).bind fun ws =>
    (loadK_ld _ (hK 24).1).bind fun fin => (loadK_ld _ (hK 24).2.1).bind fun lo => (loadK_ld _ (hK 24).2.2.1).bind fun hi => Ld.pure fun A h5 h4 h3 h2 h1 =>
      ⟨h1, ?_, h3, h4, h5⟩))
  · intro r hr
    obtain ⟨i, -, rfl⟩ := List.mem_map.1 hr
    exact (hK i).2.2.2.2
  · rw [List.map_map] at h2
    exact h2

theorem loadChunks_ld {B : List ℕ} (K : ℕ → ℕ → KAssigned p) (hK : ∀ b i, KOwn (K b i)) :
    Ld (loadChunks (B.map fun b => (List.range 25).map (K b))) (fun A fs => List.Forall₂ (FAt A) fs (B.map fun b => cellsOf (K b))) := by
  induction B with
  | nil => exact Ld.pure fun _ => .nil
  | cons b B ih => exact (loadChunk_ld (K b) (hK b)).bind fun f => ih.bind fun fs => Ld.pure fun _ h1 h2 => .cons h2 h1

theorem stepBy_range {α : Type} (K : ℕ → α) {h : ℕ} (hh : 1 ≤ h) (m : ℕ) :
    stepBy h ((List.range (m * h)).map K) = (List.range m).map fun i => K (i * h) := by
  have key : stepBy h ((List.range (m * h)).map K) = (List.range (m * h)).filterMap fun i => if i % h = 0 then some (K i) else none := by
    unfold stepBy
    rw [List.length_map, List.length_range]
    refine List.filterMap_congr fun i hi => ?_
    rw [List.mem_range] at hi
    simp [hi]
  rw [key]
  clear key
  induction m with
  | zero => simp
  | succ m ih =>
    rw [Nat.succ_mul, List.range_add, List.filterMap_append, ih, List.range_succ, List.map_append]
    congr 1
    obtain ⟨h, rfl⟩ : ∃ n, h = n + 1 := ⟨h - 1, by omega⟩
    rw [List.range_succ_eq_map, List.map_cons, List.filterMap_cons]
    simp only [Nat.add_zero, Nat.mul_mod_left, if_true, List.map_cons, List.map_nil]
    congr 1
    rw [List.filterMap_eq_nil_iff]
    intro i hi
    simp only [List.mem_map, List.mem_range] at hi
    obtain ⟨_, ⟨j, hj, rfl⟩, rfl⟩ := hi
    rw [if_neg]
    rw [Nat.mul_add_mod_self_right, Nat.mod_eq_of_lt (by omega)]
    omega

theorem chunks25 {α : Type} (K : ℕ → α) (n : ℕ) :
    chunksOf 25 ((List.range (25 * n)).map K) = (List.range n).map fun b => (List.range 25).map fun i => K (25 * b + i) := by
  rw [chunksOf_range (by norm_num), List.length_map, List.length_range, show ceilDiv (25 * n) 25 = n by unfold ceilDiv; omega]
  refine List.map_congr_left fun b hb => ?_
  rw [List.mem_range] at hb
  apply List.ext_getElem
  · simp; omega
  · intro i h1 h2
    simp

theorem transmute_eq (K : ℕ → KAssigned p) {h : ℕ} (hh : 1 ≤ h) (n : ℕ) :
    transmute h ((List.range (numRows h n)).map K) = loadChunks ((List.range n).map fun b => (List.range 25).map fun i => K ((1 + 25 * b + i) * h)) := by
  unfold transmute
  rw [if_neg (by omega), numRows, stepBy_range K hh, ← List.map_drop]
  have : ((List.range (1 + n * 25)).drop 1).map (fun i => K (i * h)) = (List.range (25 * n)).map fun i => K ((1 + i) * h) := by
    apply List.ext_getElem
    · simp; omega
    · intro i h1 h2
      simp
  rw [this, chunks25]
  simp only [Nat.add_assoc]

/-- The rows of the Keccak circuit, by position. -/
theorem transmute_ld (K : ℕ → KAssigned p) (hK : ∀ i, KOwn (K i)) {h : ℕ} (hh : 1 ≤ h) (n : ℕ) :
    Ld (transmute h ((List.range (numRows h n)).map K)) (fun A fs => List.Forall₂ (FAt A) fs
      ((List.range n).map fun b => cellsOf fun i => K ((1 + 25 * b + i) * h))) := by
  rw [transmute_eq K hh]
  exact loadChunks_ld (fun b i => K ((1 + 25 * b + i) * h)) fun b i => hK _

/-! ## Loads of different values -/

/-- Managers with the same number of external cells, and (`b`) the same places. -/
def SameX (b : Bool) (g g' : XMgr p) : Prop := g.count = g'.count ∧ (b = true → g.cm.assigned = g'.cm.assigned)

/-- Two computations keep the managers the same. -/
def LdR {α β : Type} (b : Bool) (m : XL p α) (m' : XL p β) (Q : α → β → Prop) : Prop :=
  ∀ g g', SameX b g g' → ∀ r g1 r' g1', m g = some (r, g1) → m' g' = some (r', g1') → SameX b g1 g1' ∧ Q r r'

theorem LdR.pure {α β : Type} {b : Bool} {Q : α → β → Prop} {r : α} {r' : β} (h : Q r r') : LdR b (Pure.pure r : XL p α) (Pure.pure r' : XL p β) Q := by
  intro g g' hg r1 g1 r1' g1' h1 h1'
  obtain ⟨rfl, rfl⟩ := Prod.mk.inj (Option.some_inj.1 h1)
  obtain ⟨rfl, rfl⟩ := Prod.mk.inj (Option.some_inj.1 h1')
  exact ⟨hg, h⟩

theorem LdR.bind {α α' β β' : Type} {b : Bool} {m : XL p α} {m' : XL p α'} {k : α → XL p β} {k' : α' → XL p β'} {Q : α → α' → Prop} {R : β → β' → Prop}
    (h : LdR b m m' Q) (h' : ∀ a a', Q a a' → LdR b (k a) (k' a') R) : LdR b (m >>= k) (m' >>= k') R := by
  intro g g' hg r g1 r' g1' h1 h1'
  obtain ⟨⟨a, g2⟩, e1, e2⟩ := Option.bind_eq_some_iff.1 (show (m g).bind (fun e => k e.1 e.2) = some (r, g1) from h1)
  obtain ⟨⟨a', g2'⟩, e1', e2'⟩ := Option.bind_eq_some_iff.1 (show (m' g').bind (fun e => k' e.1 e.2) = some (r', g1') from h1')
  obtain ⟨hs, hq⟩ := h g g' hg _ _ _ _ e1 e1'
  exact h' a a' hq g2 g2' hs _ _ _ _ e2 e2'

theorem LdR.opt {α β α' β' : Type} {b : Bool} {o : Option α} {o' : Option α'} {r : α} {r' : α'} (ho : o = some r) (ho' : o' = some r') {k : α → XL p β}
    {k' : α' → XL p β'} {R : β → β' → Prop} (h : LdR b (k r) (k' r') R) :
    LdR b ((fun g => o.map fun x => (x, g) : XL p α) >>= k) ((fun g => o'.map fun x => (x, g) : XL p α') >>= k') R := by
  subst ho ho'
  exact h

theorem LdR.optL {α β β' : Type} {b : Bool} {o : Option α} {r : α} (ho : o = some r) {k : α → XL p β}
    {m' : XL p β'} {R : β → β' → Prop} (h : LdR b (k r) m' R) :
    LdR b ((fun g => o.map fun x => (x, g) : XL p α) >>= k) m' R := by
  subst ho
  exact h

theorem loadImpl_some {m m' : XMgr p} {x : PCell} {c : Cell} (h : m.loadImpl (some x) = some (c, m')) :
    c = extCell m.count ∧ m' = { cm := { m.cm with assigned := m.cm.assigned.insert c x }, count := m.count + 1 } := by
  unfold XMgr.loadImpl at h
  dsimp only at h
  split at h
  · cases h
  · obtain ⟨rfl, rfl⟩ := Prod.mk.inj (Option.some_inj.1 h)
    exact ⟨rfl, rfl⟩

theorem loadK_some {k : KCell p} {g g1 : XMgr p} {r : AV p} (h : loadK k g = some (r, g1)) :
    r.cell = some (extCell g.count) ∧ g1 = { cm := { g.cm with assigned := g.cm.assigned.insert (extCell g.count) k.cell }, count := g.count + 1 } := by
  simp only [loadK, XMgr.loadAssigned, XMgr.loadCell, Option.map_eq_some_iff, Prod.mk.injEq] at h
  obtain ⟨⟨c, m1⟩, h1, rfl, rfl⟩ := h
  obtain ⟨rfl, rfl⟩ := loadImpl_some h1
  exact ⟨rfl, rfl⟩

theorem loadK_ldr (b : Bool) {k k' : KCell p} (hk : k.cell = k'.cell) : LdR b (loadK k) (loadK k') (RA false) := by
  intro g g' hg r g1 r' g1' h1 h1'
  obtain ⟨e1, rfl⟩ := loadK_some h1
  obtain ⟨e1', rfl⟩ := loadK_some h1'
  refine ⟨⟨by simp [hg.1], fun hb => ?_⟩, by simp, fun _ => by rw [e1, e1', hg.1]⟩
  simp only [hg.1, hg.2 hb, hk]

theorem mock_ldr (k : KCell p) (v : ZMod p) : LdR false (loadK k) (fun g => g.mock v : XL p (AV p)) (RA false) := by
  intro g g' hg r g1 r' g1' h1 h1'
  obtain ⟨e1, rfl⟩ := loadK_some h1
  simp only [XMgr.mock, XMgr.loadImpl, Option.map_some, Option.some.injEq, Prod.mk.injEq] at h1'
  obtain ⟨rfl, rfl⟩ := h1'
  exact ⟨⟨by simp [hg.1], by simp⟩, by simp, fun _ => by rw [e1, hg.1]⟩

/-- Rows in the same cells. -/
structure SameK (r r' : KAssigned p) : Prop where
  isFinal : r.isFinal.cell = r'.isFinal.cell
  hashLo : r.hashLo.cell = r'.hashLo.cell
  hashHi : r.hashHi.cell = r'.hashHi.cell
  bytesLeft : r.bytesLeft.cell = r'.bytesLeft.cell
  wordValue : r.wordValue.cell = r'.wordValue.cell

theorem loadWords_ldr (b : Bool) {K K' : ℕ → KAssigned p} (hK : ∀ i, SameK (K i) (K' i)) : ∀ B : List ℕ,
    LdR b (loadWords (B.map K)) (loadWords (B.map K')) (RAs false)
  | [] => LdR.pure .nil
  | i :: B => (loadK_ldr b (hK i).wordValue).bind fun _ _ h1 => (loadWords_ldr b hK B).bind fun _ _ h2 => LdR.pure (.cons h1 h2)

theorem loadWords_mock (K : ℕ → KAssigned p) : ∀ B : List ℕ, LdR false (loadWords (B.map K)) (mockMany B.length) (RAs false)
  | [] => LdR.pure .nil
  | i :: B => (mock_ldr _ 0).bind fun _ _ h1 => (loadWords_mock K B).bind fun _ _ h2 => LdR.pure (.cons h1 h2)

theorem words17 (K : ℕ → KAssigned p) : ((List.range 25).map K).dropLast.take 17 = (List.range 17).map K := by
  rw [← List.map_dropLast, ← List.map_take]; rfl

theorem loadChunk_ldr (b : Bool) {K K' : ℕ → KAssigned p} (hK : ∀ i, SameK (K i) (K' i)) :
    LdR b (loadChunk ((List.range 25).map K)) (loadChunk ((List.range 25).map K')) (RF false) := by
  unfold loadChunk
  rw [if_pos (by simp), if_pos (by simp), words17, words17]
  exact LdR.opt (r := K 0) (r' := K' 0) rfl rfl ((loadK_ldr b (hK 0).bytesLeft).bind fun _ _ h1 => LdR.opt (r := K 24) (r' := K' 24) rfl rfl
    ((loadWords_ldr b hK _).bind fun _ _ h2 => (loadK_ldr b (hK 24).isFinal).bind fun _ _ h3 => (loadK_ldr b (hK 24).hashLo).bind fun _ _ h4 =>
      (loadK_ldr b (hK 24).hashHi).bind fun _ _ h5 => LdR.pure ⟨h1, h2, h3, h4, h5⟩))

theorem loadChunks_ldr (b : Bool) {K K' : ℕ → ℕ → KAssigned p} (hK : ∀ n i, SameK (K n i) (K' n i)) : ∀ B : List ℕ,
    LdR b (loadChunks (B.map fun n => (List.range 25).map (K n))) (loadChunks (B.map fun n => (List.range 25).map (K' n))) (List.Forall₂ (RF false))
  | [] => LdR.pure .nil
  | n :: B => (loadChunk_ldr b (hK n)).bind fun _ _ h1 => (loadChunks_ldr b hK B).bind fun _ _ h2 => LdR.pure (.cons h1 h2)

theorem loadChunks_mock (K : ℕ → ℕ → KAssigned p) : ∀ B : List ℕ,
    LdR false (loadChunks (B.map fun n => (List.range 25).map (K n))) (mockLoad B.length) (List.Forall₂ (RF false))
  | [] => LdR.pure .nil
  | n :: B => by
    have ih := loadChunks_mock K B
    rw [List.map_cons, loadChunks, List.length_cons, mockLoad]
    unfold loadChunk
    rw [if_pos (by simp), words17]
    simp only [bind_assoc]
    exact LdR.optL (r := K n 0) rfl ((mock_ldr _ 0).bind fun _ _ h1 => LdR.optL (r := K n 24) rfl
      ((loadWords_mock (K n) (List.range 17)).bind fun _ _ h2 => (mock_ldr _ 0).bind fun _ _ h3 => (mock_ldr _ 0).bind fun _ _ h4 =>
        (mock_ldr _ 0).bind fun _ _ h5 => (LdR.pure (Q := RF false) ⟨h1, h2, h3, h4, h5⟩).bind fun _ _ h6 => ih.bind fun _ _ h7 => LdR.pure (.cons h6 h7)))

/-! ## The rows of the Keccak circuit -/

theorem forall₂_and {α β : Type} {R S : α → β → Prop} {l : List α} {l' : List β} (h : List.Forall₂ R l l') (h' : List.Forall₂ S l l') :
    List.Forall₂ (fun a b => R a b ∧ S a b) l l' := by
  induction h with
  | nil => exact .nil
  | cons h _ ih => cases h' with | cons h1 h2 => exact .cons ⟨h, h1⟩ (ih h2)

theorem assignRows_eq (known : Bool) (rows : List KRow) : assignRows p known rows =
    (List.range rows.length).map fun i => setRow p known i (rows.getD i (dummyRow 0)) := by
  apply List.ext_getElem
  · simp [assignRows]
  · intro i h1 h2
    have : i < rows.length := by simpa [assignRows] using h1
    simp [assignRows, List.getD_eq_getElem?_getD, this]

theorem kown_setRow (known : Bool) (i : ℕ) (r : KRow) : KOwn (setRow p known i r) := ⟨rfl, rfl, rfl, rfl, rfl⟩

/-- The raw cells of keccak_f number `b`. -/
def rawF (h b : ℕ) : LoadedF PCell :=
  ⟨⟨.other 3, (1 + 25 * b) * h⟩, (List.range 17).map fun i => ⟨.other 4, (1 + 25 * b + i) * h⟩, ⟨.other 0, (1 + 25 * b + 24) * h⟩,
    ⟨.other 1, (1 + 25 * b + 24) * h⟩, ⟨.other 2, (1 + 25 * b + 24) * h⟩⟩

/-- A virtual cell is the raw cell `x`, with the value `v` (if known). -/
def RawAt (known : Bool) (A : CellMap) (a : AV p) (x : PCell) (v : ZMod p) : Prop :=
  a.value = .trivial (if known then v else 0) ∧ ∃ c, a.cell = some c ∧ c.typeId = externalTypeId ∧ A c = some x

/-- The loaded cells of keccak_f number `b` are its raw cells with their values. -/
structure FRaw (known : Bool) (A : CellMap) (h : ℕ) (a : Adv (ZMod p)) (f : LoadedF (AV p)) (b : ℕ) : Prop where
  bytesLeft : RawAt known A f.bytesLeft (rawF h b).bytesLeft (loadF h a b).bytesLeft
  words : f.words.length = 17 ∧ ∀ (i : ℕ) w x v, f.words[i]? = some w → (rawF h b).words[i]? = some x → (loadF h a b).words[i]? = some v → RawAt known A w x v
  isFinal : RawAt known A f.isFinal (rawF h b).isFinal (loadF h a b).isFinal
  hashLo : RawAt known A f.hashLo (rawF h b).hashLo (loadF h a b).hashLo
  hashHi : RawAt known A f.hashHi (rawF h b).hashHi (loadF h a b).hashHi

theorem rawAt_of {known : Bool} {A : CellMap} {a : AV p} {x : PCell} {n : ℕ} {v : ZMod p}
    (h : LdAt A a ⟨x, if known then some (.trivial ((n : ℕ) : ZMod p)) else none⟩) (hv : ((n : ℕ) : ZMod p) = v) : RawAt known A a x v := by
  subst hv
  refine ⟨?_, h.2⟩
  rw [h.1]
  cases known <;> rfl

/-- `load_keccak_assigned_rows` on the rows of the witness generation: one `LoadedKeccakF` for every keccak_f. -/
theorem transmute_rows (known : Bool) {h n : ℕ} (hh : 1 ≤ h) {rows : List KRow} (hlen : rows.length = numRows h n) :
    Ld (transmute h (assignRows p known rows)) (fun A fs => List.Forall₂ (FRaw known A h (advOf rows)) fs (List.range n)) := by
  rw [assignRows_eq, hlen]
  refine (transmute_ld (fun i => setRow p known i (rows.getD i (dummyRow 0))) (fun i => kown_setRow _ _ _) hh n).weaken fun A fs hfs => ?_
  rw [List.forall₂_map_right_iff] at hfs
  have hb : List.Forall₂ (fun (_ : LoadedF (AV p)) b => b < n) fs (List.range n) := by
    have hl := hfs.length_eq
    rw [List.forall₂_iff_get]
    refine ⟨hl, fun i h1 h2 => ?_⟩
    simp at h2 ⊢
    exact h2
  have hget : ∀ (g : KRow → ℕ) (R : ℕ), R < 1 + 25 * n →
      ((g (rows.getD (R * h) (dummyRow 0)) : ℕ) : ZMod p) = if 0 ≤ bs h R then ((((rows[(bs h R).toNat]?).map g).getD 0 : ℕ) : ZMod p) else 0 := by
    intro g R hR
    have hlt : R * h < rows.length := by
      rw [hlen, numRows]
      exact Nat.mul_lt_mul_of_pos_right (by omega) (by omega)
    rw [if_pos (by unfold bs; omega)]
    unfold bs
    rw [Int.toNat_natCast]
    simp [List.getD_eq_getElem?_getD, hlt]
  refine (forall₂_and hfs hb).imp fun f b hfb => ?_
  obtain ⟨hf, hlt⟩ := hfb
  refine ⟨?_, ⟨?_, ?_⟩, ?_, ?_, ?_⟩
  · exact rawAt_of hf.bytesLeft (hget KRow.bytesLeft _ (by omega))
  · rw [hf.words.length_eq]; simp [cellsOf]
  · intro i w x v hw hx hv
    have hi : i < 17 := by
      have := (List.getElem?_eq_some_iff.1 hw).1
      rw [hf.words.length_eq] at this
      simpa [cellsOf] using this
    simp only [rawF, loadF, List.getElem?_map, List.getElem?_range hi, Option.map_some, Option.some.injEq] at hx hv
    subst hx hv
    have := (List.forall₂_iff_get.1 hf.words).2 i (List.getElem?_eq_some_iff.1 hw).1 (by simp [cellsOf]; exact hi)
    simp only [List.get_eq_getElem, cellsOf, List.getElem_map, List.getElem_range] at this
    rw [(List.getElem?_eq_some_iff.1 hw).2] at this
    exact rawAt_of this (hget KRow.wordValue _ (by omega))
  · exact rawAt_of hf.isFinal (hget (fun x => x.isFinal.toNat) _ (by omega))
  · exact rawAt_of hf.hashLo (hget KRow.hashLo _ (by omega))
  · exact rawAt_of hf.hashHi (hget KRow.hashHi _ (by omega))

/-- The virtual cells do not depend on the messages, nor on whether the values are known, and the same cells are placed. -/
theorem transmute_same (known known' : Bool) {h n : ℕ} (hh : 1 ≤ h) {rows rows' : List KRow} (hlen : rows.length = numRows h n) (hlen' : rows'.length = numRows h n) :
    LdR true (transmute h (assignRows p known rows)) (transmute h (assignRows p known' rows')) (List.Forall₂ (RF false)) := by
  rw [assignRows_eq, assignRows_eq, hlen, hlen', transmute_eq _ hh, transmute_eq _ hh]
  exact loadChunks_ldr true (K := fun b i => setRow p known ((1 + 25 * b + i) * h) (rows.getD ((1 + 25 * b + i) * h) (dummyRow 0)))
    (K' := fun b i => setRow p known' ((1 + 25 * b + i) * h) (rows'.getD ((1 + 25 * b + i) * h) (dummyRow 0))) (fun n i => ⟨rfl, rfl, rfl, rfl, rfl⟩) _

/-- The simulation of `calculate_base_circuit_params` gets the virtual cells of the real loads. -/
theorem transmute_mock (known : Bool) {h n : ℕ} (hh : 1 ≤ h) {rows : List KRow} (hlen : rows.length = numRows h n) :
    LdR false (transmute h (assignRows p known rows)) (mockLoad n) (List.Forall₂ (RF false)) := by
  rw [assignRows_eq, hlen, transmute_eq _ hh]
  have := loadChunks_mock (fun b i => setRow p known ((1 + 25 * b + i) * h) (rows.getD ((1 + 25 * b + i) * h) (dummyRow 0))) (List.range n)
  rwa [List.length_range] at this

/-! ## The base circuit -/

theorem shardProg_rel {k : Bool} (sp : PSpec p) (f : List (ZMod p) → List (ZMod p)) (cap : ℕ) (raw : Bool) {fs fs' : List (LoadedF (AV p))}
    (h : List.Forall₂ (RF k) fs fs') : Rel k (shardProg sp f cap raw fs) (shardProg sp f cap raw fs') (List.Forall₂ (RAs k)) :=
  (Hasher.init_rel sp 3 2).bind fun _ _ hh => (encodeInputs_rel hh h).bind fun _ _ hk =>
    (unwrap_rel (Q := fun a b => a = b) (fun _ a ha => ⟨a, ha⟩) fun a b ha hb => Option.some_inj.1 (ha.symm.trans hb)).bind fun d d' hd => by
      subst hd
      exact (finalOutputs_rel d hk h).bind fun _ _ hr => publishOutputs_rel hh cap raw hr

end H2.KC
