import Verif.Threads.Builder
import Verif.Threads.Synth

/-!
# External cells: cells of another chip used in a virtual region

`virtual_region/copy_constraints.rs:58-109` (`load_external_assigned`, `load_external_cell`, `mock_external_assigned`, `clear`) and
`utils/halo2.rs:84-109` (`constrain_virtual_equals_external`) on the state of the copy manager; `none` is a Rust panic.
-/

set_option autoImplicit false
namespace H2.Ext
open H2 Phys Bld
variable {p : ℕ}

/-- `CopyConstraintManager` (copy_constraints.rs:31-48): the constraints, `assigned_advices` (both in `CopyMgr`) and
`external_cell_count`. -/
structure XMgr (p : ℕ) where
  cm : CopyMgr p
  count : ℕ

/-- `CopyConstraintManager::default()`. -/
def XMgr.new : XMgr p := ⟨⟨[], [], fun _ => none⟩, 0⟩

/-- The virtual cell number `n` of the external cells (copy_constraints.rs:89). -/
def extCell (n : ℕ) : Cell := ⟨externalTypeId, 0, n⟩

/-- `load_external_cell_impl` (copy_constraints.rs:88-100): the next number; a real cell is put in `assigned_advices`, with a panic if
there was a different one. -/
def XMgr.loadImpl (m : XMgr p) (x : Option PCell) : Option (Cell × XMgr p) :=
  let c := extCell m.count
  match x with
  | none => some (c, { m with count := m.count + 1 })
  | some x =>
    if clash m.cm.assigned c x then none
    else some (c, { cm := { m.cm with assigned := m.cm.assigned.insert c x }, count := m.count + 1 })

/-- `load_external_cell` (copy_constraints.rs:78-80). -/
def XMgr.loadCell (m : XMgr p) (x : PCell) : Option (Cell × XMgr p) := m.loadImpl (some x)

/-- `load_external_assigned` (copy_constraints.rs:58-74): the value of the raw cell, or 0 when it is unknown. -/
def XMgr.loadAssigned (m : XMgr p) (x : PCell) (val : Option (Assigned p)) : Option (AV p × XMgr p) :=
  (m.loadCell x).map fun e => (⟨val.getD (.trivial 0), some e.1⟩, e.2)

/-- `mock_external_assigned` (copy_constraints.rs:83-86). -/
def XMgr.mock (m : XMgr p) (v : ZMod p) : Option (AV p × XMgr p) :=
  (m.loadImpl none).map fun e => (⟨.trivial v, some e.1⟩, e.2)

/-- `clear` (copy_constraints.rs:102-109). -/
def XMgr.clear (_m : XMgr p) : XMgr p := .new

/-- `constrain_virtual_equals_external` (utils/halo2.rs:84-109). -/
def XMgr.tie (m : XMgr p) (a : AV p) (x : PCell) (reg : Region p) : Option (XMgr p × Region p) :=
  (constrainExternal a x m.cm.assigned reg).map fun e => ({ m with cm := { m.cm with assigned := e.1 } }, e.2)

/-- `assign_raw` (copy_constraints.rs:134-179). -/
def XMgr.assignRaw (m : XMgr p) (nfixed usable : ℕ) (reg : Region p) : Option (XMgr p × Region p) :=
  (copyAssignRaw nfixed usable m.cm.eqs m.cm.consts m.cm.assigned reg).map fun r =>
    ({ m with cm := { m.cm with eqs := sortEqs m.cm.eqs, consts := sortConsts m.cm.consts } }, r)

/-- A call that changes the copy manager (and the region). -/
inductive XOp (p : ℕ)
  | load (x : PCell)
  | mock (v : ZMod p)
  /-- a `Context` pushes an equality between two virtual cells -/
  | eq (a b : Cell)
  /-- a `Context` pushes a constant -/
  | const (c : ZMod p) (a : Cell)
  /-- another manager places its virtual cell -/
  | place (c : Cell) (x : PCell)
  | tie (a : AV p) (x : PCell)
  | assignRaw (nfixed usable : ℕ)

/-- What is loaded by a call. -/
abbrev Loads := List (Cell × Option PCell)

/-- A call takes the manager and the region to new ones without a panic; the loads it did.  Virtual cells have type ids other than the
one of external cells ("This Type ID must be unique", copy_constraints.rs:18), and an external cell has been loaded. -/
inductive XStep : XOp p → XMgr p × Region p → XMgr p × Region p → Loads → Prop
  | load {m m' : XMgr p} {reg : Region p} {x : PCell} {c : Cell} : m.loadCell x = some (c, m') → XStep (.load x) (m, reg) (m', reg) [(c, some x)]
  | mock {m m' : XMgr p} {reg : Region p} {v : ZMod p} {a : AV p} {c : Cell} : m.mock v = some (a, m') → a.cell = some c →
      XStep (.mock v) (m, reg) (m', reg) [(c, none)]
  | eq {m : XMgr p} {reg : Region p} {a b : Cell} :
      XStep (.eq a b) (m, reg) ({ m with cm := { m.cm with eqs := m.cm.eqs ++ [(a, b)] } }, reg) []
  | const {m : XMgr p} {reg : Region p} {c : ZMod p} {a : Cell} :
      XStep (.const c a) (m, reg) ({ m with cm := { m.cm with consts := m.cm.consts ++ [(c, a)] } }, reg) []
  | place {m : XMgr p} {reg : Region p} {c : Cell} {x : PCell} : c.typeId ≠ externalTypeId → clash m.cm.assigned c x = false →
      XStep (.place c x) (m, reg) ({ m with cm := { m.cm with assigned := m.cm.assigned.insert c x } }, reg) []
  | tie {m m' : XMgr p} {reg reg' : Region p} {a : AV p} {x : PCell} :
      (∀ c, a.cell = some c → c.typeId = externalTypeId → ∃ n, n < m.count ∧ c = extCell n) →
      m.tie a x reg = some (m', reg') → XStep (.tie a x) (m, reg) (m', reg') []
  | assignRaw {m m' : XMgr p} {reg reg' : Region p} {nf us : ℕ} : m.assignRaw nf us reg = some (m', reg') →
      XStep (.assignRaw nf us) (m, reg) (m', reg') []

/-- A history of calls (without `clear`), with everything that was loaded, in order. -/
inductive XHist : List (XOp p) → XMgr p × Region p → XMgr p × Region p → Loads → Prop
  | nil (m : XMgr p × Region p) : XHist [] m m []
  | cons {op : XOp p} {ops : List (XOp p)} {m m' m'' : XMgr p × Region p} {l l' : Loads} : XStep op m m' l → XHist ops m' m'' l' →
      XHist (op :: ops) m m'' (l ++ l')

/-- External cells in `assigned_advices` have numbers below the counter. -/
def XInv (m : XMgr p) : Prop := ∀ c x, m.cm.assigned c = some x → c.typeId = externalTypeId → ∃ n, n < m.count ∧ c = extCell n

theorem xinv_new : XInv (XMgr.new : XMgr p) := by intro c x h; cases h

theorem extCell_inj {n k : ℕ} : extCell n = extCell k ↔ n = k := by simp [extCell]

theorem insert_iff {m : CellMap} {c c' : Cell} {x y : PCell} : m.insert c x c' = some y ↔ (c' = c ∧ y = x) ∨ (c' ≠ c ∧ m c' = some y) := by
  unfold CellMap.insert
  by_cases h : c' = c
  · rw [if_pos h]; simp [h, eq_comm]
  · rw [if_neg h]; simp [h]

/-- The number is free, so the check for a different old cell never fires. -/
theorem XInv.free {m : XMgr p} (h : XInv m) : m.cm.assigned (extCell m.count) = none := by
  cases hx : m.cm.assigned (extCell m.count) with
  | none => rfl
  | some x =>
    obtain ⟨n, hn, he⟩ := h _ x hx rfl
    rw [extCell_inj] at he
    omega

theorem XInv.load {m : XMgr p} (h : XInv m) (x : PCell) :
    m.loadCell x = some (extCell m.count, { cm := { m.cm with assigned := m.cm.assigned.insert (extCell m.count) x }, count := m.count + 1 }) := by
  have : clash m.cm.assigned (extCell m.count) x = false := by unfold clash; rw [h.free]
  simp [XMgr.loadCell, XMgr.loadImpl, this]

/-- What a step does, as far as external cells are concerned. -/
structure StepOk (m m' : XMgr p) (l : Loads) : Prop where
  inv : XInv m'
  mono : ∀ c x, m.cm.assigned c = some x → m'.cm.assigned c = some x
  count : m'.count = m.count + l.length
  cells : ∀ (i : ℕ) (e : Cell × Option PCell), l[i]? = some e → e.1 = extCell (m.count + i) ∧ ∀ x, e.2 = some x → m'.cm.assigned e.1 = some x

theorem StepOk.refl {m : XMgr p} (h : XInv m) : StepOk m m [] := ⟨h, fun _ _ h => h, rfl, by simp⟩

theorem clash_false {m : CellMap} {c : Cell} {x y : PCell} (h : clash m c x = false) (hy : m c = some y) : y = x := by
  unfold clash at h
  rw [hy] at h
  simpa using h

theorem XStep.ok {op : XOp p} {m m' : XMgr p × Region p} {l : Loads} (h : XStep op m m' l) (hi : XInv m.1) : StepOk m.1 m'.1 l := by
  cases h with
  | @load m m' reg x c h =>
    rw [hi.load] at h
    obtain ⟨rfl, rfl⟩ := Prod.mk.inj (Option.some_inj.1 h)
    refine ⟨?_, ?_, rfl, ?_⟩
    · intro c y hc ht
      rcases insert_iff.1 hc with ⟨rfl, -⟩ | ⟨-, hc⟩
      · exact ⟨m.count, Nat.lt_succ_self _, rfl⟩
      · obtain ⟨n, hn, he⟩ := hi c y hc ht
        exact ⟨n, Nat.lt_succ_of_lt hn, he⟩
    · intro c y hc
      refine insert_iff.2 (.inr ⟨?_, hc⟩)
      rintro rfl
      rw [hi.free] at hc; cases hc
    · intro i e he
      cases i with
      | zero =>
        obtain rfl : _ = e := by simpa using he
        exact ⟨rfl, fun y hy => by obtain rfl := Option.some_inj.1 hy; exact insert_iff.2 (.inl ⟨rfl, rfl⟩)⟩
      | succ i => simp at he
  | @mock m m' reg v a c h hc =>
    simp only [XMgr.mock, XMgr.loadImpl, Option.map_some, Option.some.injEq, Prod.mk.injEq] at h
    obtain ⟨rfl, rfl⟩ := h
    obtain rfl := Option.some_inj.1 hc
    refine ⟨?_, fun _ _ h => h, rfl, ?_⟩
    · intro c y hc ht
      obtain ⟨n, hn, he⟩ := hi c y hc ht
      exact ⟨n, Nat.lt_succ_of_lt hn, he⟩
    · intro i e he
      cases i with
      | zero =>
        obtain rfl : _ = e := by simpa using he
        exact ⟨rfl, by simp⟩
      | succ i => simp at he
  | eq => exact ⟨hi, fun _ _ h => h, rfl, by simp⟩
  | const => exact ⟨hi, fun _ _ h => h, rfl, by simp⟩
  | @place m reg c x ht hcl =>
    refine ⟨?_, ?_, rfl, by simp⟩
    · intro c' y hc ht'
      rcases insert_iff.1 hc with ⟨rfl, -⟩ | ⟨-, hc⟩
      · exact absurd ht' ht
      · exact hi c' y hc ht'
    · intro c' y hc
      by_cases he : c' = c
      · subst he
        exact insert_iff.2 (.inl ⟨rfl, clash_false hcl hc⟩)
      · exact insert_iff.2 (.inr ⟨he, hc⟩)
  | @tie m m' reg reg' a x ha h =>
    simp only [XMgr.tie, Option.map_eq_some_iff, Prod.mk.injEq] at h
    obtain ⟨⟨mp, r⟩, h, rfl, rfl⟩ := h
    unfold constrainExternal at h
    cases hc : a.cell with
    | none => rw [hc] at h; simp at h
    | some c =>
      rw [hc] at h
      cases hm : m.cm.assigned c with
      | some y =>
        simp only [hm, Option.some.injEq, Prod.mk.injEq] at h
        obtain ⟨rfl, rfl⟩ := h
        exact ⟨hi, fun _ _ h => h, rfl, by simp⟩
      | none =>
        simp only [hm] at h
        by_cases ht : c.typeId = externalTypeId
        · rw [if_pos ht] at h
          obtain ⟨rfl, rfl⟩ := Prod.mk.inj (Option.some_inj.1 h)
          refine ⟨?_, ?_, rfl, by simp⟩
          · intro c' y hc' ht'
            rcases insert_iff.1 hc' with ⟨rfl, -⟩ | ⟨-, hc'⟩
            · exact ha _ hc ht'
            · exact hi c' y hc' ht'
          · intro c' y hc'
            refine insert_iff.2 (.inr ⟨?_, hc'⟩)
            rintro rfl
            rw [hm] at hc'; cases hc'
        · rw [if_neg ht] at h; cases h
  | @assignRaw m m' reg reg' nf us h =>
    simp only [XMgr.assignRaw, Option.map_eq_some_iff, Prod.mk.injEq] at h
    obtain ⟨r, -, rfl, rfl⟩ := h
    exact ⟨hi, fun _ _ h => h, rfl, by simp⟩

theorem XHist.ok {ops : List (XOp p)} {m m' : XMgr p × Region p} {l : Loads} (h : XHist ops m m' l) (hi : XInv m.1) : StepOk m.1 m'.1 l := by
  induction h with
  | nil m => exact .refl hi
  | @cons op ops m m1 m2 l1 l2 h _ ih =>
    have a := h.ok hi
    have b := ih a.inv
    refine ⟨b.inv, fun c x hc => b.mono c x (a.mono c x hc), by rw [b.count, a.count, List.length_append, Nat.add_assoc], ?_⟩
    intro i e he
    by_cases hl : i < l1.length
    · rw [List.getElem?_append_left hl] at he
      obtain ⟨h1, h2⟩ := a.cells i e he
      exact ⟨h1, fun x hx => b.mono _ _ (h2 x hx)⟩
    · rw [List.getElem?_append_right (by omega)] at he
      obtain ⟨h1, h2⟩ := b.cells (i - l1.length) e he
      refine ⟨?_, h2⟩
      rw [h1, a.count, extCell_inj]
      omega

end H2.Ext
