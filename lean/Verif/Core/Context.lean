import Mathlib.Data.ZMod.Basic
import Mathlib.Algebra.Field.ZMod

/-!
# Model of `halo2-base/src/lib.rs`: cells, quantum cells and `Context`

Every definition cites the Rust lines it models.  `none` in the monad `M` is a Rust panic.
-/

set_option autoImplicit false
namespace H2

/-- `ContextCell` (halo2-base/src/lib.rs:110-129). -/
structure Cell where
  typeId : String
  ctxId : Nat
  offset : Nat
deriving DecidableEq, Repr

/-- `halo2_proofs::plonk::Assigned<F>`: a field element possibly kept as an unevaluated fraction
(used in lib.rs:75,137,195). -/
inductive Assigned (p : ℕ) where
  | zero
  | trivial (a : ZMod p)
  | rational (num den : ZMod p)

/-- Batch-inversion result of an `Assigned` value: a fraction with zero denominator evaluates to 0
(halo2_proofs `Assigned::evaluate`).  External crate; assumption recorded in DESIGN.md. -/
def Assigned.eval {p : ℕ} [Fact p.Prime] : Assigned p → ZMod p
  | .zero => 0
  | .trivial a => a
  | .rational n d => n * d⁻¹

/-- `AssignedValue<F>` (lib.rs:131-141): a value together with the cell it was assigned to.  `cell` is
`none` exactly in witness-generation-only mode. -/
structure AV (p : ℕ) where
  value : Assigned p
  cell : Option Cell

/-- `AssignedValue::value()` (lib.rs:149-158): panics unless the value is `Assigned::Trivial`. -/
def AV.val? {p : ℕ} (a : AV p) : Option (ZMod p) :=
  match a.value with
  | .trivial x => some x
  | _ => none

/-- `QuantumCell<F>` (lib.rs:64-80). -/
inductive QCell (p : ℕ) where
  | existing (a : AV p)
  | witness (x : ZMod p)
  | witnessFraction (x : Assigned p)
  | constant (c : ZMod p)

/-- `QuantumCell::value()` (lib.rs:89-103): panics on `WitnessFraction`. -/
def QCell.val? {p : ℕ} : QCell p → Option (ZMod p)
  | .existing a => a.val?
  | .witness x => some x
  | .witnessFraction _ => none
  | .constant c => some c

/-- The `Assigned` value that `assign_cell` pushes on the advice column (lib.rs:254-281). -/
def QCell.assigned {p : ℕ} : QCell p → Assigned p
  | .existing a => a.value
  | .witness x => .trivial x
  | .witnessFraction x => x
  | .constant c => .trivial c

/-- `Context<F>` (lib.rs:173-209) together with the lists of the shared managers it appends to:
`eqs` = `copy_manager.advice_equalities`, `consts` = `copy_manager.constant_equalities`
(virtual_region/copy_constraints.rs:30-38), `lookups` = the bucket of
`lookup_manager[phase].cells_to_lookup` labelled with this context's tag
(virtual_region/lookups.rs:40-52; gates/range/mod.rs:555-559).

Simplification: the shared managers are behind `Arc<Mutex<..>>`; one context sees them as append-only
lists.  Interleaving of several contexts is modelled separately (`Verif/Threads`). -/
structure Ctx (p : ℕ) where
  wgo : Bool
  phase : Nat
  typeId : String
  ctxId : Nat
  advice : List (Assigned p)
  zeroCell : Option (AV p)
  selector : List Bool
  eqs : List (Cell × Cell)
  consts : List (ZMod p × Cell)
  lookups : List (AV p)

/-- `Context::new` (lib.rs:218-235) with the (possibly non-empty) lists of the shared managers. -/
def Ctx.new {p : ℕ} (wgo : Bool) (phase : Nat) (typeId : String) (ctxId : Nat)
    (eqs : List (Cell × Cell)) (consts : List (ZMod p × Cell)) : Ctx p :=
  { wgo, phase, typeId, ctxId, advice := [], zeroCell := none, selector := [], eqs, consts,
    lookups := [] }

/-- The virtual cell at `offset` of this context (`ContextCell::new(self.type_id, self.context_id, _)`). -/
def Ctx.cellAt {p : ℕ} (s : Ctx p) (i : Nat) : Cell := ⟨s.typeId, s.ctxId, i⟩

/-- State-and-panic monad: a routine taking `ctx: &mut Context<F>`. -/
abbrev M (p : ℕ) (α : Type) := StateT (Ctx p) Option α

variable {p : ℕ}

/-- A Rust panic (`unwrap` of `None`, failed `assert!`, index out of bounds). -/
def panic {α : Type} : M p α := fun _ => none

/-- `Option::unwrap` / `value()` inside a routine. -/
def unwrap {α : Type} (o : Option α) : M p α := fun s => o.map (fun a => (a, s))

/-- `assert!` inside a routine. -/
def assertM (c : Bool) : M p Unit := fun s => if c then some ((), s) else none

/-- `self.advice.len()`. -/
def adviceLen : M p Nat := fun s => some (s.advice.length, s)

/-- `ctx.witness_gen_only()`. -/
def getWgo : M p Bool := fun s => some (s.wgo, s)

/-- `Context::assign_cell` (lib.rs:252-282). -/
def assignCell (q : QCell p) : M p Unit := fun s =>
  match q with
  | .existing a =>
    if s.wgo then some ((), { s with advice := s.advice ++ [a.value] })
    else a.cell.map fun c =>
      ((), { s with advice := s.advice ++ [a.value],
                    eqs := s.eqs ++ [(s.cellAt s.advice.length, c)] })
  | .witness x => some ((), { s with advice := s.advice ++ [.trivial x] })
  | .witnessFraction x => some ((), { s with advice := s.advice ++ [x] })
  | .constant c =>
    if s.wgo then some ((), { s with advice := s.advice ++ [.trivial c] })
    else some ((), { s with advice := s.advice ++ [.trivial c],
                            consts := s.consts ++ [(c, s.cellAt s.advice.length)] })

/-- The loop `for input in inputs { self.assign_cell(input) }` (lib.rs:339-341, 345-347). -/
def assignCells : List (QCell p) → M p Unit
  | [] => pure ()
  | q :: qs => do assignCell q; assignCells qs

/-- `Vec::resize(n, false)` on the selector column (lib.rs:348, 456, 466). -/
def resize (l : List Bool) (n : Nat) : List Bool :=
  l.take n ++ List.replicate (n - l.length) false

/-- The loop that enables selectors at `row_offset + offset` (lib.rs:349-354): panics if the sum is
negative ("Invalid gate offset") or past the end ("Invalid selector offset"). -/
def enableGates (row : Nat) : List Int → M p Unit
  | [] => pure ()
  | o :: os => do
    (fun s =>
      let i := (row : Int) + o
      if 0 ≤ i ∧ i.toNat < s.selector.length then
        some ((), { s with selector := s.selector.set i.toNat true })
      else none : M p Unit)
    enableGates row os

/-- `Context::assign_region` (lib.rs:331-356). -/
def assignRegion (inputs : List (QCell p)) (gateOffsets : List Int) : M p Unit := fun s =>
  if s.wgo then assignCells inputs s
  else (do
    assignCells inputs
    (fun s => some ((), { s with selector := resize s.selector s.advice.length }) : M p Unit)
    enableGates s.advice.length gateOffsets) s

/-- `Context::last` (lib.rs:285-290). -/
def last? : M p (Option (AV p)) := fun s =>
  some (s.advice.getLast?.map fun v =>
    ⟨v, if s.wgo then none else some (s.cellAt (s.advice.length - 1))⟩, s)

/-- `ctx.last().unwrap()`. -/
def lastM : M p (AV p) := do unwrap (← last?)

/-- `Context::get` (lib.rs:297-310) for `offset: isize`; negative offsets count from the end, out of
range offsets fail the `assert!`. -/
def getM (offset : Int) : M p (AV p) := fun s =>
  let i : Int := if offset < 0 then (s.advice.length : Int) + offset else offset
  if i < 0 then none   -- `wrapping_add_signed` wraps to a huge index, which fails the assert
  else s.advice[i.toNat]?.map fun v =>
    (⟨v, if s.wgo then none else some (s.cellAt i.toNat)⟩, s)

/-- `Context::constrain_equal` (lib.rs:316-324). -/
def constrainEqual (a b : AV p) : M p Unit := fun s =>
  if s.wgo then some ((), s)
  else match a.cell, b.cell with
    | some c, some d => some ((), { s with eqs := s.eqs ++ [(c, d)] })
    | _, _ => none

/-- `Context::assign_region_last` (lib.rs:366-376). -/
def assignRegionLast (inputs : List (QCell p)) (gateOffsets : List Int) : M p (AV p) := do
  assignRegion inputs gateOffsets
  lastM

/-- The two loops adding equalities in `assign_region_smart` (lib.rs:401-425).
Simplification: `row_offset.wrapping_add_signed(offset)` with a negative sum would name a non-existent
cell; every call in the library uses non-negative offsets, so the model uses `Nat` offsets. -/
def smartEqs (row : Nat) (eqOffs : List (Nat × Nat)) (ext : List (Cell × Nat)) : M p Unit := fun s =>
  some ((), { s with eqs := s.eqs ++ eqOffs.map (fun e => (s.cellAt (row + e.1), s.cellAt (row + e.2)))
                              ++ ext.map (fun e => (e.1, s.cellAt (row + e.2))) })

/-- `Context::assign_region_smart` (lib.rs:385-427). -/
def assignRegionSmart (inputs : List (QCell p)) (gateOffsets : List Int)
    (eqOffs : List (Nat × Nat)) (ext : List (Cell × Nat)) : M p Unit := fun s =>
  (do
    assignRegion inputs gateOffsets
    if s.wgo then pure () else smartEqs s.advice.length eqOffs ext) s

/-- `Context::assign_witnesses` (lib.rs:431-449). -/
def assignWitnesses (ws : List (ZMod p)) : M p (List (AV p)) := fun s =>
  (do
    assignRegion (ws.map .witness) []
    (fun s' => some ((s'.advice.drop s.advice.length).mapIdx
      (fun i v => ⟨v, if s'.wgo then none else some (s'.cellAt (s.advice.length + i))⟩), s') :
      M p (List (AV p)))) s

/-- `if !self.witness_gen_only { self.selector.resize(self.advice.len(), false) }` (lib.rs:455-457). -/
def syncSelector : M p Unit := fun s =>
  some ((), if s.wgo then s else { s with selector := resize s.selector s.advice.length })

/-- `Context::load_witness` (lib.rs:453-459). -/
def loadWitness (x : ZMod p) : M p (AV p) := do
  assignCell (.witness x)
  syncSelector
  lastM

/-- `Context::load_constant` (lib.rs:463-469). -/
def loadConstant (c : ZMod p) : M p (AV p) := do
  assignCell (.constant c)
  syncSelector
  lastM

/-- `Context::load_constants` (lib.rs:473-475). -/
def loadConstants : List (ZMod p) → M p (List (AV p))
  | [] => pure []
  | c :: cs => do
    let a ← loadConstant c
    let as ← loadConstants cs
    pure (a :: as)

/-- `Context::load_zero` (lib.rs:478-485). -/
def loadZero : M p (AV p) := fun s =>
  match s.zeroCell with
  | some z => some (z, s)
  | none => (do
      let z ← loadConstant 0
      (fun s => some ((), { s with zeroCell := some z }) : M p Unit)
      pure z) s

/-- `GateInstructions::assert_is_const` (gates/flex_gate/mod.rs:333-337). -/
def assertIsConst (a : AV p) (c : ZMod p) : M p Unit := fun s =>
  if s.wgo then some ((), s)
  else a.cell.map fun x => ((), { s with consts := s.consts ++ [(c, x)] })

/-- `RangeChip::add_cell_to_lookup` (gates/range/mod.rs:555-559). -/
def addCellToLookup (a : AV p) : M p Unit := fun s =>
  some ((), { s with lookups := s.lookups ++ [a] })

end H2
