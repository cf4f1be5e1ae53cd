import Verif.Core.Sat
import Mathlib.Data.List.Sort
import Mathlib.Data.String.Basic
import Mathlib.Data.Prod.Lex

/-!
# Model of the virtual-to-physical layer

`gates/flex_gate/threads/single_phase.rs` (`assign_with_constraints`, `assign_witnesses`),
`virtual_region/copy_constraints.rs`, `virtual_region/lookups.rs`, `utils/halo2.rs`
(`constrain_virtual_equals_external`) and the part of `gates/circuit/{mod,builder}.rs` that calls them.

`none` is a Rust panic.  The halo2 `Region` is the log of the calls made to it: assigned cells, enabled selectors,
equality constraints.
-/

set_option autoImplicit false
namespace H2.Phys
open H2

/-- Physical columns: the `i`-th basic-gate advice column, the `j`-th column of the `i`-th lookup set, the `i`-th
fixed (constants) column, the `i`-th instance column. -/
inductive PCol where
  | advice (i : ℕ)
  | lookup (i j : ℕ)
  | fixed (i : ℕ)
  | inst (i : ℕ)
  /-- columns of a `BasicDynLookupConfig` (Threads/DynLookup.lean): `table[j]`, `to_lookup[i].0[j]`, and the fixed columns
  `table_is_enabled` (`none`) and `to_lookup[i].1` (`some i`) -/
  | dynTab (j : ℕ)
  | dynKey (i j : ℕ)
  | dynFix (o : Option ℕ)
  /-- the advice columns of another chip of the same circuit (for example the zkEVM Keccak columns) -/
  | other (i : ℕ)
deriving DecidableEq, Repr

/-- halo2's `Cell` (column, row); there is one region, so the region index is dropped. -/
structure PCell where
  col : PCol
  row : ℕ
deriving DecidableEq, Repr

/-- The calls recorded on a halo2 `Region`. -/
structure Region (p : ℕ) where
  /-- `assign_advice` calls, in order. -/
  writes : List (PCell × Assigned p)
  /-- `assign_fixed` calls, in order. -/
  fixed : List (PCell × ZMod p)
  /-- `constrain_equal` calls, in order. -/
  copies : List (PCell × PCell)
  /-- `q_enable.enable` calls: (gate column, row). -/
  sel : List (ℕ × ℕ)
  /-- `q_lookup.enable` calls: rows of the single advice column. -/
  qlk : List ℕ

def Region.empty {p : ℕ} : Region p := ⟨[], [], [], [], []⟩

/-- `assigned_advices: HashMap<ContextCell, Cell>` (copy_constraints.rs:44). -/
abbrev CellMap := Cell → Option PCell

/-- `HashMap::insert`. -/
def CellMap.insert (m : CellMap) (c : Cell) (pc : PCell) : CellMap := fun c' => if c' = c then some pc else m c'

variable {p : ℕ}

/-- Loop state of `assign_with_constraints`: `gate_index`, `row_offset`, `break_points`, the region and
`copy_manager.assigned_advices`. -/
structure LState (p : ℕ) where
  gate : ℕ
  row : ℕ
  bps : List ℕ
  reg : Region p
  map : CellMap

/-- The condition for a break point (single_phase.rs:231), `max_rows - 1` on `usize`. -/
def brk (rot maxRows : ℕ) (q : Bool) (row : ℕ) : Bool := (q && decide (row + rot > maxRows)) || decide (row ≥ maxRows - 1)

/-- The safety check (single_phase.rs:236-243): for `delta in 1..ROTATIONS-1` the selector is off at `i - delta`;
skipped when `i + 2 < ROTATIONS`.  An index below zero cannot occur (`delta ≤ ROTATIONS - 2 ≤ i`). -/
def overlapOk (rot : ℕ) (sel : List Bool) (i : ℕ) : Bool :=
  if 1 < rot ∧ rot ≤ i + 2 then (List.range' 1 (rot - 2)).all fun d => !(sel.getD (i - d) false) else true

/-- The overwrite check after `assigned_advices.insert` (single_phase.rs:219-227): the cell was already mapped, to
another physical cell. -/
def clash (m : CellMap) (c : Cell) (x : PCell) : Bool :=
  match m c with
  | some old => decide (old ≠ x)
  | none => false

/-- Body of the inner loop of `assign_with_constraints` (single_phase.rs:209-268) for cell `i` of a thread; `sel` is
the whole selector column of the thread and `ncols = basic_gates.len()`. -/
def awcCell (rot maxRows ncols : ℕ) (s : Ctx p) (i : ℕ) (v : Assigned p) (q : Bool) (st : LState p) :
    Option (LState p) :=
  let cell : PCell := ⟨.advice st.gate, st.row⟩
  let reg := { st.reg with writes := st.reg.writes ++ [(cell, v)] }
  if clash st.map (s.cellAt i) cell then none
  else
    let map := st.map.insert (s.cellAt i) cell
    if maxRows = 0 then none -- `max_rows - 1` underflows
    else if brk rot maxRows q st.row then
      if overlapOk rot s.selector i = false then none
      else if st.gate + 1 < ncols then
        let ncell : PCell := ⟨.advice (st.gate + 1), 0⟩
        let reg := { reg with writes := reg.writes ++ [(ncell, v)], copies := reg.copies ++ [(ncell, cell)],
                              sel := if q then reg.sel ++ [(st.gate + 1, 0)] else reg.sel }
        some { gate := st.gate + 1, row := 1, bps := st.bps ++ [st.row], reg, map }
      else none -- NOT ENOUGH ADVICE COLUMNS
    else
      let reg := { reg with sel := if q then reg.sel ++ [(st.gate, st.row)] else reg.sel }
      some { st with row := st.row + 1, reg, map }

/-- The inner loop (single_phase.rs:209-268) from index `i`. -/
def awcCells (rot maxRows ncols : ℕ) (s : Ctx p) : ℕ → List (Assigned p × Bool) → LState p → Option (LState p)
  | _, [], st => some st
  | i, (v, q) :: l, st => do
    let st ← awcCell rot maxRows ncols s i v q st
    awcCells rot maxRows ncols s (i + 1) l st

/-- The outer loop (single_phase.rs:199-270). -/
def awcThreads (rot maxRows ncols : ℕ) : List (Ctx p) → LState p → Option (LState p)
  | [], st => some st
  | s :: ss, st =>
    if s.advice = [] then awcThreads rot maxRows ncols ss st
    else if ¬ st.gate < ncols then none
    else if s.selector.length ≠ s.advice.length then none
    else do
      let st ← awcCells rot maxRows ncols s 0 (s.advice.zip s.selector) st
      awcThreads rot maxRows ncols ss st

/-- `assign_with_constraints::<F, 4>` (single_phase.rs:188-272, called with `ROTATIONS = 4` at 150-157). -/
def assignWithConstraints (maxRows ncols : ℕ) (threads : List (Ctx p)) (reg : Region p) (map : CellMap) :
    Option (LState p) :=
  awcThreads 4 maxRows ncols threads { gate := 0, row := 0, bps := [], reg, map }

/-- Loop state of `assign_witnesses`: `gate_index`, `row_offset`, `break_point :: break_points`, the writes. -/
structure WState (p : ℕ) where
  gate : ℕ
  row : ℕ
  bps : List ℕ
  writes : List (PCell × Assigned p)

/-- Body of the inner loop of `assign_witnesses` (single_phase.rs:307-319). -/
def awCell (ncols : ℕ) (v : Assigned p) (st : WState p) : Option (WState p) :=
  let writes := st.writes ++ [(⟨.advice st.gate, st.row⟩, v)]
  if st.bps.head? = some st.row then
    if st.gate + 1 < ncols then
      some { gate := st.gate + 1, row := 1, bps := st.bps.tail,
             writes := writes ++ [(⟨.advice (st.gate + 1), 0⟩, v)] }
    else none -- `basic_gates[gate_index]` out of bounds
  else some { st with row := st.row + 1, writes }

/-- Loops of `assign_witnesses` (single_phase.rs:304-320) over all cells of all threads. -/
def awCells (ncols : ℕ) : List (Assigned p) → WState p → Option (WState p)
  | [], st => some st
  | v :: l, st => do
    let st ← awCell ncols v st
    awCells ncols l st

def awThreads (ncols : ℕ) : List (Ctx p) → WState p → Option (WState p)
  | [], st => some st
  | s :: ss, st => do
    let st ← awCells ncols s.advice st
    awThreads ncols ss st

/-- `assign_witnesses` (single_phase.rs:282-321). -/
def assignWitnesses (ncols : ℕ) (threads : List (Ctx p)) (bps : List ℕ) (writes : List (PCell × Assigned p)) :
    Option (List (PCell × Assigned p)) :=
  if ncols = 0 then
    if (threads.map fun s => s.advice.length).sum = 0 then some writes else none
  else (awThreads ncols threads { gate := 0, row := 0, bps, writes }).map (·.writes)

/-! ## Copy constraint manager -/

/-- Order on `ContextCell` (derived `Ord`, lib.rs:111): lexicographic. -/
def cellKey (c : Cell) : String ×ₗ ℕ ×ₗ ℕ := toLex (c.typeId, toLex (c.ctxId, c.offset))

/-- `c1.cmp(c2).then(cell1.cmp(cell2))` (copy_constraints.rs:142); field elements are ordered by canonical value. -/
def constKey (e : ZMod p × Cell) : ℕ ×ₗ String ×ₗ ℕ ×ₗ ℕ := toLex (e.1.val, cellKey e.2)

def eqKey (e : Cell × Cell) : (String ×ₗ ℕ ×ₗ ℕ) ×ₗ (String ×ₗ ℕ ×ₗ ℕ) := toLex (cellKey e.1, cellKey e.2)

/-- `par_sort_unstable_by` on `constant_equalities` (copy_constraints.rs:140-142). -/
def sortConsts (l : List (ZMod p × Cell)) : List (ZMod p × Cell) := l.insertionSort fun a b => constKey a ≤ constKey b

/-- `par_sort_unstable` on `advice_equalities` (copy_constraints.rs:160). -/
def sortEqs (l : List (Cell × Cell)) : List (Cell × Cell) := l.insertionSort fun a b => eqKey a ≤ eqKey b

/-- `assigned_constants: BTreeMap<F, Cell>` (copy_constraints.rs:46). -/
abbrev ConstMap (p : ℕ) := ZMod p → Option PCell

/-- Loop state of the constant assignment (copy_constraints.rs:144-157). -/
structure CState (p : ℕ) where
  col : ℕ
  off : ℕ
  fixed : List (PCell × ZMod p)
  map : ConstMap p

/-- Body of the loop of copy_constraints.rs:146-157.  `raw_assign_fixed` panics when out of rows (`usable`), and
`config[fixed_col]` when there is no fixed column. -/
def constStep (nfixed usable : ℕ) (c : ZMod p) (st : CState p) : Option (CState p) :=
  match st.map c with
  | some _ => some st
  | none =>
    if st.col < nfixed ∧ st.off < usable then
      let cell : PCell := ⟨.fixed st.col, st.off⟩
      let col := st.col + 1
      let (col, off) := if col ≥ nfixed then (0, st.off + 1) else (col, st.off)
      some { col, off, fixed := st.fixed ++ [(cell, c)], map := fun c' => if c' = c then some cell else st.map c' }
    else none

def constLoop (nfixed usable : ℕ) : List (ZMod p × Cell) → CState p → Option (CState p)
  | [], st => some st
  | e :: l, st => do
    let st ← constStep nfixed usable e.1 st
    constLoop nfixed usable l st

/-- `for (left, right) in &manager.advice_equalities` (copy_constraints.rs:163-167). -/
def eqLoop (map : CellMap) : List (Cell × Cell) → Option (List (PCell × PCell))
  | [] => some []
  | (l, r) :: es => do
    let pl ← map l
    let pr ← map r
    let rest ← eqLoop map es
    pure ((pl, pr) :: rest)

/-- `for (left, right) in &manager.constant_equalities` (copy_constraints.rs:168-172). -/
def constEqLoop (cmap : ConstMap p) (map : CellMap) : List (ZMod p × Cell) → Option (List (PCell × PCell))
  | [] => some []
  | (c, r) :: es => do
    let pl ← cmap c
    let pr ← map r
    let rest ← constEqLoop cmap map es
    pure ((pl, pr) :: rest)

/-- `assign_raw` of the copy manager (copy_constraints.rs:135-179): `eqs`/`consts` are the collected lists. -/
def copyAssignRaw (nfixed usable : ℕ) (eqs : List (Cell × Cell)) (consts : List (ZMod p × Cell)) (map : CellMap)
    (reg : Region p) : Option (Region p) := do
  let consts := sortConsts consts
  let cst ← constLoop nfixed usable consts ⟨0, 0, [], fun _ => none⟩
  let eqs := sortEqs eqs
  let c1 ← eqLoop map eqs
  let c2 ← constEqLoop cst.map map consts
  pure { reg with fixed := reg.fixed ++ cst.fixed, copies := reg.copies ++ c1 ++ c2 }

/-! ## Lookup manager -/

/-- `ContextTag` (lib.rs:108). -/
abbrev Tag := String ×ₗ ℕ

/-- `cells_to_lookup: BTreeMap<ContextTag, Vec<[AssignedValue; ADVICE_COLS]>>` (lookups.rs:46), as the list of its
entries in key order. -/
abbrev Buckets (p : ℕ) := List (Tag × List (List (AV p)))

/-- `add_lookup` (lookups.rs:72-80). -/
def addLookup : Buckets p → Tag → List (AV p) → Buckets p
  | [], t, c => [(t, [c])]
  | (t', l) :: m, t, c =>
    if t = t' then (t', l ++ [c]) :: m
    else if t < t' then (t, [c]) :: (t', l) :: m
    else (t', l) :: addLookup m t c

/-- A sequence of `add_lookup` calls, in the order in which the mutex was acquired. -/
def addLookups (m : Buckets p) (es : List (Tag × List (AV p))) : Buckets p :=
  es.foldl (fun m e => addLookup m e.1 e.2) m

/-- `cells_to_lookup.iter().flat_map(|(_, advices)| advices)` (lookups.rs:137). -/
def Buckets.all (m : Buckets p) : List (List (AV p)) := m.flatMap (·.2)

/-- `EXTERNAL_CELL_TYPE_ID` (copy_constraints.rs:19). -/
def externalTypeId : String := "halo2-base:External Raw Halo2 Cell"

/-- `constrain_virtual_equals_external` (utils/halo2.rs:84-109). -/
def constrainExternal (a : AV p) (ext : PCell) (map : CellMap) (reg : Region p) : Option (CellMap × Region p) :=
  match a.cell with
  | none => none
  | some c =>
    match map c with
    | some pc => some (map, { reg with copies := reg.copies ++ [(pc, ext)] })
    | none => if c.typeId = externalTypeId then some (map.insert c ext, reg) else none

/-- `for (advice, &column) in advices.iter().zip(config[lookup_col].iter())` (lookups.rs:143-149), not
witness-generation-only; `j` is the column index within the set. -/
def lkCols (setIdx off usable : ℕ) : ℕ → List (AV p) → CellMap → Region p → Option (CellMap × Region p)
  | _, [], map, reg => some (map, reg)
  | j, a :: as, map, reg =>
    if off < usable then do
      let cell : PCell := ⟨.lookup setIdx j, off⟩
      let reg := { reg with writes := reg.writes ++ [(cell, a.value)] }
      let (map, reg) ← constrainExternal a cell map reg
      lkCols setIdx off usable (j + 1) as map reg
    else none

/-- The loop of `LookupAnyManager::assign_raw` (lookups.rs:137-152) with state `(lookup_col, lookup_offset)`. -/
def lkLoop (nsets usable : ℕ) : List (List (AV p)) → ℕ → ℕ → CellMap → Region p → Option (CellMap × Region p)
  | [], _, _, map, reg => some (map, reg)
  | as :: l, col, off, map, reg => do
    let (col, off) := if col ≥ nsets then (0, off + 1) else (col, off)
    if col < nsets then
      let (map, reg) ← lkCols col off usable 0 as map reg
      lkLoop nsets usable l (col + 1) off map reg
    else none -- `config[lookup_col]` out of bounds

/-- The special case of `assign_lookups_in_phase` for a single advice column (circuit/builder.rs:338-352): enable
`q_lookup` on the row of each queued cell. -/
def qLookupLoop (map : CellMap) : List (List (AV p)) → Region p → Option (Region p)
  | [], reg => some reg
  | as :: l, reg => do
    let a ← as.head?
    let c ← a.cell
    let pc ← map c
    if pc.col = .advice 0 then qLookupLoop map l { reg with qlk := reg.qlk ++ [pc.row] } else none

/-- Shape of the physical circuit (`BaseConfig`): whether it has a lookup table (`MaybeRangeConfig::WithRange`), the
number of gate columns, fixed columns and lookup sets; whether the single-column `q_lookup` optimisation is configured;
`max_rows` for the gate columns and the usable rows of the region. -/
structure Cfg where
  withRange : Bool
  ncols : ℕ
  nfixed : ℕ
  nsets : ℕ
  qLookup : Bool
  maxRows : ℕ
  usable : ℕ

/-- `BaseConfig::configure` (circuit/mod.rs:74-96) with `RangeConfig::configure` (range/mod.rs:57-115) and
`FlexGateConfig::configure` (flex_gate/mod.rs:120-143), phase 0 only; `maxRows` and `usable` come from halo2. -/
def configure (numAdvice numFixed : ℕ) (numLookupAdvice : List ℕ) (lookupBits : Option ℕ) (maxRows usable : ℕ) : Cfg :=
  let withRange := lookupBits.isSome && numLookupAdvice.sum != 0
  let n0 := numLookupAdvice.headD 0
  let q := withRange && numAdvice == 1 && n0 != 0
  { withRange, ncols := numAdvice, nfixed := numFixed, nsets := if q then 0 else n0, qLookup := q, maxRows, usable }

/-- `assign_lookups_in_phase` (circuit/builder.rs:325-366), not witness-generation-only. -/
def assignLookups (cfg : Cfg) (cells : List (List (AV p))) (map : CellMap) (reg : Region p) :
    Option (CellMap × Region p) :=
  if cells = [] then some (map, reg)
  else if cfg.qLookup then
    if cfg.ncols = 1 then (qLookupLoop map cells reg).map fun r => (map, r) else none
  else lkLoop cfg.nsets cfg.usable cells 0 0 map reg

/-- `assign_instances` (circuit/builder.rs:285-306) for one instance column `k`. -/
def instLoop (k : ℕ) (map : CellMap) : ℕ → List (AV p) → Option (List (PCell × PCell))
  | _, [] => some []
  | i, a :: as => do
    let c ← a.cell
    let pc ← map c
    let rest ← instLoop k map (i + 1) as
    pure ((pc, ⟨.inst k, i⟩) :: rest)

def instAll (map : CellMap) : ℕ → List (List (AV p)) → Option (List (PCell × PCell))
  | _, [] => some []
  | k, l :: ls => do
    let a ← instLoop k map 0 l
    let b ← instAll map (k + 1) ls
    pure (a ++ b)

/-- `if let MaybeRangeConfig::WithRange(config) = &config.base { self.assign_lookups_in_phase(..) }`
(circuit/mod.rs:183-186): without a table the queued lookups are ignored. -/
def lookupStage (cfg : Cfg) (cells : List (List (AV p))) (map : CellMap) (reg : Region p) :
    Option (CellMap × Region p) :=
  if cfg.withRange then assignLookups cfg cells map reg else some (map, reg)

/-- `BaseCircuitBuilder::synthesize` (circuit/mod.rs:164-198) during keygen / mock proving: phase-0 threads, lookups
(only if the config has a table), copy constraints, public instances.  `ext` is the initial content of `assigned_advices`
(cells of other virtual regions or external cells). -/
def synthesize (cfg : Cfg) (threads : List (Ctx p)) (eqs : List (Cell × Cell)) (consts : List (ZMod p × Cell))
    (lookups : Buckets p) (instances : List (List (AV p))) (ext : CellMap) :
    Option (Region p × CellMap × List ℕ) := do
  let st ← assignWithConstraints cfg.maxRows cfg.ncols threads Region.empty ext
  let (map, reg) ← lookupStage cfg lookups.all st.map st.reg
  let reg ← copyAssignRaw cfg.nfixed cfg.usable eqs consts map reg
  let ic ← instAll map 0 instances
  pure ({ reg with copies := reg.copies ++ ic }, map, st.bps)

/-! ## Meaning of the physical circuit (specification) -/

/-- A physical assignment `v` satisfies the circuit recorded in the region: gates `q (a + b c - d) = 0`
(flex_gate/mod.rs:79-90), equality constraints, fixed values, and the lookup argument: on every usable row of every
lookup column (always on, range/mod.rs:131-136), and on the rows where `q_lookup` is enabled (range/mod.rs:118-127;
elsewhere the looked-up expression is `0`). -/
structure PSat (cfg : Cfg) (tbl : List (ZMod p) → Prop) (width : ℕ) (reg : Region p) (v : PCell → ZMod p) : Prop where
  gate : ∀ g r, (g, r) ∈ reg.sel →
    v ⟨.advice g, r⟩ + v ⟨.advice g, r + 1⟩ * v ⟨.advice g, r + 2⟩ = v ⟨.advice g, r + 3⟩
  copy : ∀ e ∈ reg.copies, v e.1 = v e.2
  fixed : ∀ e ∈ reg.fixed, v e.1 = e.2
  lookup : ∀ i < cfg.nsets, ∀ r < cfg.usable, tbl ((List.range width).map fun j => v ⟨.lookup i j, r⟩)
  qlookup : ∀ r ∈ reg.qlk, tbl [v ⟨.advice 0, r⟩]

end H2.Phys
