import Verif.Threads.Prover
import Verif.Threads.PoolCmp
import Verif.Props.Capacity

/-!
# Model of `BaseCircuitBuilder` as a state machine

`gates/circuit/builder.rs`, `gates/flex_gate/threads/{multi_phase,single_phase,parallelize}.rs` and the state kept by
`virtual_region/copy_constraints.rs`, `virtual_region/lookups.rs` between calls.  `none` is a Rust panic.

A context of the model (`Ctx`) carries the log of what it pushed to the shared copy and lookup managers; the builder has the managers
themselves.  In the code a push goes to the manager directly; here it is moved there when the borrow of the context ends, which is
the same for one context at a time, and for several (`parallelize`) the pushes are merged in an arbitrary order.

`clone`, `deep_clone`, `set_copy_manager` (sharing of a manager by several builders) are in `Threads/Shared.lean`.  Not modelled: direct mutation of the public fields except
pushing to `assigned_instances`, and the display of statistics.
-/

set_option autoImplicit false
set_option linter.unusedSectionVars false
namespace H2.Bld
open H2 Phys
variable {p : ℕ}

/-! ## State -/

/-- `SinglePhaseCoreManager` (single_phase.rs:23-41), without the shared copy manager. -/
structure PhaseMgr (p : ℕ) where
  threads : List (Ctx p)
  wgo : Bool
  useUnknown : Bool
  phase : ℕ
  bps : Option (List ℕ)

/-- `CopyConstraintManager` (copy_constraints.rs:31-48).  `assigned_constants` is empty between calls (copy_constraints.rs:178) and
`assigned` is only used for a warning. -/
structure CopyMgr (p : ℕ) where
  eqs : List (Cell × Cell)
  consts : List (ZMod p × Cell)
  assigned : CellMap

/-- `BaseCircuitParams` (circuit/mod.rs:21-38). -/
structure Params where
  k : ℕ
  numAdvice : List ℕ
  numFixed : ℕ
  numLookup : List ℕ
  lookupBits : Option ℕ
  numInst : ℕ

/-- `BaseCircuitBuilder` (builder.rs:45-60) with its `MultiPhaseCoreManager` (multi_phase.rs:14-26). -/
structure Builder (p : ℕ) where
  wgo : Bool
  useUnknown : Bool
  phases : List (PhaseMgr p)
  cm : CopyMgr p
  lookups : List (Buckets p)
  params : Params
  instances : List (List (AV p))

/-! ## Operations -/

/-- `SinglePhaseCoreManager::type_of` (single_phase.rs:110-117). -/
def typeOf : ℕ → Option String
  | 0 => some "halo2-base:SinglePhaseCoreManager:FirstPhase"
  | 1 => some "halo2-base:SinglePhaseCoreManager:SecondPhase"
  | 2 => some "halo2-base:SinglePhaseCoreManager:ThirdPhase"
  | _ => none

/-- `SinglePhaseCoreManager::new` with `in_phase` (single_phase.rs:49-63). -/
def PhaseMgr.new (wgo : Bool) (phase : ℕ) : PhaseMgr p := ⟨[], wgo, false, phase, none⟩

/-- `SinglePhaseCoreManager::new_context` (single_phase.rs:120-128). -/
def PhaseMgr.newContext (pm : PhaseMgr p) (id : ℕ) : Option (Ctx p) :=
  (typeOf pm.phase).map fun t => Ctx.new pm.wgo pm.phase t id [] []

/-- `BaseCircuitBuilder::new` (builder.rs:82-87), `MultiPhaseCoreManager::new` (multi_phase.rs:35-40); `MAX_PHASE = 3`. -/
def Builder.new (wgo : Bool) : Builder p :=
  { wgo, useUnknown := false, phases := [.new wgo 0], cm := ⟨[], [], fun _ => none⟩, lookups := List.replicate 3 [],
    params := ⟨0, [], 0, [], none, 0⟩, instances := [] }

/-- `unknown` (builder.rs:206-209, multi_phase.rs:63-69). -/
def Builder.unknown (b : Builder p) (u : Bool) : Builder p :=
  { b with useUnknown := u, phases := b.phases.map fun pm => { pm with useUnknown := u } }

/-- `CircuitBuilderStage` (circuit/mod.rs:203-210). -/
inductive Stage where
  | keygen | prover | mock
deriving DecidableEq

/-- `from_stage` (builder.rs:90-92). -/
def Builder.fromStage (st : Stage) : Builder p := (Builder.new (st == .prover)).unknown (st == .keygen)

/-- `MultiPhaseCoreManager::touch` (multi_phase.rs:99-106). -/
def Builder.touch (b : Builder p) (phase : ℕ) : Builder p :=
  { b with phases := b.phases ++
      (List.range' b.phases.length (phase + 1 - b.phases.length)).map fun i => PhaseMgr.new b.wgo i }

/-- The pushes of a context that went from `s` to `s'` reach the copy manager and the lookup manager of its phase
(`Context::assign_cell`, lib.rs:252-282; `RangeChip::add_cell_to_lookup`, range/mod.rs:555-559). -/
def Builder.absorb (b : Builder p) (s s' : Ctx p) : Builder p :=
  { b with
    cm := { b.cm with eqs := b.cm.eqs ++ s'.eqs.drop s.eqs.length, consts := b.cm.consts ++ s'.consts.drop s.consts.length }
    lookups := b.lookups.modify s.phase fun m =>
      addLookups m ((s'.lookups.drop s.lookups.length).map fun a => (Ctx.tag s, [a])) }

def Builder.setThreads (b : Builder p) (phase : ℕ) (ts : List (Ctx p)) : Builder p :=
  { b with phases := b.phases.modify phase fun pm => { pm with threads := ts } }

/-- Use of the context returned by `new_thread` (builder.rs:235-237, multi_phase.rs:88-91, single_phase.rs:132-136) by the program
`m`. -/
def Builder.newThread {α : Type} (b : Builder p) (phase : ℕ) (m : M p α) : Option (α × Builder p) := do
  let b := b.touch phase
  let pm ← b.phases[phase]?
  let s ← pm.newContext pm.threads.length
  let (r, s') ← m s
  pure (r, (b.setThreads phase (pm.threads ++ [s'])).absorb s s')

/-- Use of the context returned by `main` (builder.rs:223-225, multi_phase.rs:81-84, single_phase.rs:98-104) by the program `m`: the
last thread, or a new one. -/
def Builder.main {α : Type} (b : Builder p) (phase : ℕ) (m : M p α) : Option (α × Builder p) := do
  let b := b.touch phase
  let pm ← b.phases[phase]?
  match pm.threads.getLast? with
  | none => b.newThread phase m
  | some s =>
    let (r, s') ← m s
    pure (r, (b.setThreads phase (pm.threads.dropLast ++ [s'])).absorb s s')

/-- `parallelize_core(builder.pool(phase), input, f)` (builder.rs:228-230, parallelize.rs:8-29) for some schedule: new contexts for the
inputs, numbered from the number of threads; their pushes reach the shared managers in some order. -/
def Builder.Parallel {T R : Type} (b : Builder p) (phase : ℕ) (input : List T) (f : T → M p R) (rs : List R) (b' : Builder p) : Prop :=
  ∃ pm t ss eqs consts queued, b.phases[phase]? = some pm ∧ (input = [] ∨ typeOf pm.phase = some t) ∧
    parLoop pm.wgo pm.phase t f pm.threads.length input = some (rs, ss) ∧
    Merge (ss.map (·.eqs)) eqs ∧ Merge (ss.map (·.consts)) consts ∧ Merge (ss.map lookupLog) queued ∧
    b' = { b.setThreads phase (pm.threads ++ ss) with
      cm := { b.cm with eqs := b.cm.eqs ++ eqs, consts := b.cm.consts ++ consts }
      lookups := b.lookups.modify phase fun m => addLookups m queued }

/-- `set_instance_columns` (builder.rs:147-153). -/
def Builder.setInstanceColumns (b : Builder p) (n : ℕ) : Option (Builder p) :=
  let ins := b.instances ++ List.replicate (n - b.instances.length) []
  if ins.length = n then some { b with params := { b.params with numInst := n }, instances := ins } else none

/-- `set_params` (builder.rs:162-165). -/
def Builder.setParams (b : Builder p) (ps : Params) : Option (Builder p) :=
  (b.setInstanceColumns ps.numInst).map fun b => { b with params := ps }

/-- `set_k` (builder.rs:136-138). -/
def Builder.setK (b : Builder p) (k : ℕ) : Builder p := { b with params := { b.params with k } }

/-- `set_lookup_bits` (builder.rs:125-127). -/
def Builder.setLookupBits (b : Builder p) (n : ℕ) : Builder p := { b with params := { b.params with lookupBits := some n } }

/-- `builder.assigned_instances[col].push(a)`. -/
def Builder.expose (b : Builder p) (col : ℕ) (a : AV p) : Option (Builder p) :=
  if col < b.instances.length then some { b with instances := b.instances.modify col fun l => l ++ [a] } else none

/-- `set_break_points` (builder.rs:183-191): `zip_eq` panics when there are more phases than given. -/
def Builder.setBreakPoints (b : Builder p) (bps : List (List ℕ)) : Option (Builder p) :=
  if bps = [] then some b
  else
    let b := b.touch (bps.length - 1)
    if b.phases.length = bps.length then
      some { b with phases := b.phases.zipWith (fun pm bp => { pm with bps := some bp }) bps }
    else none

/-- `break_points` (builder.rs:174-180): panics unless they are set for every phase. -/
def Builder.breakPoints (b : Builder p) : Option (List (List ℕ)) := b.phases.mapM (·.bps)

/-- `clear` (builder.rs:212-218, multi_phase.rs:72-77, single_phase.rs:91-94, lookups.rs:94-98, copy_constraints.rs:102-109). -/
def Builder.clear (b : Builder p) : Builder p :=
  { b with
    phases := b.phases.map fun pm => { pm with threads := [] }
    cm := ⟨[], [], fun _ => none⟩
    lookups := b.lookups.map fun _ => []
    instances := b.instances.map fun _ => [] }

/-- `calculate_params` (builder.rs:258-289, multi_phase.rs:108-153): panics when `k` is 0 and (arithmetic) when the minimum number of
rows reaches `2^k`. -/
def Builder.calculateParams (b : Builder p) (minRows : Option ℕ) : Option (Builder p) :=
  let k := b.params.k
  let mr := minRows.getD 0
  if k = 0 ∨ 2 ^ k ≤ mr then none
  else some { b with params :=
    { k
      numAdvice := b.phases.map fun pm => autoAdvice k mr (totalAdvice pm.threads)
      numFixed := autoFixed k (b.cm.consts.map Prod.fst).toFinset.card
      numLookup := b.lookups.map fun m => autoLookup k mr m.all.length
      lookupBits := b.params.lookupBits
      numInst := b.params.numInst } }

/-- `configure_with_params(self.params())` (circuit/mod.rs:145-157) restricted to phase 0; `maxRows` and `usable` come from halo2. -/
def Builder.cfg (b : Builder p) (maxRows usable : ℕ) : Cfg :=
  configure (b.params.numAdvice.headD 0) b.params.numFixed b.params.numLookup b.params.lookupBits maxRows usable

/-- `Circuit::synthesize` of the builder (circuit/mod.rs:164-198) when not witness-generation-only.  Phase 0 is laid out; its break
points are recorded, or compared with those already there (single_phase.rs:158-163); the instance columns of the configuration
(`params.num_instance_columns`) and the lists of assigned instances must have the same number (`zip_eq`, builder.rs:292); the copy
manager keeps its (now sorted) constraints and the places of the assigned cells. -/
def Builder.synthesize (b : Builder p) (maxRows usable : ℕ) : Option (Region p × Builder p) := do
  let pm ← b.phases[0]?
  if b.params.numAdvice = [] then none -- `basic_gates[0]`
  else
    let (reg, map, bps) ← Phys.synthesize (b.cfg maxRows usable) pm.threads b.cm.eqs b.cm.consts (b.lookups.headD []) b.instances
      b.cm.assigned
    if b.instances.length = b.params.numInst ∧ (pm.bps = none ∨ pm.bps = some bps) then
      some (reg, { b with
        phases := b.phases.modify 0 fun pm => { pm with bps := some bps }
        cm := ⟨sortEqs b.cm.eqs, sortConsts b.cm.consts, map⟩ })
    else none

/-- `Circuit::synthesize` of a witness-generation-only builder: the advice values written (panics without break points). -/
def Builder.synthesizeProver (b : Builder p) (maxRows usable : ℕ) : Option (List (PCell × Assigned p)) := do
  let pm ← b.phases[0]?
  if b.params.numAdvice = [] then none
  else
    let bps ← pm.bps
    Phys.synthesizeProver (b.cfg maxRows usable) pm.threads (b.lookups.headD []) bps

/-- `BaseCircuitBuilder::prover` (builder.rs:95-100). -/
def Builder.prover (ps : Params) (bps : List (List ℕ)) : Option (Builder p) :=
  ((Builder.new true).setParams ps).bind fun b => b.setBreakPoints bps

/-! ## Histories -/

/-- Programs over the methods of `Context` (and `assert_is_const`, `add_cell_to_lookup`): the routines of the library and the
programs of its users. -/
inductive CtxProg : {α : Type} → M p α → Prop
  | pure {α : Type} (a : α) : CtxProg (pure a)
  | bind {α β : Type} {m : M p α} {f : α → M p β} : CtxProg m → (∀ a, CtxProg (f a)) → CtxProg (m >>= f)
  | read {α : Type} {m : M p α} : (∀ s r s', m s = some (r, s') → s' = s) → CtxProg m
  | assignRegion (qs : List (QCell p)) (gs : List ℤ) : CtxProg (assignRegion qs gs)
  | assignRegionSmart (qs : List (QCell p)) (gs : List ℤ) (e : List (ℕ × ℕ)) (x : List (Cell × ℕ)) : CtxProg (assignRegionSmart qs gs e x)
  | constrainEqual (a b : AV p) : CtxProg (constrainEqual a b)
  | assignWitnesses (ws : List (ZMod p)) : CtxProg (H2.assignWitnesses ws)
  | loadWitness (x : ZMod p) : CtxProg (loadWitness x)
  | loadConstant (c : ZMod p) : CtxProg (loadConstant c)
  | loadZero : CtxProg loadZero
  | assertIsConst (a : AV p) (c : ZMod p) : CtxProg (assertIsConst a c)
  | addCellToLookup (a : AV p) : CtxProg (addCellToLookup a)

/-- A call on the builder. -/
inductive Op (p : ℕ) : Type 1
  | main (phase : ℕ) {α : Type} (m : M p α)
  | newThread (phase : ℕ) {α : Type} (m : M p α)
  | parallelize (phase : ℕ) {T R : Type} (input : List T) (f : T → M p R)
  | expose (col : ℕ) (a : AV p)
  | setInstanceColumns (n : ℕ)
  | setParams (ps : Params)
  | setK (k : ℕ)
  | setLookupBits (n : ℕ)
  | calculateParams (minRows : Option ℕ)
  | setBreakPoints (bps : List (List ℕ))
  | unknown (u : Bool)
  | clear
  | synthesize (maxRows usable : ℕ)

/-- The contexts are only used through their methods. -/
def Op.Ok : Op p → Prop
  | .main _ m => CtxProg m
  | .newThread _ m => CtxProg m
  | .parallelize _ input f => ∀ x ∈ input, CtxProg (f x)
  | _ => True

/-- `op` takes the builder from `b` to `b'` without a panic. -/
def Op.Step : Op p → Builder p → Builder p → Prop
  | .main ph m, b, b' => ∃ r, b.main ph m = some (r, b')
  | .newThread ph m, b, b' => ∃ r, b.newThread ph m = some (r, b')
  | .parallelize ph input f, b, b' => ∃ rs, b.Parallel ph input f rs b'
  | .expose c a, b, b' => b.expose c a = some b'
  | .setInstanceColumns n, b, b' => b.setInstanceColumns n = some b'
  | .setParams ps, b, b' => b.setParams ps = some b'
  | .setK k, b, b' => b' = b.setK k
  | .setLookupBits n, b, b' => b' = b.setLookupBits n
  | .calculateParams m, b, b' => b.calculateParams m = some b'
  | .setBreakPoints bps, b, b' => b.setBreakPoints bps = some b'
  | .unknown u, b, b' => b' = b.unknown u
  | .clear, b, b' => b' = b.clear
  | .synthesize mr us, b, b' => (b.wgo = false ∧ ∃ reg, b.synthesize mr us = some (reg, b')) ∨
      (b.wgo = true ∧ (b.synthesizeProver mr us).isSome ∧ b' = b)

/-- A history of calls. -/
inductive Hist : List (Op p) → Builder p → Builder p → Prop
  | nil (b : Builder p) : Hist [] b b
  | cons {op : Op p} {ops : List (Op p)} {b b' b'' : Builder p} : op.Ok → op.Step b b' → Hist ops b' b'' → Hist (op :: ops) b b''

/-- `b` is reached by some history of calls from a new builder. -/
def Reachable (b : Builder p) : Prop := ∃ wgo ops, Hist ops (Builder.new wgo) b

end H2.Bld
