import Verif.Threads.Builder

/-!
# Several builders: `clone`, `deep_clone`, `set_copy_manager`, range chips

A `BaseCircuitBuilder` holds its copy manager and its three lookup managers by reference (`Arc<Mutex<_>>`), so two builders may share them.
`Threads/Builder.lean` models one builder which owns its managers.  Here the managers live in a heap, a builder (`Handle`) has the addresses,
and a call on a builder reads and writes the heap at these addresses.

All copies of the reference to the copy manager inside one builder (`core`, its phases, their contexts, the lookup managers) are set
together (builder.rs:102-107, multi_phase.rs:48-53, single_phase.rs:80-85) and new phases and contexts inherit it (multi_phase.rs:99-106,
single_phase.rs:120-128): there is one address.  Contexts do not hold references to lookup managers: a `RangeChip` does, which has those of
the builder that made it (`range_chip`, builder.rs:315-320).
-/

set_option autoImplicit false
set_option linter.unusedSectionVars false
namespace H2.Bld
open H2 Phys
variable {p : ℕ}

/-- `BaseCircuitBuilder` (builder.rs:45-60): what it owns, and the addresses of what it shares. -/
structure Handle (p : ℕ) where
  wgo : Bool
  useUnknown : Bool
  phases : List (PhaseMgr p)
  cm : ℕ
  lookups : List ℕ
  params : Params
  instances : List (List (AV p))

/-- The heap: copy managers (`SharedCopyConstraintManager`, copy_constraints.rs:22), the buckets of lookup managers
(`LookupAnyManager::cells_to_lookup`, lookups.rs:49), the numbers of addresses used so far, and the builders. -/
structure World (p : ℕ) where
  cms : ℕ → CopyMgr p
  ncm : ℕ
  lks : ℕ → Buckets p
  nlk : ℕ
  bs : List (Handle p)

/-- `CopyConstraintManager::default()`. -/
def CopyMgr.empty : CopyMgr p := ⟨[], [], fun _ => none⟩

/-- Nothing. -/
def World.empty : World p := ⟨fun _ => .empty, 0, fun _ => [], 0, []⟩

/-- The builder as it sees itself. -/
def World.view (w : World p) (h : Handle p) : Builder p := ⟨h.wgo, h.useUnknown, h.phases, w.cms h.cm, h.lookups.map w.lks, h.params, h.instances⟩

/-- `Arc::new(Mutex::new(c))`. -/
def World.newCm (w : World p) (c : CopyMgr p) : World p := { w with cms := Function.update w.cms w.ncm c, ncm := w.ncm + 1 }

/-- New lookup managers with the given contents, and their addresses. -/
def World.newLks (w : World p) : List (Buckets p) → World p × List ℕ
  | [] => (w, [])
  | c :: cs =>
    let r := World.newLks { w with lks := Function.update w.lks w.nlk c, nlk := w.nlk + 1 } cs
    (r.1, w.nlk :: r.2)

/-- Writing several cells of the heap. -/
def writeAll (f : ℕ → Buckets p) : List ℕ → List (Buckets p) → ℕ → Buckets p
  | r :: rs, b :: bs => Function.update (writeAll f rs bs) r b
  | _, _ => f

/-- After a call that takes what the builder `h` sees to `b`. -/
def World.write (w : World p) (h : Handle p) (b : Builder p) : World p :=
  { w with cms := Function.update w.cms h.cm b.cm, lks := writeAll w.lks h.lookups b.lookups }

/-- What the builder owns, after the call. -/
def Handle.own (h : Handle p) (b : Builder p) : Handle p := ⟨b.wgo, b.useUnknown, b.phases, h.cm, h.lookups, b.params, b.instances⟩

/-- Calls which hand a context to a program. -/
def Op.IsProg : Op p → Prop
  | .main .. | .newThread .. | .parallelize .. => True
  | _ => False

/-- A call in a program with several builders, which are numbered in the order of their creation. -/
inductive WOp (p : ℕ) : Type 1
  /-- `BaseCircuitBuilder::new(witness_gen_only)` (builder.rs:82-87). -/
  | new (wgo : Bool)
  /-- `builder.clone()` (`#[derive(Clone)]`, builder.rs:45). -/
  | clone (i : ℕ)
  /-- `builder.deep_clone()` (builder.rs:116-124). -/
  | deepClone (i : ℕ)
  /-- `builder_i.set_copy_manager(builder_j.core.copy_manager.clone())` (builder.rs:102-107). -/
  | setCopyManager (i j : ℕ)
  /-- `builder.set_copy_manager(Default::default())` (builder.rs:102-107). -/
  | freshCopyManager (i : ℕ)
  /-- The call `op` on builder `i`; its programs use a range chip made by builder `j`. -/
  | call (i j : ℕ) (op : Op p)

/-- `WOp` takes the world from `w` to `w'` without a panic. -/
def WOp.Step : WOp p → World p → World p → Prop
  | .new wgo, w, w' =>
    let r := (w.newCm .empty).newLks [[], [], []]
    w' = { r.1 with bs := w.bs ++ [⟨wgo, false, [.new wgo 0], w.ncm, r.2, ⟨0, [], 0, [], none, 0⟩, []⟩] }
  | .clone i, w, w' => ∃ h, w.bs[i]? = some h ∧ w' = { w with bs := w.bs ++ [h] }
  | .deepClone i, w, w' => ∃ h, w.bs[i]? = some h ∧
    let r := (w.newCm (w.cms h.cm)).newLks (h.lookups.map w.lks)
    w' = { r.1 with bs := w.bs ++ [{ h with cm := w.ncm, lookups := r.2 }] }
  | .setCopyManager i j, w, w' => ∃ h g, w.bs[i]? = some h ∧ w.bs[j]? = some g ∧ w' = { w with bs := w.bs.set i { h with cm := g.cm } }
  | .freshCopyManager i, w, w' => ∃ h, w.bs[i]? = some h ∧ w' = { w.newCm .empty with bs := w.bs.set i { h with cm := w.ncm } }
  | .call i j op, w, w' => ∃ h g b, w.bs[i]? = some h ∧ w.bs[j]? = some g ∧ (j = i ∨ op.IsProg) ∧ op.Ok ∧
    op.Step (w.view { h with lookups := g.lookups }) b ∧
    w' = { w.write { h with lookups := g.lookups } b with bs := w.bs.set i (h.own b) }

/-- A history of calls. -/
inductive WHist : List (WOp p) → World p → World p → Prop
  | nil (w : World p) : WHist [] w w
  | cons {op : WOp p} {ops : List (WOp p)} {w w' w'' : World p} : op.Step w w' → WHist ops w' w'' → WHist (op :: ops) w w''

/-! ## Facts about the heap -/

theorem writeAll_map (f : ℕ → Buckets p) : ∀ {rs : List ℕ} {bs : List (Buckets p)}, rs.Nodup → bs.length = rs.length → rs.map (writeAll f rs bs) = bs
  | [], [], _, _ => rfl
  | [], _ :: _, _, h => by simp at h
  | _ :: _, [], _, h => by simp at h
  | r :: rs, b :: bs, hn, hl => by
    obtain ⟨h1, h2⟩ := List.nodup_cons.1 hn
    simp only [List.map_cons, writeAll, Function.update_self]
    congr 1
    refine Eq.trans (List.map_congr_left fun x hx => ?_) (writeAll_map f h2 (by simpa using hl))
    have hne : x ≠ r := fun e => h1 (by rw [← e]; exact hx)
    exact Function.update_of_ne hne _ _

theorem writeAll_ne (f : ℕ → Buckets p) : ∀ {rs : List ℕ} {bs : List (Buckets p)} {r : ℕ}, r ∉ rs → writeAll f rs bs r = f r
  | [], _, _, _ => rfl
  | _ :: _, [], _, _ => rfl
  | s :: rs, b :: bs, r, h => by
    simp only [List.mem_cons, not_or] at h
    simp only [writeAll]
    rw [Function.update_of_ne h.1, writeAll_ne f h.2]

theorem newLks_spec : ∀ (cs : List (Buckets p)) (w : World p), (w.newLks cs).2 = List.range' w.nlk cs.length ∧
    (w.newLks cs).1.nlk = w.nlk + cs.length ∧ (w.newLks cs).1.cms = w.cms ∧ (w.newLks cs).1.ncm = w.ncm ∧ (w.newLks cs).1.bs = w.bs ∧
    (∀ r < w.nlk, (w.newLks cs).1.lks r = w.lks r) ∧ (w.newLks cs).2.map (w.newLks cs).1.lks = cs
  | [], w => by simp [World.newLks]
  | c :: cs, w => by
    obtain ⟨h1, h2, h3, h4, h5, h6, h7⟩ := newLks_spec cs { w with lks := Function.update w.lks w.nlk c, nlk := w.nlk + 1 }
    simp only [World.newLks]
    refine ⟨?_, ?_, h3, h4, h5, ?_, ?_⟩
    · rw [h1, List.length_cons, List.range'_succ]
    · rw [h2, List.length_cons]
      dsimp only
      omega
    · intro r hr
      rw [h6 r (Nat.lt_succ_of_lt hr)]
      exact Function.update_of_ne (Nat.ne_of_lt hr) _ _
    · rw [List.map_cons, h7, h6 w.nlk (Nat.lt_succ_self _)]
      simp

/-- Addresses are valid, and the lookup managers of a builder are three different ones. -/
structure World.Ok (w : World p) : Prop where
  cm : ∀ h ∈ w.bs, h.cm < w.ncm
  lk : ∀ h ∈ w.bs, ∀ r ∈ h.lookups, r < w.nlk
  len : ∀ h ∈ w.bs, h.lookups.length = 3
  nodup : ∀ h ∈ w.bs, h.lookups.Nodup

theorem World.Ok.empty : (World.empty : World p).Ok := ⟨by simp [World.empty], by simp [World.empty], by simp [World.empty], by simp [World.empty]⟩

/-- Adding a builder whose managers are new. -/
theorem World.Ok.alloc {w : World p} (ok : w.Ok) (c : CopyMgr p) {cs : List (Buckets p)} (hl : cs.length = 3) (h : Handle p) (hc : h.cm = w.ncm)
    (hk : h.lookups = ((w.newCm c).newLks cs).2) : World.Ok { ((w.newCm c).newLks cs).1 with bs := w.bs ++ [h] } := by
  obtain ⟨h1, h2, h3, h4, h5, h6, h7⟩ := newLks_spec cs (w.newCm c)
  have e1 : (w.newCm c).nlk = w.nlk := rfl
  have e2 : (w.newCm c).ncm = w.ncm + 1 := rfl
  rw [e1] at h1 h2
  rw [e2] at h4
  refine ⟨?_, ?_, ?_, ?_⟩ <;> intro g hg <;> rcases List.mem_append.1 hg with hg | hg
  · have := ok.cm g hg
    simp only [h4]; omega
  · rw [List.mem_singleton.1 hg, hc]
    simp only [h4]; omega
  · intro r hr
    have := ok.lk g hg r hr
    simp only [h2]; omega
  · intro r hr
    rw [List.mem_singleton.1 hg, hk, h1, List.mem_range'_1] at hr
    simp only [h2]; omega
  · exact ok.len g hg
  · rw [List.mem_singleton.1 hg, hk, h1, List.length_range', hl]
  · exact ok.nodup g hg
  · rw [List.mem_singleton.1 hg, hk, h1]
    exact List.nodup_range'

theorem World.alloc_view {w : World p} (ok : w.Ok) (c : CopyMgr p) (cs : List (Buckets p)) (bs : List (Handle p)) {g : Handle p} (hg : g ∈ w.bs) :
    World.view { ((w.newCm c).newLks cs).1 with bs } g = w.view g := by
  obtain ⟨h1, h2, h3, h4, h5, h6, h7⟩ := newLks_spec cs (w.newCm c)
  simp only [World.view, h3]
  have e1 : (w.newCm c).cms g.cm = w.cms g.cm := Function.update_of_ne (Nat.ne_of_lt (ok.cm g hg)) _ _
  have e2 : g.lookups.map ((w.newCm c).newLks cs).1.lks = g.lookups.map w.lks :=
    List.map_congr_left fun r hr => h6 r (ok.lk g hg r hr)
  rw [e1, e2]

theorem World.alloc_new (w : World p) (c : CopyMgr p) (cs : List (Buckets p)) (bs : List (Handle p)) {h : Handle p} (hc : h.cm = w.ncm)
    (hk : h.lookups = ((w.newCm c).newLks cs).2) :
    World.view { ((w.newCm c).newLks cs).1 with bs } h = ⟨h.wgo, h.useUnknown, h.phases, c, cs, h.params, h.instances⟩ := by
  obtain ⟨h1, h2, h3, h4, h5, h6, h7⟩ := newLks_spec cs (w.newCm c)
  simp only [World.view, h3, hc, hk, h7]
  simp [World.newCm]

theorem mem_of_set {α : Type} {l : List α} {i : ℕ} {a x : α} (h : x ∈ l.set i a) : x ∈ l ∨ x = a := List.mem_or_eq_of_mem_set h

/-- Lookup managers are not created or removed by the calls on a builder. -/
theorem step_lookups {op : Op p} {b b' : Builder p} (st : op.Step b b') : b'.lookups.length = b.lookups.length := by
  have ht : ∀ (b : Builder p) (n : ℕ), (b.touch n).lookups = b.lookups := fun _ _ => rfl
  have hnew : ∀ {α : Type} {b : Builder p} {n : ℕ} {m : M p α} {q : α × Builder p}, b.newThread n m = some q → q.2.lookups.length = b.lookups.length := by
    intro α b n m q e
    simp only [Builder.newThread, Option.bind_eq_bind, Option.bind_eq_some_iff, Option.pure_def, Option.some.injEq] at e
    obtain ⟨pm, -, s, -, ⟨r, s'⟩, -, rfl⟩ := e
    simp [Builder.absorb, Builder.setThreads, Builder.touch]
  cases op with
  | main n m =>
    obtain ⟨r, e⟩ := st
    simp only [Builder.main, Option.bind_eq_bind, Option.bind_eq_some_iff] at e
    obtain ⟨pm, -, e⟩ := e
    split at e
    · exact hnew e
    · simp only [Option.bind_eq_some_iff, Option.pure_def, Option.some.injEq, Prod.mk.injEq] at e
      obtain ⟨⟨r', s'⟩, -, -, rfl⟩ := e
      simp [Builder.absorb, Builder.setThreads, Builder.touch]
  | newThread n m =>
    obtain ⟨r, e⟩ := st
    exact hnew e
  | parallelize n input f =>
    obtain ⟨rs, pm, t, ss, eqs, consts, queued, -, -, -, -, -, -, rfl⟩ := st
    simp
  | expose c a =>
    simp only [Op.Step, Builder.expose] at st
    split at st
    · cases st; rfl
    · cases st
  | setInstanceColumns n =>
    simp only [Op.Step, Builder.setInstanceColumns] at st
    split at st
    · cases st; rfl
    · cases st
  | setParams ps =>
    simp only [Op.Step, Builder.setParams, Option.map_eq_some_iff] at st
    obtain ⟨b1, e, rfl⟩ := st
    simp only [Builder.setInstanceColumns] at e
    split at e
    · cases e; rfl
    · cases e
  | setK k => cases st; rfl
  | setLookupBits n => cases st; rfl
  | calculateParams m =>
    simp only [Op.Step, Builder.calculateParams] at st
    split at st
    · cases st
    · cases st; rfl
  | setBreakPoints bps =>
    simp only [Op.Step, Builder.setBreakPoints] at st
    split at st
    · cases st; rfl
    · split at st
      · cases st; rfl
      · cases st
  | unknown u => cases st; rfl
  | clear =>
    cases st
    simp [Builder.clear]
  | synthesize mr us =>
    rcases st with ⟨-, reg, e⟩ | ⟨-, -, rfl⟩
    · simp only [Builder.synthesize, Option.bind_eq_bind, Option.bind_eq_some_iff] at e
      obtain ⟨pm, -, e⟩ := e
      split at e
      · cases e
      · simp only [Option.bind_eq_some_iff] at e
        obtain ⟨⟨reg', map, bps⟩, -, e⟩ := e
        split at e
        · simp only [Option.some.injEq, Prod.mk.injEq] at e
          obtain ⟨-, rfl⟩ := e
          rfl
        · cases e
    · rfl

theorem WOp.Step.ok {op : WOp p} {w w' : World p} (st : op.Step w w') (ok : w.Ok) : w'.Ok := by
  cases op with
  | new wgo =>
    cases st
    exact ok.alloc _ rfl _ rfl rfl
  | clone i =>
    obtain ⟨h, hi, rfl⟩ := st
    have hm := List.mem_of_getElem? hi
    refine ⟨?_, ?_, ?_, ?_⟩ <;> intro g hg <;> rcases List.mem_append.1 hg with hg | hg <;> try rw [List.mem_singleton.1 hg]
    · exact ok.cm g hg
    · exact ok.cm h hm
    · exact ok.lk g hg
    · exact ok.lk h hm
    · exact ok.len g hg
    · exact ok.len h hm
    · exact ok.nodup g hg
    · exact ok.nodup h hm
  | deepClone i =>
    obtain ⟨h, hi, rfl⟩ := st
    have hm := List.mem_of_getElem? hi
    exact ok.alloc _ (by rw [List.length_map, ok.len h hm]) _ rfl rfl
  | setCopyManager i j =>
    obtain ⟨h, g, hi, hj, rfl⟩ := st
    have hm := List.mem_of_getElem? hi
    have hm' := List.mem_of_getElem? hj
    refine ⟨?_, ?_, ?_, ?_⟩ <;> intro x hx <;> rcases mem_of_set hx with hx | rfl
    · exact ok.cm x hx
    · exact ok.cm g hm'
    · exact ok.lk x hx
    · exact ok.lk h hm
    · exact ok.len x hx
    · exact ok.len h hm
    · exact ok.nodup x hx
    · exact ok.nodup h hm
  | freshCopyManager i =>
    obtain ⟨h, hi, rfl⟩ := st
    have hm := List.mem_of_getElem? hi
    refine ⟨?_, ?_, ?_, ?_⟩ <;> intro x hx <;> rcases mem_of_set hx with hx | rfl
    · exact Nat.lt_succ_of_lt (ok.cm x hx)
    · exact Nat.lt_succ_self _
    · exact ok.lk x hx
    · exact ok.lk h hm
    · exact ok.len x hx
    · exact ok.len h hm
    · exact ok.nodup x hx
    · exact ok.nodup h hm
  | call i j op =>
    obtain ⟨h, g, b, hi, hj, -, -, -, rfl⟩ := st
    have hm := List.mem_of_getElem? hi
    refine ⟨?_, ?_, ?_, ?_⟩ <;> intro x hx <;> rcases mem_of_set hx with hx | rfl
    · exact ok.cm x hx
    · exact ok.cm h hm
    · exact ok.lk x hx
    · exact ok.lk h hm
    · exact ok.len x hx
    · exact ok.len h hm
    · exact ok.nodup x hx
    · exact ok.nodup h hm

theorem WHist.ok {ops : List (WOp p)} {w w' : World p} (h : WHist ops w w') (ok : w.Ok) : w'.Ok := by
  induction h with
  | nil => exact ok
  | cons st _ ih => exact ih (st.ok ok)

/-- What a builder sees after its own call with its own range chip. -/
theorem write_view_self {w : World p} (ok : w.Ok) {h : Handle p} (hm : h ∈ w.bs) {b : Builder p} (hb : b.lookups.length = h.lookups.length)
    (bs : List (Handle p)) : World.view { w.write h b with bs } (h.own b) = b := by
  simp only [World.view, World.write, Handle.own, Function.update_self, writeAll_map _ (ok.nodup h hm) hb]

/-- What a builder with other managers sees. -/
theorem write_view_other {w : World p} {h g : Handle p} {b : Builder p} (hc : g.cm ≠ h.cm) (hl : ∀ r ∈ g.lookups, r ∉ h.lookups)
    (bs : List (Handle p)) : World.view { w.write h b with bs } g = w.view g := by
  simp only [World.view, World.write, Function.update_of_ne hc]
  rw [List.map_congr_left fun r hr => writeAll_ne w.lks (hl r hr)]

end H2.Bld
