import Verif.Threads.Shape
import Mathlib.Tactic.IntervalCases

/-!
# C29–C34: from virtual threads to the physical circuit

Specifications used below: `PSat` (meaning of the physical circuit, `Threads/Model.lean`), `VSat`/`Sat` (meaning of the
virtual constraints), `vw map v` (the virtual assignment read off the physical assignment `v` through the
virtual-to-physical map returned by `synthesize`), `WFThread` (enabled gates lie inside the column and the first two
rows are not both enabled) and `Merge` (all schedules of parallel pushes).
-/

set_option autoImplicit false
namespace H2.Phys
open H2
variable {p : ℕ}

/-! ## C29: soundness of the layout -/

/-- C29.  Whatever physical assignment satisfies the gates and the break-point copies laid out by
`assign_with_constraints` satisfies, read through the virtual-to-physical map, every virtual gate of every thread. -/
theorem C29_layout_sound {maxRows ncols : ℕ} {threads : List (Ctx p)} {reg : Region p} {map : CellMap} {st : LState p}
    (hmx : 4 ≤ maxRows) (h : assignWithConstraints maxRows ncols threads reg map = some st)
    (hwf : ∀ s ∈ threads, WFThread s) (v : PCell → ZMod p)
    (hgate : ∀ g r, (g, r) ∈ st.reg.sel →
      v ⟨.advice g, r⟩ + v ⟨.advice g, r + 1⟩ * v ⟨.advice g, r + 2⟩ = v ⟨.advice g, r + 3⟩)
    (hcopy : ∀ e ∈ st.reg.copies, v e.1 = v e.2) :
    ∀ s ∈ threads, ∀ i, s.selector[i]? = some true → GateAt (vw st.map v) s i :=
  layout_gates hmx h hwf v hgate hcopy st.map fun _ _ h => h

/-- C29 for the whole circuit: a physical assignment that satisfies the synthesized circuit satisfies every virtual
gate, equality, constant and lookup, and the instance columns hold the values of the public cells. -/
theorem C29_circuit_sound {cfg : Cfg} {threads : List (Ctx p)} {eqs : List (Cell × Cell)}
    {consts : List (ZMod p × Cell)} {lookups : Buckets p} {instances : List (List (AV p))} {ext : CellMap}
    {reg : Region p} {map : CellMap} {bps : List ℕ}
    (h : synthesize cfg threads eqs consts lookups instances ext = some (reg, map, bps))
    (hmx : 4 ≤ cfg.maxRows) (hwf : ∀ s ∈ threads, WFThread s) (hwr : cfg.withRange = true ∨ lookups.all = [])
    {width : ℕ} (hwd : ∀ as ∈ lookups.all, as.length = width) (h0 : 0 < width) (hq1 : cfg.qLookup = true → width = 1)
    {tbl : List (ZMod p) → Prop} {v : PCell → ZMod p} (hv : PSat cfg tbl width reg v) :
    VSat tbl threads eqs consts lookups.all (vw map v) ∧
    ∀ (k : ℕ) l, instances[k]? = some l → ∀ i a, l[i]? = some a → H2.at' (vw map v) a = v ⟨.inst k, i⟩ :=
  synth_sound h hmx hwf hwr hwd h0 hq1 hv

/-- C29 end to end, for any schedule: if the shared lists are any interleaving of the pushes of the threads, every
satisfying physical assignment gives an assignment satisfying all constraints `Sat` of every thread — which is the
hypothesis of all the chip theorems (C04–C25). -/
theorem C29_threads_sat {cfg : Cfg} {threads : List (Ctx p)} {eqs : List (Cell × Cell)} {consts : List (ZMod p × Cell)}
    {queued : List (Tag × List (AV p))} {instances : List (List (AV p))} {ext : CellMap} {reg : Region p}
    {map : CellMap} {bps : List ℕ}
    (heqs : Merge (threads.map (·.eqs)) eqs) (hconsts : Merge (threads.map (·.consts)) consts)
    (hqueued : Merge (threads.map lookupLog) queued)
    (h : synthesize cfg threads eqs consts (addLookups [] queued) instances ext = some (reg, map, bps))
    (hmx : 4 ≤ cfg.maxRows) (hwf : ∀ s ∈ threads, WFThread s) (hwr : cfg.withRange = true ∨ queued = [])
    {tbl : List (ZMod p) → Prop} {v : PCell → ZMod p} (hv : PSat cfg tbl 1 reg v) :
    ∀ s ∈ threads, Sat (fun x => tbl [x]) s (vw map v) := by
  have hq : ∀ e, e ∈ queued ↔ ∃ s ∈ threads, ∃ a ∈ s.lookups, e = (Ctx.tag s, [a]) := by
    intro e
    rw [hqueued.perm.mem_iff, List.mem_flatten]
    simp only [List.mem_map, lookupLog]
    constructor
    · rintro ⟨l, ⟨s, hs, rfl⟩, he⟩
      obtain ⟨a, ha, rfl⟩ := List.mem_map.1 he
      exact ⟨s, hs, a, ha, rfl⟩
    · rintro ⟨s, hs, a, ha, rfl⟩
      exact ⟨_, ⟨s, hs, rfl⟩, List.mem_map.2 ⟨a, ha, rfl⟩⟩
  have key := (synth_sound h hmx hwf (hwr.imp id fun e => by subst e; rfl) (width := 1) (by
      intro as has
      obtain ⟨e, he, rfl⟩ := addLookups_all_mem.1 has
      obtain ⟨s, hs, a, ha, rfl⟩ := (hq e).1 he
      rfl) (by decide) (fun _ => rfl) hv).1
  intro s hs
  refine ⟨key.gate s hs, fun e he => key.eq e ?_, fun e he => key.const e ?_, fun a ha => ?_⟩
  · rw [heqs.perm.mem_iff]; exact List.mem_flatten.2 ⟨s.eqs, List.mem_map.2 ⟨s, hs, rfl⟩, he⟩
  · rw [hconsts.perm.mem_iff]; exact List.mem_flatten.2 ⟨s.consts, List.mem_map.2 ⟨s, hs, rfl⟩, he⟩
  · exact key.lookup [a] (addLookups_all_mem.2 ⟨(Ctx.tag s, [a]), (hq _).2 ⟨s, hs, a, ha, rfl⟩, rfl⟩)

/-! ## C30: completeness and agreement with witness assignment -/

/-- C30.  `assign_witnesses` with the break points of keygen writes the same values in the same cells. -/
theorem C30_replay {maxRows ncols : ℕ} {threads : List (Ctx p)} {reg : Region p} {map : CellMap} {st : LState p}
    (h : assignWithConstraints maxRows ncols threads reg map = some st) :
    assignWitnesses ncols threads st.bps reg.writes = some st.reg.writes :=
  assignWitnesses_replay h

/-- C30 for a prover whose threads carry other values than at keygen (same number of cells per thread; no selectors are
needed): it writes exactly what keygen would write for those values, in exactly the same cells, and the rest of the
layout is the one of keygen. -/
theorem C30_prover_replay {maxRows ncols : ℕ} {threads prover : List (Ctx p)} {reg : Region p} {map : CellMap}
    {st : LState p} (h : assignWithConstraints maxRows ncols threads reg map = some st)
    (hlen : List.Forall₂ (fun s s' => s.advice.length = s'.advice.length) threads prover) :
    ∃ st' : LState p,
      assignWithConstraints maxRows ncols (List.zipWith (fun s s' => { s with advice := s'.advice }) threads prover)
        reg map = some st' ∧
      assignWitnesses ncols prover st.bps reg.writes = some st'.reg.writes ∧
      st'.reg.writes.map Prod.fst = st.reg.writes.map Prod.fst ∧ st'.map = st.map ∧ st'.reg.copies = st.reg.copies ∧
      st'.reg.sel = st.reg.sel ∧ st'.bps = st.bps := by
  have hs : List.Forall₂ SameThread threads
      (List.zipWith (fun s s' => { s with advice := s'.advice }) threads prover) := by
    clear h
    induction hlen with
    | nil => exact List.Forall₂.nil
    | cons h0 _ ih => exact List.Forall₂.cons ⟨rfl, rfl, rfl, h0⟩ ih
  obtain ⟨st', h1, h2⟩ := awcThreads_shape hs ⟨rfl, rfl, rfl, rfl, rfl, rfl, rfl, rfl, rfl⟩ h
  refine ⟨st', h1, ?_, h2.cells.symm, h2.map.symm, h2.copies.symm, h2.sel.symm, h2.bps.symm⟩
  have := assignWitnesses_replay h1
  rw [h2.bps, assignWitnesses_congr (ts' := List.zipWith (fun s s' => { s with advice := s'.advice }) threads prover)]
  · exact this
  · clear this h1 h2 hs h
    induction hlen with
    | nil => rfl
    | cons h0 _ ih => simp [ih]

/-- C30: every assignment satisfying the virtual constraints is realised by a satisfying physical assignment, which
agrees with it through the map, shows the public values in the instance columns, is what the region was asked to write when
the recorded values are the honest ones, and is zero in the advice and lookup cells that the region did not write. -/
theorem C30_circuit_complete [Fact p.Prime] {cfg : Cfg} {threads : List (Ctx p)} {eqs : List (Cell × Cell)}
    {consts : List (ZMod p × Cell)} {lookups : Buckets p} {instances : List (List (AV p))} {reg : Region p}
    {map : CellMap} {bps : List ℕ}
    (h : synthesize cfg threads eqs consts lookups instances (fun _ => none) = some (reg, map, bps))
    (hmx : 4 ≤ cfg.maxRows) (hwf : ∀ s ∈ threads, WFThread s)
    {width : ℕ} (hwd : ∀ as ∈ lookups.all, as.length = width) (hq1 : cfg.qLookup = true → width = 1)
    {tbl : List (ZMod p) → Prop} (h0 : tbl (List.replicate width 0)) {w : Cell → ZMod p}
    (hw : VSat tbl threads eqs consts lookups.all w) :
    ∃ v : PCell → ZMod p, PSat cfg tbl width reg v ∧ (∀ c x, map c = some x → v x = w c) ∧
      (∀ (k : ℕ) l, instances[k]? = some l → ∀ i a, l[i]? = some a → v ⟨.inst k, i⟩ = H2.at' w a) ∧
      ((∀ s ∈ threads, ∀ (i : ℕ) a, s.advice[i]? = some a → w (s.cellAt i) = a.eval) →
        (∀ as ∈ lookups.all, ∀ a ∈ as, H2.at' w a = a.value.eval) → ∀ e ∈ reg.writes, v e.1 = e.2.eval) ∧
      ∀ x, x ∉ reg.writes.map Prod.fst → (∀ g, x.col = .advice g → v x = 0) ∧
        ∀ i j, i < cfg.nsets → x.col = .lookup i j → v x = 0 :=
  synth_complete h hmx hwf hwd hq1 h0 hw

/-! ## C31: rows, columns, one physical cell per virtual cell -/

/-- C31. -/
theorem C31_layout_bounds {maxRows ncols : ℕ} {threads : List (Ctx p)} {map : CellMap} {st : LState p}
    (hmx : 4 ≤ maxRows) (h : assignWithConstraints maxRows ncols threads Region.empty map = some st) :
    (∀ e ∈ st.reg.writes, ∃ g r, e.1 = ⟨.advice g, r⟩ ∧ g < ncols ∧ r < maxRows) ∧
    (∀ g r, (g, r) ∈ st.reg.sel → g < ncols ∧ r + 3 < maxRows) ∧
    (st.reg.writes.map Prod.fst).Nodup ∧
    (∀ s ∈ threads, ∀ (i : ℕ) a, s.advice[i]? = some a →
      ∃ x, st.map (s.cellAt i) = some x ∧ (x, a) ∈ st.reg.writes) ∧
    (∀ s ∈ threads, ∀ s' ∈ threads, ∀ i < s.advice.length, ∀ i' < s'.advice.length,
      st.map (s.cellAt i) = st.map (s'.cellAt i') → s.cellAt i = s'.cellAt i') := by
  obtain ⟨hL, hlen⟩ := awcThreads_laid threads h
  have hcols : ∀ pl ∈ places maxRows (allItems threads) (0, 0), pl.before.1 < ncols ∧ pl.after.1 < ncols := by
    intro pl hpl
    have hne : allItems threads ≠ [] := by
      intro e; rw [e] at hpl; simp [places] at hpl
    exact places_cols _ (awcThreads_cols threads h hne) (fun pl hpl hb => (hL.ok pl hpl hb).2) pl hpl
  have hrow : ∀ pl ∈ places maxRows (allItems threads) (0, 0), pl.before.2 < maxRows ∧ pl.after.2 < maxRows - 1 :=
    fun pl hpl => places_row (by omega) (x := (0, 0)) (by simp; omega) hpl
  have hw : st.reg.writes = (places maxRows (allItems threads) (0, 0)).flatMap Place.writes := by
    have := hL.writes
    simpa [Region.empty] using this
  have hsl : st.reg.sel = (places maxRows (allItems threads) (0, 0)).flatMap Place.sel := by
    have := hL.sel
    simpa [Region.empty] using this
  have hget : ∀ s ∈ threads, ∀ (i : ℕ) a, s.advice[i]? = some a →
      ∃ pl ∈ places maxRows (allItems threads) (0, 0), pl.cell = s.cellAt i ∧ pl.v = a := by
    intro s hs i a ha
    have hi := (List.getElem?_eq_some_iff.1 ha).1
    have hne : s.advice ≠ [] := by intro e; rw [e] at hi; simp at hi
    have hl := hlen s hs hne
    obtain ⟨k, hk⟩ := allItems_exists threads hs ha (List.getElem?_eq_getElem (show i < s.selector.length by omega))
    have hp := places_getElem? maxRows (allItems threads) (0, 0) k
    rw [hk, Option.map_some] at hp
    exact ⟨_, List.mem_of_getElem? hp, rfl, rfl⟩
  refine ⟨?_, ?_, ?_, ?_, ?_⟩
  · intro e he
    rw [hw] at he
    obtain ⟨a, ha, hcase⟩ := mem_writes_iff.1 he
    have h1 := hcols a ha
    have h2 := hrow a ha
    rcases hcase with rfl | rfl
    · exact ⟨a.before.1, a.before.2, rfl, h1.1, h2.1⟩
    · exact ⟨a.after.1, a.after.2, rfl, h1.2, by omega⟩
  · intro g r hg
    rw [hsl] at hg
    obtain ⟨a, ha, hq, hae⟩ := mem_sel_iff.1 hg
    have h1 := hcols a ha
    have h2 := places_gate hmx ha hq
    rw [hae] at h1 h2
    exact ⟨h1.2, by simp at h2; omega⟩
  · rw [hw]; exact writes_nodup _ _
  · intro s hs i a ha
    obtain ⟨pl, hpl, e1, e2⟩ := hget s hs i a ha
    refine ⟨pc pl.before, ?_, ?_⟩
    · rw [← e1]; exact hL.maps pl hpl
    · rw [hw]; exact mem_writes_iff.2 ⟨pl, hpl, .inl (by rw [e2])⟩
  · intro s hs s' hs' i hi i' hi' he
    obtain ⟨pl, hpl, e1, -⟩ := hget s hs i _ (List.getElem?_eq_getElem hi)
    obtain ⟨pl', hpl', e1', -⟩ := hget s' hs' i' _ (List.getElem?_eq_getElem hi')
    rw [← e1, ← e1'] at he
    rw [hL.maps pl hpl, hL.maps pl' hpl'] at he
    simp only [Option.some.injEq] at he
    have := places_unique hpl hpl' (.inl rfl) (.inl (pc_inj.1 he))
    rw [← e1, ← e1', this]

/-! ## C32: the copy manager -/

/-- C32.  After `assign_raw` of the copy manager: in every physical assignment that satisfies the equality constraints
and the fixed cells, both sides of every advice equality are equal and every constant equality holds; the constants
are assigned to distinct fixed cells, each distinct constant once, and only requested constants are. -/
theorem C32_copy_manager {nfixed usable : ℕ} {eqs : List (Cell × Cell)} {consts : List (ZMod p × Cell)} {map : CellMap}
    {reg : Region p} (h : copyAssignRaw nfixed usable eqs consts map Region.empty = some reg) :
    (∀ v : PCell → ZMod p, (∀ e ∈ reg.copies, v e.1 = v e.2) → (∀ e ∈ reg.fixed, v e.1 = e.2) →
      (∀ e ∈ eqs, vw map v e.1 = vw map v e.2) ∧ (∀ e ∈ consts, vw map v e.2 = e.1)) ∧
    (∀ c, (c ∈ consts.map Prod.fst ↔ ∃ x, (x, c) ∈ reg.fixed)) ∧
    (reg.fixed.map Prod.fst).Nodup ∧ (reg.fixed.map Prod.snd).Nodup ∧
    (∀ e ∈ reg.fixed, ∃ i r, e.1 = ⟨.fixed i, r⟩ ∧ i < nfixed ∧ r < usable) ∧
    (∀ e ∈ reg.copies, (∃ q ∈ eqs, map q.1 = some e.1 ∧ map q.2 = some e.2) ∨
      ∃ q ∈ consts, (e.1, q.1) ∈ reg.fixed ∧ map q.2 = some e.2) := by
  obtain ⟨fx, new, o⟩ := copyAssignRaw_out h
  have hf : reg.fixed = fx := by have := o.fixed; simpa [Region.empty] using this
  have hc : reg.copies = new := by have := o.copies; simpa [Region.empty] using this
  have rd : ∀ {v : PCell → ZMod p} {c x}, map c = some x → vw map v c = v x := by intro v c x hc; simp [vw, hc]
  rw [hf, hc]
  refine ⟨?_, ?_, ?_, o.fxNodup, ?_, o.only⟩
  · intro v hcp hfx
    refine ⟨?_, ?_⟩
    · intro e he
      obtain ⟨x, y, a, b, c⟩ := o.eq e he
      rw [rd a, rd b]; exact hcp _ c
    · intro e he
      obtain ⟨x, y, a, b, c⟩ := o.const e he
      rw [rd b, ← hcp _ c]; exact hfx _ a
  · intro c
    constructor
    · intro hc'
      obtain ⟨e, he, rfl⟩ := List.mem_map.1 hc'
      obtain ⟨x, y, a, b, c⟩ := o.const e he
      exact ⟨x, a⟩
    · rintro ⟨x, hx⟩
      exact o.fxOnly _ hx
  · rw [List.nodup_iff_injective_get]
    intro a b hab
    have ha := o.fxAt a.1 _ (List.getElem?_eq_getElem (by have := a.2; simpa using this))
    have hb := o.fxAt b.1 _ (List.getElem?_eq_getElem (by have := b.2; simpa using this))
    simp only [List.get_eq_getElem, List.getElem_map] at hab
    rw [ha.1, hb.1] at hab
    simp only [PCell.mk.injEq, PCol.fixed.injEq] at hab
    apply Fin.ext
    rw [← Nat.div_add_mod a.1 nfixed, ← Nat.div_add_mod b.1 nfixed, hab.1, hab.2]
  · intro e he
    obtain ⟨k, hk⟩ := List.mem_iff_getElem?.1 he
    obtain ⟨h1, h2, h3⟩ := o.fxAt k e hk
    exact ⟨_, _, h1, Nat.mod_lt _ h3, h2⟩

/-! ## C33: schedules -/

/-- C33.  The circuit does not depend on the schedule: for any two interleavings of the pushes of the threads (whose
tags are distinct) the synthesized region, map and break points are identical. -/
theorem C33_schedule_independent [NeZero p] {cfg : Cfg} {threads : List (Ctx p)} {eqs eqs' : List (Cell × Cell)}
    {consts consts' : List (ZMod p × Cell)} {queued queued' : List (Tag × List (AV p))}
    {instances : List (List (AV p))} {ext : CellMap}
    (he : Merge (threads.map (·.eqs)) eqs) (he' : Merge (threads.map (·.eqs)) eqs')
    (hc : Merge (threads.map (·.consts)) consts) (hc' : Merge (threads.map (·.consts)) consts')
    (hq : Merge (threads.map lookupLog) queued) (hq' : Merge (threads.map lookupLog) queued')
    (htag : (threads.map Ctx.tag).Nodup) :
    synthesize cfg threads eqs consts (addLookups [] queued) instances ext =
      synthesize cfg threads eqs' consts' (addLookups [] queued') instances ext := by
  have e1 : sortEqs eqs = sortEqs eqs' := sortEqs_perm (he.perm.trans he'.perm.symm)
  have e2 : sortConsts consts = sortConsts consts' := sortConsts_perm (hc.perm.trans hc'.perm.symm)
  have e3 : addLookups ([] : Buckets p) queued = addLookups [] queued' := by
    refine addLookups_congr Buckets.WF.nil fun u => ?_
    by_cases hu : ∃ j : ℕ, ∃ s, threads[j]? = some s ∧ Ctx.tag s = u
    · obtain ⟨j, s, hj, rfl⟩ := hu
      have hsep : ∀ (i : ℕ) l, (threads.map lookupLog)[i]? = some l → i ≠ j → ∀ a ∈ l,
          decide (a.1 = Ctx.tag s) = false := by
        intro i l hl hij a ha
        rw [List.getElem?_map, Option.map_eq_some_iff] at hl
        obtain ⟨s', hs', rfl⟩ := hl
        unfold lookupLog at ha
        obtain ⟨b, -, rfl⟩ := List.mem_map.1 ha
        simp only [decide_eq_false_iff_not]
        intro hts
        apply hij
        have hi' : (threads.map Ctx.tag)[i]? = some (Ctx.tag s) := by rw [List.getElem?_map, hs']; simp [hts]
        have hj' : (threads.map Ctx.tag)[j]? = some (Ctx.tag s) := by rw [List.getElem?_map, hj]; rfl
        exact (List.nodup_iff_getElem?_ne_getElem?.1 htag |> fun hh => by
          rcases lt_trichotomy i j with h | h | h
          · exact absurd (hi'.trans hj'.symm) (hh i j h (List.getElem?_eq_some_iff.1 hj').1)
          · exact h
          · exact absurd (hj'.trans hi'.symm) (hh j i h (List.getElem?_eq_some_iff.1 hi').1))
      rw [hq.filter _ j hsep, hq'.filter _ j hsep]
    · have none' : ∀ {q : List (Tag × List (AV p))}, Merge (threads.map lookupLog) q →
          q.filter (fun e => decide (e.1 = u)) = [] := by
        intro q hq0
        rw [List.filter_eq_nil_iff]
        intro a ha
        rw [hq0.perm.mem_iff, List.mem_flatten] at ha
        obtain ⟨l, hl, ha⟩ := ha
        obtain ⟨s, hs, rfl⟩ := List.mem_map.1 hl
        unfold lookupLog at ha
        obtain ⟨b, -, rfl⟩ := List.mem_map.1 ha
        obtain ⟨j, hj⟩ := List.mem_iff_getElem?.1 hs
        simp only [decide_eq_true_eq]
        intro hts
        exact hu ⟨j, s, hj, hts⟩
      rw [none' hq, none' hq']
  unfold synthesize copyAssignRaw
  rw [e1, e2, e3]

/-- C33: `parallelize_core` returns the outputs in input order, appends one context per input, in order, with
consecutive ids, and each (output, context) is what `f` gives for that input on a fresh context. -/
theorem C33_parallelize_order {T R : Type} {wgo : Bool} {phase : ℕ} {typeId : String} {threads threads' : List (Ctx p)}
    {input : List T} {f : T → M p R} {outs : List R}
    (h : parallelizeCore wgo phase typeId threads input f = some (outs, threads')) :
    outs.length = input.length ∧ threads'.length = threads.length + input.length ∧
    (∀ i < threads.length, threads'[i]? = threads[i]?) ∧
    ∀ (i : ℕ) x, input[i]? = some x → ∃ r s, outs[i]? = some r ∧ threads'[threads.length + i]? = some s ∧
      f x (Ctx.new wgo phase typeId (threads.length + i) [] []) = some (r, s) := by
  simp only [parallelizeCore, Option.bind_eq_bind, Option.bind_eq_some_iff, Option.pure_def, Option.some.injEq,
    Prod.mk.injEq] at h
  obtain ⟨⟨rs, ss⟩, h1, rfl, rfl⟩ := h
  obtain ⟨a, b, c⟩ := parLoop_spec _ h1
  refine ⟨a, by simp [b], ?_, ?_⟩
  · intro i hi; exact List.getElem?_append_left hi
  · intro i x hx
    obtain ⟨r, s, e1, e2, e3⟩ := c i x hx
    refine ⟨r, s, e1, ?_, e3⟩
    rw [List.getElem?_append_right (by omega)]
    simpa using e2

/-! ## C34: lookups -/

/-- C34.  `LookupAnyManager::assign_raw`: the `k`-th queued tuple is copied to row `k / nsets` of the lookup column set
`k % nsets`, each cell tied to its copy (by an equality constraint, or because the virtual cell *is* that cell). -/
theorem C34_lookup_assign {nsets usable : ℕ} {L : List (List (AV p))} {map map' : CellMap} {reg reg' : Region p}
    (h : lkLoop nsets usable L 0 0 map reg = some (map', reg')) :
    ∀ (k : ℕ) as, L[k]? = some as → ∀ (j : ℕ) a, as[j]? = some a →
      k % nsets < nsets ∧ k / nsets < usable ∧
      ((⟨.lookup (k % nsets) j, k / nsets⟩ : PCell), a.value) ∈ reg'.writes ∧
      ∀ v : PCell → ZMod p, (∀ e ∈ reg'.copies, v e.1 = v e.2) →
        H2.at' (vw map' v) a = v ⟨.lookup (k % nsets) j, k / nsets⟩ := by
  obtain ⟨o, hn⟩ := lkLoop_out (k := 0) L (by simp) (by simp) h
  intro k as hk j a ha
  have hm := lkTargets_mem (n := nsets) L (k0 := 0) hk ha
  rw [Nat.zero_add] at hm
  have hn' : 0 < nsets := hn (List.ne_nil_of_mem (List.mem_of_getElem? hk))
  refine ⟨Nat.mod_lt _ hn', o.row _ hm, ?_, ?_⟩
  · rw [o.writes]; exact List.mem_append_right _ (List.mem_map.2 ⟨_, hm, rfl⟩)
  · intro v hv
    obtain ⟨c, x, e1, e2, e3⟩ := o.tied _ hm
    have e1' : a.cell = some c := e1
    simp only [H2.at', e1', vw, e2]
    rcases e3 with e3 | e3
    · rw [e3]
    · exact hv _ e3

/-- C34, for the whole circuit and both lookup modes: every tuple queued by any thread is in the table. -/
theorem C34_lookups_hold {cfg : Cfg} {threads : List (Ctx p)} {eqs : List (Cell × Cell)}
    {consts : List (ZMod p × Cell)} {queued : List (Tag × List (AV p))} {instances : List (List (AV p))}
    {ext : CellMap} {reg : Region p} {map : CellMap} {bps : List ℕ}
    (h : synthesize cfg threads eqs consts (addLookups [] queued) instances ext = some (reg, map, bps))
    (hmx : 4 ≤ cfg.maxRows) (hwf : ∀ s ∈ threads, WFThread s) (hwr : cfg.withRange = true)
    {width : ℕ} (hwd : ∀ e ∈ queued, e.2.length = width) (h0 : 0 < width) (hq1 : cfg.qLookup = true → width = 1)
    {tbl : List (ZMod p) → Prop} {v : PCell → ZMod p} (hv : PSat cfg tbl width reg v) :
    ∀ e ∈ queued, tbl (e.2.map (H2.at' (vw map v))) := by
  intro e he
  refine (synth_sound h hmx hwf (.inl hwr) ?_ h0 hq1 hv).1.lookup e.2 (addLookups_all_mem.2 ⟨e, he, rfl⟩)
  intro as has
  obtain ⟨e', he', rfl⟩ := addLookups_all_mem.1 has
  exact hwd e' he'

/-- Finding: when the circuit is configured with `lookup_bits` but with no lookup advice column at all, `synthesize`
succeeds and the queued lookups leave no trace in the circuit. -/
theorem C34_dropped_without_columns {numAdvice numFixed maxRows usable b : ℕ} {threads : List (Ctx p)}
    {eqs : List (Cell × Cell)} {consts : List (ZMod p × Cell)} {lookups : Buckets p}
    {instances : List (List (AV p))} {ext : CellMap} :
    synthesize (configure numAdvice numFixed [0] (some b) maxRows usable) threads eqs consts lookups instances ext =
      synthesize (configure numAdvice numFixed [0] (some b) maxRows usable) threads eqs consts [] instances ext := rfl

/-! ## Finding: an overlap at the top of a thread is not detected -/

/-- `ctx.assign_region` of five cells with the gate enabled at rows 0 and 1 of a fresh context over `ZMod 7`. -/
def overlapThread : Ctx 7 :=
  { Ctx.new false 0 "t" 0 [] [] with
    advice := List.replicate 5 (.trivial 0), selector := [true, true, false, false, false] }

/-- It is what the API builds. -/
example : ((assignRegion (p := 7) (List.replicate 5 (.witness 0)) [0, 1] (Ctx.new false 0 "t" 0 [] [])).map fun o =>
    (o.2.advice.map fun a => match a with | .trivial x => x | _ => 1, o.2.selector)) =
    some (List.replicate 5 0, overlapThread.selector) := by decide +kernel

/-- Finding 8: with overlapping gates at rows 0 and 1 of a thread, `assign_with_constraints` may break the column between
them without complaint; the first gate is then enforced on unassigned cells, so a physical assignment can violate the
virtual gate while satisfying every physical gate and copy.  (The safety check is skipped for `i < ROTATIONS - 2`.) -/
theorem C29_overlap_at_top_unsound :
    ∃ (st : LState 7) (v : PCell → ZMod 7),
      assignWithConstraints 4 3 [overlapThread] Region.empty (fun _ => none) = some st ∧
      (∀ g r, (g, r) ∈ st.reg.sel →
        v ⟨.advice g, r⟩ + v ⟨.advice g, r + 1⟩ * v ⟨.advice g, r + 2⟩ = v ⟨.advice g, r + 3⟩) ∧
      (∀ e ∈ st.reg.copies, v e.1 = v e.2) ∧
      overlapThread.selector[0]? = some true ∧ ¬ GateAt (vw st.map v) overlapThread 0 := by
  have run : ((assignWithConstraints 4 3 [overlapThread] Region.empty (fun _ => none)).map fun st =>
      (st.reg.sel, st.reg.copies, (List.range 4).map fun i => st.map (overlapThread.cellAt i))) =
      some ([(0, 0), (1, 0)], [(⟨.advice 1, 0⟩, ⟨.advice 0, 1⟩), (⟨.advice 2, 0⟩, ⟨.advice 1, 3⟩)],
        [some ⟨.advice 0, 0⟩, some ⟨.advice 0, 1⟩, some ⟨.advice 1, 1⟩, some ⟨.advice 1, 2⟩]) := by
    decide +kernel
  obtain ⟨st, h, e⟩ := Option.map_eq_some_iff.1 run
  simp only [Prod.mk.injEq] at e
  obtain ⟨e1, e2, e3⟩ := e
  refine ⟨st, fun x => if x = ⟨.advice 0, 0⟩ ∨ x = ⟨.advice 0, 3⟩ then 1 else 0, h, ?_, ?_, rfl, ?_⟩
  · intro g r hg
    rw [e1] at hg
    simp only [List.mem_cons, List.not_mem_nil, or_false] at hg
    rcases hg with hg | hg <;> cases hg <;> decide
  · rw [e2]; decide
  · have m : ∀ i x, (List.map (fun i => st.map (overlapThread.cellAt i)) (List.range 4))[i]? = some x →
        st.map (overlapThread.cellAt i) = x := by
      intro i x hx
      rw [List.getElem?_map, Option.map_eq_some_iff] at hx
      obtain ⟨j, hj, rfl⟩ := hx
      obtain ⟨h1, h2⟩ := List.getElem?_eq_some_iff.1 hj
      rw [List.getElem_range] at h2
      rw [h2]
    rw [e3] at m
    unfold GateAt vw
    rw [m 0 _ rfl, m 1 _ rfl, m 2 _ rfl, m 3 _ rfl]
    decide

/-! ## Examples: the hypotheses above are met -/

/-- Two threads over `ZMod 7`; the first has two chained gates, a constant, an equality and a range lookup. -/
def exT0 : Ctx 7 :=
  { Ctx.new false 0 "t" 0 [] [] with
    advice := [1, 2, 3, 0, 2, 5, 3].map .trivial
    selector := [true, false, false, true, false, false, false]
    eqs := [(⟨"t", 0, 6⟩, ⟨"t", 0, 2⟩)], consts := [(3, ⟨"t", 0, 2⟩)], lookups := [⟨.trivial 1, some ⟨"t", 0, 0⟩⟩] }
def exT1 : Ctx 7 :=
  { Ctx.new false 0 "t" 1 [] [] with
    advice := [3, 1, 1, 4].map .trivial, selector := [true, false, false, false]
    eqs := [(⟨"t", 1, 0⟩, ⟨"t", 0, 6⟩)], consts := [(4, ⟨"t", 1, 3⟩), (3, ⟨"t", 1, 0⟩)]
    lookups := [⟨.trivial 1, some ⟨"t", 1, 1⟩⟩] }
def exTs : List (Ctx 7) := [exT0, exT1]
def exCfg : Cfg := configure 3 1 [1] (some 1) 5 5
/-- A column break happens inside the first thread and the circuit can be synthesized. -/
theorem exSynth : ∃ out, synthesize exCfg exTs (exT1.eqs ++ exT0.eqs) (exT0.consts ++ exT1.consts)
    (addLookups [] (lookupLog exT1 ++ lookupLog exT0)) [[⟨.trivial 4, some ⟨"t", 1, 3⟩⟩]] (fun _ => none) = some out ∧
    out.2.2 ≠ [] := by
  have h : ((synthesize exCfg exTs (exT1.eqs ++ exT0.eqs) (exT0.consts ++ exT1.consts)
    (addLookups [] (lookupLog exT1 ++ lookupLog exT0)) [[⟨.trivial 4, some ⟨"t", 1, 3⟩⟩]] (fun _ => none)).map
      fun o => o.2.2) = some [3, 4] := by decide +kernel
  obtain ⟨out, h1, h2⟩ := Option.map_eq_some_iff.1 h
  exact ⟨out, h1, by rw [h2]; simp⟩

theorem exWF : ∀ s ∈ exTs, WFThread s := by
  intro s hs
  simp only [exTs, List.mem_cons, List.not_mem_nil, or_false] at hs
  rcases hs with rfl | rfl
  · refine ⟨?_, by decide⟩
    intro i hi
    have hlt : i < exT0.selector.length := (List.getElem?_eq_some_iff.1 hi).1
    have : i < 7 := hlt
    interval_cases i <;> revert hi <;> decide
  · refine ⟨?_, by decide⟩
    intro i hi
    have hlt : i < exT1.selector.length := (List.getElem?_eq_some_iff.1 hi).1
    have : i < 4 := hlt
    interval_cases i <;> revert hi <;> decide

/-- An honest virtual assignment for it. -/
def exW (c : Cell) : ZMod 7 :=
  if c.ctxId = 0 then ([1, 2, 3, 0, 2, 5, 3] : List (ZMod 7)).getD c.offset 0
  else ([3, 1, 1, 4] : List (ZMod 7)).getD c.offset 0

theorem exVSat : VSat (fun l => ∃ x, l = [x] ∧ RangeTable 7 1 x) exTs (exT1.eqs ++ exT0.eqs) (exT0.consts ++ exT1.consts)
    (addLookups [] (lookupLog exT1 ++ lookupLog exT0)).all exW := by
  refine ⟨?_, by decide, by decide, ?_⟩
  · intro s hs i hi
    simp only [exTs, List.mem_cons, List.not_mem_nil, or_false] at hs
    rcases hs with rfl | rfl
    · have hlt : i < exT0.selector.length := (List.getElem?_eq_some_iff.1 hi).1
      have : i < 7 := hlt
      unfold GateAt
      interval_cases i <;> revert hi <;> decide
    · have hlt : i < exT1.selector.length := (List.getElem?_eq_some_iff.1 hi).1
      have : i < 4 := hlt
      unfold GateAt
      interval_cases i <;> revert hi <;> decide
  · intro as has
    obtain ⟨e, he, rfl⟩ := addLookups_all_mem.1 has
    simp only [lookupLog, exT0, exT1, Ctx.new, List.map_cons, List.map_nil, List.cons_append, List.nil_append,
      List.mem_cons, List.not_mem_nil, or_false] at he
    rcases he with rfl | rfl
    · exact ⟨1, rfl, 1, by decide, rfl⟩
    · exact ⟨1, rfl, 1, by decide, rfl⟩

instance : Fact (Nat.Prime 7) := ⟨by decide⟩

/-- Every hypothesis of C29/C30/C34 is met by this circuit: there is a satisfying physical assignment. -/
example : ∃ out v, synthesize exCfg exTs (exT1.eqs ++ exT0.eqs) (exT0.consts ++ exT1.consts)
    (addLookups [] (lookupLog exT1 ++ lookupLog exT0)) [[⟨.trivial 4, some ⟨"t", 1, 3⟩⟩]] (fun _ => none) = some out ∧
    PSat exCfg (fun l => ∃ x, l = [x] ∧ RangeTable 7 1 x) 1 out.1 v ∧ v ⟨.inst 0, 0⟩ = 4 := by
  obtain ⟨⟨reg, map, bps⟩, h, -⟩ := exSynth
  obtain ⟨v, h1, -, h3, -⟩ := C30_circuit_complete h (by decide) exWF (width := 1) (by
    intro as has
    obtain ⟨e, he, rfl⟩ := addLookups_all_mem.1 has
    simp only [lookupLog, exT0, exT1, Ctx.new, List.map_cons, List.map_nil, List.cons_append, List.nil_append,
      List.mem_cons, List.not_mem_nil, or_false] at he
    rcases he with rfl | rfl <;> rfl) (fun _ => rfl) ⟨0, rfl, 0, by decide, rfl⟩ exVSat
  refine ⟨_, v, h, h1, ?_⟩
  rw [h3 0 _ rfl 0 _ rfl]
  rfl

/-- A schedule: the pushes of the second thread arrive first. -/
example : Merge (exTs.map (·.eqs)) (exT1.eqs ++ exT0.eqs) :=
  Merge.step 1 _ [] rfl (Merge.step 0 _ [] rfl (Merge.done (by decide)))
example : (exTs.map Ctx.tag).Nodup := by decide +kernel

end H2.Phys
