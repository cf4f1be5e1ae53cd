import Verif.Threads.Shape

/-!
# The prover's synthesis

`BaseCircuitBuilder::synthesize` (gates/circuit/mod.rs:164-198) in witness-generation-only mode: the threads are written with
`assign_witnesses` and the break points of keygen, the queued lookups are written to the lookup columns, and nothing else is done.
Here: the model, and lemmas that compare it with key generation.
-/

set_option autoImplicit false
namespace H2.Phys
open H2
variable {p : ℕ}

/-! ## Model -/

/-- `for (advice, &column) in advices.iter().zip(config[lookup_col].iter())` (lookups.rs:143-149) with `copy_manager = None`
(witness-generation-only, lookups.rs:131-132): only the value is assigned. -/
def lkColsP (setIdx off usable : ℕ) : ℕ → List (AV p) → List (PCell × Assigned p) → Option (List (PCell × Assigned p))
  | _, [], ws => some ws
  | j, a :: as, ws =>
    if off < usable then lkColsP setIdx off usable (j + 1) as (ws ++ [(⟨.lookup setIdx j, off⟩, a.value)]) else none

/-- The loop of `LookupAnyManager::assign_raw` (lookups.rs:137-152), witness-generation-only. -/
def lkLoopP (nsets usable : ℕ) : List (List (AV p)) → ℕ → ℕ → List (PCell × Assigned p) → Option (List (PCell × Assigned p))
  | [], _, _, ws => some ws
  | as :: l, col, off, ws => do
    let (col, off) := if col ≥ nsets then (0, off + 1) else (col, off)
    if col < nsets then
      let ws ← lkColsP col off usable 0 as ws
      lkLoopP nsets usable l (col + 1) off ws
    else none

/-- `assign_lookups_in_phase` (circuit/builder.rs:325-366), witness-generation-only: with `q_lookup` nothing is written. -/
def assignLookupsP (cfg : Cfg) (cells : List (List (AV p))) (ws : List (PCell × Assigned p)) :
    Option (List (PCell × Assigned p)) :=
  if cells = [] then some ws
  else if cfg.qLookup then (if cfg.ncols = 1 then some ws else none)
  else lkLoopP cfg.nsets cfg.usable cells 0 0 ws

/-- `BaseCircuitBuilder::synthesize` (circuit/mod.rs:164-198) in the prover: the advice values written.  `bps` are the break
points recorded at key generation (single_phase.rs:145-147); the copy manager and the instances are skipped
(circuit/mod.rs:188-190, builder.rs:290). -/
def synthesizeProver (cfg : Cfg) (threads : List (Ctx p)) (lookups : Buckets p) (bps : List ℕ) :
    Option (List (PCell × Assigned p)) := do
  let ws ← assignWitnesses cfg.ncols threads bps []
  if cfg.withRange then assignLookupsP cfg lookups.all ws else some ws

/-! ## The circuit does not depend on the values -/

/-- Same calls on the region, up to the values written. -/
structure RegShape (r r' : Region p) : Prop where
  cells : r.writes.map Prod.fst = r'.writes.map Prod.fst
  fixed : r.fixed = r'.fixed
  copies : r.copies = r'.copies
  sel : r.sel = r'.sel
  qlk : r.qlk = r'.qlk

/-- Same cells. -/
abbrev SameCells (a b : List (AV p)) : Prop := List.Forall₂ (fun x y => x.cell = y.cell) a b

theorem constrainExternal_shape {a b : AV p} (hab : a.cell = b.cell) {x : PCell} {map : CellMap} {r r' : Region p}
    (hr : RegShape r r') {o : CellMap × Region p} (h : constrainExternal a x map r = some o) :
    ∃ r2, constrainExternal b x map r' = some (o.1, r2) ∧ RegShape o.2 r2 := by
  unfold constrainExternal at h ⊢
  rw [← hab]
  split at h
  · cases h
  · split at h
    · cases h
      exact ⟨_, rfl, ⟨hr.cells, hr.fixed, by simp [hr.copies], hr.sel, hr.qlk⟩⟩
    · split at h
      · rename_i ht
        cases h
        exact ⟨_, by rw [if_pos ht], hr⟩
      · cases h

theorem lkCols_shape {setIdx off usable : ℕ} {as bs : List (AV p)} (hab : SameCells as bs) : ∀ {j : ℕ} {map : CellMap}
    {r r' : Region p}, RegShape r r' → ∀ {o : CellMap × Region p}, lkCols setIdx off usable j as map r = some o →
    ∃ r2, lkCols setIdx off usable j bs map r' = some (o.1, r2) ∧ RegShape o.2 r2 := by
  induction hab with
  | nil =>
    intro j map r r' hr o h
    cases h
    exact ⟨_, rfl, hr⟩
  | @cons a b as bs h1 _ ih =>
    intro j map r r' hr o h
    rw [lkCols] at h ⊢
    split at h
    · rename_i hlt
      rw [if_pos hlt]
      simp only [Option.bind_eq_bind, Option.bind_eq_some_iff] at h ⊢
      obtain ⟨⟨m1, r1⟩, e1, e2⟩ := h
      obtain ⟨r2, f1, f2⟩ := constrainExternal_shape h1 (r' := { r' with writes := r'.writes ++ [(⟨.lookup setIdx j, off⟩, b.value)] })
        (by exact ⟨by simp [hr.cells], hr.fixed, hr.copies, hr.sel, hr.qlk⟩) e1
      obtain ⟨r3, g1, g2⟩ := ih f2 e2
      exact ⟨r3, ⟨_, f1, g1⟩, g2⟩
    · cases h

theorem lkLoop_shape {nsets usable : ℕ} {L L' : List (List (AV p))} (hL : List.Forall₂ SameCells L L') : ∀ {col off : ℕ}
    {map : CellMap} {r r' : Region p}, RegShape r r' → ∀ {o : CellMap × Region p}, lkLoop nsets usable L col off map r = some o →
    ∃ r2, lkLoop nsets usable L' col off map r' = some (o.1, r2) ∧ RegShape o.2 r2 := by
  induction hL with
  | nil =>
    intro col off map r r' hr o h
    cases h
    exact ⟨_, rfl, hr⟩
  | @cons a b as bs h1 _ ih =>
    intro col off map r r' hr o h
    rw [lkLoop] at h ⊢
    generalize (if col ≥ nsets then (0, off + 1) else (col, off)) = q at h ⊢
    obtain ⟨col, off⟩ := q
    simp only at h ⊢
    split at h
    · rename_i hlt
      rw [if_pos hlt]
      simp only [Option.bind_eq_bind, Option.bind_eq_some_iff] at h ⊢
      obtain ⟨⟨m1, r1⟩, e1, e2⟩ := h
      obtain ⟨r2, f1, f2⟩ := lkCols_shape h1 hr e1
      obtain ⟨r3, g1, g2⟩ := ih f2 e2
      exact ⟨r3, ⟨_, f1, g1⟩, g2⟩
    · cases h

theorem qLookupLoop_shape {map : CellMap} {L L' : List (List (AV p))} (hL : List.Forall₂ SameCells L L') :
    ∀ {r r' : Region p}, RegShape r r' → ∀ {o : Region p}, qLookupLoop map L r = some o →
    ∃ r2, qLookupLoop map L' r' = some r2 ∧ RegShape o r2 := by
  induction hL with
  | nil =>
    intro r r' hr o h
    cases h
    exact ⟨_, rfl, hr⟩
  | @cons a b as bs h1 _ ih =>
    intro r r' hr o h
    cases h1 with
    | nil => simp [qLookupLoop] at h
    | @cons x y xs ys hxy _ =>
      simp only [qLookupLoop, List.head?_cons, Option.bind_eq_bind, Option.bind_some, Option.bind_eq_some_iff] at h ⊢
      obtain ⟨c, e1, pc, e2, e3⟩ := h
      split at e3
      · rename_i hc
        obtain ⟨r2, g1, g2⟩ := ih (r := { r with qlk := r.qlk ++ [pc.row] }) (r' := { r' with qlk := r'.qlk ++ [pc.row] }) ⟨hr.cells, hr.fixed, hr.copies, hr.sel, by simp [hr.qlk]⟩ e3
        exact ⟨r2, ⟨c, hxy ▸ e1, pc, e2, by rw [if_pos hc]; exact g1⟩, g2⟩
      · cases e3

theorem instLoop_shape {k : ℕ} {map : CellMap} {as bs : List (AV p)} (hab : SameCells as bs) : ∀ {i : ℕ},
    instLoop k map i as = instLoop k map i bs := by
  induction hab with
  | nil => intro i; rfl
  | cons h _ ih => intro i; simp only [instLoop, h, ih]

theorem instAll_shape {map : CellMap} {L L' : List (List (AV p))} (hL : List.Forall₂ SameCells L L') : ∀ {k : ℕ},
    instAll map k L = instAll map k L' := by
  induction hL with
  | nil => intro i; rfl
  | cons h _ ih => intro i; simp only [instAll, instLoop_shape h, ih]

theorem forall₂_nil_iff {α β : Type} {R : α → β → Prop} {l : List α} {l' : List β} (h : List.Forall₂ R l l') : l = [] ↔ l' = [] := by
  cases h <;> simp

/-- Two key generations of the same shape synthesize the same circuit: the same map, break points, selectors, copies, fixed
values, and writes to the same cells. -/
theorem synthesize_shape {cfg : Cfg} {ts ts' : List (Ctx p)} {eqs : List (Cell × Cell)} {consts : List (ZMod p × Cell)}
    {lk lk' : Buckets p} {is is' : List (List (AV p))} {ext : CellMap} {reg : Region p} {map : CellMap} {bps : List ℕ}
    (hts : List.Forall₂ SameThread ts ts') (hlk : List.Forall₂ SameCells lk.all lk'.all) (his : List.Forall₂ SameCells is is')
    (h : synthesize cfg ts eqs consts lk is ext = some (reg, map, bps)) :
    ∃ reg', synthesize cfg ts' eqs consts lk' is' ext = some (reg', map, bps) ∧ RegShape reg reg' := by
  simp only [synthesize, Option.bind_eq_bind, Option.bind_eq_some_iff, Option.pure_def, Option.some.injEq, Prod.mk.injEq] at h ⊢
  obtain ⟨st, h1, ⟨m1, r1⟩, h2, r2, h3, ic, h4, rfl, rfl, rfl⟩ := h
  obtain ⟨st', k1, hsh⟩ := awcThreads_shape hts (st' := { gate := 0, row := 0, bps := [], reg := Region.empty, map := ext })
    ⟨rfl, rfl, rfl, rfl, rfl, rfl, rfl, rfl, rfl⟩ h1
  have hr0 : RegShape st.reg st'.reg := ⟨hsh.cells, hsh.fixed, hsh.copies, hsh.sel, hsh.qlk⟩
  obtain ⟨r1', k2, hr1⟩ : ∃ r1', lookupStage cfg lk'.all st'.map st'.reg = some (m1, r1') ∧ RegShape r1 r1' := by
    unfold lookupStage at h2 ⊢
    rw [← hsh.map]
    split at h2
    · rename_i hw
      rw [if_pos hw]
      unfold assignLookups at h2 ⊢
      split at h2
      · rename_i he
        rw [if_pos ((forall₂_nil_iff hlk).1 he)]
        cases h2
        exact ⟨_, rfl, hr0⟩
      · rename_i he
        rw [if_neg fun h => he ((forall₂_nil_iff hlk).2 h)]
        split at h2
        · rename_i hq
          rw [if_pos hq]
          split at h2
          · rename_i hn
            rw [if_pos hn]
            simp only [Option.map_eq_some_iff, Prod.mk.injEq] at h2 ⊢
            obtain ⟨r, e1, rfl, rfl⟩ := h2
            obtain ⟨r', e2, e3⟩ := qLookupLoop_shape hlk hr0 e1
            exact ⟨r', ⟨r', e2, rfl, rfl⟩, e3⟩
          · cases h2
        · rename_i hq
          rw [if_neg hq]
          obtain ⟨r', e2, e3⟩ := lkLoop_shape hlk hr0 h2
          exact ⟨r', e2, e3⟩
    · rename_i hw
      rw [if_neg hw]
      cases h2
      exact ⟨_, rfl, hr0⟩
  have h3' : ∃ r2', copyAssignRaw cfg.nfixed cfg.usable eqs consts m1 r1' = some r2' ∧ RegShape r2 r2' := by
    simp only [copyAssignRaw, Option.bind_eq_bind, Option.bind_eq_some_iff, Option.pure_def, Option.some.injEq] at h3 ⊢
    obtain ⟨c1, e1, c2, e2, c3, e3, rfl⟩ := h3
    exact ⟨_, ⟨c1, e1, c2, e2, c3, e3, rfl⟩, hr1.cells, by simp [hr1.fixed], by simp [hr1.copies], hr1.sel, hr1.qlk⟩
  obtain ⟨r2', k3, hr2⟩ := h3'
  refine ⟨{ r2' with copies := r2'.copies ++ ic }, ⟨st', k1, ⟨m1, r1'⟩, k2, r2', k3, ic, by rw [← instAll_shape his]; exact h4, rfl, rfl, hsh.bps.symm⟩,
    hr2.cells, hr2.fixed, by simp [hr2.copies], hr2.sel, hr2.qlk⟩

/-! ## The prover writes the same values in the same cells -/

theorem lkCols_prover {setIdx off usable : ℕ} (as : List (AV p)) : ∀ {j : ℕ} {map : CellMap} {r : Region p}
    {o : CellMap × Region p}, lkCols setIdx off usable j as map r = some o →
    lkColsP setIdx off usable j (as.map fun a => ⟨a.value, none⟩) r.writes = some o.2.writes := by
  induction as with
  | nil =>
    intro j map r o h
    cases h
    rfl
  | cons a as ih =>
    intro j map r o h
    rw [lkCols] at h
    rw [List.map_cons, lkColsP]
    split at h
    · rename_i hlt
      rw [if_pos hlt]
      simp only [Option.bind_eq_bind, Option.bind_eq_some_iff] at h
      obtain ⟨⟨m1, r1⟩, e1, e2⟩ := h
      have e3 : r1.writes = r.writes ++ [(⟨.lookup setIdx j, off⟩, a.value)] := by
        unfold constrainExternal at e1
        split at e1
        · cases e1
        · split at e1
          · cases e1; rfl
          · split at e1
            · cases e1; rfl
            · cases e1
      rw [← ih e2, e3]
    · cases h

theorem lkLoop_prover {nsets usable : ℕ} (L : List (List (AV p))) : ∀ {col off : ℕ} {map : CellMap} {r : Region p}
    {o : CellMap × Region p}, lkLoop nsets usable L col off map r = some o →
    lkLoopP nsets usable (L.map fun l => l.map fun a => ⟨a.value, none⟩) col off r.writes = some o.2.writes := by
  induction L with
  | nil =>
    intro col off map r o h
    cases h
    rfl
  | cons a L ih =>
    intro col off map r o h
    rw [lkLoop] at h
    rw [List.map_cons, lkLoopP]
    generalize (if col ≥ nsets then (0, off + 1) else (col, off)) = q at h ⊢
    obtain ⟨col, off⟩ := q
    simp only at h ⊢
    split at h
    · rename_i hlt
      rw [if_pos hlt]
      simp only [Option.bind_eq_bind, Option.bind_eq_some_iff] at h ⊢
      obtain ⟨⟨m1, r1⟩, e1, e2⟩ := h
      exact ⟨_, lkCols_prover _ e1, ih e2⟩
    · cases h

theorem qLookupLoop_writes {map : CellMap} (L : List (List (AV p))) : ∀ {r o : Region p}, qLookupLoop map L r = some o →
    o.writes = r.writes := by
  induction L with
  | nil => intro r o h; cases h; rfl
  | cons a L ih =>
    intro r o h
    simp only [qLookupLoop, Option.bind_eq_bind, Option.bind_eq_some_iff] at h
    obtain ⟨x, -, c, -, pc, -, e⟩ := h
    split at e
    · exact ih (r := { r with qlk := r.qlk ++ [pc.row] }) e
    · cases e

/-- A prover whose threads hold the same advice, and whose queued lookups hold the same values, as a key generation run
writes exactly what the key generation run writes. -/
theorem synthesizeProver_eq {cfg : Cfg} {ts ts' : List (Ctx p)} {eqs : List (Cell × Cell)} {consts : List (ZMod p × Cell)}
    {lk lk' : Buckets p} {is : List (List (AV p))} {ext : CellMap} {reg : Region p} {map : CellMap} {bps : List ℕ}
    (hts : ts.map (·.advice) = ts'.map (·.advice)) (hlk : lk'.all = lk.all.map fun l => l.map fun a => ⟨a.value, none⟩)
    (h : synthesize cfg ts eqs consts lk is ext = some (reg, map, bps)) :
    synthesizeProver cfg ts' lk' bps = some reg.writes := by
  simp only [synthesize, Option.bind_eq_bind, Option.bind_eq_some_iff, Option.pure_def, Option.some.injEq, Prod.mk.injEq] at h
  obtain ⟨st, h1, ⟨m1, r1⟩, h2, r2, h3, ic, h4, rfl, rfl, rfl⟩ := h
  have k1 : assignWitnesses cfg.ncols ts' st.bps [] = some st.reg.writes := by
    rw [← assignWitnesses_congr hts]
    exact assignWitnesses_replay h1
  have k3 : r2.writes = r1.writes := by
    simp only [copyAssignRaw, Option.bind_eq_bind, Option.bind_eq_some_iff, Option.pure_def, Option.some.injEq] at h3
    obtain ⟨c1, e1, c2, e2, c3, e3, rfl⟩ := h3
    rfl
  rw [synthesizeProver, k1]
  simp only [Option.bind_eq_bind, Option.bind_some]
  show _ = some r2.writes
  rw [k3]
  unfold lookupStage at h2
  split at h2
  · rename_i hw
    rw [if_pos hw]
    unfold assignLookups at h2
    unfold assignLookupsP
    rw [hlk]
    split at h2
    · rename_i he
      cases h2
      rw [he]
      rfl
    · rename_i he
      rw [if_neg (by simpa using he)]
      split at h2
      · rename_i hq
        rw [if_pos hq]
        split at h2
        · rename_i hn
          rw [if_pos hn]
          simp only [Option.map_eq_some_iff, Prod.mk.injEq] at h2
          obtain ⟨r, e1, rfl, rfl⟩ := h2
          rw [qLookupLoop_writes _ e1]
        · cases h2
      · rename_i hq
        rw [if_neg hq]
        exact lkLoop_prover _ h2
  · rename_i hw
    rw [if_neg hw]
    cases h2
    rfl

/-! ## The assignment the prover commits to -/

/-- The assignment of a proof: the advice columns hold what was last written to them and zero elsewhere, the fixed columns what
was fixed at key generation and zero elsewhere, the instance columns the public inputs `pub` padded with zeros. -/
def proofAssignment [Fact p.Prime] (ws : List (PCell × Assigned p)) (fixed : List (PCell × ZMod p)) (pub : List (List (ZMod p))) (x : PCell) : ZMod p :=
  match x.col with
  | .inst k => ((pub[k]?).bind (·[x.row]?)).getD 0
  | .fixed _ => (fixed.reverse.lookup x).getD 0
  | _ => ((ws.reverse.lookup x).map Assigned.eval).getD 0

theorem lookup_reverse {α β : Type} [BEq α] [LawfulBEq α] (l : List (α × β)) (x : α) :
    (∃ e ∈ l, e.1 = x ∧ l.reverse.lookup x = some e.2) ∨ (x ∉ l.map Prod.fst ∧ l.reverse.lookup x = none) := by
  cases h : l.reverse.lookup x with
  | none =>
    right
    refine ⟨fun hx => ?_, rfl⟩
    obtain ⟨e, he, rfl⟩ := List.mem_map.1 hx
    have := List.lookup_eq_none_iff.1 h e (List.mem_reverse.2 he)
    simp at this
  | some y =>
    left
    obtain ⟨l1, l2, e, -⟩ := List.lookup_eq_some_iff.1 h
    exact ⟨(x, y), by rw [← List.mem_reverse, e]; simp, rfl, rfl⟩

/-- The assignment of a proof of a circuit with other chips, whose cells hold `vext`. -/
def proofAssignmentX [Fact p.Prime] (vext : PCell → ZMod p) (ws : List (PCell × Assigned p)) (fixed : List (PCell × ZMod p)) (pub : List (List (ZMod p))) (x : PCell) : ZMod p :=
  if x.col.own then proofAssignment ws fixed pub x else vext x

theorem proof_sat_ext [Fact p.Prime] {cfg : Cfg} {threads : List (Ctx p)} {eqs : List (Cell × Cell)} {consts : List (ZMod p × Cell)}
    {lookups : Buckets p} {instances : List (List (AV p))} {ext : CellMap} {reg : Region p} {map : CellMap} {bps : List ℕ}
    (h : synthesize cfg threads eqs consts lookups instances ext = some (reg, map, bps))
    (hmx : 4 ≤ cfg.maxRows) (hwf : ∀ s ∈ threads, WFThread s)
    {width : ℕ} (hwd : ∀ as ∈ lookups.all, as.length = width) (hq1 : cfg.qLookup = true → width = 1)
    {tbl : List (ZMod p) → Prop} (h0 : tbl (List.replicate width 0)) {w : Cell → ZMod p}
    (hw : VSat tbl threads eqs consts lookups.all w)
    (hadv : ∀ s ∈ threads, ∀ (i : ℕ) a, s.advice[i]? = some a → w (s.cellAt i) = a.eval)
    (hlk : ∀ as ∈ lookups.all, ∀ a ∈ as, H2.at' w a = a.value.eval) {vext : PCell → ZMod p}
    (hext : ∀ c x, ext c = some x → x.col.own = false ∧ vext x = w c) :
    PSat cfg tbl width reg (proofAssignmentX vext reg.writes reg.fixed (instances.map fun l => l.map (H2.at' w))) := by
  obtain ⟨v, hs, hm, hi, hwr, hz, hvx⟩ := synth_complete_ext h hmx hwf hwd hq1 h0 hw hext
  replace hwr := hwr hadv hlk
  obtain ⟨st, fx, o, -⟩ := synthesize_out h
  set u := proofAssignmentX vext reg.writes reg.fixed (instances.map fun l => l.map (H2.at' w)) with hu
  have wcol : ∀ x ∈ reg.writes.map Prod.fst, (∃ g, x.col = .advice g) ∨ ∃ i j, x.col = .lookup i j := by
    intro x hx
    obtain ⟨hL, -⟩ := awcThreads_laid threads o.awc
    rw [o.writes, hL.writes, List.map_append] at hx
    rcases List.mem_append.1 hx with hx | hx
    · obtain ⟨e, he, rfl⟩ := List.mem_map.1 hx
      have he' : e ∈ (places cfg.maxRows (allItems threads) (0, 0)).flatMap Place.writes := by simpa [Region.empty] using he
      obtain ⟨a, -, rfl | rfl⟩ := mem_writes_iff.1 he'
      · exact .inl ⟨_, rfl⟩
      · exact .inl ⟨_, rfl⟩
    · obtain ⟨e, he, rfl⟩ := List.mem_map.1 hx
      obtain ⟨e', he', rfl⟩ := List.mem_map.1 he
      obtain ⟨k, i, as, -, -, h3⟩ := lkTargets_mem' _ he'
      exact .inr ⟨(0 + k) % cfg.nsets, i, by simp only [h3]⟩
  -- agreement with the honest assignment
  have uW : ∀ x ∈ reg.writes.map Prod.fst, u x = v x := by
    intro x hx
    have hux : u x = ((reg.writes.reverse.lookup x).map Assigned.eval).getD 0 := by
      rcases wcol x hx with ⟨g, hg⟩ | ⟨i, j, hg⟩ <;> simp only [hu, proofAssignmentX, PCol.own, if_true, proofAssignment, hg]
    rcases lookup_reverse reg.writes x with ⟨e, he, rfl, hl⟩ | ⟨hn, -⟩
    · rw [hux, hl, Option.map_some, Option.getD_some, hwr e he]
    · exact absurd hx hn
  have uA : ∀ g r, u ⟨.advice g, r⟩ = v ⟨.advice g, r⟩ := by
    intro g r
    by_cases hx : (⟨.advice g, r⟩ : PCell) ∈ reg.writes.map Prod.fst
    · exact uW _ hx
    · rw [(hz _ hx).1 g rfl]
      rcases lookup_reverse reg.writes ⟨.advice g, r⟩ with ⟨e, he, hl, -⟩ | ⟨-, hl⟩
      · exact absurd (List.mem_map.2 ⟨e, he, hl⟩) hx
      · simp only [hu, proofAssignmentX, PCol.own, if_true, proofAssignment, hl, Option.map_none, Option.getD_none]
  have uL : ∀ i j r, i < cfg.nsets → u ⟨.lookup i j, r⟩ = v ⟨.lookup i j, r⟩ := by
    intro i j r hlt
    by_cases hx : (⟨.lookup i j, r⟩ : PCell) ∈ reg.writes.map Prod.fst
    · exact uW _ hx
    · rw [(hz _ hx).2 i j hlt rfl]
      rcases lookup_reverse reg.writes ⟨.lookup i j, r⟩ with ⟨e, he, hl, -⟩ | ⟨-, hl⟩
      · exact absurd (List.mem_map.2 ⟨e, he, hl⟩) hx
      · simp only [hu, proofAssignmentX, PCol.own, if_true, proofAssignment, hl, Option.map_none, Option.getD_none]
  have uF : ∀ e ∈ reg.fixed, u e.1 = e.2 := by
    intro e he
    have hfx : ∀ e ∈ reg.fixed, ∃ i, e.1.col = .fixed i := by
      intro e he
      rw [o.fixed] at he
      obtain ⟨k, hk⟩ := List.mem_iff_getElem?.1 he
      exact ⟨_, by rw [(o.fxAt k e hk).1]⟩
    obtain ⟨i, hi⟩ := hfx e he
    rcases lookup_reverse reg.fixed e.1 with ⟨e', he', hee, hl⟩ | ⟨hn, -⟩
    · have hue : u e.1 = ((reg.fixed.reverse.lookup e.1)).getD 0 := by simp only [hu, proofAssignmentX, PCol.own, if_true, proofAssignment, hi]
      rw [hue, hl, Option.getD_some, ← hs.fixed e' he', hee, hs.fixed e he]
    · exact absurd (List.mem_map.2 ⟨e, he, rfl⟩) hn
  have uI : ∀ (k : ℕ) l, instances[k]? = some l → ∀ i a, l[i]? = some a → u ⟨.inst k, i⟩ = v ⟨.inst k, i⟩ := by
    intro k l hl i a ha
    rw [hi k l hl i a ha]
    simp only [hu, proofAssignmentX, PCol.own, if_true, proofAssignment, List.getElem?_map, hl, Option.map_some, Option.bind_some, ha, Option.getD_some]
  have uT : ∀ e ∈ lkTargets cfg.nsets 0 (copiedLookups cfg lookups.all), u e.2 = v e.2 := by
    intro e he
    refine uW _ ?_
    rw [o.writes, List.map_append]
    exact List.mem_append_right _ (List.mem_map.2 ⟨_, List.mem_map.2 ⟨_, he, rfl⟩, rfl⟩)
  have uM : ∀ c x, map c = some x → u x = v x := by
    intro c x hc
    rcases o.new c x hc with h1 | ⟨e, he, -, rfl⟩
    · obtain ⟨hL, -⟩ := awcThreads_laid threads o.awc
      rcases hL.new c x h1 with h2 | ⟨a, ha, -, rfl⟩
      · have := (hext c x h2).1
        rw [hvx x this, hu, proofAssignmentX, if_neg (by simp [this])]
      · exact uA _ _
    · exact uT e he
  refine ⟨?_, ?_, uF, ?_, ?_⟩
  · intro g r hg
    rw [uA, uA, uA, uA]
    exact hs.gate g r hg
  · intro z hz'
    have key : u z.1 = v z.1 ∧ u z.2 = v z.2 := by
      rcases o.only z hz' with h1 | ⟨e, he, c, h1, h2, h3⟩ | ⟨e, he, h1, h2⟩ | ⟨e, he, h1, h2⟩ |
        ⟨k, l, i, a, c, e1, e2, e3, e4, e5⟩
      · obtain ⟨hL, -⟩ := awcThreads_laid threads o.awc
        rw [hL.copies] at h1
        have h1' : z ∈ (places cfg.maxRows (allItems threads) (0, 0)).flatMap Place.copies := by simpa [Region.empty] using h1
        obtain ⟨a, ha, -, rfl⟩ := mem_copies_iff.1 h1'
        exact ⟨uA _ _, uA _ _⟩
      · exact ⟨uM _ _ h2, by rw [h3]; exact uT e he⟩
      · exact ⟨uM _ _ h1, uM _ _ h2⟩
      · refine ⟨?_, uM _ _ h2⟩
        have hf : (z.1, e.1) ∈ reg.fixed := by rw [o.fixed]; exact h1
        exact (uF _ hf).trans (hs.fixed _ hf).symm
      · exact ⟨uM _ _ e4, by rw [e5]; exact uI k l e1 i a e2⟩
    rw [key.1, key.2]
    exact hs.copy z hz'
  · intro i hlt r hr
    have : ((List.range width).map fun j => u ⟨.lookup i j, r⟩) = (List.range width).map fun j => v ⟨.lookup i j, r⟩ :=
      List.map_congr_left fun j _ => uL i j r hlt
    rw [this]
    exact hs.lookup i hlt r hr
  · intro r hr
    rw [uA]
    exact hs.qlookup r hr

theorem proof_sat [Fact p.Prime] {cfg : Cfg} {threads : List (Ctx p)} {eqs : List (Cell × Cell)} {consts : List (ZMod p × Cell)}
    {lookups : Buckets p} {instances : List (List (AV p))} {reg : Region p} {map : CellMap} {bps : List ℕ}
    (h : synthesize cfg threads eqs consts lookups instances (fun _ => none) = some (reg, map, bps))
    (hmx : 4 ≤ cfg.maxRows) (hwf : ∀ s ∈ threads, WFThread s)
    {width : ℕ} (hwd : ∀ as ∈ lookups.all, as.length = width) (hq1 : cfg.qLookup = true → width = 1)
    {tbl : List (ZMod p) → Prop} (h0 : tbl (List.replicate width 0)) {w : Cell → ZMod p}
    (hw : VSat tbl threads eqs consts lookups.all w)
    (hadv : ∀ s ∈ threads, ∀ (i : ℕ) a, s.advice[i]? = some a → w (s.cellAt i) = a.eval)
    (hlk : ∀ as ∈ lookups.all, ∀ a ∈ as, H2.at' w a = a.value.eval) :
    PSat cfg tbl width reg (proofAssignment reg.writes reg.fixed (instances.map fun l => l.map (H2.at' w))) := by
  have := proof_sat_ext h hmx hwf hwd hq1 h0 hw hadv hlk (vext := proofAssignment reg.writes reg.fixed (instances.map fun l => l.map (H2.at' w)))
    (fun c x hc => nomatch hc)
  have e : proofAssignmentX (proofAssignment reg.writes reg.fixed (instances.map fun l => l.map (H2.at' w))) reg.writes reg.fixed
      (instances.map fun l => l.map (H2.at' w)) = proofAssignment reg.writes reg.fixed (instances.map fun l => l.map (H2.at' w)) :=
    funext fun x => ite_self _
  rwa [e] at this

/-! ## Schedules -/

theorem merge_flatten {α : Type} (logs : List (List α)) : Merge logs logs.flatten := by
  have key : ∀ (n : ℕ) (logs : List (List α)), logs.flatten.length = n → Merge logs logs.flatten := by
    intro n
    induction n with
    | zero =>
      intro logs h
      have h' := List.eq_nil_of_length_eq_zero h
      rw [h']
      exact .done (List.flatten_eq_nil_iff.1 h')
    | succ n ih =>
      intro logs h
      have : ∃ (pre : List (List α)) (a : α) (l : List α) (post : List (List α)), logs = pre ++ (a :: l) :: post ∧ ∀ x ∈ pre, x = [] := by
        clear ih
        induction logs with
        | nil => simp at h
        | cons x logs ih =>
          cases x with
          | nil =>
            obtain ⟨pre, a, l, post, e, hp⟩ := ih (by simpa using h)
            exact ⟨[] :: pre, a, l, post, by simp [e], by simpa using hp⟩
          | cons a l => exact ⟨[], a, l, logs, rfl, by simp⟩
      obtain ⟨pre, a, l, post, rfl, hp⟩ := this
      have hpre : pre.flatten = [] := List.flatten_eq_nil_iff.2 hp
      have hs : (pre ++ (a :: l) :: post).set pre.length l = pre ++ l :: post := by simp
      have hlen : (pre ++ l :: post).flatten.length = n := by
        simp only [List.flatten_append, List.flatten_cons, hpre, List.nil_append, List.length_append, List.length_cons] at h ⊢
        omega
      have := ih _ hlen
      have e : (pre ++ (a :: l) :: post).flatten = a :: (pre ++ l :: post).flatten := by simp [hpre]
      rw [e]
      exact .step pre.length a l (by simp) (by rw [hs]; exact this)
  exact key _ logs rfl

/-- The queue of lookups does not depend on the schedule when the contexts have distinct tags. -/
theorem merge_addLookups_from {m : Buckets p} (hm : m.WF) {threads : List (Ctx p)} {queued queued' : List (Tag × List (AV p))}
    (hq : Merge (threads.map lookupLog) queued) (hq' : Merge (threads.map lookupLog) queued')
    (htag : (threads.map Ctx.tag).Nodup) : addLookups m queued = addLookups m queued' := by
  refine addLookups_congr hm fun u => ?_
  by_cases hu : ∃ j : ℕ, ∃ s, threads[j]? = some s ∧ Ctx.tag s = u
  · obtain ⟨j, s, hj, rfl⟩ := hu
    have hsep : ∀ (i : ℕ) l, (threads.map lookupLog)[i]? = some l → i ≠ j → ∀ a ∈ l,
        decide (a.1 = Ctx.tag s) = false := by
      intro i l hl hij a ha
      rw [List.getElem?_map, Option.map_eq_some_iff] at hl
      obtain ⟨s', hs', rfl⟩ := hl
      unfold lookupLog at ha
      obtain ⟨b, -, rfl⟩ := List.mem_map.1 ha
      simp only [decide_eq_false_iff_not]
      intro hts
      apply hij
      have hi' : (threads.map Ctx.tag)[i]? = some (Ctx.tag s) := by rw [List.getElem?_map, hs']; simp [hts]
      have hj' : (threads.map Ctx.tag)[j]? = some (Ctx.tag s) := by rw [List.getElem?_map, hj]; rfl
      exact (List.nodup_iff_getElem?_ne_getElem?.1 htag |> fun hh => by
        rcases lt_trichotomy i j with h | h | h
        · exact absurd (hi'.trans hj'.symm) (hh i j h (List.getElem?_eq_some_iff.1 hj').1)
        · exact h
        · exact absurd (hj'.trans hi'.symm) (hh j i h (List.getElem?_eq_some_iff.1 hi').1))
    rw [hq.filter _ j hsep, hq'.filter _ j hsep]
  · have none' : ∀ {q : List (Tag × List (AV p))}, Merge (threads.map lookupLog) q →
        q.filter (fun e => decide (e.1 = u)) = [] := by
      intro q hq0
      rw [List.filter_eq_nil_iff]
      intro a ha
      rw [hq0.perm.mem_iff, List.mem_flatten] at ha
      obtain ⟨l, hl, ha⟩ := ha
      obtain ⟨s, hs, rfl⟩ := List.mem_map.1 hl
      unfold lookupLog at ha
      obtain ⟨b, -, rfl⟩ := List.mem_map.1 ha
      obtain ⟨j, hj⟩ := List.mem_iff_getElem?.1 hs
      simp only [decide_eq_true_eq]
      intro hts
      exact hu ⟨j, s, hj, hts⟩
    rw [none' hq, none' hq']

theorem merge_addLookups {threads : List (Ctx p)} {queued queued' : List (Tag × List (AV p))}
    (hq : Merge (threads.map lookupLog) queued) (hq' : Merge (threads.map lookupLog) queued')
    (htag : (threads.map Ctx.tag).Nodup) : addLookups ([] : Buckets p) queued = addLookups [] queued' :=
  merge_addLookups_from Buckets.WF.nil hq hq' htag

/-- Two queues with the same tags and related tuples. -/
theorem addLookup_rel {R : List (AV p) → List (AV p) → Prop} {m m' : Buckets p}
    (hm : List.Forall₂ (fun a b : Tag × List (List (AV p)) => a.1 = b.1 ∧ List.Forall₂ R a.2 b.2) m m') (t : Tag) {c c' : List (AV p)}
    (hc : R c c') : List.Forall₂ (fun a b : Tag × List (List (AV p)) => a.1 = b.1 ∧ List.Forall₂ R a.2 b.2) (addLookup m t c) (addLookup m' t c') := by
  induction hm with
  | nil => exact .cons ⟨rfl, .cons hc .nil⟩ .nil
  | @cons a b m m' hab hm ih =>
    obtain ⟨t1, l1⟩ := a
    obtain ⟨t2, l2⟩ := b
    obtain ⟨h1, h2⟩ := hab
    simp only at h1 h2
    subst h1
    simp only [addLookup]
    split
    · exact .cons ⟨rfl, List.rel_append h2 (.cons hc .nil)⟩ hm
    · split
      · exact .cons ⟨rfl, .cons hc .nil⟩ (.cons ⟨rfl, h2⟩ hm)
      · exact .cons ⟨rfl, h2⟩ ih

theorem addLookups_rel {R : List (AV p) → List (AV p) → Prop} {es es' : List (Tag × List (AV p))}
    (he : List.Forall₂ (fun a b : Tag × List (AV p) => a.1 = b.1 ∧ R a.2 b.2) es es') : ∀ {m m' : Buckets p},
    List.Forall₂ (fun a b : Tag × List (List (AV p)) => a.1 = b.1 ∧ List.Forall₂ R a.2 b.2) m m' →
    List.Forall₂ (fun a b : Tag × List (List (AV p)) => a.1 = b.1 ∧ List.Forall₂ R a.2 b.2) (addLookups m es) (addLookups m' es') := by
  induction he with
  | nil => intro m m' h; exact h
  | @cons a b es es' hab _ ih =>
    intro m m' h
    refine ih (m := addLookup m a.1 a.2) (m' := addLookup m' b.1 b.2) ?_
    rw [← hab.1]
    exact addLookup_rel h _ hab.2

theorem buckets_all_rel {R : List (AV p) → List (AV p) → Prop} {m m' : Buckets p}
    (h : List.Forall₂ (fun a b : Tag × List (List (AV p)) => a.1 = b.1 ∧ List.Forall₂ R a.2 b.2) m m') : List.Forall₂ R m.all m'.all := by
  unfold Buckets.all
  induction h with
  | nil => exact .nil
  | cons hab _ ih =>
    rw [List.flatMap_cons, List.flatMap_cons]
    exact List.rel_append hab.2 ih

/-- The queues of two pools of related threads, for any two schedules, hold related tuples in the same order. -/
theorem merge_rel {R : AV p → AV p → Prop} {ts ts' : List (Ctx p)} (hts : List.Forall₂ (fun s t => Ctx.tag s = Ctx.tag t ∧ List.Forall₂ R s.lookups t.lookups) ts ts')
    (htag : (ts.map Ctx.tag).Nodup) {q q' : List (Tag × List (AV p))} (hq : Merge (ts.map lookupLog) q)
    (hq' : Merge (ts'.map lookupLog) q') : List.Forall₂ (List.Forall₂ R) (addLookups [] q).all (addLookups [] q').all := by
  have htag' : (ts'.map Ctx.tag).Nodup := by
    have : ts.map Ctx.tag = ts'.map Ctx.tag := by
      clear htag hq hq'
      induction hts with
      | nil => rfl
      | cons h _ ih => simp [h.1, ih]
    rwa [← this]
  rw [merge_addLookups hq (merge_flatten _) htag, merge_addLookups hq' (merge_flatten _) htag']
  refine buckets_all_rel (addLookups_rel ?_ .nil)
  clear htag htag' hq hq'
  induction hts with
  | nil => exact .nil
  | @cons s t ts ts' h _ ih =>
    rw [List.map_cons, List.map_cons, List.flatten_cons, List.flatten_cons]
    refine List.rel_append ?_ ih
    unfold lookupLog
    rw [h.1]
    have := h.2
    generalize s.lookups = a at this
    generalize t.lookups = b at this
    induction this with
    | nil => exact .nil
    | cons h _ ih => exact .cons ⟨rfl, .cons h .nil⟩ ih

end H2.Phys
