import Verif.Threads.BuilderRun
import Verif.Threads.CtxProg
import Verif.Props.Builder

/-!
# C81: key generation and proving with `BaseCircuitBuilder`

C77 with the builder itself: key generation on a builder made by `from_stage(Keygen)` (or `Mock`), its parameters and break points handed
to `BaseCircuitBuilder::prover`, the prover's run on that.
-/

set_option autoImplicit false
set_option linter.unusedSectionVars false
namespace H2.Bld
open H2 Phys
variable {p : ℕ} [Fact p.Prime] {I : Type}

/-! ## Specification -/

/-- The circuit shape given by the parameters; `maxRows`, `usable` come from halo2. -/
def Params.cfg (ps : Params) (maxRows usable : ℕ) : Cfg :=
  configure (ps.numAdvice.headD 0) ps.numFixed ps.numLookup ps.lookupBits maxRows usable

/-- Key generation: a new builder for the stage, initial parameters, the program run for some schedule, its outputs exposed in the
instance columns, possibly `calculate_params`, then `synthesize`; out come the circuit, the parameters and the break points. -/
def BuilderKeygen (prog : Prog p I) (st : Stage) (maxRows usable : ℕ) (i0 : I) (sizes : List ℕ) (reg : Region p) (ps : Params)
    (bps : List (List ℕ)) : Prop :=
  st ≠ .prover ∧ ∃ (ps0 : Params) (b0 b1 b2 b3 b4 : Builder p) (outs : List (List (AV p))),
    (Builder.fromStage st).setParams ps0 = some b0 ∧ ps0.numInst = outs.length ∧ BRun (prog i0) b0 outs b1 ∧ b1.exposeAll 0 outs = some b2 ∧
    (b3 = b2 ∨ ∃ m, b2.calculateParams m = some b3) ∧ b3.synthesize maxRows usable = some (reg, b4) ∧
    ps = b4.params ∧ b4.breakPoints = some bps ∧ sizes = outs.map List.length ∧
    ((ps.cfg maxRows usable).withRange = true ∨ ∀ t ∈ b3.threadsOf 0, t.lookups = [])

/-- The prover: `BaseCircuitBuilder::prover` with the parameters and break points of key generation, the program run for some
schedule, then `synthesize`; out come the values written. -/
def BuilderProver (prog : Prog p I) (maxRows usable : ℕ) (ps : Params) (bps : List (List ℕ)) (i : I) (ws : List (PCell × Assigned p)) : Prop :=
  ∃ (c0 c1 c2 : Builder p) (outs : List (List (AV p))), Builder.prover ps bps = some c0 ∧ BRun (prog i) c0 outs c1 ∧
    c1.exposeAll 0 outs = some c2 ∧ c2.synthesizeProver maxRows usable = some ws

/-! ## Proofs -/

theorem setParams_new {st : Stage} {ps : Params} {b : Builder p} (h : (Builder.fromStage st).setParams ps = some b) :
    b = { (Builder.fromStage st : Builder p) with params := ps, instances := List.replicate ps.numInst [] } := by
  simp only [Builder.setParams, Builder.setInstanceColumns, Builder.fromStage, Builder.unknown, Builder.new, List.nil_append, List.length_nil,
    Nat.sub_zero, List.length_replicate, if_true, Option.map_some, Option.some.injEq] at h
  rw [← h]
  rfl

theorem binv_start (st : Stage) (ps : Params) :
    BInv { (Builder.fromStage st : Builder p) with params := ps, instances := List.replicate ps.numInst [] } := by
  have h := (BInv.new (p := p) (st == .prover)).step (op := .unknown (st == .keygen)) trivial rfl
  exact h.of_same rfl (same_refl _) (.refl _) (.refl _) rfl (by simp)

theorem fromStage_pool (st : Stage) (ps : Params) :
    Builder.pool0 { (Builder.fromStage st : Builder p) with params := ps, instances := List.replicate ps.numInst [] } =
      ⟨st == .prover, 0, type0, []⟩ := rfl

/-- The builder at the end of the building of a key generation. -/
structure Built (st : Stage) (prog : PM p (List (List (AV p)))) (numInst : ℕ) (outs : List (List (AV p))) (b : Builder p) : Prop where
  inv : BInv b
  run : prog ⟨st == .prover, 0, type0, []⟩ = some (outs, b.pool0)
  len : b.phases.length = 1
  bps : b.phases.map (·.bps) = [none]
  assigned : b.cm.assigned = fun _ => none
  instances : b.instances = outs

theorem built {st : Stage} {prog : PM p (List (List (AV p)))} {ps0 : Params} {b0 b1 b2 : Builder p} {outs : List (List (AV p))}
    (h0 : (Builder.fromStage st).setParams ps0 = some b0) (hn : ps0.numInst = outs.length) (h1 : BRun prog b0 outs b1)
    (h2 : b1.exposeAll 0 outs = some b2) : Built st prog ps0.numInst outs b2 ∧ b2.params = ps0 := by
  obtain rfl := setParams_new h0
  obtain ⟨e, k, hi⟩ := h1.sim (binv_start st ps0)
  rw [fromStage_pool] at e
  have h3 := exposeAll_eq outs (b := b1) [] (by rw [k.instances, hn, List.nil_append])
  rw [List.length_nil, h2, List.nil_append, Option.some.injEq] at h3
  obtain rfl := h3
  refine ⟨⟨?_, e, k.len, k.bps, k.assigned, rfl⟩, k.params⟩
  exact hi.of_same rfl (same_refl _) (.refl _) (.refl _) rfl (by show outs.length = b1.params.numInst; rw [k.params]; exact hn.symm)

theorem Built.params {st : Stage} {prog : PM p (List (List (AV p)))} {n : ℕ} {outs : List (List (AV p))} {b : Builder p}
    (h : Built st prog n outs b) {m : Option ℕ} {b' : Builder p} (e : b.calculateParams m = some b') : Built st prog n outs b' := by
  have hi := h.inv.step (op := .calculateParams m) trivial e
  unfold Builder.calculateParams at e
  dsimp only at e
  split at e
  · cases e
  · simp only [Option.some.injEq] at e
    subst e
    exact ⟨hi, h.run, h.len, h.bps, h.assigned, h.instances⟩

theorem one_phase {b : Builder p} (h : b.phases.length = 1) {β : Type} (g : Ctx p → List β) :
    (b.phases.flatMap fun pm => pm.threads.flatMap g) = ((b.threadsOf 0).map g).flatten := by
  obtain ⟨pm, hp⟩ := List.length_eq_one_iff.1 h
  simp [Builder.threadsOf, hp, List.flatMap_def]

/-- A builder key generation is a key generation in the sense of C77. -/
theorem BuilderKeygen.keygen {prog : Prog p I} {st : Stage} {mr us : ℕ} {i0 : I} {sizes : List ℕ} {reg : Region p} {ps : Params}
    {bpss : List (List ℕ)} (h : BuilderKeygen prog st mr us i0 sizes reg ps bpss) :
    ps.numInst = sizes.length ∧ ps.numAdvice ≠ [] ∧
    ∃ map bps, bpss = [bps] ∧ Keygen prog 0 type0 (ps.cfg mr us) i0 sizes reg map bps := by
  obtain ⟨hst, ps0, b0, b1, b2, b3, b4, outs, h0, hn, h1, h2, h3, h4, rfl, h5, rfl, h6⟩ := h
  obtain ⟨hb, -⟩ := built h0 hn h1 h2
  have hb3 : Built st (prog i0) ps0.numInst outs b3 := by
    rcases h3 with rfl | ⟨m, h3⟩
    · exact hb
    · exact hb.params h3
  haveI : NeZero p := ⟨(Fact.out : p.Prime).ne_zero⟩
  obtain ⟨hna, map, bps, hs, -, rfl⟩ := synth_out hb3.inv h4
  refine ⟨?_, hna, map, bps, ?_, ⟨⟨outs, b3.pool0, _, _, _, ?_, merge_flatten _, merge_flatten _, merge_flatten _, ?_, rfl, ?_⟩⟩⟩
  · have := hb3.inv.inst
    rw [hb3.instances] at this
    rw [List.length_map]
    exact this.symm
  · obtain ⟨pm, hp⟩ := List.length_eq_one_iff.1 hb3.len
    simp only [Builder.breakPoints, hp, List.modify_zero_cons, List.mapM_cons, List.mapM_nil, Option.pure_def, Option.bind_eq_bind,
      Option.bind_some, Option.some.injEq] at h5
    exact h5.symm
  · have := hb3.run
    cases st with
    | prover => exact absurd rfl hst
    | keygen => exact this
    | mock => exact this
  · rw [one_phase hb3.len, one_phase hb3.len, hb3.assigned, hb3.instances, List.flatMap_def] at hs
    exact hs
  · refine h6.imp id fun h6 => ?_
    rw [List.flatten_eq_nil_iff]
    intro l hl
    obtain ⟨t, ht, rfl⟩ := List.mem_map.1 hl
    simp only [lookupLog, h6 t ht, List.map_nil]

theorem prover_start {ps : Params} {bps : List ℕ} {c : Builder p} (h : Builder.prover ps [bps] = some c) :
    c = { (Builder.new true : Builder p) with
      phases := [{ (PhaseMgr.new true 0 : PhaseMgr p) with bps := some bps }], params := ps, instances := List.replicate ps.numInst [] } := by
  simp only [Builder.prover, Builder.setParams, Builder.setInstanceColumns, Builder.new, List.nil_append, List.length_nil,
    Nat.sub_zero, List.length_replicate, if_true, Option.map_some, Option.bind_some, Builder.setBreakPoints, List.cons_ne_nil, if_false,
    Builder.touch, List.length_singleton, Nat.sub_self, Nat.zero_add, List.range'_zero, List.map_nil, List.append_nil, List.zipWith_cons_cons,
    List.zipWith_nil_right, Option.some.injEq] at h
  rw [← h]
  rfl

theorem prover_starts (ps : Params) (bps : List ℕ) : ∃ c : Builder p, Builder.prover ps [bps] = some c ∧ BInv c ∧
    c.pool0 = ⟨true, 0, type0, []⟩ := by
  refine ⟨{ (Builder.new true : Builder p) with
      phases := [{ (PhaseMgr.new true 0 : PhaseMgr p) with bps := some bps }], params := ps, instances := List.replicate ps.numInst [] }, ?_, ?_, rfl⟩
  · have : (Builder.prover ps [bps] : Option (Builder p)).isSome := by
      simp [Builder.prover, Builder.setParams, Builder.setInstanceColumns, Builder.new, Builder.setBreakPoints, Builder.touch]
    obtain ⟨c, hc⟩ := Option.isSome_iff_exists.1 this
    rw [hc, prover_start hc]
  have h := BInv.new (p := p) true
  exact h.of_same rfl (.cons ⟨rfl, rfl, rfl⟩ .nil) (.refl _) (.refl _) rfl (by simp)

/-- What the prover's builder writes is what C77's prover writes, and conversely. -/
theorem builderProver_iff {prog : Prog p I} {mr us : ℕ} {ps : Params} (hna : ps.numAdvice ≠ []) {bps : List ℕ} {i : I}
    (hin : ∀ r S, prog i ⟨true, 0, type0, []⟩ = some (r, S) → r.length = ps.numInst)
    {ws : List (PCell × Assigned p)} :
    (BuilderProver prog mr us ps [bps] i ws → ProverWrites prog 0 type0 (ps.cfg mr us) bps i ws) ∧
    (Circuit (prog i) → ProverWrites prog 0 type0 (ps.cfg mr us) bps i ws → BuilderProver prog mr us ps [bps] i ws) := by
  have key : ∀ {c0 c1 : Builder p} {outs : List (List (AV p))}, Builder.prover ps [bps] = some c0 → BRun (prog i) c0 outs c1 →
      prog i ⟨true, 0, type0, []⟩ = some (outs, c1.pool0) ∧
      (outs.length = ps.numInst → c1.exposeAll 0 outs = some { c1 with instances := outs }) ∧
      Builder.synthesizeProver { c1 with instances := outs } mr us =
        Phys.synthesizeProver (ps.cfg mr us) c1.pool0.threads (addLookups [] (c1.pool0.threads.map lookupLog).flatten) bps := by
    intro c0 c1 outs h0 h1
    obtain ⟨c0', e0, i0, e1⟩ := prover_starts (p := p) ps bps
    rw [h0, Option.some.injEq] at e0
    subst e0
    obtain ⟨e2, k, i1⟩ := h1.sim i0
    rw [e1] at e2
    have hc0 := prover_start h0
    refine ⟨e2, fun hl => ?_, ?_⟩
    · have := exposeAll_eq outs (b := c1) [] (by rw [k.instances, hc0, hl, List.nil_append])
      rwa [List.length_nil, List.nil_append] at this
    · obtain ⟨pm, hp, -, -, e3⟩ := phase0 i1
      have hb : pm.bps = some bps := by
        have := congrArg (fun l => l[0]?) k.bps
        simp only [List.getElem?_map, hp, Option.map_some] at this
        rw [hc0] at this
        simpa using this
      have hps : c1.params = ps := by rw [k.params, hc0]
      simp only [Builder.synthesizeProver, hp, Option.bind_eq_bind, Option.bind_some, hps, if_neg hna, hb, e3, Builder.cfg, Params.cfg]
      rw [headD_lookups i1, List.flatMap_def]
      rfl
  constructor
  · rintro ⟨c0, c1, c2, outs, h0, h1, h2, h3⟩
    obtain ⟨e1, e2, e3⟩ := key h0 h1
    have hl := hin _ _ e1
    rw [e2 hl, Option.some.injEq] at h2
    subst h2
    exact ⟨outs, c1.pool0, _, e1, merge_flatten _, by rw [← e3]; exact h3⟩
  · rintro hc ⟨outs, S, q, h1, h2, h3⟩
    obtain ⟨c0, h0, i0, e0⟩ := prover_starts (p := p) ps bps
    rw [← e0] at h1
    obtain ⟨c1, hr⟩ := hc.run i0 h1
    obtain ⟨e1, e2, e3⟩ := key h0 hr
    have h1' := (hr.sim i0).1
    rw [h1] at h1'
    obtain rfl : S = c1.pool0 := by simpa using h1'
    have hl := hin _ _ e1
    refine ⟨c0, c1, _, outs, h0, hr, e2 hl, ?_⟩
    rw [e3, ← h3]
    congr 1
    exact merge_addLookups (merge_flatten _) h2 (tags_nodup_of (w := c1.wgo) (i := 0) (n := 0) fun j t ht => by
      rw [Nat.zero_add]
      obtain ⟨pm, hp, -, -, e4⟩ := phase0 (hr.sim i0).2.2
      exact ((hr.sim i0).2.2.pm 0 pm hp).2.2 j t (by rw [e4]; exact ht))

/-- The prover's run, when there is one, gives as many outputs as key generation. -/
theorem prover_sizes {prog : Prog p I} (hp : LibProg prog) {cfg : Cfg} {i0 : I} {sizes : List ℕ} {reg : Region p}
    {map : CellMap} {bps : List ℕ} (hk : Keygen prog 0 type0 cfg i0 sizes reg map bps) {tbl : ZMod p → Prop} {ext : Cell → ZMod p} {i : I}
    {Q : (Cell → ZMod p) → List (List (AV p)) → Prop} (hc : PCompletes tbl ext ⟨false, 0, type0, []⟩ (prog i) Q) :
    ∀ r S, prog i ⟨true, 0, type0, []⟩ = some (r, S) → r.length = sizes.length := by
  intro r S hr
  obtain ⟨outsK, K, eqs, consts, queued, hK, -, -, -, -, rfl, -⟩ := hk.run
  obtain ⟨outsR, R, hR, -, -, -⟩ := hc
  obtain ⟨-, ho⟩ := hp.shape i0 i _ _ ⟨rfl, rfl, rfl, rfl, .nil⟩ _ _ _ _ hK hR
  obtain ⟨T, hT, -⟩ := hp.prover i ⟨false, 0, type0, []⟩ ⟨true, 0, type0, []⟩ ⟨rfl, rfl, rfl, rfl, .nil⟩ _ _ hR
  rw [hr] at hT
  obtain ⟨rfl, -⟩ : r = _ ∧ S = T := by simpa using hT
  rw [List.length_map, List.length_map]
  exact ho.length_eq.symm

/-- **C81, completeness.**  A key generation on a builder, with any input, stage and schedule; then, for every input `i` on which the
program's computation succeeds with public outputs `out`, a builder made by `BaseCircuitBuilder::prover` with the parameters and break
points of the key can run the program and synthesize, and whenever it does, for whatever schedule, it writes exactly the cells of the
key and the assignment of the proof satisfies the circuit of the key. -/
theorem C81_builder_proof_accepted {prog : Prog p I} (hp : LibProg prog) (hcirc : ∀ i, Circuit (prog i)) {st : Stage} {mr us : ℕ} (hmx : 4 ≤ mr)
    {i0 : I} {sizes : List ℕ} {reg : Region p} {ps : Params} {bps : List (List ℕ)} (hk : BuilderKeygen prog st mr us i0 sizes reg ps bps)
    {tbl : List (ZMod p) → Prop} (h0 : tbl [0]) {ext : Cell → ZMod p} {i : I} {out : List (List (ZMod p))}
    (hc : PCompletes (fun x => tbl [x]) ext ⟨false, 0, type0, []⟩ (prog i) (fun w r => r.map (List.map (at' w)) = out)) :
    (∃ ws, BuilderProver prog mr us ps bps i ws) ∧ ∀ ws, BuilderProver prog mr us ps bps i ws →
      ws.map Prod.fst = reg.writes.map Prod.fst ∧ Phys.PSat (ps.cfg mr us) tbl 1 reg (proofAssignment ws reg.fixed out) := by
  obtain ⟨hn, hna, map, bps', rfl, hk1⟩ := hk.keygen
  have hin := fun r S hr => (prover_sizes hp hk1 hc r S hr).trans hn.symm
  obtain ⟨⟨ws, h1⟩, h2⟩ := C77_proof_accepted hp hmx hk1 h0 hc
  exact ⟨⟨ws, (builderProver_iff hna hin).2 (hcirc i) h1⟩, fun ws h => h2 ws ((builderProver_iff hna hin).1 h)⟩

/-- **C81, soundness.**  The public inputs of whatever satisfies the circuit of a key generated on a builder obey every relation which
the program's constraints imply. -/
theorem C81_builder_accepted_sound {prog : Prog p I} (hp : LibProg prog) {st : Stage} {mr us : ℕ} (hmx : 4 ≤ mr)
    {i0 : I} {sizes : List ℕ} {reg : Region p} {ps : Params} {bps : List (List ℕ)} (hk : BuilderKeygen prog st mr us i0 sizes reg ps bps)
    {tbl : List (ZMod p) → Prop} {Q : List (List (ZMod p)) → Prop}
    (hs : PSound (fun x => tbl [x]) (prog i0) (fun w r => Q (r.map (List.map (at' w))))) {v : PCell → ZMod p}
    (hv : Phys.PSat (ps.cfg mr us) tbl 1 reg v) : Q (publicInputs sizes v) := by
  obtain ⟨-, -, map, bps', rfl, hk1⟩ := hk.keygen
  exact C77_accepted_sound hp hmx hk1 hs hv

/-! ## Key generation succeeds -/

theorem one_ne_add {x : ZMod p} : x ≠ x + 1 := fun h => by
  haveI : Fact (1 < p) := ⟨(Fact.out : p.Prime).one_lt⟩
  exact one_ne_zero (α := ZMod p) (by simpa using h.symm)

/-- No constraint of an honest pool mentions a cell that does not exist: its value could be changed. -/
theorem no_dangling {tbl : ZMod p → Prop} {S : Pool p} (hg : ∀ ext, PGood tbl ext S) {t : Ctx p} (ht : t ∈ S.threads) :
    (∀ e ∈ t.eqs, (e.1 = e.2 → CellOf S.threads e.1) → CellOf S.threads e.1 ∧ CellOf S.threads e.2) ∧
    (∀ e ∈ t.consts, CellOf S.threads e.2) ∧ ∀ a ∈ t.lookups, ∃ c, a.cell = some c ∧ CellOf S.threads c := by
  classical
  have hown : ∀ c, ¬ CellOf S.threads c → Valid t c → ¬ Own t c := by
    intro c hc hv ho
    obtain ⟨h1, h2⟩ := ho
    exact hc ⟨t, ht, c.offset, hv ⟨h1, h2⟩, by cases c; simp_all [Ctx.cellAt]⟩
  have hhon : ∀ c, ¬ CellOf S.threads c → ∀ y, Hon (Function.update (fun _ => 0) c y) S (Function.update (poolW (fun _ => 0) S) c y) := by
    intro c hc y
    refine ⟨fun t' ht' j hj => ?_, fun c' hc' => ?_⟩
    · rw [Function.update_of_ne (fun e => hc ⟨t', ht', j, hj, e.symm⟩)]
      exact (hon_poolW (hg fun _ => 0).ids).thr t' ht' j hj
    · by_cases e : c' = c
      · subst e; simp
      · rw [Function.update_of_ne e, Function.update_of_ne e, poolW, if_neg hc']
  have hgood : ∀ c, ¬ CellOf S.threads c → ∀ y, Good tbl (Function.update (poolW (fun _ => 0) S) c y) t :=
    fun c hc y => (hg _).good _ (hhon c hc y) t ht
  have g0 := (hg fun _ => 0).good _ (hon_poolW (hg fun _ => 0).ids) t ht
  have hval : ∀ c, ¬ CellOf S.threads c → Valid t c → ∀ y, hw (Function.update (poolW (fun _ => 0) S) c y) t c = y := by
    intro c hc hv y
    rw [hw, if_neg (hown c hc hv), Function.update_self]
  have hoth : ∀ c c', c' ≠ c → ∀ y, hw (Function.update (poolW (fun _ => 0) S) c y) t c' = hw (poolW (fun _ => 0) S) t c' := by
    intro c c' hne y
    unfold hw
    rw [Function.update_of_ne hne]
  refine ⟨fun e he hs => ?_, fun e he => ?_, fun a ha => ?_⟩
  · by_cases heq : e.1 = e.2
    · have := hs heq
      exact ⟨this, by rw [← heq]; exact this⟩
    · have hv := g0.veq e he
      constructor
      · by_contra hc
        have h1 := (hgood _ hc 0).sat.eq e he
        have h2 := (hgood _ hc 1).sat.eq e he
        rw [hval _ hc hv.1, hoth _ _ (Ne.symm heq)] at h1 h2
        haveI : Fact (1 < p) := ⟨(Fact.out : p.Prime).one_lt⟩
        exact zero_ne_one (α := ZMod p) (h1.trans h2.symm)
      · by_contra hc
        have h1 := (hgood _ hc 0).sat.eq e he
        have h2 := (hgood _ hc 1).sat.eq e he
        rw [hval _ hc hv.2, hoth _ _ heq] at h1 h2
        haveI : Fact (1 < p) := ⟨(Fact.out : p.Prime).one_lt⟩
        exact zero_ne_one (α := ZMod p) (h1.symm.trans h2)
  · by_contra hc
    have hv := g0.vconst e he
    have h1 := (hgood _ hc 0).sat.const e he
    have h2 := (hgood _ hc 1).sat.const e he
    rw [hval _ hc hv] at h1 h2
    haveI : Fact (1 < p) := ⟨(Fact.out : p.Prime).one_lt⟩
    exact zero_ne_one (α := ZMod p) (h1.trans h2.symm)
  · obtain ⟨c, hcell, hv, -⟩ := g0.vlookup a ha
    refine ⟨c, hcell, ?_⟩
    by_contra hc
    obtain ⟨c1, e1, -, h1⟩ := (hgood _ hc 0).vlookup a ha
    obtain ⟨c2, e2, -, h2⟩ := (hgood _ hc 1).vlookup a ha
    rw [hcell, Option.some.injEq] at e1 e2
    subst e1 e2
    rw [hval _ hc hv] at h1 h2
    haveI : Fact (1 < p) := ⟨(Fact.out : p.Prime).one_lt⟩
    exact zero_ne_one (α := ZMod p) (h1.trans h2.symm)

theorem autoLookup_zero {k m : ℕ} (h : m < 2 ^ k) : autoLookup k m 0 = 0 := by
  unfold autoLookup
  rw [Nat.zero_add]
  exact Nat.div_eq_of_lt (by omega)

theorem autoLookup_pos {k m n : ℕ} (h : m < 2 ^ k) (hn : 0 < n) : 0 < autoLookup k m n := by
  unfold autoLookup
  exact Nat.div_pos (by omega) (by omega)

theorem configure_nsets {a f : ℕ} {l : List ℕ} {L : Option ℕ} {mr us : ℕ} (h : (configure a f l L mr us).qLookup = false) :
    (configure a f l L mr us).nsets = l.headD 0 := by
  unfold configure at h ⊢
  dsimp only at h ⊢
  rw [h]
  rfl

/-- **C81, key generation.**  If the program's computation succeeds on the dummy input (whatever the cells of other managers hold), its
outputs are cells of its threads, and the automatically computed numbers of gate and fixed columns are enough (see
`C57_auto_advice_insufficient` and `C57_auto_fixed_insufficient`), then key generation with `calculate_params` succeeds. -/
theorem C81_keygen_succeeds {prog : Prog p I} (hp : LibProg prog) (hcirc : ∀ i, Circuit (prog i)) {st : Stage} (hst : st ≠ .prover) {k m : ℕ}
    (hm : m + 4 ≤ 2 ^ k) (L : Option ℕ) {tbl : ZMod p → Prop} {i0 : I} {Q : (Cell → ZMod p) → List (List (AV p)) → Prop}
    (hc : ∀ ext, PCompletes tbl ext ⟨false, 0, type0, []⟩ (prog i0) Q) {outs : List (List (AV p))} {S : Pool p}
    (hrun : prog i0 ⟨false, 0, type0, []⟩ = some (outs, S))
    (hself : ∀ t ∈ S.threads, ∀ e ∈ t.eqs, e.1 = e.2 → CellOf S.threads e.1)
    (hout : ∀ l ∈ outs, ∀ a ∈ l, ∃ c, a.cell = some c ∧ CellOf S.threads c)
    (hcols : (totalAdvice S.threads - 1) / (2 ^ k - m - 3) < autoAdvice k m (totalAdvice S.threads))
    (hfix : ((S.threads.flatMap (·.consts)).map Prod.fst).toFinset.card ≤
      autoFixed k ((S.threads.flatMap (·.consts)).map Prod.fst).toFinset.card * (2 ^ k - m))
    (hL : L.isSome = true ∨ ∀ t ∈ S.threads, t.lookups = []) :
    ∃ reg ps bps, BuilderKeygen prog st (2 ^ k - m) (2 ^ k - m) i0 (outs.map List.length) reg ps bps := by
  haveI : NeZero p := ⟨(Fact.out : p.Prime).ne_zero⟩
  have hgood : ∀ ext, PGood tbl ext S := by
    intro ext
    obtain ⟨r, S', h1, -, h2, -⟩ := hc ext
    rw [hrun] at h1
    obtain rfl : S = S' := by simpa using congrArg (Option.map Prod.snd) h1
    exact h2
  have hlay := (hp.layable i0 _ _ _ rfl (by simp) hrun).2
  -- building
  obtain ⟨b0, h0⟩ : ∃ b0, (Builder.fromStage st : Builder p).setParams ⟨k, [], 0, [], L, outs.length⟩ = some b0 := by
    simp [Builder.setParams, Builder.setInstanceColumns, Builder.fromStage, Builder.unknown, Builder.new]
  have hb0 := setParams_new h0
  have hi0 : BInv b0 := by rw [hb0]; exact binv_start st _
  have hpool : b0.pool0 = ⟨false, 0, type0, []⟩ := by
    rw [hb0, fromStage_pool]
    cases st with
    | prover => exact absurd rfl hst
    | keygen => rfl
    | mock => rfl
  obtain ⟨b1, h1⟩ := (hcirc i0).run hi0 (hpool ▸ hrun)
  obtain ⟨e1, k1, -⟩ := h1.sim hi0
  have h2 := exposeAll_eq outs (b := b1) [] (by rw [k1.instances, hb0]; rfl)
  rw [List.length_nil, List.nil_append] at h2
  obtain ⟨hb, hps⟩ := built h0 rfl h1 h2
  generalize hb2 : ({ b1 with instances := outs } : Builder p) = b2 at h2 hb hps
  have hS : b2.pool0 = S := by
    rw [← hb2]
    rw [hpool, hrun] at e1
    exact (by simpa using e1 : S = b1.pool0).symm
  have hT : b2.threadsOf 0 = S.threads := by rw [← hS]; rfl
  have hkk : b2.params.k = k := by rw [hps]
  have hk0 : k ≠ 0 := by rintro rfl; simp at hm
  have h3 : ∃ b3, b2.calculateParams (some m) = some b3 ∧ b3.phases = b2.phases ∧ b3.cm = b2.cm ∧ b3.lookups = b2.lookups ∧ b3.params =
      { k := k, numAdvice := b2.phases.map fun pm => autoAdvice k m (totalAdvice pm.threads),
        numFixed := autoFixed k (b2.cm.consts.map Prod.fst).toFinset.card,
        numLookup := b2.lookups.map fun x => autoLookup k m x.all.length, lookupBits := L, numInst := outs.length } := by
    unfold Builder.calculateParams
    dsimp only
    rw [hkk, Option.getD_some, if_neg (by rintro (h | h); exacts [hk0 h, by omega])]
    exact ⟨_, rfl, rfl, rfl, rfl, by rw [hps]⟩
  obtain ⟨b3, h3, hph, hcm, hlks, hps3⟩ := h3
  have hb3 := hb.params h3
  have hT3 : b3.threadsOf 0 = S.threads := by rw [← hT]; simp only [Builder.threadsOf, hph]
  -- the parameters
  obtain ⟨pm, hpm⟩ := List.length_eq_one_iff.1 hb.len
  have hpmT : pm.threads = S.threads := by rw [← hT]; simp [Builder.threadsOf, hpm]
  have hadv : b3.params.numAdvice = [autoAdvice k m (totalAdvice S.threads)] := by rw [hps3, hpm, ← hpmT]; rfl
  have hconst : b2.cm.consts.Perm (S.threads.flatMap (·.consts)) := by
    have := hb.inv.consts
    rw [one_phase hb.len, hT, ← List.flatMap_def] at this
    exact this
  have heqs : b2.cm.eqs.Perm (S.threads.flatMap (·.eqs)) := by
    have := hb.inv.eqs
    rw [one_phase hb.len, hT, ← List.flatMap_def] at this
    exact this
  have hfixed : b3.params.numFixed = autoFixed k ((S.threads.flatMap (·.consts)).map Prod.fst).toFinset.card := by
    rw [hps3]
    exact congrArg (autoFixed k) (congrArg Finset.card (List.toFinset_eq_of_perm _ _ (hconst.map _)))
  have hlk : b3.lookups.headD [] = addLookups [] (S.threads.flatMap lookupLog) := by rw [headD_lookups hb3.inv, hT3]
  have hlen3 := hb.inv.lk3
  have hlater : ∀ (i : ℕ) x, b2.lookups[i]? = some x → i ≠ 0 → x = [] := by
    intro i x hx hi
    have := hb.inv.lookups i x hx
    rw [this, show b2.threadsOf i = [] from by
      simp only [Builder.threadsOf]
      rw [List.getElem?_eq_none (by rw [hb.len]; omega)]
      rfl]
    rfl
  have hnl : b3.params.numLookup = [autoLookup k m (addLookups ([] : Buckets p) (S.threads.flatMap lookupLog)).all.length, 0, 0] := by
    rw [hps3]
    dsimp only
    rw [← hlk, hlks]
    match hl : b2.lookups, hlen3 with
    | [x, y, z], _ =>
      have hy := hlater 1 y (by rw [hl]; rfl) (by simp)
      have hz := hlater 2 z (by rw [hl]; rfl) (by simp)
      subst hy hz
      have : (Buckets.all ([] : Buckets p)).length = 0 := rfl
      simp only [List.map_cons, List.map_nil, this, autoLookup_zero (show m < 2 ^ k by omega), List.headD_cons]
  have hlb : b3.params.lookupBits = L := by rw [hps3]
  generalize hn : (addLookups ([] : Buckets p) (S.threads.flatMap lookupLog)).all.length = n at hnl
  -- the tags
  have htag := tags_nodup (hgood fun _ => 0).ids
  have hcells : ∀ t ∈ S.threads, ∀ a ∈ t.lookups, ∃ c, a.cell = some c ∧ CellOf S.threads c := fun t ht => (no_dangling hgood ht).2.2
  have hlc : ∀ as ∈ (addLookups ([] : Buckets p) (S.threads.flatMap lookupLog)).all, as ≠ [] ∧ ∀ a ∈ as, ∃ c, a.cell = some c ∧ CellOf S.threads c := by
    intro as has
    obtain ⟨e, he, rfl⟩ := addLookups_all_mem.1 has
    obtain ⟨t, ht, he⟩ := List.mem_flatMap.1 he
    obtain ⟨a, ha, rfl⟩ := List.mem_map.1 he
    exact ⟨by simp, fun a' ha' => by obtain rfl := List.mem_singleton.1 ha'; exact hcells t ht a' ha⟩
  have hn0 : n ≠ 0 → L.isSome = true := by
    intro h
    refine hL.resolve_right fun h2 => h ?_
    rw [← hn, List.length_eq_zero_iff, List.eq_nil_iff_forall_not_mem]
    intro as has
    obtain ⟨e, he, rfl⟩ := addLookups_all_mem.1 has
    obtain ⟨t, ht, he⟩ := List.mem_flatMap.1 he
    simp [lookupLog, h2 t ht] at he
  have hcfg : b3.cfg (2 ^ k - m) (2 ^ k - m) = configure (autoAdvice k m (totalAdvice S.threads))
      (autoFixed k ((S.threads.flatMap (·.consts)).map Prod.fst).toFinset.card) [autoLookup k m n, 0, 0] L (2 ^ k - m) (2 ^ k - m) := by
    unfold Builder.cfg
    rw [hadv, hfixed, hnl, hlb]
    rfl
  have hwr : ((b3.cfg (2 ^ k - m) (2 ^ k - m)).withRange = true) ↔ (L.isSome = true ∧ n ≠ 0) := by
    rw [hcfg]
    simp only [configure, Bool.and_eq_true, bne_iff_ne, List.sum_cons, List.sum_nil, Nat.add_zero]
    refine and_congr_right fun _ => ⟨fun h h2 => h (by rw [h2]; exact autoLookup_zero (by omega)), fun h h2 => ?_⟩
    have := autoLookup_pos (k := k) (m := m) (n := n) (by omega) (by omega)
    omega
  -- synthesis
  have hsynth : ∃ out, Phys.synthesize (b3.cfg (2 ^ k - m) (2 ^ k - m)) S.threads b3.cm.eqs b3.cm.consts
      (addLookups [] (S.threads.flatMap lookupLog)) outs (fun _ => none) = some out := by
    have a1 : 4 ≤ (b3.cfg (2 ^ k - m) (2 ^ k - m)).maxRows := by rw [hcfg]; simp only [configure]; omega
    have a2 : (totalAdvice S.threads - 1) / ((b3.cfg (2 ^ k - m) (2 ^ k - m)).maxRows - 3) < (b3.cfg (2 ^ k - m) (2 ^ k - m)).ncols := by
      rw [hcfg]; exact hcols
    have a3 : (b3.cm.consts.map Prod.fst).toFinset.card ≤
        (b3.cfg (2 ^ k - m) (2 ^ k - m)).nfixed * (b3.cfg (2 ^ k - m) (2 ^ k - m)).usable := by
      rw [hcfg, hcm, List.toFinset_eq_of_perm _ _ (hconst.map _)]
      exact hfix
    have a4 : ∀ e ∈ b3.cm.eqs, CellOf S.threads e.1 ∧ CellOf S.threads e.2 := by
      intro e he
      rw [hcm, heqs.mem_iff, List.mem_flatMap] at he
      obtain ⟨t, ht, he⟩ := he
      exact (no_dangling hgood ht).1 e he (hself t ht e he)
    have a5 : ∀ e ∈ b3.cm.consts, CellOf S.threads e.2 := by
      intro e he
      rw [hcm, hconst.mem_iff, List.mem_flatMap] at he
      obtain ⟨t, ht, he⟩ := he
      exact (no_dangling hgood ht).2.1 e he
    have a6 : ∀ s ∈ S.threads, NonOverlap s := fun s hs => (hlay s hs).2.wf.2.1
    have a7 : ∀ s ∈ S.threads, s.selector.length = s.advice.length := fun s hs => (hlay s hs).2.len
    cases hq : (b3.cfg (2 ^ k - m) (2 ^ k - m)).qLookup with
    | true =>
      have h1c : (b3.cfg (2 ^ k - m) (2 ^ k - m)).ncols = 1 := by
        rw [hcfg] at hq ⊢
        simp only [configure, Bool.and_eq_true, beq_iff_eq] at hq ⊢
        exact hq.1.2
      exact C57_synthesize_succeeds_q a1 a2 a6 a7 htag hq h1c a3 a4 a5 hlc hout
    | false =>
      refine C57_synthesize_succeeds a1 a2 a6 a7 htag hq ?_ a3 a4 a5 (fun as has => (hlc as has).2) hout
      rw [hn]
      rw [hcfg] at hq ⊢
      rw [configure_nsets hq]
      exact C57_auto_lookup_suffices (by omega)
  obtain ⟨⟨reg, map, bps⟩, hsynth⟩ := hsynth
  have h4 := synth_in (b := b3) hb3.inv (mr := 2 ^ k - m) (us := 2 ^ k - m) (reg := reg) (map := map) (bps := bps) (by rw [hadv]; simp)
    (by
      rw [hT3, hb3.assigned, hb3.instances, ← hsynth]
      unfold Phys.synthesize copyAssignRaw
      rw [sortEqs_perm hb3.inv.eqs, sortConsts_perm hb3.inv.consts]) (pm := pm) (by rw [hph, hpm]; rfl) (.inl (by
        have := hb.bps
        rw [hpm] at this
        simpa using this))
  refine ⟨reg, b3.params, [bps], hst, _, b0, b1, b2, b3, _, outs, h0, rfl, h1, h2, .inr ⟨_, h3⟩, h4, rfl, ?_, rfl, ?_⟩
  · simp only [Builder.breakPoints, hph, hpm, List.modify_zero_cons, List.mapM_cons, List.mapM_nil, Option.pure_def, Option.bind_eq_bind,
      Option.bind_some]
  · by_cases h : n = 0
    · right
      intro t ht
      rw [hT3] at ht
      rw [List.eq_nil_iff_forall_not_mem]
      intro a ha
      have : [a] ∈ (addLookups ([] : Buckets p) (S.threads.flatMap lookupLog)).all :=
        addLookups_all_mem.2 ⟨_, List.mem_flatMap.2 ⟨t, ht, List.mem_map.2 ⟨a, ha, rfl⟩⟩, rfl⟩
      rw [List.eq_nil_of_length_eq_zero (hn.trans h)] at this
      cases this
    · left
      exact hwr.2 ⟨hn0 h, h⟩

/-! ## A circuit -/

theorem sqProg_circuit (x : ℕ × ℕ) : Circuit (sqProg x) := by
  refine .bind (.parallelize fun z _ => ?_) fun zs => .pure _
  unfold sqTask
  cp

/-- All hypotheses of `C81_keygen_succeeds` are met by this circuit, which has two threads. -/
theorem sqProg_builder_keygen : ∃ reg ps bps, BuilderKeygen sqProg .keygen (2 ^ 5 - 9) (2 ^ 5 - 9) (0, 0) [2] reg ps bps := by
  have h : (sqProg (0, 0) ⟨false, 0, type0, []⟩).isSome = true := by decide +kernel
  obtain ⟨⟨outs, S⟩, h⟩ := Option.isSome_iff_exists.1 h
  have key : ((sqProg (0, 0) ⟨false, 0, type0, []⟩).map fun o => (o.1.map List.length,
      decide (∀ t ∈ o.2.threads, ∀ e ∈ t.eqs, e.1 ≠ e.2),
      decide (∀ l ∈ o.1, ∀ a ∈ l, a.cell.any fun c => o.2.threads.any fun t => (List.range t.advice.length).any fun i => c == t.cellAt i),
      decide ((totalAdvice o.2.threads - 1) / (2 ^ 5 - 9 - 3) < autoAdvice 5 9 (totalAdvice o.2.threads)),
      decide (((o.2.threads.flatMap (·.consts)).map Prod.fst).toFinset.card ≤
        autoFixed 5 ((o.2.threads.flatMap (·.consts)).map Prod.fst).toFinset.card * (2 ^ 5 - 9)))) =
      some ([2], true, true, true, true) := by decide +kernel
  rw [h] at key
  simp only [Option.map_some, Option.some.injEq, Prod.mk.injEq, decide_eq_true_eq] at key
  obtain ⟨k1, k2, k3, k4, k5⟩ := key
  rw [← k1]
  refine C81_keygen_succeeds sqProg_lib sqProg_circuit (by decide) (by decide) (some 2) (fun ext => sqProg_complete (by decide) (by decide)) h
    (fun t ht e he h => absurd h (k2 t ht e he)) (fun l hl a ha => ?_) k4 k5 (.inl rfl)
  have := k3 l hl a ha
  simp only [Option.any_eq_true, List.any_eq_true, List.mem_range, beq_iff_eq] at this
  obtain ⟨c, h1, t, h2, i, h3, h4⟩ := this
  exact ⟨c, h1, t, h2, i, h3, h4⟩

/-- The verifying key generated on a builder with the dummy inputs `0, 0` accepts exactly the pairs of squares of numbers below 8. -/
theorem C81_square_circuit : ∃ reg ps bps, BuilderKeygen sqProg .keygen (2 ^ 5 - 9) (2 ^ 5 - 9) (0, 0) [2] reg ps bps ∧
    (∀ x y : ℕ, x < 8 → y < 8 → ∃ ws, BuilderProver sqProg (2 ^ 5 - 9) (2 ^ 5 - 9) ps bps (x, y) ws ∧
      Phys.PSat (ps.cfg (2 ^ 5 - 9) (2 ^ 5 - 9)) (fun l => ∃ a, l = [a] ∧ RangeTable 101 2 a) 1 reg
        (proofAssignment ws reg.fixed [[(x : ZMod 101) * x, (y : ZMod 101) * y]])) ∧
    ∀ v, Phys.PSat (ps.cfg (2 ^ 5 - 9) (2 ^ 5 - 9)) (fun l => ∃ a, l = [a] ∧ RangeTable 101 2 a) 1 reg v →
      ∃ a b : ℕ, a < 8 ∧ b < 8 ∧ v ⟨.inst 0, 0⟩ = (a : ZMod 101) * a ∧ v ⟨.inst 0, 1⟩ = (b : ZMod 101) * b := by
  obtain ⟨reg, ps, bps, hk⟩ := sqProg_builder_keygen
  have e : (fun x : ZMod 101 => ∃ a, [x] = [a] ∧ RangeTable 101 2 a) = RangeTable 101 2 := by
    funext x
    simp
  refine ⟨reg, ps, bps, hk, fun x y hx hy => ?_, fun v hv => ?_⟩
  · obtain ⟨⟨ws, h1⟩, h2⟩ := C81_builder_proof_accepted sqProg_lib sqProg_circuit (by decide) hk
      (tbl := fun l => ∃ a, l = [a] ∧ RangeTable 101 2 a) ⟨0, rfl, 0, by norm_num, by simp⟩ (ext := fun _ => 0) (i := (x, y)) (by
        simp only [e]
        exact sqProg_complete hx hy)
    exact ⟨ws, h1, (h2 ws h1).2⟩
  · obtain ⟨a, b, ha, hb, h⟩ := C81_builder_accepted_sound sqProg_lib (by decide) hk (tbl := fun l => ∃ a, l = [a] ∧ RangeTable 101 2 a)
      (Q := fun out => ∃ a b : ℕ, a < 8 ∧ b < 8 ∧ out = [[(a : ZMod 101) * a, (b : ZMod 101) * b]]) (by
        simp only [e]
        exact sqProg_sound (0, 0)) hv
    refine ⟨a, b, ha, hb, ?_⟩
    simpa [publicInputs, List.range_succ] using h

end H2.Bld
