import Verif.Threads.Prover
import Verif.Threads.PoolCmp
import Verif.Props.Layable

/-!
# C77: from key generation to an accepted proof

A circuit is a program that computes its public outputs from an input.  The same program is run at key generation (with a dummy
input), where its constraints are laid out in the physical circuit, and in the prover (with the real input, witness-generation-only),
where only values are written, at the places found at key generation.  Here the whole pipeline is put together: the assignment
written by the prover satisfies the circuit of the verifying key, and whatever satisfies that circuit obeys the program's relation.
-/

set_option autoImplicit false
set_option linter.unusedSectionVars false
namespace H2
open Phys
variable {p : ℕ} [Fact p.Prime] {I : Type}

/-! ## Specification -/

/-- A circuit: from an input, the assigned public outputs, one list for each instance column. -/
abbrev Prog (p : ℕ) (I : Type) := I → PM p (List (List (AV p)))

/-- What C72 and C76 prove for every routine of the library and the programs made of them: the constraints do not depend on the
input, the prover computes the same witness as key generation, and the threads can be laid out. -/
structure LibProg (prog : Prog p I) : Prop where
  shape : ∀ i j, PShapeIndep (List.Forall₂ (List.Forall₂ AV.Same)) (prog i) (prog j)
  prover : ∀ i, PProverMatches (List.map (List.map AV.prover)) (prog i) (prog i)
  layable : ∀ i, PKeepsLayable (prog i)

/-- A key generation: `prog` is run on a new builder with the input `i0`, its constraints and lookups reach the shared
managers in some order, and the circuit is synthesized. -/
structure Keygen (prog : Prog p I) (phase : ℕ) (typeId : String) (cfg : Cfg) (i0 : I) (sizes : List ℕ) (reg : Region p) (map : CellMap)
    (bps : List ℕ) : Prop where
  run : ∃ (outs : List (List (AV p))) (S : Pool p) (eqs : List (Cell × Cell)) (consts : List (ZMod p × Cell))
    (queued : List (Tag × List (AV p))),
    prog i0 ⟨false, phase, typeId, []⟩ = some (outs, S) ∧ Merge (S.threads.map (·.eqs)) eqs ∧ Merge (S.threads.map (·.consts)) consts ∧
    Merge (S.threads.map lookupLog) queued ∧
    synthesize cfg S.threads eqs consts (addLookups [] queued) outs (fun _ => none) = some (reg, map, bps) ∧
    sizes = outs.map List.length ∧ (cfg.withRange = true ∨ queued = [])

/-- What the prover writes for the input `i`, given the break points of key generation, for some order in which its threads
reach the lookup manager. -/
def ProverWrites (prog : Prog p I) (phase : ℕ) (typeId : String) (cfg : Cfg) (bps : List ℕ) (i : I) (ws : List (PCell × Assigned p)) : Prop :=
  ∃ (outs : List (List (AV p))) (S : Pool p) (queued : List (Tag × List (AV p))),
    prog i ⟨true, phase, typeId, []⟩ = some (outs, S) ∧ Merge (S.threads.map lookupLog) queued ∧
    synthesizeProver cfg S.threads (addLookups [] queued) bps = some ws

/-- The public inputs of an assignment: instance column `k` has `sizes[k]` of them. -/
def publicInputs (sizes : List ℕ) (v : PCell → ZMod p) : List (List (ZMod p)) :=
  sizes.mapIdx fun k n => (List.range n).map fun i => v ⟨.inst k, i⟩

/-! ## Proofs -/

theorem tags_nodup {S : Pool p} (h : PIds S) : (S.threads.map Ctx.tag).Nodup := by
  rw [List.nodup_iff_getElem?_ne_getElem?]
  intro i j hij hj he
  rw [List.length_map] at hj
  rw [List.getElem?_map, List.getElem?_map, List.getElem?_eq_getElem (show i < S.threads.length by omega),
    List.getElem?_eq_getElem hj, Option.map_some, Option.map_some, Option.some.injEq] at he
  have h1 := (h i _ (List.getElem?_eq_getElem (show i < S.threads.length by omega))).2
  have h2 := (h j _ (List.getElem?_eq_getElem hj)).2
  have : (ofLex (Ctx.tag S.threads[i])).2 = (ofLex (Ctx.tag S.threads[j])).2 := by rw [he]
  simp only [Ctx.tag, ofLex_toLex] at this
  omega

theorem psat_shape {cfg : Cfg} {tbl : List (ZMod p) → Prop} {width : ℕ} {reg reg' : Region p} (h : RegShape reg reg') {v : PCell → ZMod p}
    (hv : Phys.PSat cfg tbl width reg' v) : Phys.PSat cfg tbl width reg v :=
  ⟨by rw [h.sel]; exact hv.gate, by rw [h.copies]; exact hv.copy, by rw [h.fixed]; exact hv.fixed, hv.lookup, by rw [h.qlk]; exact hv.qlookup⟩

theorem sameShape_map {α : Type} (f : Ctx p → α) (hf : ∀ s t, SameShape s t → f s = f t) {ts ts' : List (Ctx p)} (h : List.Forall₂ SameShape ts ts') :
    ts.map f = ts'.map f := by
  induction h with
  | nil => rfl
  | cons h _ ih => rw [List.map_cons, List.map_cons, hf _ _ h, ih]

theorem vsat_pool {S : Pool p} {tbl : List (ZMod p) → Prop} {w : Cell → ZMod p} (h : H2.PSat (fun x => tbl [x]) S w)
    {eqs : List (Cell × Cell)} {consts : List (ZMod p × Cell)} {queued : List (Tag × List (AV p))}
    (he : Merge (S.threads.map (·.eqs)) eqs) (hc : Merge (S.threads.map (·.consts)) consts) (hq : Merge (S.threads.map lookupLog) queued) :
    VSat tbl S.threads eqs consts (addLookups [] queued).all w := by
  refine ⟨fun s hs => (h s hs).gate, fun e hm => ?_, fun e hm => ?_, fun as has => ?_⟩
  · rw [he.perm.mem_iff, List.mem_flatten] at hm
    obtain ⟨l, hl, hm⟩ := hm
    obtain ⟨s, hs, rfl⟩ := List.mem_map.1 hl
    exact (h s hs).eq e hm
  · rw [hc.perm.mem_iff, List.mem_flatten] at hm
    obtain ⟨l, hl, hm⟩ := hm
    obtain ⟨s, hs, rfl⟩ := List.mem_map.1 hl
    exact (h s hs).const e hm
  · obtain ⟨e, hm, rfl⟩ := addLookups_all_mem.1 has
    rw [hq.perm.mem_iff, List.mem_flatten] at hm
    obtain ⟨l, hl, hm⟩ := hm
    obtain ⟨s, hs, rfl⟩ := List.mem_map.1 hl
    obtain ⟨a, ha, rfl⟩ := List.mem_map.1 hm
    exact (h s hs).lookup a ha

/-- Programs of the relational logic (Core/Rel.lean, C72, C76). -/
theorem libProg_of_rel {prog : Prog p I}
    (h : ∀ k i j, (k = true → i = j) → PRel k (prog i) (prog j) (List.Forall₂ (List.Forall₂ (RA k)))) : LibProg prog := by
  refine ⟨fun i j => (h false i j (by simp)).shape fun r r' hr => ?_, fun i => (h true i i fun _ => rfl).prover fun r r' hr => ?_,
    fun i => (h true i i fun _ => rfl).keeps⟩
  · exact hr.imp fun a b hab => hab.imp fun x y hxy => hxy.2 rfl
  · induction hr with
    | nil => rfl
    | cons h _ ih => rw [List.map_cons, ← ih, RAs.toProver h]

/-- **C77, completeness.**  Take any key generation of the circuit, with any input, and any input `i` on which the program's
computation succeeds with public outputs `out` (C10, C66–C75).  Then the prover's run does not panic, and whatever the order in which
the threads of the key generation and of the prover reach the shared managers, synthesis succeeds in the prover, writes
exactly the cells that key generation wrote, and the assignment of the proof - the values written, the fixed columns of the key,
the public inputs `out` - satisfies the circuit of the key. -/
theorem C77_proof_accepted {prog : Prog p I} (hp : LibProg prog) {phase : ℕ} {typeId : String} {cfg : Cfg} (hmx : 4 ≤ cfg.maxRows) {i0 : I}
    {sizes : List ℕ} {reg : Region p} {map : CellMap} {bps : List ℕ} (hk : Keygen prog phase typeId cfg i0 sizes reg map bps)
    {tbl : List (ZMod p) → Prop} (h0 : tbl [0]) {ext : Cell → ZMod p} {i : I} {out : List (List (ZMod p))}
    (hc : PCompletes (fun x => tbl [x]) ext ⟨false, phase, typeId, []⟩ (prog i) (fun w r => r.map (List.map (at' w)) = out)) :
    (∃ ws, ProverWrites prog phase typeId cfg bps i ws) ∧
    ∀ ws, ProverWrites prog phase typeId cfg bps i ws →
      ws.map Prod.fst = reg.writes.map Prod.fst ∧ Phys.PSat cfg tbl 1 reg (proofAssignment ws reg.fixed out) := by
  obtain ⟨outsK, K, eqs, consts, queued, hK, heq, hcs, hq, hsyn, -, -⟩ := hk.run
  obtain ⟨outsR, R, hR, satR, goodR, hout⟩ := hc
  obtain ⟨hKR, hoKR⟩ := hp.shape i0 i _ _ ⟨rfl, rfl, rfl, rfl, .nil⟩ _ _ _ _ hK hR
  obtain ⟨T, hT, hRT⟩ := hp.prover i ⟨false, phase, typeId, []⟩ ⟨true, phase, typeId, []⟩ ⟨rfl, rfl, rfl, rfl, .nil⟩ _ _ hR
  have hlay := (hp.layable i _ _ _ rfl (by simp) hR).2
  have htR := tags_nodup goodR.ids
  have htK : (K.threads.map Ctx.tag).Nodup := by
    rw [sameShape_map Ctx.tag (fun s t h => by simp [Ctx.tag, h.typeId, h.ctxId]) hKR.threads]
    exact htR
  -- the same circuit, synthesized with the values of the prover
  have hqR := merge_flatten (R.threads.map lookupLog)
  have heR : Merge (R.threads.map (·.eqs)) eqs := by rw [← sameShape_map (·.eqs) (fun s t h => h.eqs) hKR.threads]; exact heq
  have hcR : Merge (R.threads.map (·.consts)) consts := by rw [← sameShape_map (·.consts) (fun s t h => h.consts) hKR.threads]; exact hcs
  have hlk : List.Forall₂ SameCells (addLookups [] queued).all (addLookups [] (R.threads.map lookupLog).flatten).all := by
    refine merge_rel (hKR.threads.imp fun s t h => ⟨by simp [Ctx.tag, h.typeId, h.ctxId], ?_⟩) htK hq hqR
    have := h.lookups
    generalize s.lookups = a at this
    generalize t.lookups = b at this
    clear h
    induction a generalizing b with
    | nil => cases b with
      | nil => exact .nil
      | cons => simp at this
    | cons x a ih =>
      cases b with
      | nil => simp at this
      | cons y b =>
        simp only [List.map_cons, List.cons.injEq] at this
        exact .cons this.1 (ih b this.2)
  obtain ⟨reg', hsyn', hsh⟩ := synthesize_shape (hKR.threads.imp fun s t h => ⟨h.typeId, h.ctxId, h.selector, h.len⟩) hlk hoKR hsyn
  have hdet : ∀ q, Merge (T.threads.map lookupLog) q → synthesizeProver cfg T.threads (addLookups [] q) bps = some reg'.writes := by
    intro q hqT
    refine synthesizeProver_eq (ts := R.threads) ?_ ?_ hsyn'
    · have := hRT.threads
      generalize R.threads = a at this
      generalize T.threads = b at this
      induction this with
      | nil => rfl
      | cons h _ ih => simp [h.1.advice, ih]
    · have := merge_rel (R := fun a b => b = AV.prover a) (hRT.threads.imp fun s t h => ⟨by simp [Ctx.tag, h.1.typeId, h.1.ctxId], by
        rw [h.1.lookups]
        generalize s.lookups = a
        induction a with
        | nil => exact .nil
        | cons x a ih => exact .cons rfl ih⟩) htR hqR hqT
      generalize (addLookups [] (R.threads.map lookupLog).flatten).all = a at this
      generalize (addLookups [] q).all = b at this
      induction this with
      | nil => rfl
      | cons h _ ih =>
        rw [List.map_cons, ← ih]
        congr 1
        clear ih
        induction h with
        | nil => rfl
        | cons h _ ih => rw [h, ih]; rfl
  refine ⟨⟨_, _, T, _, hT, merge_flatten _, hdet _ (merge_flatten _)⟩, ?_⟩
  rintro ws ⟨outs', T', q, hT', hq', hws⟩
  rw [hT] at hT'
  obtain ⟨rfl, rfl⟩ : _ ∧ T = T' := by simpa using hT'
  rw [hdet q hq'] at hws
  obtain rfl : reg'.writes = ws := by simpa using hws
  refine ⟨hsh.cells.symm, psat_shape hsh ?_⟩
  rw [hsh.fixed, ← hout]
  refine proof_sat hsyn' hmx (fun s hs => (hlay s hs).2.wf.1) (width := 1) ?_ (fun _ => rfl) h0 (vsat_pool satR heR hcR hqR) ?_ ?_
  · intro as has
    obtain ⟨e, hm, rfl⟩ := addLookups_all_mem.1 has
    rw [List.mem_flatten] at hm
    obtain ⟨l, hl, hm⟩ := hm
    obtain ⟨s, hs, rfl⟩ := List.mem_map.1 hl
    obtain ⟨a, ha, rfl⟩ := List.mem_map.1 hm
    rfl
  · intro s hs j a ha
    rw [(hon_poolW goodR.ids).thr s hs j (List.getElem?_eq_some_iff.1 ha).1]
    simp [valAt, ha]
  · intro as has a ha
    obtain ⟨e, hm, rfl⟩ := addLookups_all_mem.1 has
    rw [List.mem_flatten] at hm
    obtain ⟨l, hl, hm⟩ := hm
    obtain ⟨s, hs, rfl⟩ := List.mem_map.1 hl
    obtain ⟨b, hb, rfl⟩ := List.mem_map.1 hm
    obtain rfl := List.mem_singleton.1 ha
    obtain ⟨c, hcell, -, hval⟩ := (goodR.good _ (hon_poolW goodR.ids) s hs).vlookup a hb
    rw [hw_poolW goodR.ids hs] at hval
    simp only [at', hcell, hval]

/-- **C77, soundness.**  Whatever assignment satisfies the circuit of a key generation, its public inputs obey every relation
that the program's constraints imply (C01–C75). -/
theorem C77_accepted_sound {prog : Prog p I} (hp : LibProg prog) {phase : ℕ} {typeId : String} {cfg : Cfg} (hmx : 4 ≤ cfg.maxRows) {i0 : I}
    {sizes : List ℕ} {reg : Region p} {map : CellMap} {bps : List ℕ} (hk : Keygen prog phase typeId cfg i0 sizes reg map bps)
    {tbl : List (ZMod p) → Prop} {Q : List (List (ZMod p)) → Prop}
    (hs : PSound (fun x => tbl [x]) (prog i0) (fun w r => Q (r.map (List.map (at' w))))) {v : PCell → ZMod p}
    (hv : Phys.PSat cfg tbl 1 reg v) : Q (publicInputs sizes v) := by
  obtain ⟨outs, S, eqs, consts, queued, hK, heq, hcs, hq, hsyn, rfl, hwr⟩ := hk.run
  have hlay := (hp.layable i0 _ _ _ rfl (by simp) hK).2
  have hsat := C76_circuit_sound (hp.layable i0) hK heq hcs hq hsyn hmx hwr hv
  have hQ := hs.run ⟨rfl, by simp⟩ hK hsat
  have hwr' : cfg.withRange = true ∨ (addLookups ([] : Buckets p) queued).all = [] := by
    rcases hwr with h | h
    · exact .inl h
    · exact .inr (by rw [h]; rfl)
  have hwd : ∀ as ∈ (addLookups ([] : Buckets p) queued).all, as.length = 1 := by
    intro as has
    obtain ⟨e, hm, rfl⟩ := addLookups_all_mem.1 has
    rw [hq.perm.mem_iff, List.mem_flatten] at hm
    obtain ⟨l, hl, hm⟩ := hm
    obtain ⟨s, hs, rfl⟩ := List.mem_map.1 hl
    obtain ⟨a, ha, rfl⟩ := List.mem_map.1 hm
    rfl
  have hins := (C29_circuit_sound hsyn hmx (fun s hs => (hlay s hs).2.wf.1) hwr' hwd Nat.one_pos (fun _ => rfl) hv).2
  convert hQ using 1
  unfold publicInputs
  apply List.ext_getElem?
  intro k
  rw [List.getElem?_mapIdx, List.getElem?_map, List.getElem?_map]
  cases hk : outs[k]? with
  | none => rfl
  | some l =>
    simp only [Option.map_some, Option.some.injEq]
    apply List.ext_getElem?
    intro i
    rw [List.getElem?_map, List.getElem?_map]
    rcases Nat.lt_or_ge i l.length with hi | hi
    · rw [List.getElem?_range hi, List.getElem?_eq_getElem hi]
      simp only [Option.map_some, Option.some.injEq]
      exact (hins k l hk i _ (List.getElem?_eq_getElem hi)).symm
    · rw [List.getElem?_eq_none (l := l) hi, List.getElem?_eq_none (by simpa using hi)]
      rfl

/-! ## A circuit -/

/-- The square of a number below 8. -/
def sqTask (x : ℕ) : M 101 (AV 101) := do
  let a ← loadWitness (x : ZMod 101)
  rangeCheck 2 a 3
  mul (.existing a) (.existing a)

/-- Public squares of two secret numbers below 8, each checked in a thread of its own. -/
def sqProg : Prog 101 (ℕ × ℕ) := fun x => do
  let zs ← parallelize [x.1, x.2] sqTask
  pure [zs]

/-- Two gate columns, one fixed column, one lookup column, 10 rows, `lookup_bits = 2`. -/
def sqCfg : Cfg := configure 3 1 [1] (some 2) 10 10

instance : Fact (Nat.Prime 101) := ⟨by norm_num⟩

theorem sqProg_lib : LibProg sqProg := by
  refine libProg_of_rel fun k i j hij => PRel.bind (parallelize_rel (P := RV k) (Q := RA k) (fun x y h => ?_) ?_) fun r r' hr => ?_
  · exact Rel.bind (loadWitness_rel fun hk => by rw [h hk]) fun a b hab =>
      Rel.bind (rangeCheck_rel 2 hab 3) fun _ _ _ => mul_rel hab hab
  · exact .cons (fun h => by rw [hij h]) (.cons (fun h => by rw [hij h]) .nil)
  · intro S T h0 a S' ha
    obtain ⟨rfl, rfl⟩ : [r] = a ∧ S = S' := by simpa [Pure.pure, StateT.pure] using ha
    refine ⟨fun _ => ⟨fun h => h, _, T, rfl⟩, fun b T' hb => ?_⟩
    obtain ⟨rfl, rfl⟩ : [r'] = b ∧ T = T' := by simpa [Pure.pure, StateT.pure] using hb
    exact ⟨h0, .cons hr .nil⟩

theorem sqTask_complete {w : Cell → ZMod 101} {s : Ctx 101} {z : ℕ} (hz : z < 8) :
    Cmp (RangeTable 101 2) w s (sqTask z) (fun r s' => Con w s' r ((z : ZMod 101) * z)) := by
  have hv : ((z : ZMod 101)).val < 2 ^ 3 := by rw [ZMod.val_natCast_of_lt (by omega)]; omega
  have hn : ceilDiv 3 2 ≤ capacity 101 / 2 + 1 := by rw [capacity101]; decide
  unfold sqTask
  refine Cmp.bind (loadWitness_cmp _) fun a s1 _ ha => Cmp.bind (H2.rangeCheck_cmp rangeOk101 ha hn hv) fun _ s2 e _ => ?_
  exact mul_cmp (ha.mono e) (ha.mono e)

theorem pholds_at {ext : Cell → ZMod p} {S : Pool p} (hg : PIds S) {b : AV p} {z : ZMod p} (hb : PHolds ext S (fun w s => Con w s b z)) :
    at' (poolW ext S) b = z := by
  obtain ⟨-, c, hc, hv, hw⟩ := hb _ (hon_poolW hg) _ (member_new (S := S) le_rfl)
  have ho : ¬ Own (Ctx.new S.wgo S.phase S.typeId S.threads.length [] []) c := fun h => by simpa [Ctx.new] using hv h
  rw [H2.hw, if_neg ho] at hw
  simp only [at', hc]
  exact hw

theorem sqProg_complete {ext : Cell → ZMod 101} {ty : String} {x y : ℕ} (hx : x < 8) (hy : y < 8) :
    PCompletes (RangeTable 101 2) ext ⟨false, 0, ty, []⟩ (sqProg (x, y))
      (fun w r => r.map (List.map (at' w)) = [[(x : ZMod 101) * x, (y : ZMod 101) * y]]) := by
  have h1 : PCmp (RangeTable 101 2) ext ⟨false, 0, ty, []⟩ (parallelize [x, y] sqTask) (fun zs S' =>
      [x, y].Forall₂ (fun (z : ℕ) r => PHolds ext S' fun w s => Con w s r ((z : ZMod 101) * z)) zs) := by
    refine parallelize_cmp [x, y] (fun z r => Mov.con r _) fun z hz w _ s _ => sqTask_complete ?_
    rcases List.mem_cons.1 hz with rfl | hz
    · exact hx
    · rw [List.mem_singleton.1 hz]; exact hy
  have h2 : PCmp (RangeTable 101 2) ext ⟨false, 0, ty, []⟩ (sqProg (x, y)) (fun r S' => ∃ zs, r = [zs] ∧
      [x, y].Forall₂ (fun (z : ℕ) r => PHolds ext S' fun w s => Con w s r ((z : ZMod 101) * z)) zs) :=
    PCmp.bind h1 fun zs S1 _ hz => PCmp.pure ⟨zs, rfl, hz⟩
  refine h2.run ?_ (pgood_new _ _)
  rintro r S' hg ⟨zs, rfl, hz⟩
  rcases hz with _ | ⟨h1, h2⟩
  rcases h2 with _ | ⟨h2, h3⟩
  cases h3
  rw [List.map_cons, List.map_cons, List.map_cons, pholds_at hg.ids h1, pholds_at hg.ids h2]
  rfl

theorem sqProg_sound (x : ℕ × ℕ) : PSound (RangeTable 101 2) (sqProg x)
    (fun w r => ∃ a b : ℕ, a < 8 ∧ b < 8 ∧ r.map (List.map (at' w)) = [[(a : ZMod 101) * a, (b : ZMod 101) * b]]) := by
  have htask : ∀ z, Sound (RangeTable 101 2) (sqTask z) (fun w r => ∃ a : ℕ, a < 8 ∧ at' w r = (a : ZMod 101) * a) := by
    intro z
    refine fun s => Snd.bind (loadWitness_sound _ s) fun a s1 _ => Snd.bind (rangeCheck_val a 3 rangeOk101 (by norm_num) s1) fun _ s2 _ => ?_
    refine (mul_ex a a s2).weaken fun w r _ h h1 _ => ⟨(at' w a).val, h1, ?_⟩
    rw [ZMod.natCast_zmod_val, h]
  refine PSound.bind (parallelize_sound [x.1, x.2] fun z _ => htask z) fun zs => PSound.pure fun w hz => ?_
  rcases hz with _ | ⟨⟨a, ha, h1⟩, h2⟩
  rcases h2 with _ | ⟨⟨b, hb, h2⟩, h3⟩
  cases h3
  exact ⟨a, b, ha, hb, by simp [h1, h2]⟩

theorem sqProg_keygen : ∃ reg map bps, Keygen sqProg 0 "t" sqCfg (0, 0) [2] reg map bps ∧ bps ≠ [] := by
  have h : ((sqProg (0, 0) ⟨false, 0, "t", []⟩).bind fun o =>
      (synthesize sqCfg o.2.threads (o.2.threads.map (·.eqs)).flatten (o.2.threads.map (·.consts)).flatten
        (addLookups [] (o.2.threads.map lookupLog).flatten) o.1 (fun _ => none)).map fun q => (o.1.map List.length, q.2.2)) =
      some ([2], [9, 9]) := by decide +kernel
  simp only [Option.bind_eq_some_iff, Option.map_eq_some_iff, Prod.mk.injEq] at h
  obtain ⟨⟨outs, S⟩, h1, ⟨reg, map, bps⟩, h2, h3, h4⟩ := h
  exact ⟨reg, map, bps, ⟨outs, S, _, _, _, h1, merge_flatten _, merge_flatten _, merge_flatten _, h2, h3.symm, .inl rfl⟩, by
    rw [show bps = [9, 9] from h4]; simp⟩

/-- The verifying key made with the dummy inputs `0, 0` accepts exactly the pairs of squares of numbers below 8: for all such
numbers the honest prover's assignment satisfies the circuit, and the public inputs of every satisfying assignment are such
squares.  (All hypotheses of the two theorems above are met by this circuit, with two threads and two column breaks.) -/
theorem C77_square_circuit : ∃ reg map bps, Keygen sqProg 0 "t" sqCfg (0, 0) [2] reg map bps ∧
    (∀ x y : ℕ, x < 8 → y < 8 → ∃ ws, ProverWrites sqProg 0 "t" sqCfg bps (x, y) ws ∧
      Phys.PSat sqCfg (fun l => ∃ a, l = [a] ∧ RangeTable 101 2 a) 1 reg
        (proofAssignment ws reg.fixed [[(x : ZMod 101) * x, (y : ZMod 101) * y]])) ∧
    ∀ v, Phys.PSat sqCfg (fun l => ∃ a, l = [a] ∧ RangeTable 101 2 a) 1 reg v →
      ∃ a b : ℕ, a < 8 ∧ b < 8 ∧ v ⟨.inst 0, 0⟩ = (a : ZMod 101) * a ∧ v ⟨.inst 0, 1⟩ = (b : ZMod 101) * b := by
  obtain ⟨reg, map, bps, hk, -⟩ := sqProg_keygen
  have e : (fun x : ZMod 101 => ∃ a, [x] = [a] ∧ RangeTable 101 2 a) = RangeTable 101 2 := by
    funext x
    simp
  refine ⟨reg, map, bps, hk, fun x y hx hy => ?_, fun v hv => ?_⟩
  · obtain ⟨⟨ws, h1⟩, h2⟩ := C77_proof_accepted sqProg_lib (by decide) hk (tbl := fun l => ∃ a, l = [a] ∧ RangeTable 101 2 a)
      ⟨0, rfl, 0, by norm_num, by simp⟩ (ext := fun _ => 0) (i := (x, y)) (by
        simp only [e]
        exact sqProg_complete hx hy)
    exact ⟨ws, h1, (h2 ws h1).2⟩
  · obtain ⟨a, b, ha, hb, h⟩ := C77_accepted_sound sqProg_lib (by decide) hk (tbl := fun l => ∃ a, l = [a] ∧ RangeTable 101 2 a)
      (Q := fun out => ∃ a b : ℕ, a < 8 ∧ b < 8 ∧ out = [[(a : ZMod 101) * a, (b : ZMod 101) * b]]) (by
        simp only [e]
        exact sqProg_sound (0, 0)) hv
    refine ⟨a, b, ha, hb, ?_⟩
    simpa [publicInputs, List.range_succ] using h

end H2
