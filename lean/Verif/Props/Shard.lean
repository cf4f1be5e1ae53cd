import Verif.KecComp.Whole
import Verif.Kec.Vectors

/-!
# C84: the Keccak component shard circuit, end to end

Specification: `KecSat` (the gates and lookups of the Keccak circuit), `Phys.PSat` (the gates, copies, fixed cells and lookups of the base
circuit), and the cells the two share (`kecVal`).  A satisfying assignment's public instances are those of a list of messages; and for every list
of messages within the capacity the instances of `CircuitExt::instances` are accepted.
-/

set_option autoImplicit false
set_option linter.unusedSectionVars false
namespace H2.KC
open H2.Kec H2.Ext H2.Phys
variable {p : ℕ} [Fact p.Prime] {rF rP : ℕ} {cs : List (Fin 3 → ZMod p)} {mds inv : Mat p 3} {sp : PSpec p}

/-- Key generation of `KeccakComponentShardCircuit` for messages `ms0` (shard.rs:151-187 `synthesize`): the rows of the Keccak circuit, whose values
may be unknown (`known`), are assigned and loaded in the copy manager of a new builder, the base circuit is run in its main context and
synthesized. -/
structure ShardKeygen (sp : PSpec p) (f : List (ZMod p) → List (ZMod p)) (k h cap : ℕ) (raw : Bool) (cfg : Cfg) (known : Bool) (ms0 : List (List Byte))
    (reg : Region p) (map : CellMap) (bps : List ℕ) : Prop where
  run : ∃ krows fs g outs s, multiKeccak k h ms0 (some cap) = some krows ∧ transmute h (assignRows p known krows) .new = some (fs, g) ∧
    shardProg sp f cap raw fs (mainCtx false) = some (outs, s) ∧
    synthesize cfg [s] s.eqs s.consts (addLookups [] (lookupLog s)) outs g.cm.assigned = some (reg, map, bps)

/-- A satisfying assignment of the shard circuit: `a` of the Keccak circuit, `v` of the base circuit, the same in the cells of the Keccak
table. -/
structure ShardSat (k h cap : ℕ) (cfg : Cfg) (tbl : List (ZMod p) → Prop) (reg : Region p) (a : Adv (ZMod p)) (v : PCell → ZMod p) : Prop where
  kec : KecSat k h cap a
  base : Phys.PSat cfg tbl 1 reg v
  shared : ∀ i r, i < 5 → v ⟨.other i, r⟩ = kecVal a ⟨.other i, r⟩

/-- The cells loaded from the Keccak circuit as seen in the prover (witness-generation-only mode), where cells are not tracked. -/
def LoadedF.prover (x : LoadedF (AV p)) : LoadedF (AV p) := ⟨x.bytesLeft.prover, x.words.map AV.prover, x.isFinal.prover, x.hashLo.prover, x.hashHi.prover⟩

/-- What the prover writes in the base circuit for the messages `ms`, given the break points of key generation.  (The cells of the loaded values
are dropped; in the code they are kept, in the prover nothing depends on them.) -/
def ShardProverWrites (sp : PSpec p) (f : List (ZMod p) → List (ZMod p)) (k h cap : ℕ) (raw : Bool) (cfg : Cfg) (bps : List ℕ) (ms : List (List Byte))
    (ws : List (PCell × Assigned p)) : Prop :=
  ∃ krows fs g outs s, multiKeccak k h ms (some cap) = some krows ∧ transmute h (assignRows p true krows) .new = some (fs, g) ∧
    shardProg sp f cap raw (fs.map LoadedF.prover) (mainCtx true) = some (outs, s) ∧
    synthesizeProver cfg [s] (addLookups [] (lookupLog s)) bps = some ws

/-- shard.rs:538-544 `num_instance` -/
def shardSizes (cap : ℕ) (raw : Bool) : List ℕ := if raw then [cap, cap, cap] else [1]

/-- A table of messages (C54): the rows of a list of messages, one after the other, then rows of the empty message.  The length in the key of a
message is its length or a positive multiple of 136 below it. -/
def MsgTable (f : List (ZMod p) → List (ZMod p)) (W : ℕ) (T : List (Row (ZMod p))) : Prop :=
  ∃ (ms : List (List Byte × ℕ)) (r : ℕ),
    T = ms.flatMap (fun e => List.replicate (e.1.length / 136) (row f W []) ++ [rowAs f W e.2 e.1]) ++ List.replicate r (row f W []) ∧
    ∀ e ∈ ms, e.2 = e.1.length ∨ ∃ j, 1 ≤ j ∧ e.2 = 136 * j ∧ 136 * j ≤ e.1.length

/-- A table of messages all of whose rows are the native ones. -/
def NativeTable (f : List (ZMod p) → List (ZMod p)) (W : ℕ) (T : List (Row (ZMod p))) : Prop :=
  ∃ (ms : List (List Byte)) (r : ℕ), T = ms.flatMap (rows f W) ++ List.replicate r (row f W [])

/-! ## Proofs -/

theorem rf_prover (fs : List (LoadedF (AV p))) : List.Forall₂ (RF true) fs (fs.map LoadedF.prover) := by
  rw [List.forall₂_map_right_iff]
  have hra : ∀ a : AV p, RA true a a.prover := fun a => ⟨fun _ => ⟨rfl, rfl⟩, by simp⟩
  refine List.forall₂_same.2 fun x _ => ⟨hra _, ?_, hra _, hra _, hra _⟩
  show List.Forall₂ (RA true) _ _
  unfold LoadedF.prover
  rw [List.forall₂_map_right_iff]
  exact List.forall₂_same.2 fun a _ => hra a

theorem wf_of_run {f : List (ZMod p) → List (ZMod p)} {cap : ℕ} {raw : Bool} {fs : List (LoadedF (AV p))} {outs : List (List (AV p))} {s : Ctx p}
    (h : shardProg sp f cap raw fs (mainCtx false) = some (outs, s)) : WFThread s :=
  ((shardProg_rel sp f cap raw (rf_prover fs)).keeps _ _ _ rfl (layable_new _ _ _ _ _ _) h).1.wf.1

/-- Two runs of the base circuit on the same virtual cells have the same shape. -/
theorem run_shape {f : List (ZMod p) → List (ZMod p)} {cap : ℕ} {raw : Bool} {fs fs' : List (LoadedF (AV p))} (hr : List.Forall₂ (RF false) fs fs')
    {outs outs' : List (List (AV p))} {s s' : Ctx p} (h : shardProg sp f cap raw fs (mainCtx false) = some (outs, s))
    (h' : shardProg sp f cap raw fs' (mainCtx false) = some (outs', s')) : H2.SameShape s s' ∧ List.Forall₂ SameCells outs outs' := by
  obtain ⟨h1, h2⟩ := (shardProg_rel sp f cap raw hr).shape (R := List.Forall₂ SameCells) (fun r r' hr => hr.imp fun a b hab => hab.imp fun x y hxy => hxy.2 rfl)
    (mainCtx false) (mainCtx false) (by refine ⟨rfl, rfl, rfl, rfl, rfl, rfl, rfl, rfl, rfl, rfl⟩) _ _ _ _ h h'
  exact ⟨h1, h2⟩

theorem kec_len {k h : ℕ} (hh : 1 ≤ h) {ms : List (List Byte)} {c : ℕ} {rows : List KRow} (hrun : multiKeccak k h ms (some c) = some rows) :
    rows.length = numRows h c := by
  rw [multiKeccak_some hh] at hrun
  by_cases hc : totalF ms ≤ c
  · rw [if_pos hc] at hrun
    rw [← Option.some_inj.mp hrun, rowsOf_len, totalF_append, show totalF ms + (c - totalF ms) = c by omega]
    rfl
  · rw [if_neg hc] at hrun; exact absurd hrun (by simp)

theorem dummy_of_run {f : List (ZMod p) → List (ZMod p)} {cap : ℕ} {raw : Bool} {fs : List (LoadedF (AV p))} {outs : List (List (AV p))} {s s0 : Ctx p}
    (h : shardProg sp f cap raw fs s0 = some (outs, s)) : ∃ d, dummyOutput f = some d := by
  cases hd : dummyOutput f with
  | some d => exact ⟨d, rfl⟩
  | none =>
    exfalso
    unfold shardProg at h
    rw [hd] at h
    obtain ⟨⟨a, s1⟩, -, h⟩ := Option.bind_eq_some_iff.1 h
    dsimp only at h
    obtain ⟨⟨b, s2⟩, -, h⟩ := Option.bind_eq_some_iff.1 h
    dsimp only at h
    cases h

/-- Loading does not panic, for any values. -/
theorem load_ok (known : Bool) {h n : ℕ} (hh : 1 ≤ h) {rows : List KRow} (hlen : rows.length = numRows h n) :
    ∃ fs g, transmute h (assignRows p known rows) .new = some (fs, g) ∧ XOk g ∧ ∀ A, Below g.cm.assigned A → List.Forall₂ (FRaw known A h (advOf rows)) fs (List.range n) := by
  obtain ⟨fs, g, e1, ok, -, -, -, hq⟩ := transmute_rows (p := p) known hh hlen _ xok_new
  exact ⟨fs, g, e1, ok, hq⟩

/-- The base circuit has no lookups: whatever the values, an assignment of zeros in the Keccak circuit gives a run of the same shape that satisfies
its lookups in the empty table. -/
theorem no_lookups (hsp : IsSpec (R := 2) rF rP cs mds inv sp) {h cap : ℕ} (hh : 1 ≤ h) {known : Bool} {rows : List KRow} (hlen : rows.length = numRows h cap) {raw : Bool}
    {fs : List (LoadedF (AV p))} {g : XMgr p} (hl : transmute h (assignRows p known rows) .new = some (fs, g)) {outs : List (List (AV p))} {s : Ctx p}
    (hrun : shardProg sp (textPerm rF rP mds cs) cap raw fs (mainCtx false) = some (outs, s)) : s.lookups = [] := by
  obtain ⟨d, hd⟩ := dummy_of_run hrun
  have hlen0 : (List.replicate (numRows h cap) (dummyRow 0)).length = numRows h cap := by simp
  obtain ⟨fs0, g0, e0, -, hq⟩ := load_ok (p := p) true hh hlen0
  have hz : ∀ b, b < cap → (loadF h (advOf (List.replicate (numRows h cap) (dummyRow 0)) : Adv (ZMod p)) b).isFinal = 0 := by
    intro b hb
    simp only [loadF, advOf]
    split
    · rename_i h0
      cases hx : (List.replicate (numRows h cap) (dummyRow 0))[(bs h (1 + 25 * b + 24)).toNat]? with
      | none => simp
      | some x =>
        have := List.mem_replicate.1 (List.mem_of_getElem? hx)
        rw [this.2]; simp [dummyRow]
    · rfl
  have hf : List.Forall₂ (FCon (extVal (advOf (List.replicate (numRows h cap) (dummyRow 0))) g0.cm.assigned) (mainCtx false : Ctx p)) fs0
      ((List.range cap).map fun b => loadF h (advOf (List.replicate (numRows h cap) (dummyRow 0)) : Adv (ZMod p)) b) := by
    rw [List.forall₂_map_right_iff]
    refine (hq g0.cm.assigned fun _ _ h => h).imp fun f b hf => hf.con main_type fun c x hc => ?_
    unfold extVal
    rw [hc]
  have hc0 := shardProg_cmp (tbl := fun _ => False) hsp hd hf (fun v hv => by
      obtain ⟨b, -, rfl⟩ := List.mem_map.1 hv; exact loadF_words b) (fun v hv => by
      obtain ⟨b, hb, rfl⟩ := List.mem_map.1 hv; exact .inl (hz b (List.mem_range.1 hb))) raw
  rw [List.length_map, List.length_range] at hc0
  obtain ⟨outs0, s0, hr0, -, hsat, -, -⟩ := hc0.run (good_new _ _ _)
  have hrel := (transmute_same known true hh hlen hlen0 _ _ ⟨rfl, fun _ => rfl⟩ _ _ _ _ hl e0).2
  have hsh := (run_shape hrel hrun hr0).1.lookups
  have : s0.lookups = [] := by
    cases hx : s0.lookups with
    | nil => rfl
    | cons a l => exact (hsat.lookup a (by rw [hx]; simp)).elim
  rw [this] at hsh
  simpa using hsh

theorem public_eq {outs : List (List (AV p))} {w : Cell → ZMod p} {v : PCell → ZMod p}
    (h : ∀ (k : ℕ) o, outs[k]? = some o → ∀ i a, o[i]? = some a → H2.at' w a = v ⟨.inst k, i⟩) :
    publicInputs (outs.map List.length) v = outs.map (List.map (H2.at' w)) := by
  unfold publicInputs
  apply List.ext_getElem
  · simp
  · intro k h1 h2
    simp only [List.getElem_mapIdx, List.getElem_map]
    have hk : k < outs.length := by simpa using h2
    apply List.ext_getElem
    · simp
    · intro i h3 h4
      simp only [List.getElem_map, List.getElem_range]
      exact (h k _ (List.getElem?_eq_getElem hk) i _ (List.getElem?_eq_getElem (by simpa using h4))).symm

theorem instCols_length (raw : Bool) (f : List (ZMod p) → List (ZMod p)) (T : List (Row (ZMod p))) : (instCols raw f T).map List.length = shardSizes T.length raw := by
  cases raw <;> simp [instCols, shardSizes]

/-- The values of the loaded cells are those of the cells of the Keccak circuit. -/
theorem loaded_of {known : Bool} {hh cap : ℕ} (hh1 : 1 ≤ hh) {krows : List KRow} (hlen : krows.length = numRows hh cap) {fs : List (LoadedF (AV p))} {g : XMgr p}
    (hl : transmute hh (assignRows p known krows) .new = some (fs, g)) {map : CellMap} (hmap : Below g.cm.assigned map) {a : Adv (ZMod p)} {v : PCell → ZMod p}
    (hv : ∀ i r, i < 5 → v ⟨.other i, r⟩ = kecVal a ⟨.other i, r⟩) : Loaded (vw map v) hh cap a fs := by
  obtain ⟨fs', g', e1, -, hq⟩ := load_ok (p := p) known hh1 hlen
  have e2 := hl.symm.trans e1
  rw [Option.some.injEq, Prod.mk.injEq] at e2
  rw [← e2.1, ← e2.2] at hq
  have hfs := hq map hmap
  clear hq e1 e2 hl
  unfold Loaded
  have : List.Forall₂ (fun f b => valF (vw map v) f = loadF hh a b) fs (List.range cap) := by
    refine hfs.imp fun f b hf => hf.val fun c x hc hx => ?_
    obtain ⟨i, hi, hcol⟩ := hx
    have e : vw map v c = v x := by unfold vw; rw [hc]
    obtain ⟨col, r⟩ := x
    obtain rfl : col = .other i := hcol
    rw [e, hv i r hi]
  clear hfs
  generalize List.range cap = B at this
  induction this with
  | nil => rfl
  | cons h _ ih => rw [List.map_cons, List.map_cons, h, ih]

/-- The base circuit on loaded cells. -/
theorem prog_sound (h : IsSpec (R := 2) rF rP cs mds inv sp) {k hh cap : ℕ} (hg : Kec.Good k hh) (hp : 8 ^ 82 ≤ p) {raw : Bool} {a : Adv (ZMod p)}
    (ha : KecSat k hh cap a) {fs : List (LoadedF (AV p))} {outs : List (List (AV p))} {s0 s : Ctx p} (hi0 : Inv s0)
    (hrun : shardProg sp (textPerm rF rP mds cs) cap raw fs s0 = some (outs, s)) {tbl : ZMod p → Prop} {w : Cell → ZMod p} (hw : Sat tbl s w)
    (hl : Loaded w hh cap a fs) :
    ∃ T : List (Row (ZMod p)), T.length = cap ∧ outs.map (List.map (at' w)) = instCols raw (textPerm rF rP mds cs) T ∧
      MsgTable (textPerm rF rP mds cs) (capacity p / 64) T ∧
      ((∀ b, b < cap → ∀ q, 17 ≤ q → q < 24 → a.isFinal (bs hh (1 + 25 * b + q)) = 0) → NativeTable (textPerm rF rP mds cs) (capacity p / 64) T) := by
  obtain ⟨d, hd⟩ := dummy_of_run hrun
  rw [shardProg_eq hd] at hrun
  obtain ⟨⟨hs, s1⟩, hr1, hrun⟩ := Option.bind_eq_some_iff.1 hrun
  dsimp only at hrun
  obtain ⟨⟨rs, s2⟩, hr2, hr3⟩ := Option.bind_eq_some_iff.1 hrun
  dsimp only at hr3
  have hsnd1 : Sound tbl (Hasher.init sp 3 2) _ := Hasher.init_sound (R := 2) h.wf
  obtain ⟨hi1, -⟩ := hsnd1.extends_of hi0 hr1
  have hin1 : Initialised sp 2 hs s1 := ⟨_, _, hi0, hr1, Ext.refl _⟩
  obtain ⟨e1, e2⟩ := hin1.ret
  have hsnd2 : Sound tbl (baseOutputs d hs fs) _ := baseOutputs_sound (by rw [e1]; exact h.wf) e2 d fs (loaded_words hl)
  obtain ⟨hi2, ex2⟩ := hsnd2.extends_of hi1 hr2
  have hin2 : Initialised sp 2 hs s2 := ⟨_, _, hi0, hr1, ex2⟩
  have hsnd3 : Sound tbl (publishOutputs hs cap raw rs) (fun _ _ => True) := by
    intro s
    unfold publishOutputs
    refine Snd.assert fun _ => ?_
    split
    · exact Snd.pure fun _ _ => trivial
    · exact Snd.bind (Hasher.hashFixLen_sound (by rw [e1]; exact h.wf) e2 _ s) fun c s1 _ => Snd.pure fun _ _ _ => trivial
  have key : Ext s2 s ∧ rs.length = cap ∧ outs.map (List.map (at' w)) = instCols raw (textPerm rF rP mds cs) (rs.map (valR w)) := by
    refine ⟨(hsnd3.extends_of hi2 hr3).2, ?_⟩
    cases raw with
    | true => exact C54_publish_raw hr3
    | false => exact C54_publish_commit h hin2 hi2 hr3 hw
  obtain ⟨ex3, hlen, hout⟩ := key
  obtain ⟨-, h1, h2⟩ := C54_table_sound h hg hp ha hin1 hi1 hd hr2 (hw.mono ex3) hl
  exact ⟨rs.map (valR w), by rw [List.length_map, hlen], hout, h1, h2⟩

/-- C84 (soundness): for every satisfying assignment of the shard circuit of any key, the public instances are those of a table with `capacity` rows,
and the table consists of the rows of a list of messages and then rows of the empty message.  If `is_final` is 0 in the rounds without input
(which is not enforced, finding of C54) the rows of each message are the native ones; in general the length in the key of a message may also be
a positive multiple of 136 below the true length. -/
theorem C84_sound (h : IsSpec (R := 2) rF rP cs mds inv sp) {k hh cap : ℕ} (hg : Kec.Good k hh) (hp : 8 ^ 82 ≤ p) {raw : Bool} {cfg : Cfg} {known : Bool}
    {ms0 : List (List Byte)} {reg : Region p} {map : CellMap} {bps : List ℕ}
    (hk : ShardKeygen sp (textPerm rF rP mds cs) k hh cap raw cfg known ms0 reg map bps) (hmx : 4 ≤ cfg.maxRows) {tbl : List (ZMod p) → Prop}
    {a : Adv (ZMod p)} {v : PCell → ZMod p} (hv : ShardSat k hh cap cfg tbl reg a v) :
    ∃ T : List (Row (ZMod p)), T.length = cap ∧ publicInputs (shardSizes cap raw) v = instCols raw (textPerm rF rP mds cs) T ∧
      MsgTable (textPerm rF rP mds cs) (capacity p / 64) T ∧
      ((∀ b, b < cap → ∀ q, 17 ≤ q → q < 24 → a.isFinal (bs hh (1 + 25 * b + q)) = 0) → NativeTable (textPerm rF rP mds cs) (capacity p / 64) T) := by
  have hh1 := (GoodL.of hg).hh
  obtain ⟨krows, fs, g, outs, s, hkr, hl, hrun, hsyn⟩ := hk.run
  have hlen := kec_len hh1 hkr
  have hnl := no_lookups h hh1 hlen hl hrun
  have hlk : (addLookups [] (lookupLog s)).all = [] := by unfold lookupLog; rw [hnl]; rfl
  obtain ⟨hvs, hinst⟩ := synth_sound hsyn hmx (by simpa using wf_of_run hrun) (.inr hlk) (width := 1) (by rw [hlk]; simp) (by norm_num) (fun _ => rfl) hv.base
  have hw : Sat (fun x => tbl [x]) s (vw map v) := ⟨fun i hi => hvs.gate s (by simp) i hi, hvs.eq, hvs.const, by rw [hnl]; simp⟩
  have hld := loaded_of hh1 hlen hl (fun c x hc => synth_ext hsyn hc) hv.shared
  obtain ⟨T, h1, h2, h3⟩ := prog_sound h hg hp hv.kec (inv_new _ _ _ _ _) hrun hw hld
  refine ⟨T, h1, ?_, h3⟩
  have hsz : outs.map List.length = shardSizes cap raw := by
    have := congrArg (List.map List.length) h2
    rw [instCols_length, h1, List.map_map] at this
    rw [← this]
    exact List.map_congr_left fun _ _ => by simp
  rw [← hsz, public_eq (w := vw map v) hinst, h2]

/-- C84 (completeness): take any key of the shard circuit, made from any messages (or none), and messages `ms` within the capacity.  The native
instances `CircuitExt::instances` exist, the prover does not panic, it writes exactly the cells that key generation wrote, and the proof's
assignment - the honest rows of the Keccak circuit, the values written in the base circuit, the fixed columns of the key, the native instances -
satisfies the shard circuit. -/
theorem C84_proof_accepted (h : IsSpec (R := 2) rF rP cs mds inv sp) {k hh cap : ℕ} (hwit : Wit k hh) (hrot : witRot k = true) {raw : Bool} {cfg : Cfg} {known : Bool}
    {ms0 : List (List Byte)} {reg : Region p} {map : CellMap} {bps : List ℕ}
    (hk : ShardKeygen sp (textPerm rF rP mds cs) k hh cap raw cfg known ms0 reg map bps) (hmx : 4 ≤ cfg.maxRows) {tbl : List (ZMod p) → Prop} (h0 : tbl [0])
    {ms : List (List Byte)} (hms : (ms.map fun m => m.length / 136 + 1).sum ≤ cap) :
    ∃ krows out, multiKeccak k hh ms (some cap) = some krows ∧ shardInstances (textPerm rF rP mds cs) ms cap raw = some out ∧
      (∃ ws, ShardProverWrites sp (textPerm rF rP mds cs) k hh cap raw cfg bps ms ws) ∧
      ∀ ws, ShardProverWrites sp (textPerm rF rP mds cs) k hh cap raw cfg bps ms ws → ws.map Prod.fst = reg.writes.map Prod.fst ∧
        ShardSat k hh cap cfg tbl reg (advOf krows) (proofAssignmentX (kecVal (advOf krows)) ws reg.fixed out) := by
  have hh1 := (WitL.of hwit).hh
  obtain ⟨krows, hkr⟩ : ∃ krows, multiKeccak k hh ms (some cap) = some krows := ⟨_, by rw [multiKeccak_some hh1, if_pos (show totalF ms ≤ cap from hms)]⟩
  obtain ⟨hlen, hkec, -⟩ := C62_complete (F := ZMod p) hwit hkr
  obtain ⟨krowsK, fsK, gK, outsK, sK, hkrK, hlK, hrunK, hsyn⟩ := hk.run
  have hlenK := kec_len hh1 hkrK
  obtain ⟨d, hd⟩ := dummy_of_run hrunK
  obtain ⟨fs, g, hl, hok, hcomp⟩ := honest_run h hd hwit hrot hkr raw
  obtain ⟨outs, s, hrun, -, hsat, hex, hout⟩ := hcomp (fun x => tbl [x])
  obtain ⟨hsx, hrel⟩ := transmute_same known true hh1 hlenK hlen _ _ ⟨rfl, fun _ => rfl⟩ _ _ _ _ hlK hl
  obtain ⟨hsh, hoc⟩ := run_shape hrel hrunK hrun
  have hA := hsx.2 rfl
  have hnlK := no_lookups h hh1 hlenK hlK hrunK
  have hnl := no_lookups h hh1 hlen hl hrun
  have hlkK : (addLookups [] (lookupLog sK)).all = [] := by unfold lookupLog; rw [hnlK]; rfl
  have hlk : (addLookups [] (lookupLog s)).all = [] := by unfold lookupLog; rw [hnl]; rfl
  -- the circuit of the key, synthesized with the values of the prover
  obtain ⟨reg', hsyn', hshape⟩ := synthesize_shape (ts' := [s]) (lk' := addLookups [] (lookupLog s)) (is' := outs) (.cons ⟨hsh.typeId, hsh.ctxId, hsh.selector, hsh.len⟩ .nil)
    (by rw [hlkK, hlk]; exact .nil) hoc hsyn
  rw [hsh.eqs, hsh.consts, hA] at hsyn'
  -- the prover
  obtain ⟨t, ht, hpo, -⟩ := (shardProg_rel sp (textPerm rF rP mds cs) cap raw (rf_prover fs)).prover (f := List.map (List.map AV.prover)) (fun r r' hr => by
    induction hr with
    | nil => rfl
    | cons h _ ih => rw [List.map_cons, ← ih, RAs.toProver h]) (mainCtx false) (mainCtx true) ⟨rfl, rfl, rfl, rfl, rfl, rfl, rfl⟩ _ _ hrun
  have hnlt : t.lookups = [] := by rw [hpo.lookups, hnl]; rfl
  have hws : synthesizeProver cfg [t] (addLookups [] (lookupLog t)) bps = some reg'.writes := by
    refine synthesizeProver_eq (ts := [s]) (by simp [hpo.advice]) ?_ hsyn'
    rw [hlk]; unfold lookupLog; rw [hnlt]; rfl
  refine ⟨krows, _, hkr, hout, ⟨_, _, _, _, _, _, hkr, hl, ht, hws⟩, ?_⟩
  rintro ws ⟨krows2, fs2, g2, outs2, s2, e1, e2, e3, e4⟩
  rw [hkr, Option.some.injEq] at e1
  subst e1
  rw [hl, Option.some.injEq, Prod.mk.injEq] at e2
  rw [← e2.1, ht, Option.some.injEq, Prod.mk.injEq] at e3
  rw [← e3.2, hws, Option.some.injEq] at e4
  rw [← e4]
  refine ⟨hshape.cells.symm, hkec, psat_shape hshape ?_, fun i r _ => ?_⟩
  · rw [hshape.fixed]
    refine proof_sat_ext hsyn' hmx (by simpa using wf_of_run hrun) (width := 1) (by rw [hlk]; simp) (fun _ => rfl) h0 ⟨?_, hsat.eq, hsat.const, by rw [hlk]; simp⟩ ?_
      (by rw [hlk]; simp) ?_
    · intro x hx
      rw [List.mem_singleton.1 hx]
      exact hsat.gate
    · intro x hx j a ha
      obtain rfl := List.mem_singleton.1 hx
      simp [hw, Own, Ctx.cellAt, valAt, ha]
    · intro c x hc
      refine ⟨hok.own c x hc, ?_⟩
      have hne : ¬ Own s c := fun ho => by
        have h1 := hok.ext c x hc
        have h2 := main_type (p := p)
        rw [← hex.typeId, ← ho.1] at h2
        exact h2 h1
      unfold hw extVal
      rw [if_neg hne, hc]
  · rfl

/-- A mocked cell: value 0, a cell of the external type. -/
def ZeroX (a : AV p) : Prop := a.value = .trivial 0 ∧ ∃ c, a.cell = some c ∧ c.typeId = externalTypeId

structure ZeroF (f : LoadedF (AV p)) : Prop where
  bytesLeft : ZeroX f.bytesLeft
  words : f.words.length = 17 ∧ ∀ a ∈ f.words, ZeroX a
  isFinal : ZeroX f.isFinal
  hashLo : ZeroX f.hashLo
  hashHi : ZeroX f.hashHi

theorem ZeroX.con {a : AV p} (h : ZeroX a) {s : Ctx p} (hs : s.typeId ≠ externalTypeId) : Con (fun _ => 0) s a 0 := by
  obtain ⟨h1, c, h2, h3⟩ := h
  have hn : ¬ Own s c := fun ho => hs (ho.1.symm.trans h3)
  exact ⟨h1, c, h2, fun ho => absurd ho hn, by unfold hw; rw [if_neg hn]⟩

theorem ZeroF.con {f : LoadedF (AV p)} (h : ZeroF f) {s : Ctx p} (hs : s.typeId ≠ externalTypeId) : FCon (fun _ => 0) s f ⟨0, List.replicate 17 0, 0, 0, 0⟩ := by
  refine ⟨h.bytesLeft.con hs, ?_, h.isFinal.con hs, h.hashLo.con hs, h.hashHi.con hs⟩
  rw [← h.words.1]
  refine List.forall₂_iff_get.2 ⟨by simp, fun i h1 h2 => ?_⟩
  simpa using (h.words.2 _ (List.getElem_mem h1)).con hs

/-- A step of the copy manager that does not panic. -/
def XTot {α : Type} (m : XL p α) (Q : α → Prop) : Prop := ∀ g, ∃ r g', m g = some (r, g') ∧ Q r

theorem XTot.pure {α : Type} {Q : α → Prop} {r : α} (h : Q r) : XTot (Pure.pure r : XL p α) Q := fun g => ⟨r, g, rfl, h⟩

theorem XTot.bind {α β : Type} {m : XL p α} {k : α → XL p β} {Q : α → Prop} {R : β → Prop} (h : XTot m Q) (h' : ∀ r, Q r → XTot (k r) R) : XTot (m >>= k) R := by
  intro g
  obtain ⟨r, g1, h1, hq⟩ := h g
  obtain ⟨r', g2, h2, hr⟩ := h' r hq g1
  refine ⟨r', g2, ?_, hr⟩
  show Option.bind (m g) _ = _
  rw [h1]
  exact h2

theorem mock_zero : XTot (fun g => g.mock 0 : XL p (AV p)) ZeroX := fun g => ⟨_, _, rfl, rfl, _, rfl, rfl⟩

theorem mockMany_ok : ∀ n : ℕ, XTot (mockMany n : XL p (List (AV p))) (fun as => as.length = n ∧ ∀ a ∈ as, ZeroX a)
  | 0 => XTot.pure ⟨rfl, by simp⟩
  | n + 1 => mock_zero.bind fun a ha => (mockMany_ok n).bind fun as has => XTot.pure ⟨by simp [has.1], by simpa using ⟨ha, has.2⟩⟩

theorem mock_ok : ∀ n : ℕ, XTot (mockLoad n : XL p (List (LoadedF (AV p)))) (fun fs => fs.length = n ∧ ∀ f ∈ fs, ZeroF f)
  | 0 => XTot.pure ⟨rfl, by simp⟩
  | n + 1 => mock_zero.bind fun _ h1 => (mockMany_ok 17).bind fun _ h2 => mock_zero.bind fun _ h3 => mock_zero.bind fun _ h4 => mock_zero.bind fun _ h5 =>
      (mock_ok n).bind fun fs h6 => XTot.pure ⟨by simp [h6.1], by simpa using ⟨⟨h1, h2, h3, h4, h5⟩, h6.2⟩⟩

/-- C84: the run of `calculate_base_circuit_params` - cells mocked, no messages - does not panic and has exactly the cells, gates, copy constraints
and constants of every key generation with the same parameters: its statistics are those of the circuit. -/
theorem C84_mock (h : IsSpec (R := 2) rF rP cs mds inv sp) {k hh cap : ℕ} (hh1 : 1 ≤ hh) {known : Bool} {ms : List (List Byte)} {krows : List KRow} {raw : Bool}
    {fs : List (LoadedF (AV p))} {g : XMgr p} {outs : List (List (AV p))} {s : Ctx p} (hkr : multiKeccak k hh ms (some cap) = some krows)
    (hl : transmute hh (assignRows p known krows) .new = some (fs, g)) (hrun : shardProg sp (textPerm rF rP mds cs) cap raw fs (mainCtx false) = some (outs, s)) :
    ∃ fsM gM outsM sM, mockLoad cap .new = some (fsM, gM) ∧ shardProg sp (textPerm rF rP mds cs) cap raw fsM (mainCtx false) = some (outsM, sM) ∧
      H2.SameShape s sM := by
  obtain ⟨d, hd⟩ := dummy_of_run hrun
  obtain ⟨fsM, gM, hm, hz⟩ := mock_ok (p := p) cap .new
  have hf : List.Forall₂ (FCon (fun _ => 0) (mainCtx false : Ctx p)) fsM (List.replicate cap ⟨0, List.replicate 17 0, 0, 0, 0⟩) := by
    rw [← hz.1]
    refine List.forall₂_iff_get.2 ⟨by simp, fun i h1 h2 => ?_⟩
    have := hz.2 _ (List.getElem_mem h1)
    simpa using this.con main_type
  have hc := shardProg_cmp (tbl := fun _ => False) h hd hf (fun v hv => by rw [(List.mem_replicate.1 hv).2]; simp)
    (fun v hv => by rw [(List.mem_replicate.1 hv).2]; exact .inl rfl) raw
  rw [List.length_replicate] at hc
  obtain ⟨outsM, sM, hrM, -⟩ := hc.run (good_new _ _ _)
  refine ⟨fsM, gM, outsM, sM, hm, hrM, (run_shape ?_ hrun hrM).1⟩
  exact (transmute_mock known hh1 (kec_len hh1 hkr) _ _ ⟨rfl, fun h => absurd h (by simp)⟩ _ _ _ _ hl hm).2

end H2.KC
