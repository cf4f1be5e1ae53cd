import Verif.Props.Shard
import Verif.Props.Capacity
import Verif.Props.KecComp
import Verif.Props.KecWit
import Verif.Threads.EqOwn

/-!
# C84: key generation of the shard circuit succeeds; C57 with external cells
-/

set_option autoImplicit false
set_option linter.unusedSectionVars false
namespace H2.Phys
variable {p : ℕ}

/-- C57.  As `C57_synthesize_succeeds`, when some cells (external ones) already have a place: the threads may refer to them too. -/
theorem C57_synthesize_succeeds_ext {cfg : Cfg} {threads : List (Ctx p)} {eqs : List (Cell × Cell)}
    {consts : List (ZMod p × Cell)} {lookups : Buckets p} {instances : List (List (AV p))} {placed : CellMap}
    (hmx : 4 ≤ cfg.maxRows) (hcols : (totalAdvice threads - 1) / (cfg.maxRows - 3) < cfg.ncols)
    (hno : ∀ s ∈ threads, NonOverlap s) (hlen : ∀ s ∈ threads, s.selector.length = s.advice.length)
    (htag : (threads.map Ctx.tag).Nodup) (hq : cfg.qLookup = false) (hfree : ∀ s ∈ threads, ∀ i, placed (s.cellAt i) = none)
    (hlk : lookups.all.length ≤ cfg.nsets * cfg.usable)
    (hfx : (consts.map Prod.fst).toFinset.card ≤ cfg.nfixed * cfg.usable)
    (heqs : ∀ e ∈ eqs, (CellOf threads e.1 ∨ (placed e.1).isSome) ∧ (CellOf threads e.2 ∨ (placed e.2).isSome))
    (hcs : ∀ e ∈ consts, CellOf threads e.2 ∨ (placed e.2).isSome)
    (hlc : ∀ as ∈ lookups.all, ∀ a ∈ as, ∃ c, a.cell = some c ∧ (CellOf threads c ∨ (placed c).isSome))
    (hin : ∀ l ∈ instances, ∀ a ∈ l, ∃ c, a.cell = some c ∧ (CellOf threads c ∨ (placed c).isSome)) :
    ∃ out, synthesize cfg threads eqs consts lookups instances placed = some out := by
  obtain ⟨st, h1⟩ : ∃ st, assignWithConstraints cfg.maxRows cfg.ncols threads Region.empty placed = some st :=
    awcThreads_succeeds hmx hcols threads hno hlen htag (fun s hs k => hfree s hs k) (n := 0) (by simp) (by simp [totalAdvice])
  have hb := C31_layout_bounds hmx h1
  have hL := (awcThreads_laid threads h1).1
  have hmap : ∀ c, (CellOf threads c ∨ (placed c).isSome) → (st.map c).isSome := by
    rintro c (⟨s, hs, i, hi, rfl⟩ | hc)
    · obtain ⟨x, hx, -⟩ := hb.2.2.2.1 s hs i _ (List.getElem?_eq_getElem hi)
      rw [hx]; rfl
    · obtain ⟨x, hx⟩ := Option.isSome_iff_exists.1 hc
      rw [hL.mono c x hx]; rfl
  have h2 : ∃ r, lookupStage cfg lookups.all st.map st.reg = some (st.map, r) := by
    unfold lookupStage
    split
    · unfold assignLookups
      split
      · exact ⟨_, rfl⟩
      · rw [if_neg (by simp [hq])]
        refine lkLoop_isSome (k := 0) lookups.all (by simp) (by simp) (by omega) ?_
        intro as has a ha
        obtain ⟨c, h1, h2⟩ := hlc as has a ha
        exact ⟨c, h1, hmap c h2⟩
    · exact ⟨_, rfl⟩
  obtain ⟨r, h2⟩ := h2
  obtain ⟨r', h3⟩ := (C57_copy_manager_iff (nfixed := cfg.nfixed) (usable := cfg.usable) (reg := r)
    (map := st.map)).2 ⟨hfx, fun e he => ⟨hmap _ (heqs e he).1, hmap _ (heqs e he).2⟩, fun e he => hmap _ (hcs e he)⟩
  obtain ⟨ic, h4⟩ := instAll_isSome (k := 0) (map := st.map) instances (by
    intro l hl a ha
    obtain ⟨c, h1, h2⟩ := hin l hl a ha
    exact ⟨c, h1, hmap c h2⟩)
  exact ⟨_, by simp only [synthesize, h1, Option.bind_eq_bind, Option.bind_some, h2, h3, h4, Option.pure_def]; rfl⟩

end H2.Phys

namespace H2.KC
open H2.Kec H2.Ext H2.Phys H2.EqO
variable {p : ℕ} [Fact p.Prime] {rF rP : ℕ} {cs : List (Fin 3 → ZMod p)} {mds inv : Mat p 3} {sp : PSpec p}

/-- Foreign cells: the placed ones hold the values of the Keccak circuit (0 if unknown), all others `x`. -/
def extX (known : Bool) (a : Adv (ZMod p)) (A : CellMap) (x : ZMod p) (c : Cell) : ZMod p :=
  match A c with
  | some y => if known then kecVal a y else 0
  | none => x

/-- The values the loaded cells carry in key generation. -/
def seenF (known : Bool) (h : ℕ) (a : Adv (ZMod p)) (b : ℕ) : LoadedF (ZMod p) :=
  if known then loadF h a b else ⟨0, List.replicate 17 0, 0, 0, 0⟩

theorem rawAt_zero {A : CellMap} {a : AV p} {y : PCell} {v : ZMod p} {ext : Cell → ZMod p} {s : Ctx p} (h : RawAt false A a y v) (hs : s.typeId ≠ externalTypeId)
    (hv : ∀ c, A c = some y → ext c = 0) : Con ext s a 0 := by
  obtain ⟨h1, c, h2, h3, h4⟩ := h
  have hn : ¬ Own s c := fun ho => hs (ho.1.symm.trans h3)
  exact ⟨by simpa using h1, c, h2, fun ho => absurd ho hn, by rw [hw, if_neg hn, hv c h4]⟩

theorem seen_con {known : Bool} {A : CellMap} {h b : ℕ} {a : Adv (ZMod p)} {f : LoadedF (AV p)} (hf : FRaw known A h a f b) {s : Ctx p}
    (hs : s.typeId ≠ externalTypeId) (x : ZMod p) : FCon (extX known a A x) s f (seenF known h a b) := by
  cases known with
  | true => exact hf.con hs fun c y hc => by simp [extX, hc]
  | false =>
    have hv : ∀ c y, A c = some y → extX false a A x c = 0 := fun c y hc => by simp [extX, hc]
    refine ⟨rawAt_zero hf.bytesLeft hs fun c hc => hv c _ hc, ?_, rawAt_zero hf.isFinal hs fun c hc => hv c _ hc, rawAt_zero hf.hashLo hs fun c hc => hv c _ hc,
      rawAt_zero hf.hashHi hs fun c hc => hv c _ hc⟩
    refine List.forall₂_iff_get.2 ⟨by rw [hf.words.1]; simp [seenF], fun i h1 h2 => ?_⟩
    have h17 : i < 17 := by rw [← hf.words.1]; exact h1
    have := rawAt_zero (y := ⟨.other 4, (1 + 25 * b + i) * h⟩) (s := s) (ext := extX false a A x) (hf.words.2 i _ _ _ (List.getElem?_eq_getElem h1)
      (by simp [rawF, h17]) (List.getElem?_eq_getElem (show i < (loadF h a b).words.length by simpa [loadF] using h17))) hs fun c hc => hv c _ hc
    have e : (seenF false h a b).words.get ⟨i, h2⟩ = 0 := by
      have h3 : (seenF false h a b).words = List.replicate 17 0 := rfl
      simp only [h3, List.get_eq_getElem, List.getElem_replicate]
    rw [e]
    exact this

theorem advOf_flag {krows : List KRow} (h b : ℕ) : (loadF h (advOf krows : Adv (ZMod p)) b).isFinal = 0 ∨ (loadF h (advOf krows : Adv (ZMod p)) b).isFinal = 1 := by
  simp only [loadF, advOf]
  split
  · cases hx : krows[(bs h (1 + 25 * b + 24)).toNat]? with
    | none => simp
    | some x => cases hf : x.isFinal <;> simp [hf]
  · exact .inl rfl

theorem dummy_some (hc : 128 ≤ capacity p) (f : List (ZMod p) → List (ZMod p)) : ∃ d, dummyOutput f = some d := by
  exact ⟨_, dummyOutput_eq f hc⟩

/-- The base circuit runs in key generation, and refers only to its own cells and to the loaded ones. -/
theorem keygen_run (h : IsSpec (R := 2) rF rP cs mds inv sp) (hc : 128 ≤ capacity p) {k hh cap : ℕ} (hh1 : 1 ≤ hh) (raw known : Bool)
    {ms : List (List Byte)} (hms : (ms.map fun m => m.length / 136 + 1).sum ≤ cap) :
    ∃ krows fs g outs s, multiKeccak k hh ms (some cap) = some krows ∧ transmute hh (assignRows p known krows) .new = some (fs, g) ∧ XOk g ∧
      shardProg sp (textPerm rF rP mds cs) cap raw fs (mainCtx false) = some (outs, s) ∧ s.lookups = [] ∧ Layable s ∧ s.typeId ≠ externalTypeId ∧
      (∀ e ∈ s.eqs, (CellOf [s] e.1 ∨ (g.cm.assigned e.1).isSome) ∧ (CellOf [s] e.2 ∨ (g.cm.assigned e.2).isSome)) ∧
      (∀ e ∈ s.consts, CellOf [s] e.2 ∨ (g.cm.assigned e.2).isSome) ∧
      ∀ l ∈ outs, ∀ a ∈ l, ∃ c, a.cell = some c ∧ (CellOf [s] c ∨ (g.cm.assigned c).isSome) := by
  obtain ⟨d, hd⟩ := dummy_some hc (textPerm rF rP mds cs)
  obtain ⟨krows, hkr⟩ : ∃ krows, multiKeccak k hh ms (some cap) = some krows := ⟨_, by rw [multiKeccak_some hh1, if_pos (show totalF ms ≤ cap from hms)]⟩
  have hlen := kec_len hh1 hkr
  obtain ⟨fs, g, e1, ok, hq⟩ := load_ok (p := p) known hh1 hlen
  have hfs := hq g.cm.assigned fun _ _ h => h
  have hcmp : ∀ x, Completes (fun _ => False) (extX known (advOf krows) g.cm.assigned x) (mainCtx false) (shardProg sp (textPerm rF rP mds cs) cap raw fs)
      (fun cols s' => List.Forall₂ (AvsCon (extX known (advOf krows) g.cm.assigned x) s') cols (instCols raw (textPerm rF rP mds cs)
        (vTable (textPerm rF rP mds cs) (capacity p / 64) d 1 [] ((List.range cap).map fun b => seenF known hh (advOf krows : Adv (ZMod p)) b)))) := by
    intro x
    have hf : List.Forall₂ (FCon (extX known (advOf krows) g.cm.assigned x) (mainCtx false : Ctx p)) fs
        ((List.range cap).map fun b => seenF known hh (advOf krows : Adv (ZMod p)) b) := by
      rw [List.forall₂_map_right_iff]
      exact hfs.imp fun f b hf => seen_con hf main_type x
    have := shardProg_cmp (tbl := fun _ => False) h hd hf (fun v hv => by
      obtain ⟨b, -, rfl⟩ := List.mem_map.1 hv
      unfold seenF
      split
      · exact loadF_words b
      · simp) (fun v hv => by
      obtain ⟨b, -, rfl⟩ := List.mem_map.1 hv
      unfold seenF
      split
      · exact advOf_flag hh b
      · exact .inl rfl) raw
    rw [List.length_map, List.length_range] at this
    exact this.run (good_new _ _ _)
  obtain ⟨outs, s, hrun, -, -, hex, -⟩ := hcmp 0
  have hcmp' : ∀ x, Good (fun _ => False) (extX known (advOf krows) g.cm.assigned x) s ∧
      List.Forall₂ (AvsCon (extX known (advOf krows) g.cm.assigned x) s) outs (instCols raw (textPerm rF rP mds cs)
        (vTable (textPerm rF rP mds cs) (capacity p / 64) d 1 [] ((List.range cap).map fun b => seenF known hh (advOf krows : Adv (ZMod p)) b))) := by
    intro x
    obtain ⟨outs', s', hrun', hg', -, -, ho'⟩ := hcmp x
    rw [hrun, Option.some.injEq, Prod.mk.injEq] at hrun'
    rw [← hrun'.1, ← hrun'.2] at ho'
    rw [← hrun'.2] at hg'
    exact ⟨hg', ho'⟩
  have hext : ∀ (x : ZMod p) c, ¬ (g.cm.assigned c).isSome = true → extX known (advOf krows) g.cm.assigned x c = x := by
    intro x c hc
    rw [Bool.not_eq_true, Option.isSome_eq_false_iff, Option.isNone_iff_eq_none] at hc
    simp [extX, hc]
  have hown : ∀ e ∈ s.eqs, Own s e.1 ∨ Own s e.2 := by
    have h1 := EqO.«KC.shardProg_eo» sp (textPerm rF rP mds cs) cap raw fs
    unfold EqOwn at h1
    obtain ⟨t, c, h2⟩ := h1 _ _ _ hrun
    intro e he
    rcases h2 e he with h3 | h3 | h3
    · exact absurd h3 (by simp [mainCtx, Ctx.new])
    · exact .inl ⟨h3.1.trans t.symm, h3.2.trans c.symm⟩
    · exact .inr ⟨h3.1.trans t.symm, h3.2.trans c.symm⟩
  have hcell : ∀ c, Valid s c → (Own s c ∨ (g.cm.assigned c).isSome) → (CellOf [s] c ∨ (g.cm.assigned c).isSome) := by
    rintro c hv (ho | hs)
    · exact .inl ⟨s, by simp, c.offset, hv ho, by cases c; simp [Ctx.cellAt, ← ho.1, ← ho.2]⟩
    · exact .inr hs
  obtain ⟨r1, r2⟩ := refs_of_good hext (fun x => (hcmp' x).1) hown
  have hg := (hcmp' 0).1
  refine ⟨krows, fs, g, outs, s, hkr, e1, ok, hrun, no_lookups h hh1 hlen e1 hrun,
    ((shardProg_rel sp (textPerm rF rP mds cs) cap raw (rf_prover fs)).keeps _ _ _ rfl (layable_new _ _ _ _ _ _) hrun).1, ?_, ?_, ?_, ?_⟩
  · rw [hex.typeId]; exact main_type
  · exact fun e he => ⟨hcell _ (hg.veq e he).1 (r1 e he).1, hcell _ (hg.veq e he).2 (r1 e he).2⟩
  · exact fun e he => hcell _ (hg.vconst e he) (r2 e he)
  · intro l hl a ha
    obtain ⟨i, hi, rfl⟩ := List.mem_iff_getElem.1 hl
    obtain ⟨j, hj, rfl⟩ := List.mem_iff_getElem.1 ha
    have h3 := fun x => List.forall₂_iff_get.1 ((hcmp' x).2)
    have hi' := (h3 0).1 ▸ hi
    have h4 := fun x => List.forall₂_iff_get.1 ((h3 x).2 i hi hi')
    have hj' := (h4 0).1 ▸ hj
    obtain ⟨c, hc, hv, ho⟩ := con_refs hext (fun x => (h4 x).2 j hj hj') rfl
    exact ⟨c, hc, hcell c hv ho⟩

/-- C84 (key generation): for each circuit (spec, capacity, publication of the outputs) there are a number of advice cells and a number of distinct constants such
that key generation succeeds, from any messages within the capacity and whether their values are known or not, on every configuration with the columns for them. -/
theorem C84_keygen_succeeds (h : IsSpec (R := 2) rF rP cs mds inv sp) (hc : 128 ≤ capacity p) {k hh cap : ℕ} (hh1 : 1 ≤ hh) (raw : Bool) :
    ∃ cells consts : ℕ, ∀ cfg : Cfg, 4 ≤ cfg.maxRows → (cells - 1) / (cfg.maxRows - 3) < cfg.ncols → consts ≤ cfg.nfixed * cfg.usable → cfg.qLookup = false →
      ∀ (known : Bool) (ms0 : List (List Byte)), (ms0.map fun m => m.length / 136 + 1).sum ≤ cap →
        ∃ reg map bps, ShardKeygen sp (textPerm rF rP mds cs) k hh cap raw cfg known ms0 reg map bps := by
  obtain ⟨krows, fs, g, outs, s, hkr, hl, -, hrun, -⟩ := keygen_run (k := k) (cap := cap) h hc hh1 raw false (ms := []) (by simp)
  refine ⟨s.advice.length, (s.consts.map Prod.fst).toFinset.card, fun cfg hmx hcols hfx hq known ms hms => ?_⟩
  obtain ⟨krows', fs', g', outs', s', hkr', hl', hok, hrun', hnl, hlay, hty, r1, r2, r3⟩ := keygen_run (k := k) (cap := cap) h hc hh1 raw known hms
  obtain ⟨-, hrel⟩ := transmute_same false known hh1 (kec_len hh1 hkr) (kec_len hh1 hkr') _ _ ⟨rfl, fun _ => rfl⟩ _ _ _ _ hl hl'
  have hsh := (run_shape hrel hrun hrun').1
  have hlk : (addLookups [] (lookupLog s')).all = [] := by unfold lookupLog; rw [hnl]; rfl
  obtain ⟨out, ho⟩ := C57_synthesize_succeeds_ext (cfg := cfg) (threads := [s']) (eqs := s'.eqs) (consts := s'.consts) (lookups := addLookups [] (lookupLog s'))
    (instances := outs') (placed := g'.cm.assigned) hmx (by simpa [totalAdvice, ← hsh.len] using hcols) (by simpa using hlay.wf.2.1) (by simpa using hlay.wf.2.2) (by simp) hq
    (by
      intro x hx i
      rw [List.mem_singleton.1 hx]
      cases hp : g'.cm.assigned (s'.cellAt i) with
      | none => rfl
      | some y => exact absurd (hok.ext _ _ hp) hty)
    (by rw [hlk]; simp) (by rw [← hsh.consts]; exact hfx) r1 r2 (by rw [hlk]; simp) r3
  obtain ⟨reg, map, bps⟩ := out
  exact ⟨reg, map, bps, ⟨krows', fs', g', outs', s', hkr', hl', hrun', ho⟩⟩

/-- The instance columns of the prover's assignment are the public inputs it was given. -/
theorem public_proofX (vext : PCell → ZMod p) (ws : List (PCell × Assigned p)) (fixed : List (PCell × ZMod p)) (pub : List (List (ZMod p))) :
    publicInputs (pub.map List.length) (proofAssignmentX vext ws fixed pub) = pub := by
  unfold publicInputs
  apply List.ext_getElem
  · simp
  · intro k h1 h2
    simp only [List.getElem_mapIdx, List.getElem_map]
    apply List.ext_getElem
    · simp
    · intro i h3 h4
      simp only [List.getElem_map, List.getElem_range, proofAssignmentX, PCol.own, if_true, proofAssignment]
      rw [List.getElem?_eq_getElem h2, Option.bind_some, List.getElem?_eq_getElem h4, Option.getD_some]

/-- C84 together: with the columns of `C84_keygen_succeeds` there is a key (made without knowing any value), and for every list of messages within the capacity
the prover of that key succeeds, with the native instances, on a satisfying assignment of the circuit of the key. -/
theorem C84_pipeline (h : IsSpec (R := 2) rF rP cs mds inv sp) (hc : 128 ≤ capacity p) {k hh cap : ℕ} (hwit : Wit k hh) (hrot : witRot k = true) (raw : Bool) :
    ∃ cells consts : ℕ, ∀ cfg : Cfg, 4 ≤ cfg.maxRows → (cells - 1) / (cfg.maxRows - 3) < cfg.ncols → consts ≤ cfg.nfixed * cfg.usable → cfg.qLookup = false →
      ∃ reg map bps, ShardKeygen sp (textPerm rF rP mds cs) k hh cap raw cfg false [] reg map bps ∧
        ∀ (tbl : List (ZMod p) → Prop), tbl [0] → ∀ ms : List (List Byte), (ms.map fun m => m.length / 136 + 1).sum ≤ cap →
          ∃ out ws a v, shardInstances (textPerm rF rP mds cs) ms cap raw = some out ∧
            ShardProverWrites sp (textPerm rF rP mds cs) k hh cap raw cfg bps ms ws ∧ ShardSat k hh cap cfg tbl reg a v ∧ publicInputs (shardSizes cap raw) v = out := by
  obtain ⟨N, C, hN⟩ := C84_keygen_succeeds (k := k) (cap := cap) h hc (WitL.of hwit).hh raw
  refine ⟨N, C, fun cfg h1 h2 h3 h4 => ?_⟩
  obtain ⟨reg, map, bps, hk⟩ := hN cfg h1 h2 h3 h4 false [] (by simp)
  refine ⟨reg, map, bps, hk, fun tbl h0 ms hms => ?_⟩
  obtain ⟨krows, out, -, e2, ⟨ws, e3⟩, e4⟩ := C84_proof_accepted h hwit hrot hk h1 h0 hms
  refine ⟨out, ws, _, _, e2, e3, (e4 ws e3).2, ?_⟩
  unfold shardInstances at e2
  obtain ⟨T, hT, rfl⟩ := Option.map_eq_some_iff.1 e2
  have hl : T.length = cap := by
    have := C54_native (rF := rF) (rP := rP) (cs := cs) (mds := mds) hc ms cap
    dsimp only at this
    rw [if_pos hms, hT, Option.some.injEq] at this
    have hr : (ms.flatMap (rows (textPerm rF rP mds cs) (capacity p / 64))).length = (ms.map fun m => m.length / 136 + 1).sum := by
      rw [List.length_flatMap]
      congr 1
      exact List.map_congr_left fun m _ => rows_length _ _ m
    rw [this, List.length_append, List.length_replicate, hr]
    omega
  rw [← hl, ← instCols_length raw (textPerm rF rP mds cs) T, public_proofX]

/-- The BN254 field, the toy Poseidon spec, one permutation per round row (19, 1): the circuit of capacity 3 has a key, and its prover is accepted for the messages
"abc" and 200 zero bytes. -/
example : ∃ cfg reg map bps, ShardKeygen spBn (textPerm 2 1 mdsBn csBn) 19 1 3 false cfg false [] reg map bps ∧
    ∃ out ws a v, shardInstances (textPerm 2 1 mdsBn csBn) [[97, 98, 99], List.replicate 200 0] 3 false = some out ∧
      ShardProverWrites spBn (textPerm 2 1 mdsBn csBn) 19 1 3 false cfg bps [[97, 98, 99], List.replicate 200 0] ws ∧
      ShardSat 19 1 3 cfg (fun _ => True) reg a v ∧ publicInputs (shardSizes 3 false) v = out := by
  obtain ⟨N, C, hN⟩ := C84_pipeline (cap := 3) isSpecBn (by rw [capacity_bn254R]; norm_num) wit_19_1 rot_19 false
  obtain ⟨reg, map, bps, hk, hp⟩ := hN ⟨false, N + 1, C + 1, 0, false, 4, 1⟩ (by norm_num) (by simp) (by simp) rfl
  exact ⟨_, reg, map, bps, hk, hp _ trivial _ (by
    simp only [List.map_cons, List.map_nil, List.sum_cons, List.sum_nil, List.length_cons, List.length_nil, List.length_replicate]
    norm_num)⟩

end H2.KC
