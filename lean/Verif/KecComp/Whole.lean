import Verif.KecComp.Circuit
import Verif.Props.KecWit
import Verif.Props.External
import Verif.Props.EndToEnd

/-!
# The Keccak component shard circuit: lemmas for C84
-/

set_option autoImplicit false
set_option linter.unusedSectionVars false
namespace H2.KC
open H2.Kec H2.Ext H2.Phys
variable {p : ℕ} [Fact p.Prime] {tbl : ZMod p → Prop} {ext : Cell → ZMod p} {s s' : Ctx p} {w : Cell → ZMod p} {rF rP : ℕ}
  {cs : List (Fin 3 → ZMod p)} {mds inv : Mat p 3} {sp : PSpec p}

/-! ## Specification -/

/-- The value of a cell of the Keccak circuit in the advice assignment `a`. -/
def kecVal (a : Adv (ZMod p)) (x : PCell) : ZMod p :=
  match x.col with
  | .other 0 => a.isFinal (x.row : ℤ)
  | .other 1 => a.hashLo (x.row : ℤ)
  | .other 2 => a.hashHi (x.row : ℤ)
  | .other 3 => a.bytesLeft (x.row : ℤ)
  | .other 4 => a.wordValue (x.row : ℤ)
  | _ => 0

/-- The instance columns for a table (shard.rs:526-534). -/
def instCols (raw : Bool) (f : List (ZMod p) → List (ZMod p)) (T : List (Row (ZMod p))) : List (List (ZMod p)) :=
  if raw then [T.map (·.key), T.map (·.lo), T.map (·.hi)] else [[outputsCommit f T]]

/-- shard.rs:522-536 `instances` -/
def shardInstances (f : List (ZMod p) → List (ZMod p)) (ms : List (List Byte)) (cap : ℕ) (raw : Bool) : Option (List (List (ZMod p))) :=
  (multiOutputs f ms cap).map (instCols raw f)

/-- The main context of phase 0 of a new builder. -/
def mainCtx (wgo : Bool) : Ctx p := Ctx.new wgo 0 "halo2-base:SinglePhaseCoreManager:FirstPhase" 0 [] []

theorem main_type : (mainCtx false : Ctx p).typeId ≠ externalTypeId := by
  show "halo2-base:SinglePhaseCoreManager:FirstPhase" ≠ externalTypeId
  decide

/-! ## Loaded cells -/

theorem rawAt_con {A : CellMap} {a : AV p} {x : PCell} {v : ZMod p} (h : RawAt true A a x v) (hs : s.typeId ≠ externalTypeId)
    (hv : ∀ c, A c = some x → ext c = v) : Con ext s a v := by
  obtain ⟨h1, c, h2, h3, h4⟩ := h
  have hn : ¬ Own s c := fun ho => hs (ho.1.symm.trans h3)
  exact ⟨h1, c, h2, fun ho => absurd ho hn, by unfold hw; rw [if_neg hn]; exact hv c h4⟩

theorem rawAt_val {known : Bool} {A : CellMap} {a : AV p} {x : PCell} {v : ZMod p} (h : RawAt known A a x v) {y : ZMod p}
    (hv : ∀ c, A c = some x → w c = y) : at' w a = y := by
  obtain ⟨h1, c, h2, h3, h4⟩ := h
  unfold at'
  rw [h2]
  exact hv c h4

theorem FRaw.con {A : CellMap} {h b : ℕ} {a : Adv (ZMod p)} {f : LoadedF (AV p)} (hf : FRaw true A h a f b) (hs : s.typeId ≠ externalTypeId)
    (hv : ∀ c x, A c = some x → ext c = kecVal a x) : FCon ext s f (loadF h a b) := by
  refine ⟨rawAt_con hf.bytesLeft hs fun c hc => hv c _ hc, ?_, rawAt_con hf.isFinal hs fun c hc => hv c _ hc, rawAt_con hf.hashLo hs fun c hc => hv c _ hc,
    rawAt_con hf.hashHi hs fun c hc => hv c _ hc⟩
  refine List.forall₂_iff_get.2 ⟨by rw [hf.words.1]; simp [loadF], fun i h1 h2 => ?_⟩
  have h17 : i < 17 := by rw [← hf.words.1]; exact h1
  refine rawAt_con (x := ⟨.other 4, (1 + 25 * b + i) * h⟩) (hf.words.2 i _ _ _ (List.getElem?_eq_getElem h1) ?_ (List.getElem?_eq_getElem h2)) hs fun c hc => ?_
  · simp [rawF, h17]
  · rw [hv c _ hc]
    simp [loadF, kecVal, bs]

theorem FRaw.val {known : Bool} {A : CellMap} {h b : ℕ} {a0 a : Adv (ZMod p)} {f : LoadedF (AV p)} (hf : FRaw known A h a0 f b)
    (hv : ∀ c x, A c = some x → (∃ i, i < 5 ∧ x.col = .other i) → w c = kecVal a x) : valF w f = loadF h a b := by
  have e1 := rawAt_val (w := w) hf.bytesLeft fun c hc => hv c _ hc ⟨3, by norm_num, rfl⟩
  have e2 := rawAt_val (w := w) hf.isFinal fun c hc => hv c _ hc ⟨0, by norm_num, rfl⟩
  have e3 := rawAt_val (w := w) hf.hashLo fun c hc => hv c _ hc ⟨1, by norm_num, rfl⟩
  have e4 := rawAt_val (w := w) hf.hashHi fun c hc => hv c _ hc ⟨2, by norm_num, rfl⟩
  have e5 : f.words.map (at' w) = (loadF h a b).words := by
    apply List.ext_getElem
    · rw [List.length_map, hf.words.1]; simp [loadF]
    · intro i h1 h2
      rw [List.length_map] at h1
      have h17 : i < 17 := by rw [← hf.words.1]; exact h1
      rw [List.getElem_map]
      refine rawAt_val (w := w) (x := ⟨.other 4, (1 + 25 * b + i) * h⟩) (hf.words.2 i _ _ _ (List.getElem?_eq_getElem h1) ?_
        (List.getElem?_eq_getElem (show i < (loadF h a0 b).words.length by simpa [loadF] using h17))) fun c hc => ?_
      · simp [rawF, h17]
      · rw [hv c _ hc ⟨4, by norm_num, rfl⟩]
        simp [loadF, kecVal, bs]
  unfold valF
  rw [e1, e2, e3, e4, e5]
  rfl

/-! ## The base circuit -/

theorem shardProg_eq {f : List (ZMod p) → List (ZMod p)} {d : Row (ZMod p)} (hd : dummyOutput f = some d) (cap : ℕ) (raw : Bool) (fs : List (LoadedF (AV p))) :
    shardProg sp f cap raw fs = (do
      let h ← Hasher.init sp 3 2
      let rows ← baseOutputs d h fs
      publishOutputs h cap raw rows) := by
  unfold shardProg baseOutputs
  rw [hd]
  simp only [bind_assoc]
  rfl

theorem publishOutputs_cmp (h : IsSpec (R := 2) rF rP cs mds inv sp) {hs : Hasher p} (hc : HasherCon sp 2 ext s hs) {cap : ℕ} {raw : Bool} {rs : List (Row (AV p))}
    {T : List (Row (ZMod p))} (hr : List.Forall₂ (fun (r : Row (AV p)) (v : Row (ZMod p)) => Con ext s r.key v.key ∧ Con ext s r.lo v.lo ∧ Con ext s r.hi v.hi) rs T)
    (hcap : T.length = cap) :
    Cmp tbl ext s (publishOutputs hs cap raw rs) (fun cols s' => List.Forall₂ (AvsCon ext s') cols (instCols raw (textPerm rF rP mds cs) T)) := by
  unfold publishOutputs
  refine Cmp.assert (decide_eq_true (by rw [hr.length_eq, hcap])) ?_
  cases raw with
  | true =>
    refine Cmp.pure ?_
    have hm : ∀ {g : Row (AV p) → AV p} {g' : Row (ZMod p) → ZMod p}, (∀ r v, (Con ext s r.key v.key ∧ Con ext s r.lo v.lo ∧ Con ext s r.hi v.hi) → Con ext s (g r) (g' v)) →
        List.Forall₂ (Con ext s) (rs.map g) (T.map g') := by
      intro g g' hg
      rw [List.forall₂_map_left_iff, List.forall₂_map_right_iff]
      exact hr.imp hg
    exact .cons (hm fun _ _ h => h.1) (.cons (hm fun _ _ h => h.2.1) (.cons (hm fun _ _ h => h.2.2) .nil))
  | false =>
    have hf : AvsCon ext s (flatRows rs) (flatRows T) := by
      clear hcap
      induction hr with
      | nil => exact .nil
      | cons h _ ih => exact .cons h.1 (.cons h.2.1 (.cons h.2.2 ih))
    refine Cmp.bind (Hasher.hashFixLen_cmp h.wf (by norm_num) hc hf) fun c s1 e1 h1 => Cmp.pure ?_
    rw [h.hash (by norm_num)] at h1
    exact .cons (.cons h1 .nil) .nil

theorem shardProg_cmp (h : IsSpec (R := 2) rF rP cs mds inv sp) {d : Row (ZMod p)} (hd : dummyOutput (textPerm rF rP mds cs) = some d)
    {fs : List (LoadedF (AV p))} {vs : List (LoadedF (ZMod p))} (hf : List.Forall₂ (FCon ext s) fs vs) (h17 : ∀ v ∈ vs, v.words.length = 17)
    (hb : ∀ v ∈ vs, v.isFinal = 0 ∨ v.isFinal = 1) (raw : Bool) :
    Cmp tbl ext s (shardProg sp (textPerm rF rP mds cs) vs.length raw fs) (fun cols s' => List.Forall₂ (AvsCon ext s') cols
      (instCols raw (textPerm rF rP mds cs) (vTable (textPerm rF rP mds cs) (capacity p / 64) d 1 [] vs))) := by
  have hc : 128 ≤ capacity p := by
    by_contra hc
    unfold dummyOutput at hd
    rw [if_neg hc] at hd; simp at hd
  have hW : 1 ≤ wpw p := by unfold wpw; omega
  rw [shardProg_eq hd]
  refine Cmp.bind (Hasher.init_cmp h.wf (by norm_num)) fun hs s1 e1 h1 => ?_
  refine Cmp.bind (baseOutputs_cmp hW h.wf h1 d (hf.imp fun _ _ h => h.mono e1) h17 hb) fun rs s2 e2 h2 => ?_
  rw [vTable_congr (fun xs => h.hash (by norm_num) xs)] at h2
  exact publishOutputs_cmp h (h1.mono e2) h2 (by rw [vTable_length])

/-- The table of the honest Keccak circuit is the native one. -/
theorem honest_vTable {k hh : ℕ} (hwit : Wit k hh) (hrot : witRot k = true) {ms : List (List Byte)} {c : ℕ} {krows : List KRow}
    (hkrun : multiKeccak k hh ms (some c) = some krows) {d : Row (ZMod p)} (hd : dummyOutput (textPerm rF rP mds cs) = some d) :
    multiOutputs (textPerm rF rP mds cs) ms c = some (vTable (textPerm rF rP mds cs) (capacity p / 64) d 1 []
      ((List.range c).map fun b => loadF hh (advOf krows : Adv (ZMod p)) b)) := by
  have hc : 128 ≤ capacity p := by
    by_contra hc
    unfold dummyOutput at hd
    rw [if_neg hc] at hd; simp at hd
  have hle : (ms.map fun m => m.length / 136 + 1).sum ≤ c := by
    by_contra hn
    rw [C62_capacity (WitL.of hwit).hh, if_neg hn] at hkrun
    exact absurd hkrun (by simp)
  rw [C54_native hc, if_pos hle, rows_empty, ← vTable_honest _ (show 1 ≤ capacity p / 64 by omega)]
  rw [show (fun b => loadF hh (advOf krows : Adv (ZMod p)) b) = loadF hh (advOf krows : Adv (ZMod p)) from rfl, C62_cells hwit hrot hkrun]
  rw [dummyOutput_eq _ hc] at hd
  rw [← Option.some_inj.mp hd]
  rfl

/-! ## Runs -/

/-- What the copy manager says about the values of the virtual cells of the Keccak circuit. -/
def extVal (a : Adv (ZMod p)) (A : CellMap) (c : Cell) : ZMod p :=
  match A c with
  | some x => kecVal a x
  | none => 0

theorem loaded_flags {k hh n : ℕ} {a : Adv (ZMod p)} (hh1 : 1 ≤ hh) (hs : KecSat k hh n a) :
    (∀ v ∈ (List.range n).map (fun b => loadF hh a b), v.words.length = 17) ∧ ∀ v ∈ (List.range n).map (fun b => loadF hh a b), v.isFinal = 0 ∨ v.isFinal = 1 := by
  refine ⟨fun v hv => ?_, fun v hv => ?_⟩ <;> obtain ⟨b, hb, rfl⟩ := List.mem_map.1 hv
  · exact loadF_words b
  · exact C61_keccak_is_final hh1 hs (List.mem_range.1 hb)

/-- The honest run: loading and the base circuit do not panic, and the instance cells hold the native instances. -/
theorem honest_run (h : IsSpec (R := 2) rF rP cs mds inv sp) {d : Row (ZMod p)} (hd : dummyOutput (textPerm rF rP mds cs) = some d)
    {k hh : ℕ} (hwit : Wit k hh) (hrot : witRot k = true) {ms : List (List Byte)} {c : ℕ} {krows : List KRow}
    (hkrun : multiKeccak k hh ms (some c) = some krows) (raw : Bool) :
    ∃ fs g, transmute hh (assignRows p true krows) .new = some (fs, g) ∧ XOk g ∧
      ∀ tbl, Completes tbl (extVal (advOf krows) g.cm.assigned) (mainCtx false) (shardProg sp (textPerm rF rP mds cs) c raw fs) (fun cols s' =>
        shardInstances (textPerm rF rP mds cs) ms c raw = some (cols.map (List.map (at' (hw (extVal (advOf krows) g.cm.assigned) s'))))) := by
  obtain ⟨hlen, hsat, -⟩ := C62_complete (F := ZMod p) hwit hkrun
  obtain ⟨fs, g, e1, ok, -, -, -, hq⟩ := transmute_rows (p := p) true (WitL.of hwit).hh hlen _ xok_new
  refine ⟨fs, g, e1, ok, fun tbl => ?_⟩
  have hfs := hq g.cm.assigned fun _ _ h => h
  have hf : List.Forall₂ (FCon (extVal (advOf krows) g.cm.assigned) (mainCtx false : Ctx p)) fs ((List.range c).map fun b => loadF hh (advOf krows : Adv (ZMod p)) b) := by
    rw [List.forall₂_map_right_iff]
    refine hfs.imp fun f b hf => hf.con main_type fun c x hc => ?_
    unfold extVal
    rw [hc]
  obtain ⟨h17, hb⟩ := loaded_flags (WitL.of hwit).hh hsat
  have hcmp := shardProg_cmp (tbl := tbl) h hd hf h17 hb raw
  rw [List.length_map, List.length_range] at hcmp
  refine (hcmp.weaken fun cols s' hcols => ?_).run (good_new _ _ _)
  unfold shardInstances
  rw [honest_vTable hwit hrot hkrun hd, Option.map_some, Option.some.injEq]
  generalize instCols (p := p) raw _ _ = T at hcols ⊢
  induction hcols with
  | nil => rfl
  | cons h _ ih =>
    rw [List.map_cons, ← ih]
    congr 1
    clear ih
    induction h with
    | nil => rfl
    | cons h _ ih =>
      obtain ⟨-, c, hc, -, hx⟩ := h
      rw [List.map_cons, ← ih, at', hc]
      simp [hx]

end H2.KC
