import Verif.Threads.E2E

/-! # `synthesize`: soundness and completeness of the physical circuit -/

set_option autoImplicit false
namespace H2.Phys
open H2
variable {p : ℕ}

/-- Specification: `w` satisfies every virtual constraint of the builder. -/
structure VSat (tbl : List (ZMod p) → Prop) (threads : List (Ctx p)) (eqs : List (Cell × Cell))
    (consts : List (ZMod p × Cell)) (lookups : List (List (AV p))) (w : Cell → ZMod p) : Prop where
  gate : ∀ s ∈ threads, ∀ i, s.selector[i]? = some true → GateAt w s i
  eq : ∀ e ∈ eqs, w e.1 = w e.2
  const : ∀ e ∈ consts, w e.2 = e.1
  lookup : ∀ as ∈ lookups, tbl (as.map (H2.at' w))

/-- The tuples copied to lookup columns (none in the `q_lookup` mode or without a table). -/
def copiedLookups (cfg : Cfg) (L : List (List (AV p))) : List (List (AV p)) :=
  if cfg.withRange = true ∧ cfg.qLookup = false then L else []

structure SynthOut (cfg : Cfg) (threads : List (Ctx p)) (eqs : List (Cell × Cell)) (consts : List (ZMod p × Cell))
    (L : List (List (AV p))) (instances : List (List (AV p))) (ext : CellMap) (reg : Region p) (map : CellMap)
    (st : LState p) (fx : List (PCell × ZMod p)) : Prop where
  awc : assignWithConstraints cfg.maxRows cfg.ncols threads Region.empty ext = some st
  mono : ∀ c x, st.map c = some x → map c = some x
  new : ∀ c x, map c = some x → st.map c = some x ∨
    ∃ e ∈ lkTargets cfg.nsets 0 (copiedLookups cfg L), e.1.cell = some c ∧ x = e.2
  sel : reg.sel = st.reg.sel
  fixed : reg.fixed = fx
  writes : reg.writes = st.reg.writes ++ (lkTargets cfg.nsets 0 (copiedLookups cfg L)).map fun e => (e.2, e.1.value)
  fxAt : ∀ k e, fx[k]? = some e → e.1 = ⟨.fixed (k % cfg.nfixed), k / cfg.nfixed⟩ ∧ k / cfg.nfixed < cfg.usable ∧
    0 < cfg.nfixed
  fxNodup : (fx.map Prod.snd).Nodup
  fxOnly : ∀ e ∈ fx, e.2 ∈ consts.map Prod.fst
  copiesMono : ∀ e ∈ st.reg.copies, e ∈ reg.copies
  eq : ∀ e ∈ eqs, ∃ x y, map e.1 = some x ∧ map e.2 = some y ∧ (x, y) ∈ reg.copies
  const : ∀ e ∈ consts, ∃ x y, (x, e.1) ∈ fx ∧ map e.2 = some y ∧ (x, y) ∈ reg.copies
  tied : ∀ e ∈ lkTargets cfg.nsets 0 (copiedLookups cfg L),
    ∃ c x, e.1.cell = some c ∧ map c = some x ∧ (x = e.2 ∨ (x, e.2) ∈ reg.copies)
  row : ∀ e ∈ lkTargets cfg.nsets 0 (copiedLookups cfg L), e.2.row < cfg.usable
  sets : copiedLookups cfg L ≠ [] → 0 < cfg.nsets
  qlk : ∀ r ∈ reg.qlk, ∃ as ∈ L, ∃ a c, as.head? = some a ∧ a.cell = some c ∧ map c = some ⟨.advice 0, r⟩
  qtied : cfg.withRange = true → cfg.qLookup = true → ∀ as ∈ L,
    ∃ a c r, as.head? = some a ∧ a.cell = some c ∧ map c = some ⟨.advice 0, r⟩ ∧ r ∈ reg.qlk
  inst : ∀ (k : ℕ) l, instances[k]? = some l → ∀ i a, l[i]? = some a →
    ∃ c x, a.cell = some c ∧ map c = some x ∧ (x, (⟨.inst k, i⟩ : PCell)) ∈ reg.copies
  only : ∀ z ∈ reg.copies, z ∈ st.reg.copies ∨
    (∃ e ∈ lkTargets cfg.nsets 0 (copiedLookups cfg L), ∃ c, e.1.cell = some c ∧ map c = some z.1 ∧ z.2 = e.2) ∨
    (∃ e ∈ eqs, map e.1 = some z.1 ∧ map e.2 = some z.2) ∨
    (∃ e ∈ consts, (z.1, e.1) ∈ fx ∧ map e.2 = some z.2) ∨
    ∃ k l i a c, instances[k]? = some l ∧ l[i]? = some a ∧ a.cell = some c ∧ map c = some z.1 ∧ z.2 = ⟨.inst k, i⟩

theorem synthesize_out {cfg : Cfg} {threads : List (Ctx p)} {eqs : List (Cell × Cell)} {consts : List (ZMod p × Cell)}
    {lookups : Buckets p} {instances : List (List (AV p))} {ext : CellMap} {reg : Region p} {map : CellMap}
    {bps : List ℕ} (h : synthesize cfg threads eqs consts lookups instances ext = some (reg, map, bps)) :
    ∃ st fx, SynthOut cfg threads eqs consts lookups.all instances ext reg map st fx ∧ bps = st.bps := by
  simp only [synthesize, Option.bind_eq_bind, Option.bind_eq_some_iff, Option.pure_def, Option.some.injEq,
    Prod.mk.injEq] at h
  obtain ⟨st, h1, ⟨m1, r1⟩, h2, r2, h3, ic, h4, rfl, rfl, rfl⟩ := h
  obtain ⟨fx, new, hc⟩ := copyAssignRaw_out h3
  obtain ⟨i1, i2⟩ := instAll_spec _ h4
  have hL := (awcThreads_laid threads h1).1
  -- the lookup stage
  have hlk : LkOut cfg.usable (lkTargets cfg.nsets 0 (copiedLookups cfg lookups.all)) st.map m1
        st.reg { r1 with qlk := st.reg.qlk } ∧
      (copiedLookups cfg lookups.all ≠ [] → 0 < cfg.nsets) ∧
      (∀ r ∈ r1.qlk, ∃ as ∈ lookups.all, ∃ a c, as.head? = some a ∧ a.cell = some c ∧ m1 c = some ⟨.advice 0, r⟩) ∧
      (cfg.withRange = true → cfg.qLookup = true → ∀ as ∈ lookups.all,
        ∃ a c r, as.head? = some a ∧ a.cell = some c ∧ m1 c = some ⟨.advice 0, r⟩ ∧ r ∈ r1.qlk) := by
    have hq0 : st.reg.qlk = [] := hL.qlk
    unfold lookupStage at h2
    split at h2
    · next hwr =>
      unfold assignLookups at h2
      split at h2
      · next he =>
        simp only [Option.some.injEq, Prod.mk.injEq] at h2
        obtain ⟨rfl, rfl⟩ := h2
        have : copiedLookups cfg lookups.all = [] := by unfold copiedLookups; split <;> simp [he]
        rw [this]
        refine ⟨?_, by simp, by simp [hq0], by simp [he]⟩
        exact LkOut.nil
      · split at h2
        · next hq =>
          have hcl : copiedLookups cfg lookups.all = [] := by simp [copiedLookups, hq]
          rw [hcl]
          split at h2
          · simp only [Option.map_eq_some_iff, Prod.mk.injEq] at h2
            obtain ⟨r, hr, rfl, rfl⟩ := h2
            obtain ⟨j1, j2, j3, j4, j5, j6, j7⟩ := qLookupLoop_spec _ hr
            refine ⟨?_, by simp, ?_, fun _ _ => j7⟩
            · have e : ({ r with qlk := st.reg.qlk } : Region p) = st.reg := by
                cases hrr : r; cases hss : st.reg
                rw [hrr, hss] at j1 j2 j3 j4
                simp_all
              rw [e]; exact LkOut.nil
            · intro x hx
              rcases j6 x hx with h5 | h5
              · rw [hq0] at h5; simp at h5
              · exact h5
          · exact absurd h2 (by simp)
        · next hq =>
          have hcl : copiedLookups cfg lookups.all = lookups.all := by simp [copiedLookups, hq, hwr]
          rw [hcl]
          obtain ⟨o, hn⟩ := lkLoop_out (k := 0) _ (by simp) (by simp) h2
          have e : ({ r1 with qlk := st.reg.qlk } : Region p) = r1 := by
            rw [← o.qlk]
          rw [e]
          refine ⟨o, hn, ?_, fun _ h => absurd h hq⟩
          rw [o.qlk, hq0]; simp
    · next hwr =>
      simp only [Option.some.injEq, Prod.mk.injEq] at h2
      obtain ⟨rfl, rfl⟩ := h2
      have : copiedLookups cfg lookups.all = [] := by simp [copiedLookups, hwr]
      rw [this]
      exact ⟨LkOut.nil, by simp, by simp [hq0], fun h => absurd h hwr⟩
  obtain ⟨o, hn, hq1, hq2⟩ := hlk
  have hs : st.reg.sel = r1.sel := by have := o.sel; simpa using this.symm
  have hf0 : r1.fixed = [] := by have := o.fixed; simpa [hL.fixed, Region.empty] using this
  have cm : ∀ e ∈ st.reg.copies, e ∈ r2.copies ++ ic := by
    intro e he
    have := o.copiesMono e he
    rw [hc.copies]
    exact List.mem_append_left _ (List.mem_append_left _ this)
  refine ⟨st, fx, ?_, rfl⟩
  constructor
  · exact h1
  · exact o.mono
  · exact o.new
  · show r2.sel = _; rw [hc.sel, hs]
  · show r2.fixed = _; rw [hc.fixed, hf0, List.nil_append]
  · show r2.writes = _; rw [hc.writes]; exact o.writes
  · exact hc.fxAt
  · exact hc.fxNodup
  · exact hc.fxOnly
  · exact cm
  · intro e he
    obtain ⟨x, y, a, b, c⟩ := hc.eq e he
    exact ⟨x, y, a, b, by show _ ∈ r2.copies ++ ic; rw [hc.copies]; simp [c]⟩
  · intro e he
    obtain ⟨x, y, a, b, c⟩ := hc.const e he
    exact ⟨x, y, a, b, by show _ ∈ r2.copies ++ ic; rw [hc.copies]; simp [c]⟩
  · intro e he
    obtain ⟨c, x, a, b, d⟩ := o.tied e he
    refine ⟨c, x, a, b, ?_⟩
    rcases d with d | d
    · exact .inl d
    · refine .inr ?_
      show _ ∈ r2.copies ++ ic
      rw [hc.copies]
      exact List.mem_append_left _ (List.mem_append_left _ d)
  · exact o.row
  · exact hn
  · intro r hr
    have : r ∈ r1.qlk := by rw [← hc.qlk]; exact hr
    exact hq1 r this
  · intro a b as has
    obtain ⟨x, c, r, e1, e2, e3, e4⟩ := hq2 a b as has
    refine ⟨x, c, r, e1, e2, e3, ?_⟩
    show r ∈ r2.qlk
    rw [hc.qlk]; exact e4
  · intro k l hl i a ha
    obtain ⟨c, x, e1, e2, e3⟩ := i1 k l hl i a ha
    rw [Nat.zero_add] at e3
    exact ⟨c, x, e1, e2, List.mem_append_right _ e3⟩
  · intro z hz
    rcases List.mem_append.1 hz with hz | hz
    · rw [hc.copies] at hz
      rcases List.mem_append.1 hz with hz | hz
      · rcases o.copiesOnly z hz with h5 | h5
        · exact .inl h5
        · exact .inr (.inl h5)
      · rcases hc.only z hz with h5 | h5
        · exact .inr (.inr (.inl h5))
        · exact .inr (.inr (.inr (.inl h5)))
    · obtain ⟨k, l, i, a, c, e1, e2, e3, e4, e5⟩ := i2 z hz
      rw [Nat.zero_add] at e5
      exact .inr (.inr (.inr (.inr ⟨k, l, i, a, c, e1, e2, e3, e4, e5⟩)))

/-- Soundness of the whole physical circuit. -/
theorem synth_sound {cfg : Cfg} {threads : List (Ctx p)} {eqs : List (Cell × Cell)} {consts : List (ZMod p × Cell)}
    {lookups : Buckets p} {instances : List (List (AV p))} {ext : CellMap} {reg : Region p} {map : CellMap}
    {bps : List ℕ} (h : synthesize cfg threads eqs consts lookups instances ext = some (reg, map, bps))
    (hmx : 4 ≤ cfg.maxRows) (hwf : ∀ s ∈ threads, WFThread s) (hwr : cfg.withRange = true ∨ lookups.all = [])
    {width : ℕ} (hwd : ∀ as ∈ lookups.all, as.length = width) (h0 : 0 < width) (hq1 : cfg.qLookup = true → width = 1)
    {tbl : List (ZMod p) → Prop} {v : PCell → ZMod p} (hv : PSat cfg tbl width reg v) :
    VSat tbl threads eqs consts lookups.all (vw map v) ∧
    ∀ (k : ℕ) l, instances[k]? = some l → ∀ i a, l[i]? = some a → H2.at' (vw map v) a = v ⟨.inst k, i⟩ := by
  obtain ⟨st, fx, o, -⟩ := synthesize_out h
  have rd : ∀ {c x}, map c = some x → vw map v c = v x := by intro c x hc; simp [vw, hc]
  refine ⟨⟨?_, ?_, ?_, ?_⟩, ?_⟩
  · exact layout_gates hmx o.awc hwf v (fun g r hg => hv.gate g r (by rw [o.sel]; exact hg))
      (fun e he => hv.copy e (o.copiesMono e he)) map o.mono
  · intro e he
    obtain ⟨x, y, a, b, c⟩ := o.eq e he
    rw [rd a, rd b]
    exact hv.copy _ c
  · intro e he
    obtain ⟨x, y, a, b, c⟩ := o.const e he
    rw [rd b, ← hv.copy _ c]
    exact hv.fixed _ (by rw [o.fixed]; exact a)
  · intro as has
    rcases hwr with hwr | hwr
    · by_cases hq : cfg.qLookup = true
      · obtain ⟨a, c, r, e1, e2, e3, e4⟩ := o.qtied hwr hq as has
        have hl : as.length = 1 := by rw [hwd as has, hq1 hq]
        obtain ⟨b, rfl⟩ := List.length_eq_one_iff.1 hl
        simp at e1; subst e1
        have := hv.qlookup r e4
        simpa [H2.at', e2, rd e3] using this
      · have hcl : copiedLookups cfg lookups.all = lookups.all := by simp [copiedLookups, hq, hwr]
        obtain ⟨k, hk⟩ := List.mem_iff_getElem?.1 has
        have hn : 0 < cfg.nsets := o.sets (by rw [hcl]; exact List.ne_nil_of_mem has)
        have hl := hwd as has
        have cell : ∀ j a, as[j]? = some a → H2.at' (vw map v) a = v ⟨.lookup (k % cfg.nsets) j, k / cfg.nsets⟩ := by
          intro j a ha
          have hm := lkTargets_mem (n := cfg.nsets) lookups.all (k0 := 0) hk ha
          rw [Nat.zero_add, ← hcl] at hm
          obtain ⟨c, x, e1, e2, e3⟩ := o.tied _ hm
          have e1' : a.cell = some c := e1
          simp only [H2.at', e1', rd e2]
          rcases e3 with e3 | e3
          · rw [e3]
          · exact hv.copy _ e3
        have hrow : k / cfg.nsets < cfg.usable := by
          have hm := lkTargets_mem (n := cfg.nsets) lookups.all (k0 := 0) hk
            (List.getElem?_eq_getElem (show 0 < as.length by omega))
          rw [Nat.zero_add, ← hcl] at hm
          exact o.row _ hm
        have := hv.lookup (k % cfg.nsets) (Nat.mod_lt _ hn) (k / cfg.nsets) hrow
        convert this using 1
        apply List.ext_getElem?
        intro j
        rw [List.getElem?_map, List.getElem?_map]
        rcases Nat.lt_or_ge j width with hj | hj
        · rw [List.getElem?_eq_getElem (show j < as.length by omega), List.getElem?_range hj]
          simp only [Option.map_some, Option.some.injEq]
          exact cell j _ (List.getElem?_eq_getElem _)
        · rw [List.getElem?_eq_none (by omega), List.getElem?_eq_none (by simpa using hj)]
          rfl
    · rw [hwr] at has; simp at has
  · intro k l hl i a ha
    obtain ⟨c, x, e1, e2, e3⟩ := o.inst k l hl i a ha
    simp only [H2.at', e1, rd e2]
    exact hv.copy _ e3

end H2.Phys
namespace H2.Phys
open H2
variable {p : ℕ}

open Classical in
/-- The physical assignment of an honest prover. -/
noncomputable def vphys (cfg : Cfg) (P : List (Place p)) (L : List (List (AV p))) (fx : List (PCell × ZMod p))
    (instances : List (List (AV p))) (vext : PCell → ZMod p) (w : Cell → ZMod p) (x : PCell) : ZMod p :=
  match x.col with
  | .advice g => if h : ∃ a ∈ P, (g, x.row) = a.before ∨ (g, x.row) = a.after then w h.choose.cell else 0
  | .lookup i j =>
    match (L[x.row * cfg.nsets + i]?).bind (·[j]?) with
    | some a => H2.at' w a
    | none => 0
  | .fixed i =>
    match fx[x.row * cfg.nfixed + i]? with
    | some e => e.2
    | none => 0
  | .inst k =>
    match (instances[k]?).bind (·[x.row]?) with
    | some a => H2.at' w a
    | none => 0
  | _ => vext x -- columns of other configurations

/-- A column of the configuration of the builder (as opposed to a column of another chip of the same circuit). -/
def PCol.own : PCol → Bool
  | .advice _ | .lookup _ _ | .fixed _ | .inst _ => true
  | _ => false

/-- Completeness of the whole physical circuit, in a circuit with other chips whose cells hold `vext`. -/
theorem synth_complete_ext [Fact p.Prime] {cfg : Cfg} {threads : List (Ctx p)} {eqs : List (Cell × Cell)} {consts : List (ZMod p × Cell)}
    {lookups : Buckets p} {instances : List (List (AV p))} {ext : CellMap} {reg : Region p} {map : CellMap}
    {bps : List ℕ} (h : synthesize cfg threads eqs consts lookups instances ext = some (reg, map, bps))
    (hmx : 4 ≤ cfg.maxRows) (hwf : ∀ s ∈ threads, WFThread s)
    {width : ℕ} (hwd : ∀ as ∈ lookups.all, as.length = width) (hq1 : cfg.qLookup = true → width = 1)
    {tbl : List (ZMod p) → Prop} (h0 : tbl (List.replicate width 0)) {w : Cell → ZMod p}
    (hw : VSat tbl threads eqs consts lookups.all w) {vext : PCell → ZMod p}
    (hext : ∀ c x, ext c = some x → x.col.own = false ∧ vext x = w c) :
    ∃ v : PCell → ZMod p, PSat cfg tbl width reg v ∧ (∀ c x, map c = some x → v x = w c) ∧
      (∀ (k : ℕ) l, instances[k]? = some l → ∀ i a, l[i]? = some a → v ⟨.inst k, i⟩ = H2.at' w a) ∧
      ((∀ s ∈ threads, ∀ (i : ℕ) a, s.advice[i]? = some a → w (s.cellAt i) = a.eval) →
        (∀ as ∈ lookups.all, ∀ a ∈ as, H2.at' w a = a.value.eval) → ∀ e ∈ reg.writes, v e.1 = e.2.eval) ∧
      (∀ x, x ∉ reg.writes.map Prod.fst → (∀ g, x.col = .advice g → v x = 0) ∧
        ∀ i j, i < cfg.nsets → x.col = .lookup i j → v x = 0) ∧
      ∀ x : PCell, x.col.own = false → v x = vext x := by
  obtain ⟨st, fx, o, -⟩ := synthesize_out h
  obtain ⟨hL, hlen⟩ := awcThreads_laid threads o.awc
  set P := places cfg.maxRows (allItems threads) (0, 0) with hP
  set L := copiedLookups cfg lookups.all with hLd
  refine ⟨vphys cfg P L fx instances vext w, ?_⟩
  set v := vphys cfg P L fx instances vext w with hv
  have rdA : ∀ a ∈ P, ∀ y : ℕ × ℕ, (y = a.before ∨ y = a.after) → v (pc y) = w a.cell := by
    intro a ha y hy
    have hex : ∃ a ∈ P, (y.1, y.2) = a.before ∨ (y.1, y.2) = a.after := ⟨a, ha, hy⟩
    simp only [hv, vphys, pc]
    rw [dif_pos hex]
    have hc := hex.choose_spec
    rw [places_unique hc.1 ha hc.2 hy]
  have rdL : ∀ e ∈ lkTargets cfg.nsets 0 L, v e.2 = H2.at' w e.1 := by
    intro e he
    obtain ⟨k, i, as, h1, h2, h3⟩ := lkTargets_mem' _ he
    rw [h3, Nat.zero_add]
    simp only [hv, vphys]
    rw [Nat.mul_comm, Nat.div_add_mod, h1]
    simp [h2]
  have rdX : ∀ x : PCell, x.col.own = false → v x = vext x := by
    intro x hx
    obtain ⟨col, row⟩ := x
    cases col <;> first | rfl | cases hx
  have rdM : ∀ c x, map c = some x → v x = w c := by
    intro c x hc
    rcases o.new c x hc with h1 | ⟨e, he, h1, rfl⟩
    · rcases hL.new c x h1 with h2 | ⟨a, ha, rfl, rfl⟩
      · rw [rdX x (hext c x h2).1, (hext c x h2).2]
      · exact rdA a ha _ (.inl rfl)
    · rw [rdL e he]; simp [H2.at', h1]
  have rdF : ∀ e ∈ fx, v e.1 = e.2 := by
    intro e he
    obtain ⟨k, hk⟩ := List.mem_iff_getElem?.1 he
    obtain ⟨h1, h2, h3⟩ := o.fxAt k e hk
    rw [h1]
    simp only [hv, vphys]
    rw [Nat.mul_comm, Nat.div_add_mod, hk]
  have rdI : ∀ (k : ℕ) l, instances[k]? = some l → ∀ i a, l[i]? = some a → v ⟨.inst k, i⟩ = H2.at' w a := by
    intro k l hl i a ha
    simp only [hv, vphys, hl, Option.bind_some, ha]
  refine ⟨⟨?_, ?_, ?_, ?_, ?_⟩, rdM, rdI, ?_, ?_, rdX⟩
  · intro g r hg
    rw [o.sel, hL.sel] at hg
    have hg' : (g, r) ∈ P.flatMap Place.sel := by simpa [Region.empty] using hg
    obtain ⟨a, ha, haq, hae⟩ := mem_sel_iff.1 hg'
    obtain ⟨b, hb, c, hc, d, hd, cb, cc, cd, pb, pcc, pd⟩ := gate_block hmx hL hlen hwf ha haq
    obtain ⟨k, hk⟩ := List.mem_iff_getElem?.1 ha
    rw [places_getElem?, Option.map_eq_some_iff] at hk
    obtain ⟨it, hit, hae'⟩ := hk
    have hai : a.toItem = it := by rw [← hae']
    obtain ⟨hs, hadv, hsel, -⟩ := allItems_block threads k it hit
    have hG := hw.gate a.s (by rw [hai]; exact hs) a.i (by rw [hai, hsel, ← hai, haq])
    unfold GateAt at hG
    have e1 : v ⟨.advice g, r⟩ = w (a.s.cellAt a.i) := rdA a ha (g, r) (.inr hae.symm)
    have e2 : v ⟨.advice g, r + 1⟩ = w (a.s.cellAt (a.i + 1)) := by
      rw [← cb]; exact rdA b hb (g, r + 1) (.inl (by rw [pb, hae]))
    have e3 : v ⟨.advice g, r + 2⟩ = w (a.s.cellAt (a.i + 2)) := by
      rw [← cc]; exact rdA c hc (g, r + 2) (.inl (by rw [pcc, hae]))
    have e4 : v ⟨.advice g, r + 3⟩ = w (a.s.cellAt (a.i + 3)) := by
      rw [← cd]; exact rdA d hd (g, r + 3) (.inl (by rw [pd, hae]))
    rw [e1, e2, e3, e4]; exact hG
  · intro z hz
    rcases o.only z hz with h1 | ⟨e, he, c, h1, h2, h3⟩ | ⟨e, he, h1, h2⟩ | ⟨e, he, h1, h2⟩ |
      ⟨k, l, i, a, c, e1, e2, e3, e4, e5⟩
    · rw [hL.copies] at h1
      have h1' : z ∈ P.flatMap Place.copies := by simpa [Region.empty] using h1
      obtain ⟨a, ha, -, rfl⟩ := mem_copies_iff.1 h1'
      rw [rdA a ha _ (.inr rfl), rdA a ha _ (.inl rfl)]
    · rw [rdM _ _ h2, h3, rdL e he]; simp [H2.at', h1]
    · rw [rdM _ _ h1, rdM _ _ h2]; exact hw.eq e he
    · rw [rdM _ _ h2, hw.const e he]; exact rdF _ h1
    · rw [rdM _ _ e4, e5, rdI k l e1 i a e2]; simp [H2.at', e3]
  · intro e he
    rw [o.fixed] at he
    exact rdF e he
  · intro i hi r hr
    cases hk : L[r * cfg.nsets + i]? with
    | none =>
      convert h0 using 1
      rw [List.eq_replicate_iff]
      refine ⟨by simp, ?_⟩
      intro b hb
      obtain ⟨j, -, rfl⟩ := List.mem_map.1 hb
      simp [hv, vphys, hk]
    | some as =>
      have hmem : as ∈ lookups.all := by
        have this : as ∈ copiedLookups cfg lookups.all := List.mem_of_getElem? hk
        unfold copiedLookups at this
        split at this
        · exact this
        · simp at this
      have hl := hwd as hmem
      convert hw.lookup as hmem using 1
      apply List.ext_getElem?
      intro j
      rw [List.getElem?_map, List.getElem?_map]
      rcases Nat.lt_or_ge j width with hj | hj
      · rw [List.getElem?_eq_getElem (show j < as.length by omega), List.getElem?_range hj]
        simp only [Option.map_some, Option.some.injEq]
        simp only [hv, vphys, hk, Option.bind_some]
        rw [List.getElem?_eq_getElem (show j < as.length by omega)]
      · rw [List.getElem?_eq_none (l := as) (by omega), List.getElem?_eq_none (by simpa using hj)]
        rfl
  · intro r hr
    obtain ⟨as, has, a, c, h1, h2, h3⟩ := o.qlk r hr
    have hqq : cfg.qLookup = true := by
      by_contra hq
      have : reg.qlk = [] := by
        simp only [synthesize, Option.bind_eq_bind, Option.bind_eq_some_iff, Option.pure_def, Option.some.injEq,
          Prod.mk.injEq] at h
        obtain ⟨st', g1, ⟨m1, r1⟩, g2, r2, g3, ic, g4, rfl, rfl, rfl⟩ := h
        obtain ⟨fx', new', hc'⟩ := copyAssignRaw_out g3
        have hq0 : st'.reg.qlk = [] := (awcThreads_laid threads g1).1.qlk
        show r2.qlk = []
        rw [hc'.qlk]
        unfold lookupStage at g2
        split at g2
        · unfold assignLookups at g2
          split at g2
          · simp only [Option.some.injEq, Prod.mk.injEq] at g2; rw [← g2.2, hq0]
          · rw [(lkLoop_out (k := 0) _ (by simp) (by simp) g2).1.qlk, hq0]
        · simp only [Option.some.injEq, Prod.mk.injEq] at g2; rw [← g2.2, hq0]
      rw [this] at hr; simp at hr
    have hl : as.length = 1 := by rw [hwd as has, hq1 hqq]
    obtain ⟨b, rfl⟩ := List.length_eq_one_iff.1 hl
    simp at h1; subst h1
    have := hw.lookup _ has
    rw [rdM _ _ h3]
    simpa [H2.at', h2] using this
  · intro hadv hlk e he
    rw [o.writes, hL.writes] at he
    rcases List.mem_append.1 he with he | he
    · have he' : e ∈ P.flatMap Place.writes := by simpa [Region.empty] using he
      obtain ⟨a, ha, hcase⟩ := mem_writes_iff.1 he'
      obtain ⟨k, hk⟩ := List.mem_iff_getElem?.1 ha
      rw [places_getElem?, Option.map_eq_some_iff] at hk
      obtain ⟨it, hit, hae'⟩ := hk
      have hai : a.toItem = it := by rw [← hae']
      obtain ⟨hs, hadv', -, -⟩ := allItems_block threads k it hit
      have hval : w a.cell = a.v.eval := by
        rw [hai]; exact hadv _ hs _ _ hadv'
      rcases hcase with rfl | rfl
      · rw [rdA a ha _ (.inl rfl)]; exact hval
      · rw [rdA a ha _ (.inr rfl)]; exact hval
    · obtain ⟨e', he', rfl⟩ := List.mem_map.1 he
      show v e'.2 = e'.1.value.eval
      rw [rdL e' he']
      obtain ⟨k, i, as, h1, h2, -⟩ := lkTargets_mem' _ he'
      have hmem : as ∈ lookups.all := by
        have this : as ∈ copiedLookups cfg lookups.all := List.mem_of_getElem? h1
        unfold copiedLookups at this
        split at this
        · exact this
        · simp at this
      exact hlk as hmem e'.1 (List.mem_of_getElem? h2)
  · intro x hx
    rw [o.writes, hL.writes] at hx
    refine ⟨fun g hg => ?_, fun i j hi hg => ?_⟩
    · simp only [hv, vphys, hg]
      rw [dif_neg]
      rintro ⟨a, ha, hab⟩
      apply hx
      have hw1 : (pc a.before, a.v) ∈ P.flatMap Place.writes := mem_writes_iff.2 ⟨a, ha, .inl rfl⟩
      have hx1 : x = ⟨.advice g, x.row⟩ := by cases x; simp_all
      rw [List.map_append]
      refine List.mem_append_left _ (List.mem_map.2 ?_)
      rcases hab with hab | hab
      · refine ⟨_, by simpa [Region.empty] using hw1, ?_⟩
        rw [hx1, ← hab]
        rfl
      · by_cases hbr : a.broken
        · refine ⟨(pc a.after, a.v), ?_, ?_⟩
          · have : (pc a.after, a.v) ∈ P.flatMap Place.writes :=
              List.mem_flatMap.2 ⟨a, ha, by simp [Place.writes, hbr]⟩
            simpa [Region.empty] using this
          · rw [hx1, ← hab]; rfl
        · have he : a.after = a.before := not_not.1 hbr
          refine ⟨_, by simpa [Region.empty] using hw1, ?_⟩
          rw [hx1, ← he, ← hab]
          rfl
    · simp only [hv, vphys, hg]
      cases hk : L[x.row * cfg.nsets + i]? with
      | none => simp
      | some as =>
        cases hj : as[j]? with
        | none => simp [hj]
        | some a =>
          exfalso
          apply hx
          have hm := lkTargets_mem (n := cfg.nsets) L (k0 := 0) hk hj
          rw [Nat.zero_add] at hm
          rw [List.map_append]
          refine List.mem_append_right _ (List.mem_map.2 ⟨_, List.mem_map.2 ⟨_, hm, rfl⟩, ?_⟩)
          have e1 : (x.row * cfg.nsets + i) % cfg.nsets = i := by
            rw [Nat.add_comm, Nat.add_mul_mod_self_right, Nat.mod_eq_of_lt hi]
          have e2 : (x.row * cfg.nsets + i) / cfg.nsets = x.row := by
            rw [Nat.add_comm, Nat.add_mul_div_right _ _ (by omega), Nat.div_eq_of_lt hi, Nat.zero_add]
          simp only [e1, e2]
          cases x
          simp_all

/-- Completeness of the whole physical circuit. -/
theorem synth_complete [Fact p.Prime] {cfg : Cfg} {threads : List (Ctx p)} {eqs : List (Cell × Cell)} {consts : List (ZMod p × Cell)}
    {lookups : Buckets p} {instances : List (List (AV p))} {reg : Region p} {map : CellMap}
    {bps : List ℕ} (h : synthesize cfg threads eqs consts lookups instances (fun _ => none) = some (reg, map, bps))
    (hmx : 4 ≤ cfg.maxRows) (hwf : ∀ s ∈ threads, WFThread s)
    {width : ℕ} (hwd : ∀ as ∈ lookups.all, as.length = width) (hq1 : cfg.qLookup = true → width = 1)
    {tbl : List (ZMod p) → Prop} (h0 : tbl (List.replicate width 0)) {w : Cell → ZMod p}
    (hw : VSat tbl threads eqs consts lookups.all w) :
    ∃ v : PCell → ZMod p, PSat cfg tbl width reg v ∧ (∀ c x, map c = some x → v x = w c) ∧
      (∀ (k : ℕ) l, instances[k]? = some l → ∀ i a, l[i]? = some a → v ⟨.inst k, i⟩ = H2.at' w a) ∧
      ((∀ s ∈ threads, ∀ (i : ℕ) a, s.advice[i]? = some a → w (s.cellAt i) = a.eval) →
        (∀ as ∈ lookups.all, ∀ a ∈ as, H2.at' w a = a.value.eval) → ∀ e ∈ reg.writes, v e.1 = e.2.eval) ∧
      ∀ x, x ∉ reg.writes.map Prod.fst → (∀ g, x.col = .advice g → v x = 0) ∧
        ∀ i j, i < cfg.nsets → x.col = .lookup i j → v x = 0 := by
  obtain ⟨v, h1, h2, h3, h4, h5, -⟩ := synth_complete_ext h hmx hwf hwd hq1 h0 hw (vext := fun _ => 0)
    (fun c x hc => by cases hc)
  exact ⟨v, h1, h2, h3, h4, h5⟩

end H2.Phys
