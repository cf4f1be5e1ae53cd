import Verif.Props.EndToEnd
import Verif.Props.Capacity
import Verif.Props.BuilderOps
import Verif.Threads.EqOwn

/-!
# C57: key generation of a circuit that runs on the main thread succeeds

A circuit whose honest run completes (from any value of the cells outside the context) and whose copy constraints involve its own cells
has a key on every configuration with enough columns.
-/

set_option autoImplicit false
set_option linter.unusedSectionVars false
namespace H2.EqO
open H2 H2.Phys
variable {p : ℕ} [Fact p.Prime]

theorem merge_single {α : Type} : ∀ l : List α, Merge [l] l
  | [] => .done (by simp)
  | a :: l => .step 0 a l rfl (by simpa using merge_single l)

/-- The run of a circuit on a new main thread refers only to its own cells. -/
structure MainRun (m : M p (List (List (AV p)))) (phase : ℕ) (ty : String) (outs : List (List (AV p))) (s : Ctx p) : Prop where
  run : m (Ctx.new false phase ty 0 [] []) = some (outs, s)
  layable : Layable s
  eqs : ∀ e ∈ s.eqs, CellOf [s] e.1 ∧ CellOf [s] e.2
  consts : ∀ e ∈ s.consts, CellOf [s] e.2
  lookups : ∀ a ∈ s.lookups, ∃ c, a.cell = some c ∧ CellOf [s] c
  outs : ∀ l ∈ outs, ∀ a ∈ l, ∃ c, a.cell = some c ∧ CellOf [s] c

/-- An honest run (whatever the value of the cells outside the context) refers only to its own cells. -/
theorem mainRun {tbl : ZMod p → Prop} {m : M p (List (List (AV p)))} (heo : EqOwn m) (hlay : KeepsLayable m) {phase : ℕ} {ty : String}
    {y : ZMod p} (hy : ¬ tbl y) {cols : List (List (ZMod p))}
    (hcmp : ∀ x : ZMod p, Completes tbl (fun _ => x) (Ctx.new false phase ty 0 [] []) m fun o s' => List.Forall₂ (AvsCon (fun _ => x) s') o cols) :
    ∃ outs s, MainRun m phase ty outs s ∧ outs.map List.length = cols.map List.length := by
  obtain ⟨outs, s, hrun, -, -, hex, ho⟩ := hcmp 0
  have hcmp' : ∀ x, Good tbl (fun _ => x) s ∧ List.Forall₂ (AvsCon (fun _ => x) s) outs cols := by
    intro x
    obtain ⟨outs', s', hrun', hg', -, -, ho'⟩ := hcmp x
    rw [hrun, Option.some.injEq, Prod.mk.injEq] at hrun'
    rw [← hrun'.1, ← hrun'.2] at ho'
    rw [← hrun'.2] at hg'
    exact ⟨hg', ho'⟩
  have hext : ∀ (x : ZMod p) (c : Cell), ¬ False → (fun (x : ZMod p) (_ : Cell) => x) x c = x := fun _ _ _ => rfl
  have hown : ∀ e ∈ s.eqs, Own s e.1 ∨ Own s e.2 := by
    unfold EqOwn at heo
    obtain ⟨t, c, h2⟩ := heo _ _ _ hrun
    intro e he
    rcases h2 e he with h3 | h3 | h3
    · exact absurd h3 (by simp [Ctx.new])
    · exact .inl ⟨h3.1.trans t.symm, h3.2.trans c.symm⟩
    · exact .inr ⟨h3.1.trans t.symm, h3.2.trans c.symm⟩
  have hcell : ∀ c, Valid s c → (Own s c ∨ False) → CellOf [s] c := by
    rintro c hv (ho | hs)
    · exact ⟨s, by simp, c.offset, hv ho, by cases c; simp [Ctx.cellAt, ← ho.1, ← ho.2]⟩
    · exact hs.elim
  obtain ⟨r1, r2⟩ := refs_of_good (dom := fun _ => False) hext (fun x => (hcmp' x).1) hown
  have hg := (hcmp' 0).1
  refine ⟨outs, s, ⟨hrun, (hlay _ _ _ rfl (layable_new _ _ _ _ _ _) hrun).1, fun e he => ⟨hcell _ (hg.veq e he).1 (r1 e he).1, hcell _ (hg.veq e he).2 (r1 e he).2⟩,
    fun e he => hcell _ (hg.vconst e he) (r2 e he), fun a ha => ?_, fun l hl a ha => ?_⟩, ?_⟩
  · obtain ⟨c, hc, hv, -⟩ := hg.vlookup a ha
    refine ⟨c, hc, hcell c hv (.inl ?_)⟩
    by_contra hn
    have h1 := (hcmp' y).1.sat.lookup a ha
    rw [at', hc] at h1
    dsimp only at h1
    rw [hw, if_neg hn] at h1
    exact hy h1
  · obtain ⟨i, hi, rfl⟩ := List.mem_iff_getElem.1 hl
    obtain ⟨j, hj, rfl⟩ := List.mem_iff_getElem.1 ha
    have h3 := fun x => List.forall₂_iff_get.1 ((hcmp' x).2)
    have hi' := (h3 0).1 ▸ hi
    have h4 := fun x => List.forall₂_iff_get.1 ((h3 x).2 i hi hi')
    have hj' := (h4 0).1 ▸ hj
    obtain ⟨c, hc, hv, ho⟩ := con_refs (dom := fun _ => False) hext (fun x => (h4 x).2 j hj hj') rfl
    exact ⟨c, hc, hcell c hv ho⟩
  · clear hcmp hcmp' hrun
    induction ho with
    | nil => rfl
    | cons h _ ih => rw [List.map_cons, List.map_cons, ih, h.length_eq]

variable {I : Type}

/-- C57 (a circuit on the main thread).  Key generation succeeds on every configuration with the columns for its cells, constants and lookups. -/
theorem C57_main_circuit_keygen {f : I → M p (List (List (AV p)))} {phase : ℕ} {ty : String} {i0 : I} {outs : List (List (AV p))} {s : Ctx p}
    (h : MainRun (f i0) phase ty outs s) {cfg : Cfg} (hmx : 4 ≤ cfg.maxRows) (hcols : (s.advice.length - 1) / (cfg.maxRows - 3) < cfg.ncols)
    (hfx : (s.consts.map Prod.fst).toFinset.card ≤ cfg.nfixed * cfg.usable) (hlk : s.lookups.length ≤ cfg.nsets * cfg.usable) (hq : cfg.qLookup = false)
    (hwr : cfg.withRange = true) :
    ∃ reg map bps, Keygen (fun i => onMain (f i)) phase ty cfg i0 (outs.map List.length) reg map bps := by
  obtain ⟨out, ho⟩ := C57_synthesize_succeeds (cfg := cfg) (threads := [s]) (eqs := s.eqs) (consts := s.consts) (lookups := addLookups [] (lookupLog s))
    (instances := outs) hmx (by simpa [totalAdvice] using hcols) (by simpa using h.layable.wf.2.1) (by simpa using h.layable.wf.2.2) (by simp) hq
    (by rw [Bld.addLookups_length]; simpa [Buckets.all, lookupLog] using hlk) hfx h.eqs h.consts (by
      intro as has a ha
      obtain ⟨e, he, rfl⟩ := addLookups_all_mem.1 has
      obtain ⟨b, hb, rfl⟩ := List.mem_map.1 he
      rw [List.mem_singleton.1 ha]
      exact h.lookups b hb) h.outs
  obtain ⟨reg, map, bps⟩ := out
  exact ⟨reg, map, bps, ⟨outs, ⟨false, phase, ty, [s]⟩, s.eqs, s.consts, lookupLog s, by simp [onMain, h.run], merge_single _, merge_single _, merge_single _, ho, rfl, .inl hwr⟩⟩

/-- The instance columns of the prover's assignment are the public inputs it was given. -/
theorem public_proof (ws : List (PCell × Assigned p)) (fixed : List (PCell × ZMod p)) (pub : List (List (ZMod p))) :
    publicInputs (pub.map List.length) (proofAssignment ws fixed pub) = pub := by
  unfold publicInputs
  apply List.ext_getElem
  · simp
  · intro k h1 h2
    simp only [List.getElem_mapIdx, List.getElem_map]
    apply List.ext_getElem
    · simp
    · intro i h3 h4
      simp only [List.getElem_map, List.getElem_range, proofAssignment]
      rw [List.getElem?_eq_getElem h2, Option.bind_some, List.getElem?_eq_getElem h4, Option.getD_some]

end H2.EqO
