import Verif.Threads.Capacity
import Verif.Props.Layout

/-! # C57: when `synthesize` does not panic, and how good the auto-configuration is -/

set_option autoImplicit false
namespace H2.Phys
open H2
variable {p : ℕ}

/-- Total number of advice cells (`SinglePhaseCoreManager::total_advice`, single_phase.rs:139-141). -/
def totalAdvice (threads : List (Ctx p)) : ℕ := (threads.map fun s => s.advice.length).sum

/-- `num_advice_per_phase[0]` as computed by `calculate_params` (multi_phase.rs:131-140), `max_rows = 2^k - minimum_rows`. -/
def autoAdvice (k minimumRows total : ℕ) : ℕ := (total + (2 ^ k - minimumRows) - 1) / (2 ^ k - minimumRows)

/-- `num_fixed` as computed by `calculate_params` (multi_phase.rs:141). -/
def autoFixed (k total : ℕ) : ℕ := (total + 2 ^ k - 1) / 2 ^ k

/-- `num_lookup_advice_per_phase[0]` (circuit/builder.rs:264-270, lookups.rs:88-91). -/
def autoLookup (k minimumRows total : ℕ) : ℕ := (total + (2 ^ k - minimumRows) - 1) / (2 ^ k - minimumRows)

/-- `cell` belongs to one of the threads. -/
def CellOf (threads : List (Ctx p)) (c : Cell) : Prop := ∃ s ∈ threads, ∃ i < s.advice.length, c = s.cellAt i

/-- C57.  `assign_with_constraints` never panics when there is at least one column per `max_rows - 3` cells, for threads
with distinct tags whose gates overlap at most in their last cell. -/
theorem C57_columns_suffice {maxRows ncols : ℕ} {threads : List (Ctx p)} {reg : Region p} (hmx : 4 ≤ maxRows)
    (hcols : (totalAdvice threads - 1) / (maxRows - 3) < ncols) (hno : ∀ s ∈ threads, NonOverlap s)
    (hlen : ∀ s ∈ threads, s.selector.length = s.advice.length) (htag : (threads.map Ctx.tag).Nodup) :
    ∃ st, assignWithConstraints maxRows ncols threads reg (fun _ => none) = some st :=
  awcThreads_succeeds hmx hcols threads hno hlen htag (fun _ _ _ => rfl) (n := 0) (by simp) (by simp [totalAdvice])

/-- C57.  The copy manager succeeds exactly when every referenced cell is assigned and the distinct constants fit. -/
theorem C57_copy_manager_iff {nfixed usable : ℕ} {eqs : List (Cell × Cell)} {consts : List (ZMod p × Cell)}
    {map : CellMap} {reg : Region p} :
    (∃ out, copyAssignRaw nfixed usable eqs consts map reg = some out) ↔
      (consts.map Prod.fst).toFinset.card ≤ nfixed * usable ∧
      (∀ e ∈ eqs, (map e.1).isSome ∧ (map e.2).isSome) ∧ ∀ e ∈ consts, (map e.2).isSome := by
  rw [← Option.isSome_iff_exists]; exact copyAssignRaw_isSome

/-- C57.  The whole circuit: with enough columns `synthesize` does not panic (multi-column lookup mode). -/
theorem C57_synthesize_succeeds {cfg : Cfg} {threads : List (Ctx p)} {eqs : List (Cell × Cell)}
    {consts : List (ZMod p × Cell)} {lookups : Buckets p} {instances : List (List (AV p))}
    (hmx : 4 ≤ cfg.maxRows) (hcols : (totalAdvice threads - 1) / (cfg.maxRows - 3) < cfg.ncols)
    (hno : ∀ s ∈ threads, NonOverlap s) (hlen : ∀ s ∈ threads, s.selector.length = s.advice.length)
    (htag : (threads.map Ctx.tag).Nodup) (hq : cfg.qLookup = false)
    (hlk : lookups.all.length ≤ cfg.nsets * cfg.usable)
    (hfx : (consts.map Prod.fst).toFinset.card ≤ cfg.nfixed * cfg.usable)
    (heqs : ∀ e ∈ eqs, CellOf threads e.1 ∧ CellOf threads e.2) (hcs : ∀ e ∈ consts, CellOf threads e.2)
    (hlc : ∀ as ∈ lookups.all, ∀ a ∈ as, ∃ c, a.cell = some c ∧ CellOf threads c)
    (hin : ∀ l ∈ instances, ∀ a ∈ l, ∃ c, a.cell = some c ∧ CellOf threads c) :
    ∃ out, synthesize cfg threads eqs consts lookups instances (fun _ => none) = some out := by
  obtain ⟨st, h1⟩ := C57_columns_suffice (reg := Region.empty) hmx hcols hno hlen htag
  have hb := C31_layout_bounds hmx h1
  have hmap : ∀ c, CellOf threads c → (st.map c).isSome := by
    rintro c ⟨s, hs, i, hi, rfl⟩
    obtain ⟨x, hx, -⟩ := hb.2.2.2.1 s hs i _ (List.getElem?_eq_getElem hi)
    rw [hx]; rfl
  have h2 : ∃ r, lookupStage cfg lookups.all st.map st.reg = some (st.map, r) := by
    unfold lookupStage
    split
    · unfold assignLookups
      split
      · exact ⟨_, rfl⟩
      · rw [if_neg (by simp [hq])]
        refine lkLoop_isSome (k := 0) lookups.all (by simp) (by simp) (by omega) ?_
        intro as has a ha
        obtain ⟨c, h1, h2⟩ := hlc as has a ha
        exact ⟨c, h1, hmap c h2⟩
    · exact ⟨_, rfl⟩
  obtain ⟨r, h2⟩ := h2
  obtain ⟨r', h3⟩ := (C57_copy_manager_iff (nfixed := cfg.nfixed) (usable := cfg.usable) (reg := r)
    (map := st.map)).2 ⟨hfx, fun e he => ⟨hmap _ (heqs e he).1, hmap _ (heqs e he).2⟩, fun e he => hmap _ (hcs e he)⟩
  obtain ⟨ic, h4⟩ := instAll_isSome (k := 0) (map := st.map) instances (by
    intro l hl a ha
    obtain ⟨c, h1, h2⟩ := hin l hl a ha
    exact ⟨c, h1, hmap c h2⟩)
  exact ⟨_, by simp only [synthesize, h1, Option.bind_eq_bind, Option.bind_some, h2, h3, h4, Option.pure_def]; rfl⟩

/-- C57.  The same when there is a single gate column and the lookups are enabled on it by a selector (`q_lookup`): no lookup
columns are needed. -/
theorem C57_synthesize_succeeds_q {cfg : Cfg} {threads : List (Ctx p)} {eqs : List (Cell × Cell)}
    {consts : List (ZMod p × Cell)} {lookups : Buckets p} {instances : List (List (AV p))}
    (hmx : 4 ≤ cfg.maxRows) (hcols : (totalAdvice threads - 1) / (cfg.maxRows - 3) < cfg.ncols)
    (hno : ∀ s ∈ threads, NonOverlap s) (hlen : ∀ s ∈ threads, s.selector.length = s.advice.length)
    (htag : (threads.map Ctx.tag).Nodup) (hq : cfg.qLookup = true) (h1col : cfg.ncols = 1)
    (hfx : (consts.map Prod.fst).toFinset.card ≤ cfg.nfixed * cfg.usable)
    (heqs : ∀ e ∈ eqs, CellOf threads e.1 ∧ CellOf threads e.2) (hcs : ∀ e ∈ consts, CellOf threads e.2)
    (hlc : ∀ as ∈ lookups.all, as ≠ [] ∧ ∀ a ∈ as, ∃ c, a.cell = some c ∧ CellOf threads c)
    (hin : ∀ l ∈ instances, ∀ a ∈ l, ∃ c, a.cell = some c ∧ CellOf threads c) :
    ∃ out, synthesize cfg threads eqs consts lookups instances (fun _ => none) = some out := by
  obtain ⟨st, h1⟩ := C57_columns_suffice (reg := Region.empty) hmx hcols hno hlen htag
  have hb := C31_layout_bounds hmx h1
  have hmap0 : ∀ c, CellOf threads c → ∃ r, st.map c = some ⟨.advice 0, r⟩ := by
    rintro c ⟨s, hs, i, hi, rfl⟩
    obtain ⟨x, hx, hw⟩ := hb.2.2.2.1 s hs i _ (List.getElem?_eq_getElem hi)
    obtain ⟨g, r, e, hg, -⟩ := hb.1 _ hw
    dsimp only at e
    obtain rfl : g = 0 := by omega
    exact ⟨r, by rw [hx, e]⟩
  have hmap : ∀ c, CellOf threads c → (st.map c).isSome := fun c hc => by
    obtain ⟨r, h⟩ := hmap0 c hc
    rw [h]; rfl
  have hloop : ∀ (L : List (List (AV p))) (reg : Region p), (∀ as ∈ L, as ≠ [] ∧ ∀ a ∈ as, ∃ c, a.cell = some c ∧ CellOf threads c) →
      ∃ r, qLookupLoop st.map L reg = some r := by
    intro L
    induction L with
    | nil => intro reg _; exact ⟨reg, rfl⟩
    | cons as L ih =>
      intro reg h
      obtain ⟨hne, h2⟩ := h as List.mem_cons_self
      cases as with
      | nil => exact absurd rfl hne
      | cons a as =>
        obtain ⟨c, hc, hcell⟩ := h2 a List.mem_cons_self
        obtain ⟨r, hr⟩ := hmap0 c hcell
        simp only [qLookupLoop, List.head?_cons, Option.bind_eq_bind, Option.bind_some, hc, hr, if_true]
        exact ih _ fun as has => h as (List.mem_cons_of_mem _ has)
  have h2 : ∃ r, lookupStage cfg lookups.all st.map st.reg = some (st.map, r) := by
    unfold lookupStage
    split
    · unfold assignLookups
      split
      · exact ⟨_, rfl⟩
      · obtain ⟨r, hr⟩ := hloop lookups.all st.reg hlc
        exact ⟨r, by rw [hr]; rfl⟩
    · exact ⟨_, rfl⟩
  obtain ⟨r, h2⟩ := h2
  obtain ⟨r', h3⟩ := (C57_copy_manager_iff (nfixed := cfg.nfixed) (usable := cfg.usable) (reg := r)
    (map := st.map)).2 ⟨hfx, fun e he => ⟨hmap _ (heqs e he).1, hmap _ (heqs e he).2⟩, fun e he => hmap _ (hcs e he)⟩
  obtain ⟨ic, h4⟩ := instAll_isSome (k := 0) (map := st.map) instances (by
    intro l hl a ha
    obtain ⟨c, h1, h2⟩ := hin l hl a ha
    exact ⟨c, h1, hmap c h2⟩)
  exact ⟨_, by simp only [synthesize, h1, Option.bind_eq_bind, Option.bind_some, h2, h3, h4, Option.pure_def]; rfl⟩

/-- C57.  The automatic number of lookup columns is sufficient: `n` queued tuples fit in `autoLookup k m n` column sets of
`2^k - m` rows. -/
theorem C57_auto_lookup_suffices {k minimumRows n : ℕ} (h : minimumRows < 2 ^ k) :
    n ≤ autoLookup k minimumRows n * (2 ^ k - minimumRows) := by
  unfold autoLookup
  generalize hd : 2 ^ k - minimumRows = d
  have hpos : 0 < d := by omega
  have := Nat.div_add_mod (n + d - 1) d
  have hlt := Nat.mod_lt (n + d - 1) hpos
  rw [Nat.mul_comm] at this
  omega

/-- Finding: `calculate_params` does not always give enough advice columns (the code calls it a rough estimate). -/
def tightThread : Ctx 7 :=
  { Ctx.new false 0 "t" 0 [] [] with
    advice := List.replicate 7 (.trivial 0), selector := [true, false, false, true, false, false, false] }

theorem C57_auto_advice_insufficient :
    autoAdvice 2 0 (totalAdvice [tightThread]) = 2 ∧
    ((assignWithConstraints 4 2 [tightThread] Region.empty (fun _ => none)).isNone = true) ∧
    ((assignWithConstraints 4 3 [tightThread] Region.empty (fun _ => none)).isSome = true) := by
  refine ⟨by decide, by decide +kernel, by decide +kernel⟩

/-- Finding: the automatic number of fixed columns divides by `2^k`, not by the usable rows: when the number of distinct
constants lies between the two, the copy manager runs out of rows. -/
theorem C57_auto_fixed_insufficient {k usable : ℕ} {eqs : List (Cell × Cell)} {consts : List (ZMod p × Cell)}
    {map : CellMap} {reg : Region p} (h1 : usable < (consts.map Prod.fst).toFinset.card)
    (h2 : (consts.map Prod.fst).toFinset.card ≤ 2 ^ k) :
    autoFixed k (consts.map Prod.fst).toFinset.card = 1 ∧
    copyAssignRaw (autoFixed k (consts.map Prod.fst).toFinset.card) usable eqs consts map reg = none := by
  have e : autoFixed k (consts.map Prod.fst).toFinset.card = 1 := by
    unfold autoFixed
    generalize hn : (consts.map Prod.fst).toFinset.card = n at h1 h2
    rw [Nat.div_eq_iff (by positivity)]
    omega
  refine ⟨e, ?_⟩
  rw [e, ← Option.not_isSome_iff_eq_none, copyAssignRaw_isSome]
  omega

/-- The hypotheses of `C57_columns_suffice` are met by the example circuit. -/
example : (totalAdvice exTs - 1) / (exCfg.maxRows - 3) < 6 ∧ (∀ s ∈ exTs, s.selector.length = s.advice.length) := by
  refine ⟨by decide +kernel, ?_⟩
  intro s hs
  simp only [exTs, List.mem_cons, List.not_mem_nil, or_false] at hs
  rcases hs with rfl | rfl <;> rfl

example : ∃ consts : List (ZMod 7 × Cell), 3 < (consts.map Prod.fst).toFinset.card ∧
    (consts.map Prod.fst).toFinset.card ≤ 2 ^ 2 :=
  ⟨[(0, ⟨"t", 0, 0⟩), (1, ⟨"t", 0, 0⟩), (2, ⟨"t", 0, 0⟩), (3, ⟨"t", 0, 0⟩)], by decide, by decide⟩

end H2.Phys
