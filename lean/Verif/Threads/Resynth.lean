import Verif.Threads.Builder

/-! # Synthesizing the same builder again -/

set_option autoImplicit false
set_option linter.unusedSectionVars false
namespace H2.Phys
open H2
variable {p : ℕ}

/-- `F` knows all places that `m` knows. -/
def MapLe (m F : CellMap) : Prop := ∀ c x, m c = some x → F c = some x

theorem MapLe.refl (m : CellMap) : MapLe m m := fun _ _ h => h
theorem MapLe.trans {a b c : CellMap} (h : MapLe a b) (k : MapLe b c) : MapLe a c := fun x y e => k x y (h x y e)

theorem MapLe.insert_self {F : CellMap} {c : Cell} {x : PCell} (h : F c = some x) : F.insert c x = F := by
  funext c'
  unfold CellMap.insert
  split
  · subst c'; exact h.symm
  · rfl

theorem MapLe.of_insert {m : CellMap} {c : Cell} {x : PCell} (h : clash m c x = false) : MapLe m (m.insert c x) := by
  intro c' y hy
  unfold CellMap.insert
  split
  · subst c'
    unfold clash at h
    rw [hy] at h
    have : y = x := by simpa using h
    rw [this]
  · exact hy

theorem clash_le {F : CellMap} {c : Cell} {x : PCell} (h : F c = some x) : clash F c x = false := by
  unfold clash; rw [h]; simp

theorem insert_get (m : CellMap) (c : Cell) (x : PCell) : m.insert c x c = some x := by simp [CellMap.insert]

theorem awcCell_again {rot mx nc : ℕ} {s : Ctx p} {i : ℕ} {v : Assigned p} {q : Bool} {st st' : LState p} {F : CellMap}
    (h : awcCell rot mx nc s i v q st = some st') : MapLe st.map st'.map ∧
    (MapLe st'.map F → awcCell rot mx nc s i v q { st with map := F } = some { st' with map := F }) := by
  unfold awcCell at h
  dsimp only at h
  split at h
  · cases h
  · rename_i hcl
    have hcl' : clash st.map (s.cellAt i) ⟨.advice st.gate, st.row⟩ = false := by simpa using hcl
    have hle := MapLe.of_insert hcl'
    split at h
    · cases h
    · rename_i hmx
      split at h
      · rename_i hb
        split at h
        · cases h
        · rename_i ho
          split at h
          · rename_i hg
            simp only [Option.some.injEq] at h
            subst h
            refine ⟨hle, fun hF => ?_⟩
            have hFc := hF _ _ (insert_get st.map (s.cellAt i) ⟨.advice st.gate, st.row⟩)
            unfold awcCell
            dsimp only
            rw [clash_le hFc, if_neg (by simp), if_neg hmx, if_pos hb, if_neg ho, if_pos hg, MapLe.insert_self hFc]
          · cases h
      · rename_i hb
        simp only [Option.some.injEq] at h
        subst h
        refine ⟨hle, fun hF => ?_⟩
        have hFc := hF _ _ (insert_get st.map (s.cellAt i) ⟨.advice st.gate, st.row⟩)
        unfold awcCell
        dsimp only
        rw [clash_le hFc, if_neg (by simp), if_neg hmx, if_neg hb, MapLe.insert_self hFc]

theorem awcCells_again {rot mx nc : ℕ} {s : Ctx p} {F : CellMap} (l : List (Assigned p × Bool)) : ∀ {i : ℕ} {st st' : LState p},
    awcCells rot mx nc s i l st = some st' → MapLe st.map st'.map ∧
    (MapLe st'.map F → awcCells rot mx nc s i l { st with map := F } = some { st' with map := F }) := by
  induction l with
  | nil =>
    intro i st st' h
    simp only [awcCells, Option.some.injEq] at h ⊢
    subst h
    exact ⟨.refl _, fun _ => rfl⟩
  | cons a l ih =>
    intro i st st' h
    simp only [awcCells, Option.bind_eq_bind, Option.bind_eq_some_iff] at h ⊢
    obtain ⟨st1, h1, h2⟩ := h
    obtain ⟨a2, b2⟩ := ih h2
    obtain ⟨a1, b1⟩ := awcCell_again (F := F) h1
    exact ⟨a1.trans a2, fun hF => ⟨_, b1 (a2.trans hF), b2 hF⟩⟩

theorem awcThreads_again {rot mx nc : ℕ} {F : CellMap} (ts : List (Ctx p)) : ∀ {st st' : LState p},
    awcThreads rot mx nc ts st = some st' → MapLe st.map st'.map ∧
    (MapLe st'.map F → awcThreads rot mx nc ts { st with map := F } = some { st' with map := F }) := by
  induction ts with
  | nil =>
    intro st st' h
    simp only [awcThreads, Option.some.injEq] at h ⊢
    subst h
    exact ⟨.refl _, fun _ => rfl⟩
  | cons s ts ih =>
    intro st st' h
    unfold awcThreads at h
    split at h
    · rename_i h0
      obtain ⟨a, b⟩ := ih h
      refine ⟨a, fun hF => ?_⟩
      unfold awcThreads
      rw [if_pos h0]; exact b hF
    · rename_i h0
      split at h
      · cases h
      · rename_i h1
        split at h
        · cases h
        · rename_i h2
          simp only [Option.bind_eq_bind, Option.bind_eq_some_iff] at h
          obtain ⟨st1, h3, h4⟩ := h
          obtain ⟨a2, b2⟩ := ih h4
          obtain ⟨a1, b1⟩ := awcCells_again (F := F) _ h3
          refine ⟨a1.trans a2, fun hF => ?_⟩
          unfold awcThreads
          rw [if_neg h0, if_neg h1, if_neg h2]
          simp only [Option.bind_eq_bind, Option.bind_eq_some_iff]
          exact ⟨_, b1 (a2.trans hF), b2 hF⟩

/-- The copies that are not between a cell and itself. -/
def proper (l : List (PCell × PCell)) : List (PCell × PCell) := l.filter fun e => e.1 ≠ e.2

theorem proper_append (a b : List (PCell × PCell)) : proper (a ++ b) = proper a ++ proper b := by simp [proper]

/-- Same calls on the region, apart from copies of a cell with itself. -/
structure SameRegion (r r' : Region p) : Prop where
  writes : r'.writes = r.writes
  fixed : r'.fixed = r.fixed
  copies : proper r'.copies = proper r.copies
  sel : r'.sel = r.sel
  qlk : r'.qlk = r.qlk

theorem SameRegion.refl (r : Region p) : SameRegion r r := ⟨rfl, rfl, rfl, rfl, rfl⟩

theorem constrainExternal_again {a : AV p} {x : PCell} {m m' F : CellMap} {r r' r2 : Region p}
    (h : constrainExternal a x m r = some (m', r')) (hs : SameRegion r r2) : MapLe m m' ∧
    (MapLe m' F → ∃ r2', constrainExternal a x F r2 = some (F, r2') ∧ SameRegion r' r2' ∧
      ((∀ c, a.cell = some c → c.typeId ≠ externalTypeId) → m' = m ∧ (r2 = r → r2' = r'))) := by
  unfold constrainExternal at h ⊢
  cases hc : a.cell with
  | none => rw [hc] at h; cases h
  | some c =>
    rw [hc] at h
    dsimp only at h ⊢
    cases hm : m c with
    | some pc =>
      rw [hm] at h
      simp only [Option.some.injEq, Prod.mk.injEq] at h
      obtain ⟨rfl, rfl⟩ := h
      refine ⟨.refl _, fun hF => ?_⟩
      rw [hF _ _ hm]
      refine ⟨_, rfl, ⟨hs.writes, hs.fixed, ?_, hs.sel, hs.qlk⟩, fun _ => ⟨rfl, fun e => by rw [e]⟩⟩
      simp only [proper_append, hs.copies]
    | none =>
      rw [hm] at h
      dsimp only at h
      split at h
      · rename_i hext
        simp only [Option.some.injEq, Prod.mk.injEq] at h
        obtain ⟨rfl, rfl⟩ := h
        refine ⟨?_, fun hF => ?_⟩
        · intro c' y hy
          unfold CellMap.insert
          split
          · subst c'; rw [hm] at hy; cases hy
          · exact hy
        · rw [hF _ _ (insert_get m c x)]
          refine ⟨_, rfl, ⟨hs.writes, hs.fixed, ?_, hs.sel, hs.qlk⟩, fun hne => absurd hext (hne c rfl)⟩
          rw [proper_append, hs.copies]; simp [proper]
      · cases h

theorem lkCols_again {setIdx off us : ℕ} {F : CellMap} (as : List (AV p)) : ∀ {j : ℕ} {m m' : CellMap} {r r' r2 : Region p},
    lkCols setIdx off us j as m r = some (m', r') → SameRegion r r2 → MapLe m m' ∧
    (MapLe m' F → ∃ r2', lkCols setIdx off us j as F r2 = some (F, r2') ∧ SameRegion r' r2' ∧
      ((∀ a ∈ as, ∀ c, a.cell = some c → c.typeId ≠ externalTypeId) → m' = m ∧ (r2 = r → r2' = r'))) := by
  induction as with
  | nil =>
    intro j m m' r r' r2 h hs
    simp only [lkCols, Option.some.injEq, Prod.mk.injEq] at h
    obtain ⟨rfl, rfl⟩ := h
    exact ⟨.refl _, fun _ => ⟨r2, rfl, hs, fun _ => ⟨rfl, id⟩⟩⟩
  | cons a as ih =>
    intro j m m' r r' r2 h hs
    unfold lkCols at h
    split at h
    · rename_i hlt
      simp only [Option.bind_eq_bind, Option.bind_eq_some_iff] at h
      obtain ⟨⟨m1, r1⟩, h1, h2⟩ := h
      have hs1 : SameRegion { r with writes := r.writes ++ [((⟨.lookup setIdx j, off⟩ : PCell), a.value)] }
          { r2 with writes := r2.writes ++ [((⟨.lookup setIdx j, off⟩ : PCell), a.value)] } :=
        ⟨by simp [hs.writes], hs.fixed, hs.copies, hs.sel, hs.qlk⟩
      obtain ⟨a1, b1⟩ := constrainExternal_again (F := F) h1 hs1
      have a2 := (ih h2 (SameRegion.refl _)).1
      refine ⟨a1.trans a2, fun hF => ?_⟩
      obtain ⟨r3, e3, s3, x3⟩ := b1 (a2.trans hF)
      obtain ⟨r4, e4, s4, x4⟩ := (ih h2 s3).2 hF
      refine ⟨r4, ?_, s4, fun hne => ?_⟩
      · unfold lkCols
        rw [if_pos hlt]
        simp only [Option.bind_eq_bind, Option.bind_eq_some_iff]
        exact ⟨_, e3, e4⟩
      · obtain ⟨y1, y2⟩ := x3 (hne a (List.mem_cons_self ..))
        obtain ⟨z1, z2⟩ := x4 fun b hb => hne b (List.mem_cons_of_mem _ hb)
        exact ⟨z1.trans y1, fun e => z2 (y2 (by rw [e]))⟩
    · cases h

theorem lkLoop_again {ns us : ℕ} {F : CellMap} (L : List (List (AV p))) : ∀ {col off : ℕ} {m m' : CellMap} {r r' r2 : Region p},
    lkLoop ns us L col off m r = some (m', r') → SameRegion r r2 → MapLe m m' ∧
    (MapLe m' F → ∃ r2', lkLoop ns us L col off F r2 = some (F, r2') ∧ SameRegion r' r2' ∧
      ((∀ as ∈ L, ∀ a ∈ as, ∀ c, a.cell = some c → c.typeId ≠ externalTypeId) → m' = m ∧ (r2 = r → r2' = r'))) := by
  induction L with
  | nil =>
    intro col off m m' r r' r2 h hs
    simp only [lkLoop, Option.some.injEq, Prod.mk.injEq] at h
    obtain ⟨rfl, rfl⟩ := h
    exact ⟨.refl _, fun _ => ⟨r2, rfl, hs, fun _ => ⟨rfl, id⟩⟩⟩
  | cons as L ih =>
    intro col off m m' r r' r2 h hs
    unfold lkLoop at h ⊢
    generalize (if col ≥ ns then (0, off + 1) else (col, off)) = q at h ⊢
    obtain ⟨col', off'⟩ := q
    dsimp only at h ⊢
    split at h
    · rename_i hlt
      simp only [if_pos hlt]
      simp only [Option.bind_eq_bind, Option.bind_eq_some_iff] at h ⊢
      obtain ⟨⟨m1, r1⟩, h1, h2⟩ := h
      obtain ⟨a1, b1⟩ := lkCols_again (F := F) as h1 hs
      have a2 := (ih h2 (SameRegion.refl _)).1
      refine ⟨a1.trans a2, fun hF => ?_⟩
      obtain ⟨r3, e3, s3, x3⟩ := b1 (a2.trans hF)
      obtain ⟨r4, e4, s4, x4⟩ := (ih h2 s3).2 hF
      refine ⟨r4, ⟨_, e3, e4⟩, s4, fun hne => ?_⟩
      obtain ⟨y1, y2⟩ := x3 (hne as (List.mem_cons_self ..))
      obtain ⟨z1, z2⟩ := x4 fun b hb => hne b (List.mem_cons_of_mem _ hb)
      exact ⟨z1.trans y1, fun e => z2 (y2 e)⟩
    · cases h

theorem qLookupLoop_again {m : CellMap} (L : List (List (AV p))) : ∀ {r r' r2 : Region p},
    qLookupLoop m L r = some r' → SameRegion r r2 → ∀ {F : CellMap}, MapLe m F →
    ∃ r2', qLookupLoop F L r2 = some r2' ∧ SameRegion r' r2' ∧ (r2 = r → r2' = r') := by
  induction L with
  | nil =>
    intro r r' r2 h hs F hF
    simp only [qLookupLoop, Option.some.injEq] at h
    subst h
    exact ⟨r2, rfl, hs, id⟩
  | cons as L ih =>
    intro r r' r2 h hs F hF
    simp only [qLookupLoop, Option.bind_eq_bind, Option.bind_eq_some_iff] at h ⊢
    obtain ⟨a, ha, c, hc, pc, hpc, h⟩ := h
    split at h
    · rename_i hcol
      obtain ⟨r3, e3, s3, x3⟩ := ih (r2 := { r2 with qlk := r2.qlk ++ [pc.row] }) h
        ⟨hs.writes, hs.fixed, hs.copies, hs.sel, by simp [hs.qlk]⟩ hF
      refine ⟨r3, ⟨a, ha, c, hc, pc, hF _ _ hpc, ?_⟩, s3, fun e => x3 (by rw [e])⟩
      rw [if_pos hcol]; exact e3
    · cases h

theorem lookupStage_again {cfg : Cfg} {L : List (List (AV p))} {m m' F : CellMap} {r r' r2 : Region p}
    (h : lookupStage cfg L m r = some (m', r')) (hs : SameRegion r r2) : MapLe m m' ∧
    (MapLe m' F → ∃ r2', lookupStage cfg L F r2 = some (F, r2') ∧ SameRegion r' r2' ∧
      ((∀ as ∈ L, ∀ a ∈ as, ∀ c, a.cell = some c → c.typeId ≠ externalTypeId) → m' = m ∧ (r2 = r → r2' = r'))) := by
  unfold lookupStage at h ⊢
  split at h
  · rename_i hw
    simp only [if_pos hw]
    unfold assignLookups at h ⊢
    split at h
    · rename_i h0
      simp only [if_pos h0]
      simp only [Option.some.injEq, Prod.mk.injEq] at h
      obtain ⟨rfl, rfl⟩ := h
      exact ⟨.refl _, fun _ => ⟨r2, rfl, hs, fun _ => ⟨rfl, id⟩⟩⟩
    · rename_i h0
      simp only [if_neg h0]
      split at h
      · rename_i hq
        simp only [if_pos hq]
        split at h
        · rename_i hn
          simp only [if_pos hn]
          obtain ⟨r3, h3, h4⟩ := Option.map_eq_some_iff.1 h
          simp only [Prod.mk.injEq] at h4
          obtain ⟨rfl, rfl⟩ := h4
          refine ⟨.refl _, fun hF => ?_⟩
          obtain ⟨r5, e5, s5, x5⟩ := qLookupLoop_again _ h3 hs hF
          exact ⟨r5, by rw [e5]; rfl, s5, fun _ => ⟨rfl, x5⟩⟩
        · cases h
      · rename_i hq
        simp only [if_neg hq]
        exact lkLoop_again _ h hs
  · rename_i hw
    simp only [if_neg hw]
    simp only [Option.some.injEq, Prod.mk.injEq] at h
    obtain ⟨rfl, rfl⟩ := h
    exact ⟨.refl _, fun _ => ⟨r2, rfl, hs, fun _ => ⟨rfl, id⟩⟩⟩

theorem sortEqs_idem (l : List (Cell × Cell)) : sortEqs (sortEqs l) = sortEqs l := sortEqs_perm (List.perm_insertionSort _ l)

theorem sortConsts_idem [NeZero p] (l : List (ZMod p × Cell)) : sortConsts (sortConsts l) = sortConsts l :=
  sortConsts_perm (List.perm_insertionSort _ l)

/-- A second `synthesize` with the state left by the first. -/
theorem synthesize_again [NeZero p] {cfg : Cfg} {threads : List (Ctx p)} {eqs : List (Cell × Cell)} {consts : List (ZMod p × Cell)}
    {lookups : Buckets p} {instances : List (List (AV p))} {ext : CellMap} {reg : Region p} {map : CellMap} {bps : List ℕ}
    (h : synthesize cfg threads eqs consts lookups instances ext = some (reg, map, bps)) :
    ∃ reg', synthesize cfg threads (sortEqs eqs) (sortConsts consts) lookups instances map = some (reg', map, bps) ∧ SameRegion reg reg' ∧
      ((∀ as ∈ lookups.all, ∀ a ∈ as, ∀ c, a.cell = some c → c.typeId ≠ externalTypeId) → reg' = reg) := by
  simp only [synthesize, Option.bind_eq_bind, Option.bind_eq_some_iff, Option.pure_def, Option.some.injEq, Prod.mk.injEq] at h
  obtain ⟨st, h1, ⟨map1, reg1⟩, h2, reg2, h3, ic, h4, h5, h6, h7⟩ := h
  dsimp only at h2 h3 h4 h5 h6
  subst h6 h5 h7
  obtain ⟨a1, b1⟩ := awcThreads_again (F := map1) threads h1
  obtain ⟨a2, b2⟩ := lookupStage_again (F := map1) h2 (SameRegion.refl _)
  obtain ⟨r2, e2, s2, x2⟩ := b2 (.refl _)
  have e1 : assignWithConstraints cfg.maxRows cfg.ncols threads Region.empty map1 = some { st with map := map1 } := b1 a2
  simp only [copyAssignRaw, Option.bind_eq_bind, Option.bind_eq_some_iff, Option.pure_def, Option.some.injEq] at h3
  obtain ⟨cst, c1, q1, c2, q2, c3, rfl⟩ := h3
  refine ⟨{ r2 with fixed := r2.fixed ++ cst.fixed, copies := r2.copies ++ q1 ++ q2 ++ ic }, ?_,
    ⟨s2.writes, by simp [s2.fixed], ?_, s2.sel, s2.qlk⟩, fun hne => ?_⟩
  · simp only [synthesize, Option.bind_eq_bind, Option.bind_eq_some_iff, Option.pure_def, Option.some.injEq, Prod.mk.injEq]
    refine ⟨_, e1, _, e2, { r2 with fixed := r2.fixed ++ cst.fixed, copies := r2.copies ++ q1 ++ q2 }, ?_, ic, h4, rfl, rfl, rfl⟩
    simp only [copyAssignRaw, sortEqs_idem, sortConsts_idem, Option.bind_eq_bind, Option.bind_eq_some_iff, Option.pure_def, Option.some.injEq]
    exact ⟨cst, c1, q1, c2, q2, c3, rfl⟩
  · simp only [proper_append, s2.copies]
  · rw [(x2 hne).2 rfl]

end H2.Phys
