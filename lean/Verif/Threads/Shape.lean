import Verif.Threads.Sched

/-! # Columns, distinctness of cells, and independence of the layout from the witness values -/

set_option autoImplicit false
namespace H2.Phys
open H2
variable {p : ℕ}

theorem places_cols {mx ncols : ℕ} (l : List (Item p)) : ∀ {x : ℕ × ℕ}, x.1 < ncols →
    (∀ pl ∈ places mx l x, pl.broken → pl.after.1 < ncols) →
    ∀ pl ∈ places mx l x, pl.before.1 < ncols ∧ pl.after.1 < ncols := by
  induction l with
  | nil => intro x _ _ pl h; simp [places] at h
  | cons it t ih =>
    intro x hx hb pl hpl
    rw [places] at hb hpl
    have h0 := hb _ List.mem_cons_self
    have ha : (stepPos mx it.q x).1 < ncols := by
      by_cases hbr : (⟨it, x, stepPos mx it.q x⟩ : Place p).broken
      · exact h0 hbr
      · unfold Place.broken at hbr
        have : stepPos mx it.q x = x := not_not.1 hbr
        rw [this]; exact hx
    rcases List.mem_cons.1 hpl with rfl | hpl
    · exact ⟨hx, ha⟩
    · exact ih (x := nextPos (stepPos mx it.q x)) ha (fun y hy => hb y (List.mem_cons_of_mem _ hy)) pl hpl

theorem awcThreads_cols {mx ncols : ℕ} (ts : List (Ctx p)) : ∀ {st st' : LState p},
    awcThreads 4 mx ncols ts st = some st' → allItems ts ≠ [] → st.gate < ncols := by
  induction ts with
  | nil => intro st st' _ h; simp [allItems] at h
  | cons s t ih =>
    intro st st' h hne
    rw [awcThreads] at h
    split at h
    · next he =>
      refine ih h ?_
      have e : threadItems s = [] := by simp [threadItems, he, itemsFrom]
      simpa [allItems, e] using hne
    · split at h
      · exact absurd h (by simp)
      · next hlt => exact not_not.1 hlt

theorem writes_nodup {mx : ℕ} (l : List (Item p)) (x : ℕ × ℕ) :
    (((places mx l x).flatMap Place.writes).map Prod.fst).Nodup := by
  rw [List.map_flatMap, List.nodup_flatMap]
  refine ⟨?_, ?_⟩
  · intro a ha
    unfold Place.writes
    by_cases h : a.broken
    · simp only [h, if_true, List.map_cons, List.map_nil, List.nodup_cons, List.mem_singleton, List.not_mem_nil,
        not_false_eq_true, List.nodup_nil, and_true]
      intro e
      exact h ((pc_inj.1 e).symm)
    · simp [h]
  · refine (places_pairwise l x).imp_of_mem ?_
    intro a b ha hb hlt
    show List.Disjoint _ _
    intro y hya hyb
    obtain ⟨e1, h1, rfl⟩ := List.mem_map.1 hya
    obtain ⟨e2, h2, he⟩ := List.mem_map.1 hyb
    have c1 : e1.1 = pc a.before ∨ e1.1 = pc a.after := by
      unfold Place.writes at h1
      rcases List.mem_cons.1 h1 with rfl | h1
      · exact .inl rfl
      · split at h1
        · simp at h1; subst h1; exact .inr rfl
        · simp at h1
    have c2 : e2.1 = pc b.before ∨ e2.1 = pc b.after := by
      unfold Place.writes at h2
      rcases List.mem_cons.1 h2 with rfl | h2
      · exact .inl rfl
      · split at h2
        · simp at h2; subst h2; exact .inr rfl
        · simp at h2
    have la := (places_ge l ha).2
    have lb := (places_ge l hb).2
    rw [he] at c2
    rcases c1 with c1 | c1 <;> rcases c2 with c2 | c2 <;> rw [c1] at c2 <;> have := pc_inj.1 c2
    · rw [← this] at hlt; exact absurd (lt_of_lt_of_le hlt la) (lt_irrefl _)
    · rw [← this] at lb; exact absurd (lt_of_lt_of_le hlt (lb.trans la)) (lt_irrefl _)
    · rw [← this] at hlt; exact absurd hlt (lt_irrefl _)
    · rw [← this] at lb; exact absurd (lt_of_lt_of_le hlt lb) (lt_irrefl _)

/-- Two runs that differ only in the values written. -/
structure SameShape (a b : LState p) : Prop where
  gate : a.gate = b.gate
  row : a.row = b.row
  bps : a.bps = b.bps
  map : a.map = b.map
  cells : a.reg.writes.map Prod.fst = b.reg.writes.map Prod.fst
  fixed : a.reg.fixed = b.reg.fixed
  copies : a.reg.copies = b.reg.copies
  sel : a.reg.sel = b.reg.sel
  qlk : a.reg.qlk = b.reg.qlk

theorem awcCell_shape {rot mx ncols : ℕ} {s s' : Ctx p} (hs : ∀ i, s.cellAt i = s'.cellAt i)
    (hsel : s.selector = s'.selector) {i : ℕ} {v v' : Assigned p} {q : Bool} {st st' : LState p} (h : SameShape st st')
    {o : LState p} (ho : awcCell rot mx ncols s i v q st = some o) :
    ∃ o', awcCell rot mx ncols s' i v' q st' = some o' ∧ SameShape o o' := by
  unfold awcCell at ho ⊢
  rw [← hs i, ← hsel, ← h.map, ← h.gate, ← h.row, ← h.bps]
  simp only at ho ⊢
  split at ho
  · exact absurd ho (by simp)
  next h1 =>
  rw [if_neg h1]
  split at ho
  · exact absurd ho (by simp)
  next h2 =>
  rw [if_neg h2]
  split at ho
  · next h3 =>
    rw [if_pos h3]
    split at ho
    · exact absurd ho (by simp)
    next h4 =>
    rw [if_neg h4]
    split at ho
    · next h5 =>
      rw [if_pos h5]
      simp only [Option.some.injEq] at ho
      subst ho
      refine ⟨_, rfl, ?_⟩
      constructor <;> simp [h.cells, h.fixed, h.copies, h.sel, h.qlk]
    · exact absurd ho (by simp)
  · next h3 =>
    rw [if_neg h3]
    simp only [Option.some.injEq] at ho
    subst ho
    refine ⟨_, rfl, ?_⟩
    constructor <;> simp [h.cells, h.fixed, h.copies, h.sel, h.qlk]

theorem awcCells_shape {rot mx ncols : ℕ} {s s' : Ctx p} (hs : ∀ i, s.cellAt i = s'.cellAt i)
    (hsel : s.selector = s'.selector) (l : List (Assigned p × Bool)) : ∀ {l' : List (Assigned p × Bool)} {i : ℕ}
    {st st' : LState p}, l.map Prod.snd = l'.map Prod.snd → SameShape st st' → ∀ {o : LState p},
    awcCells rot mx ncols s i l st = some o → ∃ o', awcCells rot mx ncols s' i l' st' = some o' ∧ SameShape o o' := by
  induction l with
  | nil =>
    intro l' i st st' hl h o ho
    have : l' = [] := by simpa using hl.symm
    subst this
    simp [awcCells] at ho ⊢; subst ho; exact h
  | cons a t ih =>
    intro l' i st st' hl h o ho
    cases l' with
    | nil => simp at hl
    | cons b t' =>
      obtain ⟨v, q⟩ := a
      obtain ⟨v', q'⟩ := b
      simp only [List.map_cons, List.cons.injEq] at hl
      obtain ⟨rfl, hl⟩ := hl
      simp only [awcCells, Option.bind_eq_bind, Option.bind_eq_some_iff] at ho ⊢
      obtain ⟨o1, h1, h2⟩ := ho
      obtain ⟨o1', h1', hh⟩ := awcCell_shape (v' := v') hs hsel h h1
      obtain ⟨o', h2', hh'⟩ := ih hl hh h2
      exact ⟨o', ⟨o1', h1', h2'⟩, hh'⟩

/-- Same thread with other witness values. -/
structure SameThread (s s' : Ctx p) : Prop where
  typeId : s.typeId = s'.typeId
  ctxId : s.ctxId = s'.ctxId
  selector : s.selector = s'.selector
  len : s.advice.length = s'.advice.length

theorem awcThreads_shape {rot mx ncols : ℕ} {ts ts' : List (Ctx p)} (hts : List.Forall₂ SameThread ts ts') :
    ∀ {st st' : LState p}, SameShape st st' → ∀ {o : LState p}, awcThreads rot mx ncols ts st = some o →
    ∃ o', awcThreads rot mx ncols ts' st' = some o' ∧ SameShape o o' := by
  induction hts with
  | nil => intro st st' h o ho; simp [awcThreads] at ho ⊢; subst ho; exact h
  | @cons s s' t t' hss _ ih =>
    intro st st' h o ho
    have hnil : s.advice = [] ↔ s'.advice = [] := by
      rw [← List.length_eq_zero_iff, ← List.length_eq_zero_iff, hss.len]
    rw [awcThreads] at ho ⊢
    split at ho
    · next he => rw [if_pos (hnil.1 he)]; exact ih h ho
    next he =>
    rw [if_neg (fun h => he (hnil.2 h)), ← h.gate]
    split at ho
    · exact absurd ho (by simp)
    next hg =>
    rw [if_neg hg, ← hss.selector, ← hss.len]
    split at ho
    · exact absurd ho (by simp)
    next hl =>
    rw [if_neg hl]
    simp only [Option.bind_eq_bind, Option.bind_eq_some_iff] at ho ⊢
    obtain ⟨o1, h1, h2⟩ := ho
    obtain ⟨o1', h1', hh⟩ := awcCells_shape (s' := s') (fun i => by simp [Ctx.cellAt, hss.typeId, hss.ctxId])
      hss.selector _ (l' := s'.advice.zip s.selector) (by
        have e1 : s.selector.length = s.advice.length := by simpa using hl
        rw [List.map_snd_zip (by omega), List.map_snd_zip (by have := hss.len; omega)]) h h1
    obtain ⟨o', h2', hh'⟩ := ih hh h2
    exact ⟨o', ⟨o1', h1', h2'⟩, hh'⟩

/-- `assign_witnesses` replays `assign_with_constraints`. -/
theorem assignWitnesses_replay {mx ncols : ℕ} {ts : List (Ctx p)} {reg : Region p} {map : CellMap} {st : LState p}
    (h : assignWithConstraints mx ncols ts reg map = some st) :
    assignWitnesses ncols ts st.bps reg.writes = some st.reg.writes := by
  obtain ⟨hL, hlen⟩ := awcThreads_laid ts h
  unfold assignWitnesses
  have hbps : st.bps = (places mx (allItems ts) (0, 0)).flatMap Place.bps := by simpa using hL.bps
  split
  · next hn =>
    have he : allItems ts = [] := by
      by_contra hne
      have := awcThreads_cols ts h hne
      simp only at this; omega
    have hv := allItems_v ts hlen
    rw [he] at hv
    have hz : (ts.map fun s => s.advice.length).sum = 0 := by
      have : (ts.flatMap fun s => s.advice).length = 0 := by rw [← hv]; rfl
      rwa [List.length_flatMap] at this
    rw [if_pos hz, hL.writes, he]
    simp [places]
  · rw [awThreads_eq, ← allItems_v ts hlen, hbps]
    have := awCells_places (mx := mx) (ncols := ncols) (allItems ts) (0, 0) reg.writes
      (fun pl hpl hb => (hL.ok pl hpl hb).2)
    rw [this, Option.map_some, hL.writes]

theorem assignWitnesses_congr {ncols : ℕ} {ts ts' : List (Ctx p)} (h : ts.map (·.advice) = ts'.map (·.advice))
    (bps : List ℕ) (ws : List (PCell × Assigned p)) : assignWitnesses ncols ts bps ws = assignWitnesses ncols ts' bps ws := by
  unfold assignWitnesses
  have e1 : (ts.map fun s => s.advice.length) = (ts.map (·.advice)).map List.length := by simp
  have e2 : (ts'.map fun s => s.advice.length) = (ts'.map (·.advice)).map List.length := by simp
  rw [e1, e2, h, awThreads_eq, awThreads_eq, List.flatMap_def, List.flatMap_def]
  have : (ts.map fun s => s.advice) = ts'.map fun s => s.advice := h
  rw [this]

end H2.Phys
