import Verif.Core.Sat
import Mathlib.Tactic.Ring
import Mathlib.Tactic.LinearCombination
import Mathlib.Tactic.SplitIfs

/-!
# Program logic for soundness

`Snd tbl s m Q`: every successful keygen-mode run of `m` from `s` only adds constraints, and every
assignment `w` satisfying the constraints recorded afterwards satisfies `Q w r s'`.
-/

set_option autoImplicit false
namespace H2
variable {p : ℕ}

/-- Invariant of a keygen-mode context. -/
structure Inv (s : Ctx p) : Prop where
  wgo : s.wgo = false
  sel : s.selector.length ≤ s.advice.length
  zero : ∀ z, s.zeroCell = some z → ∃ c, z.cell = some c ∧ ((0 : ZMod p), c) ∈ s.consts

/-- `s'` extends `s`: nothing recorded in `s` was dropped or changed. -/
structure Ext (s s' : Ctx p) : Prop where
  typeId : s'.typeId = s.typeId
  ctxId : s'.ctxId = s.ctxId
  phase : s'.phase = s.phase
  wgo : s'.wgo = s.wgo
  advice : s.advice <+: s'.advice
  sel : ∀ i : ℕ, s.selector[i]? = some true → s'.selector[i]? = some true
  eqs : s.eqs <+: s'.eqs
  consts : s.consts <+: s'.consts
  lookups : s.lookups <+: s'.lookups

theorem Ext.refl (s : Ctx p) : Ext s s :=
  ⟨rfl, rfl, rfl, rfl, List.prefix_rfl, fun _ h => h, List.prefix_rfl, List.prefix_rfl,
    List.prefix_rfl⟩

theorem Ext.trans {s t u : Ctx p} (h : Ext s t) (k : Ext t u) : Ext s u :=
  ⟨k.typeId.trans h.typeId, k.ctxId.trans h.ctxId, k.phase.trans h.phase, k.wgo.trans h.wgo,
    h.advice.trans k.advice, fun i hi => k.sel i (h.sel i hi), h.eqs.trans k.eqs,
    h.consts.trans k.consts, h.lookups.trans k.lookups⟩

theorem Ext.cellAt {s s' : Ctx p} (h : Ext s s') (i : ℕ) : s'.cellAt i = s.cellAt i := by
  simp [Ctx.cellAt, h.typeId, h.ctxId]

theorem Ext.gateAt {s s' : Ctx p} (h : Ext s s') (w : Cell → ZMod p) (i : ℕ) :
    GateAt w s' i ↔ GateAt w s i := by
  simp [GateAt, h.cellAt]

theorem Sat.mono {tbl : ZMod p → Prop} {s s' : Ctx p} {w : Cell → ZMod p} (h : Ext s s')
    (k : Sat tbl s' w) : Sat tbl s w :=
  ⟨fun i hi => (h.gateAt w i).1 (k.gate i (h.sel i hi)),
   fun e he => k.eq e (h.eqs.subset he),
   fun e he => k.const e (h.consts.subset he),
   fun a ha => k.lookup a (h.lookups.subset ha)⟩

/-- Soundness triple (weakest-precondition style). -/
def Snd {α : Type} (tbl : ZMod p → Prop) (s : Ctx p) (m : M p α)
    (Q : (Cell → ZMod p) → α → Ctx p → Prop) : Prop :=
  Inv s → ∀ r s', m s = some (r, s') → Inv s' ∧ Ext s s' ∧ ∀ w, Sat tbl s' w → Q w r s'

/-- Soundness in every state, with a postcondition about the result only. -/
def Sound {α : Type} (tbl : ZMod p → Prop) (m : M p α) (Q : (Cell → ZMod p) → α → Prop) : Prop :=
  ∀ s, Snd tbl s m (fun w r _ => Q w r)

section
variable {α β : Type} {tbl : ZMod p → Prop} {s : Ctx p}

theorem bind_some {m : M p α} {f : α → M p β} {s : Ctx p} {r : β} {s' : Ctx p} :
    (m >>= f) s = some (r, s') ↔ ∃ a s1, m s = some (a, s1) ∧ f a s1 = some (r, s') := by
  simp only [bind, StateT.bind]
  cases h : m s with
  | none => simp
  | some x =>
    obtain ⟨a, s1⟩ := x
    simp

@[simp] theorem pure_apply (a : α) (s : Ctx p) : (pure a : M p α) s = some (a, s) := rfl

@[simp] theorem bind_apply {m : M p α} {f : α → M p β} {s : Ctx p} :
    (m >>= f) s = (m s).bind (fun x => f x.1 x.2) := rfl

theorem Snd.bind {m : M p α} {f : α → M p β} {Q : (Cell → ZMod p) → α → Ctx p → Prop}
    {R : (Cell → ZMod p) → β → Ctx p → Prop} (h : Snd tbl s m Q)
    (k : ∀ a s1, Ext s s1 → Snd tbl s1 (f a) (fun w r s2 => Q w a s1 → R w r s2)) :
    Snd tbl s (m >>= f) R := by
  intro hi r s' hr
  obtain ⟨a, s1, h1, h2⟩ := bind_some.1 hr
  obtain ⟨i1, e1, q1⟩ := h hi a s1 h1
  obtain ⟨i2, e2, q2⟩ := k a s1 e1 i1 r s' h2
  exact ⟨i2, e1.trans e2, fun w hw => q2 w hw (q1 w (hw.mono e2))⟩

theorem Snd.pure {a : α} {Q : (Cell → ZMod p) → α → Ctx p → Prop}
    (h : ∀ w, Sat tbl s w → Q w a s) : Snd tbl s (pure a : M p α) Q := by
  intro hi r s' hr
  simp only [pure_apply, Option.some.injEq, Prod.mk.injEq] at hr
  obtain ⟨rfl, rfl⟩ := hr
  exact ⟨hi, Ext.refl _, h⟩

theorem Snd.weaken {m : M p α} {Q R : (Cell → ZMod p) → α → Ctx p → Prop} (h : Snd tbl s m Q)
    (k : ∀ w r s', Q w r s' → R w r s') : Snd tbl s m R := by
  intro hi r s' hr
  obtain ⟨a, b, c⟩ := h hi r s' hr
  exact ⟨a, b, fun w hw => k w r s' (c w hw)⟩

theorem Snd.panic {Q : (Cell → ZMod p) → α → Ctx p → Prop} : Snd tbl s (panic : M p α) Q := by
  intro _ r s' hr
  simp [H2.panic] at hr

theorem unwrap_snd (o : Option α) : Snd tbl s (unwrap o : M p α) (fun _ r s' => s' = s ∧ o = some r) := by
  intro hi r s' hr
  simp only [unwrap, Option.map_eq_some_iff, Prod.mk.injEq] at hr
  obtain ⟨a, rfl, rfl, rfl⟩ := hr
  exact ⟨hi, Ext.refl _, fun _ _ => ⟨rfl, rfl⟩⟩

theorem assertM_snd (c : Bool) : Snd tbl s (assertM c : M p Unit) (fun _ _ s' => s' = s ∧ c = true) := by
  intro hi r s' hr
  simp only [assertM] at hr
  split at hr
  · simp only [Option.some.injEq, Prod.mk.injEq] at hr
    obtain ⟨_, rfl⟩ := hr
    exact ⟨hi, Ext.refl _, fun _ _ => ⟨rfl, by assumption⟩⟩
  · cases hr

theorem getWgo_snd : Snd tbl s (getWgo : M p Bool) (fun _ r s' => s' = s ∧ r = s.wgo) := by
  intro hi r s' hr
  simp only [getWgo, Option.some.injEq, Prod.mk.injEq] at hr
  obtain ⟨rfl, rfl⟩ := hr
  exact ⟨hi, Ext.refl _, fun _ _ => ⟨rfl, rfl⟩⟩

/-- In a keygen-mode context `ctx.witness_gen_only()` is false. -/
theorem getWgo_bind {f : Bool → M p α} {Q : (Cell → ZMod p) → α → Ctx p → Prop}
    (h : Snd tbl s (f false) Q) : Snd tbl s (getWgo >>= f) Q := by
  intro hi r s' hr
  have : (getWgo >>= f) s = f false s := by simp [getWgo, hi.wgo]
  rw [this] at hr
  exact h hi r s' hr

end

/-! ## The primitive operations -/

section prim
variable {tbl : ZMod p → Prop} {s : Ctx p}

/-- Result of `assign_cell` in keygen mode. -/
theorem assignCell_spec {q : QCell p} {u : Unit} {s s' : Ctx p} (hi : Inv s)
    (h : assignCell q s = some (u, s')) :
    Inv s' ∧ Ext s s' ∧ s'.advice = s.advice ++ [q.assigned] ∧ s'.selector = s.selector ∧
    ∀ w, Sat tbl s' w → QOk w q (w (s.cellAt s.advice.length)) := by
  cases q with
  | existing a =>
    simp only [assignCell, hi.wgo, Bool.false_eq_true, if_false, Option.map_eq_some_iff,
      Prod.mk.injEq] at h
    obtain ⟨c, hc, -, rfl⟩ := h
    refine ⟨⟨rfl, ?_, hi.zero⟩, ⟨rfl, rfl, rfl, hi.wgo.symm, by simp, fun _ h => h, by simp, List.prefix_rfl,
      List.prefix_rfl⟩, rfl, rfl, fun w hw => ?_⟩
    · have := hi.sel; simp; omega
    · have := hw.eq (s.cellAt s.advice.length, c) (by simp)
      simpa [QOk, at', hc] using this
  | witness x =>
    simp only [assignCell, Option.some.injEq, Prod.mk.injEq] at h
    obtain ⟨-, rfl⟩ := h
    refine ⟨⟨hi.wgo, ?_, hi.zero⟩, ⟨rfl, rfl, rfl, rfl, by simp, fun _ h => h, List.prefix_rfl, List.prefix_rfl,
      List.prefix_rfl⟩, rfl, rfl, fun w hw => trivial⟩
    have := hi.sel; simp; omega
  | witnessFraction x =>
    simp only [assignCell, Option.some.injEq, Prod.mk.injEq] at h
    obtain ⟨-, rfl⟩ := h
    refine ⟨⟨hi.wgo, ?_, hi.zero⟩, ⟨rfl, rfl, rfl, rfl, by simp, fun _ h => h, List.prefix_rfl, List.prefix_rfl,
      List.prefix_rfl⟩, rfl, rfl, fun w hw => trivial⟩
    have := hi.sel; simp; omega
  | constant c =>
    simp only [assignCell, hi.wgo, Bool.false_eq_true, if_false, Option.some.injEq,
      Prod.mk.injEq] at h
    obtain ⟨-, rfl⟩ := h
    refine ⟨⟨rfl, ?_, ?_⟩, ⟨rfl, rfl, rfl, hi.wgo.symm, by simp, fun _ h => h, List.prefix_rfl, by simp,
      List.prefix_rfl⟩, rfl, rfl, fun w hw => ?_⟩
    · have := hi.sel; simp; omega
    · intro z hz
      obtain ⟨c', h1, h2⟩ := hi.zero z hz
      exact ⟨c', h1, by simp [h2]⟩
    · exact hw.const (c, s.cellAt s.advice.length) (by simp)

/-- `QsOk w V i qs`: the values `V i, V (i+1), ...` are admissible for the list `qs`. -/
def QsOk (w : Cell → ZMod p) (V : ℤ → ZMod p) : ℤ → List (QCell p) → Prop
  | _, [] => True
  | i, q :: qs => QOk w q (V i) ∧ QsOk w V (i + 1) qs

theorem QsOk.get {w : Cell → ZMod p} {V : ℤ → ZMod p} {i : ℤ} {qs : List (QCell p)}
    (h : QsOk w V i qs) (k : ℕ) (q : QCell p) (hk : qs[k]? = some q) : QOk w q (V (i + k)) := by
  induction qs generalizing i k with
  | nil => simp at hk
  | cons q' qs ih =>
    cases k with
    | zero => simp at hk; subst hk; simpa using h.1
    | succ k =>
      have := ih h.2 k (by simpa using hk)
      rwa [show i + 1 + (k : ℤ) = i + ((k + 1 : ℕ) : ℤ) by push_cast; ring] at this

/-- The value an assignment gives to the cell `o` rows below row `row` of the context. -/
def rowV (w : Cell → ZMod p) (s : Ctx p) (row : ℕ) (o : ℤ) : ZMod p :=
  w (s.cellAt ((row : ℤ) + o).toNat)

theorem rowV_nat (w : Cell → ZMod p) (s : Ctx p) (row i : ℕ) :
    rowV w s row (i : ℤ) = w (s.cellAt (row + i)) := by
  simp only [rowV]
  norm_cast

theorem Ext.rowV {s s' : Ctx p} (h : Ext s s') (w : Cell → ZMod p) (row : ℕ) :
    H2.rowV w s' row = H2.rowV w s row := by
  funext o; simp [H2.rowV, h.cellAt]

theorem assignCells_spec {qs : List (QCell p)} {u : Unit} {s s' : Ctx p} (hi : Inv s)
    (h : assignCells qs s = some (u, s')) :
    Inv s' ∧ Ext s s' ∧ s'.advice = s.advice ++ qs.map QCell.assigned ∧ s'.selector = s.selector ∧
    ∀ w, Sat tbl s' w → ∀ (row : ℕ) (j : ℕ), row + j = s.advice.length →
      QsOk w (rowV w s row) j qs := by
  induction qs generalizing s with
  | nil =>
    simp only [assignCells, pure_apply, Option.some.injEq, Prod.mk.injEq] at h
    obtain ⟨-, rfl⟩ := h
    exact ⟨hi, Ext.refl _, by simp, rfl, fun _ _ _ _ _ => trivial⟩
  | cons q qs ih =>
    obtain ⟨a, s1, h1, h2⟩ := bind_some.1 h
    obtain ⟨i1, e1, a1, se1, q1⟩ := assignCell_spec (tbl := tbl) hi h1
    obtain ⟨i2, e2, a2, se2, q2⟩ := ih i1 h2
    refine ⟨i2, e1.trans e2, by simp [a2, a1], se2.trans se1, fun w hw row j hj => ⟨?_, ?_⟩⟩
    · rw [rowV_nat, hj]
      exact q1 w (hw.mono e2)
    · have := q2 w hw row (j + 1) (by simp [a1]; omega)
      rw [e1.rowV] at this
      exact_mod_cast this

theorem resize_length (l : List Bool) (n : ℕ) (h : l.length ≤ n) : (resize l n).length = n := by
  simp [resize]; omega

theorem resize_get (l : List Bool) (n i : ℕ) (h : l.length ≤ n) :
    (resize l n)[i]? = some true ↔ l[i]? = some true := by
  simp only [resize, List.take_of_length_le h]
  rcases Nat.lt_or_ge i l.length with hi | hi
  · rw [List.getElem?_append_left hi]
  · rw [List.getElem?_append_right hi]
    simp [List.getElem?_replicate, List.getElem?_eq_none hi]

theorem enableGates_spec {row : ℕ} {os : List ℤ} {u : Unit} {s s' : Ctx p} 
    (h : enableGates row os s = some (u, s')) :
    ∃ sel, s' = { s with selector := sel } ∧ sel.length = s.selector.length ∧
    (∀ i : ℕ, sel[i]? = some true ↔ (s.selector[i]? = some true ∨ ∃ o ∈ os, (row : ℤ) + o = (i : ℤ))) ∧
    (∀ o ∈ os, 0 ≤ (row : ℤ) + o ∧ (row : ℤ) + o < s.selector.length) := by
  induction os generalizing s with
  | nil =>
    simp only [enableGates, pure_apply, Option.some.injEq, Prod.mk.injEq] at h
    obtain ⟨-, rfl⟩ := h
    exact ⟨s.selector, rfl, rfl, by simp, by simp⟩
  | cons o os ih =>
    obtain ⟨a, s1, h1, h2⟩ := bind_some.1 h
    dsimp only at h1
    split at h1
    · rename_i ho
      simp only [Option.some.injEq, Prod.mk.injEq] at h1
      obtain ⟨-, rfl⟩ := h1
      obtain ⟨sel, rfl, hl, hs, hb⟩ := ih h2
      simp only [List.length_set] at hl hb
      refine ⟨sel, rfl, hl, ?_, ?_⟩
      · intro i
        rw [hs]
        simp only [List.getElem?_set]
        by_cases hio : (row : ℤ) + o = i
        · have : ((row : ℤ) + o).toNat = i := by omega
          simp [hio]
          left; have := ho.2; simp [hio] at this; exact this
        · have : ((row : ℤ) + o).toNat ≠ i := by omega
          simp [this, hio]
      · intro o' ho'
        simp only [List.mem_cons] at ho'
        rcases ho' with rfl | ho'
        · have := ho.2; omega
        · exact hb o' ho'
    · cases h1

/-- The gate at (signed) offset `o` of a region, in terms of the region's values. -/
def gateV (V : ℤ → ZMod p) (o : ℤ) : Prop := V o + V (o + 1) * V (o + 2) = V (o + 3)

/-- Result of `assign_region` in keygen mode. -/
theorem assignRegion_spec {qs : List (QCell p)} {gs : List ℤ} {u : Unit} {s s' : Ctx p} (hi : Inv s)
    (h : assignRegion qs gs s = some (u, s')) :
    Inv s' ∧ Ext s s' ∧ s'.advice = s.advice ++ qs.map QCell.assigned ∧
    s'.selector.length = s'.advice.length ∧
    (∀ i : ℕ, s'.selector[i]? = some true ↔
      (s.selector[i]? = some true ∨ ∃ o ∈ gs, (s.advice.length : ℤ) + o = i)) ∧
    (∀ o ∈ gs, 0 ≤ (s.advice.length : ℤ) + o) ∧
    ∀ w, Sat tbl s' w → QsOk w (rowV w s s.advice.length) 0 qs ∧
      ∀ o ∈ gs, gateV (rowV w s s.advice.length) o := by
  simp only [assignRegion, hi.wgo, Bool.false_eq_true, if_false] at h
  obtain ⟨_, s1, h1, h2⟩ := bind_some.1 h
  obtain ⟨_, s2, h2, h3⟩ := bind_some.1 h2
  simp only [Option.some.injEq, Prod.mk.injEq] at h2
  obtain ⟨-, rfl⟩ := h2
  obtain ⟨i1, e1, a1, se1, q1⟩ := assignCells_spec (tbl := tbl) hi h1
  obtain ⟨sel, rfl, hl, hs, hb⟩ := enableGates_spec h3
  have hsel : ∀ i : ℕ, sel[i]? = some true ↔
      (s.selector[i]? = some true ∨ ∃ o ∈ gs, (s.advice.length : ℤ) + o = i) := by
    intro i
    rw [hs i, resize_get _ _ _ i1.sel, se1]
  have hx : Ext s1 { s1 with selector := sel } := by
    refine ⟨rfl, rfl, rfl, rfl, List.prefix_rfl, ?_, List.prefix_rfl, List.prefix_rfl,
      List.prefix_rfl⟩
    intro i hi'
    exact (hsel i).2 (Or.inl (by rw [← se1]; exact hi'))
  refine ⟨⟨i1.wgo, ?_, i1.zero⟩, e1.trans hx, a1, ?_, hsel, fun o ho => (hb o ho).1, ?_⟩
  · simp only [hl, resize_length _ _ i1.sel, le_refl]
  · simp only [hl, resize_length _ _ i1.sel]
  · intro w hw
    refine ⟨by simpa using q1 w (hw.mono hx) s.advice.length 0 rfl, ?_⟩
    intro o ho
    have hb' := (hb o ho).1
    have hg := hw.gate ((s.advice.length : ℤ) + o).toNat
      ((hsel _).2 (Or.inr ⟨o, ho, by omega⟩))
    have hc : ∀ i, Ctx.cellAt { s1 with selector := sel } i = s.cellAt i := fun i => e1.cellAt i
    simp only [GateAt, hc] at hg
    simp only [gateV, rowV]
    have k : ∀ j : ℕ, ((s.advice.length : ℤ) + (o + j)).toNat
        = ((s.advice.length : ℤ) + o).toNat + j := by intro j; omega
    have k1 := k 1
    have k2 := k 2
    have k3 := k 3
    push_cast at k1 k2 k3
    rw [k1, k2, k3]
    exact hg

theorem assignRegion_snd (qs : List (QCell p)) (gs : List ℤ) :
    Snd tbl s (assignRegion qs gs) (fun w _ s' =>
      s'.advice.length = s.advice.length + qs.length ∧
      QsOk w (rowV w s s.advice.length) 0 qs ∧ ∀ o ∈ gs, gateV (rowV w s s.advice.length) o) := by
  intro hi r s' h
  obtain ⟨a, b, c, _, _, _, f⟩ := assignRegion_spec (tbl := tbl) hi h
  exact ⟨a, b, fun w hw => ⟨by simp [c], f w hw⟩⟩

theorem last_spec {o : Option (AV p)} {s s' : Ctx p} (h : last? s = some (o, s')) :
    s' = s ∧ o = s.advice.getLast?.map fun v =>
      ⟨v, if s.wgo then none else some (s.cellAt (s.advice.length - 1))⟩ := by
  simp only [last?, Option.some.injEq, Prod.mk.injEq] at h
  exact ⟨h.2.symm, h.1.symm⟩

theorem lastM_snd : Snd tbl s (lastM : M p (AV p)) (fun _ r s' => s' = s ∧
    r.cell = some (s.cellAt (s.advice.length - 1)) ∧ 1 ≤ s.advice.length) := by
  intro hi r s' h
  simp only [lastM, last?, unwrap, bind_apply, Option.bind_some, Option.map_map,
    Option.map_eq_some_iff, Function.comp, Prod.mk.injEq] at h
  obtain ⟨v, hv, rfl, rfl⟩ := h
  refine ⟨hi, Ext.refl _, fun _ _ => ⟨rfl, by simp [hi.wgo], ?_⟩⟩
  cases hs : s.advice with
  | nil => simp [hs] at hv
  | cons a l => simp

theorem getM_snd (o : ℤ) : Snd tbl s (getM o : M p (AV p)) (fun _ r s' => s' = s ∧
    ∃ i : ℕ, (i : ℤ) = (if o < 0 then (s.advice.length : ℤ) + o else o) ∧ i < s.advice.length ∧
    r.cell = some (s.cellAt i)) := by
  intro hi r s' h
  simp only [getM] at h
  generalize hi' : (if o < 0 then (s.advice.length : ℤ) + o else o) = i at h
  split at h
  · cases h
  · simp only [Option.map_eq_some_iff, Prod.mk.injEq] at h
    obtain ⟨v, hv, rfl, rfl⟩ := h
    refine ⟨hi, Ext.refl _, fun _ _ => ⟨rfl, i.toNat, by omega, ?_, by simp [hi.wgo]⟩⟩
    exact (List.getElem?_eq_some_iff.1 hv).1

theorem constrainEqual_snd (a b : AV p) :
    Snd tbl s (constrainEqual a b) (fun w _ s' => s'.advice = s.advice ∧ at' w a = at' w b) := by
  intro hi r s' h
  simp only [constrainEqual, hi.wgo, Bool.false_eq_true, if_false] at h
  split at h
  · rename_i c d hc hd
    simp only [Option.some.injEq, Prod.mk.injEq] at h
    obtain ⟨-, rfl⟩ := h
    refine ⟨⟨rfl, hi.sel, hi.zero⟩, ⟨rfl, rfl, rfl, hi.wgo.symm, List.prefix_rfl, fun _ h => h, by simp,
      List.prefix_rfl, List.prefix_rfl⟩, fun w hw => ⟨rfl, ?_⟩⟩
    have := hw.eq (c, d) (by simp)
    simpa [at', hc, hd] using this
  · cases h

/-- Region lemma for `assign_region_last`: the result is the last cell of the region. -/
theorem assignRegionLast_snd (qs : List (QCell p)) (gs : List ℤ) (hq : qs ≠ []) :
    Snd tbl s (assignRegionLast qs gs) (fun w r _ => ∃ V : ℤ → ZMod p,
      QsOk w V 0 qs ∧ (∀ o ∈ gs, gateV V o) ∧ at' w r = V (qs.length - 1)) := by
  refine Snd.bind (assignRegion_snd qs gs) fun _ s1 e1 => ?_
  refine lastM_snd.weaken ?_
  rintro w r s2 ⟨rfl, hc, h1⟩ ⟨hl, hQ, hg⟩
  refine ⟨_, hQ, hg, ?_⟩
  have : 0 < qs.length := List.length_pos_iff.2 hq
  simp only [at', hc, rowV, e1.cellAt, hl]
  congr 2
  omega

theorem smartEqs_snd (row : ℕ) (eo : List (ℕ × ℕ)) (ex : List (Cell × ℕ)) :
    Snd tbl s (smartEqs row eo ex) (fun w _ s' => s'.advice.length = s.advice.length ∧
      (∀ e ∈ eo, rowV w s row e.1 = rowV w s row e.2) ∧ (∀ e ∈ ex, w e.1 = rowV w s row e.2)) := by
  intro hi r s' h
  simp only [smartEqs, Option.some.injEq, Prod.mk.injEq] at h
  obtain ⟨-, rfl⟩ := h
  refine ⟨⟨hi.wgo, hi.sel, hi.zero⟩, ⟨rfl, rfl, rfl, rfl, List.prefix_rfl, fun _ h => h, by simp,
    List.prefix_rfl, List.prefix_rfl⟩, fun w hw => ⟨rfl, ?_, ?_⟩⟩
  · intro e he
    have := hw.eq (s.cellAt (row + e.1), s.cellAt (row + e.2)) (by
      simp only [List.mem_append, List.mem_map]
      exact Or.inl (Or.inr ⟨e, he, rfl⟩))
    simpa [rowV_nat] using this
  · intro e he
    have := hw.eq (e.1, s.cellAt (row + e.2)) (by
      simp only [List.mem_append, List.mem_map]
      exact Or.inr ⟨e, he, rfl⟩)
    simpa [rowV_nat] using this

/-- Region lemma for `assign_region_smart`. -/
theorem assignRegionSmart_snd (qs : List (QCell p)) (gs : List ℤ) (eo : List (ℕ × ℕ))
    (ex : List (Cell × ℕ)) :
    Snd tbl s (assignRegionSmart qs gs eo ex) (fun w _ s' =>
      s'.advice.length = s.advice.length + qs.length ∧
      QsOk w (rowV w s s.advice.length) 0 qs ∧ (∀ o ∈ gs, gateV (rowV w s s.advice.length) o) ∧
      (∀ e ∈ eo, rowV w s s.advice.length e.1 = rowV w s s.advice.length e.2) ∧
      (∀ e ∈ ex, w e.1 = rowV w s s.advice.length e.2)) := by
  intro hi
  refine (Snd.bind (s := s) (m := assignRegion qs gs)
    (f := fun _ => if s.wgo then pure () else smartEqs s.advice.length eo ex)
    (assignRegion_snd qs gs) ?_) hi
  intro _ s1 e1
  simp only [hi.wgo, Bool.false_eq_true, if_false]
  refine (smartEqs_snd _ eo ex).weaken ?_
  rintro w r s2 ⟨h1, h2, h3⟩ ⟨k1, k2, k3⟩
  rw [e1.rowV] at h2 h3
  exact ⟨h1.trans k1, k2, k3, h2, h3⟩

/-- `ctx.get(o)` after something that says what the row values are. -/
theorem rowV_of_cell {w : Cell → ZMod p} {s : Ctx p} {row i : ℕ} {o : ℤ} {r : AV p}
    (h : r.cell = some (s.cellAt i)) (hi : (i : ℤ) = row + o) : at' w r = rowV w s row o := by
  simp only [at', h, rowV]
  congr 2; omega

theorem syncSelector_snd : Snd tbl s (syncSelector : M p Unit) (fun _ _ s' => s'.advice = s.advice ∧
    s'.cellAt = s.cellAt) := by
  intro hi r s' h
  simp only [syncSelector, hi.wgo, Bool.false_eq_true, if_false, Option.some.injEq,
    Prod.mk.injEq] at h
  obtain ⟨-, rfl⟩ := h
  refine ⟨⟨rfl, ?_, hi.zero⟩, ⟨rfl, rfl, rfl, hi.wgo.symm, List.prefix_rfl, ?_, List.prefix_rfl,
    List.prefix_rfl, List.prefix_rfl⟩, fun _ _ => ⟨rfl, rfl⟩⟩
  · simp [resize_length _ _ hi.sel]
  · intro i h'
    exact (resize_get _ _ _ hi.sel).2 h'

theorem assignCell_snd (q : QCell p) : Snd tbl s (assignCell q) (fun w _ s' =>
    s'.advice.length = s.advice.length + 1 ∧ QOk w q (w (s.cellAt s.advice.length))) := by
  intro hi r s' h
  obtain ⟨a, b, c, _, f⟩ := assignCell_spec (tbl := tbl) hi h
  exact ⟨a, b, fun w hw => ⟨by simp [c], f w hw⟩⟩

theorem loadCell_snd (q : QCell p) :
    Snd tbl s (do assignCell q; syncSelector; lastM) (fun w r _ => QOk w q (at' w r)) := by
  refine Snd.bind (assignCell_snd q) fun _ s1 e1 => ?_
  refine Snd.bind syncSelector_snd fun _ s2 e2 => ?_
  refine lastM_snd.weaken ?_
  rintro w r s3 ⟨rfl, h1, h2⟩ ⟨h3, h4⟩ ⟨h5, h6⟩
  rw [h3, h4, h5] at h1
  simp only [Nat.add_sub_cancel] at h1
  simpa only [at', h1, e1.cellAt] using h6

theorem loadWitness_sound (x : ZMod p) : Sound tbl (loadWitness x) (fun _ _ => True) :=
  fun _ => (loadCell_snd (.witness x)).weaken fun _ _ _ _ => trivial

theorem loadConstant_sound (c : ZMod p) : Sound tbl (loadConstant c) (fun w r => at' w r = c) :=
  fun _ => loadCell_snd (.constant c)

theorem loadConstants_sound (cs : List (ZMod p)) :
    Sound tbl (loadConstants cs) (fun w rs => rs.map (at' w) = cs) := by
  induction cs with
  | nil => exact fun s => Snd.pure fun _ _ => rfl
  | cons c cs ih =>
    intro s
    refine Snd.bind (loadConstant_sound c s) fun a s1 _ => ?_
    refine Snd.bind (ih s1) fun as s2 _ => ?_
    exact Snd.pure fun w _ h1 h2 => by simp [h1, h2]

theorem loadZero_sound : Sound tbl (loadZero : M p (AV p)) (fun w r => at' w r = 0) := by
  intro s hi r s' h
  simp only [loadZero] at h
  split at h
  · rename_i z hz
    simp only [Option.some.injEq, Prod.mk.injEq] at h
    obtain ⟨rfl, rfl⟩ := h
    refine ⟨hi, Ext.refl _, fun w hw => ?_⟩
    obtain ⟨c, h1, h2⟩ := hi.zero _ hz
    simpa [at', h1] using hw.const _ h2
  · obtain ⟨z, s1, h1, h2⟩ := bind_some.1 h
    obtain ⟨_, s2, h2, h3⟩ := bind_some.1 h2
    simp only [Option.some.injEq, Prod.mk.injEq, pure_apply] at h2 h3
    obtain ⟨-, rfl⟩ := h2
    obtain ⟨rfl, rfl⟩ := h3
    obtain ⟨i1, e1, q1⟩ := loadConstant_sound (tbl := tbl) 0 s hi z s1 h1
    have hex : Ext s1 { s1 with zeroCell := some z } :=
      ⟨rfl, rfl, rfl, rfl, List.prefix_rfl, fun _ h => h, List.prefix_rfl, List.prefix_rfl,
        List.prefix_rfl⟩
    refine ⟨⟨i1.wgo, i1.sel, ?_⟩, e1.trans hex, fun w hw => q1 w (hw.mono hex)⟩
    rintro z' hz'
    simp only [Option.some.injEq] at hz'
    subst hz'
    -- the freshly loaded constant is constrained
    obtain ⟨_, t1, k1, k2⟩ := bind_some.1 h1
    obtain ⟨_, t2, k2, k3⟩ := bind_some.1 k2
    obtain ⟨j1, f1, a1, b1, -⟩ := assignCell_spec (tbl := tbl) hi k1
    simp only [assignCell, hi.wgo, Bool.false_eq_true, if_false, Option.some.injEq,
      Prod.mk.injEq] at k1
    obtain ⟨-, rfl⟩ := k1
    simp only [syncSelector, Option.some.injEq, Prod.mk.injEq] at k2
    obtain ⟨-, rfl⟩ := k2
    simp only [lastM, last?, unwrap, bind_apply, Bool.false_eq_true, if_false,
      Option.bind_some, List.getLast?_append, List.getLast?_singleton, Option.some_or,
      Option.map_some, Option.some.injEq, Prod.mk.injEq] at k3
    obtain ⟨rfl, rfl⟩ := k3
    exact ⟨_, rfl, by simp [Ctx.cellAt]⟩

theorem assertIsConst_sound (a : AV p) (c : ZMod p) :
    Sound tbl (assertIsConst a c) (fun w _ => at' w a = c) := by
  intro s hi r s' h
  simp only [assertIsConst, hi.wgo, Bool.false_eq_true, if_false, Option.map_eq_some_iff,
    Prod.mk.injEq] at h
  obtain ⟨x, hx, -, rfl⟩ := h
  refine ⟨⟨rfl, hi.sel, ?_⟩, ⟨rfl, rfl, rfl, hi.wgo.symm, List.prefix_rfl, fun _ h => h, List.prefix_rfl,
    by simp, List.prefix_rfl⟩, fun w hw => ?_⟩
  · intro z hz
    obtain ⟨c', h1, h2⟩ := hi.zero z hz
    exact ⟨c', h1, by simp [h2]⟩
  · simpa [at', hx] using hw.const (c, x) (by simp)

theorem addCellToLookup_sound (a : AV p) :
    Sound tbl (addCellToLookup a) (fun w _ => tbl (at' w a)) := by
  intro s hi r s' h
  simp only [addCellToLookup, Option.some.injEq, Prod.mk.injEq] at h
  obtain ⟨-, rfl⟩ := h
  exact ⟨⟨hi.wgo, hi.sel, hi.zero⟩, ⟨rfl, rfl, rfl, rfl, List.prefix_rfl, fun _ h => h,
    List.prefix_rfl, List.prefix_rfl, by simp⟩, fun w hw => hw.lookup a (by simp)⟩

theorem constrainEqual_sound (a b : AV p) :
    Sound tbl (constrainEqual a b) (fun w _ => at' w a = at' w b) :=
  fun _ => (constrainEqual_snd a b).weaken fun _ _ _ h => h.2

end prim
end H2

namespace H2
variable {p : ℕ}
section more
variable {α β : Type} {tbl : ZMod p → Prop} {s : Ctx p}

theorem Snd.unwrap {o : Option α} {f : α → M p β} {R : (Cell → ZMod p) → β → Ctx p → Prop}
    (h : ∀ a, o = some a → Snd tbl s (f a) R) : Snd tbl s (H2.unwrap o >>= f) R := by
  cases o with
  | none =>
    intro _ r s' hr
    simp [H2.unwrap] at hr
  | some a => exact h a rfl

theorem Snd.assert {c : Bool} {f : Unit → M p β} {R : (Cell → ZMod p) → β → Ctx p → Prop}
    (h : c = true → Snd tbl s (f ()) R) : Snd tbl s (assertM c >>= f) R := by
  cases c with
  | false =>
    intro _ r s' hr
    simp [assertM] at hr
  | true => exact h rfl

theorem adviceLen_snd {f : ℕ → M p β} {R : (Cell → ZMod p) → β → Ctx p → Prop}
    (h : Snd tbl s (f s.advice.length) R) : Snd tbl s (adviceLen >>= f) R := h

theorem Snd.ite {c : Prop} [Decidable c] {m1 m2 : M p α} {R : (Cell → ZMod p) → α → Ctx p → Prop}
    (h1 : c → Snd tbl s m1 R) (h2 : ¬c → Snd tbl s m2 R) : Snd tbl s (if c then m1 else m2) R := by
  split
  · exact h1 ‹_›
  · exact h2 ‹_›

/-- `ctx.assign_region(qs, gs); ctx.get(o)` with `o < 0` pointing into the region. -/
theorem regionGet_snd (qs : List (QCell p)) (gs : List ℤ) (o : ℤ) (h1 : o < 0)
    (h2 : -(qs.length : ℤ) ≤ o) :
    Snd tbl s (do assignRegion qs gs; getM o) (fun w r _ => ∃ V : ℤ → ZMod p,
      QsOk w V 0 qs ∧ (∀ o ∈ gs, gateV V o) ∧ at' w r = V (qs.length + o)) := by
  refine Snd.bind (assignRegion_snd qs gs) fun _ s1 e1 => ?_
  refine (getM_snd o).weaken ?_
  rintro w r s2 ⟨rfl, i, hi, _, hc⟩ ⟨hl, hQ, hg⟩
  refine ⟨_, hQ, hg, ?_⟩
  rw [← e1.rowV]
  refine rowV_of_cell hc ?_
  rw [if_pos h1] at hi
  rw [hi, hl]; push_cast; ring

/-- `ctx.assign_region_smart(qs, gs, eo, []); ctx.get(o)` with `o < 0` pointing into the region. -/
theorem regionSmartGet_snd (qs : List (QCell p)) (gs : List ℤ) (eo : List (ℕ × ℕ)) (o : ℤ)
    (h1 : o < 0) (h2 : -(qs.length : ℤ) ≤ o) :
    Snd tbl s (do assignRegionSmart qs gs eo []; getM o) (fun w r _ => ∃ V : ℤ → ZMod p,
      QsOk w V 0 qs ∧ (∀ o ∈ gs, gateV V o) ∧ (∀ e ∈ eo, V e.1 = V e.2) ∧
      at' w r = V (qs.length + o)) := by
  refine Snd.bind (assignRegionSmart_snd qs gs eo []) fun _ s1 e1 => ?_
  refine (getM_snd o).weaken ?_
  rintro w r s2 ⟨rfl, i, hi, _, hc⟩ ⟨hl, hQ, hg, he, -⟩
  refine ⟨_, hQ, hg, he, ?_⟩
  rw [← e1.rowV]
  refine rowV_of_cell hc ?_
  rw [if_pos h1] at hi
  rw [hi, hl]; push_cast; ring

theorem regionSmartLast_snd (qs : List (QCell p)) (gs : List ℤ) (eo : List (ℕ × ℕ))
    (hq : qs ≠ []) :
    Snd tbl s (do assignRegionSmart qs gs eo []; lastM) (fun w r _ => ∃ V : ℤ → ZMod p,
      QsOk w V 0 qs ∧ (∀ o ∈ gs, gateV V o) ∧ (∀ e ∈ eo, V e.1 = V e.2) ∧
      at' w r = V (qs.length - 1)) := by
  refine Snd.bind (assignRegionSmart_snd qs gs eo []) fun _ s1 e1 => ?_
  refine lastM_snd.weaken ?_
  rintro w r s2 ⟨rfl, hc, _⟩ ⟨hl, hQ, hg, he, -⟩
  refine ⟨_, hQ, hg, he, ?_⟩
  have : 0 < qs.length := List.length_pos_iff.2 hq
  rw [← e1.rowV]
  refine rowV_of_cell hc ?_
  rw [hl]; omega

end more
end H2

/-! ## Read-only computations -/
namespace H2
variable {p : ℕ}
section rd
variable {α β : Type} {tbl : ZMod p → Prop} {s : Ctx p}

/-- `m` does not change the (keygen-mode) state and its result satisfies `Q`. -/
def Rd (s : Ctx p) (m : M p α) (Q : α → Prop) : Prop :=
  Inv s → ∀ r s', m s = some (r, s') → s' = s ∧ Q r

theorem Rd.pure {a : α} {Q : α → Prop} (h : Q a) : Rd s (pure a : M p α) Q := by
  intro _ r s' hr
  simp only [pure_apply, Option.some.injEq, Prod.mk.injEq] at hr
  obtain ⟨rfl, rfl⟩ := hr
  exact ⟨rfl, h⟩

theorem Rd.bind {m : M p α} {f : α → M p β} {Q : α → Prop} {R : β → Prop} (h : Rd s m Q)
    (k : ∀ a, Q a → Rd s (f a) R) : Rd s (m >>= f) R := by
  intro hi r s' hr
  obtain ⟨a, s1, h1, h2⟩ := bind_some.1 hr
  obtain ⟨rfl, hq⟩ := h hi a s1 h1
  exact k a hq hi r s' h2

theorem Rd.panic {Q : α → Prop} : Rd s (H2.panic : M p α) Q := by
  intro _ r s' hr
  simp [H2.panic] at hr

theorem Rd.ite {c : Prop} [Decidable c] {m1 m2 : M p α} {R : α → Prop}
    (h1 : c → Rd s m1 R) (h2 : ¬c → Rd s m2 R) : Rd s (if c then m1 else m2) R := by
  split
  · exact h1 ‹_›
  · exact h2 ‹_›

theorem Rd.weaken {m : M p α} {Q R : α → Prop} (h : Rd s m Q) (k : ∀ r, Q r → R r) : Rd s m R := by
  intro hi r s' hr
  exact ⟨(h hi r s' hr).1, k r (h hi r s' hr).2⟩

theorem unwrap_rd (o : Option α) : Rd s (unwrap o : M p α) (fun r => o = some r) := by
  intro _ r s' hr
  simp only [unwrap, Option.map_eq_some_iff, Prod.mk.injEq] at hr
  obtain ⟨a, rfl, rfl, rfl⟩ := hr
  exact ⟨rfl, rfl⟩

theorem Snd.rd {m : M p α} {f : α → M p β} {Q : α → Prop}
    {R : (Cell → ZMod p) → β → Ctx p → Prop} (h : Rd s m Q)
    (k : ∀ a, Q a → Snd tbl s (f a) R) : Snd tbl s (m >>= f) R := by
  intro hi r s' hr
  obtain ⟨a, s1, h1, h2⟩ := bind_some.1 hr
  obtain ⟨rfl, hq⟩ := h hi a s1 h1
  exact k a hq hi r s' h2

theorem Rd.snd {m : M p α} {Q : α → Prop} (h : Rd s m Q) :
    Snd tbl s m (fun _ r s' => s' = s ∧ Q r) := by
  intro hi r s' hr
  obtain ⟨rfl, hq⟩ := h hi r s' hr
  exact ⟨hi, Ext.refl _, fun _ _ => ⟨rfl, hq⟩⟩

/-- Row (from the start of the column) that `ctx.get(o)` reads. -/
def getRow (n : ℕ) (o : ℤ) : ℤ := if o < 0 then (n : ℤ) + o else o

theorem getM_rd (o : ℤ) : Rd s (getM o : M p (AV p)) (fun r =>
    ∃ i : ℕ, (i : ℤ) = getRow s.advice.length o ∧ i < s.advice.length ∧ r.cell = some (s.cellAt i) ∧
      s.advice[i]? = some r.value) := by
  intro hi r s' h
  simp only [getM] at h
  change (if getRow s.advice.length o < 0 then _ else
    (s.advice[(getRow s.advice.length o).toNat]?.map fun v =>
      ((⟨v, if s.wgo then none else some (s.cellAt (getRow s.advice.length o).toNat)⟩ : AV p), s)))
      = _ at h
  split at h
  · cases h
  · simp only [Option.map_eq_some_iff, Prod.mk.injEq] at h
    obtain ⟨v, hv, rfl, rfl⟩ := h
    exact ⟨rfl, (getRow s.advice.length o).toNat, by omega, (List.getElem?_eq_some_iff.1 hv).1,
      by simp [hi.wgo], hv⟩

theorem lastM_rd : Rd s (lastM : M p (AV p)) (fun r => 1 ≤ s.advice.length ∧
    r.cell = some (s.cellAt (s.advice.length - 1)) ∧ s.advice.getLast? = some r.value) := by
  intro hi r s' h
  simp only [lastM, last?, unwrap, bind_apply, Option.bind_some, Option.map_map,
    Option.map_eq_some_iff, Function.comp, Prod.mk.injEq] at h
  obtain ⟨v, hv, rfl, rfl⟩ := h
  refine ⟨rfl, ?_, by simp [hi.wgo], hv⟩
  cases hs : s.advice with
  | nil => simp [hs] at hv
  | cons a l => simp

/-- Structural postcondition (about the result and final state, not the assignment). -/
theorem Snd.bindP {m : M p α} {f : α → M p β} {Q : (Cell → ZMod p) → α → Ctx p → Prop}
    {P : α → Ctx p → Prop}
    {R : (Cell → ZMod p) → β → Ctx p → Prop} (h : Snd tbl s m Q)
    (hP : Inv s → ∀ r s', m s = some (r, s') → P r s')
    (k : ∀ a s1, Ext s s1 → P a s1 → Snd tbl s1 (f a) (fun w r s2 => Q w a s1 → R w r s2)) :
    Snd tbl s (m >>= f) R := by
  intro hi r s' hr
  obtain ⟨a, s1, h1, h2⟩ := bind_some.1 hr
  obtain ⟨i1, e1, q1⟩ := h hi a s1 h1
  obtain ⟨i2, e2, q2⟩ := k a s1 e1 (hP hi a s1 h1) i1 r s' h2
  exact ⟨i2, e1.trans e2, fun w hw => q2 w hw (q1 w (hw.mono e2))⟩

end rd
end H2
