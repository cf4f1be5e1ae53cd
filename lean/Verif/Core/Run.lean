import Verif.Core.Complete
import Mathlib.Tactic.NormNum.Prime

/-! # From the program logic to plain statements about runs, and the initial context -/

set_option autoImplicit false
namespace H2
variable {p : ℕ} [Fact p.Prime] {tbl : ZMod p → Prop} {ext : Cell → ZMod p}

omit [Fact p.Prime] in
/-- Soundness, spelled out: a keygen-mode run `s → (r, s')`, an arbitrary assignment `w` satisfying every
constraint recorded in `s'`. -/
theorem Sound.run {α : Type} {m : M p α} {Q : (Cell → ZMod p) → α → Prop} (h : Sound tbl m Q)
    {s s' : Ctx p} {r : α} (hi : Inv s) (hrun : m s = some (r, s')) {w : Cell → ZMod p}
    (hw : Sat tbl s' w) : Q w r := (h s hi r s' hrun).2.2 w hw

omit [Fact p.Prime] in
theorem Sound.extends_of {α : Type} {m : M p α} {Q : (Cell → ZMod p) → α → Prop} (h : Sound tbl m Q)
    {s s' : Ctx p} {r : α} (hi : Inv s) (hrun : m s = some (r, s')) : Inv s' ∧ Ext s s' :=
  ⟨(h s hi r s' hrun).1, (h s hi r s' hrun).2.1⟩

/-- Completeness, spelled out: the run succeeds, and the honest assignment satisfies every constraint. -/
def Completes {α : Type} (tbl : ZMod p → Prop) (ext : Cell → ZMod p) (s : Ctx p) (m : M p α)
    (Q : α → Ctx p → Prop) : Prop :=
  ∃ r s', m s = some (r, s') ∧ Good tbl ext s' ∧ Sat tbl s' (hw ext s') ∧ Ext s s' ∧ Q r s'

theorem Cmp.run {α : Type} {s : Ctx p} {m : M p α} {Q : α → Ctx p → Prop} (h : Cmp tbl ext s m Q)
    (hg : Good tbl ext s) : Completes tbl ext s m Q := by
  obtain ⟨r, s', h1, h2, h3, h4⟩ := h hg
  exact ⟨r, s', h1, h2, h2.sat, h3, h4⟩

/-- A fresh context satisfies the invariants. -/
theorem inv_new (phase : ℕ) (t : String) (i : ℕ) (eqs : List (Cell × Cell))
    (consts : List (ZMod p × Cell)) : Inv (Ctx.new false phase t i eqs consts) :=
  ⟨rfl, by simp [Ctx.new], by simp [Ctx.new]⟩

theorem good_new (phase : ℕ) (t : String) (i : ℕ) :
    Good tbl ext (Ctx.new false phase t i [] []) :=
  ⟨inv_new _ _ _ _ _, by simp [Ctx.new], ⟨by simp [Ctx.new], by simp [Ctx.new], by simp [Ctx.new],
    by simp [Ctx.new]⟩, by simp [Ctx.new], by simp [Ctx.new], by simp [Ctx.new], by simp [Ctx.new]⟩

instance fact101 : Fact (Nat.Prime 101) := ⟨by norm_num⟩

/-- The empty context used in the concrete examples. -/
def ctx0 : Ctx 101 := Ctx.new false 0 "halo2-base:SinglePhaseCoreManager:FirstPhase" 0 [] []

theorem good0 {tbl : ZMod 101 → Prop} {ext : Cell → ZMod 101} : Good tbl ext ctx0 := good_new _ _ _

end H2
