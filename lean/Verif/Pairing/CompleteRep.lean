import Verif.Pairing.Rep
import Verif.Fields.CompleteBn

/-!
# Points of `Fq2` and `Fq12` in the honest assignment, and completeness of the operations of the chips of BN254
-/

set_option autoImplicit false
set_option linter.unusedSectionVars false
namespace H2

/-- In the honest assignment, `a` is the canonical representative of the element `X` of `Fq`. -/
def HN1 (ext : Cell → ZMod bn254R) (s : Ctx bn254R) (a : CrtInt bn254R) (X : ZMod bn254Q) : Prop := bnCmp.PW ext s a X
/-- In the honest assignment, `a` is the canonical representative of the element `X` of `Fq2`. -/
def HN2 (ext : Cell → ZMod bn254R) (s : Ctx bn254R) (a : List (CrtInt bn254R)) (X : Fq2) : Prop := bnCmp2.PW ext s a X
/-- In the honest assignment, `a` is the canonical representative of the element `X` of `Fq12`. -/
def HN12 (ext : Cell → ZMod bn254R) (s : Ctx bn254R) (a : List (CrtInt bn254R)) (X : Fq12) : Prop := bnCmp12.PW ext s a X
/-- In the honest assignment, the unreduced `a` represents the element `X` of `Fq2`, with sizes `sz`. -/
def HU2 (ext : Cell → ZMod bn254R) (s : Ctx bn254R) (a : List (CrtInt bn254R)) (X : Fq2) (sz : List (ℕ × ℕ)) : Prop :=
  bnCmp2.UW ext s a X sz

variable {ext : Cell → ZMod bn254R} {s s' : Ctx bn254R} {a b : List (CrtInt bn254R)}

theorem HN1.mono {a : CrtInt bn254R} {X : ZMod bn254Q} (h : HN1 ext s a X) (e : Ext s s') : HN1 ext s' a X := bnCmp.p_mono h e
theorem HN2.mono {X : Fq2} (h : HN2 ext s a X) (e : Ext s s') : HN2 ext s' a X := bnCmp2.p_mono h e
theorem HN12.mono {X : Fq12} (h : HN12 ext s a X) (e : Ext s s') : HN12 ext s' a X := bnCmp12.p_mono h e
theorem HU2.mono {X : Fq2} {sz : List (ℕ × ℕ)} (h : HU2 ext s a X sz) (e : Ext s s') : HU2 ext s' a X sz := bnCmp2.u_mono h e

/-- The honest points represent, in the sense of the soundness theorems. -/
theorem HN2.r {X : Fq2} (h : HN2 ext s a X) : R2 (hw ext s) a X := bnLaws2.r_p _ _ _ (bnCmp2.p_r h)
theorem HN12.r {X : Fq12} (h : HN12 ext s a X) : R12 (hw ext s) a X := bnLaws12.r_p _ _ _ (bnCmp12.p_r h)
theorem HN12.unique {X Y : Fq12} (h1 : HN12 ext s a X) (h2 : HN12 ext s a Y) : X = Y := h1.r.unique h2.r
theorem HN2.unique {X Y : Fq2} (h1 : HN2 ext s a X) (h2 : HN2 ext s a Y) : X = Y := h1.r.unique h2.r

/-- The sizes of canonical representatives. -/
abbrev cS : List (ℕ × ℕ) := [(88, bn254Q), (88, bn254Q)]
abbrev cS12 : List (ℕ × ℕ) := List.replicate 12 (88, bn254Q)

theorem HN2.v {X : Fq2} (h : HN2 ext s a X) : HU2 ext s a X cS := by
  have := bnCmp2.p_c h
  have e : (fp2Ops bnChip.ops bnE2).ofP a = a := List.map_id' a
  rw [e] at this
  exact this

theorem HN12.v {X : Fq12} (h : HN12 ext s a X) : bnCmp12.UW ext s a X cS12 := by
  have := bnCmp12.p_c h
  have e : (fp12Ops bnChip.ops bnE12 9).ofP a = a := List.map_id' a
  rw [e] at this
  exact this

theorem HN1.v {a : CrtInt bn254R} {X : ZMod bn254Q} (h : HN1 ext s a X) : bnCmp.UW ext s a X (88, bn254Q) := bnCmp.p_c h

open Lean Elab Tactic in
/-- Carry every fact about the honest assignment to the extended state. -/
elab "mono_all " e:ident : tactic => withMainContext do
  for d in (← getLCtx) do
    if d.isImplementationDetail then continue
    let t ← instantiateMVars d.type
    match t.getAppFn.constName? with
    | some n =>
      if n ∈ [`H2.HN1, `H2.HN2, `H2.HN12, `H2.HU2, `H2.EcW, `H2.EcW0, `H2.Con, `H2.G1W, `H2.G2W, `H2.CompW, `H2.OptW] then
        let m := mkIdent (n ++ `mono)
        let h := mkIdent d.userName
        evalTactic (← `(tactic| try replace $h := $m $h $e))
    | none => pure ()

/-- `cb t r h`: the next operation of the program completes by `t`; call its result `r` and the fact about it `h`. -/
macro "cb " t:term:max r:ident h:ident : tactic =>
  `(tactic| (refine Cmp.bind $t fun $r s_ e_ $h => ?_; mono_all e_; clear e_))

abbrev fpMulC (x : List (ℕ × ℕ)) : List (ℕ × ℕ) := x.map fun y : ℕ × ℕ => (2 + y.1 + 88, y.2 * bn254Q)

section
variable {X Y : Fq2} {sx sy : List (ℕ × ℕ)}

theorem g2_mulNC (ha : HU2 ext s a X sx) (hb : HU2 ext s b Y sy) :
    Cmp bnTbl ext s (bnCfg.F2.mulNoCarry a b) (fun r s' => HU2 ext s' r (X * Y) (mulS sx sy)) := bnCmp2.mulNoCarry ha hb
theorem g2_add (ha : HU2 ext s a X sx) (hb : HU2 ext s b Y sy) :
    Cmp bnTbl ext s (bnCfg.F2.addNoCarry a b) (fun r s' => HU2 ext s' r (X + Y) (addS sx sy)) := bnCmp2.addNoCarry ha hb
theorem g2_sub (ha : HU2 ext s a X sx) (hb : HU2 ext s b Y sy) :
    Cmp bnTbl ext s (bnCfg.F2.subNoCarry a b) (fun r s' => HU2 ext s' r (X - Y) (addS sx sy)) := bnCmp2.subNoCarry ha hb
theorem g2_smul (z : ℤ) (hz : |z| < 2 ^ 63) (ha : HU2 ext s a X sx) :
    Cmp bnTbl ext s (bnCfg.F2.scalarMulNoCarry a z) (fun r s' => HU2 ext s' r (X * (z : Fq2)) (smulS z sx)) :=
  bnCmp2.scalarMulNoCarry z hz ha
theorem g2_smulAdd (z : ℤ) (hz : |z| < 2 ^ 63) (ha : HU2 ext s a X sx) (hb : HU2 ext s b Y sy) :
    Cmp bnTbl ext s (bnCfg.F2.scalarMulAddNoCarry a b z) (fun r s' => HU2 ext s' r (X * (z : Fq2) + Y) (smulAddS z sx sy)) :=
  bnCmp2.scalarMulAddNoCarry z hz ha hb
theorem g2_carry (hf : szOk sx = true) (ha : HU2 ext s a X sx) :
    Cmp bnTbl ext s (bnCfg.F2.carryMod a) (fun r s' => HN2 ext s' r X) := bnCmp2.carryMod ha (bnCmp2_cFits hf)
theorem g2_mul (ha : HN2 ext s a X) (hb : HN2 ext s b Y) :
    Cmp bnTbl ext s (bnCfg.F2.mul a b) (fun r s' => HN2 ext s' r (X * Y)) := by
  refine bnCmp2.mul ?_ ha.v hb.v
  rw [bnLaws2_mulSz]
  exact bnCmp2_cFits (by decide +kernel)
theorem g2_div (hf : szOk (addS (mulS pS sy) sx) = true) (ha : HU2 ext s a X sx) (hb : HU2 ext s b Y sy) (hY : Y = 0 → X = 0) :
    Cmp bnTbl ext s (bnCfg.F2.divideUnsafe a b) (fun r s' => HN2 ext s' r (X / Y)) := by
  refine bnCmp2.divideUnsafe ?_ ha hb hY
  rw [bnLaws2_pSz]
  exact bnCmp2_zFits hf
theorem g2_w6 (z : ℤ) (hz : |z| < 2 ^ 63) (ha : HU2 ext s a X sx) :
    Cmp bnTbl ext s (mulNoCarryW6 bnCfg.F z a) (fun r s' => HU2 ext s' r (X * ((z : Fq2) + Fq2.u)) (w6S z sx)) := by
  obtain ⟨qs, q1, q2, q3, q4⟩ := id ha
  obtain ⟨s0, s1, rfl⟩ := list2 (q := sx) (by rw [q4]; exact (List.length_map _).trans q1)
  exact mulNoCarryW6_cmp (K2 := Fq2) (k := bnCmp) z hz Fq2.u_sq ha
theorem g2_fpMul {x : CrtInt bn254R} {c : ZMod bn254Q} (ha : HU2 ext s a X sx) (hx : HN1 ext s x c) :
    Cmp bnTbl ext s (fpMulNoCarry bnCfg.F a x) (fun r s' => HU2 ext s' r (X * algebraMap (ZMod bn254Q) Fq2 c) (fpMulC sx)) :=
  fpMulNoCarry_cmp (K2 := Fq2) (k := bnCmp) ha hx.v
theorem g2_conj (ha : HN2 ext s a X) : Cmp bnTbl ext s (fp2Conjugate bnCfg.F a) (fun r s' => HN2 ext s' r (Fq2.conj X)) :=
  fp2Conjugate_cmp (K2 := Fq2) (k := bnCmp) Fq2.σ Fq2.σ_u ha
theorem g2_negConj (ha : HN2 ext s a X) : Cmp bnTbl ext s (fp2NegConjugate bnCfg.F a) (fun r s' => HN2 ext s' r (-Fq2.conj X)) :=
  fp2NegConjugate_cmp (K2 := Fq2) (k := bnCmp) Fq2.σ Fq2.σ_u ha
theorem g2_val (v : Fq2) : bnLaws2.val v = v := extFieldOf_coeffs _ _ v
theorem g2_loadPrivate (v : Fq2) : Cmp bnTbl ext s (bnCfg.F2.loadPrivate v) (fun r s' => HN2 ext s' r v) :=
  (bnCmp2.loadPrivate v).weaken fun _ _ h => by rw [g2_val] at h; exact h
theorem g2_loadConstant (v : Fq2) : Cmp bnTbl ext s (bnCfg.F2.loadConstant v) (fun r s' => HN2 ext s' r v) :=
  (bnCmp2.loadConstant v).weaken fun _ _ h => by rw [g2_val] at h; exact h
end

section
variable {X Y : Fq12}

theorem Fq12.σ6_u : Fq12.σ6 Fq12.u = Fq12.u := by
  show (Fq12.ι Fq2.u) ^ bn254Q ^ 6 = Fq12.ι Fq2.u
  rw [← map_pow, show (6 : ℕ) = 2 * 3 by norm_num, Fq2.pow_q_even 3]

theorem Fq12.σ6_w : Fq12.σ6 Fq12.w = -Fq12.w := by
  show Fq12.w ^ bn254Q ^ 6 = -Fq12.w
  have e : Fq12.w = e6 0 1 0 0 0 0 := by simp [e6]
  rw [e, e6_pow_q6]
  simp [e6]

theorem g12_mul (ha : HN12 ext s a X) (hb : HN12 ext s b Y) :
    Cmp bnTbl ext s (bnCfg.F12.mul a b) (fun r s' => HN12 ext s' r (X * Y)) := by
  refine bnCmp12.mul ?_ ha.v hb.v
  rw [bnLaws12_mulSz]
  exact bnCmp12_cFits (by decide +kernel)
theorem g12_div (ha : HN12 ext s a X) (hb : HN12 ext s b Y) (hY : Y = 0 → X = 0) :
    Cmp bnTbl ext s (bnCfg.F12.divideUnsafe a b) (fun r s' => HN12 ext s' r (X / Y)) := by
  refine bnCmp12.divideUnsafe ?_ ha.v hb.v hY
  have hsub : bnLaws12.subSz = List.zipWith (bnSz 0).add := rfl
  rw [bnLaws12_pSz, bnLaws12_mulSz, hsub]
  exact bnCmp12_zFits (by decide +kernel)
theorem g12_conj (ha : HN12 ext s a X) : Cmp bnTbl ext s (fp12Conjugate bnCfg.F a) (fun r s' => HN12 ext s' r (X ^ bn254Q ^ 6)) :=
  fp12Conjugate_cmp (K2 := Fq12) (k := bnCmp) Fq12.σ6 Fq12.σ6_u Fq12.σ6_w ha
theorem g12_val (v : Fq12) : bnLaws12.val v = v := extFieldOf_coeffs (K2 := Fq12) Fq12.basis Fq12.span v
theorem g12_loadPrivate (v : Fq12) : Cmp bnTbl ext s (bnCfg.F12.loadPrivate v) (fun r s' => HN12 ext s' r v) :=
  (bnCmp12.loadPrivate v).weaken fun _ _ h => by rw [g12_val] at h; exact h
theorem g12_loadConstant (v : Fq12) : Cmp bnTbl ext s (bnCfg.F12.loadConstant v) (fun r s' => HN12 ext s' r v) :=
  (bnCmp12.loadConstant v).weaken fun _ _ h => by rw [g12_val] at h; exact h
end

/-! ### Coordinates -/

theorem HN2.mk {a b : CrtInt bn254R} {x y : ZMod bn254Q} (h1 : HN1 ext s a x) (h2 : HN1 ext s b y) : HN2 ext s [a, b] ⟨x, y⟩ := by
  refine ⟨[x, y], rfl, .cons h1 (.cons h2 .nil), ?_⟩
  simp only [Fq2.basis, lin, List.zipWith_cons_cons, List.zipWith_nil_left, List.sum_cons, List.sum_nil, Fq2.alg]
  ext <;> simp

theorem HN2.elim {X : Fq2} (h : HN2 ext s a X) : ∃ a0 a1, a = [a0, a1] ∧ HN1 ext s a0 X.re ∧ HN1 ext s a1 X.im := by
  obtain ⟨xs, x1, x2, rfl⟩ := h
  obtain ⟨x, y, rfl⟩ := list2 x1
  cases x2 with
  | cons h1 h2 =>
    cases h2 with
    | cons h2 h3 =>
      cases h3
      refine ⟨_, _, rfl, ?_, ?_⟩
      · simpa [Fq2.basis, lin, Fq2.alg, HN1] using h1
      · simpa [Fq2.basis, lin, Fq2.alg, HN1] using h2

theorem HN2.len {X : Fq2} (h : HN2 ext s a X) : a.length = 2 := by
  obtain ⟨_, _, rfl, -⟩ := h.elim
  rfl

theorem HN12.elim {X : Fq12} (h : HN12 ext s a X) :
    ∃ a0 a1 a2 a3 a4 a5 b0 b1 b2 b3 b4 b5, a = [a0, a1, a2, a3, a4, a5, b0, b1, b2, b3, b4, b5] ∧ ∃ X0 X1 X2 X3 X4 X5,
      X = e6 X0 X1 X2 X3 X4 X5 ∧ HN2 ext s [a0, b0] X0 ∧ HN2 ext s [a1, b1] X1 ∧ HN2 ext s [a2, b2] X2 ∧ HN2 ext s [a3, b3] X3 ∧
      HN2 ext s [a4, b4] X4 ∧ HN2 ext s [a5, b5] X5 := by
  obtain ⟨xs, hl, hx, rfl⟩ := h
  obtain ⟨x0, x1, x2, x3, x4, x5, x6, x7, x8, x9, x10, x11, rfl⟩ := list12 hl
  obtain ⟨a0, a1, a2, a3, a4, a5, b0, b1, b2, b3, b4, b5, rfl⟩ := list12 (q := a) hx.length_eq
  change List.Forall₂ (fun a q => HN1 ext s a q) _ _ at hx
  rcases hx with _ | ⟨h0, _ | ⟨h1, _ | ⟨h2, _ | ⟨h3, _ | ⟨h4, _ | ⟨h5, _ | ⟨k0, _ | ⟨k1, _ | ⟨k2, _ | ⟨k3, _ | ⟨k4, _ | ⟨k5, -⟩⟩⟩⟩⟩⟩⟩⟩⟩⟩⟩⟩
  refine ⟨a0, a1, a2, a3, a4, a5, b0, b1, b2, b3, b4, b5, rfl, _, _, _, _, _, _,
    (Fq12.lin_eq _ _ _ _ _ _ _ _ _ _ _ _).trans (e6_mk _ _ _ _ _ _).symm, HN2.mk h0 k0, HN2.mk h1 k1, HN2.mk h2 k2, HN2.mk h3 k3,
    HN2.mk h4 k4, HN2.mk h5 k5⟩

theorem HN12.mk {a0 a1 a2 a3 a4 a5 b0 b1 b2 b3 b4 b5 : CrtInt bn254R} {X0 X1 X2 X3 X4 X5 : Fq2}
    (h0 : HN2 ext s [a0, b0] X0) (h1 : HN2 ext s [a1, b1] X1) (h2 : HN2 ext s [a2, b2] X2) (h3 : HN2 ext s [a3, b3] X3)
    (h4 : HN2 ext s [a4, b4] X4) (h5 : HN2 ext s [a5, b5] X5) :
    HN12 ext s [a0, a1, a2, a3, a4, a5, b0, b1, b2, b3, b4, b5] (e6 X0 X1 X2 X3 X4 X5) := by
  have key : ∀ {a b : CrtInt bn254R} {X : Fq2}, HN2 ext s [a, b] X → HN1 ext s a X.re ∧ HN1 ext s b X.im := by
    intro a b X h
    obtain ⟨a0, a1, e, h1, h2⟩ := h.elim
    simp only [List.cons.injEq, and_true] at e
    obtain ⟨rfl, rfl⟩ := e
    exact ⟨h1, h2⟩
  refine ⟨[X0.re, X1.re, X2.re, X3.re, X4.re, X5.re, X0.im, X1.im, X2.im, X3.im, X4.im, X5.im], rfl,
    .cons (key h0).1 (.cons (key h1).1 (.cons (key h2).1 (.cons (key h3).1 (.cons (key h4).1 (.cons (key h5).1
    (.cons (key h0).2 (.cons (key h1).2 (.cons (key h2).2 (.cons (key h3).2 (.cons (key h4).2 (.cons (key h5).2 .nil))))))))))), ?_⟩
  exact ((Fq12.lin_eq _ _ _ _ _ _ _ _ _ _ _ _).trans (e6_mk _ _ _ _ _ _).symm).symm

theorem join_cmp {o0 o1 o2 o3 o4 o5 : List (CrtInt bn254R)} {X0 X1 X2 X3 X4 X5 : Fq2}
    (h0 : HN2 ext s o0 X0) (h1 : HN2 ext s o1 X1) (h2 : HN2 ext s o2 X2) (h3 : HN2 ext s o3 X3)
    (h4 : HN2 ext s o4 X4) (h5 : HN2 ext s o5 X5) :
    Cmp bnTbl ext s (PairCfg.join [o0, o1, o2, o3, o4, o5]) (fun r s' => HN12 ext s' r (e6 X0 X1 X2 X3 X4 X5)) := by
  obtain ⟨a0, b0, rfl, -⟩ := h0.elim
  obtain ⟨a1, b1, rfl, -⟩ := h1.elim
  obtain ⟨a2, b2, rfl, -⟩ := h2.elim
  obtain ⟨a3, b3, rfl, -⟩ := h3.elim
  obtain ⟨a4, b4, rfl, -⟩ := h4.elim
  obtain ⟨a5, b5, rfl, -⟩ := h5.elim
  exact Cmp.pure (HN12.mk h0 h1 h2 h3 h4 h5)

theorem slices_cmp {X : Fq12} (h : HN12 ext s a X) : ∃ o0 o1 o2 o3 o4 o5 X0 X1 X2 X3 X4 X5, X = e6 X0 X1 X2 X3 X4 X5 ∧
    PairCfg.slices (p := bn254R) a = pure [o0, o1, o2, o3, o4, o5] ∧ HN2 ext s o0 X0 ∧ HN2 ext s o1 X1 ∧ HN2 ext s o2 X2 ∧
    HN2 ext s o3 X3 ∧ HN2 ext s o4 X4 ∧ HN2 ext s o5 X5 := by
  obtain ⟨a0, a1, a2, a3, a4, a5, b0, b1, b2, b3, b4, b5, rfl, X0, X1, X2, X3, X4, X5, rfl, h0, h1, h2, h3, h4, h5⟩ := h.elim
  exact ⟨_, _, _, _, _, _, _, _, _, _, _, _, rfl, rfl, h0, h1, h2, h3, h4, h5⟩

end H2
