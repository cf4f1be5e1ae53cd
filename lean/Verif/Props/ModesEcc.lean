import Verif.Ecc.Rel
import Verif.Props.Modes
import Verif.Props.CompleteField

/-!
# C72: modes and shape of the big integer, field, curve and signature chips

The circuit that the field chips, the curve chip, scalar multiplication and signature verification record does not
depend on the witness values nor on the random points the prover draws; and the prover-mode run computes the same
witness as the keygen-mode run.
-/

set_option autoImplicit false
set_option linter.unusedSectionVars false
namespace H2
variable {p : ℕ} [Fact p.Prime]

/-! ## Specification: what "same circuit position" and "prover mode view" mean for compound values -/

/-- Same limb cells, same native cell, same overflow bound; any value. -/
def CrtInt.Same (a b : CrtInt p) : Prop :=
  AVs.Same a.trunc.limbs b.trunc.limbs ∧ a.trunc.maxBits = b.trunc.maxBits ∧ AV.Same a.native b.native

/-- The same integer seen in prover mode: all values, no cell. -/
def CrtInt.prover (a : CrtInt p) : CrtInt p := ⟨⟨a.trunc.limbs.map AV.prover, a.trunc.maxBits⟩, a.native.prover, a.value⟩

/-- For a field chip: when two of its field points sit at the same place in the circuit, and what a point looks like
in prover mode.  `r0` and `r1` witness that every routine of the chip respects this. -/
structure Modes (F : FieldOps p) where
  sameU : F.U → F.U → Prop
  sameP : F.P → F.P → Prop
  provU : F.U → F.U
  provP : F.P → F.P
  r0 : FieldRel F false
  r1 : FieldRel F true
  hU0 : ∀ a b, r0.RU a b ↔ sameU a b
  hP0 : ∀ a b, r0.RP a b ↔ sameP a b
  hU1 : ∀ a b, r1.RU a b ↔ b = provU a
  hP1 : ∀ a b, r1.RP a b ↔ b = provP a

namespace Modes
variable {F : FieldOps p} (M : Modes F)

/-- Points at the same place in the circuit. -/
def samePt (P Q : EcPt F) : Prop := M.sameP P.x Q.x ∧ M.sameP P.y Q.y
/-- The prover-mode view of a point. -/
def provPt (P : EcPt F) : EcPt F := ⟨M.provP P.x, M.provP P.y⟩
/-- The prover-mode view of a comparable point. -/
def provCmp : CmpPt F → CmpPt F
  | .strict P => .strict (M.provPt P)
  | .nonStrict P => .nonStrict (M.provPt P)
/-- Comparable points at the same place in the circuit, of the same kind. -/
def sameCmp : CmpPt F → CmpPt F → Prop
  | .strict P, .strict Q => M.samePt P Q
  | .nonStrict P, .nonStrict Q => M.samePt P Q
  | _, _ => False
end Modes

/-! ## Bridges -/

theorem rc_same {a b : CrtInt p} : RC false a b ↔ CrtInt.Same a b :=
  ⟨fun h => ⟨ras_same.1 h.trunc.limbs, h.trunc.bits, ra_same.1 h.native⟩,
    fun h => ⟨⟨ras_same.2 h.1, h.2.1⟩, ra_same.2 h.2.2, by intro h; simp at h⟩⟩

theorem rc_prover {a b : CrtInt p} : RC true a b ↔ b = a.prover := by
  constructor
  · intro h
    obtain ⟨⟨l, m⟩, n, v⟩ := b
    simp only [CrtInt.prover, CrtInt.mk.injEq, OvInt.mk.injEq]
    exact ⟨⟨h.trunc.limbs.toProver, h.trunc.bits.symm⟩, h.native.toProver, (h.value rfl).symm⟩
  · rintro rfl
    exact ⟨⟨ras_prover _, rfl⟩, ra_prover _, fun _ => rfl⟩

theorem forall₂_fun {α : Type} {f : α → α} {R : α → α → Prop} (h : ∀ a b, R a b ↔ b = f a) (l l' : List α) :
    List.Forall₂ R l l' ↔ l' = l.map f := by
  constructor
  · intro g
    induction g with
    | nil => rfl
    | cons g _ ih => rw [(h _ _).1 g, ih]; rfl
  · rintro rfl
    induction l with
    | nil => exact .nil
    | cons a l ih => exact .cons ((h _ _).2 rfl) ih

theorem forall₂_iff {α : Type} {R S : α → α → Prop} (h : ∀ a b, R a b ↔ S a b) (l l' : List α) :
    List.Forall₂ R l l' ↔ List.Forall₂ S l l' :=
  ⟨fun g => g.imp fun a b => (h a b).1, fun g => g.imp fun a b => (h a b).2⟩

/-- `FpChip`: a field point is a CRT integer. -/
def FpChip.modes (c : FpChip p) : Modes c.ops where
  sameU := CrtInt.Same
  sameP := CrtInt.Same
  provU := CrtInt.prover
  provP := CrtInt.prover
  r0 := c.fieldRel false
  r1 := c.fieldRel true
  hU0 := fun _ _ => rc_same
  hP0 := fun _ _ => rc_same
  hU1 := fun _ _ => rc_prover
  hP1 := fun _ _ => rc_prover

/-- `NativeFieldChip`: a field point is an assigned value. -/
def nativeModes (L : ℕ) : Modes (nativeOps p L) where
  sameU := AV.Same
  sameP := AV.Same
  provU := AV.prover
  provP := AV.prover
  r0 := nativeRel L false
  r1 := nativeRel L true
  hU0 := fun _ _ => ra_same
  hP0 := fun _ _ => ra_same
  hU1 := fun a b => ⟨fun h => RA.toProver h, by rintro rfl; exact ra_prover a⟩
  hP1 := fun a b => ⟨fun h => RA.toProver h, by rintro rfl; exact ra_prover a⟩

/-- `Fp2Chip`: a field point is a list of base field points.  `hE` says that the native extension field has a fixed
degree. -/
def Modes.fp2 {F : FieldOps p} (M : Modes F) (E : ExtField F) (hE : ∀ v v', (E.coeffs v).length = (E.coeffs v').length) :
    Modes (fp2Ops F E) where
  sameU := List.Forall₂ M.sameU
  sameP := List.Forall₂ M.sameP
  provU := List.map M.provU
  provP := List.map M.provP
  r0 := fp2Rel M.r0 E hE
  r1 := fp2Rel M.r1 E hE
  hU0 := fun a b => forall₂_iff M.hU0 a b
  hP0 := fun a b => forall₂_iff M.hP0 a b
  hU1 := fun a b => forall₂_fun M.hU1 a b
  hP1 := fun a b => forall₂_fun M.hP1 a b

/-- `Fp12Chip`. -/
def Modes.fp12 {F : FieldOps p} (M : Modes F) (E : ExtField F) (xi : ℤ)
    (hE : ∀ v v', (E.coeffs v).length = (E.coeffs v').length) : Modes (fp12Ops F E xi) where
  sameU := List.Forall₂ M.sameU
  sameP := List.Forall₂ M.sameP
  provU := List.map M.provU
  provP := List.map M.provP
  r0 := fp12Rel M.r0 E xi hE
  r1 := fp12Rel M.r1 E xi hE
  hU0 := fun a b => forall₂_iff M.hU0 a b
  hP0 := fun a b => forall₂_iff M.hP0 a b
  hU1 := fun a b => forall₂_fun M.hU1 a b
  hP1 := fun a b => forall₂_fun M.hP1 a b

private theorem rv0 {α : Type} (v v' : α) : RV false v v' := by intro h; simp at h
private theorem rv20 {α β : Type} (v v' : α × β) : RV2 false v v' := ⟨rv0 _ _, rv0 _ _⟩
private theorem rv21 {α β : Type} (v : α × β) : RV2 true v v := ⟨fun _ => rfl, fun _ => rfl⟩
private theorem s1 : ∀ r r' : AV p, RA false r r' → AV.Same r r' := fun _ _ h => ra_same.1 h
private theorem s0 : ∀ r r' : Unit, True → r = r' := fun _ _ _ => rfl
private theorem p1 : ∀ r r' : AV p, RA true r r' → r' = r.prover := fun _ _ h => h.toProver
private theorem p0 : ∀ r r' : Unit, True → r' = id r := fun _ _ _ => rfl

section
variable {F : FieldOps p} (M : Modes F)

private theorem sU : ∀ r r', M.r0.RU r r' → M.sameU r r' := fun _ _ h => (M.hU0 _ _).1 h
private theorem sP : ∀ r r', M.r0.RP r r' → M.sameP r r' := fun _ _ h => (M.hP0 _ _).1 h
private theorem pU : ∀ r r', M.r1.RU r r' → r' = M.provU r := fun _ _ h => (M.hU1 _ _).1 h
private theorem pP : ∀ r r', M.r1.RP r r' → r' = M.provP r := fun _ _ h => (M.hP1 _ _).1 h
theorem Modes.ec0 (P Q : EcPt F) : REc M.r0 P Q ↔ M.samePt P Q :=
  ⟨fun h => ⟨(M.hP0 _ _).1 h.x, (M.hP0 _ _).1 h.y⟩, fun h => ⟨(M.hP0 _ _).2 h.1, (M.hP0 _ _).2 h.2⟩⟩
theorem Modes.ec1 (P Q : EcPt F) : REc M.r1 P Q ↔ Q = M.provPt P := by
  constructor
  · intro h
    obtain ⟨x, y⟩ := Q
    simp only [Modes.provPt, EcPt.mk.injEq]
    exact ⟨(M.hP1 _ _).1 h.x, (M.hP1 _ _).1 h.y⟩
  · rintro rfl; exact ⟨(M.hP1 _ _).2 rfl, (M.hP1 _ _).2 rfl⟩
theorem Modes.cm0 {P Q : CmpPt F} (h : M.sameCmp P Q) : RCm M.r0 P Q := by
  cases P <;> cases Q <;> simp only [Modes.sameCmp] at h
  · exact .strict ((M.ec0 _ _).2 h)
  · exact .nonStrict ((M.ec0 _ _).2 h)
theorem Modes.cm1 (P : CmpPt F) : RCm M.r1 P (M.provCmp P) := by
  cases P
  · exact .strict ((M.ec1 _ _).2 rfl)
  · exact .nonStrict ((M.ec1 _ _).2 rfl)
private theorem sE : ∀ r r', REc M.r0 r r' → M.samePt r r' := fun _ _ h => (M.ec0 _ _).1 h
private theorem pE : ∀ r r', REc M.r1 r r' → r' = M.provPt r := fun _ _ h => (M.ec1 _ _).1 h

/-! ## The field chips -/

/-- C72, shape of the field chips: two calls with inputs at the same place record the same constraints.  The values
(`v`, `v'`) given to `load_private` are arbitrary; constants (`w`, `z`, `n`) are part of the circuit. -/
theorem C72_field_shape {a a' b b' : F.U} {x x' y y' : F.P} {s s' : AV p} {xs xs' : List F.P} {is is' : List (AV p)}
    (v v' w : F.V) (z : ℤ) (n : ℕ) (ha : M.sameU a a') (hb : M.sameU b b') (hx : M.sameP x x') (hy : M.sameP y y')
    (hs : AV.Same s s') (hxs : List.Forall₂ M.sameP xs xs') (his : AVs.Same is is') :
    ShapeIndep M.sameP (F.loadPrivate v) (F.loadPrivate v') ∧
    ShapeIndep M.sameP (F.loadPrivateReduced v) (F.loadPrivateReduced v') ∧
    ShapeIndep M.sameP (F.loadConstant w) (F.loadConstant w) ∧
    ShapeIndep M.sameU (F.addNoCarry a b) (F.addNoCarry a' b') ∧
    ShapeIndep M.sameU (F.addConstantNoCarry a w) (F.addConstantNoCarry a' w) ∧
    ShapeIndep M.sameU (F.subNoCarry a b) (F.subNoCarry a' b') ∧
    ShapeIndep M.sameP (F.negate x) (F.negate x') ∧
    ShapeIndep M.sameU (F.scalarMulNoCarry a z) (F.scalarMulNoCarry a' z) ∧
    ShapeIndep M.sameU (F.scalarMulAddNoCarry a b z) (F.scalarMulAddNoCarry a' b' z) ∧
    ShapeIndep M.sameU (F.mulNoCarry a b) (F.mulNoCarry a' b') ∧
    ShapeIndep Eq (F.checkCarryModToZero a) (F.checkCarryModToZero a') ∧
    ShapeIndep M.sameP (F.carryMod a) (F.carryMod a') ∧
    ShapeIndep Eq (F.rangeCheck x n) (F.rangeCheck x' n) ∧
    ShapeIndep M.sameP (F.enforceLessThan x) (F.enforceLessThan x') ∧
    ShapeIndep AV.Same (F.isSoftZero x) (F.isSoftZero x') ∧
    ShapeIndep AV.Same (F.isSoftNonzero x) (F.isSoftNonzero x') ∧
    ShapeIndep AV.Same (F.isZero x) (F.isZero x') ∧
    ShapeIndep AV.Same (F.isEqualUnenforced x y) (F.isEqualUnenforced x' y') ∧
    ShapeIndep AV.Same (F.isEqual x y) (F.isEqual x' y') ∧
    ShapeIndep Eq (F.assertEqual x y) (F.assertEqual x' y') ∧
    ShapeIndep M.sameP (F.select x y s) (F.select x' y' s') ∧
    ShapeIndep M.sameP (F.selectByIndicator xs is) (F.selectByIndicator xs' is') ∧
    ShapeIndep M.sameP (F.mul a b) (F.mul a' b') ∧
    ShapeIndep M.sameP (F.divideUnsafe a b) (F.divideUnsafe a' b') ∧
    ShapeIndep M.sameP (F.divide x y) (F.divide x' y') ∧
    ShapeIndep M.sameP (F.negDivideUnsafe a b) (F.negDivideUnsafe a' b') ∧
    ShapeIndep M.sameP (F.negDivide x y) (F.negDivide x' y') := by
  rw [← M.hU0] at ha hb
  rw [← M.hP0] at hx hy
  rw [← ra_same] at hs
  rw [← ras_same] at his
  have hxs := (forall₂_iff M.hP0 _ _).2 hxs
  have R := M.r0
  exact ⟨(M.r0.loadPrivate (rv0 v v')).shape (sP M), (M.r0.loadPrivateReduced (rv0 v v')).shape (sP M),
    (M.r0.loadConstant w).shape (sP M), (M.r0.addNoCarry ha hb).shape (sU M), (M.r0.addConstantNoCarry w ha).shape (sU M),
    (M.r0.subNoCarry ha hb).shape (sU M), (M.r0.negate hx).shape (sP M), (M.r0.scalarMulNoCarry z ha).shape (sU M),
    (M.r0.scalarMulAddNoCarry z ha hb).shape (sU M), (M.r0.mulNoCarry ha hb).shape (sU M),
    (M.r0.checkCarryModToZero ha).shape s0, (M.r0.carryMod ha).shape (sP M), (M.r0.rangeCheck n hx).shape s0,
    (M.r0.enforceLessThan hx).shape (sP M), (M.r0.isSoftZero hx).shape s1, (M.r0.isSoftNonzero hx).shape s1,
    (M.r0.isZero hx).shape s1, (M.r0.isEqualUnenforced hx hy).shape s1, (M.r0.isEqual hx hy).shape s1,
    (M.r0.assertEqual hx hy).shape s0, (M.r0.select hx hy hs).shape (sP M), (M.r0.selectByIndicator hxs his (by simp)).shape (sP M),
    (M.r0.mul ha hb).shape (sP M), (M.r0.divideUnsafe ha hb).shape (sP M), (M.r0.divide hx hy).shape (sP M),
    (M.r0.negDivideUnsafe ha hb).shape (sP M), (M.r0.negDivide hx hy).shape (sP M)⟩

/-- C72, prover mode of the field chips. -/
theorem C72_field_prover (a b : F.U) (x y : F.P) (s : AV p) (xs : List F.P) (is : List (AV p)) (w : F.V) (z : ℤ) (n : ℕ) :
    ProverMatches M.provP (F.loadPrivate w) (F.loadPrivate w) ∧
    ProverMatches M.provP (F.loadPrivateReduced w) (F.loadPrivateReduced w) ∧
    ProverMatches M.provP (F.loadConstant w) (F.loadConstant w) ∧
    ProverMatches M.provU (F.addNoCarry a b) (F.addNoCarry (M.provU a) (M.provU b)) ∧
    ProverMatches M.provU (F.addConstantNoCarry a w) (F.addConstantNoCarry (M.provU a) w) ∧
    ProverMatches M.provU (F.subNoCarry a b) (F.subNoCarry (M.provU a) (M.provU b)) ∧
    ProverMatches M.provP (F.negate x) (F.negate (M.provP x)) ∧
    ProverMatches M.provU (F.scalarMulNoCarry a z) (F.scalarMulNoCarry (M.provU a) z) ∧
    ProverMatches M.provU (F.scalarMulAddNoCarry a b z) (F.scalarMulAddNoCarry (M.provU a) (M.provU b) z) ∧
    ProverMatches M.provU (F.mulNoCarry a b) (F.mulNoCarry (M.provU a) (M.provU b)) ∧
    ProverMatches id (F.checkCarryModToZero a) (F.checkCarryModToZero (M.provU a)) ∧
    ProverMatches M.provP (F.carryMod a) (F.carryMod (M.provU a)) ∧
    ProverMatches id (F.rangeCheck x n) (F.rangeCheck (M.provP x) n) ∧
    ProverMatches M.provP (F.enforceLessThan x) (F.enforceLessThan (M.provP x)) ∧
    ProverMatches AV.prover (F.isSoftZero x) (F.isSoftZero (M.provP x)) ∧
    ProverMatches AV.prover (F.isSoftNonzero x) (F.isSoftNonzero (M.provP x)) ∧
    ProverMatches AV.prover (F.isZero x) (F.isZero (M.provP x)) ∧
    ProverMatches AV.prover (F.isEqualUnenforced x y) (F.isEqualUnenforced (M.provP x) (M.provP y)) ∧
    ProverMatches AV.prover (F.isEqual x y) (F.isEqual (M.provP x) (M.provP y)) ∧
    ProverMatches id (F.assertEqual x y) (F.assertEqual (M.provP x) (M.provP y)) ∧
    ProverMatches M.provP (F.select x y s) (F.select (M.provP x) (M.provP y) s.prover) ∧
    ProverMatches M.provP (F.selectByIndicator xs is) (F.selectByIndicator (xs.map M.provP) (is.map AV.prover)) ∧
    ProverMatches M.provP (F.mul a b) (F.mul (M.provU a) (M.provU b)) ∧
    ProverMatches M.provP (F.divideUnsafe a b) (F.divideUnsafe (M.provU a) (M.provU b)) ∧
    ProverMatches M.provP (F.divide x y) (F.divide (M.provP x) (M.provP y)) ∧
    ProverMatches M.provP (F.negDivideUnsafe a b) (F.negDivideUnsafe (M.provU a) (M.provU b)) ∧
    ProverMatches M.provP (F.negDivide x y) (F.negDivide (M.provP x) (M.provP y)) := by
  have ha := (M.hU1 a _).2 rfl
  have hb := (M.hU1 b _).2 rfl
  have hx := (M.hP1 x _).2 rfl
  have hy := (M.hP1 y _).2 rfl
  have hs := ra_prover s
  have his := ras_prover is
  have hxs := (forall₂_fun M.hP1 xs _).2 rfl
  have hv : RV true w w := fun _ => rfl
  exact ⟨(M.r1.loadPrivate hv).prover (pP M), (M.r1.loadPrivateReduced hv).prover (pP M),
    (M.r1.loadConstant w).prover (pP M), (M.r1.addNoCarry ha hb).prover (pU M), (M.r1.addConstantNoCarry w ha).prover (pU M),
    (M.r1.subNoCarry ha hb).prover (pU M), (M.r1.negate hx).prover (pP M), (M.r1.scalarMulNoCarry z ha).prover (pU M),
    (M.r1.scalarMulAddNoCarry z ha hb).prover (pU M), (M.r1.mulNoCarry ha hb).prover (pU M),
    (M.r1.checkCarryModToZero ha).prover p0, (M.r1.carryMod ha).prover (pP M), (M.r1.rangeCheck n hx).prover p0,
    (M.r1.enforceLessThan hx).prover (pP M), (M.r1.isSoftZero hx).prover p1, (M.r1.isSoftNonzero hx).prover p1,
    (M.r1.isZero hx).prover p1, (M.r1.isEqualUnenforced hx hy).prover p1, (M.r1.isEqual hx hy).prover p1,
    (M.r1.assertEqual hx hy).prover p0, (M.r1.select hx hy hs).prover (pP M), (M.r1.selectByIndicator hxs his (by simp)).prover' (pP M),
    (M.r1.mul ha hb).prover (pP M), (M.r1.divideUnsafe ha hb).prover (pP M), (M.r1.divide hx hy).prover (pP M),
    (M.r1.negDivideUnsafe ha hb).prover (pP M), (M.r1.negDivide hx hy).prover (pP M)⟩

/-! ## The curve chip -/

/-- C72, shape of the curve chip.  `v`, `v'` (points loaded as witnesses), and the random points `r`, `r'`, drawn by
`sub_unequal`-style additions, sums and scalar multiplications, are arbitrary and independent of each other. -/
theorem C72_ecc_shape {P P' Q Q' : EcPt F} {A A' B B' : CmpPt F} {s s' : AV p} {l l' : List (EcPt F)} {is is' bs bs' : List (AV p)}
    {ss ss' : List (List (AV p))} (C : NativeCurve F) (g : C.G) (v v' w : F.V × F.V) (b : F.V) (r r' : MsmRand F) (st : Bool)
    (m wd : ℕ) (hP : M.samePt P P') (hQ : M.samePt Q Q') (hA : M.sameCmp A A') (hB : M.sameCmp B B') (hs : AV.Same s s')
    (hl : List.Forall₂ M.samePt l l') (his : AVs.Same is is') (hbs : AVs.Same bs bs') (hss : List.Forall₂ AVs.Same ss ss') :
    ShapeIndep M.samePt (ecAddUnequal F A B st) (ecAddUnequal F A' B' st) ∧
    ShapeIndep M.samePt (ecSubUnequal F A B st) (ecSubUnequal F A' B' st) ∧
    ShapeIndep M.samePt (ecSubStrict F v P Q) (ecSubStrict F v' P' Q') ∧
    ShapeIndep M.samePt (ecDouble F P) (ecDouble F P') ∧
    ShapeIndep M.samePt (ecDoubleAndAddUnequal F A B st) (ecDoubleAndAddUnequal F A' B' st) ∧
    ShapeIndep M.samePt (ecNegate F P) (ecNegate F P') ∧
    ShapeIndep M.samePt (ecSelect F P Q s) (ecSelect F P' Q' s') ∧
    ShapeIndep M.samePt (ecSelectByIndicator F l is) (ecSelectByIndicator F l' is') ∧
    ShapeIndep M.samePt (ecSelectFromBits F l bs) (ecSelectFromBits F l' bs') ∧
    ShapeIndep AV.Same (ecIsEqual F P Q) (ecIsEqual F P' Q') ∧
    ShapeIndep Eq (ecAssertEqual F P Q) (ecAssertEqual F P' Q') ∧
    ShapeIndep Eq (checkIsOnCurve F b P) (checkIsOnCurve F b P') ∧
    ShapeIndep AV.Same (isOnCurveOrInfinity F b P) (isOnCurveOrInfinity F b P') ∧
    ShapeIndep M.samePt (loadPrivateUnchecked F v) (loadPrivateUnchecked F v') ∧
    ShapeIndep M.samePt (loadPoint F b v) (loadPoint F b v') ∧
    ShapeIndep M.samePt (assignPoint F b v) (assignPoint F b v') ∧
    ShapeIndep M.samePt (assignConstantPoint F w) (assignConstantPoint F w) ∧
    ShapeIndep M.samePt (ecSum F b v l) (ecSum F b v' l') ∧
    ShapeIndep M.samePt (scalarMultiply F b r P bs m wd) (scalarMultiply F b r' P' bs' m wd) ∧
    ShapeIndep M.samePt (multiScalarMultiply F b r l ss m wd) (multiScalarMultiply F b r' l' ss' m wd) ∧
    ShapeIndep M.samePt (fixedScalarMultiply F C b r g bs m wd) (fixedScalarMultiply F C b r' g bs' m wd) := by
  have hP := (M.ec0 _ _).2 hP
  have hQ := (M.ec0 _ _).2 hQ
  have hA := M.cm0 hA
  have hB := M.cm0 hB
  have hs := ra_same.2 hs
  have hl := (forall₂_iff M.ec0 _ _).2 hl
  have his := ras_same.2 his
  have hbs := ras_same.2 hbs
  have hss := (forall₂_iff (fun a b => (ras_same (l := a) (l' := b))) _ _).2 hss
  have hv : RV2 false v v' := rv20 v v'
  have hr : RRand false r r' := ⟨rv20 _ _, rv20 _ _⟩
  exact ⟨(ecAddUnequal_rel M.r0 hA hB st).shape (sE M), (ecSubUnequal_rel M.r0 hA hB st).shape (sE M),
    (ecSubStrict_rel M.r0 hv hP hQ).shape (sE M), (ecDouble_rel M.r0 hP).shape (sE M),
    (ecDoubleAndAddUnequal_rel M.r0 hA hB st).shape (sE M), (ecNegate_rel M.r0 hP).shape (sE M),
    (ecSelect_rel M.r0 hP hQ hs).shape (sE M), (ecSelectByIndicator_rel M.r0 hl his (by simp)).shape (sE M),
    (ecSelectFromBits_rel M.r0 hl hbs).shape (sE M), (ecIsEqual_rel M.r0 hP hQ).shape s1,
    (ecAssertEqual_rel M.r0 hP hQ).shape s0, (checkIsOnCurve_rel M.r0 b hP).shape s0,
    (isOnCurveOrInfinity_rel M.r0 b hP).shape s1, (loadPrivateUnchecked_rel M.r0 hv).shape (sE M),
    (loadPoint_rel M.r0 b hv).shape (sE M), (assignPoint_rel M.r0 b hv).shape (sE M),
    (assignConstantPoint_rel M.r0 w).shape (sE M), (ecSum_rel M.r0 b hv hl).shape (sE M),
    (scalarMultiply_rel M.r0 b hr hP hbs m wd).shape (sE M), (multiScalarMultiply_rel M.r0 b hr hl hss m wd).shape (sE M),
    (fixedScalarMultiply_rel M.r0 C b hr g hbs m wd).shape (sE M)⟩

/-- C72, prover mode of the curve chip. -/
theorem C72_ecc_prover (P Q : EcPt F) (A B : CmpPt F) (s : AV p) (l : List (EcPt F)) (is bs : List (AV p))
    (ss : List (List (AV p))) (C : NativeCurve F) (g : C.G) (v : F.V × F.V) (b : F.V) (r : MsmRand F) (st : Bool) (m wd : ℕ) :
    ProverMatches M.provPt (ecAddUnequal F A B st) (ecAddUnequal F (M.provCmp A) (M.provCmp B) st) ∧
    ProverMatches M.provPt (ecSubUnequal F A B st) (ecSubUnequal F (M.provCmp A) (M.provCmp B) st) ∧
    ProverMatches M.provPt (ecSubStrict F v P Q) (ecSubStrict F v (M.provPt P) (M.provPt Q)) ∧
    ProverMatches M.provPt (ecDouble F P) (ecDouble F (M.provPt P)) ∧
    ProverMatches M.provPt (ecDoubleAndAddUnequal F A B st) (ecDoubleAndAddUnequal F (M.provCmp A) (M.provCmp B) st) ∧
    ProverMatches M.provPt (ecNegate F P) (ecNegate F (M.provPt P)) ∧
    ProverMatches M.provPt (ecSelect F P Q s) (ecSelect F (M.provPt P) (M.provPt Q) s.prover) ∧
    ProverMatches M.provPt (ecSelectByIndicator F l is) (ecSelectByIndicator F (l.map M.provPt) (is.map .prover)) ∧
    ProverMatches M.provPt (ecSelectFromBits F l bs) (ecSelectFromBits F (l.map M.provPt) (bs.map .prover)) ∧
    ProverMatches AV.prover (ecIsEqual F P Q) (ecIsEqual F (M.provPt P) (M.provPt Q)) ∧
    ProverMatches id (ecAssertEqual F P Q) (ecAssertEqual F (M.provPt P) (M.provPt Q)) ∧
    ProverMatches id (checkIsOnCurve F b P) (checkIsOnCurve F b (M.provPt P)) ∧
    ProverMatches AV.prover (isOnCurveOrInfinity F b P) (isOnCurveOrInfinity F b (M.provPt P)) ∧
    ProverMatches M.provPt (loadPrivateUnchecked F v) (loadPrivateUnchecked F v) ∧
    ProverMatches M.provPt (loadPoint F b v) (loadPoint F b v) ∧
    ProverMatches M.provPt (assignPoint F b v) (assignPoint F b v) ∧
    ProverMatches M.provPt (assignConstantPoint F v) (assignConstantPoint F v) ∧
    ProverMatches M.provPt (ecSum F b v l) (ecSum F b v (l.map M.provPt)) ∧
    ProverMatches M.provPt (scalarMultiply F b r P bs m wd) (scalarMultiply F b r (M.provPt P) (bs.map .prover) m wd) ∧
    ProverMatches M.provPt (multiScalarMultiply F b r l ss m wd)
      (multiScalarMultiply F b r (l.map M.provPt) (ss.map (List.map .prover)) m wd) ∧
    ProverMatches M.provPt (fixedScalarMultiply F C b r g bs m wd) (fixedScalarMultiply F C b r g (bs.map .prover) m wd) := by
  have hP := (M.ec1 P _).2 rfl
  have hQ := (M.ec1 Q _).2 rfl
  have hA := M.cm1 A
  have hB := M.cm1 B
  have hs := ra_prover s
  have hl := (forall₂_fun M.ec1 l _).2 rfl
  have his := ras_prover is
  have hbs := ras_prover bs
  have hss : List.Forall₂ (RAs true) ss (ss.map (List.map .prover)) :=
    (forall₂_fun (fun a b => ⟨fun h => RAs.toProver h, by rintro rfl; exact ras_prover a⟩) ss _).2 rfl
  have hv : RV2 true v v := rv21 v
  have hr : RRand true r r := ⟨rv21 _, rv21 _⟩
  exact ⟨(ecAddUnequal_rel M.r1 hA hB st).prover (pE M), (ecSubUnequal_rel M.r1 hA hB st).prover (pE M),
    (ecSubStrict_rel M.r1 hv hP hQ).prover (pE M), (ecDouble_rel M.r1 hP).prover (pE M),
    (ecDoubleAndAddUnequal_rel M.r1 hA hB st).prover (pE M), (ecNegate_rel M.r1 hP).prover (pE M),
    (ecSelect_rel M.r1 hP hQ hs).prover (pE M), (ecSelectByIndicator_rel M.r1 hl his (by simp)).prover' (pE M),
    (ecSelectFromBits_rel M.r1 hl hbs).prover (pE M), (ecIsEqual_rel M.r1 hP hQ).prover p1,
    (ecAssertEqual_rel M.r1 hP hQ).prover p0, (checkIsOnCurve_rel M.r1 b hP).prover p0,
    (isOnCurveOrInfinity_rel M.r1 b hP).prover p1, (loadPrivateUnchecked_rel M.r1 hv).prover (pE M),
    (loadPoint_rel M.r1 b hv).prover (pE M), (assignPoint_rel M.r1 b hv).prover (pE M),
    (assignConstantPoint_rel M.r1 v).prover (pE M), (ecSum_rel M.r1 b hv hl).prover (pE M),
    (scalarMultiply_rel M.r1 b hr hP hbs m wd).prover (pE M), (multiScalarMultiply_rel M.r1 b hr hl hss m wd).prover (pE M),
    (fixedScalarMultiply_rel M.r1 C b hr g hbs m wd).prover (pE M)⟩
end

/-! ## Signatures -/

/-- C72, shape of signature verification: the circuit of `ecdsa_verify_no_pubkey_check` and
`schnorr_verify_no_pubkey_check` is fixed by the chip, the curve and the window sizes; signature, message, public key
and the random points `v`, `v'` do not change it. -/
theorem C72_sig_shape (c : FpChip p) (N : ℕ) (C : NativeCurve c.ops) (b : c.ops.V) (gen : C.G) (v v' : SigRand c)
    {P P' : EcPt c.ops} {r r' s s' z z' : CrtInt p} (vw fw : ℕ) (hx : CrtInt.Same P.x P'.x) (hy : CrtInt.Same P.y P'.y)
    (hr : CrtInt.Same r r') (hs : CrtInt.Same s s') (hz : CrtInt.Same z z') :
    ShapeIndep AV.Same (ecdsaVerify c N C b gen v P r s z vw fw) (ecdsaVerify c N C b gen v' P' r' s' z' vw fw) ∧
    ShapeIndep AV.Same (schnorrVerify c N C b gen v P r s z vw fw) (schnorrVerify c N C b gen v' P' r' s' z' vw fw) := by
  have hP : REc (c.fieldRel false) P P' := ⟨rc_same.2 hx, rc_same.2 hy⟩
  have hv : RSig c false v v' := ⟨⟨rv20 _ _, rv20 _ _⟩, ⟨rv20 _ _, rv20 _ _⟩, rv20 _ _⟩
  exact ⟨(ecdsaVerify_rel c N C b gen hv hP (rc_same.2 hr) (rc_same.2 hs) (rc_same.2 hz) vw fw).shape s1,
    (schnorrVerify_rel c N C b gen hv hP (rc_same.2 hr) (rc_same.2 hs) (rc_same.2 hz) vw fw).shape s1⟩

/-- C72, prover mode of signature verification. -/
theorem C72_sig_prover (c : FpChip p) (N : ℕ) (C : NativeCurve c.ops) (b : c.ops.V) (gen : C.G) (v : SigRand c)
    (P : EcPt c.ops) (r s z : CrtInt p) (vw fw : ℕ) :
    ProverMatches AV.prover (ecdsaVerify c N C b gen v P r s z vw fw)
      (ecdsaVerify c N C b gen v (c.modes.provPt P) r.prover s.prover z.prover vw fw) ∧
    ProverMatches AV.prover (schnorrVerify c N C b gen v P r s z vw fw)
      (schnorrVerify c N C b gen v (c.modes.provPt P) r.prover s.prover z.prover vw fw) := by
  have hP : REc (c.fieldRel true) P (c.modes.provPt P) := (c.modes.ec1 _ _).2 rfl
  have hv : RSig c true v v := ⟨⟨rv21 _, rv21 _⟩, ⟨rv21 _, rv21 _⟩, rv21 _⟩
  exact ⟨(ecdsaVerify_rel c N C b gen hv hP (rc_prover.2 rfl) (rc_prover.2 rfl) (rc_prover.2 rfl) vw fw).prover p1,
    (schnorrVerify_rel c N C b gen hv hP (rc_prover.2 rfl) (rc_prover.2 rfl) (rc_prover.2 rfl) vw fw).prover p1⟩

/-! ## A concrete program -/

theorem secpDivCheck_rel {k : Bool} {u u' v v' : ZMod secpP} (hu : RV k u u') (hv : RV k v v') :
    Rel k (secpDivCheck u v) (secpDivCheck u' v') (fun _ _ => True) := by
  let R := FpChip.fieldRel (fpChip bn254R 16 secpP 88 3) k
  exact (R.loadPrivate hu).bind fun _ _ ha => (R.loadPrivate hv).bind fun _ _ hb => (R.divide ha hb).bind fun _ _ hq =>
    (R.mul hq hb).bind fun _ _ hr => R.assertEqual hr ha

/-- The statements above are about runs that exist: the keygen runs of the same program on any two inputs succeed and
record the same circuit, and the prover-mode run succeeds with the same witness and records no constraint. -/
theorem C72_concrete [Fact (fpChip bn254R 16 secpP 88 3).modulus.Prime] (u v u' v' : ZMod secpP) (hv : v ≠ 0) (hv' : v' ≠ 0) :
    ∃ s s' t, secpDivCheck u v (Ctx.new false 0 "" 0 [] []) = some ((), s) ∧
      secpDivCheck u' v' (Ctx.new false 0 "" 0 [] []) = some ((), s') ∧ SameShape s s' ∧
      secpDivCheck u v (Ctx.new true 0 "" 0 [] []) = some ((), t) ∧ t.advice = s.advice ∧ t.eqs = [] ∧ t.consts = [] := by
  obtain ⟨_, s, h1, -⟩ := secpDivCheck_completes (fun _ => 0) u v hv
  obtain ⟨_, s', h2, -⟩ := secpDivCheck_completes (fun _ => 0) u' v' hv'
  have hsh := (secpDivCheck_rel (rv0 u u') (rv0 v v')).shape s0 _ _ (sameShape_refl rfl) _ _ _ _ h1 h2
  obtain ⟨t, h3, h4, -, h5, h6⟩ := (secpDivCheck_rel (k := true) (fun _ => rfl) (fun _ => rfl)).prover (f := id) p0 _ _
    (proverOf_new 0 "" 0) _ _ h1
  exact ⟨s, s', t, h1, h2, hsh.1, h3, h4.advice, h5, h6⟩

end H2
