import Verif.Ecc.Sound
import Verif.Fields.CompleteLaws

/-!
# Completeness of the elliptic-curve operations

Run honestly on canonical coordinates, the operations of `EccChip` succeed, satisfy all their constraints, and return the sum,
difference, double ... of the points, whenever the group law case they implement applies.
-/

set_option autoImplicit false
set_option linter.unusedSectionVars false
namespace H2
variable {p : ℕ} [Fact p.Prime]
variable {F : FieldOps p} {K : Type} [Field K] [DecidableEq K] {tbl : ZMod p → Prop} {l : FieldLaws F K tbl}

/-- The size conditions of `EcFits`, for completeness. -/
structure EcFitsC (k : FieldCmp l) : Prop where
  addSlope : k.zFits (l.subSz (l.mulSz l.pSz (l.subSz l.pSz l.pSz)) (l.subSz l.pSz l.pSz))
  subSlope : k.zFits (l.addSz (l.mulSz l.pSz (l.subSz l.pSz l.pSz)) (l.addSz l.pSz l.pSz))
  x3 : k.cFits (l.subSz (l.subSz (l.mulSz l.pSz l.pSz) l.pSz) l.pSz)
  y3 : k.cFits (l.subSz (l.mulSz l.pSz (l.subSz l.pSz l.pSz)) l.pSz)
  dblSlope : k.zFits (l.subSz (l.mulSz l.pSz (l.smulSz 2 l.pSz)) (l.mulSz (l.smulSz 3 l.pSz) l.pSz))
  dblX : k.cFits (l.subSz (l.mulSz l.pSz l.pSz) (l.smulSz 2 l.pSz))
  daSlope : k.zFits (l.subSz (l.mulSz l.pSz (l.subSz l.pSz l.pSz)) (l.smulSz 2 l.pSz))
  daX : k.cFits (l.subSz (l.subSz (l.mulSz (l.addSz l.pSz l.pSz) (l.addSz l.pSz l.pSz)) l.pSz) l.pSz)
  daY : k.cFits (l.subSz (l.mulSz (l.addSz l.pSz l.pSz) (l.subSz l.pSz l.pSz)) l.pSz)
  sq : k.cFits (l.mulSz l.pSz l.pSz)
  onZero : k.zFits (l.subSz (l.mulSz l.pSz l.pSz) (l.addcSz (l.mulSz l.pSz l.pSz)))
  onCarry : k.cFits (l.subSz (l.mulSz l.pSz l.pSz) (l.addcSz (l.mulSz l.pSz l.pSz)))
  div : k.zFits (l.subSz (l.mulSz l.pSz l.pSz) l.pSz)

/-- In the honest assignment, `P` holds the coordinates `X`, `Y`, canonically. -/
def XYW (k : FieldCmp l) (ext : Cell → ZMod p) (s : Ctx p) (P : EcPt F) (X Y : K) : Prop := k.PW ext s P.x X ∧ k.PW ext s P.y Y

/-- In the honest assignment, `P` holds the finite curve point `g`, with canonical coordinates. -/
def EcW (k : FieldCmp l) (b : K) (ext : Cell → ZMod p) (s : Ctx p) (P : EcPt F) (g : ECurve b) : Prop :=
  ∃ X Y, XYW k ext s P X Y ∧ IsPt b X Y g

/-- The same with `(0, 0)` standing for infinity. -/
def EcW0 (k : FieldCmp l) (b : K) (ext : Cell → ZMod p) (s : Ctx p) (P : EcPt F) (g : ECurve b) : Prop :=
  ∃ X Y, XYW k ext s P X Y ∧ IsPt0 b X Y g

section
variable {k : FieldCmp l} {b : K} {ext : Cell → ZMod p} {s s' : Ctx p}

theorem XYW.mono {P : EcPt F} {X Y : K} (h : XYW k ext s P X Y) (e : Ext s s') : XYW k ext s' P X Y :=
  ⟨k.p_mono h.1 e, k.p_mono h.2 e⟩

theorem EcW.mono {P : EcPt F} {g : ECurve b} (h : EcW k b ext s P g) (e : Ext s s') : EcW k b ext s' P g := by
  obtain ⟨X, Y, h1, h2⟩ := h
  exact ⟨X, Y, h1.mono e, h2⟩

theorem EcW0.mono {P : EcPt F} {g : ECurve b} (h : EcW0 k b ext s P g) (e : Ext s s') : EcW0 k b ext s' P g := by
  obtain ⟨X, Y, h1, h2⟩ := h
  exact ⟨X, Y, h1.mono e, h2⟩

theorem EcW.zero {P : EcPt F} {g : ECurve b} (h : EcW k b ext s P g) : EcW0 k b ext s P g := by
  obtain ⟨X, Y, h1, h2⟩ := h
  exact ⟨X, Y, h1, .inl h2⟩

/-- A finite point held with the convention for infinity. -/
theorem EcW0.finite {P : EcPt F} {g : ECurve b} (h : EcW0 k b ext s P g) (hg : g ≠ 0) : EcW k b ext s P g := by
  obtain ⟨X, Y, h1, h2⟩ := h
  rcases h2 with h2 | h2
  · exact ⟨X, Y, h1, h2⟩
  · exact absurd h2.1 hg

theorem XYW.rep {P : EcPt F} {X Y : K} (h : XYW k ext s P X Y) : XYRep l (hw ext s) P X Y :=
  ⟨l.r_p _ _ _ (k.p_r h.1), l.r_p _ _ _ (k.p_r h.2)⟩

/-- What the honest assignment holds is what the soundness theorems speak about. -/
theorem EcW.rep {P : EcPt F} {g : ECurve b} (h : EcW k b ext s P g) : EcRep l b (hw ext s) P g := by
  obtain ⟨X, Y, h1, h2⟩ := h
  exact ⟨X, Y, h1.rep, h2⟩

theorem EcW0.rep {P : EcPt F} {g : ECurve b} (h : EcW0 k b ext s P g) : EcRep0 l b (hw ext s) P g := by
  obtain ⟨X, Y, h1, h2⟩ := h
  exact ⟨X, Y, h1.rep, h2⟩

/-! ### Field level -/

theorem reducedX_cmp {P : CmpPt F} {X : K} (h : k.PW ext s P.pt.x X) : Cmp tbl ext s (reducedX F P) (fun r s' => k.PW ext s' r X) := by
  cases P with
  | strict pt => exact Cmp.pure h
  | nonStrict pt => exact k.enforceLessThan h

theorem checkPointsAreUnequal_cmp {P Q : CmpPt F} {c : Bool} {X1 X2 : K} (h1 : k.PW ext s P.pt.x X1) (h2 : k.PW ext s Q.pt.x X2)
    (hne : c = true → X1 ≠ X2) : Cmp tbl ext s (checkPointsAreUnequal F P Q c) (fun _ _ => True) := by
  unfold checkPointsAreUnequal
  split
  · next hc =>
    refine Cmp.bind (reducedX_cmp h1) fun x1 s1 e1 r1 => Cmp.bind (reducedX_cmp (k.p_mono h2 e1)) fun x2 s2 e2 r2 =>
      Cmp.bind (k.isEqualUnenforced (k.p_mono r1 e2) r2) fun e s3 e3 he => ?_
    rw [bit, if_neg (hne hc)] at he
    exact (assertIsConst_cmp he.conF).weaken fun _ _ _ => trivial
  · exact Cmp.pure trivial

theorem chordEnd_cmp (hf : EcFitsC k) {P Q : EcPt F} {lam : F.P} {X1 Y1 X2 Y2 L : K} (hP : XYW k ext s P X1 Y1)
    (hQ : XYW k ext s Q X2 Y2) (hL : k.PW ext s lam L) : Cmp tbl ext s (chordEnd F P Q lam) (fun r s' =>
      XYW k ext s' r (L * L - X1 - X2) (L * (X1 - (L * L - X1 - X2)) - Y1)) := by
  refine Cmp.bind (k.mulNoCarry (k.p_u hL) (k.p_u hL)) fun a1 s1 e1 h1 => ?_
  refine Cmp.bind (k.subNoCarry h1 (k.p_u (k.p_mono hP.1 e1))) fun a2 s2 e2 h2 => ?_
  refine Cmp.bind (k.subNoCarry h2 (k.p_u (k.p_mono hQ.1 (e1.trans e2)))) fun a3 s3 e3 h3 => ?_
  refine Cmp.bind (k.carryMod h3 hf.x3) fun x3 s4 e4 h4 => ?_
  have e14 := ((e1.trans e2).trans e3).trans e4
  refine Cmp.bind (k.subNoCarry (k.p_u (k.p_mono hP.1 e14)) (k.p_u h4)) fun a5 s5 e5 h5 => ?_
  refine Cmp.bind (k.mulNoCarry (k.p_u (k.p_mono hL (e14.trans e5))) h5) fun a6 s6 e6 h6 => ?_
  refine Cmp.bind (k.subNoCarry h6 (k.p_u (k.p_mono hP.2 ((e14.trans e5).trans e6)))) fun a7 s7 e7 h7 => ?_
  exact Cmp.bind (k.carryMod h7 hf.y3) fun y3 s8 e8 h8 => Cmp.pure ⟨k.p_mono h4 (((e5.trans e6).trans e7).trans e8), h8⟩

theorem ecAddUnequal_cmpXY (hf : EcFitsC k) {P Q : CmpPt F} {c : Bool} {X1 Y1 X2 Y2 : K} (hP : XYW k ext s P.pt X1 Y1)
    (hQ : XYW k ext s Q.pt X2 Y2) (hne : c = true → X1 ≠ X2) (h0 : X2 - X1 = 0 → Y2 - Y1 = 0) :
    Cmp tbl ext s (ecAddUnequal F P Q c) (fun r s' => ∀ L, L = (Y2 - Y1) / (X2 - X1) →
      XYW k ext s' r (L * L - X1 - X2) (L * (X1 - (L * L - X1 - X2)) - Y1)) := by
  refine Cmp.bind (checkPointsAreUnequal_cmp hP.1 hQ.1 hne) fun _ s1 e1 _ => ?_
  have hP := hP.mono e1
  have hQ := hQ.mono e1
  refine Cmp.bind (k.subNoCarry (k.p_u hQ.1) (k.p_u hP.1)) fun dx s2 e2 h2 => ?_
  have hP := hP.mono e2
  have hQ := hQ.mono e2
  refine Cmp.bind (k.subNoCarry (k.p_u hQ.2) (k.p_u hP.2)) fun dy s3 e3 h3 => ?_
  have hP := hP.mono e3
  have hQ := hQ.mono e3
  refine Cmp.bind (k.divideUnsafe hf.addSlope h3 (k.u_mono h2 e3) h0) fun lam s4 e4 h4 => ?_
  exact (chordEnd_cmp hf (hP.mono e4) (hQ.mono e4) h4).weaken fun r s' h L hL => hL ▸ h

theorem ecSubUnequal_cmpXY (hf : EcFitsC k) {P Q : CmpPt F} {c : Bool} {X1 Y1 X2 Y2 : K} (hP : XYW k ext s P.pt X1 Y1)
    (hQ : XYW k ext s Q.pt X2 Y2) (hne : c = true → X1 ≠ X2) (h0 : X2 - X1 = 0 → Y2 + Y1 = 0) :
    Cmp tbl ext s (ecSubUnequal F P Q c) (fun r s' => ∀ L, L = -(Y2 + Y1) / (X2 - X1) →
      XYW k ext s' r (L * L - X1 - X2) (L * (X1 - (L * L - X1 - X2)) - Y1)) := by
  refine Cmp.bind (checkPointsAreUnequal_cmp hP.1 hQ.1 hne) fun _ s1 e1 _ => ?_
  have hP := hP.mono e1
  have hQ := hQ.mono e1
  refine Cmp.bind (k.subNoCarry (k.p_u hQ.1) (k.p_u hP.1)) fun dx s2 e2 h2 => ?_
  have hP := hP.mono e2
  have hQ := hQ.mono e2
  refine Cmp.bind (k.addNoCarry (k.p_u hQ.2) (k.p_u hP.2)) fun dy s3 e3 h3 => ?_
  have hP := hP.mono e3
  have hQ := hQ.mono e3
  refine Cmp.bind (k.negDivideUnsafe hf.subSlope h3 (k.u_mono h2 e3) h0) fun lam s4 e4 h4 => ?_
  exact (chordEnd_cmp hf (hP.mono e4) (hQ.mono e4) h4).weaken fun r s' h L hL => hL ▸ h

theorem ecSelect_cmpXY {P Q : EcPt F} {sel : AV p} {X1 Y1 X2 Y2 : K} {t : Prop} [Decidable t] (hP : XYW k ext s P X1 Y1)
    (hQ : XYW k ext s Q X2 Y2) (hs : Con ext s sel (bit t)) : Cmp tbl ext s (ecSelect F P Q sel) (fun r s' =>
      XYW k ext s' r (if t then X1 else X2) (if t then Y1 else Y2)) := by
  refine Cmp.bind (k.select hP.1 hQ.1 hs) fun rx s1 e1 h1 => ?_
  exact Cmp.bind (k.select (k.p_mono hP.2 e1) (k.p_mono hQ.2 e1) (hs.mono e1)) fun ry s2 e2 h2 => Cmp.pure ⟨k.p_mono h1 e2, h2⟩

theorem ecDouble_cmpXY (hf : EcFitsC k) {P : EcPt F} {X Y : K} (hP : XYW k ext s P X Y) (h0 : Y * 2 = 0 → X * 3 * X = 0) :
    Cmp tbl ext s (ecDouble F P) (fun r s' => ∀ L, L = X * 3 * X / (Y * 2) →
      XYW k ext s' r (L * L - X * 2) (L * (X - (L * L - X * 2)) - Y)) := by
  have c2 : ((2 : ℤ) : K) = 2 := by norm_num
  have c3 : ((3 : ℤ) : K) = 3 := by norm_num
  refine Cmp.bind (k.scalarMulNoCarry 2 (by norm_num) (k.p_u hP.2)) fun a1 s1 e1 h1 => ?_
  rw [c2] at h1
  have hP := hP.mono e1
  refine Cmp.bind (k.scalarMulNoCarry 3 (by norm_num) (k.p_u hP.1)) fun a2 s2 e2 h2 => ?_
  rw [c3] at h2
  have hP := hP.mono e2
  refine Cmp.bind (k.mulNoCarry h2 (k.p_u hP.1)) fun a3 s3 e3 h3 => ?_
  have hP := hP.mono e3
  refine Cmp.bind (k.divideUnsafe hf.dblSlope h3 (k.u_mono h1 (e2.trans e3)) h0) fun lam s4 e4 hL => ?_
  have hP := hP.mono e4
  refine Cmp.bind (k.mulNoCarry (k.p_u hL) (k.p_u hL)) fun a5 s5 e5 h5 => ?_
  have hP := hP.mono e5
  refine Cmp.bind (k.scalarMulNoCarry 2 (by norm_num) (k.p_u hP.1)) fun a6 s6 e6 h6 => ?_
  rw [c2] at h6
  have hP := hP.mono e6
  refine Cmp.bind (k.subNoCarry (k.u_mono h5 e6) h6) fun a7 s7 e7 h7 => ?_
  have hP := hP.mono e7
  refine Cmp.bind (k.carryMod h7 hf.dblX) fun x3 s8 e8 h8 => ?_
  have hP := hP.mono e8
  have hL := k.p_mono hL (((e5.trans e6).trans e7).trans e8)
  refine Cmp.bind (k.subNoCarry (k.p_u hP.1) (k.p_u h8)) fun a9 s9 e9 h9 => ?_
  have hP := hP.mono e9
  refine Cmp.bind (k.mulNoCarry (k.p_u (k.p_mono hL e9)) h9) fun a10 s10 e10 h10 => ?_
  have hP := hP.mono e10
  refine Cmp.bind (k.subNoCarry h10 (k.p_u hP.2)) fun a11 s11 e11 h11 => ?_
  refine Cmp.bind (k.carryMod h11 hf.y3) fun y3 s12 e12 h12 => Cmp.pure ?_
  rintro L rfl
  exact ⟨k.p_mono h8 (((e9.trans e10).trans e11).trans e12), h12⟩

theorem daCheck1_cmp {P Q : CmpPt F} {c : Bool} {X1 X2 : K} (h1 : k.PW ext s P.pt.x X1) (h2 : k.PW ext s Q.pt.x X2)
    (hne : c = true → X1 ≠ X2) : Cmp tbl ext s (daCheck1 F P Q c) (fun r s' => c = true → ∃ x0, r = some x0 ∧ k.PW ext s' x0 X1) := by
  unfold daCheck1
  split
  · next hc =>
    refine Cmp.bind (reducedX_cmp h1) fun x1 s1 e1 r1 => Cmp.bind (reducedX_cmp (k.p_mono h2 e1)) fun x2 s2 e2 r2 =>
      Cmp.bind (k.isEqualUnenforced (k.p_mono r1 e2) r2) fun e s3 e3 he => ?_
    rw [bit, if_neg (hne hc)] at he
    exact Cmp.bind (assertIsConst_cmp he.conF) fun _ s4 e4 _ => Cmp.pure fun _ => ⟨x1, rfl, k.p_mono r1 ((e2.trans e3).trans e4)⟩
  · next h => exact Cmp.pure fun hc => absurd hc h

theorem daCheck2_cmp {x0 : Option F.P} {x2 : F.P} {c : Bool} {X1 X2 : K} (h1 : c = true → ∃ x, x0 = some x ∧ k.PW ext s x X1)
    (h2 : k.PW ext s x2 X2) (hne : c = true → X1 ≠ X2) : Cmp tbl ext s (daCheck2 F x0 x2 c) (fun _ _ => True) := by
  unfold daCheck2
  split
  · next hc =>
    obtain ⟨x, rfl, hx⟩ := h1 hc
    refine Cmp.bind (k.enforceLessThan h2) fun x2' s1 e1 r2 => ?_
    refine Cmp.unwrap rfl ?_
    refine Cmp.bind (k.isEqualUnenforced (k.p_mono hx e1) r2) fun e s3 e3 he => ?_
    rw [bit, if_neg (hne hc)] at he
    exact (assertIsConst_cmp he.conF).weaken fun _ _ _ => trivial
  · exact Cmp.pure trivial

theorem curveDiff_cmp (hf : EcFitsC k) (bv : F.V) {P : EcPt F} {X Y : K} (hP : XYW k ext s P X Y) :
    Cmp tbl ext s (curveDiff F bv P) (fun r s' => k.UW ext s' r (Y * Y - (X * X * X + l.val bv))
      (l.subSz (l.mulSz l.pSz l.pSz) (l.addcSz (l.mulSz l.pSz l.pSz)))) := by
  refine Cmp.bind (k.mulNoCarry (k.p_u hP.2) (k.p_u hP.2)) fun a1 s1 e1 h1 => ?_
  have hP := hP.mono e1
  refine Cmp.bind (k.mul hf.sq (k.p_u hP.1) (k.p_u hP.1)) fun a2 s2 e2 h2 => ?_
  have hP := hP.mono e2
  refine Cmp.bind (k.mulNoCarry (k.p_u h2) (k.p_u hP.1)) fun a3 s3 e3 h3 => ?_
  refine Cmp.bind (k.addConstantNoCarry bv h3) fun a4 s4 e4 h4 => ?_
  exact k.subNoCarry (k.u_mono h1 ((e2.trans e3).trans e4)) h4

theorem checkIsOnCurve_cmp (hf : EcFitsC k) (bv : F.V) {P : EcPt F} {X Y : K} (hP : XYW k ext s P X Y)
    (h : Y ^ 2 = X ^ 3 + l.val bv) : Cmp tbl ext s (checkIsOnCurve F bv P) (fun _ _ => True) := by
  refine Cmp.bind (curveDiff_cmp hf bv hP) fun d s1 e1 h1 => ?_
  rw [show Y * Y - (X * X * X + l.val bv) = 0 by linear_combination h] at h1
  exact k.checkCarryModToZero h1 hf.onZero

theorem loadPrivateUnchecked_cmp (v : F.V × F.V) : Cmp tbl ext s (loadPrivateUnchecked F v) (fun r s' =>
    XYW k ext s' r (l.val v.1) (l.val v.2)) := by
  refine Cmp.bind (k.loadPrivate v.1) fun x s1 e1 h1 => Cmp.bind (k.loadPrivate v.2) fun y s2 e2 h2 => Cmp.pure ⟨k.p_mono h1 e2, h2⟩

theorem intoStrictPoint_cmp {P : EcPt F} {X Y : K} (hP : XYW k ext s P X Y) : Cmp tbl ext s (intoStrictPoint F P) (fun r s' =>
    XYW k ext s' r X Y) :=
  Cmp.bind (k.enforceLessThan hP.1) fun x s1 e1 h1 => Cmp.pure ⟨h1, k.p_mono hP.2 e1⟩

theorem isOnCurveOrInfinity_cmp (hf : EcFitsC k) (bv : F.V) {P : EcPt F} {X Y : K} (hP : XYW k ext s P X Y) :
    Cmp tbl ext s (isOnCurveOrInfinity F bv P) (fun r s' => Con ext s' r (bit (Y ^ 2 = X ^ 3 + l.val bv ∨ (X = 0 ∧ Y = 0)))) := by
  refine Cmp.bind (curveDiff_cmp hf bv hP) fun d s1 e1 h1 => ?_
  have hP := hP.mono e1
  refine Cmp.bind (k.carryMod h1 hf.onCarry) fun d' s2 e2 h2 => ?_
  have hP := hP.mono e2
  refine Cmp.bind (k.isZero h2) fun z s3 e3 h3 => ?_
  have hP := hP.mono e3
  refine Cmp.bind (k.isZero hP.1) fun xz s4 e4 h4 => ?_
  have hP := hP.mono e4
  refine Cmp.bind (k.isZero hP.2) fun yz s5 e5 h5 => ?_
  refine (orAnd_cmp (show QCon ext s5 (.existing z) _ from (h3.mono (e4.trans e5)))
    (show QCon ext s5 (.existing xz) _ from (h4.mono e5)) (show QCon ext s5 (.existing yz) _ from h5)).weaken fun r s' h => ?_
  have kk : (Y * Y - (X * X * X + l.val bv) = 0) ↔ Y ^ 2 = X ^ 3 + l.val bv := by
    constructor
    · intro h; linear_combination h
    · intro h; linear_combination h
  convert h using 1
  simp only [kk, bit]
  by_cases h1 : Y ^ 2 = X ^ 3 + l.val bv <;> by_cases h2 : X = 0 <;> by_cases h3 : Y = 0 <;> simp [h1, h2, h3]

/-! ### The group law -/

theorem ecAddUnequal_cmp (hf : EcFitsC k) {P Q : CmpPt F} {c : Bool} {g1 g2 : ECurve b} (hP : EcW k b ext s P.pt g1)
    (hQ : EcW k b ext s Q.pt g2) (n1 : g1 ≠ g2) (n2 : g1 ≠ -g2) :
    Cmp tbl ext s (ecAddUnequal F P Q c) (fun r s' => EcW k b ext s' r (g1 + g2)) := by
  obtain ⟨X1, Y1, hP, i1⟩ := hP
  obtain ⟨X2, Y2, hQ, i2⟩ := hQ
  have hx := (i1.x_ne_iff i2).2 ⟨n1, n2⟩
  have hx0 : X2 - X1 ≠ 0 := sub_ne_zero.2 hx.symm
  refine (ecAddUnequal_cmpXY hf hP hQ (fun _ => hx) (fun h => absurd h hx0)).weaken fun r s' h => ?_
  exact ⟨_, _, h _ rfl, i1.add i2 hx (div_mul_cancel₀ _ hx0) rfl rfl⟩

theorem ecSubUnequal_cmp (hf : EcFitsC k) {P Q : CmpPt F} {c : Bool} {g1 g2 : ECurve b} (hP : EcW k b ext s P.pt g1)
    (hQ : EcW k b ext s Q.pt g2) (n1 : g1 ≠ g2) (n2 : g1 ≠ -g2) :
    Cmp tbl ext s (ecSubUnequal F P Q c) (fun r s' => EcW k b ext s' r (g1 - g2)) := by
  obtain ⟨X1, Y1, hP, i1⟩ := hP
  obtain ⟨X2, Y2, hQ, i2⟩ := hQ
  have hx := (i1.x_ne_iff i2).2 ⟨n1, n2⟩
  have hx0 : X2 - X1 ≠ 0 := sub_ne_zero.2 hx.symm
  refine (ecSubUnequal_cmpXY hf hP hQ (fun _ => hx) (fun h => absurd h hx0)).weaken fun r s' h => ?_
  rw [sub_eq_add_neg]
  exact ⟨_, _, h _ rfl, i1.add i2.neg hx (by rw [div_mul_cancel₀ _ hx0]; ring) rfl rfl⟩

/-- `y = 0` exactly for the points of order two. -/
theorem IsPt.y_zero {X Y : K} {g : ECurve b} (hb : CurveOk b) (i : IsPt b X Y g) (h : Y * 2 = 0) : 2 • g = 0 := by
  have hY : Y = 0 := (mul_eq_zero.1 h).resolve_right hb.two
  have j := i.neg
  rw [hY, neg_zero, ← hY] at j
  rw [two_nsmul]
  nth_rewrite 1 [i.unique j]
  exact neg_add_cancel g

theorem ecDouble_cmp (hf : EcFitsC k) (hb : CurveOk b) {P : EcPt F} {g : ECurve b} (hP : EcW k b ext s P g) (h2 : 2 • g ≠ 0) :
    Cmp tbl ext s (ecDouble F P) (fun r s' => EcW k b ext s' r (2 • g)) := by
  obtain ⟨X, Y, hP, i⟩ := hP
  have hY : Y * 2 ≠ 0 := fun h => h2 (i.y_zero hb h)
  refine (ecDouble_cmpXY hf hP (fun h => absurd h hY)).weaken fun r s' h => ?_
  exact ⟨_, _, h _ rfl, i.double hb (div_mul_cancel₀ _ hY) rfl rfl⟩

theorem ecDoubleAndAddUnequal_cmp (hf : EcFitsC k) {P Q : CmpPt F} {c : Bool} {g1 g2 : ECurve b} (hP : EcW k b ext s P.pt g1)
    (hQ : EcW k b ext s Q.pt g2) (n1 : g1 ≠ g2) (n2 : g1 ≠ -g2) (n3 : g1 ≠ g1 + g2) (n4 : g1 ≠ -(g1 + g2)) :
    Cmp tbl ext s (ecDoubleAndAddUnequal F P Q c) (fun r s' => EcW k b ext s' r (2 • g1 + g2)) := by
  obtain ⟨X0, Y0, hP, i0⟩ := hP
  obtain ⟨X1, Y1, hQ, i1⟩ := hQ
  have hx := (i0.x_ne_iff i1).2 ⟨n1, n2⟩
  have hx0 : X1 - X0 ≠ 0 := sub_ne_zero.2 hx.symm
  obtain ⟨L, hLd⟩ : ∃ L, L = (Y1 - Y0) / (X1 - X0) := ⟨_, rfl⟩
  have eL : L * (X1 - X0) = Y1 - Y0 := by rw [hLd, div_mul_cancel₀ _ hx0]
  have i2 : IsPt b (L * L - X0 - X1) _ (g1 + g2) := i0.add i1 hx eL rfl rfl
  have hx2 := (i0.x_ne_iff i2).2 ⟨n3, n4⟩
  have hx20 : L * L - X0 - X1 - X0 ≠ 0 := sub_ne_zero.2 hx2.symm
  have c2 : ((2 : ℤ) : K) = 2 := by norm_num
  refine Cmp.bind (daCheck1_cmp hP.1 hQ.1 fun _ => hx) fun x0 s1 e1 h1 => ?_
  have hP := hP.mono e1
  have hQ := hQ.mono e1
  refine Cmp.bind (k.subNoCarry (k.p_u hQ.1) (k.p_u hP.1)) fun dx s2 e2 h2 => ?_
  have hP := hP.mono e2
  have hQ := hQ.mono e2
  refine Cmp.bind (k.subNoCarry (k.p_u hQ.2) (k.p_u hP.2)) fun dy s3 e3 h3 => ?_
  have hP := hP.mono e3
  have hQ := hQ.mono e3
  refine Cmp.bind (k.divideUnsafe hf.addSlope h3 (k.u_mono h2 e3) fun h => absurd h hx0) fun lam s4 e4 hL => ?_
  rw [← hLd] at hL
  have hP := hP.mono e4
  have hQ := hQ.mono e4
  refine Cmp.bind (k.mulNoCarry (k.p_u hL) (k.p_u hL)) fun lsq s5 e5 h5 => ?_
  have hP := hP.mono e5
  have hQ := hQ.mono e5
  have hL := k.p_mono hL e5
  refine Cmp.bind (k.subNoCarry h5 (k.p_u hP.1)) fun m1 s6 e6 h6 => ?_
  have hP := hP.mono e6
  have hQ := hQ.mono e6
  have hL := k.p_mono hL e6
  refine Cmp.bind (k.subNoCarry h6 (k.p_u hQ.1)) fun x2nc s7 e7 h7 => ?_
  have hP := hP.mono e7
  have hL := k.p_mono hL e7
  refine Cmp.bind (k.carryMod h7 hf.x3) fun x2 s8 e8 h8 => ?_
  have hP := hP.mono e8
  have hL := k.p_mono hL e8
  refine Cmp.bind (daCheck2_cmp (X1 := X0) (fun hc => ?_) h8 fun _ => hx2) fun _ s9 e9 _ => ?_
  · obtain ⟨x, hx, hxw⟩ := h1 hc
    exact ⟨x, hx, k.p_mono hxw ((((((e2.trans e3).trans e4).trans e5).trans e6).trans e7).trans e8)⟩
  have hP := hP.mono e9
  have hL := k.p_mono hL e9
  have h8 := k.p_mono h8 e9
  refine Cmp.bind (k.scalarMulNoCarry 2 (by norm_num) (k.p_u hP.2)) fun ty s10 e10 h10 => ?_
  rw [c2] at h10
  have hP := hP.mono e10
  have hL := k.p_mono hL e10
  have h8 := k.p_mono h8 e10
  refine Cmp.bind (k.subNoCarry (k.p_u h8) (k.p_u hP.1)) fun x20 s11 e11 h11 => ?_
  have hP := hP.mono e11
  have hL := k.p_mono hL e11
  have h8 := k.p_mono h8 e11
  refine Cmp.bind (k.divideUnsafe hf.daSlope (k.u_mono h10 e11) h11 fun h => absurd h hx20) fun d s12 e12 hD => ?_
  have hP := hP.mono e12
  have hL := k.p_mono hL e12
  have h8 := k.p_mono h8 e12
  refine Cmp.bind (k.addNoCarry (k.p_u hL) (k.p_u hD)) fun l1 s13 e13 h13 => ?_
  have hP := hP.mono e13
  have h8 := k.p_mono h8 e13
  refine Cmp.bind (k.mulNoCarry h13 h13) fun l1sq s14 e14 h14 => ?_
  have hP := hP.mono e14
  have h8 := k.p_mono h8 e14
  have h13 := k.u_mono h13 e14
  refine Cmp.bind (k.subNoCarry h14 (k.p_u hP.1)) fun m2 s15 e15 h15 => ?_
  have hP := hP.mono e15
  have h8 := k.p_mono h8 e15
  have h13 := k.u_mono h13 e15
  refine Cmp.bind (k.subNoCarry h15 (k.p_u h8)) fun xrnc s16 e16 h16 => ?_
  have hP := hP.mono e16
  have h13 := k.u_mono h13 e16
  refine Cmp.bind (k.carryMod h16 hf.daX) fun xr s17 e17 h17 => ?_
  have hP := hP.mono e17
  have h13 := k.u_mono h13 e17
  refine Cmp.bind (k.subNoCarry (k.p_u h17) (k.p_u hP.1)) fun xr0 s18 e18 h18 => ?_
  have hP := hP.mono e18
  have h13 := k.u_mono h13 e18
  refine Cmp.bind (k.mulNoCarry h13 h18) fun m3 s19 e19 h19 => ?_
  have hP := hP.mono e19
  refine Cmp.bind (k.subNoCarry h19 (k.p_u hP.2)) fun yrnc s20 e20 h20 => ?_
  refine Cmp.bind (k.carryMod h20 hf.daY) fun yr s21 e21 h21 => Cmp.pure ?_
  exact ⟨_, _, ⟨k.p_mono h17 (((e18.trans e19).trans e20).trans e21), h21⟩,
    i0.doubleAdd i1 hx eL rfl hx2 (div_mul_cancel₀ _ hx20) rfl rfl⟩

theorem ecSelect_cmp {P Q : EcPt F} {sel : AV p} {g1 g2 : ECurve b} {t : Prop} [Decidable t] (hP : EcW k b ext s P g1)
    (hQ : EcW k b ext s Q g2) (hs : Con ext s sel (bit t)) : Cmp tbl ext s (ecSelect F P Q sel) (fun r s' =>
      EcW k b ext s' r (if t then g1 else g2)) := by
  obtain ⟨X1, Y1, hP, i1⟩ := hP
  obtain ⟨X2, Y2, hQ, i2⟩ := hQ
  refine (ecSelect_cmpXY hP hQ hs).weaken fun r s' h => ⟨_, _, h, ?_⟩
  by_cases ht : t <;> simpa [ht]

theorem ecSelect_cmp0 {P Q : EcPt F} {sel : AV p} {g1 g2 : ECurve b} {t : Prop} [Decidable t] (hP : EcW0 k b ext s P g1)
    (hQ : EcW0 k b ext s Q g2) (hs : Con ext s sel (bit t)) : Cmp tbl ext s (ecSelect F P Q sel) (fun r s' =>
      EcW0 k b ext s' r (if t then g1 else g2)) := by
  obtain ⟨X1, Y1, hP, i1⟩ := hP
  obtain ⟨X2, Y2, hQ, i2⟩ := hQ
  refine (ecSelect_cmpXY hP hQ hs).weaken fun r s' h => ⟨_, _, h, ?_⟩
  by_cases ht : t <;> simpa [ht]

/-- `ec_sub_strict` is complete unless the points are opposite and different; in the case of equal points the random pair must
have another first coordinate. -/
theorem ecSubStrict_cmp (hf : EcFitsC k) {rand : F.V × F.V} {P Q : EcPt F} {g1 g2 : ECurve b} (hP : EcW k b ext s P g1)
    (hQ : EcW k b ext s Q g2) (hne : g1 = -g2 → g1 = g2) (hr : ∀ Y, ¬ IsPt b (l.val rand.1) Y g2) :
    Cmp tbl ext s (ecSubStrict F rand P Q) (fun r s' => EcW0 k b ext s' r (g1 - g2)) := by
  obtain ⟨X1, Y1, hP, i1⟩ := hP
  obtain ⟨X2, Y2, hQ, i2⟩ := hQ
  have hxy : X1 = X2 → Y1 = Y2 := by
    intro hx
    subst hx
    rcases i1.x_eq i2 with h | h
    · exact h.1
    · have h' := hne h.2
      subst h'
      exact (i1.coords i2).2
  have hrx : l.val rand.1 ≠ X2 := by
    rintro h
    exact hr Y2 (by rw [h]; exact i2)
  refine Cmp.bind (k.isEqual hP.1 hQ.1) fun xe s1 e1 h1 => ?_
  have hP := hP.mono e1
  have hQ := hQ.mono e1
  refine Cmp.bind (k.isEqual hP.2 hQ.2) fun ye s2 e2 h2 => ?_
  have hP := hP.mono e2
  have hQ := hQ.mono e2
  have h1 := h1.mono e2
  refine Cmp.bind (and_cmp (show QCon ext s2 (.existing xe) _ from h1) (show QCon ext s2 (.existing ye) _ from h2)) fun id s3 e3 h3 => ?_
  have hid : Con ext s3 id (bit (X1 = X2)) := by
    convert h3 using 1
    by_cases hx : X1 = X2
    · simp [bit, hx, hxy hx]
    · simp [bit, hx]
  have hP := hP.mono e3
  have hQ := hQ.mono e3
  have h1 := h1.mono e3
  refine Cmp.bind (constrainEqual_cmp h1.conF hid.conF) fun _ s4 e4 _ => ?_
  have hP := hP.mono e4
  have hQ := hQ.mono e4
  have hid := hid.mono e4
  refine Cmp.bind (k.loadPrivate rand.1) fun rx s5 e5 h5 => ?_
  refine Cmp.bind (k.loadPrivate rand.2) fun ry s6 e6 h6 => ?_
  have hP := hP.mono (e5.trans e6)
  have hQ := hQ.mono (e5.trans e6)
  have hid := hid.mono (e5.trans e6)
  refine Cmp.bind (ecSelect_cmpXY (show XYW k ext s6 ⟨rx, ry⟩ _ _ from ⟨k.p_mono h5 e6, h6⟩) hP hid) fun P' s7 e7 h7 => ?_
  have hQ := hQ.mono e7
  have hid := hid.mono e7
  have hx0 : X2 - (if X1 = X2 then l.val rand.1 else X1) ≠ 0 := by
    rw [sub_ne_zero]
    split
    · exact hrx.symm
    · next h => exact fun h' => h h'.symm
  refine Cmp.bind (ecSubUnequal_cmpXY hf (P := .nonStrict P') (Q := .nonStrict Q) h7 hQ (fun h => nomatch h)
    (fun h => absurd h hx0)) fun out s8 e8 h8 => ?_
  have hid := hid.mono e8
  refine Cmp.bind (k.loadConstant F.vzero) fun z s9 e9 h9 => ?_
  rw [l.val_zero] at h9
  refine (ecSelect_cmpXY (show XYW k ext s9 ⟨z, z⟩ 0 0 from ⟨h9, h9⟩) ((h8 _ rfl).mono e9) (hid.mono e9)).weaken fun r s' h => ?_
  refine ⟨_, _, h, ?_⟩
  by_cases hx : X1 = X2
  · right
    obtain rfl := hx
    obtain rfl := hxy rfl
    rw [i1.unique i2]
    simp
  · left
    simp only [if_neg hx] at hx0 ⊢
    rw [sub_eq_add_neg g1 g2]
    exact i1.add i2.neg hx (by rw [div_mul_cancel₀ _ hx0]; ring) rfl rfl

theorem loadPoint_cmp (hf : EcFitsC k) (bv : F.V) {v : F.V × F.V} {g : ECurve (l.val bv)}
    (hv : IsPt (l.val bv) (l.val v.1) (l.val v.2) g) : Cmp tbl ext s (loadPoint F bv v) (fun r s' => EcW k (l.val bv) ext s' r g) := by
  refine Cmp.bind (loadPrivateUnchecked_cmp (k := k) v) fun pt s1 e1 h1 => ?_
  exact Cmp.bind (checkIsOnCurve_cmp hf bv h1 hv.eqn) fun _ s2 e2 _ => Cmp.pure ⟨_, _, h1.mono e2, hv⟩

theorem intoStrict_cmp {P : EcPt F} {g : ECurve b} (hP : EcW k b ext s P g) : Cmp tbl ext s (intoStrictPoint F P) (fun r s' =>
    EcW k b ext s' r g) := by
  obtain ⟨X, Y, hP, i⟩ := hP
  exact (intoStrictPoint_cmp hP).weaken fun r s' h => ⟨X, Y, h, i⟩

theorem assignPoint_cmp (hf : EcFitsC k) (bv : F.V) {v : F.V × F.V} {g : ECurve (l.val bv)}
    (hv : IsPt0 (l.val bv) (l.val v.1) (l.val v.2) g) :
    Cmp tbl ext s (assignPoint F bv v) (fun r s' => EcW0 k (l.val bv) ext s' r g) := by
  refine Cmp.bind (loadPrivateUnchecked_cmp (k := k) v) fun pt s1 e1 h1 => ?_
  refine Cmp.bind (isOnCurveOrInfinity_cmp hf bv h1) fun o s2 e2 h2 => ?_
  have : l.val v.2 ^ 2 = l.val v.1 ^ 3 + l.val bv ∨ (l.val v.1 = 0 ∧ l.val v.2 = 0) := by
    rcases hv with h | h
    · exact .inl h.eqn
    · exact .inr h.2
  rw [bit, if_pos this] at h2
  exact Cmp.bind (assertIsConst_cmp h2.conF) fun _ s3 e3 _ => Cmp.pure ⟨_, _, h1.mono (e2.trans e3), hv⟩

theorem assignConstantPoint_cmp {v : F.V × F.V} {g : ECurve b} (hv : IsPt0 b (l.val v.1) (l.val v.2) g) :
    Cmp tbl ext s (assignConstantPoint F v) (fun r s' => EcW0 k b ext s' r g) := by
  refine Cmp.bind (k.loadConstant v.1) fun x s1 e1 h1 => Cmp.bind (k.loadConstant v.2) fun y s2 e2 h2 =>
    Cmp.pure ⟨_, _, ⟨k.p_mono h1 e2, h2⟩, hv⟩

theorem ecNegate_cmp {P : EcPt F} {g : ECurve b} (hP : EcW0 k b ext s P g) :
    Cmp tbl ext s (ecNegate F P) (fun r s' => EcW0 k b ext s' r (-g)) := by
  obtain ⟨X, Y, hP, i⟩ := hP
  exact Cmp.bind (k.negate hP.2) fun y s1 e1 h1 => Cmp.pure ⟨X, -Y, ⟨k.p_mono hP.1 e1, h1⟩, i.neg⟩

theorem IsPt0.eq_iff {X1 Y1 X2 Y2 : K} {g1 g2 : ECurve b} (hb : CurveOk b) (i1 : IsPt0 b X1 Y1 g1) (i2 : IsPt0 b X2 Y2 g2) :
    g1 = g2 ↔ X1 = X2 ∧ Y1 = Y2 := by
  constructor
  · rintro rfl
    rcases i1 with i1 | ⟨rfl, rfl, rfl⟩ <;> rcases i2 with i2 | ⟨h, rfl, rfl⟩
    · exact i1.coords i2
    · exact absurd h i1.ne_zero
    · exact absurd rfl i2.ne_zero
    · exact ⟨rfl, rfl⟩
  · rintro ⟨rfl, rfl⟩
    exact i1.unique hb i2

theorem ecIsEqual_cmp (hb : CurveOk b) [DecidableEq (ECurve b)] {P Q : EcPt F} {g1 g2 : ECurve b} (hP : EcW0 k b ext s P g1)
    (hQ : EcW0 k b ext s Q g2) : Cmp tbl ext s (ecIsEqual F P Q) (fun r s' => Con ext s' r (bit (g1 = g2))) := by
  obtain ⟨X1, Y1, hP, i1⟩ := hP
  obtain ⟨X2, Y2, hQ, i2⟩ := hQ
  refine Cmp.bind (k.isEqual hP.1 hQ.1) fun xe s1 e1 h1 => ?_
  refine Cmp.bind (k.isEqual (hP.mono e1).2 (hQ.mono e1).2) fun ye s2 e2 h2 => ?_
  refine (and_cmp (show QCon ext s2 (.existing xe) _ from h1.mono e2) (show QCon ext s2 (.existing ye) _ from h2)).weaken fun r s' h => ?_
  convert h using 1
  have key := i1.eq_iff hb i2
  by_cases h1 : X1 = X2 <;> by_cases h2 : Y1 = Y2 <;> simp [bit, key, h1, h2]

theorem ecAssertEqual_cmp (hb : CurveOk b) {P Q : EcPt F} {g : ECurve b} (hP : EcW0 k b ext s P g)
    (hQ : EcW0 k b ext s Q g) : Cmp tbl ext s (ecAssertEqual F P Q) (fun _ _ => True) := by
  obtain ⟨X1, Y1, hP, i1⟩ := hP
  obtain ⟨X2, Y2, hQ, i2⟩ := hQ
  obtain ⟨rfl, rfl⟩ := (i1.eq_iff hb i2).1 rfl
  exact Cmp.bind (k.assertEqual hP.1 hQ.1) fun _ s1 e1 _ => k.assertEqual (hP.mono e1).2 (hQ.mono e1).2

/-- The partial sums `acc`, `acc + g1`, ... never meet the next point or its opposite. -/
def SumOk {G : Type} [AddCommGroup G] : G → List G → Prop
  | _, [] => True
  | acc, g :: gs => acc ≠ g ∧ acc ≠ -g ∧ SumOk (acc + g) gs

theorem ecSumLoop_cmp (hf : EcFitsC k) (Ps : List (EcPt F)) : ∀ {s : Ctx p} {gs : List (ECurve b)} {acc : EcPt F} {g : ECurve b},
    EcW k b ext s acc g → Ps.Forall₂ (EcW k b ext s) gs → SumOk g gs →
    Cmp tbl ext s (ecSumLoop F acc Ps) (fun r s' => EcW k b ext s' r (g + gs.sum)) := by
  induction Ps with
  | nil =>
    intro s gs acc g hg hs _
    cases hs
    exact Cmp.pure (by simpa using hg)
  | cons P Ps ih =>
    intro s gs acc g hg hs ho
    rcases hs with _ | ⟨h, hs⟩
    rename_i g' gs
    obtain ⟨n1, n2, ho⟩ := ho
    refine Cmp.bind (ecAddUnequal_cmp hf (P := .strict acc) (Q := .nonStrict P) hg h n1 n2) fun a s1 e1 h1 => ?_
    refine Cmp.bind (intoStrict_cmp h1) fun a' s2 e2 h2 => ?_
    rw [List.sum_cons, ← add_assoc]
    exact ih h2 (hs.imp fun _ _ h => h.mono (e1.trans e2)) ho

/-- `EccChip::sum` of finite points. -/
theorem ecSum_cmp (hf : EcFitsC k) (bv : F.V) {v : F.V × F.V} {g : ECurve (l.val bv)}
    (hv : IsPt (l.val bv) (l.val v.1) (l.val v.2) g) {Ps : List (EcPt F)} {gs : List (ECurve (l.val bv))}
    (hs : Ps.Forall₂ (EcW k (l.val bv) ext s) gs) (ho : SumOk g gs) (n1 : g + gs.sum ≠ g) (n2 : g + gs.sum ≠ -g) :
    Cmp tbl ext s (ecSum F bv v Ps) (fun r s' => EcW k (l.val bv) ext s' r gs.sum) := by
  refine Cmp.bind (loadPoint_cmp hf bv hv) fun r0 s1 e1 h1 => ?_
  refine Cmp.bind (intoStrict_cmp h1) fun r1 s2 e2 h2 => ?_
  refine Cmp.bind (ecSumLoop_cmp hf Ps h2 (hs.imp fun _ _ h => h.mono (e1.trans e2)) ho) fun acc s3 e3 h3 => ?_
  refine (ecSubUnequal_cmp hf (P := .strict acc) (Q := .strict r1) h3 (h2.mono e3) n1 n2).weaken fun r s' h => ?_
  rwa [add_sub_cancel_left] at h

end
end H2
