import Verif.Ecc.Model
import Verif.Ecc.Curve
import Verif.Fields.Laws

/-!
# Soundness of the elliptic-curve operations: every satisfying assignment obeys the group law
-/

set_option autoImplicit false
set_option linter.unusedSectionVars false
namespace H2
variable {p : ℕ} [Fact p.Prime]
variable {F : FieldOps p} {K : Type} [Field K] [DecidableEq K] {tbl : ZMod p → Prop}

/-- The size conditions of all intermediate results of the curve operations. -/
structure EcFits (l : FieldLaws F K tbl) : Prop where
  addSlope : l.zeroFits (l.subSz (l.mulSz l.pSz (l.subSz l.pSz l.pSz)) (l.subSz l.pSz l.pSz))
  subSlope : l.zeroFits (l.addSz (l.mulSz l.pSz (l.subSz l.pSz l.pSz)) (l.addSz l.pSz l.pSz))
  x3 : l.carryFits (l.subSz (l.subSz (l.mulSz l.pSz l.pSz) l.pSz) l.pSz)
  y3 : l.carryFits (l.subSz (l.mulSz l.pSz (l.subSz l.pSz l.pSz)) l.pSz)
  dblSlope : l.zeroFits (l.subSz (l.mulSz l.pSz (l.smulSz 2 l.pSz)) (l.mulSz (l.smulSz 3 l.pSz) l.pSz))
  dblX : l.carryFits (l.subSz (l.mulSz l.pSz l.pSz) (l.smulSz 2 l.pSz))
  daSlope : l.zeroFits (l.subSz (l.mulSz l.pSz (l.subSz l.pSz l.pSz)) (l.smulSz 2 l.pSz))
  daX : l.carryFits (l.subSz (l.subSz (l.mulSz (l.addSz l.pSz l.pSz) (l.addSz l.pSz l.pSz)) l.pSz) l.pSz)
  daY : l.carryFits (l.subSz (l.mulSz (l.addSz l.pSz l.pSz) (l.subSz l.pSz l.pSz)) l.pSz)
  sq : l.carryFits (l.mulSz l.pSz l.pSz)
  onZero : l.zeroFits (l.subSz (l.mulSz l.pSz l.pSz) (l.addcSz (l.mulSz l.pSz l.pSz)))
  onCarry : l.carryFits (l.subSz (l.mulSz l.pSz l.pSz) (l.addcSz (l.mulSz l.pSz l.pSz)))

variable (l : FieldLaws F K tbl)

/-- In the assignment `w`, the coordinates of `P` represent `X` and `Y`. -/
def XYRep (w : Cell → ZMod p) (P : EcPt F) (X Y : K) : Prop := l.PRep w P.x X ∧ l.PRep w P.y Y

/-- In the assignment `w`, `P` represents the finite curve point `g`. -/
def EcRep (b : K) (w : Cell → ZMod p) (P : EcPt F) (g : ECurve b) : Prop := ∃ X Y, XYRep l w P X Y ∧ IsPt b X Y g

/-- In the assignment `w`, `P` represents the curve point `g`, `(0, 0)` standing for the point at infinity. -/
def EcRep0 (b : K) (w : Cell → ZMod p) (P : EcPt F) (g : ECurve b) : Prop := ∃ X Y, XYRep l w P X Y ∧ IsPt0 b X Y g

/-- In the assignment `w`, the first coordinate of `P` is canonical (as its type promises, if it is a strict point). -/
def CXRep (w : Cell → ZMod p) : CmpPt F → K → Prop
  | .strict pt, X => l.RRep w pt.x X
  | .nonStrict pt, X => l.PRep w pt.x X

/-- The coordinates of a comparable point. -/
def CXYRep (w : Cell → ZMod p) (P : CmpPt F) (X Y : K) : Prop := CXRep l w P X ∧ l.PRep w P.pt.y Y

/-- In the assignment `w`, the comparable point `P` represents the finite curve point `g`. -/
def CmpRep (b : K) (w : Cell → ZMod p) (P : CmpPt F) (g : ECurve b) : Prop := ∃ X Y, CXYRep l w P X Y ∧ IsPt b X Y g

variable {l}

theorem CXRep.toP {w : Cell → ZMod p} {P : CmpPt F} {X : K} (h : CXRep l w P X) : l.PRep w P.pt.x X := by
  cases P with
  | strict pt => exact l.r_p _ _ _ h
  | nonStrict pt => exact h

theorem CXYRep.xy {w : Cell → ZMod p} {P : CmpPt F} {X Y : K} (h : CXYRep l w P X Y) : XYRep l w P.pt X Y := ⟨h.1.toP, h.2⟩

theorem XYRep.c {w : Cell → ZMod p} {P : EcPt F} {X Y : K} (h : XYRep l w P X Y) : CXYRep l w (.nonStrict P) X Y := h

theorem XYRep.unique {w : Cell → ZMod p} {P : EcPt F} {X Y X' Y' : K} (h : XYRep l w P X Y) (h' : XYRep l w P X' Y') :
    X = X' ∧ Y = Y' := ⟨l.p_unique _ _ _ _ h.1 h'.1, l.p_unique _ _ _ _ h.2 h'.2⟩

theorem EcRep.zero {b : K} {w : Cell → ZMod p} {P : EcPt F} {g : ECurve b} (h : EcRep l b w P g) : EcRep0 l b w P g := by
  obtain ⟨X, Y, h1, h2⟩ := h
  exact ⟨X, Y, h1, .inl h2⟩

theorem CmpRep.ec {b : K} {w : Cell → ZMod p} {P : CmpPt F} {g : ECurve b} (h : CmpRep l b w P g) : EcRep l b w P.pt g := by
  obtain ⟨X, Y, h1, h2⟩ := h
  exact ⟨X, Y, h1.xy, h2⟩

theorem EcRep.cmp {b : K} {w : Cell → ZMod p} {P : EcPt F} {g : ECurve b} (h : EcRep l b w P g) :
    CmpRep l b w (.nonStrict P) g := h

theorem EcRep.unique {b : K} {w : Cell → ZMod p} {P : EcPt F} {g g' : ECurve b} (h : EcRep l b w P g) (h' : EcRep l b w P g') :
    g = g' := by
  obtain ⟨X, Y, h1, h2⟩ := h
  obtain ⟨X', Y', h1', h2'⟩ := h'
  obtain ⟨rfl, rfl⟩ := h1.unique h1'
  exact h2.unique h2'

theorem EcRep0.unique {b : K} (hb : CurveOk b) {w : Cell → ZMod p} {P : EcPt F} {g g' : ECurve b} (h : EcRep0 l b w P g)
    (h' : EcRep0 l b w P g') : g = g' := by
  obtain ⟨X, Y, h1, h2⟩ := h
  obtain ⟨X', Y', h1', h2'⟩ := h'
  obtain ⟨rfl, rfl⟩ := h1.unique h1'
  exact h2.unique hb h2'

/-! ### Field-level statements -/

variable (l)

theorem reducedX_sound (P : CmpPt F) : Sound tbl (reducedX F P) (fun w r => ∀ X, CXRep l w P X → l.RRep w r X) := by
  intro s
  cases P with
  | strict pt => exact Snd.pure fun w _ X h => h
  | nonStrict pt => exact (l.enforceLessThan pt.x s).weaken fun w r _ h X hX => h X hX

theorem checkPointsAreUnequal_sound (P Q : CmpPt F) (c : Bool) : Sound tbl (checkPointsAreUnequal F P Q c) (fun w _ =>
    ∀ X1 X2, CXRep l w P X1 → CXRep l w Q X2 → c = true → X1 ≠ X2) := by
  intro s
  unfold checkPointsAreUnequal
  split
  · refine Snd.bind (reducedX_sound l P s) fun x1 s1 _ => Snd.bind (reducedX_sound l Q s1) fun x2 s2 _ =>
      Snd.bind (l.isEqualUnenforced x1 x2 s2) fun e s3 _ => (assertIsConst_sound e 0 s3).weaken ?_
    intro w _ _ h0 he h2 h1 X1 X2 hX1 hX2 _ heq
    have e1 := h1 X1 hX1
    have e2 := h2 X2 hX2
    have := (he _ _ (l.r_p _ _ _ e1) (l.r_p _ _ _ e2)).2.2 e1 e2
    rw [h0, if_pos heq] at this
    exact zero_ne_one this
  · next h => exact Snd.pure fun w _ X1 X2 _ _ hc => absurd hc h

theorem chordEnd_sound (hf : EcFits l) (P Q : EcPt F) (lam : F.P) : Sound tbl (chordEnd F P Q lam) (fun w r =>
    ∀ X1 Y1 X2 Y2 L, XYRep l w P X1 Y1 → XYRep l w Q X2 Y2 → l.PRep w lam L →
      XYRep l w r (L * L - X1 - X2) (L * (X1 - (L * L - X1 - X2)) - Y1)) := by
  intro s
  refine Snd.bind (l.mulNoCarry _ _ s) fun a1 s1 _ => Snd.bind (l.subNoCarry _ _ s1) fun a2 s2 _ =>
    Snd.bind (l.subNoCarry _ _ s2) fun a3 s3 _ => Snd.bind (l.carryMod _ s3) fun x3 s4 _ =>
    Snd.bind (l.subNoCarry _ _ s4) fun a5 s5 _ => Snd.bind (l.mulNoCarry _ _ s5) fun a6 s6 _ =>
    Snd.bind (l.subNoCarry _ _ s6) fun a7 s7 _ => Snd.bind (l.carryMod _ s7) fun y3 s8 _ => Snd.pure ?_
  intro w _ h8 h7 h6 h5 h4 h3 h2 h1 X1 Y1 X2 Y2 L hP hQ hL
  have u1 := l.p_u _ _ _ hP.1
  have u2 := l.p_u _ _ _ hP.2
  have v1 := l.p_u _ _ _ hQ.1
  have uL := l.p_u _ _ _ hL
  have hx := h4 _ _ hf.x3 (h3 _ _ _ _ (h2 _ _ _ _ (h1 _ _ _ _ uL uL) u1) v1)
  exact ⟨hx, h8 _ _ hf.y3 (h7 _ _ _ _ (h6 _ _ _ _ uL (h5 _ _ _ _ u1 (l.p_u _ _ _ hx))) u2)⟩

/-- `ec_add_unequal`, field level: the chord formula, and the check if strict. -/
theorem ecAddUnequal_xy (hf : EcFits l) (P Q : CmpPt F) (c : Bool) : Sound tbl (ecAddUnequal F P Q c) (fun w r =>
    ∀ X1 Y1 X2 Y2, CXYRep l w P X1 Y1 → CXYRep l w Q X2 Y2 → (c = true → X1 ≠ X2) ∧
      ∃ L, L * (X2 - X1) = Y2 - Y1 ∧ XYRep l w r (L * L - X1 - X2) (L * (X1 - (L * L - X1 - X2)) - Y1)) := by
  intro s
  refine Snd.bind (checkPointsAreUnequal_sound l P Q c s) fun _ s1 _ => Snd.bind (l.subNoCarry _ _ s1) fun dx s2 _ =>
    Snd.bind (l.subNoCarry _ _ s2) fun dy s3 _ => Snd.bind (l.divideUnsafe _ _ s3) fun lam s4 _ =>
    (chordEnd_sound l hf _ _ lam s4).weaken ?_
  rintro w r _ h5 ⟨L, hL, h4⟩ h3 h2 h1 X1 Y1 X2 Y2 hP hQ
  refine ⟨h1 X1 X2 hP.1 hQ.1, L, ?_, h5 _ _ _ _ _ hP.xy hQ.xy hL⟩
  exact h4 _ _ _ _ hf.addSlope (h3 _ _ _ _ (l.p_u _ _ _ hQ.2) (l.p_u _ _ _ hP.2))
    (h2 _ _ _ _ (l.p_u _ _ _ hQ.1.toP) (l.p_u _ _ _ hP.1.toP))

/-- `ec_sub_unequal`, field level. -/
theorem ecSubUnequal_xy (hf : EcFits l) (P Q : CmpPt F) (c : Bool) : Sound tbl (ecSubUnequal F P Q c) (fun w r =>
    ∀ X1 Y1 X2 Y2, CXYRep l w P X1 Y1 → CXYRep l w Q X2 Y2 → (c = true → X1 ≠ X2) ∧
      ∃ L, L * (X2 - X1) = -(Y2 + Y1) ∧ XYRep l w r (L * L - X1 - X2) (L * (X1 - (L * L - X1 - X2)) - Y1)) := by
  intro s
  refine Snd.bind (checkPointsAreUnequal_sound l P Q c s) fun _ s1 _ => Snd.bind (l.subNoCarry _ _ s1) fun dx s2 _ =>
    Snd.bind (l.addNoCarry _ _ s2) fun dy s3 _ => Snd.bind (l.negDivideUnsafe _ _ s3) fun lam s4 _ =>
    (chordEnd_sound l hf _ _ lam s4).weaken ?_
  rintro w r _ h5 ⟨L, hL, h4⟩ h3 h2 h1 X1 Y1 X2 Y2 hP hQ
  refine ⟨h1 X1 X2 hP.1 hQ.1, L, ?_, h5 _ _ _ _ _ hP.xy hQ.xy hL⟩
  exact h4 _ _ _ _ hf.subSlope (h3 _ _ _ _ (l.p_u _ _ _ hQ.2) (l.p_u _ _ _ hP.2))
    (h2 _ _ _ _ (l.p_u _ _ _ hQ.1.toP) (l.p_u _ _ _ hP.1.toP))

theorem ecSelect_xy (P Q : EcPt F) (sel : AV p) : Sound tbl (ecSelect F P Q sel) (fun w r =>
    ∀ X1 Y1 X2 Y2, XYRep l w P X1 Y1 → XYRep l w Q X2 Y2 →
      (at' w sel = 1 → XYRep l w r X1 Y1) ∧ (at' w sel = 0 → XYRep l w r X2 Y2)) := by
  intro s
  refine Snd.bind (l.select _ _ _ s) fun rx s1 _ => Snd.bind (l.select _ _ _ s1) fun ry s2 _ => Snd.pure ?_
  intro w _ h2 h1 X1 Y1 X2 Y2 hP hQ
  obtain ⟨a1, a2⟩ := h1.1 _ _ hP.1 hQ.1
  obtain ⟨b1, b2⟩ := h2.1 _ _ hP.2 hQ.2
  exact ⟨fun h => ⟨a1 h, b1 h⟩, fun h => ⟨a2 h, b2 h⟩⟩

theorem ecDouble_xy (hf : EcFits l) (P : EcPt F) : Sound tbl (ecDouble F P) (fun w r =>
    ∀ X Y, XYRep l w P X Y → ∃ L, L * (Y * 2) = X * 3 * X ∧
      XYRep l w r (L * L - X * 2) (L * (X - (L * L - X * 2)) - Y)) := by
  intro s
  refine Snd.bind (l.scalarMulNoCarry _ _ s) fun a1 s1 _ => Snd.bind (l.scalarMulNoCarry _ _ s1) fun a2 s2 _ =>
    Snd.bind (l.mulNoCarry _ _ s2) fun a3 s3 _ => Snd.bind (l.divideUnsafe _ _ s3) fun lam s4 _ =>
    Snd.bind (l.mulNoCarry _ _ s4) fun a5 s5 _ => Snd.bind (l.scalarMulNoCarry _ _ s5) fun a6 s6 _ =>
    Snd.bind (l.subNoCarry _ _ s6) fun a7 s7 _ => Snd.bind (l.carryMod _ s7) fun x3 s8 _ =>
    Snd.bind (l.subNoCarry _ _ s8) fun a9 s9 _ => Snd.bind (l.mulNoCarry _ _ s9) fun a10 s10 _ =>
    Snd.bind (l.subNoCarry _ _ s10) fun a11 s11 _ => Snd.bind (l.carryMod _ s11) fun y3 s12 _ => Snd.pure ?_
  rintro w - h12 h11 h10 h9 h8 h7 h6 h5 ⟨L, hL, h4⟩ h3 h2 h1 X Y ⟨hX, hY⟩
  have uX := l.p_u _ _ _ hX
  have uY := l.p_u _ _ _ hY
  have uL := l.p_u _ _ _ hL
  have e1 := h1 _ _ uY
  have e2 := h2 _ _ uX
  have e6 := h6 _ _ uX
  have c2 : ((2 : ℤ) : K) = 2 := by norm_num
  have c3 : ((3 : ℤ) : K) = 3 := by norm_num
  rw [c2] at e1 e6
  rw [c3] at e2
  have hx := h8 _ _ hf.dblX (h7 _ _ _ _ (h5 _ _ _ _ uL uL) e6)
  exact ⟨L, h4 _ _ _ _ hf.dblSlope (h3 _ _ _ _ e2 uX) e1, hx,
    h12 _ _ hf.y3 (h11 _ _ _ _ (h10 _ _ _ _ uL (h9 _ _ _ _ uX (l.p_u _ _ _ hx))) uY)⟩

theorem curveDiff_xy (hf : EcFits l) (b : F.V) (P : EcPt F) : Sound tbl (curveDiff F b P) (fun w r =>
    ∀ X Y, XYRep l w P X Y → l.URep w r (Y * Y - (X * X * X + l.val b))
      (l.subSz (l.mulSz l.pSz l.pSz) (l.addcSz (l.mulSz l.pSz l.pSz)))) := by
  intro s
  refine Snd.bind (l.mulNoCarry _ _ s) fun a1 s1 _ => Snd.bind (l.mul _ _ s1) fun a2 s2 _ =>
    Snd.bind (l.mulNoCarry _ _ s2) fun a3 s3 _ => Snd.bind (l.addConstantNoCarry _ _ s3) fun a4 s4 _ =>
    (l.subNoCarry _ _ s4).weaken ?_
  intro w r _ h5 h4 h3 h2 h1 X Y hP
  have uX := l.p_u _ _ _ hP.1
  have uY := l.p_u _ _ _ hP.2
  exact h5 _ _ _ _ (h1 _ _ _ _ uY uY) (h4 _ _ (h3 _ _ _ _ (l.p_u _ _ _ (h2 _ _ _ _ hf.sq uX uX)) uX))

theorem checkIsOnCurve_xy (hf : EcFits l) (b : F.V) (P : EcPt F) : Sound tbl (checkIsOnCurve F b P) (fun w _ =>
    ∀ X Y, XYRep l w P X Y → Y ^ 2 = X ^ 3 + l.val b) := by
  intro s
  refine Snd.bind (curveDiff_xy l hf b P s) fun d s1 _ => (l.checkCarryModToZero d s1).weaken ?_
  intro w _ _ h2 h1 X Y hP
  have := h2 _ _ hf.onZero (h1 X Y hP)
  linear_combination this

theorem loadPrivateUnchecked_xy (v : F.V × F.V) : Sound tbl (loadPrivateUnchecked F v) (fun w r => ∃ X Y, XYRep l w r X Y) := by
  intro s
  refine Snd.bind (l.loadPrivate _ s) fun x s1 _ => Snd.bind (l.loadPrivate _ s1) fun y s2 _ => Snd.pure ?_
  rintro w - ⟨Y, hY⟩ ⟨X, hX⟩
  exact ⟨X, Y, hX, hY⟩

theorem intoStrictPoint_xy (P : EcPt F) : Sound tbl (intoStrictPoint F P) (fun w r =>
    ∀ X Y, XYRep l w P X Y → CXYRep l w (.strict r) X Y) := by
  intro s
  refine Snd.bind (l.enforceLessThan _ s) fun x s1 _ => Snd.pure ?_
  intro w _ h X Y hP
  exact ⟨h _ hP.1, hP.2⟩

theorem isOnCurveOrInfinity_xy (hf : EcFits l) (b : F.V) (P : EcPt F) : Sound tbl (isOnCurveOrInfinity F b P) (fun w r =>
    ∀ X Y, XYRep l w P X Y → at' w r = if Y ^ 2 = X ^ 3 + l.val b ∨ (X = 0 ∧ Y = 0) then 1 else 0) := by
  intro s
  refine Snd.bind (curveDiff_xy l hf b P s) fun d s1 _ => Snd.bind (l.carryMod d s1) fun d' s2 _ =>
    Snd.bind (l.isZero _ s2) fun z s3 _ => Snd.bind (l.isZero _ s3) fun xz s4 _ => Snd.bind (l.isZero _ s4) fun yz s5 _ =>
    (orAnd_sound _ _ _ s5).weaken ?_
  rintro w r _ ⟨a, b', c, ha, hb, hc, hr⟩ hy hx hz hd h1 X Y hP
  have e1 := hz _ (hd _ _ hf.onCarry (h1 X Y hP))
  have e2 := hx _ hP.1
  have e3 := hy _ hP.2
  have ha : a = at' w z := ha
  have hb : b' = at' w xz := hb
  have hc : c = at' w yz := hc
  rw [hr, ha, hb, hc, e1, e2, e3]
  have k : (Y * Y - (X * X * X + l.val b) = 0) ↔ Y ^ 2 = X ^ 3 + l.val b := by
    constructor
    · intro h; linear_combination h
    · intro h; linear_combination h
  simp only [k]
  by_cases h1 : Y ^ 2 = X ^ 3 + l.val b <;> by_cases h2 : X = 0 <;> by_cases h3 : Y = 0 <;> simp [h1, h2, h3]

/-! ### The group law -/

variable {l} {b : K}

/-- Points whose first coordinates differ are neither equal nor opposite, and conversely. -/
theorem IsPt.x_ne_iff {X1 Y1 X2 Y2 : K} {g1 g2 : ECurve b} (h1 : IsPt b X1 Y1 g1) (h2 : IsPt b X2 Y2 g2) :
    X1 ≠ X2 ↔ g1 ≠ g2 ∧ g1 ≠ -g2 := by
  constructor
  · intro h
    constructor
    · rintro rfl
      exact h (h1.coords h2).1
    · rintro rfl
      exact h (h1.coords h2.neg).1
  · rintro ⟨a1, a2⟩ rfl
    rcases h1.x_eq h2 with h | h
    · exact a1 h.2
    · exact a2 h.2

variable (l) (b)

/-- `ec_add_unequal`: a strict call forces the points to be neither equal nor opposite, and when they are not, the result is
the sum. -/
theorem ecAddUnequal_sound (hf : EcFits l) (P Q : CmpPt F) (c : Bool) : Sound tbl (ecAddUnequal F P Q c) (fun w r =>
    ∀ g1 g2 : ECurve b, CmpRep l b w P g1 → CmpRep l b w Q g2 → (c = true → g1 ≠ g2 ∧ g1 ≠ -g2) ∧
      (g1 ≠ g2 → g1 ≠ -g2 → EcRep l b w r (g1 + g2))) := by
  intro s
  refine (ecAddUnequal_xy l hf P Q c s).weaken ?_
  rintro w r _ h g1 g2 ⟨X1, Y1, hP, i1⟩ ⟨X2, Y2, hQ, i2⟩
  obtain ⟨hx, L, hL, hr⟩ := h _ _ _ _ hP hQ
  refine ⟨fun hc => (i1.x_ne_iff i2).1 (hx hc), fun n1 n2 => ?_⟩
  exact ⟨_, _, hr, i1.add i2 ((i1.x_ne_iff i2).2 ⟨n1, n2⟩) hL rfl rfl⟩

/-- `ec_sub_unequal`. -/
theorem ecSubUnequal_sound (hf : EcFits l) (P Q : CmpPt F) (c : Bool) : Sound tbl (ecSubUnequal F P Q c) (fun w r =>
    ∀ g1 g2 : ECurve b, CmpRep l b w P g1 → CmpRep l b w Q g2 → (c = true → g1 ≠ g2 ∧ g1 ≠ -g2) ∧
      (g1 ≠ g2 → g1 ≠ -g2 → EcRep l b w r (g1 - g2))) := by
  intro s
  refine (ecSubUnequal_xy l hf P Q c s).weaken ?_
  rintro w r _ h g1 g2 ⟨X1, Y1, hP, i1⟩ ⟨X2, Y2, hQ, i2⟩
  obtain ⟨hx, L, hL, hr⟩ := h _ _ _ _ hP hQ
  refine ⟨fun hc => (i1.x_ne_iff i2).1 (hx hc), fun n1 n2 => ?_⟩
  rw [sub_eq_add_neg]
  exact ⟨_, _, hr, i1.add i2.neg ((i1.x_ne_iff i2).2 ⟨n1, n2⟩) (by rw [hL]; ring) rfl rfl⟩

/-- `ec_double`: no assumption on `P` is needed (`y = 0` is unsatisfiable). -/
theorem ecDouble_sound (hf : EcFits l) (hb : CurveOk b) (P : EcPt F) : Sound tbl (ecDouble F P) (fun w r =>
    ∀ g : ECurve b, EcRep l b w P g → EcRep l b w r (2 • g)) := by
  intro s
  refine (ecDouble_xy l hf P s).weaken ?_
  rintro w r _ h g ⟨X, Y, hP, i⟩
  obtain ⟨L, hL, hr⟩ := h _ _ hP
  exact ⟨_, _, hr, i.double hb hL rfl rfl⟩

/-- `ec_double_and_add_unequal`. -/
theorem ecDoubleAndAddUnequal_sound (hf : EcFits l) (P Q : CmpPt F) (c : Bool) :
    Sound tbl (ecDoubleAndAddUnequal F P Q c) (fun w r =>
    ∀ g1 g2 : ECurve b, CmpRep l b w P g1 → CmpRep l b w Q g2 →
      (c = true → g1 ≠ g2 ∧ g1 ≠ -g2 ∧ g1 ≠ g1 + g2 ∧ g1 ≠ -(g1 + g2)) ∧
      (g1 ≠ g2 → g1 ≠ -g2 → g1 ≠ g1 + g2 → g1 ≠ -(g1 + g2) → EcRep l b w r (2 • g1 + g2))) := by
  intro s
  have k1 : Sound tbl (daCheck1 F P Q c) (fun w r => (∀ X1 X2, CXRep l w P X1 → CXRep l w Q X2 → c = true → X1 ≠ X2) ∧
      (c = true → ∃ x0, r = some x0 ∧ ∀ X1, CXRep l w P X1 → l.RRep w x0 X1)) := by
    intro s
    unfold daCheck1
    split
    · refine Snd.bind (reducedX_sound l P s) fun x1 s1 _ => Snd.bind (reducedX_sound l Q s1) fun x2 s2 _ =>
        Snd.bind (l.isEqualUnenforced x1 x2 s2) fun e s3 _ => Snd.bind (assertIsConst_sound e 0 s3) fun _ s4 _ => Snd.pure ?_
      intro w _ h0 he h2 h1
      refine ⟨fun X1 X2 hX1 hX2 _ heq => ?_, fun _ => ⟨x1, rfl, h1⟩⟩
      have e1 := h1 X1 hX1
      have e2 := h2 X2 hX2
      have := (he _ _ (l.r_p _ _ _ e1) (l.r_p _ _ _ e2)).2.2 e1 e2
      rw [h0, if_pos heq] at this
      exact zero_ne_one this
    · next h => exact Snd.pure fun w _ => ⟨fun X1 X2 _ _ hc => absurd hc h, fun hc => absurd hc h⟩
  have k2 : ∀ x0 x2, Sound tbl (daCheck2 F x0 x2 c) (fun w _ => c = true → ∀ x, x0 = some x → ∀ X1 X2, l.RRep w x X1 →
      l.PRep w x2 X2 → X1 ≠ X2) := by
    intro x0 x2 s
    unfold daCheck2
    split
    · refine Snd.bind (l.enforceLessThan x2 s) fun x2' s1 _ => Snd.unwrap fun x0' hx0 => 
        Snd.bind (l.isEqualUnenforced x0' x2' _) fun e s3 _ => (assertIsConst_sound e 0 s3).weaken ?_
      intro w _ _ h0 he h1 _ x hx X1 X2 hX1 hX2 heq
      rw [hx0, Option.some.injEq] at hx
      subst hx
      have e2 := h1 X2 hX2
      have := (he _ _ (l.r_p _ _ _ hX1) (l.r_p _ _ _ e2)).2.2 hX1 e2
      rw [h0, if_pos heq] at this
      exact zero_ne_one this
    · next h => exact Snd.pure fun w _ hc => absurd hc h
  refine Snd.bind (k1 s) fun x0 s1 _ => Snd.bind (l.subNoCarry _ _ s1) fun dx s2 _ => Snd.bind (l.subNoCarry _ _ s2) fun dy s3 _ =>
    Snd.bind (l.divideUnsafe _ _ s3) fun l0 s4 _ => Snd.bind (l.mulNoCarry _ _ s4) fun l0sq s5 _ =>
    Snd.bind (l.subNoCarry _ _ s5) fun m1 s6 _ => Snd.bind (l.subNoCarry _ _ s6) fun x2nc s7 _ =>
    Snd.bind (l.carryMod _ s7) fun x2 s8 _ => Snd.bind (k2 x0 x2 s8) fun _ s9 _ =>
    Snd.bind (l.scalarMulNoCarry _ _ s9) fun ty s10 _ => Snd.bind (l.subNoCarry _ _ s10) fun x20 s11 _ =>
    Snd.bind (l.divideUnsafe _ _ s11) fun d s12 _ => Snd.bind (l.addNoCarry _ _ s12) fun l1 s13 _ =>
    Snd.bind (l.mulNoCarry _ _ s13) fun l1sq s14 _ => Snd.bind (l.subNoCarry _ _ s14) fun m2 s15 _ =>
    Snd.bind (l.subNoCarry _ _ s15) fun xrnc s16 _ => Snd.bind (l.carryMod _ s16) fun xr s17 _ =>
    Snd.bind (l.subNoCarry _ _ s17) fun xr0 s18 _ => Snd.bind (l.mulNoCarry _ _ s18) fun m3 s19 _ =>
    Snd.bind (l.subNoCarry _ _ s19) fun yrnc s20 _ => Snd.bind (l.carryMod _ s20) fun yr s21 _ => Snd.pure ?_
  rintro w - h21 h20 h19 h18 h17 h16 h15 h14 h13 ⟨D, hD, h12⟩ h11 h10 h9 h8 h7 h6 h5 ⟨L, hL, h4⟩ h3 h2 ⟨h1, h1'⟩
  rintro g1 g2 ⟨X0, Y0, hP, i0⟩ ⟨X1, Y1, hQ, i1⟩
  have uX0 := l.p_u _ _ _ hP.1.toP
  have uY0 := l.p_u _ _ _ hP.2
  have uX1 := l.p_u _ _ _ hQ.1.toP
  have uY1 := l.p_u _ _ _ hQ.2
  have uL := l.p_u _ _ _ hL
  have uD := l.p_u _ _ _ hD
  have eL := h4 _ _ _ _ hf.addSlope (h3 _ _ _ _ uY1 uY0) (h2 _ _ _ _ uX1 uX0)
  have hX2 := h8 _ _ hf.x3 (h7 _ _ _ _ (h6 _ _ _ _ (h5 _ _ _ _ uL uL) uX0) uX1)
  have uX2 := l.p_u _ _ _ hX2
  have e10 := h10 _ _ uY0
  have c2 : ((2 : ℤ) : K) = 2 := by norm_num
  rw [c2] at e10
  have eD := h12 _ _ _ _ hf.daSlope e10 (h11 _ _ _ _ uX2 uX0)
  have u13 := h13 _ _ _ _ uL uD
  have hXr := h17 _ _ hf.daX (h16 _ _ _ _ (h15 _ _ _ _ (h14 _ _ _ _ u13 u13) uX0) uX2)
  have hYr := h21 _ _ hf.daY (h20 _ _ _ _ (h19 _ _ _ _ u13 (h18 _ _ _ _ (l.p_u _ _ _ hXr) uX0)) uY0)
  constructor
  · intro hc
    have n1 := h1 X0 X1 hP.1 hQ.1 hc
    have i2 : IsPt b (L * L - X0 - X1) _ (g1 + g2) := i0.add i1 n1 eL rfl rfl
    obtain ⟨x, hx, hxr⟩ := h1' hc
    have n2 := h9 hc x hx X0 _ (hxr _ hP.1) hX2
    exact ⟨((i0.x_ne_iff i1).1 n1).1, ((i0.x_ne_iff i1).1 n1).2, ((i0.x_ne_iff i2).1 n2).1, ((i0.x_ne_iff i2).1 n2).2⟩
  · intro a1 a2 a3 a4
    have n1 := (i0.x_ne_iff i1).2 ⟨a1, a2⟩
    have i2 : IsPt b (L * L - X0 - X1) _ (g1 + g2) := i0.add i1 n1 eL rfl rfl
    have n2 := (i0.x_ne_iff i2).2 ⟨a3, a4⟩
    exact ⟨_, _, ⟨hXr, hYr⟩, i0.doubleAdd i1 n1 eL rfl n2 eD rfl rfl⟩

theorem ecSelect_sound (P Q : EcPt F) (sel : AV p) : Sound tbl (ecSelect F P Q sel) (fun w r =>
    ∀ g1 g2 : ECurve b, EcRep0 l b w P g1 → EcRep0 l b w Q g2 →
      (at' w sel = 1 → EcRep0 l b w r g1) ∧ (at' w sel = 0 → EcRep0 l b w r g2)) := by
  intro s
  refine (ecSelect_xy l P Q sel s).weaken ?_
  rintro w r _ h g1 g2 ⟨X1, Y1, hP, i1⟩ ⟨X2, Y2, hQ, i2⟩
  obtain ⟨h1, h2⟩ := h _ _ _ _ hP hQ
  exact ⟨fun h => ⟨_, _, h1 h, i1⟩, fun h => ⟨_, _, h2 h, i2⟩⟩

/-- `ec_sub_strict`: `P = -Q` is excluded, `P = Q` gives `(0, 0)`. -/
theorem ecSubStrict_sound (hf : EcFits l) (rand : F.V × F.V) (P Q : EcPt F) :
    Sound tbl (ecSubStrict F rand P Q) (fun w r => ∀ g1 g2 : ECurve b, EcRep l b w P g1 → EcRep l b w Q g2 →
      EcRep0 l b w r (g1 - g2) ∧ (g1 = -g2 → g1 = g2)) := by
  intro s
  refine Snd.bind (l.isEqual _ _ s) fun xe s1 _ => Snd.bind (l.isEqual _ _ s1) fun ye s2 _ =>
    Snd.bind (and_sound _ _ s2) fun id s3 _ => Snd.bind (constrainEqual_sound xe id s3) fun _ s4 _ =>
    Snd.bind (l.loadPrivate _ s4) fun rx s5 _ => Snd.bind (l.loadPrivate _ s5) fun ry s6 _ =>
    Snd.bind (ecSelect_xy l _ _ id s6) fun P' s7 _ => Snd.bind (ecSubUnequal_xy l hf _ _ false s7) fun out s8 _ =>
    Snd.bind (l.loadConstant _ s8) fun z s9 _ => (ecSelect_xy l _ _ id s9).weaken ?_
  rintro w r _ h10 hz h8 h7 ⟨RY, hRY⟩ ⟨RX, hRX⟩ heq ⟨a, b', ha, hb', hid⟩ hye hxe g1 g2 ⟨X1, Y1, hP, i1⟩ ⟨X2, Y2, hQ, i2⟩
  have ha : a = at' w xe := ha
  have hb' : b' = at' w ye := hb'
  have e1 := hxe _ _ hP.1 hQ.1
  have e2 := hye _ _ hP.2 hQ.2
  rw [ha, hb', e1, e2] at hid
  have hz' := l.r_p _ _ _ hz
  rw [l.val_zero] at hz'
  have s7 := h7 _ _ _ _ (show XYRep l w ⟨rx, ry⟩ RX RY from ⟨hRX, hRY⟩) hP
  by_cases hx : X1 = X2
  · have hy : Y1 = Y2 := by
      by_contra hy
      rw [e1, hid, if_pos hx, if_neg hy, mul_zero] at heq
      exact one_ne_zero heq
    subst hx hy
    rw [if_pos rfl, if_pos rfl, mul_one] at hid
    obtain ⟨-, L, -, ho⟩ := h8 _ _ _ _ (s7.1 hid).c hQ.c
    refine ⟨?_, fun _ => i1.unique i2⟩
    rw [i1.unique i2, sub_self]
    exact ⟨0, 0, (h10 _ _ _ _ ⟨hz', hz'⟩ ho).1 hid, .inr ⟨rfl, rfl, rfl⟩⟩
  · rw [if_neg hx, zero_mul] at hid
    obtain ⟨-, L, hL, ho⟩ := h8 _ _ _ _ (s7.2 hid).c hQ.c
    refine ⟨⟨_, _, (h10 _ _ _ _ ⟨hz', hz'⟩ ho).2 hid, .inl ?_⟩, fun h => ?_⟩
    · rw [sub_eq_add_neg g1 g2]
      exact i1.add i2.neg hx (by rw [hL]; ring) rfl rfl
    · exact absurd h ((i1.x_ne_iff i2).1 hx).2

/-- `load_random_point`, `EccChip::load_private`: the witness is a finite point of the curve. -/
theorem loadPoint_sound (hf : EcFits l) (bv : F.V) (hb : CurveOk (l.val bv)) (v : F.V × F.V) :
    Sound tbl (loadPoint F bv v) (fun w r => ∃ g : ECurve (l.val bv), EcRep l (l.val bv) w r g) := by
  intro s
  refine Snd.bind (loadPrivateUnchecked_xy l v s) fun pt s1 _ => Snd.bind (checkIsOnCurve_xy l hf bv pt s1) fun _ s2 _ =>
    Snd.pure ?_
  rintro w - h ⟨X, Y, hP⟩
  obtain ⟨g, hg⟩ := IsPt.of_eqn hb (h X Y hP)
  exact ⟨g, X, Y, hP, hg⟩

/-- `into_strict_point`. -/
theorem intoStrictPoint_sound (P : EcPt F) : Sound tbl (intoStrictPoint F P) (fun w r =>
    ∀ g : ECurve b, EcRep l b w P g → CmpRep l b w (.strict r) g) := by
  intro s
  refine (intoStrictPoint_xy l P s).weaken ?_
  rintro w r _ h g ⟨X, Y, hP, i⟩
  exact ⟨X, Y, h _ _ hP, i⟩

/-- `EccChip::assign_point`: the witness is a point of the curve, possibly infinity. -/
theorem assignPoint_sound (hf : EcFits l) (bv : F.V) (hb : CurveOk (l.val bv)) (v : F.V × F.V) :
    Sound tbl (assignPoint F bv v) (fun w r => ∃ g : ECurve (l.val bv), EcRep0 l (l.val bv) w r g) := by
  intro s
  refine Snd.bind (loadPrivateUnchecked_xy l v s) fun pt s1 _ => Snd.bind (isOnCurveOrInfinity_xy l hf bv pt s1) fun o s2 _ =>
    Snd.bind (assertIsConst_sound o 1 s2) fun _ s3 _ => Snd.pure ?_
  rintro w - h1 h2 ⟨X, Y, hP⟩
  have := h2 X Y hP
  rw [h1] at this
  split at this
  · next h =>
    rcases h with h | ⟨h, h'⟩
    · obtain ⟨g, hg⟩ := IsPt.of_eqn hb h
      exact ⟨g, X, Y, hP, .inl hg⟩
    · exact ⟨0, X, Y, hP, .inr ⟨rfl, h, h'⟩⟩
  · exact absurd this one_ne_zero

theorem assignConstantPoint_sound (v : F.V × F.V) : Sound tbl (assignConstantPoint F v) (fun w r =>
    l.RRep w r.x (l.val v.1) ∧ l.RRep w r.y (l.val v.2)) := by
  intro s
  refine Snd.bind (l.loadConstant _ s) fun x s1 _ => Snd.bind (l.loadConstant _ s1) fun y s2 _ => Snd.pure ?_
  intro w _ h2 h1
  exact ⟨h1, h2⟩

theorem ecNegate_sound (P : EcPt F) : Sound tbl (ecNegate F P) (fun w r =>
    ∀ g : ECurve b, (EcRep l b w P g → EcRep l b w r (-g)) ∧ (EcRep0 l b w P g → EcRep0 l b w r (-g))) := by
  intro s
  refine Snd.bind (l.negate _ s) fun y s1 _ => Snd.pure ?_
  intro w _ h g
  constructor
  · rintro ⟨X, Y, hP, i⟩
    exact ⟨X, -Y, ⟨hP.1, l.r_p _ _ _ (h _ hP.2)⟩, i.neg⟩
  · rintro ⟨X, Y, hP, i⟩
    exact ⟨X, -Y, ⟨hP.1, l.r_p _ _ _ (h _ hP.2)⟩, i.neg⟩

theorem ecIsEqual_sound (hb : CurveOk b) [DecidableEq (ECurve b)] (P Q : EcPt F) : Sound tbl (ecIsEqual F P Q) (fun w r =>
    ∀ g1 g2 : ECurve b, EcRep0 l b w P g1 → EcRep0 l b w Q g2 → at' w r = if g1 = g2 then 1 else 0) := by
  intro s
  refine Snd.bind (l.isEqual _ _ s) fun xe s1 _ => Snd.bind (l.isEqual _ _ s1) fun ye s2 _ => (and_sound _ _ s2).weaken ?_
  rintro w r _ ⟨a, b', ha, hb', hr⟩ hye hxe g1 g2 ⟨X1, Y1, hP, i1⟩ ⟨X2, Y2, hQ, i2⟩
  have ha : a = at' w xe := ha
  have hb' : b' = at' w ye := hb'
  rw [hr, ha, hb', hxe _ _ hP.1 hQ.1, hye _ _ hP.2 hQ.2]
  have key : g1 = g2 ↔ X1 = X2 ∧ Y1 = Y2 := by
    constructor
    · rintro rfl
      rcases i1 with i1 | ⟨rfl, rfl, rfl⟩ <;> rcases i2 with i2 | ⟨h, rfl, rfl⟩
      · exact i1.coords i2
      · exact absurd h i1.ne_zero
      · exact absurd rfl i2.ne_zero
      · exact ⟨rfl, rfl⟩
    · rintro ⟨rfl, rfl⟩
      exact i1.unique hb i2
  by_cases h1 : X1 = X2 <;> by_cases h2 : Y1 = Y2 <;> simp [key, h1, h2]

theorem ecAssertEqual_sound (hb : CurveOk b) (P Q : EcPt F) : Sound tbl (ecAssertEqual F P Q) (fun w _ =>
    ∀ g1 g2 : ECurve b, EcRep0 l b w P g1 → EcRep0 l b w Q g2 → g1 = g2) := by
  intro s
  refine Snd.bind (l.assertEqual _ _ s) fun _ s1 _ => (l.assertEqual _ _ s1).weaken ?_
  rintro w r _ h2 h1 g1 g2 ⟨X1, Y1, hP, i1⟩ ⟨X2, Y2, hQ, i2⟩
  obtain rfl := h1 _ _ hP.1 hQ.1
  obtain rfl := h2 _ _ hP.2 hQ.2
  exact i1.unique hb i2

theorem ecSumLoop_sound (hf : EcFits l) (Ps : List (EcPt F)) : ∀ acc, Sound tbl (ecSumLoop F acc Ps) (fun w r =>
    ∀ (g : ECurve b) gs, CmpRep l b w (.strict acc) g → Ps.Forall₂ (EcRep l b w) gs → CmpRep l b w (.strict r) (g + gs.sum)) := by
  induction Ps with
  | nil =>
    intro acc s
    refine Snd.pure ?_
    intro w _ g gs h hs
    cases hs
    simpa using h
  | cons P Ps ih =>
    intro acc s
    refine Snd.bind (ecAddUnequal_sound l b hf _ _ true s) fun a s1 _ => Snd.bind (intoStrictPoint_sound l b a s1) fun a' s2 _ =>
      (ih a' s2).weaken ?_
    intro w r _ h3 h2 h1 g gs hg hs
    rcases hs with _ | ⟨h, hs⟩
    rename_i g' gs
    obtain ⟨c1, c2⟩ := h1 g g' hg h.cmp
    obtain ⟨n1, n2⟩ := c1 rfl
    have := h3 _ _ (h2 _ (c2 n1 n2)) hs
    rwa [List.sum_cons, ← add_assoc]

/-- `EccChip::sum` of finite points: the sum, which is then finite. -/
theorem ecSum_sound (hf : EcFits l) (bv : F.V) (hb : CurveOk (l.val bv)) (v : F.V × F.V) (Ps : List (EcPt F)) :
    Sound tbl (ecSum F bv v Ps) (fun w r => ∀ gs, Ps.Forall₂ (EcRep l (l.val bv) w) gs → EcRep l (l.val bv) w r gs.sum) := by
  intro s
  refine Snd.bind (loadPoint_sound l hf bv hb v s) fun r0 s1 _ => Snd.bind (intoStrictPoint_sound l (l.val bv) r0 s1) fun r1 s2 _ =>
    Snd.bind (ecSumLoop_sound l (l.val bv) hf Ps r1 s2) fun acc s3 _ => (ecSubUnequal_sound l (l.val bv) hf _ _ true s3).weaken ?_
  rintro w r _ h4 h3 h2 ⟨g, hg⟩ gs hs
  have hr := h2 g hg
  have ha := h3 g gs hr hs
  obtain ⟨c1, c2⟩ := h4 _ _ ha hr
  obtain ⟨n1, n2⟩ := c1 rfl
  have := c2 n1 n2
  rwa [add_sub_cancel_left] at this

end H2
