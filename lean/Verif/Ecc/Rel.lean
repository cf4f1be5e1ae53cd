import Verif.Fields.RelExt
import Verif.Ecc.Sig
import Verif.SafeTypes.Rel

/-! # Relational lemmas for the curve chip, scalar multiplication and the signature verifiers -/

set_option autoImplicit false
set_option linter.unusedSectionVars false
namespace H2
variable {p : ℕ} [Fact p.Prime] {k : Bool} {F : FieldOps p} (R : FieldRel F k)

/-- Related points. -/
structure REc (a b : EcPt F) : Prop where
  x : R.RP a.x b.x
  y : R.RP a.y b.y

/-- Related comparable points: the same constructor. -/
inductive RCm : CmpPt F → CmpPt F → Prop
  | strict {a b : EcPt F} : REc R a b → RCm (.strict a) (.strict b)
  | nonStrict {a b : EcPt F} : REc R a b → RCm (.nonStrict a) (.nonStrict b)

abbrev REcs : List (EcPt F) → List (EcPt F) → Prop := List.Forall₂ (REc R)

variable {R} in
theorem RCm.pt {a b : CmpPt F} (h : RCm R a b) : REc R a.pt b.pt := by cases h <;> assumption

macro_rules | `(tactic| frel_side1) => `(tactic| with_reducible refine RCm.strict ?_)
macro_rules | `(tactic| frel_side1) => `(tactic| with_reducible refine RCm.nonStrict ?_)
macro_rules | `(tactic| frel_side1) => `(tactic| with_reducible refine REc.mk ?_ ?_)
macro_rules | `(tactic| frel_side1) => `(tactic| with_reducible exact RCm.pt (by assumption))
macro_rules | `(tactic| frel_side1) => `(tactic| with_reducible exact REc.x (RCm.pt (by assumption)))
macro_rules | `(tactic| frel_side1) => `(tactic| with_reducible exact REc.y (RCm.pt (by assumption)))
macro_rules | `(tactic| frel_side1) => `(tactic| with_reducible exact REc.x (by assumption))
macro_rules | `(tactic| frel_side1) => `(tactic| with_reducible exact REc.y (by assumption))
macro_rules | `(tactic| frel_side1) => `(tactic| assumption)

theorem reducedX_rel {P P' : CmpPt F} (h : RCm R P P') : Rel k (reducedX F P) (reducedX F P') R.RP := by
  cases h with
  | strict h => exact Rel.pure h.x
  | nonStrict h => exact R.enforceLessThan h.x
macro_rules | `(tactic| frel_lem) => `(tactic| with_reducible refine reducedX_rel (by assumption) ?_)

theorem checkPointsAreUnequal_rel {P P' Q Q' : CmpPt F} (h : RCm R P P') (h' : RCm R Q Q') (b : Bool) :
    Rel k (checkPointsAreUnequal F P Q b) (checkPointsAreUnequal F P' Q' b) (fun _ _ => True) := by
  unfold checkPointsAreUnequal
  refine Rel.ite Iff.rfl (fun _ => ?_) (fun _ => Rel.pure trivial)
  frel
macro_rules | `(tactic| frel_lem) => `(tactic| with_reducible refine checkPointsAreUnequal_rel (by assumption) ?_ ?_ _)

theorem chordEnd_rel {P P' Q Q' : EcPt F} (h : REc R P P') (h' : REc R Q Q') {l l' : F.P} (hl : R.RP l l') :
    Rel k (chordEnd F P Q l) (chordEnd F P' Q' l') (REc R) := by
  unfold chordEnd; frel
macro_rules | `(tactic| frel_lem) => `(tactic| with_reducible refine chordEnd_rel (by assumption) ?_ ?_ ?_)

theorem ecAddUnequal_rel {P P' Q Q' : CmpPt F} (h : RCm R P P') (h' : RCm R Q Q') (b : Bool) :
    Rel k (ecAddUnequal F P Q b) (ecAddUnequal F P' Q' b) (REc R) := by
  unfold ecAddUnequal; frel
macro_rules | `(tactic| frel_lem) => `(tactic| with_reducible refine ecAddUnequal_rel (by assumption) ?_ ?_ _)

theorem ecSubUnequal_rel {P P' Q Q' : CmpPt F} (h : RCm R P P') (h' : RCm R Q Q') (b : Bool) :
    Rel k (ecSubUnequal F P Q b) (ecSubUnequal F P' Q' b) (REc R) := by
  unfold ecSubUnequal; frel
macro_rules | `(tactic| frel_lem) => `(tactic| with_reducible refine ecSubUnequal_rel (by assumption) ?_ ?_ _)

theorem ecSelect_rel {P P' Q Q' : EcPt F} (h : REc R P P') (h' : REc R Q Q') {s s' : AV p} (hs : RA k s s') :
    Rel k (ecSelect F P Q s) (ecSelect F P' Q' s') (REc R) := by
  unfold ecSelect; frel
macro_rules | `(tactic| frel_lem) => `(tactic| with_reducible refine ecSelect_rel (by assumption) ?_ ?_ ?_)

/-- Related pairs of native values. -/
def RV2 {α β : Type} (k : Bool) (v v' : α × β) : Prop := RV k v.1 v'.1 ∧ RV k v.2 v'.2

theorem ecSubStrict_rel {v v' : F.V × F.V} (hv : RV2 k v v') {P P' Q Q' : EcPt F} (h : REc R P P') (h' : REc R Q Q') :
    Rel k (ecSubStrict F v P Q) (ecSubStrict F v' P' Q') (REc R) := by
  obtain ⟨h1, h2⟩ := hv
  unfold ecSubStrict; frel
macro_rules | `(tactic| frel_lem) => `(tactic| with_reducible refine ecSubStrict_rel (by assumption) ?_ ?_ ?_)

theorem ecDouble_rel {P P' : EcPt F} (h : REc R P P') : Rel k (ecDouble F P) (ecDouble F P') (REc R) := by
  unfold ecDouble; frel
macro_rules | `(tactic| frel_lem) => `(tactic| with_reducible refine ecDouble_rel (by assumption) ?_)

/-- Related options. -/
def ROpt {α : Type} (S : α → α → Prop) : Option α → Option α → Prop
  | none, none => True
  | some a, some b => S a b
  | _, _ => False

theorem unwrapOpt_rel {α : Type} {S : α → α → Prop} {o o' : Option α} (h : ROpt S o o') :
    Rel k (unwrap o : M p α) (unwrap o') S := by
  cases o <;> cases o' <;> simp only [ROpt] at h
  · exact unwrap_rel (by simp) (by simp)
  · exact unwrap_rel (by simp) (by rintro a b ⟨rfl⟩ ⟨rfl⟩; exact h)

theorem optGet? {α : Type} {S : α → α → Prop} {l l' : List α} (h : List.Forall₂ S l l') (i : ℕ) : ROpt S l[i]? l'[i]? := by
  rcases forall₂_get? h i with ⟨e1, e2⟩ | ⟨a, b, e1, e2, h⟩
  · rw [e1, e2]; trivial
  · rw [e1, e2]; exact h
macro_rules | `(tactic| frel_lem) => `(tactic| with_reducible refine unwrapOpt_rel (optGet? ?_ _))

theorem daCheck1_rel {P P' Q Q' : CmpPt F} (h : RCm R P P') (h' : RCm R Q Q') (b : Bool) :
    Rel k (daCheck1 F P Q b) (daCheck1 F P' Q' b) (ROpt R.RP) := by
  unfold daCheck1
  refine Rel.ite Iff.rfl (fun _ => ?_) (fun _ => Rel.pure trivial)
  frel
macro_rules | `(tactic| frel_lem) => `(tactic| with_reducible refine daCheck1_rel (by assumption) ?_ ?_ _)

theorem daCheck2_rel {o o' : Option F.P} (h : ROpt R.RP o o') {x x' : F.P} (hx : R.RP x x') (b : Bool) :
    Rel k (daCheck2 F o x b) (daCheck2 F o' x' b) (fun _ _ => True) := by
  unfold daCheck2
  refine Rel.ite Iff.rfl (fun _ => (R.enforceLessThan hx).bind fun _ _ h1 => (unwrapOpt_rel h).bind fun _ _ h2 => ?_)
    (fun _ => Rel.pure trivial)
  frel
macro_rules | `(tactic| frel_lem) => `(tactic| with_reducible refine daCheck2_rel (by assumption) ?_ ?_ _)

theorem ecDoubleAndAddUnequal_rel {P P' Q Q' : CmpPt F} (h : RCm R P P') (h' : RCm R Q Q') (b : Bool) :
    Rel k (ecDoubleAndAddUnequal F P Q b) (ecDoubleAndAddUnequal F P' Q' b) (REc R) := by
  unfold ecDoubleAndAddUnequal; frel
macro_rules | `(tactic| frel_lem) => `(tactic| with_reducible refine ecDoubleAndAddUnequal_rel (by assumption) ?_ ?_ _)

theorem ecSelectByIndicator_rel {l l' : List (EcPt F)} (h : REcs R l l') {c c' : List (AV p)} (hc : RAs k c c')
    {P : Prop} (hl : k = true → P → l.length = c.length) :
    Rel k (ecSelectByIndicator F l c) (ecSelectByIndicator F l' c') (REc R) P :=
  (R.selectByIndicator (forall₂_map (fun _ _ h => REc.x h) h) hc fun hk hh => (List.length_map _).trans (hl hk hh)).bind fun _ _ h1 =>
    (R.selectByIndicator (forall₂_map (fun _ _ h => REc.y h) h) hc fun hk hh => (List.length_map _).trans (hl hk hh)).bind
      fun _ _ h2 => Rel.pure ⟨h1, h2⟩

theorem ecSelectFromBits_rel {l l' : List (EcPt F)} (h : REcs R l l') {c c' : List (AV p)} (hc : RAs k c c') :
    Rel k (ecSelectFromBits F l c) (ecSelectFromBits F l' c') (REc R) := by
  unfold ecSelectFromBits
  have e1 := h.length_eq
  have e2 := hc.length_eq
  rw [e1, e2]
  exact (assertM_rel fun _ => rfl).bind fun _ _ e => (bitsToIndicator_rel hc).bind fun _ _ h1 =>
    ecSelectByIndicator_rel R h h1.1 fun _ _ => by rw [h1.2, e1, e2]; exact (beq_iff_eq.1 e.1).symm
macro_rules | `(tactic| frel_lem) => `(tactic| with_reducible refine ecSelectFromBits_rel (by assumption) ?_ ?_)

theorem curveDiff_rel (b : F.V) {P P' : EcPt F} (h : REc R P P') : Rel k (curveDiff F b P) (curveDiff F b P') R.RU := by
  unfold curveDiff; frel
macro_rules | `(tactic| frel_lem) => `(tactic| with_reducible refine curveDiff_rel (by assumption) _ ?_)

theorem checkIsOnCurve_rel (b : F.V) {P P' : EcPt F} (h : REc R P P') :
    Rel k (checkIsOnCurve F b P) (checkIsOnCurve F b P') (fun _ _ => True) := by
  unfold checkIsOnCurve; frel
macro_rules | `(tactic| frel_lem) => `(tactic| with_reducible refine checkIsOnCurve_rel (by assumption) _ ?_)

theorem loadPrivateUnchecked_rel {v v' : F.V × F.V} (hv : RV2 k v v') :
    Rel k (loadPrivateUnchecked F v) (loadPrivateUnchecked F v') (REc R) := by
  obtain ⟨h1, h2⟩ := hv
  unfold loadPrivateUnchecked; frel
macro_rules | `(tactic| frel_lem) => `(tactic| with_reducible refine loadPrivateUnchecked_rel (by assumption) ?_)

theorem loadPoint_rel (b : F.V) {v v' : F.V × F.V} (hv : RV2 k v v') : Rel k (loadPoint F b v) (loadPoint F b v') (REc R) := by
  unfold loadPoint; frel
macro_rules | `(tactic| frel_lem) => `(tactic| with_reducible refine loadPoint_rel (by assumption) _ ?_)

theorem intoStrictPoint_rel {P P' : EcPt F} (h : REc R P P') : Rel k (intoStrictPoint F P) (intoStrictPoint F P') (REc R) := by
  exact (R.enforceLessThan h.x).bind fun _ _ h1 => Rel.pure ⟨h1, h.y⟩
macro_rules | `(tactic| frel_lem) => `(tactic| with_reducible refine intoStrictPoint_rel (by assumption) ?_)

theorem isOnCurveOrInfinity_rel (b : F.V) {P P' : EcPt F} (h : REc R P P') :
    Rel k (isOnCurveOrInfinity F b P) (isOnCurveOrInfinity F b P') (RA k) := by
  unfold isOnCurveOrInfinity; frel
macro_rules | `(tactic| frel_lem) => `(tactic| with_reducible refine isOnCurveOrInfinity_rel (by assumption) _ ?_)

theorem assignPoint_rel (b : F.V) {v v' : F.V × F.V} (hv : RV2 k v v') : Rel k (assignPoint F b v) (assignPoint F b v') (REc R) := by
  unfold assignPoint; frel
macro_rules | `(tactic| frel_lem) => `(tactic| with_reducible refine assignPoint_rel (by assumption) _ ?_)

theorem assignConstantPoint_rel (v : F.V × F.V) : Rel k (assignConstantPoint F v) (assignConstantPoint F v) (REc R) := by
  unfold assignConstantPoint; frel
macro_rules | `(tactic| frel_lem) => `(tactic| with_reducible exact assignConstantPoint_rel (by assumption) _)

theorem ecNegate_rel {P P' : EcPt F} (h : REc R P P') : Rel k (ecNegate F P) (ecNegate F P') (REc R) := by
  exact (R.negate h.y).bind fun _ _ h1 => Rel.pure ⟨h.x, h1⟩
macro_rules | `(tactic| frel_lem) => `(tactic| with_reducible refine ecNegate_rel (by assumption) ?_)

theorem ecIsEqual_rel {P P' Q Q' : EcPt F} (h : REc R P P') (h' : REc R Q Q') :
    Rel k (ecIsEqual F P Q) (ecIsEqual F P' Q') (RA k) := by
  unfold ecIsEqual; frel
macro_rules | `(tactic| frel_lem) => `(tactic| with_reducible refine ecIsEqual_rel (by assumption) ?_ ?_)

theorem ecAssertEqual_rel {P P' Q Q' : EcPt F} (h : REc R P P') (h' : REc R Q Q') :
    Rel k (ecAssertEqual F P Q) (ecAssertEqual F P' Q') (fun _ _ => True) := by
  unfold ecAssertEqual; frel
macro_rules | `(tactic| frel_lem) => `(tactic| with_reducible refine ecAssertEqual_rel (by assumption) ?_ ?_)

theorem ecSumLoop_rel {a a' : EcPt F} (ha : REc R a a') {l l' : List (EcPt F)} (h : REcs R l l') :
    Rel k (ecSumLoop F a l) (ecSumLoop F a' l') (REc R) := by
  induction h generalizing a a' with
  | nil => exact Rel.pure ha
  | cons h _ ih =>
    exact (ecAddUnequal_rel R (.strict ha) (.nonStrict h) true).bind fun _ _ h1 => (intoStrictPoint_rel R h1).bind fun _ _ h2 => ih h2
macro_rules | `(tactic| frel_lem) => `(tactic| with_reducible refine ecSumLoop_rel (by assumption) ?_ ?_)

theorem ecSum_rel (b : F.V) {v v' : F.V × F.V} (hv : RV2 k v v') {l l' : List (EcPt F)} (h : REcs R l l') :
    Rel k (ecSum F b v l) (ecSum F b v' l') (REc R) := by
  unfold ecSum; frel
macro_rules | `(tactic| frel_lem) => `(tactic| with_reducible refine ecSum_rel (by assumption) _ ?_ ?_)

omit F R in
theorem chunkBits_rel (m : ℕ) {l l' : List (AV p)} (h : RAs k l l') : Rel k (chunkBits m l) (chunkBits m l') (RAs k) := by
  induction h with
  | nil => exact Rel.pure .nil
  | cons h _ ih => exact (numToBits_rel h m).bind fun _ _ h1 => ih.bind fun _ _ h2 => Rel.pure (List.rel_append h1 h2)
macro_rules | `(tactic| frel_lem) => `(tactic| with_reducible refine chunkBits_rel _ ?_)

theorem forall₂_replicate {α : Type} {S : α → α → Prop} {a b : α} (h : S a b) (n : ℕ) :
    List.Forall₂ S (List.replicate n a) (List.replicate n b) := by
  induction n with
  | zero => exact .nil
  | succ n ih => exact .cons h ih

theorem msmBits_rel (m pad : ℕ) {z z' : AV p} (hz : RA k z z') {l l' : List (List (AV p))} (h : List.Forall₂ (RAs k) l l') :
    Rel k (msmBits m pad z l) (msmBits m pad z' l') (RAs k) := by
  induction h with
  | nil => exact Rel.pure .nil
  | cons h _ ih =>
    refine (chunkBits_rel m h).bind fun _ _ h1 => ih.bind fun _ _ h2 => ?_
    exact Rel.pure (List.rel_append (List.rel_append h1 (forall₂_replicate hz _)) h2)

theorem doublings_rel {P P' : EcPt F} (h : REc R P P') (n : ℕ) : Rel k (doublings F P n) (doublings F P' n) (REcs R) := by
  induction n generalizing P P' with
  | zero => exact Rel.pure .nil
  | succ n ih => exact (ecDouble_rel R h).bind fun _ _ h1 => (ih h1).bind fun _ _ h2 => Rel.pure (.cons h1 h2)

theorem doubleN_rel {P P' : EcPt F} (h : REc R P P') (n : ℕ) : Rel k (doubleN F P n) (doubleN F P' n) (REc R) := by
  induction n generalizing P P' with
  | zero => exact Rel.pure h
  | succ n ih => exact (ecDouble_rel R h).bind fun _ _ h1 => ih h1

theorem cacheRow_rel {i i' : AV p} (hi : RA k i i') {P P' Q Q' : EcPt F} (h : REc R P P') (h' : REc R Q Q') (n : ℕ) :
    Rel k (cacheRow F i P Q n) (cacheRow F i' P' Q' n) (REcs R) := by
  induction n generalizing Q Q' with
  | zero => exact Rel.pure .nil
  | succ n ih =>
    exact (ecAddUnequal_rel R (.strict h') (.strict h) true).bind fun _ _ h1 => (ecSelect_rel R h' h1 hi).bind fun _ _ h2 =>
      (intoStrictPoint_rel R h2).bind fun _ _ h3 => (ih h3).bind fun _ _ h4 => Rel.pure (.cons h3 h4)

theorem cacheLoop_rel {rs rs' : List (EcPt F)} (hr : REcs R rs rs') (w i : ℕ) {l l' : List (EcPt F)} (h : REcs R l l') :
    Rel k (cacheLoop F rs w i l) (cacheLoop F rs' w i l') (REcs R) := by
  induction h generalizing i with
  | nil => exact Rel.pure .nil
  | cons h _ ih =>
    exact (R.isZero h.y).bind fun _ _ h1 => (unwrapOpt_rel (optGet? hr _)).bind fun _ _ h2 => (unwrapOpt_rel (optGet? hr _)).bind fun _ _ h3 =>
      (ecSubUnequal_rel R (.nonStrict h2) (.nonStrict h3) true).bind fun _ _ h4 => (intoStrictPoint_rel R h).bind fun _ _ h5 =>
      (intoStrictPoint_rel R h4).bind fun _ _ h6 => (cacheRow_rel R h1 h5 h6 _).bind fun _ _ h7 => (ih _).bind fun _ _ h8 =>
      Rel.pure (.cons h6 (List.rel_append h7 h8))

theorem sliceM_rel {α : Type} {S : α → α → Prop} {l l' : List α} (h : List.Forall₂ S l l') (a b : ℕ) :
    Rel k (sliceM l a b : M p _) (sliceM l' a b) (List.Forall₂ S) := by
  unfold sliceM
  rw [h.length_eq]
  exact Rel.ite Iff.rfl (fun _ => Rel.pure (List.forall₂_take _ (List.forall₂_drop _ h))) (fun _ => Rel.panic)

/-- Related rows of cached points and bits. -/
abbrev RRow (x y : List (EcPt F) × List (AV p)) : Prop := REcs R x.1 y.1 ∧ RAs k x.2 y.2

theorem msmAddLoop_rel (lo hi : ℕ) {P P' : EcPt F} (hP : REc R P P') {l l' : List (List (EcPt F) × List (AV p))}
    (h : List.Forall₂ (RRow R) l l') : Rel k (msmAddLoop F lo hi P l) (msmAddLoop F lo hi P' l') (REc R) := by
  induction h generalizing P P' with
  | nil => exact Rel.pure hP
  | cons h _ ih =>
    exact (sliceM_rel h.2 lo hi).bind fun _ _ h1 => (ecSelectFromBits_rel R h.1 h1).bind fun _ _ h2 =>
      (ecAddUnequal_rel R (.nonStrict hP) (.nonStrict h2) true).bind fun _ _ h3 => ih h3

theorem msmLoop_rel (w : ℕ) {l l' : List (List (EcPt F) × List (AV p))} (h : List.Forall₂ (RRow R) l l') {P P' : EcPt F}
    (hP : REc R P P') (n : ℕ) : Rel k (msmLoop F w l P n) (msmLoop F w l' P' n) (REc R) := by
  induction n generalizing P P' with
  | zero => exact Rel.pure hP
  | succ n ih =>
    exact (doubleN_rel R hP w).bind fun _ _ h1 => (msmAddLoop_rel R _ _ h1 h).bind fun _ _ h2 => ih h2

theorem chunksOf_rel {α : Type} {S : α → α → Prop} (n : ℕ) {l l' : List α} (h : List.Forall₂ S l l') :
    List.Forall₂ (List.Forall₂ S) (chunksOf n l) (chunksOf n l') := by
  unfold chunksOf
  rw [h.length_eq]
  exact chunksAux_rel _ _ h

/-- Related random choices. -/
def RRand (k : Bool) (r r' : MsmRand F) : Prop := RV2 k r.base r'.base ∧ RV2 k r.pair r'.pair

theorem multiScalarMultiply_rel (b : F.V) {r r' : MsmRand F} (hr : RRand k r r') {P P' : List (EcPt F)} (hP : REcs R P P')
    {s s' : List (List (AV p))} (hs : List.Forall₂ (RAs k) s s') (m w : ℕ) :
    Rel k (multiScalarMultiply F b r P s m w) (multiScalarMultiply F b r' P' s' m w) (REc R) := by
  unfold multiScalarMultiply
  simp only []
  rw [hP.length_eq, hs.length_eq]
  refine (assertM_rel fun _ => rfl).bind fun _ _ _ => (assertM_rel fun _ => rfl).bind fun _ _ _ =>
    (unwrapOpt_rel (optGet? hs 0)).bind fun s0 s0' h0 => ?_
  rw [h0.length_eq]
  refine (assertM_rel fun _ => rfl).bind fun _ _ _ => (assertM_rel fun _ => rfl).bind fun _ _ _ =>
    (assertM_rel fun _ => rfl).bind fun _ _ _ => loadZero_rel.bind fun _ _ h1 => (msmBits_rel _ _ h1 hs).bind fun _ _ h2 =>
    (loadPoint_rel R b hr.1).bind fun _ _ h3 => (doublings_rel R h3 _).bind fun _ _ h4 => ?_
  exact (cacheLoop_rel R (.cons h3 h4) w 0 hP).bind fun _ _ h5 => (unwrapOpt_rel (optGet? (.cons h3 h4) _)).bind fun _ _ h6 =>
    (unwrapOpt_rel (optGet? (.cons h3 h4) _)).bind fun _ _ h7 => (ecSubUnequal_rel R (.nonStrict h6) (.nonStrict h7) true).bind
    fun _ _ h8 => (msmLoop_rel R w (zip_rel (chunksOf_rel _ h5) (chunksOf_rel _ h2)) h8 _).bind fun _ _ h9 =>
    ecSubStrict_rel R hr.2 h9 h8

theorem scalarMultiply_rel (b : F.V) {r r' : MsmRand F} (hr : RRand k r r') {P P' : EcPt F} (hP : REc R P P')
    {s s' : List (AV p)} (hs : RAs k s s') (m w : ℕ) :
    Rel k (scalarMultiply F b r P s m w) (scalarMultiply F b r' P' s' m w) (REc R) := by
  unfold scalarMultiply
  rw [hs.length_eq]
  exact (assertM_rel fun _ => rfl).bind fun _ _ _ => (assertM_rel fun _ => rfl).bind fun _ _ _ =>
    (assertM_rel fun _ => rfl).bind fun _ _ _ => multiScalarMultiply_rel R b hr (.cons hP .nil) (.cons hs .nil) m w

/-! ### Fixed base -/

theorem fbLoad_rel (l : List (F.V × F.V)) : Rel k (fbLoad F l) (fbLoad F l) (REcs R) := by
  induction l with
  | nil => exact Rel.pure .nil
  | cons v l ih => exact (assignConstantPoint_rel R v).bind fun _ _ h => ih.bind fun _ _ h2 => Rel.pure (.cons h h2)

theorem fbLoop_rel {P P' : EcPt F} (hP : REc R P P') {l l' : List (List (EcPt F) × List (AV p))}
    (h : List.Forall₂ (RRow R) l l') : Rel k (fbLoop F P l) (fbLoop F P' l') (REc R) := by
  induction h generalizing P P' with
  | nil => exact Rel.pure hP
  | cons h _ ih =>
    exact (sum_rel (exist_rel h.2)).bind fun _ _ h1 => (isZero_rel h1).bind fun _ _ h2 => (ecSelectFromBits_rel R h.1 h.2).bind
      fun _ _ h3 => (ecAddUnequal_rel R (.nonStrict hP) (.nonStrict h3) true).bind fun _ _ h4 => (ecSelect_rel R hP h4 h2).bind
      fun _ _ h5 => ih h5

theorem fixedScalarMultiply_rel (C : NativeCurve F) (b : F.V) {r r' : MsmRand F} (hr : RRand k r r') (pt : C.G)
    {s s' : List (AV p)} (hs : RAs k s s') (m w : ℕ) :
    Rel k (fixedScalarMultiply F C b r pt s m w) (fixedScalarMultiply F C b r' pt s' m w) (REc R) := by
  unfold fixedScalarMultiply
  rw [hs.length_eq]
  refine Rel.ite Iff.rfl (fun _ => (R.loadConstant _).bind fun _ _ h => Rel.pure ⟨h, h⟩) (fun _ => ?_)
  exact (assertM_rel fun _ => rfl).bind fun _ _ _ => (assertM_rel fun _ => rfl).bind fun _ _ _ =>
    (assertM_rel fun _ => rfl).bind fun _ _ _ => (fbLoad_rel R _).bind fun _ _ h1 => (chunkBits_rel m hs).bind fun _ _ h2 =>
    (loadPoint_rel R b hr.1).bind fun _ _ h3 => (fbLoop_rel R h3 (zip_rel (List.rel_reverse (chunksOf_rel _ h1))
      (List.rel_reverse (chunksOf_rel _ h2)))).bind fun _ _ h4 => ecSubStrict_rel R hr.2 h4 h3

/-! ### Signatures -/

variable (c : FpChip p)

/-- Related random choices of the verifiers. -/
def RSig (k : Bool) (r r' : SigRand c) : Prop := RRand k r.fixed r'.fixed ∧ RRand k r.var r'.var ∧ RV2 k r.sum r'.sum

theorem ecdsaVerify_rel (N : ℕ) (C : NativeCurve c.ops) (b : c.ops.V) (gen : C.G) {v v' : SigRand c} (hv : RSig c k v v')
    {P P' : EcPt c.ops} (hP : REc (c.fieldRel k) P P') {r r' s s' z z' : CrtInt p} (hr : RC k r r') (hs : RC k s s') (hz : RC k z z')
    (vw fw : ℕ) : Rel k (ecdsaVerify c N C b gen v P r s z vw fw) (ecdsaVerify c N C b gen v' P' r' s' z' vw fw) (RA k) := by
  obtain ⟨v1, v2, v3⟩ := hv
  refine (unwrapS_rel _).bind ?_
  rintro cs _ rfl
  refine (unwrapS_rel _).bind ?_
  rintro nl _ rfl
  have K := cs.fieldRel k
  refine (loadConstants_rel nl).bind fun _ _ hn => (cs.isSoftNonzero_rel hr).bind fun _ _ h1 => (cs.isSoftNonzero_rel hs).bind fun _ _ h2 =>
    ((cs.fieldRel k).divideUnsafe (a := z) (a' := z') hz hs).bind fun u1 u1' h3 => ((cs.fieldRel k).divideUnsafe (a := r) (a' := r') hr hs).bind fun u2 u2' h4 =>
    (fixedScalarMultiply_rel (c.fieldRel k) C b v1 gen (s := u1.trunc.limbs) (s' := u1'.trunc.limbs) (RO'.limbs (RC.trunc h3)) _ _).bind fun _ _ h5 =>
    (scalarMultiply_rel (c.fieldRel k) b v2 hP (s := u2.trunc.limbs) (s' := u2'.trunc.limbs) (RO'.limbs (RC.trunc h4)) _ _).bind fun _ _ h6 =>
    ((c.fieldRel k).isEqual h5.x h6.x).bind fun _ _ h7 => (not_rel h7.q).bind fun _ _ h8 =>
    ((c.fieldRel k).isEqual h5.y h6.y).bind fun _ _ h9 => (or_rel h8.q h9.q).bind fun _ _ h10 =>
    (ecSum_rel (c.fieldRel k) b v3 (.cons h5 (.cons h6 .nil))).bind fun S S' h11 => ?_
  refine ((cs.fieldRel k).enforceLessThan (a := S.x) (a' := S'.x) h11.x).bind fun X X' h12 =>
    (bigIsEqual_rel (RO'.limbs (RC.trunc h12)) hr.trunc.limbs).bind fun _ _ h13 => (base1_rel c).bind ?_
  rintro b1 _ rfl
  refine (bigLessThan_rel _ _ _ (RO'.limbs (RC.trunc h3)) hn).bind fun _ _ h14 => (base1_rel c).bind ?_
  rintro b1 _ rfl
  exact (bigLessThan_rel _ _ _ (RO'.limbs (RC.trunc h4)) hn).bind fun _ _ h15 => (and_rel h1.q h2.q).bind fun _ _ g1 =>
    (and_rel g1.q h14.q).bind fun _ _ g2 => (and_rel g2.q h15.q).bind fun _ _ g3 => (and_rel g3.q h10.q).bind fun _ _ g4 =>
    and_rel g4.q h13.q

theorem schnorrVerify_rel (N : ℕ) (C : NativeCurve c.ops) (b : c.ops.V) (gen : C.G) {v v' : SigRand c} (hv : RSig c k v v')
    {P P' : EcPt c.ops} (hP : REc (c.fieldRel k) P P') {r r' s s' z z' : CrtInt p} (hr : RC k r r') (hs : RC k s s') (hz : RC k z z')
    (vw fw : ℕ) : Rel k (schnorrVerify c N C b gen v P r s z vw fw) (schnorrVerify c N C b gen v' P' r' s' z' vw fw) (RA k) := by
  obtain ⟨v1, v2, v3⟩ := hv
  refine (unwrapS_rel _).bind ?_
  rintro cs _ rfl
  refine (c.isLessThanP_rel hr).bind fun _ _ h1 => (cs.isSoftNonzero_rel hs).bind fun _ _ h2 => (cs.isSoftNonzero_rel hz).bind fun _ _ h3 =>
    (fixedScalarMultiply_rel (c.fieldRel k) C b v1 gen hs.trunc.limbs _ _).bind fun _ _ h5 =>
    (scalarMultiply_rel (c.fieldRel k) b v2 hP hz.trunc.limbs _ _).bind fun _ _ h6 =>
    ((c.fieldRel k).isEqual h5.x h6.x).bind fun _ _ h7 => (not_rel h7.q).bind fun _ _ h8 =>
    (ecSubUnequal_rel (c.fieldRel k) (.nonStrict h5) (.nonStrict h6) true).bind fun S S' h9 =>
    (c.isEven_rel (a := S.y) (a' := S'.y) h9.y).bind fun _ _ h10 =>
    ((cs.fieldRel k).enforceLessThan (a := S.x) (a' := S'.x) h9.x).bind fun X X' h12 =>
    (bigIsEqual_rel (RO'.limbs (RC.trunc h12)) hr.trunc.limbs).bind fun _ _ h13 => ?_
  exact (and_rel h1.q h2.q).bind fun _ _ g1 =>
    (and_rel g1.q h3.q).bind fun _ _ g2 => (and_rel g2.q h8.q).bind fun _ _ g3 => (and_rel g3.q h10.q).bind fun _ _ g4 =>
    and_rel g4.q h13.q

end H2
