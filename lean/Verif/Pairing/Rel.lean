import Verif.Pairing.Model
import Verif.Ecc.Rel

/-!
# Relational lemmas for the pairing chip and BLS verification
-/

set_option autoImplicit false
set_option linter.unusedSectionVars false
namespace H2
variable {p : ℕ} [Fact p.Prime] {k : Bool}

namespace PairCfg
variable (C : PairCfg p)

/-- Related vectors of base field points. -/
abbrev RL (k : Bool) : List (CrtInt p) → List (CrtInt p) → Prop := List.Forall₂ (RC k)
abbrev RLL (k : Bool) : List (List (CrtInt p)) → List (List (CrtInt p)) → Prop := List.Forall₂ (RL k)
abbrev RLO (k : Bool) : List (Option (List (CrtInt p))) → List (Option (List (CrtInt p))) → Prop :=
  List.Forall₂ (ROpt (RL k))

/-- The native extension fields have a fixed degree. -/
structure Deg : Prop where
  h2 : ∀ v v', (C.E2.coeffs v).length = (C.E2.coeffs v').length
  h12 : ∀ v v', (C.E12.coeffs v).length = (C.E12.coeffs v').length

variable {C} (D : C.Deg)

def R1 (C : PairCfg p) (k : Bool) : FieldRel C.F k := C.c.fieldRel k
def R2 (D : C.Deg) (k : Bool) : FieldRel C.F2 k := fp2Rel (C.c.fieldRel k) C.E2 D.h2
def R12 (D : C.Deg) (k : Bool) : FieldRel C.F12 k := fp12Rel (C.c.fieldRel k) C.E12 9 D.h12

section
variable {a a' b b' : List (CrtInt p)} (ha : RL k a a') (hb : RL k b b')
theorem add2 (D : C.Deg) (ha : RL k a a') (hb : RL k b b') : Rel k (C.F2.addNoCarry a b) (C.F2.addNoCarry a' b') (RL k) := (R2 D k).addNoCarry ha hb
theorem sub2 (D : C.Deg) (ha : RL k a a') (hb : RL k b b') : Rel k (C.F2.subNoCarry a b) (C.F2.subNoCarry a' b') (RL k) := (R2 D k).subNoCarry ha hb
theorem mulN2 (D : C.Deg) (ha : RL k a a') (hb : RL k b b') : Rel k (C.F2.mulNoCarry a b) (C.F2.mulNoCarry a' b') (RL k) := (R2 D k).mulNoCarry ha hb
theorem mul2 (D : C.Deg) (ha : RL k a a') (hb : RL k b b') : Rel k (C.F2.mul a b) (C.F2.mul a' b') (RL k) := (R2 D k).mul ha hb
theorem div2 (D : C.Deg) (ha : RL k a a') (hb : RL k b b') : Rel k (C.F2.divideUnsafe a b) (C.F2.divideUnsafe a' b') (RL k) := (R2 D k).divideUnsafe ha hb
theorem smul2 (D : C.Deg) (ha : RL k a a') (z : ℤ) : Rel k (C.F2.scalarMulNoCarry a z) (C.F2.scalarMulNoCarry a' z) (RL k) := (R2 D k).scalarMulNoCarry z ha
theorem smulAdd2 (D : C.Deg) (ha : RL k a a') (hb : RL k b b') (z : ℤ) : Rel k (C.F2.scalarMulAddNoCarry a b z) (C.F2.scalarMulAddNoCarry a' b' z) (RL k) := (R2 D k).scalarMulAddNoCarry z ha hb
theorem carry2 (D : C.Deg) (ha : RL k a a') : Rel k (C.F2.carryMod a) (C.F2.carryMod a') (RL k) := (R2 D k).carryMod ha
theorem isZero2 (D : C.Deg) (ha : RL k a a') : Rel k (C.F2.isZero a) (C.F2.isZero a') (RA k) := (R2 D k).isZero ha
theorem const2 (D : C.Deg) (v : C.E2.V) : Rel k (C.F2.loadConstant v) (C.F2.loadConstant v) (RL k) := (R2 D k).loadConstant v
theorem w6 (xi : ℤ) (ha : RL k a a') : Rel k (mulNoCarryW6 C.F xi a) (mulNoCarryW6 C.F xi a') (RL k) := mulNoCarryW6_rel (R1 C k) xi ha
theorem sel2 {s s' : AV p} (ha : RL k a a') (hb : RL k b b') (hs : RA k s s') :
    Rel k (vecSelect C.F a b s) (vecSelect C.F a' b' s') (RL k) := vecSelect_rel (R1 C k) ha hb hs
theorem fpMul {x x' : CrtInt p} (ha : RL k a a') (hx : RC k x x') : Rel k (fpMulNoCarry C.F a x) (fpMulNoCarry C.F a' x') (RL k) :=
  mapList_rel (fun _ _ h => (R1 C k).mulNoCarry h hx) ha
theorem mul12 (D : C.Deg) (ha : RL k a a') (hb : RL k b b') : Rel k (C.F12.mul a b) (C.F12.mul a' b') (RL k) := (R12 D k).mul ha hb
theorem div12 (D : C.Deg) (ha : RL k a a') (hb : RL k b b') : Rel k (C.F12.divideUnsafe a b) (C.F12.divideUnsafe a' b') (RL k) := (R12 D k).divideUnsafe ha hb
theorem conj2 (ha : RL k a a') : Rel k (fp2Conjugate C.F a) (fp2Conjugate C.F a') (RL k) := fp2Conjugate_rel (R1 C k) ha
theorem nconj2 (ha : RL k a a') : Rel k (fp2NegConjugate C.F a) (fp2NegConjugate C.F a') (RL k) := fp2NegConjugate_rel (R1 C k) ha
theorem conj12 (ha : RL k a a') : Rel k (fp12Conjugate C.F a) (fp12Conjugate C.F a') (RL k) := fp12Conjugate_rel (R1 C k) ha
end

/-- `let x ← if c then m1 else m2; f x`, as compiled by `do`. -/
theorem Rel.iteJp {α β γ δ : Type} {c : Prop} [Decidable c] {m1 m2 : M p α} {n1 n2 : M p β} {f : α → M p γ} {f' : β → M p δ}
    {Q : α → β → Prop} {R : γ → δ → Prop} (h1 : c → Rel k m1 n1 Q) (h2 : ¬ c → Rel k m2 n2 Q)
    (hf : ∀ r r', Q r r' → Rel k (f r) (f' r') R) :
    Rel k (if c then m1 >>= f else m2 >>= f) (if c then n1 >>= f' else n2 >>= f') R :=
  Rel.ite Iff.rfl (fun h => (h1 h).bind hf) (fun h => (h2 h).bind hf)

/-! ### `final_exp.rs` -/

theorem zipPair_rel {α : Type} {R : α → α → Prop} {l l' m m' : List α} (h : List.Forall₂ R l l') (hm : List.Forall₂ R m m') :
    List.Forall₂ (List.Forall₂ R) (List.zipWith (fun x y => [x, y]) l m) (List.zipWith (fun x y => [x, y]) l' m') := by
  induction h generalizing m m' with
  | nil => exact .nil
  | cons h _ ih => cases hm with
    | nil => exact .nil
    | cons g hm => exact .cons (.cons h (.cons g .nil)) (ih hm)

theorem assertLen_rel {α : Type} {R : α → α → Prop} {l l' : List α} (h : List.Forall₂ R l l') (n : ℕ) :
    Rel k (assertM (l.length == n) : M p Unit) (assertM (l'.length == n)) (fun _ _ => True) := by
  rw [h.length_eq]; exact (assertM_rel fun _ => rfl).weaken fun _ _ _ => trivial

theorem slices_rel {a a' : List (CrtInt p)} (h : RL k a a') : Rel k (slices a : M p _) (slices a') (RLL k) :=
  (assertLen_rel h 12).bind fun _ _ _ => Rel.pure (zipPair_rel (List.forall₂_take 6 h) (List.forall₂_drop 6 h))

theorem get_rel {α : Type} {S : α → α → Prop} {l l' : List α} (h : List.Forall₂ S l l') (i : ℕ) :
    Rel k (unwrap l[i]? : M p α) (unwrap l'[i]?) S := unwrapOpt_rel (optGet? h i)

theorem join_rel {a a' : List (List (CrtInt p))} (h : RLL k a a') : Rel k (join a : M p _) (join a') (RL k) :=
  (mapList_rel (fun _ _ h => get_rel h 0) h).bind fun _ _ h1 =>
    (mapList_rel (fun _ _ h => get_rel h 1) h).bind fun _ _ h2 => Rel.pure (List.rel_append h1 h2)

include D in
theorem frobCoeff_rel (pow i : ℕ) {a a' : List (CrtInt p)} (h : RL k a a') :
    Rel k (C.frobCoeff pow i a) (C.frobCoeff pow i a') (RL k) := by
  unfold frobCoeff
  refine Rel.iteJp (Q := RL k) (fun _ => conj2 h) (fun _ => Rel.pure h) fun b b' hb => ?_
  split
  · refine Rel.ite Iff.rfl (fun _ => Rel.pure hb) fun _ => Rel.ite Iff.rfl (fun _ => ?_) (fun _ => ?_)
    · exact ((R1 C k).loadConstant _).bind fun _ _ hf => (fpMul hb hf).bind fun _ _ h1 => carry2 D h1
    · exact (const2 D _).bind fun _ _ hf => mul2 D hb hf
  · exact Rel.panic

include D in
theorem frobLoop_rel (pow : ℕ) {a a' : List (List (CrtInt p))} (h : RLL k a a') (i : ℕ) :
    Rel k (C.frobLoop pow i a) (C.frobLoop pow i a') (RLL k) := by
  induction h generalizing i with
  | nil => exact Rel.pure .nil
  | cons h _ ih => exact (frobCoeff_rel D pow i h).bind fun _ _ h1 => (ih (i + 1)).bind fun _ _ h2 => Rel.pure (.cons h1 h2)

include D in
theorem frobeniusMap_rel {a a' : List (CrtInt p)} (h : RL k a a') (pow : ℕ) :
    Rel k (C.frobeniusMap a pow) (C.frobeniusMap a' pow) (RL k) :=
  (slices_rel h).bind fun _ _ h1 => (frobLoop_rel D _ h1 0).bind fun _ _ h2 => join_rel h2

include D in
theorem powLoop_rel {a a' : List (CrtInt p)} (h : RL k a a') (zs : List ℤ) (st : Bool) {r r' : List (CrtInt p)} (hr : RL k r r') :
    Rel k (C.powLoop a zs st r) (C.powLoop a' zs st r') (RL k) := by
  induction zs generalizing st r r' with
  | nil => exact Rel.pure hr
  | cons z zs ih =>
    unfold powLoop
    refine Rel.iteJp (Q := RL k) (fun _ => mul12 D hr hr) (fun _ => Rel.pure hr) fun b b' hb => ?_
    refine Rel.ite Iff.rfl (fun _ => ?_) (fun _ => ih _ hb)
    refine (assertM_rel fun _ => rfl).bind fun _ _ _ => ?_
    refine Rel.ite Iff.rfl (fun _ => ?_) (fun _ => (assertM_rel fun _ => rfl).bind fun _ _ _ => ih _ hb)
    exact Rel.iteJp (Q := RL k) (fun _ => mul12 D hb h) (fun _ => div12 D hb h) fun _ _ h1 => ih _ h1

include D in
theorem pow_rel {a a' : List (CrtInt p)} (h : RL k a a') (e : List ℕ) : Rel k (C.pow a e) (C.pow a' e) (RL k) :=
  (unwrapS_rel _).bind (by rintro x _ rfl; exact powLoop_rel D h _ _ h)

/-- Related compressed elements. -/
structure RComp (k : Bool) (x y : Comp (CrtInt p)) : Prop where
  g2 : RL k x.g2 y.g2
  g3 : RL k x.g3 y.g3
  g4 : RL k x.g4 y.g4
  g5 : RL k x.g5 y.g5

theorem slice_rel {a a' : List (CrtInt p)} (h : RL k a a') (i : ℕ) : Rel k (slice a i : M p _) (slice a' i) (RL k) :=
  (get_rel h i).bind fun _ _ h1 => (get_rel h (i + 6)).bind fun _ _ h2 => Rel.pure (.cons h1 (.cons h2 .nil))

theorem cycCompress_rel {a a' : List (CrtInt p)} (h : RL k a a') : Rel k (cycCompress a : M p _) (cycCompress a') (RComp k) :=
  (slice_rel h 1).bind fun _ _ h1 => (slice_rel h 4).bind fun _ _ h2 => (slice_rel h 2).bind fun _ _ h3 =>
    (slice_rel h 5).bind fun _ _ h4 => Rel.pure ⟨h1, h2, h3, h4⟩

theorem crtAddOne_rel {a a' : CrtInt p} (h : RC k a a') : Rel k (crtAddOne a) (crtAddOne a') (RC k) := by
  obtain ⟨⟨l, m⟩, n, v⟩ := a
  obtain ⟨⟨l', m'⟩, n', v'⟩ := a'
  obtain ⟨⟨hl, hm⟩, hn, hv⟩ := h
  simp only at hl hm hn hv
  subst hm
  cases hl with
  | nil => exact Rel.panic
  | cons h hl =>
    exact (add_rel h.q (RQ.constant_rfl _)).bind fun _ _ h1 => (add_rel hn.q (RQ.constant_rfl _)).bind fun _ _ h2 =>
      Rel.pure ⟨⟨.cons h1 hl, rfl⟩, h2, hv.map (· + 1)⟩

theorem addOne_rel {a a' : List (CrtInt p)} (h : RL k a a') : Rel k (addOne a) (addOne a') (RL k) := by
  cases h with
  | nil => exact Rel.panic
  | cons h hl => exact (crtAddOne_rel h).bind fun _ _ h1 => Rel.pure (.cons h1 hl)

include D in
theorem cycDecompress_rel {g g' : Comp (CrtInt p)} (h : RComp k g g') : Rel k (C.cycDecompress g) (C.cycDecompress g') (RL k) :=
  (mulN2 D h.g5 h.g5).bind fun _ _ g5sq => (w6 9 g5sq).bind fun _ _ g5sqc => (mulN2 D h.g4 h.g4).bind fun _ _ g4sq =>
  (smul2 D g4sq 3).bind fun _ _ g4sq3 => (smul2 D h.g3 2).bind fun _ _ g32 => (add2 D g5sqc g4sq3).bind fun _ _ num =>
  (sub2 D num g32).bind fun _ _ num => (smul2 D h.g2 4).bind fun _ _ g24 => (div2 D num g24).bind fun _ _ g11 =>
  (mulN2 D h.g4 h.g5).bind fun _ _ g4g5 => (smul2 D g4g5 2).bind fun _ _ num2 => (div2 D num2 h.g3).bind fun _ _ g10 =>
  (isZero2 D h.g2).bind fun _ _ z => (sel2 g10 g11 z).bind fun _ _ g1 => (mulN2 D g1 g1).bind fun _ _ g1sq =>
  (smul2 D g1sq 2).bind fun _ _ g1sq2 => (mulN2 D h.g2 h.g5).bind fun _ _ g2g5 => (mulN2 D h.g3 h.g4).bind fun _ _ g3g4 =>
  (smul2 D g3g4 3).bind fun _ _ g3g43 => (add2 D g1sq2 g2g5).bind fun _ _ temp => (sel2 g1sq2 temp z).bind fun _ _ temp =>
  (sub2 D temp g3g43).bind fun _ _ temp => (w6 9 temp).bind fun _ _ g0 => (addOne_rel g0).bind fun _ _ g0 =>
  (carry2 D g0).bind fun _ _ g0 => join_rel (.cons g0 (.cons h.g2 (.cons h.g4 (.cons g1 (.cons h.g3 (.cons h.g5 .nil))))))

include D in
theorem cycSquare_rel {g g' : Comp (CrtInt p)} (h : RComp k g g') : Rel k (C.cycSquare g) (C.cycSquare g') (RComp k) :=
  (add2 D h.g2 h.g3).bind fun _ _ g2g3 => (w6 9 h.g3).bind fun _ _ cg3 => (add2 D h.g2 cg3).bind fun _ _ g2cg3 =>
  (mulN2 D g2g3 g2cg3).bind fun _ _ a23 => (add2 D h.g4 h.g5).bind fun _ _ g4g5 => (w6 9 h.g5).bind fun _ _ cg5 =>
  (add2 D h.g4 cg5).bind fun _ _ g4cg5 => (mulN2 D g4g5 g4cg5).bind fun _ _ a45 => (mulN2 D h.g2 h.g3).bind fun _ _ b23 =>
  (mulN2 D h.g4 h.g5).bind fun _ _ b45 => (w6 9 b45).bind fun _ _ b45c => (smulAdd2 D b45c h.g2 3).bind fun _ _ temp =>
  (smul2 D temp 2).bind fun _ _ h2 => (add2 D b45c b45).bind fun _ _ temp => (sub2 D a45 temp).bind fun _ _ temp =>
  (smul2 D temp 3).bind fun _ _ temp => (smulAdd2 D h.g3 temp (-2)).bind fun _ _ h3 => (w6 10 b23).bind fun _ _ temp =>
  (sub2 D a23 temp).bind fun _ _ temp => (smul2 D temp 3).bind fun _ _ temp => (smulAdd2 D h.g4 temp (-2)).bind fun _ _ h4 =>
  (smulAdd2 D b23 h.g5 3).bind fun _ _ temp => (smul2 D temp 2).bind fun _ _ h5 => (carry2 D h2).bind fun _ _ h2 =>
  (carry2 D h3).bind fun _ _ h3 => (carry2 D h4).bind fun _ _ h4 => (carry2 D h5).bind fun _ _ h5 => Rel.pure ⟨h2, h3, h4, h5⟩

include D in
theorem cycPowLoop_rel {a a' : List (CrtInt p)} (h : RL k a a') (zs : List ℤ) (st : Bool) {c c' : Comp (CrtInt p)}
    (hc : RComp k c c') {o o' : Option (List (CrtInt p))} (ho : ROpt (RL k) o o') :
    Rel k (C.cycPowLoop a zs st c o) (C.cycPowLoop a' zs st c' o') (fun x y => RComp k x.1 y.1 ∧ ROpt (RL k) x.2 y.2) := by
  induction zs generalizing st c c' o o' with
  | nil => exact Rel.pure ⟨hc, ho⟩
  | cons z zs ih =>
    unfold cycPowLoop
    refine Rel.iteJp (Q := RComp k) (fun _ => cycSquare_rel D hc) (fun _ => Rel.pure hc) fun b b' hb => ?_
    refine Rel.ite Iff.rfl (fun _ => ?_) (fun _ => ih _ hb ho)
    refine (assertM_rel fun _ => rfl).bind fun _ _ _ => ?_
    refine Rel.ite Iff.rfl (fun _ => ?_) (fun _ => (assertM_rel fun _ => rfl).bind fun _ _ _ => ih _ hb ho)
    refine (cycDecompress_rel D hb).bind fun _ _ h1 => ?_
    exact Rel.iteJp (Q := RL k) (fun _ => mul12 D h1 h) (fun _ => div12 D h1 h) fun _ _ h2 =>
      (cycCompress_rel h2).bind fun _ _ h3 => ih _ h3 (o := some _) (o' := some _) h2

theorem getD_rel {S : List (CrtInt p) → List (CrtInt p) → Prop} {o o' : Option (List (CrtInt p))} (h : ROpt S o o')
    {a a' : List (CrtInt p)} (ha : S a a') : S (o.getD a) (o'.getD a') := by
  cases o <;> cases o' <;> simp_all [ROpt]

include D in
theorem cycPow_rel {a a' : List (CrtInt p)} (h : RL k a a') (e : List ℕ) : Rel k (C.cycPow a e) (C.cycPow a' e) (RL k) := by
  unfold cycPow
  refine (cycCompress_rel h).bind fun c c' hc => (unwrapS_rel _).bind ?_
  rintro naf _ rfl
  refine (cycPowLoop_rel D h _ _ hc (o := none) (o' := none) trivial).bind fun x y hx => (unwrapS_rel _).bind ?_
  rintro d _ rfl
  have key : ∀ o o', ROpt (RL k) o o' → Rel k (pure (o.getD a) : M p _) (pure (o'.getD a')) (RL k) :=
    fun o o' ho => Rel.pure (getD_rel ho h)
  exact Rel.ite Iff.rfl (fun _ => (cycDecompress_rel D hx.1).bind fun _ _ h1 => key (some _) (some _) h1)
    (fun _ => key _ _ hx.2)

include D in
theorem hardPart_rel {m m' : List (CrtInt p)} (h : RL k m m') : Rel k (C.hardPart m) (C.hardPart m') (RL k) :=
  (frobeniusMap_rel D h 1).bind fun _ _ mp => (frobeniusMap_rel D h 2).bind fun _ _ mp2 => (frobeniusMap_rel D h 3).bind fun _ _ mp3 =>
  (mul12 D mp2 mp3).bind fun _ _ mp2mp3 => (mul12 D mp mp2mp3).bind fun _ _ y0 => (conj12 h).bind fun _ _ y1 =>
  (cycPow_rel D h _).bind fun _ _ mx => (frobeniusMap_rel D mx 1).bind fun _ _ mxp => (cycPow_rel D mx _).bind fun _ _ mx2 =>
  (frobeniusMap_rel D mx2 1).bind fun _ _ mx2p => (frobeniusMap_rel D mx2 2).bind fun _ _ y2 => (conj12 mx2).bind fun _ _ y5 =>
  (cycPow_rel D mx2 _).bind fun _ _ mx3 => (frobeniusMap_rel D mx3 1).bind fun _ _ mx3p => (conj12 mxp).bind fun _ _ y3 =>
  (mul12 D mx mx2p).bind fun _ _ mxmx2p => (conj12 mxmx2p).bind fun _ _ y4 => (mul12 D mx3 mx3p).bind fun _ _ mx3mx3p =>
  (conj12 mx3mx3p).bind fun _ _ y6 => (mul12 D y6 y6).bind fun _ _ t0 => (mul12 D t0 y4).bind fun _ _ t0 =>
  (mul12 D t0 y5).bind fun _ _ t0 => (mul12 D y3 y5).bind fun _ _ t1 => (mul12 D t1 t0).bind fun _ _ t1 =>
  (mul12 D t0 y2).bind fun _ _ t0 => (mul12 D t1 t1).bind fun _ _ t1 => (mul12 D t1 t0).bind fun _ _ t1 =>
  (mul12 D t1 t1).bind fun _ _ t1 => (mul12 D t1 y1).bind fun _ _ t0 => (mul12 D t1 y0).bind fun _ _ t1 =>
  (mul12 D t0 t0).bind fun _ _ t0 => mul12 D t0 t1

include D in
theorem easyPart_rel {a a' : List (CrtInt p)} (h : RL k a a') : Rel k (C.easyPart a) (C.easyPart a') (RL k) :=
  (conj12 h).bind fun _ _ f1 => (div12 D f1 h).bind fun _ _ f2 => (frobeniusMap_rel D f2 2).bind fun _ _ f3 => mul12 D f3 f2

include D in
theorem finalExp_rel {a a' : List (CrtInt p)} (h : RL k a a') : Rel k (C.finalExp a) (C.finalExp a') (RL k) :=
  (easyPart_rel D h).bind fun _ _ h1 => hardPart_rel D h1

/-! ### `pairing.rs` -/

/-- Related points of `G1`. -/
abbrev RG1 (C : PairCfg p) (k : Bool) : EcPt C.F → EcPt C.F → Prop := REc (R1 C k)
/-- Related points of `G2`. -/
abbrev RG2 (D : C.Deg) (k : Bool) : EcPt C.F2 → EcPt C.F2 → Prop := REc (R2 D k)

include D in
theorem carryOpt_rel {l l' : List (Option (List (CrtInt p)))} (h : RLO k l l') : Rel k (C.carryOpt l) (C.carryOpt l') (RLO k) := by
  induction h with
  | nil => exact Rel.pure .nil
  | @cons o o' _ _ h _ ih =>
    cases o <;> cases o' <;> simp only [ROpt] at h
    · exact ih.bind fun _ _ h1 => Rel.pure (.cons trivial h1)
    · exact (carry2 D h).bind fun _ _ h1 => ih.bind fun _ _ h2 => Rel.pure (.cons h1 h2)

include D in
theorem lineUnequal_rel {Q0 Q0' Q1 Q1' : EcPt C.F2} {P P' : EcPt C.F} (h0 : RG2 D k Q0 Q0') (h1 : RG2 D k Q1 Q1') (hP : RG1 C k P P') :
    Rel k (C.lineUnequal Q0 Q1 P) (C.lineUnequal Q0' Q1' P') (RLO k) :=
  (assertLen_rel (R := RC k) h0.x 2).bind fun _ _ _ => (assertLen_rel (R := RC k) h0.y 2).bind fun _ _ _ =>
  (assertLen_rel (R := RC k) h1.x 2).bind fun _ _ _ => (assertLen_rel (R := RC k) h1.y 2).bind fun _ _ _ =>
  (sub2 D h0.y h1.y).bind fun _ _ dy => (sub2 D h1.x h0.x).bind fun _ _ dx => (mulN2 D h0.x h1.y).bind fun _ _ x1y2 =>
  (mulN2 D h1.x h0.y).bind fun _ _ x2y1 => (fpMul dy hP.x).bind fun _ _ out3 => (fpMul dx hP.y).bind fun _ _ out2 =>
  (sub2 D x1y2 x2y1).bind fun _ _ out5 => carryOpt_rel D
    (.cons trivial (.cons trivial (.cons out2 (.cons out3 (.cons trivial (.cons out5 .nil))))))

include D in
theorem lineEqual_rel {Q Q' : EcPt C.F2} {P P' : EcPt C.F} (h : RG2 D k Q Q') (hP : RG1 C k P P') :
    Rel k (C.lineEqual Q P) (C.lineEqual Q' P') (RLO k) :=
  (assertLen_rel (R := RC k) h.x 2).bind fun _ _ _ => (assertLen_rel (R := RC k) h.y 2).bind fun _ _ _ =>
  (mul2 D h.x h.x).bind fun _ _ xsq => (mulN2 D xsq h.x).bind fun _ _ xcu => (smul2 D xcu 3).bind fun _ _ xcu3 =>
  (mulN2 D h.y h.y).bind fun _ _ ysq => (smul2 D ysq 2).bind fun _ _ ysq2 => (sub2 D xcu3 ysq2).bind fun _ _ left =>
  (w6 9 left).bind fun _ _ out0 => (fpMul xsq hP.x).bind fun _ _ xsqP => (smul2 D xsqP (-3)).bind fun _ _ out4 =>
  (fpMul (show RL k _ _ from h.y) hP.y).bind fun _ _ yP => (smul2 D yP 2).bind fun _ _ out3 => carryOpt_rel D
    (.cons out0 (.cons trivial (.cons trivial (.cons out3 (.cons out4 (.cons trivial .nil))))))

include D in
theorem sparseCell_rel {o o' b b' : Option (List (CrtInt p))} (ho : ROpt (RL k) o o') {a a' : List (CrtInt p)} (ha : RL k a a')
    (hb : ROpt (RL k) b b') : Rel k (C.sparseCell o a b) (C.sparseCell o' a' b') (ROpt (RL k)) := by
  cases b <;> cases b' <;> simp only [ROpt] at hb
  · cases o <;> cases o' <;> simp only [ROpt] at ho <;> exact Rel.pure ho
  · cases o <;> cases o' <;> simp only [ROpt] at ho
    · exact (mulN2 D ha hb).bind fun _ _ h1 => Rel.pure h1
    · exact (mulN2 D ha hb).bind fun _ _ h1 => (add2 D ho h1).bind fun _ _ h2 => Rel.pure h2

include D in
theorem sparseInner_rel {a a' : List (CrtInt p)} (ha : RL k a a') {bs bs' : List (Option (List (CrtInt p)))} (hb : RLO k bs bs')
    (i : ℕ) {q q' : List (Option (List (CrtInt p)))} (hq : RLO k q q') :
    Rel k (C.sparseInner a i q bs) (C.sparseInner a' i q' bs') (RLO k) := by
  induction hb generalizing i q q' with
  | nil => exact Rel.pure hq
  | cons h _ ih => exact (get_rel hq i).bind fun _ _ h1 => (sparseCell_rel D h1 ha h).bind fun _ _ h2 => ih _ (forall₂_set hq i h2)

include D in
theorem sparseOuter_rel {bs bs' : List (Option (List (CrtInt p)))} (hb : RLO k bs bs') {l l' : List (List (CrtInt p))}
    (hl : RLL k l l') (i : ℕ) {q q' : List (Option (List (CrtInt p)))} (hq : RLO k q q') :
    Rel k (C.sparseOuter bs i q l) (C.sparseOuter bs' i q' l') (RLO k) := by
  induction hl generalizing i q q' with
  | nil => exact Rel.pure hq
  | cons h _ ih => exact (sparseInner_rel D h hb i hq).bind fun _ _ h1 => ih _ h1

include D in
theorem sparseFold_rel {q q' : List (Option (List (CrtInt p)))} (hq : RLO k q q') (i : ℕ) :
    Rel k (C.sparseFold q i) (C.sparseFold q' i) (RL k) := by
  unfold sparseFold
  refine Rel.ite Iff.rfl (fun _ => ?_) (fun _ => (get_rel (S := ROpt (RL k)) hq i).bind fun _ _ h1 => unwrapOpt_rel h1)
  refine (get_rel hq (i + 6)).bind fun o o' ho => ?_
  cases o <;> cases o' <;> simp only [ROpt] at ho
  · refine (Rel.pure (Q := ROpt (RL k)) (a := none) (b := none) trivial).bind fun b b' hb => (get_rel hq i).bind fun a a' ha => ?_
    cases a <;> cases a' <;> simp only [ROpt] at ha
    · exact unwrapOpt_rel hb
    · cases b <;> cases b' <;> simp only [ROpt] at hb
      · exact Rel.pure ha
      · exact add2 D ha hb
  · refine (w6 9 ho).bind fun c c' hc => ?_
    refine (Rel.pure (Q := ROpt (RL k)) (a := some c) (b := some c') hc).bind fun b b' hb => (get_rel hq i).bind fun a a' ha => ?_
    cases a <;> cases a' <;> simp only [ROpt] at ha
    · exact unwrapOpt_rel hb
    · cases b <;> cases b' <;> simp only [ROpt] at hb
      · exact Rel.pure ha
      · exact add2 D ha hb

include D in
theorem sparseOut_rel {q q' : List (Option (List (CrtInt p)))} (hq : RLO k q q') (is : List ℕ) :
    Rel k (C.sparseOut q is) (C.sparseOut q' is) (RLL k) := by
  induction is with
  | nil => exact Rel.pure .nil
  | cons i is ih =>
    exact (sparseFold_rel D hq i).bind fun _ _ h1 => (carry2 D h1).bind fun _ _ h2 => ih.bind fun _ _ h3 =>
      Rel.pure (.cons h2 h3)

include D in
theorem sparseMultiply_rel {a a' : List (CrtInt p)} (ha : RL k a a') {b b' : List (Option (List (CrtInt p)))} (hb : RLO k b b') :
    Rel k (C.sparseMultiply a b) (C.sparseMultiply a' b') (RL k) :=
  (assertLen_rel ha 12).bind fun _ _ _ => (assertLen_rel hb 6).bind fun _ _ _ => (slices_rel ha).bind fun _ _ sl =>
  (sparseOuter_rel D hb sl 0 (forall₂_replicate trivial 11)).bind fun _ _ h1 => (sparseOut_rel D h1 _).bind fun _ _ h2 => join_rel h2

include D in
theorem mulLineUnequal_rel {g g' : List (CrtInt p)} (hg : RL k g g') {Q0 Q0' Q1 Q1' : EcPt C.F2} {P P' : EcPt C.F}
    (h0 : RG2 D k Q0 Q0') (h1 : RG2 D k Q1 Q1') (hP : RG1 C k P P') :
    Rel k (C.mulLineUnequal g Q0 Q1 P) (C.mulLineUnequal g' Q0' Q1' P') (RL k) :=
  (lineUnequal_rel D h0 h1 hP).bind fun _ _ h => sparseMultiply_rel D hg h

include D in
theorem mulLineEqual_rel {g g' : List (CrtInt p)} (hg : RL k g g') {Q Q' : EcPt C.F2} {P P' : EcPt C.F}
    (h : RG2 D k Q Q') (hP : RG1 C k P P') : Rel k (C.mulLineEqual g Q P) (C.mulLineEqual g' Q' P') (RL k) :=
  (lineEqual_rel D h hP).bind fun _ _ h => sparseMultiply_rel D hg h

theorem fillZero_rel (i : ℕ) {z z' : CrtInt p} (hz : RC k z z') {l l' : List (Option (List (CrtInt p)))} (h : RLO k l l') :
    Rel k (fillZero i z l) (fillZero i z' l') (RL k) := by
  induction h with
  | nil => exact Rel.pure .nil
  | @cons o o' _ _ h _ ih =>
    cases o <;> cases o' <;> simp only [ROpt] at h
    · exact ih.bind fun _ _ h1 => Rel.pure (.cons hz h1)
    · exact (get_rel h i).bind fun _ _ h1 => ih.bind fun _ _ h2 => Rel.pure (.cons h1 h2)

include D in
theorem firstLine_rel {Q Q' : EcPt C.F2} {P P' : EcPt C.F} (h : RG2 D k Q Q') (hP : RG1 C k P P') :
    Rel k (C.firstLine Q P) (C.firstLine Q' P') (RL k) :=
  (lineEqual_rel D h hP).bind fun _ _ h1 => (assertLen_rel h1 6).bind fun _ _ _ => ((R1 C k).loadConstant _).bind fun _ _ hz =>
  (fillZero_rel 0 hz h1).bind fun _ _ h2 => (fillZero_rel 1 hz h1).bind fun _ _ h3 => Rel.pure (List.rel_append h2 h3)

include D in
theorem twistedFrob_rel {Q Q' : EcPt C.F2} (h : RG2 D k Q Q') {c c' d d' : List (CrtInt p)} (hc : RL k c c') (hd : RL k d d') :
    Rel k (C.twistedFrob Q c d) (C.twistedFrob Q' c' d') (RG2 D k) :=
  (assertLen_rel hc 2).bind fun _ _ _ => (assertLen_rel hd 2).bind fun _ _ _ => (conj2 (show RL k _ _ from h.x)).bind fun _ _ fx =>
  (conj2 (show RL k _ _ from h.y)).bind fun _ _ fy => (mul2 D hc fx).bind fun _ _ ox => (mul2 D hd fy).bind fun _ _ oy =>
  Rel.pure ⟨ox, oy⟩

include D in
theorem negTwistedFrob_rel {Q Q' : EcPt C.F2} (h : RG2 D k Q Q') {c c' d d' : List (CrtInt p)} (hc : RL k c c') (hd : RL k d d') :
    Rel k (C.negTwistedFrob Q c d) (C.negTwistedFrob Q' c' d') (RG2 D k) :=
  (assertLen_rel hc 2).bind fun _ _ _ => (assertLen_rel hd 2).bind fun _ _ _ => (conj2 (show RL k _ _ from h.x)).bind fun _ _ fx =>
  (nconj2 (show RL k _ _ from h.y)).bind fun _ _ fy => (mul2 D hc fx).bind fun _ _ ox => (mul2 D hd fy).bind fun _ _ oy =>
  Rel.pure ⟨ox, oy⟩

/-- Related states of the Miller loop. -/
abbrev RFR (D : C.Deg) (k : Bool) (x y : List (CrtInt p) × EcPt C.F2) : Prop := RL k x.1 y.1 ∧ RG2 D k x.2 y.2

include D in
theorem millerRounds_rel {Q Q' N N' : EcPt C.F2} {P P' : EcPt C.F} (h : RG2 D k Q Q') (hN : RG2 D k N N') (hP : RG1 C k P P')
    (ds : List ℤ) (first : Bool) {f f' : List (CrtInt p)} (hf : RL k f f') {R R' : EcPt C.F2} (hR : RG2 D k R R') :
    Rel k (C.millerRounds Q N P ds first f R) (C.millerRounds Q' N' P' ds first f' R') (RFR D k) := by
  induction ds generalizing first f f' R R' with
  | nil => exact Rel.pure ⟨hf, hR⟩
  | cons d ds ih =>
    unfold millerRounds
    refine Rel.ite Iff.rfl (fun _ => (Rel.pure hf).bind fun f1 f1' hf1 => ?_) (fun _ => (mul12 D hf hf).bind fun _ _ h1 =>
      (mulLineEqual_rel D h1 hR hP).bind fun f1 f1' hf1 => ?_)
    all_goals
      refine (ecDouble_rel (R2 D k) hR).bind fun R1 R1' hR1 => (assertM_rel fun _ => rfl).bind fun _ _ _ => ?_
      refine Rel.ite Iff.rfl (fun _ => ?_) (fun _ => ih _ hf1 hR1)
      have hs : RG2 D k (if d = 1 then Q else N) (if d = 1 then Q' else N') := by split <;> assumption
      exact (mulLineUnequal_rel D hf1 hR1 hs hP).bind fun _ _ h2 =>
        (ecAddUnequal_rel (R2 D k) (.nonStrict hR1) (.nonStrict hs) false).bind fun _ _ h3 => ih _ h2 h3

include D in
theorem millerEnd_rel {Q Q' : EcPt C.F2} {P P' : EcPt C.F} (h : RG2 D k Q Q') (hP : RG1 C k P P') {c c' d d' : List (CrtInt p)}
    (hc : RL k c c') (hd : RL k d d') {f f' : List (CrtInt p)} (hf : RL k f f') {R R' : EcPt C.F2} (hR : RG2 D k R R') :
    Rel k (C.millerEnd Q P c d f R) (C.millerEnd Q' P' c' d' f' R') (RL k) :=
  (twistedFrob_rel D h hc hd).bind fun _ _ q1 => (negTwistedFrob_rel D q1 hc hd).bind fun _ _ q2 =>
  (mulLineUnequal_rel D hf hR q1 hP).bind fun _ _ f1 =>
  (ecAddUnequal_rel (R2 D k) (.nonStrict hR) (.nonStrict q1) false).bind fun _ _ r1 => mulLineUnequal_rel D f1 r1 q2 hP

include D in
theorem millerLoop_rel {Q Q' : EcPt C.F2} {P P' : EcPt C.F} (h : RG2 D k Q Q') (hP : RG1 C k P P') (enc : List ℤ) :
    Rel k (C.millerLoop Q P enc) (C.millerLoop Q' P' enc) (RL k) := by
  unfold millerLoop
  rcases enc.reverse.dropWhile (fun d => d == 0) with _ | ⟨d, _ | ⟨d', ds⟩⟩
  · exact Rel.panic
  · exact Rel.panic
  · refine (ecNegate_rel (R2 D k) h).bind fun N N' hN => (assertM_rel fun _ => rfl).bind fun _ _ _ => ?_
    have hs : RG2 D k (if d = 1 then Q else N) (if d = 1 then Q' else N') := by split <;> assumption
    exact (firstLine_rel D hs hP).bind fun _ _ hf => (millerRounds_rel D h hN hP _ _ hf hs).bind fun _ _ h1 =>
      (const2 D _).bind fun _ _ c2 => (const2 D _).bind fun _ _ c3 => millerEnd_rel D h hP c2 c3 h1.1 h1.2

abbrev RPr (D : C.Deg) (k : Bool) (x y : EcPt C.F × EcPt C.F2) : Prop := RG1 C k x.1 y.1 ∧ RG2 D k x.2 y.2
abbrev RPr' (D : C.Deg) (k : Bool) (x y : EcPt C.F2 × EcPt C.F) : Prop := RG2 D k x.1 y.1 ∧ RG1 C k x.2 y.2

include D in
theorem multiDouble_rel {l l' : List (EcPt C.F2 × EcPt C.F)} (h : List.Forall₂ (RPr' D k) l l') {f f' : List (CrtInt p)}
    (hf : RL k f f') : Rel k (C.multiDouble f l) (C.multiDouble f' l') (RL k) := by
  induction h generalizing f f' with
  | nil => exact Rel.pure hf
  | cons h _ ih => exact (mulLineEqual_rel D hf h.1 h.2).bind fun _ _ h1 => ih h1

abbrev RQd (D : C.Deg) (k : Bool) (x y : EcPt C.F2 × EcPt C.F2 × EcPt C.F × EcPt C.F2) : Prop :=
  RG2 D k x.1 y.1 ∧ RG2 D k x.2.1 y.2.1 ∧ RPr D k x.2.2 y.2.2
abbrev RFRs (D : C.Deg) (k : Bool) (x y : List (CrtInt p) × List (EcPt C.F2)) : Prop :=
  RL k x.1 y.1 ∧ List.Forall₂ (RG2 D k) x.2 y.2

include D in
theorem multiAdd_rel (d : ℤ) {l l' : List (EcPt C.F2 × EcPt C.F2 × EcPt C.F × EcPt C.F2)} (h : List.Forall₂ (RQd D k) l l')
    {f f' : List (CrtInt p)} (hf : RL k f f') : Rel k (C.multiAdd d f l) (C.multiAdd d f' l') (RFRs D k) := by
  induction h generalizing f f' with
  | nil => exact Rel.pure ⟨hf, .nil⟩
  | @cons x y _ _ h _ ih =>
    obtain ⟨R, nb, a, b⟩ := x
    obtain ⟨R', nb', a', b'⟩ := y
    obtain ⟨h1, h2, h3, h4⟩ := h
    unfold multiAdd
    have hs : RG2 D k (if d = 1 then b else nb) (if d = 1 then b' else nb') := by split <;> assumption
    exact (mulLineUnequal_rel D hf h1 hs h3).bind fun _ _ g1 =>
      (ecAddUnequal_rel (R2 D k) (.nonStrict h1) (.nonStrict hs) false).bind fun _ _ g2 => (ih g1).bind fun _ _ g3 =>
      Rel.pure ⟨g3.1, .cons g2 g3.2⟩

theorem forall₂_zip {α β : Type} {R : α → α → Prop} {S : β → β → Prop} {l l' : List α} {m m' : List β} (h : List.Forall₂ R l l')
    (hm : List.Forall₂ S m m') : List.Forall₂ (fun x y => R x.1 y.1 ∧ S x.2 y.2) (l.zip m) (l'.zip m') := by
  induction h generalizing m m' with
  | nil => simp
  | cons h _ ih => cases hm with
    | nil => simp
    | cons g hm => exact .cons ⟨h, g⟩ (ih hm)

include D in
theorem multiRounds_rel {pr pr' : List (EcPt C.F × EcPt C.F2)} (h : List.Forall₂ (RPr D k) pr pr') {nb nb' : List (EcPt C.F2)}
    (hn : List.Forall₂ (RG2 D k) nb nb') (ds : List ℤ) (first : Bool) {f f' : List (CrtInt p)} (hf : RL k f f')
    {rs rs' : List (EcPt C.F2)} (hr : List.Forall₂ (RG2 D k) rs rs') :
    Rel k (C.multiRounds pr nb ds first f rs) (C.multiRounds pr' nb' ds first f' rs') (RFRs D k) := by
  induction ds generalizing first f f' rs rs' with
  | nil => exact Rel.pure ⟨hf, hr⟩
  | cons d ds ih =>
    unfold multiRounds
    refine Rel.ite Iff.rfl (fun _ => (Rel.pure hf).bind fun f1 f1' hf1 => ?_) (fun _ => (mul12 D hf hf).bind fun _ _ h1 =>
      (multiDouble_rel D (forall₂_zip hr (forall₂_map (fun _ _ h => h.1) h)) h1).bind fun f1 f1' hf1 => ?_)
    all_goals
      refine (mapList_rel (fun _ _ h => ecDouble_rel (R2 D k) h) hr).bind fun _ _ hr1 => (assertM_rel fun _ => rfl).bind fun _ _ _ => ?_
      refine Rel.ite Iff.rfl (fun _ => ?_) (fun _ => ih _ hf1 hr1)
      exact (multiAdd_rel D d (forall₂_zip hr1 (forall₂_zip hn h)) hf1).bind fun _ _ h2 => ih _ h2.1 h2.2

abbrev RTr (D : C.Deg) (k : Bool) (x y : EcPt C.F2 × EcPt C.F × EcPt C.F2) : Prop := RG2 D k x.1 y.1 ∧ RPr D k x.2 y.2

include D in
theorem multiEnd_rel {c c' d d' : List (CrtInt p)} (hc : RL k c c') (hd : RL k d d')
    {l l' : List (EcPt C.F2 × EcPt C.F × EcPt C.F2)} (h : List.Forall₂ (RTr D k) l l') {f f' : List (CrtInt p)} (hf : RL k f f') :
    Rel k (C.multiEnd c d f l) (C.multiEnd c' d' f' l') (RL k) := by
  induction h generalizing f f' with
  | nil => exact Rel.pure hf
  | cons h _ ih => exact (millerEnd_rel D h.2.2 h.2.1 hc hd hf h.1).bind fun _ _ h1 => ih h1

include D in
theorem multiMillerLoop_rel {pr pr' : List (EcPt C.F × EcPt C.F2)} (h : List.Forall₂ (RPr D k) pr pr') (enc : List ℤ) :
    Rel k (C.multiMillerLoop pr enc) (C.multiMillerLoop pr' enc) (RL k) := by
  unfold multiMillerLoop
  rcases enc.reverse.dropWhile (fun d => d == 0) with _ | ⟨d, _ | ⟨d', ds⟩⟩
  · exact Rel.panic
  · exact Rel.panic
  · cases h with
    | nil => exact Rel.panic
    | @cons x y l l' h hl =>
      obtain ⟨a, b⟩ := x
      obtain ⟨a', b'⟩ := y
      have hall : List.Forall₂ (RPr D k) ((a, b) :: l) ((a', b') :: l') := .cons h hl
      refine (assertM_rel fun _ => rfl).bind fun _ _ _ => ?_
      refine (mapList_rel (R := RPr D k) (S := RG2 D k) (fun _ _ h => ecNegate_rel (R2 D k) h.2) hall).bind fun _ _ hn => ?_
      refine (firstLine_rel D h.2 h.1).bind fun _ _ hf => ?_
      refine (multiDouble_rel D (forall₂_map (S := RPr' D k) (fun _ _ h => ⟨h.2, h.1⟩) hl) hf).bind fun _ _ hf => ?_
      exact (multiRounds_rel D hall hn _ _ hf (forall₂_map (fun _ _ h => h.2) hall)).bind fun _ _ h1 =>
        (const2 D _).bind fun _ _ c2 => (const2 D _).bind fun _ _ c3 => multiEnd_rel D c2 c3 (forall₂_zip h1.2 hall) h1.1

include D in
theorem pairing_rel {Q Q' : EcPt C.F2} {P P' : EcPt C.F} (h : RG2 D k Q Q') (hP : RG1 C k P P') :
    Rel k (C.pairing Q P) (C.pairing Q' P') (RL k) :=
  (millerLoop_rel D h hP _).bind fun _ _ h1 => finalExp_rel D h1

include D in
theorem pairingCheck_rel {Q Q' T T' : EcPt C.F2} {P P' S S' : EcPt C.F} (hQ : RG2 D k Q Q') (hP : RG1 C k P P')
    (hT : RG2 D k T T') (hS : RG1 C k S S') : Rel k (C.pairingCheck Q P T S) (C.pairingCheck Q' P' T' S') (fun _ _ => True) :=
  (ecNegate_rel (R1 C k) hP).bind fun _ _ h1 => (multiMillerLoop_rel D (.cons ⟨h1, hQ⟩ (.cons ⟨hS, hT⟩ .nil)) _).bind fun _ _ h2 =>
  (finalExp_rel D h2).bind fun _ _ h3 => ((R12 D k).loadConstant _).bind fun _ _ h4 => (R12 D k).assertEqual h3 h4

/-- Related arguments of BLS verification: same curve constants, as many signatures and public keys. -/
structure RBls (k : Bool) (x y : C.BlsArgs) : Prop where
  b1 : x.b1 = y.b1
  b2 : x.b2 = y.b2
  rand1 : RV2 k x.rand1 y.rand1
  rand2 : RV2 k x.rand2 y.rand2
  g1 : RV2 k x.g1 y.g1
  signatures : List.Forall₂ (RV2 k) x.signatures y.signatures
  pubkeys : List.Forall₂ (RV2 k) x.pubkeys y.pubkeys
  msghash : RV2 k x.msghash y.msghash

include D in
theorem blsRun_rel {x y : C.BlsArgs} (h : RBls k x y) : Rel k (C.blsRun x) (C.blsRun y) (fun r s => RA k r.1 s.1 ∧
    RG1 C k r.2.1 s.2.1 ∧ RG2 D k r.2.2.1 s.2.2.1 ∧ List.Forall₂ (RG2 D k) r.2.2.2.1 s.2.2.2.1 ∧
    List.Forall₂ (RG1 C k) r.2.2.2.2 s.2.2.2.2) := by
  obtain ⟨xb1, xb2, xr1, xr2, xg, xs, xp, xm⟩ := x
  obtain ⟨yb1, yb2, yr1, yr2, yg, ys, yp, ym⟩ := y
  obtain ⟨e1, e2, h3, h4, h5, h6, h7, h8⟩ := h
  simp only at e1 e2 h3 h4 h5 h6 h7 h8
  subst e1
  subst e2
  unfold blsRun
  have es : xs.isEmpty = ys.isEmpty := by cases h6 <;> rfl
  have ep : xp.isEmpty = yp.isEmpty := by cases h7 <;> rfl
  simp only [h6.length_eq, h7.length_eq, es, ep]
  refine (assertM_rel fun _ => rfl).bind fun _ _ _ => (assertM_rel fun _ => rfl).bind fun _ _ _ =>
    (assertM_rel fun _ => rfl).bind fun _ _ _ => ?_
  refine (loadPoint_rel (R1 C k) _ h5).bind fun _ _ g1 => (loadPoint_rel (R2 D k) _ h8).bind fun _ _ hm => ?_
  refine (mapList_rel (fun _ _ h => loadPoint_rel (R2 D k) _ h) h6).bind fun _ _ sigs => ?_
  refine (ecSum_rel (R2 D k) _ h4 sigs).bind fun _ _ sig => ?_
  refine (mapList_rel (fun _ _ h => loadPoint_rel (R1 C k) _ h) h7).bind fun _ _ pks => ?_
  refine (ecSum_rel (R1 C k) _ h3 pks).bind fun _ _ pk => ?_
  refine ((R12 D k).negate (show (R12 D k).RP _ _ from sig.y)).bind fun ny ny' (hny : RL k ny ny') => ?_
  have hn : RG2 D k ⟨_, ny⟩ ⟨_, ny'⟩ := ⟨sig.x, hny⟩
  refine (multiMillerLoop_rel D (.cons ⟨g1, hn⟩ (.cons ⟨pk, hm⟩ .nil)) _).bind fun _ _ mp => ?_
  refine (finalExp_rel D mp).bind fun _ _ res => ((R12 D k).loadConstant _).bind fun _ _ one => ?_
  exact ((R12 D k).isEqual res one).bind fun _ _ bit => Rel.pure ⟨bit, g1, hm, sigs, pks⟩

include D in
theorem blsVerify_rel {x y : C.BlsArgs} (h : RBls k x y) : Rel k (C.blsVerify x) (C.blsVerify y) (RA k) :=
  (blsRun_rel D h).bind fun _ _ h1 => Rel.pure h1.1

end PairCfg
end H2
