import Verif.Fields.Rel
import Verif.Fields.Ext

/-! # Relational lemmas for the extension fields and the native field -/

set_option autoImplicit false
set_option linter.unusedSectionVars false
namespace H2
variable {p : ℕ} [Fact p.Prime] {k : Bool}

/-! ### Tactics for straight-line programs over a field chip -/

/-- Relational lemmas of a field chip; extended with `macro_rules`. -/
syntax "frel_lem" : tactic
macro_rules | `(tactic| frel_lem) => `(tactic| with_reducible refine FieldRel.getAssignedValue (by assumption) ?_)
macro_rules | `(tactic| frel_lem) => `(tactic| with_reducible refine FieldRel.loadPrivate (by assumption) ?_)
macro_rules | `(tactic| frel_lem) => `(tactic| with_reducible exact FieldRel.loadConstant (by assumption) _)
macro_rules | `(tactic| frel_lem) => `(tactic| with_reducible refine FieldRel.addNoCarry (by assumption) ?_ ?_)
macro_rules | `(tactic| frel_lem) => `(tactic| with_reducible refine FieldRel.addConstantNoCarry (by assumption) _ ?_)
macro_rules | `(tactic| frel_lem) => `(tactic| with_reducible refine FieldRel.subNoCarry (by assumption) ?_ ?_)
macro_rules | `(tactic| frel_lem) => `(tactic| with_reducible refine FieldRel.negate (by assumption) ?_)
macro_rules | `(tactic| frel_lem) => `(tactic| with_reducible refine FieldRel.scalarMulNoCarry (by assumption) _ ?_)
macro_rules | `(tactic| frel_lem) => `(tactic| with_reducible refine FieldRel.scalarMulAddNoCarry (by assumption) _ ?_ ?_)
macro_rules | `(tactic| frel_lem) => `(tactic| with_reducible refine FieldRel.mulNoCarry (by assumption) ?_ ?_)
macro_rules | `(tactic| frel_lem) => `(tactic| with_reducible refine FieldRel.checkCarryModToZero (by assumption) ?_)
macro_rules | `(tactic| frel_lem) => `(tactic| with_reducible refine FieldRel.carryMod (by assumption) ?_)
macro_rules | `(tactic| frel_lem) => `(tactic| with_reducible refine FieldRel.rangeCheck (by assumption) _ ?_)
macro_rules | `(tactic| frel_lem) => `(tactic| with_reducible refine FieldRel.enforceLessThan (by assumption) ?_)
macro_rules | `(tactic| frel_lem) => `(tactic| with_reducible refine FieldRel.isSoftZero (by assumption) ?_)
macro_rules | `(tactic| frel_lem) => `(tactic| with_reducible refine FieldRel.isSoftNonzero (by assumption) ?_)
macro_rules | `(tactic| frel_lem) => `(tactic| with_reducible refine FieldRel.isZero (by assumption) ?_)
macro_rules | `(tactic| frel_lem) => `(tactic| with_reducible refine FieldRel.isEqualUnenforced (by assumption) ?_ ?_)
macro_rules | `(tactic| frel_lem) => `(tactic| with_reducible refine FieldRel.assertEqual (by assumption) ?_ ?_)
macro_rules | `(tactic| frel_lem) => `(tactic| with_reducible refine FieldRel.select (by assumption) ?_ ?_ ?_)
macro_rules | `(tactic| frel_lem) => `(tactic| with_reducible refine FieldRel.loadPrivateReduced (by assumption) ?_)
macro_rules | `(tactic| frel_lem) => `(tactic| with_reducible refine FieldRel.isEqual (by assumption) ?_ ?_)
macro_rules | `(tactic| frel_lem) => `(tactic| with_reducible refine FieldRel.mul (by assumption) ?_ ?_)
macro_rules | `(tactic| frel_lem) => `(tactic| with_reducible refine FieldRel.divideUnsafe (by assumption) ?_ ?_)
macro_rules | `(tactic| frel_lem) => `(tactic| with_reducible refine FieldRel.divide (by assumption) ?_ ?_)
macro_rules | `(tactic| frel_lem) => `(tactic| with_reducible refine FieldRel.negDivideUnsafe (by assumption) ?_ ?_)
macro_rules | `(tactic| frel_lem) => `(tactic| with_reducible refine FieldRel.negDivide (by assumption) ?_ ?_)

/-- Side conditions; extended with `macro_rules`. -/
syntax "frel_side1" : tactic
macro_rules | `(tactic| frel_side1) => `(tactic| with_reducible refine FieldRel.ofP (by assumption) ?_)
macro_rules | `(tactic| frel_side1) => `(tactic| with_reducible exact RQ.constant_rfl _)
macro_rules | `(tactic| frel_side1) => `(tactic| with_reducible refine RA.q ?_)
macro_rules | `(tactic| frel_side1) => `(tactic| with_reducible refine List.Forall₂.cons ?_ ?_)
macro_rules | `(tactic| frel_side1) => `(tactic| with_reducible exact List.Forall₂.nil)
macro_rules | `(tactic| frel_side1) => `(tactic| with_reducible refine And.intro ?_ ?_)
macro_rules | `(tactic| frel_side1) => `(tactic| with_reducible exact rfl)
macro_rules | `(tactic| frel_side1) => `(tactic| with_reducible exact trivial)
macro_rules | `(tactic| frel_side1) => `(tactic| assumption)

macro "frel_side" : tactic => `(tactic| repeat' frel_side1)

macro "frel" : tactic => `(tactic| (
  repeat (with_reducible apply Rel.bind; (focus (first | frel_lem | rel_lem)) <;> frel_side; (intro _ _ _))
  (first | assumption | frel_lem | rel_lem) <;> frel_side))

/-! ### Lists -/

section
variable {α β γ : Type}

theorem mapList_rel {f g : α → M p β} {R : α → α → Prop} {S : β → β → Prop} (hf : ∀ a a', R a a' → Rel k (f a) (g a') S)
    {l l' : List α} (h : List.Forall₂ R l l') : Rel k (mapList f l) (mapList g l') (List.Forall₂ S) := by
  induction h with
  | nil => exact Rel.pure .nil
  | cons h _ ih => exact (hf _ _ h).bind fun _ _ h1 => ih.bind fun _ _ h2 => Rel.pure (.cons h1 h2)

theorem zipEqList_rel {f g : α → β → M p γ} {R : α → α → Prop} {S : β → β → Prop} {T : γ → γ → Prop}
    (hf : ∀ a a' b b', R a a' → S b b' → Rel k (f a b) (g a' b') T)
    {l l' : List α} (h : List.Forall₂ R l l') {m m' : List β} (hm : List.Forall₂ S m m') :
    Rel k (zipEqList f l m) (zipEqList g l' m') (List.Forall₂ T) := by
  induction h generalizing m m' with
  | nil => cases hm with
    | nil => exact Rel.pure .nil
    | cons _ _ => exact Rel.panic
  | cons h _ ih => cases hm with
    | nil => exact Rel.panic
    | cons h1 h2 => exact (hf _ _ _ _ h h1).bind fun _ _ h3 => (ih h2).bind fun _ _ h4 => Rel.pure (.cons h3 h4)

theorem forList_rel {f g : α → M p Unit} {R : α → α → Prop} (hf : ∀ a a', R a a' → Rel k (f a) (g a') (fun _ _ => True))
    {l l' : List α} (h : List.Forall₂ R l l') : Rel k (forList f l) (forList g l') (fun _ _ => True) := by
  induction h with
  | nil => exact Rel.pure trivial
  | cons h _ ih => exact (hf _ _ h).bind fun _ _ _ => ih

theorem forZip_rel {f g : α → β → M p Unit} {R : α → α → Prop} {S : β → β → Prop}
    (hf : ∀ a a' b b', R a a' → S b b' → Rel k (f a b) (g a' b') (fun _ _ => True))
    {l l' : List α} (h : List.Forall₂ R l l') {m m' : List β} (hm : List.Forall₂ S m m') :
    Rel k (forZip f l m) (forZip g l' m') (fun _ _ => True) := by
  induction h generalizing m m' with
  | nil => cases hm with
    | nil => exact Rel.pure trivial
    | cons _ _ => exact Rel.pure trivial
  | cons h _ ih => cases hm with
    | nil => exact Rel.pure trivial
    | cons h1 h2 => exact (hf _ _ _ _ h h1).bind fun _ _ _ => ih h2

theorem foldGate_rel {f g : α → M p (AV p)} {R : α → α → Prop} (hf : ∀ a a', R a a' → Rel k (f a) (g a') (RA k))
    {o : QCell p → QCell p → M p (AV p)} (ho : ∀ a a' b b', RQ k a a' → RQ k b b' → Rel k (o a b) (o a' b') (RA k))
    {x x' : AV p} (hx : RA k x x') {l l' : List α} (h : List.Forall₂ R l l') :
    Rel k (foldGate f o x l) (foldGate g o x' l') (RA k) := by
  induction h generalizing x x' with
  | nil => exact Rel.pure hx
  | cons h _ ih => exact (hf _ _ h).bind fun _ _ h1 => (ho _ _ _ _ h1.q hx.q).bind fun _ _ h2 => ih h2

theorem foldGate1_rel {f g : α → M p (AV p)} {R : α → α → Prop} (hf : ∀ a a', R a a' → Rel k (f a) (g a') (RA k))
    {o : QCell p → QCell p → M p (AV p)} (ho : ∀ a a' b b', RQ k a a' → RQ k b b' → Rel k (o a b) (o a' b') (RA k))
    {l l' : List α} (h : List.Forall₂ R l l') : Rel k (foldGate1 f o l) (foldGate1 g o l') (RA k) := by
  cases h with
  | nil => exact Rel.panic
  | cons h h2 => exact (hf _ _ h).bind fun _ _ h1 => foldGate_rel hf ho h1 h2

theorem foldEq_rel {f g : α → α → M p (AV p)} {R : α → α → Prop}
    (hf : ∀ a a' b b', R a a' → R b b' → Rel k (f a b) (g a' b') (RA k)) {x x' : AV p} (hx : RA k x x')
    {l l' : List α} (h : List.Forall₂ R l l') {m m' : List α} (hm : List.Forall₂ R m m') :
    Rel k (foldEq f x l m) (foldEq g x' l' m') (RA k) := by
  induction h generalizing m m' x x' with
  | nil => cases hm with
    | nil => exact Rel.pure hx
    | cons _ _ => exact Rel.panic
  | cons h _ ih => cases hm with
    | nil => exact Rel.panic
    | cons h1 h2 => exact (hf _ _ _ _ h h1).bind fun _ _ h3 => (and_rel h3.q hx.q).bind fun _ _ h4 => ih h4 h2

theorem foldEq1_rel {f g : α → α → M p (AV p)} {R : α → α → Prop}
    (hf : ∀ a a' b b', R a a' → R b b' → Rel k (f a b) (g a' b') (RA k))
    {l l' : List α} (h : List.Forall₂ R l l') {m m' : List α} (hm : List.Forall₂ R m m') :
    Rel k (foldEq1 f l m) (foldEq1 g l' m') (RA k) := by
  cases h with
  | nil => exact Rel.panic
  | cons h h' => cases hm with
    | nil => exact Rel.panic
    | cons h1 h2 => exact (hf _ _ _ _ h h1).bind fun _ _ h3 => foldEq_rel hf h3 h' h2

end

/-! ### Vector points -/

section
variable {F : FieldOps p} (R : FieldRel F k)

theorem vecSelect_rel {a a' b b' : List F.P} {s s' : AV p} (ha : List.Forall₂ R.RP a a') (hb : List.Forall₂ R.RP b b')
    (hs : RA k s s') : Rel k (vecSelect F a b s) (vecSelect F a' b' s') (List.Forall₂ R.RP) :=
  zipEqList_rel (R := R.RP) (S := R.RP) (fun _ _ _ _ h1 h2 => R.select h1 h2 hs) ha hb

/-- Extensions: the laws are inherited, given them for the value and the product. -/
def vecRel (E : ExtField F) {gav : List F.U → M p E.V} {mnc : List F.U → List F.U → M p (List F.U)}
    (hE : ∀ v v', (E.coeffs v).length = (E.coeffs v').length)
    (hg : ∀ a a', List.Forall₂ R.RU a a' → Rel k (gav a) (gav a') (RV k))
    (hm : ∀ a a' b b', List.Forall₂ R.RU a a' → List.Forall₂ R.RU b b' → Rel k (mnc a b) (mnc a' b') (List.Forall₂ R.RU)) :
    FieldRel (vecOps F E gav mnc) k where
  RU := List.Forall₂ R.RU
  RP := List.Forall₂ R.RP
  ofP := fun h => forall₂_map (fun _ _ h => R.ofP h) h
  getAssignedValue := fun h => hg _ _ h
  loadPrivate := fun h => mapList_rel (fun _ _ h => R.loadPrivate h) (RVs.of (h.map E.coeffs) (hE _ _))
  loadConstant := fun v => mapList_rel (R := fun x y => x = y) (fun _ _ h => h ▸ R.loadConstant _) (FpChip.same_rel _)
  addNoCarry := fun h h' => zipEqList_rel (R := R.RU) (S := R.RU) (fun _ _ _ _ h h' => R.addNoCarry h h') h h'
  addConstantNoCarry := fun v h => zipEqList_rel (R := R.RU) (S := fun x y => x = y)
    (fun _ _ _ _ h h' => h' ▸ R.addConstantNoCarry _ h) h (FpChip.same_rel _)
  subNoCarry := fun h h' => zipEqList_rel (R := R.RU) (S := R.RU) (fun _ _ _ _ h h' => R.subNoCarry h h') h h'
  negate := fun h => mapList_rel (fun _ _ h => R.negate h) h
  scalarMulNoCarry := fun c h => mapList_rel (fun _ _ h => R.scalarMulNoCarry c h) h
  scalarMulAddNoCarry := fun c h h' => zipEqList_rel (R := R.RU) (S := R.RU) (fun _ _ _ _ h h' => R.scalarMulAddNoCarry c h h') h h'
  mulNoCarry := fun h h' => hm _ _ _ _ h h'
  checkCarryModToZero := fun h => forList_rel (fun _ _ h => R.checkCarryModToZero h) h
  carryMod := fun h => mapList_rel (fun _ _ h => R.carryMod h) h
  rangeCheck := fun n h => forList_rel (fun _ _ h => R.rangeCheck n h) h
  enforceLessThan := fun h => mapList_rel (fun _ _ h => R.enforceLessThan h) h
  isSoftZero := fun h => foldGate1_rel (fun _ _ h => R.isSoftZero h) (fun _ _ _ _ h h' => and_rel h h') h
  isSoftNonzero := fun h => foldGate1_rel (fun _ _ h => R.isSoftNonzero h) (fun _ _ _ _ h h' => or_rel h h') h
  isZero := fun h => foldGate1_rel (fun _ _ h => R.isZero h) (fun _ _ _ _ h h' => and_rel h h') h
  isEqualUnenforced := fun h h' => foldEq1_rel (R := R.RP) (fun _ _ _ _ h h' => R.isEqualUnenforced h h') h h'
  assertEqual := fun h h' => forZip_rel (R := R.RP) (S := R.RP) (fun _ _ _ _ h h' => R.assertEqual h h') h h'
  select := fun h h' hs => vecSelect_rel R h h' hs
  selectByIndicator := fun _ _ _ => Rel.panic

theorem extGetAssignedValue_rel (E : ExtField F) (d : ℕ) {a a' : List F.U} (h : List.Forall₂ R.RU a a') :
    Rel k (extGetAssignedValue F E d a) (extGetAssignedValue F E d a') (RV k) := by
  unfold extGetAssignedValue
  rw [h.length_eq]
  refine (assertM_rel fun _ => rfl).bind fun _ _ _ => (mapList_rel (fun _ _ h => R.getAssignedValue h) h).bind fun l l' hl => ?_
  refine Rel.pure fun hk => congrArg E.new ?_
  induction hl with
  | nil => rfl
  | cons h1 _ ih => rw [h1 hk, ih]

theorem fp2MulNoCarry_rel {a a' b b' : List F.U} (ha : List.Forall₂ R.RU a a') (hb : List.Forall₂ R.RU b b') :
    Rel k (fp2MulNoCarry F a b) (fp2MulNoCarry F a' b') (List.Forall₂ R.RU) := by
  unfold fp2MulNoCarry
  rcases ha with _ | ⟨h0, _ | ⟨h1, _ | ⟨h2, ha⟩⟩⟩
  · exact Rel.panic
  · exact Rel.panic
  · rcases hb with _ | ⟨g0, _ | ⟨g1, _ | ⟨g2, hb⟩⟩⟩
    · exact Rel.panic
    · exact Rel.panic
    · frel
    · exact Rel.panic
  · exact Rel.panic

/-- `Fp2Chip`. -/
def fp2Rel (E : ExtField F) (hE : ∀ v v', (E.coeffs v).length = (E.coeffs v').length) : FieldRel (fp2Ops F E) k :=
  vecRel R E hE (fun _ _ h => extGetAssignedValue_rel R E 2 h) (fun _ _ _ _ h h' => fp2MulNoCarry_rel R h h')

theorem fp2Conjugate_rel {a a' : List F.P} (ha : List.Forall₂ R.RP a a') :
    Rel k (fp2Conjugate F a) (fp2Conjugate F a') (List.Forall₂ R.RP) := by
  unfold fp2Conjugate
  rcases ha with _ | ⟨h0, _ | ⟨h1, _ | ⟨h2, ha⟩⟩⟩
  · exact Rel.panic
  · exact Rel.panic
  · frel
  · exact Rel.panic

theorem fp2NegConjugate_rel {a a' : List F.P} (ha : List.Forall₂ R.RP a a') :
    Rel k (fp2NegConjugate F a) (fp2NegConjugate F a') (List.Forall₂ R.RP) := by
  unfold fp2NegConjugate
  rcases ha with _ | ⟨h0, _ | ⟨h1, _ | ⟨h2, ha⟩⟩⟩
  · exact Rel.panic
  · exact Rel.panic
  · frel
  · exact Rel.panic

theorem mulNoCarryW6_rel (xi : ℤ) {a a' : List F.U} (ha : List.Forall₂ R.RU a a') :
    Rel k (mulNoCarryW6 F xi a) (mulNoCarryW6 F xi a') (List.Forall₂ R.RU) := by
  unfold mulNoCarryW6
  rcases ha with _ | ⟨h0, _ | ⟨h1, _ | ⟨h2, ha⟩⟩⟩
  · exact Rel.panic
  · exact Rel.panic
  · frel
  · exact Rel.panic

theorem forall₂_get? {α β : Type} {R : α → β → Prop} {l : List α} {l' : List β} (h : List.Forall₂ R l l') (i : ℕ) :
    (l[i]? = none ∧ l'[i]? = none) ∨ ∃ a b, l[i]? = some a ∧ l'[i]? = some b ∧ R a b := by
  induction h generalizing i with
  | nil => simp
  | cons h _ ih => cases i with
    | zero => simp [h]
    | succ i => simpa using ih i

theorem forall₂_set {α β : Type} {R : α → β → Prop} {l : List α} {l' : List β} (h : List.Forall₂ R l l') (i : ℕ)
    {a : α} {b : β} (hab : R a b) : List.Forall₂ R (l.set i a) (l'.set i b) := by
  induction h generalizing i with
  | nil => exact .nil
  | cons h h' ih => cases i with
    | zero => exact .cons hab h'
    | succ i => exact .cons h (ih i)

theorem accAdd_rel {v v' : List F.U} (hv : List.Forall₂ R.RU v v') (i : ℕ) {c c' : F.U} (hc : R.RU c c') :
    Rel k (accAdd F v i c) (accAdd F v' i c') (List.Forall₂ R.RU) := by
  unfold accAdd
  rcases forall₂_get? hv i with ⟨e1, e2⟩ | ⟨a, b, e1, e2, h⟩
  · rw [e1, e2]; exact Rel.pure (List.rel_append hv (.cons hc .nil))
  · rw [e1, e2]; exact (R.addNoCarry h hc).bind fun _ _ h1 => Rel.pure (forall₂_set hv i h1)

/-- Related accumulators. -/
structure RAcc (x y : Acc4 F.U) : Prop where
  c00 : List.Forall₂ R.RU x.c00 y.c00
  c01 : List.Forall₂ R.RU x.c01 y.c01
  c10 : List.Forall₂ R.RU x.c10 y.c10
  c11 : List.Forall₂ R.RU x.c11 y.c11

theorem fp12Step_rel {x y : Acc4 F.U} (hx : RAcc R x y) {a0 a0' a1 a1' b0 b0' b1 b1' : F.U} (h0 : R.RU a0 a0') (h1 : R.RU a1 a1')
    (g0 : R.RU b0 b0') (g1 : R.RU b1 b1') (i : ℕ) :
    Rel k (fp12Step F x a0 a1 b0 b1 i) (fp12Step F y a0' a1' b0' b1' i) (RAcc R) :=
  (R.mulNoCarry h0 g0).bind fun _ _ e0 => (R.mulNoCarry h0 g1).bind fun _ _ e1 => (R.mulNoCarry h1 g0).bind fun _ _ e2 =>
    (R.mulNoCarry h1 g1).bind fun _ _ e3 => (accAdd_rel R hx.c00 i e0).bind fun _ _ f0 => (accAdd_rel R hx.c01 i e1).bind fun _ _ f1 =>
    (accAdd_rel R hx.c10 i e2).bind fun _ _ f2 => (accAdd_rel R hx.c11 i e3).bind fun _ _ f3 => Rel.pure ⟨f0, f1, f2, f3⟩

theorem fp12Inner_rel {a0 a0' a1 a1' : F.U} (h0 : R.RU a0 a0') (h1 : R.RU a1 a1') (i : ℕ) {x y : Acc4 F.U} (hx : RAcc R x y)
    {b b' c c' : List F.U} (hb : List.Forall₂ R.RU b b') (hc : List.Forall₂ R.RU c c') :
    Rel k (fp12Inner F a0 a1 i x b c) (fp12Inner F a0' a1' i y b' c') (RAcc R) := by
  induction hb generalizing i x y c c' with
  | nil => cases hc with
    | nil => exact Rel.pure hx
    | cons _ _ => exact Rel.pure hx
  | cons h _ ih => cases hc with
    | nil => exact Rel.pure hx
    | cons g g' => exact (fp12Step_rel R hx h0 h1 h g i).bind fun _ _ e => ih _ e g'

theorem fp12Outer_rel {a a' d d' : List F.U} (ha : List.Forall₂ R.RU a a') (hd : List.Forall₂ R.RU d d') (i : ℕ) {x y : Acc4 F.U}
    (hx : RAcc R x y) {b b' c c' : List F.U} (hb : List.Forall₂ R.RU b b') (hc : List.Forall₂ R.RU c c') :
    Rel k (fp12Outer F a d i x b c) (fp12Outer F a' d' i y b' c') (RAcc R) := by
  induction hb generalizing i x y c c' with
  | nil => cases hc with
    | nil => exact Rel.pure hx
    | cons _ _ => exact Rel.pure hx
  | cons h _ ih => cases hc with
    | nil => exact Rel.pure hx
    | cons g g' => exact (fp12Inner_rel R h g i hx ha hd).bind fun _ _ e => ih _ e g'

theorem fp12Combine_rel {a a' b b' c c' d d' : List F.U} (ha : List.Forall₂ R.RU a a') (hb : List.Forall₂ R.RU b b')
    (hc : List.Forall₂ R.RU c c') (hd : List.Forall₂ R.RU d d') :
    Rel k (fp12Combine F a b c d) (fp12Combine F a' b' c' d') (fun x y => List.Forall₂ R.RU x.1 y.1 ∧ List.Forall₂ R.RU x.2 y.2) := by
  induction ha generalizing b b' c c' d d' with
  | nil => exact Rel.pure ⟨.nil, .nil⟩
  | cons h _ ih =>
    rcases hb with _ | ⟨h1, hb⟩
    · exact Rel.pure ⟨.nil, .nil⟩
    rcases hc with _ | ⟨h2, hc⟩
    · exact Rel.pure ⟨.nil, .nil⟩
    rcases hd with _ | ⟨h3, hd⟩
    · exact Rel.pure ⟨.nil, .nil⟩
    refine (R.subNoCarry h h3).bind fun _ _ e1 => (R.addNoCarry h1 h2).bind fun _ _ e2 => (ih hb hc hd).bind ?_
    rintro ⟨_, _⟩ ⟨_, _⟩ ⟨e3, e4⟩
    exact Rel.pure ⟨.cons e1 e3, .cons e2 e4⟩

theorem fp12Out0_rel (xi : ℤ) {a a' b b' c c' : List F.U} (ha : List.Forall₂ R.RU a a') (hb : List.Forall₂ R.RU b b')
    (hc : List.Forall₂ R.RU c c') : Rel k (fp12Out0 F xi a b c) (fp12Out0 F xi a' b' c') (List.Forall₂ R.RU) := by
  induction ha generalizing b b' c c' with
  | nil => exact Rel.pure .nil
  | cons h h' ih =>
    rcases hb with _ | ⟨h1, hb⟩
    · exact Rel.pure (.cons h h')
    rcases hc with _ | ⟨h2, hc⟩
    · exact Rel.pure (.cons h h')
    exact (R.scalarMulAddNoCarry xi h1 h).bind fun _ _ e1 => (R.subNoCarry e1 h2).bind fun _ _ e2 => (ih hb hc).bind fun _ _ e3 =>
      Rel.pure (.cons e2 e3)

theorem fp12Out1_rel (xi : ℤ) {a a' b b' c c' : List F.U} (ha : List.Forall₂ R.RU a a') (hb : List.Forall₂ R.RU b b')
    (hc : List.Forall₂ R.RU c c') : Rel k (fp12Out1 F xi a b c) (fp12Out1 F xi a' b' c') (List.Forall₂ R.RU) := by
  induction ha generalizing b b' c c' with
  | nil => exact Rel.pure .nil
  | cons h h' ih =>
    rcases hb with _ | ⟨h1, hb⟩
    · exact Rel.pure (.cons h h')
    rcases hc with _ | ⟨h2, hc⟩
    · exact Rel.pure (.cons h h')
    exact (R.addNoCarry h h1).bind fun _ _ e1 => (R.scalarMulAddNoCarry xi h2 e1).bind fun _ _ e2 => (ih hb hc).bind fun _ _ e3 =>
      Rel.pure (.cons e2 e3)

theorem fp12MulNoCarry_rel (xi : ℤ) {a a' b b' : List F.U} (ha : List.Forall₂ R.RU a a') (hb : List.Forall₂ R.RU b b') :
    Rel k (fp12MulNoCarry F xi a b) (fp12MulNoCarry F xi a' b') (List.Forall₂ R.RU) := by
  unfold fp12MulNoCarry
  rw [ha.length_eq, hb.length_eq]
  refine (assertM_rel fun _ => rfl).bind fun _ _ _ => (assertM_rel fun _ => rfl).bind fun _ _ _ => ?_
  refine (fp12Outer_rel R (List.forall₂_take 6 hb) (List.forall₂_drop 6 hb) 0 ⟨.nil, .nil, .nil, .nil⟩
    (List.forall₂_take 6 ha) (List.forall₂_drop 6 ha)).bind fun x y hx => (fp12Combine_rel R hx.c00 hx.c01 hx.c10 hx.c11).bind ?_
  rintro ⟨_, _⟩ ⟨_, _⟩ ⟨e1, e2⟩
  exact (fp12Out0_rel R xi (List.forall₂_take 6 e1) (List.forall₂_drop 6 e1) (List.forall₂_drop 6 e2)).bind fun _ _ f1 =>
    (fp12Out1_rel R xi (List.forall₂_take 6 e2) (List.forall₂_drop 6 e1) (List.forall₂_drop 6 e2)).bind fun _ _ f2 =>
    Rel.pure (List.rel_append f1 f2)

/-- `Fp12Chip`. -/
def fp12Rel (E : ExtField F) (xi : ℤ) (hE : ∀ v v', (E.coeffs v).length = (E.coeffs v').length) : FieldRel (fp12Ops F E xi) k :=
  vecRel R E hE (fun _ _ h => extGetAssignedValue_rel R E 12 h) (fun _ _ _ _ h h' => fp12MulNoCarry_rel R xi h h')

theorem fp2MulLoop0_rel {x x' y y' : F.U} (hx : R.RU x x') (hy : R.RU y y') {a a' b b' : List F.U} (ha : List.Forall₂ R.RU a a')
    (hb : List.Forall₂ R.RU b b') : Rel k (fp2MulLoop0 F x y a b) (fp2MulLoop0 F x' y' a' b') (List.Forall₂ R.RU) := by
  induction ha generalizing b b' with
  | nil => exact Rel.pure .nil
  | cons h h' ih =>
    rcases hb with _ | ⟨h1, hb⟩
    · exact Rel.pure .nil
    exact (R.mulNoCarry h hx).bind fun _ _ e1 => (R.mulNoCarry h1 hy).bind fun _ _ e2 => (R.subNoCarry e1 e2).bind fun _ _ e3 =>
      (ih hb).bind fun _ _ e4 => Rel.pure (.cons e3 e4)

theorem fp2MulLoop1_rel {x x' y y' : F.U} (hx : R.RU x x') (hy : R.RU y y') {a a' b b' : List F.U} (ha : List.Forall₂ R.RU a a')
    (hb : List.Forall₂ R.RU b b') : Rel k (fp2MulLoop1 F x y a b) (fp2MulLoop1 F x' y' a' b') (List.Forall₂ R.RU) := by
  induction ha generalizing b b' with
  | nil => exact Rel.pure .nil
  | cons h h' ih =>
    rcases hb with _ | ⟨h1, hb⟩
    · exact Rel.pure .nil
    exact (R.mulNoCarry h1 hx).bind fun _ _ e1 => (R.mulNoCarry h hy).bind fun _ _ e2 => (R.addNoCarry e1 e2).bind fun _ _ e3 =>
      (ih hb).bind fun _ _ e4 => Rel.pure (.cons e3 e4)

theorem fp12Fp2MulNoCarry_rel {a a' b b' : List F.U} (ha : List.Forall₂ R.RU a a') (hb : List.Forall₂ R.RU b b') :
    Rel k (fp12Fp2MulNoCarry F a b) (fp12Fp2MulNoCarry F a' b') (List.Forall₂ R.RU) := by
  unfold fp12Fp2MulNoCarry
  rcases hb with _ | ⟨h0, _ | ⟨h1, _ | ⟨h2, hb⟩⟩⟩
  · exact Rel.panic
  · exact Rel.panic
  · simp only [ha.length_eq]
    exact (assertM_rel fun _ => rfl).bind fun _ _ _ => (fp2MulLoop0_rel R h0 h1 (List.forall₂_take 6 ha) (List.forall₂_drop 6 ha)).bind
      fun _ _ e1 => (fp2MulLoop1_rel R h0 h1 (List.forall₂_take 6 ha) (List.forall₂_drop 6 ha)).bind fun _ _ e2 =>
      Rel.pure (List.rel_append e1 e2)
  · exact Rel.panic

theorem conjLoop_rel (b : Bool) {a a' : List F.P} (ha : List.Forall₂ R.RP a a') :
    Rel k (conjLoop F b a) (conjLoop F b a') (List.Forall₂ R.RP) := by
  induction ha generalizing b with
  | nil => cases b <;> exact Rel.pure .nil
  | cons h _ ih =>
    cases b with
    | true => exact (ih false).bind fun _ _ e => Rel.pure (.cons h e)
    | false => exact (R.negate h).bind fun _ _ e1 => (ih true).bind fun _ _ e => Rel.pure (.cons e1 e)

theorem fp12Conjugate_rel {a a' : List F.P} (ha : List.Forall₂ R.RP a a') :
    Rel k (fp12Conjugate F a) (fp12Conjugate F a') (List.Forall₂ R.RP) := by
  unfold fp12Conjugate
  rw [ha.length_eq]
  exact (assertM_rel fun _ => rfl).bind fun _ _ _ => conjLoop_rel R true ha

end

/-! ### `NativeFieldChip` -/

theorem nativeScalarMul_rel {a a' : AV p} (ha : RA k a a') (c : ℤ) : Rel k (nativeScalarMul a c) (nativeScalarMul a' c) (RA k) := by
  refine (i64ToFe_rel c).bind ?_
  rintro ⟨cf, ca⟩ _ rfl
  exact mul_rel ha.q (RQ.constant_rfl _)

theorem nativeScalarMulAdd_rel {a a' b b' : AV p} (ha : RA k a a') (hb : RA k b b') (c : ℤ) :
    Rel k (nativeScalarMulAdd a b c) (nativeScalarMulAdd a' b' c) (RA k) := by
  refine (i64ToFe_rel c).bind ?_
  rintro ⟨cf, ca⟩ _ rfl
  exact mulAdd_rel ha.q (RQ.constant_rfl _) hb.q

/-- `NativeFieldChip`. -/
def nativeRel (L : ℕ) (k : Bool) : FieldRel (nativeOps p L) k where
  RU := RA k
  RP := RA k
  ofP := id
  getAssignedValue := fun h => unwrapA_rel h
  loadPrivate := fun h => loadWitness_rel h
  loadConstant := fun v => loadConstant_rel v
  addNoCarry := fun h h' => add_rel h.q h'.q
  addConstantNoCarry := fun v h => add_rel h.q (RQ.constant_rfl v)
  subNoCarry := fun h h' => sub_rel h.q h'.q
  negate := fun h => neg_rel h.q
  scalarMulNoCarry := fun c h => nativeScalarMul_rel h c
  scalarMulAddNoCarry := fun c h h' => nativeScalarMulAdd_rel h h' c
  mulNoCarry := fun h h' => mul_rel h.q h'.q
  checkCarryModToZero := fun h => assertIsConst_rel h _
  carryMod := fun h => Rel.pure h
  rangeCheck := fun n h => Rel.ite Iff.rfl (fun _ => rangeCheck_rel L h n) (fun _ => Rel.pure trivial)
  enforceLessThan := fun h => Rel.pure h
  isSoftZero := fun h => isZero_rel h
  isSoftNonzero := fun h => (isZero_rel h).bind fun _ _ h1 => neg_rel h1.q
  isZero := fun h => isZero_rel h
  isEqualUnenforced := fun h h' => isEqual_rel h.q h'.q
  assertEqual := fun h h' => constrainEqual_rel h h'
  select := fun h h' hs => select_rel h.q h'.q hs.q
  selectByIndicator := fun h h' hl => selectByIndicator_rel (exist_rel h) h' fun hk hh =>
    (List.length_map _).trans (hl hk hh)

end H2
