import Verif.Gate.Rel
import Verif.Range.Model

/-! # Relational lemmas for the range chip -/

set_option autoImplicit false
namespace H2
variable {p : ℕ} [Fact p.Prime] {k : Bool}

theorem pow2At_rel (n : ℕ) : Rel k (pow2At n : M p _) (pow2At n) (fun x y => x = y) := by
  unfold pow2At
  exact unwrap_rel (fun _ a h => ⟨a, h⟩) (fun a b h1 h2 => by rw [h1] at h2; exact Option.some.inj h2)

theorem bigToFe_rel {n m : ℕ} (h : RV k n m) : Rel k (bigToFe n : M p _) (bigToFe m) (RV k) := by
  unfold bigToFe
  by_cases hx : n < p
  · rw [if_pos hx]
    by_cases hy : m < p
    · rw [if_pos hy]; exact Rel.pure (h.map _)
    · rw [if_neg hy]
      intro s t hs r s' hr
      exact ⟨fun hk => absurd (h hk ▸ hx) hy, fun r' t' h' => by simp [H2.panic] at h'⟩
  · rw [if_neg hx]; exact Rel.panic
macro_rules | `(tactic| rel_lem) => `(tactic| with_reducible refine bigToFe_rel ?_)

theorem bigToFeC_rel (n : ℕ) : Rel k (bigToFe n : M p _) (bigToFe n) (fun x y => x = y) := by
  unfold bigToFe
  exact Rel.ite Iff.rfl (fun _ => Rel.pure rfl) (fun _ => Rel.panic)

theorem lookupsAt_rel (os : List ℤ) : Rel k (lookupsAt os : M p _) (lookupsAt os) (fun _ _ => True) := by
  induction os with
  | nil => exact Rel.pure trivial
  | cons o os ih => unfold lookupsAt; rel
macro_rules | `(tactic| rel_lem) => `(tactic| with_reducible exact lookupsAt_rel _)

theorem rangeLimbs_rel (L : ℕ) {a a' : AV p} (ha : RA k a a') (n : ℕ) :
    Rel k (rangeLimbs L a n) (rangeLimbs L a' n) (RA k) := by
  unfold rangeLimbs
  refine Rel.ite Iff.rfl (fun _ => ?_) (fun _ => ?_)
  · rel
  · refine (unwrapA_rel ha).bind fun x x' hx => adviceLen_rel.bind ?_
    rintro row _ rfl
    refine (sliceTo_rel _ _).bind ?_
    rintro bases _ rfl
    refine (innerProduct_rel (limbs_rel hx _ _) (consts_rel _)).bind fun _ _ h1 => ?_
    rel

theorem rangeRem_rel (L : ℕ) {a a' : AV p} (ha : RA k a a') (n : ℕ) :
    Rel k (rangeRem L a n) (rangeRem L a' n) (fun _ _ => True) := by
  unfold rangeRem
  refine Rel.ite Iff.rfl (fun _ => assertBit_rel ha) (fun _ => Rel.ite Iff.rfl (fun _ => ?_)
    (fun _ => Rel.pure trivial))
  refine (pow2At_rel _).bind ?_
  rintro m _ rfl
  rel

theorem rangeCheckLimb_rel (L : ℕ) {a a' : AV p} (ha : RA k a a') (n : ℕ) :
    Rel k (rangeCheckLimb L a n) (rangeCheckLimb L a' n) (RA k) := by
  unfold rangeCheckLimb
  refine Rel.ite Iff.rfl (fun _ => ?_) (fun _ => ?_)
  · rel
  · exact (rangeLimbs_rel L ha _).bind fun _ _ h => (rangeRem_rel L h _).bind fun _ _ _ => Rel.pure h
macro_rules | `(tactic| rel_lem) => `(tactic| with_reducible refine rangeCheckLimb_rel _ ?_ _)

theorem rangeCheck_rel (L : ℕ) {a a' : AV p} (ha : RA k a a') (n : ℕ) :
    Rel k (rangeCheck L a n) (rangeCheck L a' n) (fun _ _ => True) := by
  unfold rangeCheck; rel
macro_rules | `(tactic| rel_lem) => `(tactic| with_reducible refine rangeCheck_rel _ ?_ _)

theorem checkLessThan_rel (L : ℕ) {a a' b b' : QCell p} (ha : RQ k a a') (hb : RQ k b b') (n : ℕ) :
    Rel k (checkLessThan L a b n) (checkLessThan L a' b' n) (fun _ _ => True) := by
  unfold checkLessThan
  refine (pow2At_rel _).bind ?_
  rintro m _ rfl
  rel
macro_rules | `(tactic| rel_lem) => `(tactic| with_reducible refine checkLessThan_rel _ ?_ ?_ _)

theorem checkLessThanSafe_rel (L : ℕ) {a a' : AV p} (ha : RA k a a') (b : ℕ) :
    Rel k (checkLessThanSafe L a b) (checkLessThanSafe L a' b) (fun _ _ => True) := by
  unfold checkLessThanSafe; rel
macro_rules | `(tactic| rel_lem) => `(tactic| with_reducible refine checkLessThanSafe_rel _ ?_ _)

theorem checkBigLessThanSafe_rel (L : ℕ) {a a' : AV p} (ha : RA k a a') (b : ℕ) :
    Rel k (checkBigLessThanSafe L a b) (checkBigLessThanSafe L a' b) (fun _ _ => True) := by
  unfold checkBigLessThanSafe
  refine (rangeCheck_rel L ha _).bind fun _ _ _ => (bigToFeC_rel b).bind ?_
  rintro m _ rfl
  rel
macro_rules | `(tactic| rel_lem) => `(tactic| with_reducible refine checkBigLessThanSafe_rel _ ?_ _)

theorem isLessThan_rel (L : ℕ) {a a' b b' : QCell p} (ha : RQ k a a') (hb : RQ k b b') (n : ℕ) :
    Rel k (isLessThan L a b n) (isLessThan L a' b' n) (RA k) := by
  unfold isLessThan
  refine (pow2At_rel _).bind ?_
  rintro m _ rfl
  rel
macro_rules | `(tactic| rel_lem) => `(tactic| with_reducible refine isLessThan_rel _ ?_ ?_ _)

theorem isLessThanSafe_rel (L : ℕ) {a a' : AV p} (ha : RA k a a') (b : ℕ) :
    Rel k (isLessThanSafe L a b) (isLessThanSafe L a' b) (RA k) := by
  unfold isLessThanSafe; rel
macro_rules | `(tactic| rel_lem) => `(tactic| with_reducible refine isLessThanSafe_rel _ ?_ _)

theorem isBigLessThanSafe_rel (L : ℕ) {a a' : AV p} (ha : RA k a a') (b : ℕ) :
    Rel k (isBigLessThanSafe L a b) (isBigLessThanSafe L a' b) (RA k) := by
  unfold isBigLessThanSafe
  refine (rangeCheck_rel L ha _).bind fun _ _ _ => (bigToFeC_rel b).bind ?_
  rintro m _ rfl
  rel
macro_rules | `(tactic| rel_lem) => `(tactic| with_reducible refine isBigLessThanSafe_rel _ ?_ _)

theorem divMod_rel (L : ℕ) {a a' : QCell p} (ha : RQ k a a') (b n : ℕ) :
    Rel k (divMod L a b n) (divMod L a' b n) (RA2 k) := by
  unfold divMod
  refine (unwrapQ_rel ha).bind fun x x' hx => (assertM_rel fun _ => rfl).bind fun _ _ _ => ?_
  refine (bigToFe_rel (hx.map fun x => x.val / b)).bind fun _ _ h1 =>
    (bigToFe_rel (hx.map fun x => x.val % b)).bind fun _ _ h2 => (bigToFeC_rel b).bind ?_
  rintro m _ rfl
  rel
macro_rules | `(tactic| rel_lem) => `(tactic| with_reducible refine divMod_rel _ ?_ _ _)

theorem divModVarHi_rel (L : ℕ) {a a' : AV p} (ha : RA k a a') (an bn : ℕ) :
    Rel k (divModVarHi L a an bn) (divModVarHi L a' an bn) (fun _ _ => True) := by
  unfold divModVarHi
  exact Rel.ite Iff.rfl (fun _ => assertIsConst_rel ha _) (fun _ => rangeCheck_rel L ha _)
macro_rules | `(tactic| rel_lem) => `(tactic| with_reducible refine divModVarHi_rel _ ?_ _ _)

theorem divModVar_rel (L : ℕ) {a a' b b' : QCell p} (ha : RQ k a a') (hb : RQ k b b') (an bn : ℕ) :
    Rel k (divModVar L a b an bn) (divModVar L a' b' an bn) (RA2 k) := by
  unfold divModVar
  refine (unwrapQ_rel ha).bind fun x x' hx => (unwrapQ_rel hb).bind fun y y' hy => ?_
  refine (assertM_rel fun hk => by rw [hy hk]).bind fun _ _ _ => (pow2At_rel bn).bind ?_
  rintro xfe _ rfl
  have hd : RV k (x.val / y.val) (x'.val / y'.val) := fun hk => by rw [hx hk, hy hk]
  refine (bigToFe_rel hd).bind fun _ _ h1 =>
    (bigToFe_rel (hd.map fun d => d / 2 ^ bn)).bind fun _ _ h2 =>
    (bigToFe_rel (hd.map fun d => d % 2 ^ bn)).bind fun _ _ h3 =>
    (bigToFe_rel (m := x'.val % y'.val) fun hk => by rw [hx hk, hy hk]).bind fun _ _ h4 => ?_
  refine (assignRegion_rel ?_ (fun _ => rfl) (by gok)).bind fun _ _ _ => ?_
  · rel_side
  refine (getM_rel _).bind fun _ _ g1 => (getM_rel _).bind fun _ _ g2 => (getM_rel _).bind fun _ _ g3 =>
    (getM_rel _).bind fun _ _ g4 => ?_
  refine (rangeCheck_rel L g1 _).bind fun _ _ _ => (divModVarHi_rel L g2 _ _).bind fun _ _ _ => ?_
  refine (mulAdd_rel hb g1.q g4.q).bind fun _ _ g5 => (divMod_rel L g5.q _ _).bind fun r r' hr => ?_
  obtain ⟨r1, r2⟩ := r
  obtain ⟨r1', r2'⟩ := r'
  refine (mulAdd_rel hb g2.q hr.1.q).bind fun _ _ g6 => (divMod_rel L ha _ _).bind fun q q' hq => ?_
  obtain ⟨q1, q2⟩ := q
  obtain ⟨q1', q2'⟩ := q'
  refine (constrainEqual_rel g6 hq.1).bind fun _ _ _ => (constrainEqual_rel hr.2 hq.2).bind fun _ _ _ => ?_
  exact (rangeCheck_rel L g4 _).bind fun _ _ _ => (checkLessThan_rel L g4.q hb _).bind fun _ _ _ =>
    Rel.pure ⟨g3, g4⟩
macro_rules | `(tactic| rel_lem) => `(tactic| with_reducible refine divModVar_rel _ ?_ ?_ _ _)

theorem getLastBit_rel (L : ℕ) {a a' : AV p} (ha : RA k a a') (n : ℕ) :
    Rel k (getLastBit L a n) (getLastBit L a' n) (RA k) := by
  unfold getLastBit
  rel
macro_rules | `(tactic| rel_lem) => `(tactic| with_reducible refine getLastBit_rel _ ?_ _)

theorem powStep_rel (b n : ℕ) : Rel k (powStep b n : M p _) (powStep b n) (fun x y => x = y) := by
  unfold powStep
  exact Rel.ite Iff.rfl (fun _ => Rel.panic) (fun _ => Rel.pure rfl)

theorem rangeChecks_rel (L : ℕ) {l l' : List (AV p)} (h : RAs k l l') (n : ℕ) :
    Rel k (rangeChecks L l n) (rangeChecks L l' n) (fun _ _ => True) := by
  induction h with
  | nil => exact Rel.pure trivial
  | cons h _ ih => unfold rangeChecks; rel
macro_rules | `(tactic| rel_lem) => `(tactic| with_reducible refine rangeChecks_rel _ ?_ _)

theorem decomposeLe_rel (L : ℕ) {a a' : AV p} (ha : RA k a a') (b n : ℕ) :
    Rel k (decomposeLe L a b n) (decomposeLe L a' b n) (RAs k) := by
  unfold decomposeLe
  refine (powStep_rel _ _).bind ?_
  rintro pows _ rfl
  refine (unwrapA_rel ha).bind fun x x' hx =>
    (innerProductLeft_rel (limbs_rel hx _ _) (consts_rel _)).bind fun r r' hr => ?_
  obtain ⟨r1, r2⟩ := r
  obtain ⟨r1', r2'⟩ := r'
  exact (constrainEqual_rel hr.1 ha).bind fun _ _ _ => (rangeChecks_rel L hr.2 _).bind fun _ _ _ =>
    Rel.pure hr.2
macro_rules | `(tactic| rel_lem) => `(tactic| with_reducible refine decomposeLe_rel _ ?_ _ _)

theorem limbsToNum_rel {l l' : List (AV p)} (h : RAs k l l') (b : ℕ) :
    Rel k (limbsToNum l b) (limbsToNum l' b) (RA k) := by
  unfold limbsToNum
  rw [h.length_eq]
  refine (powStep_rel _ _).bind ?_
  rintro pows _ rfl
  exact innerProduct_rel (exist_rel h) (consts_rel _)
macro_rules | `(tactic| rel_lem) => `(tactic| with_reducible refine limbsToNum_rel ?_ _)

theorem rotRightInternal_rel (L : ℕ) {a a' : AV p} (ha : RA k a a') (b n : ℕ) :
    Rel k (rotRightInternal L a b n) (rotRightInternal L a' b n) (RA k) := by
  unfold rotRightInternal
  refine (assertM_rel fun _ => rfl).bind fun _ _ _ => (unwrapA_rel ha).bind fun x x' hx => ?_
  refine (assertM_rel fun hk => by rw [hx hk]).bind fun _ _ _ => ?_
  refine (bigToFe_rel (hx.map fun x => x.val % 2 ^ b)).bind fun _ _ h1 => (loadWitness_rel h1).bind
    fun _ _ h2 => (bigToFe_rel (hx.map fun x => x.val / 2 ^ b)).bind fun _ _ h3 =>
    (loadWitness_rel h3).bind fun _ _ h4 => (pow2At_rel _).bind ?_
  rintro pb _ rfl
  refine (mulAdd_rel h2.q (RQ.constant_rfl _) h4.q).bind fun _ _ h5 => (rangeCheck_rel L h2 _).bind
    fun _ _ _ => (rangeCheck_rel L h4 _).bind fun _ _ _ => (constrainEqual_rel ha h5).bind fun _ _ _ =>
    (pow2At_rel _).bind ?_
  rintro pnb _ rfl
  exact mulAdd_rel h4.q (RQ.constant_rfl _) h2.q
macro_rules | `(tactic| rel_lem) => `(tactic| with_reducible refine rotRightInternal_rel _ ?_ _ _)

theorem constRightRotate_rel (L : ℕ) {a a' : AV p} (ha : RA k a a') (b n : ℕ) :
    Rel k (constRightRotate L a b n) (constRightRotate L a' b n) (RA k) := by
  unfold constRightRotate
  exact Rel.ite Iff.rfl (fun _ => Rel.panic) (fun _ => Rel.ite Iff.rfl (fun _ => Rel.pure ha)
    (fun _ => rotRightInternal_rel L ha _ _))

theorem constLeftRotate_rel (L : ℕ) {a a' : AV p} (ha : RA k a a') (b n : ℕ) :
    Rel k (constLeftRotate L a b n) (constLeftRotate L a' b n) (RA k) := by
  unfold constLeftRotate
  exact Rel.ite Iff.rfl (fun _ => Rel.panic) (fun _ => Rel.ite Iff.rfl (fun _ => Rel.pure ha)
    (fun _ => rotRightInternal_rel L ha _ _))

end H2
