import Verif.Ecc.Rel
import Verif.Ecc.ModelPar
import Verif.Threads.PoolRel

/-!
# Relational lemmas of the parallel multi-scalar multiplications (`fixed_base.rs`, `pippenger.rs`)
-/

set_option autoImplicit false
set_option linter.unusedSectionVars false
namespace H2
variable {p : ℕ} [Fact p.Prime] {k : Bool} {F : FieldOps p} (R : FieldRel F k)

/-! ### Fixed base -/

theorem fbTask_rel {A A' : EcPt F} (hA : REc R A A') (n m w : ℕ) (x y : List (F.V × F.V) × List (AV p))
    (h : x.1 = y.1 ∧ RAs k x.2 y.2) : Rel k (fbTask F A n m w x) (fbTask F A' n m w y) (REc R) := by
  obtain ⟨x1, x2⟩ := x
  obtain ⟨y1, y2⟩ := y
  obtain ⟨rfl, h2⟩ := h
  unfold fbTask
  have hl : x2.length = y2.length := h2.length_eq
  simp only [hl]
  exact (fbLoad_rel R x1).bind fun _ _ h3 => (assertM_rel fun _ => rfl).bind fun _ _ _ => (chunkBits_rel m h2).bind fun _ _ h4 =>
    fbLoop_rel R hA (zip_rel (List.rel_reverse (chunksOf_rel _ h3)) (List.rel_reverse (chunksOf_rel _ h4)))

theorem fbAccLoop_rel {A A' : EcPt F} (hA : REc R A A') {B B' : EcPt F} (hB : REc R B B') {l l' : List (EcPt F)} (h : REcs R l l') :
    Rel k (fbAccLoop F A B l) (fbAccLoop F A' B' l') (REc R) := by
  induction h generalizing B B' with
  | nil => exact Rel.pure hB
  | cons h _ ih =>
    exact (ecAddUnequal_rel R (.nonStrict hB) (.nonStrict h) true).bind fun _ _ h1 =>
      (ecSubUnequal_rel R (.nonStrict h1) (.nonStrict hA) true).bind fun _ _ h2 => ih h2

theorem fbEnd_rel (b : F.V) {v v' u u' : F.V × F.V} (hv : RV2 k v v') (hu : RV2 k u u') {A A' : EcPt F} (hA : REc R A A')
    {l l' : List (EcPt F)} (h : REcs R l l') : Rel k (fbEnd F b v u A l) (fbEnd F b v' u' A' l') (REc R) :=
  (loadPoint_rel R b hv).bind fun _ _ h1 => (fbAccLoop_rel R hA h1 h).bind fun _ _ h2 => ecSubStrict_rel R hu h2 h1

/-- Related random choices of `fixed_base::msm_par`. -/
def RFb (k : Bool) (r r' : FbRand F) : Prop := RV2 k r.base r'.base ∧ RV2 k r.base2 r'.base2 ∧ RV2 k r.pair r'.pair

theorem unwrapPOpt_rel {α : Type} {S : α → α → Prop} {o o' : Option α} (h : ROpt S o o') :
    PRel k (unwrapP o : PM p α) (unwrapP o') S := by
  refine unwrapP_rel fun a e => ?_
  subst e
  cases o' with
  | none => exact h.elim
  | some b => exact ⟨b, rfl, h⟩

theorem zip_same_rel {α β : Type} {S : β → β → Prop} (xs : List α) {l l' : List β} (h : List.Forall₂ S l l') :
    List.Forall₂ (fun x y : α × β => x.1 = y.1 ∧ S x.2 y.2) (xs.zip l) (xs.zip l') := by
  induction h generalizing xs with
  | nil => simp
  | cons h _ ih =>
    cases xs with
    | nil => simp
    | cons x xs => exact .cons ⟨rfl, h⟩ (ih xs)

theorem fixedMsmPar_rel (C : NativeCurve F) (b : F.V) {r r' : FbRand F} (hr : RFb k r r') (pts : List C.G)
    {s s' : List (List (AV p))} (hs : List.Forall₂ (RAs k) s s') (m w : ℕ) :
    PRel k (fixedMsmPar F C b r pts s m w) (fixedMsmPar F C b r' pts s' m w) (REc R) := by
  unfold fixedMsmPar
  rw [hs.length_eq]
  refine PRel.ite Iff.rfl (fun _ => onMain_rel (assignConstantPoint_rel R _)) (fun _ => ?_)
  refine (assertP_rel rfl).bind fun _ _ _ => (assertP_rel rfl).bind fun _ _ _ =>
    (unwrapPOpt_rel (optGet? hs 0)).bind fun s0 s0' h0 => ?_
  rw [h0.length_eq]
  exact (assertP_rel rfl).bind fun _ _ _ => (onMain_rel (loadPoint_rel R b hr.1)).bind fun _ _ h1 =>
    (assertP_rel rfl).bind fun _ _ _ => (assertP_rel rfl).bind fun _ _ _ =>
    (parallelize_rel (fbTask_rel R h1 _ m w) (zip_same_rel _ hs)).bind fun _ _ h2 => onMain_rel (fbEnd_rel R b hr.2.1 hr.2.2 h1 h2)

/-! ### Pippenger -/

theorem pushBits_rel {bits bits' : List (AV p)} (h : RAs k bits bits') {rows rows' : List (List (AV p))}
    (hr : List.Forall₂ (RAs k) rows rows') : List.Forall₂ (RAs k) (pushBits bits rows) (pushBits bits' rows') := by
  induction h generalizing rows rows' with
  | nil => cases hr <;> simp only [pushBits] <;> first | exact .nil | exact .cons ‹_› ‹_›
  | cons h _ ih =>
    cases hr with
    | nil => simp only [pushBits]; exact .nil
    | cons h1 h2 => simp only [pushBits]; exact .cons (List.rel_append h1 (.cons h .nil)) (ih h2)

theorem boolChunkLoop_rel (m : ℕ) {as as' : List (AV p)} (h : RAs k as as') {rows rows' : List (List (AV p))}
    (hr : List.Forall₂ (RAs k) rows rows') :
    Rel k (boolChunkLoop m as rows) (boolChunkLoop m as' rows') (List.Forall₂ (RAs k)) := by
  induction h generalizing rows rows' with
  | nil => exact Rel.pure hr
  | cons h _ ih =>
    simp only [boolChunkLoop]
    rw [hr.length_eq]
    exact Rel.ite Iff.rfl (fun _ => Rel.pure hr) (fun _ => (numToBits_rel h m).bind fun _ _ h1 =>
      (ih (List.forall₂_drop m hr)).bind fun _ _ h2 => Rel.pure (List.rel_append (pushBits_rel h1 (List.forall₂_take m hr)) h2))

theorem boolLoop_rel (m : ℕ) {ss ss' : List (List (AV p))} (h : List.Forall₂ (RAs k) ss ss') {rows rows' : List (List (AV p))}
    (hr : List.Forall₂ (RAs k) rows rows') : Rel k (boolLoop m ss rows) (boolLoop m ss' rows') (List.Forall₂ (RAs k)) := by
  induction h generalizing rows rows' with
  | nil => exact Rel.pure hr
  | cons h _ ih => exact (boolChunkLoop_rel m h hr).bind fun _ _ h1 => ih h1

theorem pipStart_rel (b : F.V) {v v' : F.V × F.V} (hv : RV2 k v v') {s s' : List (List (AV p))} (hs : List.Forall₂ (RAs k) s s')
    (sb m n : ℕ) : Rel k (pipStart F b v s sb m n) (pipStart F b v' s' sb m n)
      (fun x y => List.Forall₂ (RAs k) x.1 y.1 ∧ REcs R x.2 y.2) :=
  (assertM_rel fun _ => rfl).bind fun _ _ _ => (boolLoop_rel m hs (forall₂_replicate .nil sb)).bind fun _ _ h1 =>
    (loadPoint_rel R b hv).bind fun _ _ h2 => (doublings_rel R h2 _).bind fun _ _ h3 => Rel.pure ⟨h1, .cons h2 h3⟩

theorem bucketRow_rel {i i' : AV p} (hi : RA k i i') {P P' : EcPt F} (hP : REc R P P') {l l' : List (EcPt F)} (h : REcs R l l') :
    Rel k (bucketRow F i P l) (bucketRow F i' P' l') (REcs R) := by
  induction h with
  | nil => exact Rel.pure .nil
  | cons h _ ih =>
    exact (ecAddUnequal_rel R (.strict h) (.strict hP) true).bind fun _ _ h1 => (ecSelect_rel R h h1 hi).bind fun _ _ h2 =>
      (intoStrictPoint_rel R h2).bind fun _ _ h3 => ih.bind fun _ _ h4 => Rel.pure (.cons h3 h4)

theorem bucketLoop_rel (i : ℕ) {B B' : List (EcPt F)} (hB : REcs R B B') {l l' : List (EcPt F)} (h : REcs R l l') :
    Rel k (bucketLoop F i B l) (bucketLoop F i B' l') (REcs R) := by
  induction h generalizing i B B' with
  | nil => exact Rel.pure hB
  | cons h _ ih =>
    exact (R.isZero h.y).bind fun _ _ h1 => (intoStrictPoint_rel R h).bind fun _ _ h2 =>
      (bucketRow_rel R h1 h2 (List.forall₂_take _ hB)).bind fun _ _ h3 => ih _ (List.rel_append hB h3)

theorem pipSelect_rel (lo hi : ℕ) {B B' : List (EcPt F)} (hB : REcs R B B') {l l' : List (List (AV p))}
    (h : List.Forall₂ (RAs k) l l') : Rel k (pipSelect F lo hi B l) (pipSelect F lo hi B' l') (REcs R) := by
  induction h with
  | nil => exact Rel.pure .nil
  | cons h _ ih =>
    exact (sliceM_rel h lo hi).bind fun _ _ h1 => (ecSelectFromBits_rel R hB h1).bind fun _ _ h2 => ih.bind fun _ _ h3 =>
      Rel.pure (.cons h2 h3)

/-- Related inputs of the first parallel task. -/
abbrev RPip (x y : (List (EcPt F) × EcPt F) × ℕ) : Prop := (REcs R x.1.1 y.1.1 ∧ REc R x.1.2 y.1.2) ∧ x.2 = y.2

theorem pipTask_rel (c : ℕ) {l l' : List (List (AV p))} (h : List.Forall₂ (RAs k) l l') (x y : (List (EcPt F) × EcPt F) × ℕ)
    (hx : RPip R x y) : Rel k (pipTask F c l x) (pipTask F c l' y) (REcs R) := by
  obtain ⟨⟨x1, x2⟩, i⟩ := x
  obtain ⟨⟨y1, y2⟩, j⟩ := y
  obtain ⟨⟨h1, h2⟩, rfl⟩ := hx
  unfold pipTask
  have e : x1.length = y1.length := h1.length_eq
  simp only [e]
  exact (intoStrictPoint_rel R h2).bind fun _ _ h3 => (bucketLoop_rel R 0 (.cons h3 .nil) h1).bind fun _ _ h4 => pipSelect_rel R _ _ h4 h

theorem pipAggLoop_rel (i : ℕ) {A A' : EcPt F} (hA : REc R A A') {l l' : List (List (EcPt F))} (h : List.Forall₂ (REcs R) l l') :
    Rel k (pipAggLoop F i A l) (pipAggLoop F i A' l') (REc R) := by
  induction h generalizing A A' with
  | nil => exact Rel.pure hA
  | cons h _ ih =>
    exact (unwrapOpt_rel (optGet? h i)).bind fun _ _ h1 => (ecAddUnequal_rel R (.strict hA) (.strict h1) true).bind fun _ _ h2 =>
      (intoStrictPoint_rel R h2).bind fun _ _ h3 => ih h3

theorem forall₂_tail {α : Type} {S : α → α → Prop} {l l' : List α} (h : List.Forall₂ S l l') : List.Forall₂ S l.tail l'.tail := by
  cases h with
  | nil => exact .nil
  | cons _ h => exact h

theorem pipAgg_rel {l l' : List (List (EcPt F))} (h : List.Forall₂ (REcs R) l l') (i j : ℕ) (hi : i = j) :
    Rel k (pipAgg F l i) (pipAgg F l' j) (REc R) := by
  subst hi
  exact (unwrapOpt_rel (optGet? h 0)).bind fun _ _ h1 => (unwrapOpt_rel (optGet? h1 i)).bind fun _ _ h2 =>
    pipAggLoop_rel R i h2 (forall₂_tail h)

theorem pipSumLoop_rel {P P' : CmpPt F} (hP : RCm R P P') {A A' : EcPt F} (hA : REc R A A') {l l' : List (EcPt F)} (h : REcs R l l') :
    Rel k (pipSumLoop F P A l) (pipSumLoop F P' A' l') (fun x y => REc R x.1 y.1 ∧ REc R x.2 y.2) := by
  induction h generalizing P P' A A' with
  | nil => exact Rel.pure ⟨hP.pt, hA⟩
  | cons h _ ih =>
    exact (ecDouble_rel R hA).bind fun _ _ h1 => (ecDouble_rel R hP.pt).bind fun _ _ h2 =>
      (ecAddUnequal_rel R (.nonStrict h2) (.strict h) true).bind fun _ _ h3 => ih (.nonStrict h3) h1

theorem optGetLast? {α : Type} {S : α → α → Prop} {l l' : List α} (h : List.Forall₂ S l l') : ROpt S l.getLast? l'.getLast? := by
  rw [List.getLast?_eq_getElem?, List.getLast?_eq_getElem?, h.length_eq]
  exact optGet? h _

theorem forall₂_dropLast {α : Type} {S : α → α → Prop} {l l' : List α} (h : List.Forall₂ S l l') :
    List.Forall₂ S l.dropLast l'.dropLast := by
  rw [List.dropLast_eq_take, List.dropLast_eq_take, h.length_eq]
  exact List.forall₂_take _ h

theorem pipEnd_rel {v v' : F.V × F.V} (hv : RV2 k v v') {l l' g g' : List (EcPt F)} (h : REcs R l l') (hg : REcs R g g') :
    Rel k (pipEnd F v l g) (pipEnd F v' l' g') (REc R) :=
  (unwrapOpt_rel (optGetLast? h)).bind fun _ _ h1 => (unwrapOpt_rel (optGet? h 0)).bind fun _ _ h2 =>
    (ecDouble_rel R h1).bind fun _ _ h3 => (ecSubUnequal_rel R (.nonStrict h3) (.nonStrict h2) true).bind fun _ _ h4 =>
    (unwrapOpt_rel (optGetLast? hg)).bind fun _ _ h5 =>
    (pipSumLoop_rel R (.strict h5) h4 (List.rel_reverse (forall₂_dropLast hg))).bind fun _ _ h6 => (ecDouble_rel R h6.2).bind fun _ _ h7 =>
    (ecSubUnequal_rel R (.nonStrict h7) (.nonStrict h4) true).bind fun _ _ h8 => ecSubStrict_rel R hv h6.1 h8

theorem zipIdx_rel {α : Type} {S : α → α → Prop} {l l' : List α} (h : List.Forall₂ S l l') (n : ℕ) :
    List.Forall₂ (fun x y : α × ℕ => S x.1 y.1 ∧ x.2 = y.2) (l.zipIdx n) (l'.zipIdx n) := by
  induction h generalizing n with
  | nil => exact .nil
  | cons h _ ih => exact .cons ⟨h, rfl⟩ (ih _)

theorem forall₂_eq_refl {α : Type} (l : List α) : List.Forall₂ (fun a b : α => a = b) l l := by
  induction l with
  | nil => exact .nil
  | cons a l ih => exact .cons rfl ih

theorem multiExpPar_rel (b : F.V) {r r' : MsmRand F} (hr : RRand k r r') {P P' : List (EcPt F)} (hP : REcs R P P')
    {s s' : List (List (AV p))} (hs : List.Forall₂ (RAs k) s s') (m c : ℕ) :
    PRel k (multiExpPar F b r P s m c) (multiExpPar F b r' P' s' m c) (REc R) := by
  unfold multiExpPar
  rw [hP.length_eq, hs.length_eq]
  refine (assertP_rel rfl).bind fun _ _ _ => (unwrapPOpt_rel (optGet? hs 0)).bind fun s0 s0' h0 => ?_
  rw [h0.length_eq]
  exact (assertP_rel rfl).bind fun _ _ _ => (onMain_rel (pipStart_rel R b hr.1 hs _ m _)).bind fun _ _ h1 =>
    (parallelize_rel (pipTask_rel R c h1.1) (zipIdx_rel (zip_rel (chunksOf_rel c hP) h1.2) 0)).bind fun _ _ h2 =>
    (parallelize_rel (pipAgg_rel R h2) (forall₂_eq_refl _)).bind fun _ _ h3 => onMain_rel (pipEnd_rel R hr.2 h1.2 h3)

theorem variableBaseMsm_rel (b : F.V) {r r' : MsmRand F} (hr : RRand k r r') {P P' : List (EcPt F)} (hP : REcs R P P')
    {s s' : List (List (AV p))} (hs : List.Forall₂ (RAs k) s s') (m c : ℕ) :
    PRel k (variableBaseMsm F b r P s m c) (variableBaseMsm F b r' P' s' m c) (REc R) := by
  unfold variableBaseMsm
  rw [hP.length_eq]
  exact PRel.ite Iff.rfl (fun _ => onMain_rel (multiScalarMultiply_rel R b hr hP hs m c)) (fun _ => multiExpPar_rel R b hr hP hs m c)

end H2
