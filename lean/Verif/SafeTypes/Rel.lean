import Verif.Range.Rel
import Verif.SafeTypes.Model

/-! # Relational lemmas for the safe types -/

set_option autoImplicit false
set_option linter.unusedSectionVars false
namespace H2
variable {p : ℕ} [Fact p.Prime] {k : Bool}

theorem assertBool_rel {a a' : AV p} (ha : RA k a a') : Rel k (assertBool a) (assertBool a') (RA k) := by
  unfold assertBool; rel

theorem loadBool_rel {b b' : Bool} (h : RV k b b') : Rel k (loadBool b : M p _) (loadBool b') (RA k) := by
  unfold loadBool
  refine (loadWitness_rel (h.map fun b : Bool => if b then (1 : ZMod p) else 0)).bind fun _ _ h => assertBool_rel h

theorem assertByte_rel (L : ℕ) {a a' : AV p} (ha : RA k a a') : Rel k (assertByte L a) (assertByte L a') (RA k) := by
  unfold assertByte; rel

theorem loadByte_rel (L : ℕ) {b b' : ℕ} (h : RV k b b') : Rel k (loadByte L b : M p _) (loadByte L b') (RA k) := by
  unfold loadByte
  refine (loadWitness_rel (h.map fun b : ℕ => (b : ZMod p))).bind fun _ _ h => assertByte_rel L h

theorem assertByteList_rel (L : ℕ) {l l' : List (AV p)} (h : RAs k l l') :
    Rel k (assertByteList L l) (assertByteList L l') (RAs k) := by
  induction h with
  | nil => exact Rel.pure .nil
  | cons h _ ih => exact (assertByte_rel L h).bind fun _ _ h1 => ih.bind fun _ _ h2 => Rel.pure (.cons h1 h2)

/-- Related variable-length byte arrays. -/
def RVL (k : Bool) (a b : VarLenBytes p) : Prop := RAs k a.bytes b.bytes ∧ RA k a.len b.len

theorem varLenNew_rel {b b' : List (AV p)} {l l' : AV p} (n : ℕ) (hb : RAs k b b') (hl : RA k l l') :
    Rel k (varLenNew b l n) (varLenNew b' l' n) (RVL k) := by
  unfold varLenNew
  refine (unwrapA_rel hl).bind fun x x' hx => ?_
  refine (assertM_rel fun hk => by rw [hx hk]).bind fun _ _ _ => ?_
  exact (assertM_rel fun hk => by rw [hb.length_eq]).bind fun _ _ _ => Rel.pure ⟨hb, hl⟩

theorem fixLenNew_rel {b b' : List (AV p)} (n : ℕ) (hb : RAs k b b') :
    Rel k (fixLenNew b n) (fixLenNew b' n) (RAs k) := by
  unfold fixLenNew
  exact (assertM_rel fun hk => by rw [hb.length_eq]).bind fun _ _ _ => Rel.pure hb

theorem rawToVarLenBytes_rel (L : ℕ) {b b' : List (AV p)} {l l' : AV p} (n : ℕ) (hb : RAs k b b') (hl : RA k l l') :
    Rel k (rawToVarLenBytes L b l n) (rawToVarLenBytes L b' l' n) (RVL k) := by
  unfold rawToVarLenBytes
  exact (checkLessThanSafe_rel L hl _).bind fun _ _ _ => (assertByteList_rel L hb).bind fun _ _ h =>
    varLenNew_rel n h hl

theorem rawToFixLenBytes_rel (L : ℕ) {b b' : List (AV p)} (n : ℕ) (hb : RAs k b b') :
    Rel k (rawToFixLenBytes L b n) (rawToFixLenBytes L b' n) (RAs k) := by
  unfold rawToFixLenBytes
  exact (assertByteList_rel L hb).bind fun _ _ h => fixLenNew_rel n h

theorem addBytesConstraints_rel (L : ℕ) {l l' : List (AV p)} (h : RAs k l l') (n : ℕ) :
    Rel k (addBytesConstraints L l n) (addBytesConstraints L l' n) (fun _ _ => True) := by
  induction h generalizing n with
  | nil => exact Rel.pure trivial
  | cons h _ ih => exact (rangeCheck_rel L h _).bind fun _ _ _ => ih _

theorem chunksAux_rel {α β : Type} {R : α → β → Prop} (n f : ℕ) {as : List α} {bs : List β}
    (h : List.Forall₂ R as bs) : List.Forall₂ (List.Forall₂ R) (chunksAux n f as) (chunksAux n f bs) := by
  induction f generalizing as bs with
  | zero => exact .nil
  | succ f ih =>
    cases h with
    | nil => exact .nil
    | cons h1 h2 => exact .cons (List.forall₂_take n (.cons h1 h2)) (ih (List.forall₂_drop n (.cons h1 h2)))

theorem sliceToQ_rel {l l' : List (QCell p)} (h : RQs k l l') (n : ℕ) :
    Rel k (sliceTo l n : M p _) (sliceTo l' n) (RQs k) := by
  unfold sliceTo
  exact Rel.ite (by rw [h.length_eq]) (fun _ => Rel.pure (List.forall₂_take n h)) (fun _ => Rel.panic)

theorem packChunks_rel {base base' : List (QCell p)} (hb : RQs k base base') {cs cs' : List (List (AV p))}
    (h : List.Forall₂ (RAs k) cs cs') : Rel k (packChunks base cs) (packChunks base' cs') (RAs k) := by
  induction h with
  | nil => exact Rel.pure .nil
  | @cons c c' _ _ h _ ih =>
    simp only [packChunks]
    rw [h.length_eq]
    exact (sliceToQ_rel hb _).bind fun _ _ h1 => (innerProduct_rel (exist_rel h) h1).bind fun _ _ h2 =>
      ih.bind fun _ _ h3 => Rel.pure (.cons h2 h3)

theorem safeTypeNew_rel (B T : ℕ) {b b' : List (AV p)} (hb : RAs k b b') :
    Rel k (safeTypeNew B T b) (safeTypeNew B T b') (RAs k) := by
  unfold safeTypeNew
  exact (assertM_rel fun hk => by rw [hb.length_eq]).bind fun _ _ _ => Rel.pure hb

theorem packBytes_rel (B T : ℕ) {base base' : List (QCell p)} (hb : RQs k base base') {l l' : List (AV p)}
    (h : RAs k l l') : Rel k (packBytes B T base l) (packBytes B T base' l') (RAs k) := by
  unfold packBytes chunksOf
  rw [h.length_eq]
  exact (packChunks_rel hb (chunksAux_rel _ _ h)).bind fun _ _ h => safeTypeNew_rel B T h

theorem byteBase_rel (is : List ℕ) : Rel k (byteBase is : M p _) (byteBase is) (RQs k) := by
  induction is with
  | nil => exact Rel.pure .nil
  | cons i is ih =>
    unfold byteBase
    refine (pow2At_rel _).bind ?_
    rintro x _ rfl
    exact ih.bind fun _ _ h => Rel.pure (.cons (RV.refl _) h)

theorem rawBytesTo_rel (L B T : ℕ) {l l' : List (AV p)} (h : RAs k l l') :
    Rel k (rawBytesTo L B T l) (rawBytesTo L B T l') (RAs k) := by
  unfold rawBytesTo
  refine (assertM_rel fun _ => rfl).bind fun _ _ _ => ?_
  refine (assertM_rel fun _ => by rw [h.length_eq]).bind fun _ _ _ => ?_
  refine (addBytesConstraints_rel L h _).bind fun _ _ _ => ?_
  refine Rel.ite Iff.rfl (fun _ => safeTypeNew_rel B T h) fun _ => ?_
  exact (byteBase_rel _).bind fun _ _ hb => packBytes_rel B T hb h

theorem padShift_rel {l l' : List (AV p)} (h : RAs k l l') (i j : ℕ) :
    Rel k (padShift l i j) (padShift l' i j) (RQ k) := by
  unfold padShift
  refine Rel.ite Iff.rfl (fun _ => ?_) (fun _ => Rel.pure rfl)
  exact (unwrapO_rel (h.get? _)).bind fun _ _ h => Rel.pure h

theorem padStage_rel {cur cur' : List (AV p)} (h : RAs k cur cur') (i : ℕ) {b b' : AV p} (hb : RA k b b')
    {l l' : List (ℕ × AV p)} (hl : List.Forall₂ (fun x y => x.1 = y.1 ∧ RA k x.2 y.2) l l') :
    Rel k (padStage cur i b l) (padStage cur' i b' l') (RAs k) := by
  induction hl with
  | nil => exact Rel.pure .nil
  | @cons x y _ _ h1 _ ih =>
    obtain ⟨j, a⟩ := x
    obtain ⟨j', a'⟩ := y
    obtain ⟨rfl, h1⟩ : j = j' ∧ RA k a a' := h1
    exact (padShift_rel h i j).bind fun _ _ h2 => (select_rel h2 (RA.q h1) (RA.q hb)).bind fun _ _ h3 =>
      ih.bind fun _ _ h4 => Rel.pure (.cons h3 h4)

theorem padLoop_rel (i : ℕ) {bits bits' cur cur' : List (AV p)} (hb : RAs k bits bits') (h : RAs k cur cur') :
    Rel k (padLoop i bits cur) (padLoop i bits' cur') (RAs k) := by
  induction hb generalizing i cur cur' with
  | nil => exact Rel.pure h
  | cons h1 _ ih =>
    unfold padLoop
    refine (padStage_rel h i h1 ?_).bind fun _ _ h2 => ih _ h2
    rw [h.length_eq]
    exact zip_rel (range_rel _) h

theorem padResize_rel {l l' : List (AV p)} (h : RAs k l l') (n : ℕ) :
    Rel k (padResize l n) (padResize l' n) (RAs k) := by
  unfold padResize
  refine (unwrapO_rel (h.get? 0)).bind fun a b h1 => Rel.pure ?_
  rw [h.length_eq]
  refine List.rel_append (List.forall₂_take n h) ?_
  generalize n - l'.length = m
  induction m with
  | zero => exact .nil
  | succ m ih => exact .cons h1 ih

theorem leftPad_rel {l l' : List (AV p)} {x x' : AV p} (h : RAs k l l') (hx : RA k x x') (n : ℕ) :
    Rel k (leftPad l x n) (leftPad l' x' n) (RAs k) := by
  unfold leftPad
  exact (padResize_rel h n).bind fun _ _ h1 => (sub_rel (RQ.constant_rfl _) (RA.q hx)).bind fun _ _ h2 =>
    (numToBits_rel h2 _).bind fun _ _ h3 => padLoop_rel 0 h3 h1

theorem leftPadToFixed_rel {v v' : VarLenBytes p} (h : RVL k v v') :
    Rel k v.leftPadToFixed v'.leftPadToFixed (RAs k) := by
  unfold VarLenBytes.leftPadToFixed
  rw [h.1.length_eq]
  exact (leftPad_rel h.1 h.2 _).bind fun _ _ h => fixLenNew_rel _ h

theorem maskBytes_rel {l l' : List (AV p × AV p)} (h : List.Forall₂ (RA2 k) l l') :
    Rel k (maskBytes l) (maskBytes l') (RAs k) := by
  induction h with
  | nil => exact Rel.pure .nil
  | @cons x y _ _ h1 _ ih =>
    obtain ⟨a, b⟩ := x
    obtain ⟨a', b'⟩ := y
    exact (mul_rel (RA.q h1.1) (RA.q h1.2)).bind fun _ _ h2 => ih.bind fun _ _ h3 => Rel.pure (.cons h2 h3)

theorem ensure0Padding_rel {l l' : List (AV p)} {x x' : AV p} (h : RAs k l l') (hx : RA k x x') :
    Rel k (ensure0Padding l x) (ensure0Padding l' x') (RAs k) := by
  unfold ensure0Padding
  rw [h.length_eq]
  exact (dec_rel (RA.q hx)).bind fun _ _ h1 => (idxToIndicator_rel (RA.q h1) _).bind fun _ _ ⟨h2, _⟩ =>
    (partialSums_rel (exist_rel (List.rel_reverse h2))).bind fun _ _ h3 =>
      maskBytes_rel (zip_rel h (List.rel_reverse h3))

theorem ensure0_rel {v v' : VarLenBytes p} (h : RVL k v v') : Rel k v.ensure0 v'.ensure0 (RVL k) := by
  unfold VarLenBytes.ensure0
  rw [h.1.length_eq]
  exact (ensure0Padding_rel h.1 h.2).bind fun _ _ h1 => varLenNew_rel _ h1 h.2

end H2
