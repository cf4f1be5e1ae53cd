import Verif.Props.ModesMsm
import Verif.Props.ModesPairing
import Verif.Props.Poseidon
import Verif.Props.SafeTypes
import Verif.Props.Capacity

/-!
# C76: every library routine keeps a thread layable

Laying out a thread into physical columns is sound only for threads whose gates lie inside the thread and do not overlap
(`C29_overlap_at_top_unsound`, C57).  Here: every routine of the library, and every program made of them, only produces such
threads.  Hence the hypotheses about threads in C29, C30 and C57 hold for every circuit built with the library.
-/

set_option autoImplicit false
set_option linter.unusedSectionVars false
namespace H2
variable {p : ℕ}

/-! ## Specification -/

/-- A keygen-mode run of `m` that succeeds takes a layable thread (`Layable`: selector column as long as the advice column,
every gate inside the thread, gates sharing at most an end cell) to a layable thread. -/
def KeepsLayable {α : Type} (m : M p α) : Prop :=
  ∀ s r s', s.wgo = false → Layable s → m s = some (r, s') → Layable s' ∧ s'.wgo = false

/-- The same for routines working on all the threads of a builder. -/
def PKeepsLayable {α : Type} (m : PM p α) : Prop :=
  ∀ S r S', S.wgo = false → (∀ s ∈ S.threads, s.wgo = false ∧ Layable s) → m S = some (r, S') →
    S'.wgo = false ∧ ∀ s ∈ S'.threads, s.wgo = false ∧ Layable s

/-! ## Bridges -/

/-- A prover-mode copy of a context. -/
def Ctx.proverCopy (s : Ctx p) : Ctx p :=
  { (Ctx.new true s.phase s.typeId s.ctxId [] [] : Ctx p) with
    advice := s.advice, zeroCell := s.zeroCell.map AV.prover, lookups := s.lookups.map AV.prover }

theorem proverCopy_of {s : Ctx p} (h : s.wgo = false) : ProverOf s s.proverCopy := ⟨h, rfl, rfl, rfl, rfl, rfl, rfl⟩

theorem Rel.keeps {α β : Type} {m : M p α} {m' : M p β} {Q : α → β → Prop} (h : Rel true m m' Q) : KeepsLayable m := by
  intro s r s' hw hs hr
  obtain ⟨a, b⟩ := h s _ (proverCopy_of hw).rs r s' hr
  obtain ⟨c, r', t', h'⟩ := a rfl
  exact ⟨c trivial hs, (b r' t' h').1.wl⟩

theorem PRel.keeps [Fact p.Prime] {α β : Type} {m : PM p α} {m' : PM p β} {Q : α → β → Prop} (h : PRel true m m' Q) :
    PKeepsLayable m := by
  intro S r S' hw hs hr
  have h0 : PRS true S { S with wgo := true, threads := S.threads.map Ctx.proverCopy } := by
    refine ⟨hw, rfl, rfl, rfl, ?_, fun _ t ht => ?_⟩
    · have : ∀ l : List (Ctx p), (∀ s ∈ l, s.wgo = false) → List.Forall₂ (RS true) l (l.map Ctx.proverCopy) := by
        intro l
        induction l with
        | nil => intro _; exact .nil
        | cons a l ih => intro h; exact .cons (proverCopy_of (h a (by simp))).rs (ih fun s hs => h s (by simp [hs]))
      exact this _ fun s h => (hs s h).1
    · obtain ⟨s, -, rfl⟩ := List.mem_map.1 ht
      exact ⟨rfl, rfl, rfl⟩
  obtain ⟨a, b⟩ := h S _ h0 r S' hr
  obtain ⟨c, r', T', h'⟩ := a rfl
  have hc := c fun s h => (hs s h).2
  obtain ⟨d, -⟩ := b r' T' h'
  refine ⟨d.wl, fun s h => ⟨?_, hc s h⟩⟩
  have : ∀ (l l' : List (Ctx p)), List.Forall₂ (RS true) l l' → ∀ s ∈ l, s.wgo = false := by
    intro l l' h
    induction h with
    | nil => simp
    | cons h _ ih =>
      intro s hs
      rcases List.mem_cons.1 hs with rfl | hs
      · exact h.wl
      · exact ih s hs
  exact this _ _ d.threads s h

/-! ## Programs -/

theorem KeepsLayable.pure {α : Type} (a : α) : KeepsLayable (pure a : M p α) := by
  intro s r s' hw hs h
  simp only [pure_apply, Option.some.injEq, Prod.mk.injEq] at h
  obtain ⟨-, rfl⟩ := h
  exact ⟨hs, hw⟩

theorem KeepsLayable.unwrap {α : Type} (o : Option α) : KeepsLayable (unwrap o : M p α) := by
  intro s r s' hw hs h
  cases o with
  | none => simp [H2.unwrap] at h
  | some x =>
    simp only [H2.unwrap, Option.map_some, Option.some.injEq, Prod.mk.injEq] at h
    obtain ⟨-, rfl⟩ := h
    exact ⟨hs, hw⟩

theorem KeepsLayable.bind {α β : Type} {m : M p α} {f : α → M p β} (hm : KeepsLayable m) (hf : ∀ x, KeepsLayable (f x)) :
    KeepsLayable (m >>= f) := by
  intro s r s' hw hs h
  obtain ⟨x, s1, h1, h2⟩ := bind_some.1 h
  obtain ⟨a, b⟩ := hm s x s1 hw hs h1
  exact hf x s1 r s' b a h2

/-- C76 for programs: doing nothing, stopping and running one program after another keep threads layable; so whatever is
composed of the routines below does. -/
theorem C76_program {α β : Type} (a : α) (o : Option α) (m : M p α) (f : α → M p β) (hm : KeepsLayable m)
    (hf : ∀ x, KeepsLayable (f x)) :
    KeepsLayable (pure a : M p α) ∧ KeepsLayable (unwrap o : M p α) ∧ KeepsLayable (m >>= f) :=
  ⟨.pure a, .unwrap o, hm.bind hf⟩

/-- The threads of a new builder are layable. -/
theorem C76_new (phase : ℕ) (t : String) (i : ℕ) : Layable (Ctx.new false phase t i [] [] : Ctx p) ∧
    (Ctx.new false phase t i [] [] : Ctx p).wgo = false := ⟨layable_new .., rfl⟩

variable [Fact p.Prime]

private theorem ra2s_prover (l : List (AV p × AV p)) :
    List.Forall₂ (RA2 true) l (l.map fun c => (c.1.prover, c.2.prover)) := by
  induction l with
  | nil => exact .nil
  | cons a l ih => exact .cons ⟨ra_prover _, ra_prover _⟩ ih

private theorem rt_prover (l : List (ZMod p × QCell p × QCell p)) :
    List.Forall₂ (RT true) l (l.map fun c => (c.1, c.2.1.prover, c.2.2.prover)) := by
  induction l with
  | nil => exact .nil
  | cons a l ih => exact .cons ⟨rfl, rq_prover _, rq_prover _⟩ ih

private theorem rass_prover (l : List (List (AV p))) :
    List.Forall₂ (RAs true) l (l.map (List.map AV.prover)) := by
  induction l with
  | nil => exact .nil
  | cons a l ih => exact .cons (ras_prover _) ih

private theorem rv21 {α β : Type} (v : α × β) : RV2 true v v := ⟨fun _ => rfl, fun _ => rfl⟩

/-- C76 for the `Context` operations; `assign_region` for gate offsets that fit the region (`GOk`: from the cell before the region on, ending inside it, three apart). -/
theorem C76_context (qs : List (QCell p)) (gs : List ℤ) (eo : List (ℕ × ℕ))
    (ex : List (Cell × ℕ)) (a b : AV p) (x : ZMod p) (xs : List (ZMod p)) (o : ℤ)
    (hg : GOk qs.length gs) :
    KeepsLayable (assignRegion qs gs) ∧
    KeepsLayable (assignRegionLast qs gs) ∧
    KeepsLayable (assignRegionSmart qs gs eo ex) ∧
    KeepsLayable (constrainEqual a b) ∧
    KeepsLayable (getM o : M p _) ∧
    KeepsLayable (loadWitness x) ∧
    KeepsLayable (loadConstant x) ∧
    KeepsLayable (loadConstants xs) ∧
    KeepsLayable (loadZero : M p _) ∧
    KeepsLayable (assertIsConst a x) :=
  ⟨(assignRegion_rel (rqs_prover qs) (fun _ => rfl) fun _ _ => hg).keeps,
    (assignRegionLast_rel (rqs_prover qs) (fun _ => rfl) (fun _ _ => hg)).keeps,
    (assignRegionSmart_rel (rqs_prover qs) gs eo ex (fun _ _ => hg)).keeps,
    (constrainEqual_rel (ra_prover a) (ra_prover b)).keeps, (getM_rel o).keeps,
    (loadWitness_rel (RV.refl x)).keeps, (loadConstant_rel x).keeps,
    (loadConstants_rel xs).keeps, loadZero_rel.keeps,
    (assertIsConst_rel (ra_prover a) x).keeps⟩

/-- C76 for the gate routines with a fixed number of inputs. -/
theorem C76_gate_arith (a b c : QCell p) (x : AV p) :
    KeepsLayable (add a b) ∧
    KeepsLayable (inc a) ∧
    KeepsLayable (sub a b) ∧
    KeepsLayable (dec a) ∧
    KeepsLayable (subMul a b c) ∧
    KeepsLayable (neg a) ∧
    KeepsLayable (mul a b) ∧
    KeepsLayable (mulAdd a b c) ∧
    KeepsLayable (mulNot a b) ∧
    KeepsLayable (assertBit x) ∧
    KeepsLayable (divUnsafe a b) ∧
    KeepsLayable (or a b) ∧
    KeepsLayable (and a b) ∧
    KeepsLayable (xor a b) ∧
    KeepsLayable (not a) ∧
    KeepsLayable (select a b c) ∧
    KeepsLayable (orAnd a b c) ∧
    KeepsLayable (isZero x) ∧
    KeepsLayable (isEqual a b) := by
  have ha := rq_prover a
  have hb := rq_prover b
  have hc := rq_prover c
  have hx := ra_prover x
  exact ⟨(add_rel ha hb).keeps, (inc_rel ha).keeps, (sub_rel ha hb).keeps,
    (dec_rel ha).keeps, (subMul_rel ha hb hc).keeps, (neg_rel ha).keeps,
    (mul_rel ha hb).keeps, (mulAdd_rel ha hb hc).keeps, (mulNot_rel ha hb).keeps,
    (assertBit_rel hx).keeps, (divUnsafe_rel ha hb).keeps, (or_rel ha hb).keeps,
    (and_rel ha hb).keeps, (xor_rel ha hb).keeps, (not_rel ha).keeps,
    (select_rel ha hb hc).keeps, (orAnd_rel ha hb hc).keeps, (isZero_rel hx).keeps,
    (isEqual_rel ha hb).keeps⟩

/-- C76 for the gate routines over lists; `select_by_indicator` and `select_array_by_indicator` for as many values as indicator bits (see `C76_select_dangling`). -/
theorem C76_gate_lists (as bs : List (QCell p)) (xs ys : List (AV p)) (xss : List (List (AV p)))
    (vs : List (ZMod p × QCell p × QCell p)) (cs : List (AV p × AV p)) (q : QCell p) (x e : AV p) (n : ℕ) :
    KeepsLayable (sum as) ∧
    KeepsLayable (partialSums as) ∧
    KeepsLayable (accumulatedProduct as bs) ∧
    KeepsLayable (innerProduct as bs) ∧
    KeepsLayable (innerProductLeftLast as bs) ∧
    KeepsLayable (innerProductLeft as bs) ∧
    KeepsLayable (innerProductWithSums as bs) ∧
    KeepsLayable (sumProductsWithCoeffAndVar vs q) ∧
    KeepsLayable (bitsToIndicator xs) ∧
    KeepsLayable (idxToIndicator q n) ∧
    (as.length = ys.length → KeepsLayable (selectByIndicator as ys)) ∧
    KeepsLayable (selectFromIdx as q) ∧
    (xss.length = ys.length → KeepsLayable (selectArrayByIndicator xss ys)) ∧
    KeepsLayable (numToBits x n) ∧
    KeepsLayable (bitsToNum xs) ∧
    KeepsLayable (powVar x e n) ∧
    KeepsLayable (lagrangeAndEval cs x) := by
  have ha := rqs_prover as
  have hb := rqs_prover bs
  have hx := ras_prover xs
  have hy := ras_prover ys
  have hq := rq_prover q
  have hx0 := ra_prover x
  exact ⟨(sum_rel ha).keeps, (partialSums_rel ha).keeps, (accumulatedProduct_rel ha hb).keeps,
    (innerProduct_rel ha hb).keeps, (innerProductLeftLast_rel ha hb).keeps,
    (innerProductLeft_rel ha hb).keeps,
    (innerProductWithSums_rel ha hb).keeps,
    (sumProductsWithCoeffAndVar_rel (rt_prover vs) hq).keeps, (bitsToIndicator_rel hx).keeps,
    (idxToIndicator_rel hq n).keeps, fun h => (selectByIndicator_rel ha hy fun _ _ => h).keeps,
    (selectFromIdx_rel ha hq).keeps, fun h => (selectArrayByIndicator_rel (rass_prover xss) hy fun _ _ => h).keeps,
    (numToBits_rel hx0 n).keeps, (bitsToNum_rel hx).keeps,
    (powVar_rel hx0 (ra_prover e) n).keeps,
    (lagrangeAndEval_rel (ra2s_prover cs) hx0).keeps⟩

/-- C76 for the range chip. -/
theorem C76_range (L : ℕ) (a b : QCell p) (x : AV p) (xs : List (AV p)) (n m : ℕ) :
    KeepsLayable (rangeCheck L x n) ∧
    KeepsLayable (checkLessThan L a b n) ∧
    KeepsLayable (checkLessThanSafe L x n) ∧
    KeepsLayable (checkBigLessThanSafe L x n) ∧
    KeepsLayable (isLessThan L a b n) ∧
    KeepsLayable (isLessThanSafe L x n) ∧
    KeepsLayable (isBigLessThanSafe L x n) ∧
    KeepsLayable (divMod L a n m) ∧
    KeepsLayable (divModVar L a b n m) ∧
    KeepsLayable (getLastBit L x n) ∧
    KeepsLayable (decomposeLe L x n m) ∧
    KeepsLayable (limbsToNum xs n) ∧
    KeepsLayable (constRightRotate L x n m) ∧
    KeepsLayable (constLeftRotate L x n m) := by
  have ha := rq_prover a
  have hb := rq_prover b
  have hx := ra_prover x
  exact ⟨(rangeCheck_rel L hx n).keeps, (checkLessThan_rel L ha hb n).keeps,
    (checkLessThanSafe_rel L hx n).keeps, (checkBigLessThanSafe_rel L hx n).keeps,
    (isLessThan_rel L ha hb n).keeps, (isLessThanSafe_rel L hx n).keeps,
    (isBigLessThanSafe_rel L hx n).keeps, (divMod_rel L ha n m).keeps,
    (divModVar_rel L ha hb n m).keeps, (getLastBit_rel L hx n).keeps,
    (decomposeLe_rel L hx n m).keeps, (limbsToNum_rel (ras_prover xs) n).keeps,
    (constRightRotate_rel L hx n m).keeps, (constLeftRotate_rel L hx n m).keeps⟩

/-- C76 for the safe types. -/
theorem C76_safe_types (L B T n : ℕ) (a : AV p) (l : List (AV p)) (b : Bool) (x : ℕ) :
    KeepsLayable (assertBool a) ∧
    KeepsLayable (loadBool b : M p _) ∧
    KeepsLayable (assertByte L a) ∧
    KeepsLayable (loadByte L x : M p _) ∧
    KeepsLayable (rawToFixLenBytes L l n) ∧
    KeepsLayable (rawToVarLenBytes L l a n) ∧
    KeepsLayable (rawBytesTo L B T l) ∧
    KeepsLayable (leftPad l a n) ∧
    KeepsLayable (ensure0Padding l a) := by
  exact ⟨(assertBool_rel (ra_prover a)).keeps, (loadBool_rel (RV.refl b)).keeps,
    (assertByte_rel L (ra_prover a)).keeps, (loadByte_rel L (RV.refl x)).keeps,
    (rawToFixLenBytes_rel L n (ras_prover l)).keeps,
    (rawToVarLenBytes_rel L n (ras_prover l) (ra_prover a)).keeps,
    (rawBytesTo_rel L B T (ras_prover l)).keeps, (leftPad_rel (ras_prover l) (ra_prover a) n).keeps,
    (ensure0Padding_rel (ras_prover l) (ra_prover a)).keeps⟩

/-- C76 for Poseidon. -/
theorem C76_poseidon (sp : PSpec p) (T R L : ℕ) (h : Hasher p) (st l : List (AV p)) (a : AV p)
    (rows : List (CompactInput p)) (crows : List (ChunkInput p)) :
    KeepsLayable (permutation sp R st l none) ∧
    KeepsLayable (permutation sp R st l (some a)) ∧
    KeepsLayable (Hasher.init sp T R) ∧
    KeepsLayable (h.hashFixLen R l) ∧
    KeepsLayable (h.hashVarLen L R l a) ∧ KeepsLayable (h.hashCompact R rows) ∧ KeepsLayable (h.hashChunks R crows) := by
  have hh : RHasher true h h.prover := ⟨rfl, ras_prover _, ra_prover _⟩
  exact ⟨(permutation_rel sp R (ras_prover st) (ras_prover l) .none).keeps,
    (permutation_rel sp R (ras_prover st) (ras_prover l) (.some (ra_prover a))).keeps,
    (Hasher.init_rel sp T R).keeps, (Hasher.hashFixLen_rel hh R (ras_prover l)).keeps,
    (Hasher.hashVarLen_rel L hh R (ras_prover l) (ra_prover a)).keeps,
    (Hasher.hashCompact_rel hh R (cs' := rows.map fun c => ⟨c.inputs.map AV.prover, c.isFinal.prover, c.len.prover⟩) (by
      induction rows with
      | nil => exact .nil
      | cons c l ih => exact .cons ⟨ras_prover _, ra_prover _, ra_prover _⟩ ih)).keeps,
    (Hasher.hashChunks_rel hh R (cs' := crows.map fun c => ⟨c.inputs.map (List.map AV.prover), c.isFinal.prover⟩) (by
      induction crows with
      | nil => exact .nil
      | cons c l ih => exact .cons ⟨rass_prover _, ra_prover _⟩ ih)).keeps⟩

section
variable {F : FieldOps p} (M : Modes F)

include M in
/-- C76 for the field chips. -/
theorem C76_field (a b : F.U) (x y : F.P) (s : AV p) (xs : List F.P) (is : List (AV p)) (w : F.V) (z : ℤ) (n : ℕ) :
    KeepsLayable (F.loadPrivate w) ∧
    KeepsLayable (F.loadPrivateReduced w) ∧
    KeepsLayable (F.loadConstant w) ∧
    KeepsLayable (F.addNoCarry a b) ∧
    KeepsLayable (F.addConstantNoCarry a w) ∧
    KeepsLayable (F.subNoCarry a b) ∧
    KeepsLayable (F.negate x) ∧
    KeepsLayable (F.scalarMulNoCarry a z) ∧
    KeepsLayable (F.scalarMulAddNoCarry a b z) ∧
    KeepsLayable (F.mulNoCarry a b) ∧
    KeepsLayable (F.checkCarryModToZero a) ∧
    KeepsLayable (F.carryMod a) ∧
    KeepsLayable (F.rangeCheck x n) ∧
    KeepsLayable (F.enforceLessThan x) ∧
    KeepsLayable (F.isSoftZero x) ∧
    KeepsLayable (F.isSoftNonzero x) ∧
    KeepsLayable (F.isZero x) ∧
    KeepsLayable (F.isEqualUnenforced x y) ∧
    KeepsLayable (F.isEqual x y) ∧
    KeepsLayable (F.assertEqual x y) ∧
    KeepsLayable (F.select x y s) ∧
    (xs.length = is.length → KeepsLayable (F.selectByIndicator xs is)) ∧
    KeepsLayable (F.mul a b) ∧
    KeepsLayable (F.divideUnsafe a b) ∧
    KeepsLayable (F.divide x y) ∧
    KeepsLayable (F.negDivideUnsafe a b) ∧
    KeepsLayable (F.negDivide x y) := by
  have ha := (M.hU1 a _).2 rfl
  have hb := (M.hU1 b _).2 rfl
  have hx := (M.hP1 x _).2 rfl
  have hy := (M.hP1 y _).2 rfl
  have hs := ra_prover s
  have his := ras_prover is
  have hxs := (forall₂_fun M.hP1 xs _).2 rfl
  have hv : RV true w w := fun _ => rfl
  exact ⟨(M.r1.loadPrivate hv).keeps, (M.r1.loadPrivateReduced hv).keeps,
    (M.r1.loadConstant w).keeps, (M.r1.addNoCarry ha hb).keeps, (M.r1.addConstantNoCarry w ha).keeps,
    (M.r1.subNoCarry ha hb).keeps, (M.r1.negate hx).keeps, (M.r1.scalarMulNoCarry z ha).keeps,
    (M.r1.scalarMulAddNoCarry z ha hb).keeps, (M.r1.mulNoCarry ha hb).keeps,
    (M.r1.checkCarryModToZero ha).keeps, (M.r1.carryMod ha).keeps, (M.r1.rangeCheck n hx).keeps,
    (M.r1.enforceLessThan hx).keeps, (M.r1.isSoftZero hx).keeps, (M.r1.isSoftNonzero hx).keeps,
    (M.r1.isZero hx).keeps, (M.r1.isEqualUnenforced hx hy).keeps, (M.r1.isEqual hx hy).keeps,
    (M.r1.assertEqual hx hy).keeps, (M.r1.select hx hy hs).keeps, fun h => (M.r1.selectByIndicator hxs his fun _ _ => h).keeps,
    (M.r1.mul ha hb).keeps, (M.r1.divideUnsafe ha hb).keeps, (M.r1.divide hx hy).keeps,
    (M.r1.negDivideUnsafe ha hb).keeps, (M.r1.negDivide hx hy).keeps⟩

include M in
/-- C76 for the curve chip. -/
theorem C76_ecc (P Q : EcPt F) (A B : CmpPt F) (s : AV p) (l : List (EcPt F)) (is bs : List (AV p))
    (ss : List (List (AV p))) (C : NativeCurve F) (g : C.G) (v : F.V × F.V) (b : F.V) (r : MsmRand F) (st : Bool) (m wd : ℕ) :
    KeepsLayable (ecAddUnequal F A B st) ∧
    KeepsLayable (ecSubUnequal F A B st) ∧
    KeepsLayable (ecSubStrict F v P Q) ∧
    KeepsLayable (ecDouble F P) ∧
    KeepsLayable (ecDoubleAndAddUnequal F A B st) ∧
    KeepsLayable (ecNegate F P) ∧
    KeepsLayable (ecSelect F P Q s) ∧
    (l.length = is.length → KeepsLayable (ecSelectByIndicator F l is)) ∧
    KeepsLayable (ecSelectFromBits F l bs) ∧
    KeepsLayable (ecIsEqual F P Q) ∧
    KeepsLayable (ecAssertEqual F P Q) ∧
    KeepsLayable (checkIsOnCurve F b P) ∧
    KeepsLayable (isOnCurveOrInfinity F b P) ∧
    KeepsLayable (loadPrivateUnchecked F v) ∧
    KeepsLayable (loadPoint F b v) ∧
    KeepsLayable (assignPoint F b v) ∧
    KeepsLayable (assignConstantPoint F v) ∧
    KeepsLayable (ecSum F b v l) ∧
    KeepsLayable (scalarMultiply F b r P bs m wd) ∧
    KeepsLayable (multiScalarMultiply F b r l ss m wd) ∧
    KeepsLayable (fixedScalarMultiply F C b r g bs m wd) := by
  have hP := (M.ec1 P _).2 rfl
  have hQ := (M.ec1 Q _).2 rfl
  have hA := M.cm1 A
  have hB := M.cm1 B
  have hs := ra_prover s
  have hl := (forall₂_fun M.ec1 l _).2 rfl
  have his := ras_prover is
  have hbs := ras_prover bs
  have hss : List.Forall₂ (RAs true) ss (ss.map (List.map .prover)) :=
    (forall₂_fun (fun a b => ⟨fun h => RAs.toProver h, by rintro rfl; exact ras_prover a⟩) ss _).2 rfl
  have hv : RV2 true v v := rv21 v
  have hr : RRand true r r := ⟨rv21 _, rv21 _⟩
  exact ⟨(ecAddUnequal_rel M.r1 hA hB st).keeps, (ecSubUnequal_rel M.r1 hA hB st).keeps,
    (ecSubStrict_rel M.r1 hv hP hQ).keeps, (ecDouble_rel M.r1 hP).keeps,
    (ecDoubleAndAddUnequal_rel M.r1 hA hB st).keeps, (ecNegate_rel M.r1 hP).keeps,
    (ecSelect_rel M.r1 hP hQ hs).keeps, fun h => (ecSelectByIndicator_rel M.r1 hl his fun _ _ => h).keeps,
    (ecSelectFromBits_rel M.r1 hl hbs).keeps, (ecIsEqual_rel M.r1 hP hQ).keeps,
    (ecAssertEqual_rel M.r1 hP hQ).keeps, (checkIsOnCurve_rel M.r1 b hP).keeps,
    (isOnCurveOrInfinity_rel M.r1 b hP).keeps, (loadPrivateUnchecked_rel M.r1 hv).keeps,
    (loadPoint_rel M.r1 b hv).keeps, (assignPoint_rel M.r1 b hv).keeps,
    (assignConstantPoint_rel M.r1 v).keeps, (ecSum_rel M.r1 b hv hl).keeps,
    (scalarMultiply_rel M.r1 b hr hP hbs m wd).keeps, (multiScalarMultiply_rel M.r1 b hr hl hss m wd).keeps,
    (fixedScalarMultiply_rel M.r1 C b hr g hbs m wd).keeps⟩

include M in
/-- C76 for the parallel multi-scalar multiplications: all threads of the builder are and remain layable. -/
theorem C76_msm_par (l : List (EcPt F)) (ss : List (List (AV p))) (C : NativeCurve F) (gs : List C.G) (b : F.V)
    (r : MsmRand F) (fr : FbRand F) (m wd : ℕ) :
    PKeepsLayable (variableBaseMsm F b r l ss m wd) ∧
    PKeepsLayable (multiExpPar F b r l ss m wd) ∧
    PKeepsLayable (fixedMsmPar F C b fr gs ss m wd) := by
  have hl := (forall₂_fun M.ec1 l _).2 rfl
  have hss : List.Forall₂ (RAs true) ss (ss.map (List.map .prover)) :=
    (forall₂_fun (fun a b => ⟨fun h => RAs.toProver h, by rintro rfl; exact ras_prover a⟩) ss _).2 rfl
  have hr : RRand true r r := ⟨rv21 _, rv21 _⟩
  have hf : RFb true fr fr := ⟨rv21 _, rv21 _, rv21 _⟩
  exact ⟨(variableBaseMsm_rel M.r1 b hr hl hss m wd).keeps, (multiExpPar_rel M.r1 b hr hl hss m wd).keeps,
    (fixedMsmPar_rel M.r1 C b hf gs hss m wd).keeps⟩

end

/-- C76 for signature verification. -/
theorem C76_sig (c : FpChip p) (N : ℕ) (C : NativeCurve c.ops) (b : c.ops.V) (gen : C.G) (v : SigRand c)
    (P : EcPt c.ops) (r s z : CrtInt p) (vw fw : ℕ) :
    KeepsLayable (ecdsaVerify c N C b gen v P r s z vw fw) ∧
    KeepsLayable (schnorrVerify c N C b gen v P r s z vw fw) := by
  have hP : REc (c.fieldRel true) P (c.modes.provPt P) := (c.modes.ec1 _ _).2 rfl
  have hv : RSig c true v v := ⟨⟨rv21 _, rv21 _⟩, ⟨rv21 _, rv21 _⟩, rv21 _⟩
  exact ⟨(ecdsaVerify_rel c N C b gen hv hP (rc_prover.2 rfl) (rc_prover.2 rfl) (rc_prover.2 rfl) vw fw).keeps,
    (schnorrVerify_rel c N C b gen hv hP (rc_prover.2 rfl) (rc_prover.2 rfl) (rc_prover.2 rfl) vw fw).keeps⟩

namespace PairCfg
variable {C : PairCfg p} (D : C.Deg)

private theorem rvs1 {α : Type} (l : List (α × α)) : List.Forall₂ (RV2 true) l l :=
  List.forall₂_same.2 fun _ _ => ⟨fun _ => rfl, fun _ => rfl⟩

include D in
/-- C76 for the pairing chip and BLS verification. -/
theorem C76_pairing (a : List (CrtInt p)) (Q T : EcPt C.F2) (P S : EcPt C.F) (l : List (EcPt C.F × EcPt C.F2)) (n : ℕ)
    (e : List ℕ) (enc : List ℤ) (x : C.BlsArgs) :
    KeepsLayable (C.frobeniusMap a n) ∧
    KeepsLayable (C.pow a e) ∧
    KeepsLayable (C.cycPow a e) ∧
    KeepsLayable (C.finalExp a) ∧
    KeepsLayable (C.mulLineUnequal a Q T P) ∧
    KeepsLayable (C.mulLineEqual a Q P) ∧
    KeepsLayable (C.millerLoop Q P enc) ∧
    KeepsLayable (C.multiMillerLoop l enc) ∧
    KeepsLayable (C.pairing Q P) ∧
    KeepsLayable (C.pairingCheck Q P T S) ∧ KeepsLayable (C.blsVerify x) := by
  have ha := rl1.2 (rfl : prov a = prov a)
  have hQ := g21 D Q
  have hT := g21 D T
  have hP := g11 P
  have hS := g11 S
  have hl : List.Forall₂ (RPr D true) l (l.map fun x => (prov1 x.1, prov2 x.2)) := by
    induction l with
    | nil => exact .nil
    | cons x l ih => exact .cons ⟨g11 _, g21 D _⟩ ih
  exact ⟨(frobeniusMap_rel D ha n).keeps, (pow_rel D ha e).keeps, (cycPow_rel D ha e).keeps,
    (finalExp_rel D ha).keeps, (mulLineUnequal_rel D ha hQ hT hP).keeps, (mulLineEqual_rel D ha hQ hP).keeps,
    (millerLoop_rel D hQ hP enc).keeps, (multiMillerLoop_rel D hl enc).keeps, (pairing_rel D hQ hP).keeps,
    (pairingCheck_rel D hQ hP hT hS).keeps,
    (blsVerify_rel D ⟨rfl, rfl, rv21 _, rv21 _, rv21 _, rvs1 _, rvs1 _, rv21 _⟩).keeps⟩

end PairCfg

/-! ## What layable threads give -/

section
open Phys
omit [Fact p.Prime]

/-- Layable threads meet the hypotheses of C29, C30 and C57. -/
theorem Layable.wf {s : Ctx p} (h : Layable s) : WFThread s ∧ NonOverlap s ∧ s.selector.length = s.advice.length := by
  refine ⟨⟨h.inside, fun ⟨h0, h1⟩ => ?_⟩, fun i hi => ⟨fun h1 => ?_, fun h2 => ?_⟩, h.len⟩
  · have := h.apart 0 1 h0 h1 (by omega); omega
  · have := h.apart i (i + 1) hi h1 (by omega); omega
  · have := h.apart i (i + 2) hi h2 (by omega); omega

/-- C76: the circuit of a program, end to end.  Run any program that keeps threads layable on a new keygen-mode builder, merge
what its threads queued in any order and lay it out: every assignment that satisfies the physical circuit satisfies, read
through the layout, everything each thread recorded. -/
theorem C76_circuit_sound [Fact p.Prime] {α : Type} {m : PM p α} (hm : PKeepsLayable m) {phase : ℕ} {typeId : String} {r : α}
    {S : Pool p} (hrun : m ⟨false, phase, typeId, []⟩ = some (r, S)) {cfg : Cfg} {eqs : List (Cell × Cell)}
    {consts : List (ZMod p × Cell)} {queued : List (Tag × List (AV p))} {instances : List (List (AV p))} {ext : CellMap}
    {reg : Region p} {map : CellMap} {bps : List ℕ}
    (heqs : Merge (S.threads.map (·.eqs)) eqs) (hconsts : Merge (S.threads.map (·.consts)) consts)
    (hqueued : Merge (S.threads.map lookupLog) queued)
    (h : synthesize cfg S.threads eqs consts (addLookups [] queued) instances ext = some (reg, map, bps))
    (hmx : 4 ≤ cfg.maxRows) (hwr : cfg.withRange = true ∨ queued = [])
    {tbl : List (ZMod p) → Prop} {v : PCell → ZMod p} (hv : Phys.PSat cfg tbl 1 reg v) :
    H2.PSat (fun x => tbl [x]) S (vw map v) := by
  have hl := (hm _ r S rfl (by simp) hrun).2
  exact C29_threads_sat heqs hconsts hqueued h hmx (fun s hs => (hl s hs).2.wf.1) hwr hv

/-- C76: the layout of such a program succeeds as soon as there are enough columns. -/
theorem C76_columns_suffice [Fact p.Prime] {α : Type} {m : PM p α} (hm : PKeepsLayable m) {phase : ℕ} {typeId : String} {r : α}
    {S : Pool p} (hrun : m ⟨false, phase, typeId, []⟩ = some (r, S)) {maxRows ncols : ℕ} {reg : Region p} (hmx : 4 ≤ maxRows)
    (hcols : (totalAdvice S.threads - 1) / (maxRows - 3) < ncols) (htag : (S.threads.map Ctx.tag).Nodup) :
    ∃ st, assignWithConstraints maxRows ncols S.threads reg (fun _ => none) = some st := by
  have hl := (hm _ r S rfl (by simp) hrun).2
  exact C57_columns_suffice hmx hcols (fun s hs => (hl s hs).2.wf.2.1) (fun s hs => (hl s hs).2.len) htag
end

/-! ## Programs over a builder -/

theorem PKeepsLayable.onMain {α : Type} {m : M p α} (hm : KeepsLayable m) : PKeepsLayable (onMain m) := by
  intro S r S' hw hs h
  unfold H2.onMain at h
  split at h
  · obtain ⟨⟨r', s'⟩, h1, e⟩ := Option.map_eq_some_iff.1 h
    obtain ⟨rfl, rfl⟩ := by simpa using e
    rw [hw] at h1
    obtain ⟨a, b⟩ := hm _ _ _ rfl (layable_new ..) h1
    exact ⟨hw, by simpa using ⟨b, a⟩⟩
  · rename_i s hl
    obtain ⟨⟨r', s'⟩, h1, e⟩ := Option.map_eq_some_iff.1 h
    obtain ⟨rfl, rfl⟩ := by simpa using e
    have hmem := List.mem_of_getLast? hl
    obtain ⟨a, b⟩ := hm _ _ _ (hs s hmem).1 (hs s hmem).2 h1
    refine ⟨hw, fun t ht => ?_⟩
    simp only [List.mem_append, List.mem_singleton] at ht
    rcases ht with ht | rfl
    · exact hs t (List.mem_of_mem_dropLast ht)
    · exact ⟨b, a⟩

theorem PKeepsLayable.parallelize {α T : Type} (input : List T) {f : T → M p α} (hf : ∀ x, KeepsLayable (f x)) :
    PKeepsLayable (parallelize input f) := by
  intro S r S' hw hs h
  obtain ⟨⟨r', ts⟩, h1, e⟩ := Option.map_eq_some_iff.1 h
  obtain ⟨rfl, rfl⟩ := by simpa using e
  simp only [Phys.parallelizeCore, Option.bind_eq_bind, Option.bind_eq_some_iff, Option.pure_def, Option.some.injEq,
    Prod.mk.injEq] at h1
  obtain ⟨⟨rs, ss⟩, h2, rfl, rfl⟩ := h1
  obtain ⟨-, hlen, k⟩ := Phys.parLoop_spec input h2
  refine ⟨hw, fun t ht => ?_⟩
  rcases List.mem_append.1 ht with ht | ht
  · exact hs t ht
  · obtain ⟨i, hi⟩ := List.getElem?_of_mem ht
    have hi' : i < input.length := by rw [← hlen]; exact (List.getElem?_eq_some_iff.1 hi).1
    obtain ⟨r1, s1, -, e1, e2⟩ := k i input[i] (List.getElem?_eq_getElem hi')
    rw [hi] at e1
    obtain rfl := Option.some.inj e1
    rw [hw] at e2
    obtain ⟨a, b⟩ := hf _ _ _ _ rfl (layable_new ..) e2
    exact ⟨b, a⟩

theorem PKeepsLayable.bind {α β : Type} {P : PM p α} {g : α → PM p β} (hP : PKeepsLayable P) (hg : ∀ x, PKeepsLayable (g x)) :
    PKeepsLayable (P >>= g) := by
  intro S r S' hw hs h
  obtain ⟨x, S1, h1, h2⟩ := pbind_some.1 h
  obtain ⟨a, b⟩ := hP S x S1 hw hs h1
  exact hg x S1 r S' a b h2

theorem PKeepsLayable.pure {α : Type} (a : α) : PKeepsLayable (pure a : PM p α) := by
  intro S r S' hw hs h
  have h : some (a, S) = some (r, S') := h
  obtain ⟨rfl, rfl⟩ := by simpa using h
  exact ⟨hw, hs⟩

/-- C76 for builder programs: a routine on the main context, tasks run in parallel, each in a context of its own, and one
program after another. -/
theorem C76_pool_program {α β T : Type} (m : M p α) (hm : KeepsLayable m) (input : List T) (f : T → M p α)
    (hf : ∀ x, KeepsLayable (f x)) (P : PM p α) (hP : PKeepsLayable P) (g : α → PM p β) (hg : ∀ x, PKeepsLayable (g x)) (a : α) :
    PKeepsLayable (onMain m) ∧ PKeepsLayable (parallelize input f) ∧ PKeepsLayable (P >>= g) ∧
    PKeepsLayable (pure a : PM p α) :=
  ⟨.onMain hm, .parallelize input hf, hP.bind hg, .pure a⟩

/-! ## Finding: an indicator shorter than the list of values -/

/-- `select_by_indicator` of two values with a one-bit indicator, followed by three unrelated witnesses. -/
def danglingProg : M 101 Unit := do
  let i ← loadWitness 1
  let _ ← selectByIndicator [.witness 5, .witness 6] [i]
  let _ ← loadWitness 7
  let _ ← loadWitness 7
  let _ ← loadWitness 7

/-- Finding 36: `select_by_indicator` sizes the region by the shorter of its two lists but enables one gate for every value
(mod.rs:748-757), so with one indicator bit too few it succeeds and leaves a gate enabled on the last cell of its region.  The
thread it leaves is not layable; and the gate ties the selected value to the next three cells, whatever they are: here three
unrelated witnesses `7`, which make the circuit unsatisfiable for the honest prover. -/
theorem C76_select_dangling :
    (∃ r s', (do let i ← loadWitness 1; selectByIndicator [.witness 5, .witness 6] [i] : M 101 _) (Ctx.new false 0 "t" 0 [] []) =
      some (r, s') ∧ ¬ Layable s') ∧
    ∃ s', danglingProg (Ctx.new false 0 "t" 0 [] []) = some ((), s') ∧
      (∀ tbl w, Sat tbl s' w → w (s'.cellAt 4) + w (s'.cellAt 5) * w (s'.cellAt 6) = w (s'.cellAt 7)) ∧
      ∀ tbl ext, ¬ Sat tbl s' (hw ext s') := by
  have run1 : ((do let i ← loadWitness 1; selectByIndicator [.witness 5, .witness 6] [i] : M 101 _)
      (Ctx.new false 0 "t" 0 [] [])).map (fun o => (o.2.selector, o.2.advice.length)) =
      some ([false, true, false, false, true], 5) := by decide +kernel
  have run2 : (danglingProg (Ctx.new false 0 "t" 0 [] [])).map (fun o => (o.2.selector, o.2.advice.map Assigned.eval)) =
      some ([false, true, false, false, true, false, false, false], [1, 0, 5, 1, 5, 7, 7, 7]) := by decide +kernel
  refine ⟨?_, ?_⟩
  · obtain ⟨⟨r, s'⟩, h, e⟩ := Option.map_eq_some_iff.1 run1
    simp only [Prod.mk.injEq] at e
    refine ⟨r, s', h, fun hl => ?_⟩
    have := hl.inside 4 (by rw [e.1]; rfl)
    omega
  · obtain ⟨⟨r, s'⟩, h, e⟩ := Option.map_eq_some_iff.1 run2
    simp only [Prod.mk.injEq] at e
    have hg : ∀ tbl w, Sat tbl s' w → w (s'.cellAt 4) + w (s'.cellAt 5) * w (s'.cellAt 6) = w (s'.cellAt 7) :=
      fun tbl w h => h.1 4 (by rw [e.1]; rfl)
    refine ⟨s', h, hg, fun tbl ext hs => ?_⟩
    have := hg tbl _ hs
    have hv : ∀ i x, (s'.advice.map Assigned.eval)[i]? = some x → hw ext s' (s'.cellAt i) = x := by
      intro i x hx
      rw [List.getElem?_map, Option.map_eq_some_iff] at hx
      obtain ⟨a, ha, rfl⟩ := hx
      simp [hw, Own, Ctx.cellAt, valAt, ha]
    rw [hv 4 5 (by rw [e.2]; rfl), hv 5 7 (by rw [e.2]; rfl), hv 6 7 (by rw [e.2]; rfl), hv 7 7 (by rw [e.2]; rfl)] at this
    exact absurd this (by decide)

/-! ## A concrete program -/

/-- The claims are about programs that exist: an inner product, an indicator-based choice and a range check on one thread, a
task on each of two others. -/
def layDemo : PM 101 Unit := do
  let _ ← onMain (do
    let a ← loadWitness 3
    let b ← innerProduct [.existing a, .witness 4, .witness 5] [.constant 1, .witness 2, .existing a]
    let _ ← selectFromIdx [.existing a, .existing b, .witness 9] (.constant 1)
    rangeCheck 2 a 4)
  let _ ← parallelize [1, 2] fun x => (do let y ← loadWitness (x : ZMod 101); mul (.existing y) (.existing y) : M 101 _)
  pure ()

theorem C76_demo : (∃ r S, layDemo ⟨false, 0, "t", []⟩ = some (r, S) ∧ S.threads.length = 3) ∧ PKeepsLayable layDemo := by
  constructor
  · have : ((layDemo ⟨false, 0, "t", []⟩).map fun o => o.2.threads.length) = some 3 := by decide +kernel
    obtain ⟨⟨r, S⟩, h, e⟩ := Option.map_eq_some_iff.1 this
    exact ⟨r, S, h, e⟩
  · haveI : Fact (Nat.Prime 101) := ⟨by norm_num⟩
    have lw : ∀ x : ZMod 101, KeepsLayable (loadWitness x) := fun x => (loadWitness_rel (RV.refl x)).keeps
    refine .bind (.onMain (.bind (lw 3) fun a => .bind ?_ fun b => .bind ?_ fun _ => ?_)) fun _ =>
      .bind (.parallelize _ fun x => .bind (lw _) fun y => ?_) fun _ => .pure _
    · exact (innerProduct_rel (rqs_prover _) (rqs_prover _)).keeps
    · exact (selectFromIdx_rel (rqs_prover _) (rq_prover _)).keeps
    · exact (rangeCheck_rel 2 (ra_prover a) 4).keeps
    · exact (mul_rel (rq_prover _) (rq_prover _)).keeps

end H2
