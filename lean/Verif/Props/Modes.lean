import Verif.Range.Rel
import Verif.Props.Range

/-!
# C03 (prover mode agrees with keygen mode) and C56 (the circuit does not depend on the witness)
-/

set_option autoImplicit false
namespace H2
variable {p : ℕ}

/-! ## Specification -/

/-- What a value looks like in prover mode: same value, no cell (lib.rs:285-310, 436-448). -/
def AV.prover (a : AV p) : AV p := ⟨a.value, none⟩

def QCell.prover : QCell p → QCell p
  | .existing a => .existing a.prover
  | .witness x => .witness x
  | .witnessFraction x => .witnessFraction x
  | .constant c => .constant c

/-- `t` is a prover-mode context holding the same witness as the keygen-mode context `s`; nothing is said
about the constraint lists of `t` (they are ignored by the prover). -/
structure ProverOf (s t : Ctx p) : Prop where
  left : s.wgo = false
  right : t.wgo = true
  typeId : t.typeId = s.typeId
  ctxId : t.ctxId = s.ctxId
  advice : t.advice = s.advice
  zero : t.zeroCell = s.zeroCell.map AV.prover
  lookups : t.lookups = s.lookups.map AV.prover

/-- Whenever the keygen-mode run of `m` succeeds, the prover-mode run of `m'` succeeds, leaves the same
witness, returns the same values and records no constraint. -/
def ProverMatches {α : Type} (f : α → α) (m m' : M p α) : Prop :=
  ∀ s t, ProverOf s t → ∀ r s', m s = some (r, s') →
    ∃ t', m' t = some (f r, t') ∧ ProverOf s' t' ∧
      t'.selector = t.selector ∧ t'.eqs = t.eqs ∧ t'.consts = t.consts

/-- Same cell, whatever the value. -/
def AV.Same (a b : AV p) : Prop := a.cell = b.cell

/-- Same kind of cell: same referenced cell, same constant, any witness. -/
def QCell.Same : QCell p → QCell p → Prop
  | .existing a, .existing b => a.cell = b.cell
  | .witness _, .witness _ => True
  | .witnessFraction _, .witnessFraction _ => True
  | .constant c, .constant d => c = d
  | _, _ => False

/-- Two keygen-mode contexts describing the same circuit: equal constraints, lookups of the same cells,
columns of the same length. -/
structure SameShape (s t : Ctx p) : Prop where
  left : s.wgo = false
  right : t.wgo = false
  typeId : s.typeId = t.typeId
  ctxId : s.ctxId = t.ctxId
  len : s.advice.length = t.advice.length
  zero : s.zeroCell.map AV.cell = t.zeroCell.map AV.cell
  selector : s.selector = t.selector
  eqs : s.eqs = t.eqs
  consts : s.consts = t.consts
  lookups : s.lookups.map AV.cell = t.lookups.map AV.cell

/-- Any two successful keygen runs from same-shape contexts end in same-shape contexts. -/
def ShapeIndep {α : Type} (R : α → α → Prop) (m m' : M p α) : Prop :=
  ∀ s t, SameShape s t → ∀ r s' r' t', m s = some (r, s') → m' t = some (r', t') →
    SameShape s' t' ∧ R r r'

/-! ## Bridges to the relational logic -/

theorem RA.toProver {a b : AV p} (h : RA true a b) : b = a.prover := by
  obtain ⟨h1, h2⟩ := h.1 rfl
  cases b; simp_all [AV.prover]

theorem ra_prover (a : AV p) : RA true a a.prover := ⟨fun _ => ⟨rfl, rfl⟩, by simp⟩

theorem rq_prover (q : QCell p) : RQ true q q.prover := by
  cases q <;> simp [RQ, QCell.prover, RV, ra_prover]

theorem ras_prover (l : List (AV p)) : RAs true l (l.map AV.prover) := by
  induction l with
  | nil => exact .nil
  | cons a l ih => exact .cons (ra_prover a) ih

theorem rqs_prover (l : List (QCell p)) : RQs true l (l.map QCell.prover) := by
  induction l with
  | nil => exact .nil
  | cons a l ih => exact .cons (rq_prover a) ih

theorem RAs.toProver {l l' : List (AV p)} (h : RAs true l l') : l' = l.map AV.prover := by
  induction h with
  | nil => rfl
  | cons h _ ih => rw [h.toProver, ih]; rfl

theorem ProverOf.rs {s t : Ctx p} (h : ProverOf s t) : RS true s t := by
  refine ⟨h.left, h.right, h.typeId.symm, h.ctxId.symm, by rw [h.advice], fun _ => h.advice.symm, ?_, by simp,
    by simp, by simp, ?_⟩
  · rw [h.zero]
    cases s.zeroCell with
    | none => exact .none
    | some z => exact .some (ra_prover z)
  · rw [h.lookups]; exact ras_prover _

theorem RS.proverOf {s t : Ctx p} (h : RS true s t) : ProverOf s t := by
  refine ⟨h.wl, h.wr, h.typeId.symm, h.ctxId.symm, (h.advice rfl).symm, ?_, h.lookups.toProver⟩
  have hz := h.zero
  generalize s.zeroCell = z at hz
  generalize t.zeroCell = z' at hz
  cases hz with
  | none => rfl
  | some h => rw [h.toProver]; rfl

theorem Rel0.prover {α : Type} {m m' : M p α} {Q : α → α → Prop} {f : α → α} (h : Rel0 true m m' Q)
    (hq : ∀ r r', Q r r' → r' = f r) : ProverMatches f m m' := by
  intro s t hs r s' hr
  obtain ⟨a, b⟩ := h s t hs.rs r s' hr
  obtain ⟨r', t', h'⟩ := a rfl
  obtain ⟨c, d, e⟩ := b r' t' h'
  exact ⟨t', by rw [h', hq _ _ e], c.proverOf, d rfl⟩

theorem Rel.prover {α : Type} {m m' : M p α} {Q : α → α → Prop} {f : α → α} (h : Rel true m m' Q)
    (hq : ∀ r r', Q r r' → r' = f r) : ProverMatches f m m' := h.to0.prover hq

/-- For routines that keep a thread layable only for well-formed arguments. -/
theorem Rel.prover' {α : Type} {m m' : M p α} {Q : α → α → Prop} {f : α → α} (h : Rel true m m' Q False)
    (hq : ∀ r r', Q r r' → r' = f r) : ProverMatches f m m' := h.to0.prover hq

theorem SameShape.rs {s t : Ctx p} (h : SameShape s t) : RS false s t := by
  refine ⟨h.left, h.right, h.typeId, h.ctxId, h.len, by simp, ?_, fun _ => h.selector, fun _ => h.eqs,
    fun _ => h.consts, ?_⟩
  · have hz := h.zero
    generalize s.zeroCell = z at hz
    generalize t.zeroCell = z' at hz
    cases z <;> cases z' <;> simp at hz
    · exact .none
    · exact .some ⟨by simp, fun _ => hz⟩
  · have hz := h.lookups
    generalize s.lookups = z at hz
    generalize t.lookups = z' at hz
    induction z generalizing z' with
    | nil => cases z' <;> simp at hz; exact .nil
    | cons a l ih => cases z' with
      | nil => simp at hz
      | cons b l' =>
        simp only [List.map_cons, List.cons.injEq] at hz
        exact .cons ⟨by simp, fun _ => hz.1⟩ (ih _ hz.2)

theorem RS.sameShape {s t : Ctx p} (h : RS false s t) : SameShape s t := by
  refine ⟨h.wl, h.wr, h.typeId, h.ctxId, h.len, ?_, h.selector rfl, h.eqs rfl, h.consts rfl, ?_⟩
  · have hz := h.zero
    generalize s.zeroCell = z at hz
    generalize t.zeroCell = z' at hz
    cases hz with
    | none => rfl
    | some h => simp [h.2 rfl]
  · have hz := h.lookups
    generalize s.lookups = z at hz
    generalize t.lookups = z' at hz
    induction hz with
    | nil => rfl
    | cons h _ ih => simp [h.2 rfl, ih]

theorem Rel.shape {α : Type} {m m' : M p α} {Q R : α → α → Prop} (h : Rel false m m' Q)
    (hq : ∀ r r', Q r r' → R r r') : ShapeIndep R m m' := by
  intro s t hs r s' r' t' hr hr'
  obtain ⟨c, -, e⟩ := (h s t hs.rs r s' hr).2 r' t' hr'
  exact ⟨c.sameShape, hq _ _ e⟩

theorem ra_same {a b : AV p} : RA false a b ↔ AV.Same a b := by simp [RA, AV.Same]

theorem rq_same {a b : QCell p} : RQ false a b ↔ QCell.Same a b := by
  cases a <;> cases b <;> simp [RQ, QCell.Same, RA, RV]

/-- Related lists of results. -/
abbrev AVs.Same (l l' : List (AV p)) : Prop := List.Forall₂ AV.Same l l'
abbrev QCells.Same (l l' : List (QCell p)) : Prop := List.Forall₂ QCell.Same l l'

theorem ras_same {l l' : List (AV p)} : RAs false l l' ↔ AVs.Same l l' := by
  constructor <;> intro h <;> exact h.imp fun _ _ => (by simp [ra_same])

theorem rqs_same {l l' : List (QCell p)} : RQs false l l' ↔ QCells.Same l l' := by
  constructor <;> intro h <;> exact h.imp fun _ _ => (by simp [rq_same])

/-- A circuit of the same shape has the same satisfying assignments. -/
theorem SameShape.sat {tbl : ZMod p → Prop} {s t : Ctx p} (h : SameShape s t) (w : Cell → ZMod p) :
    Sat tbl s w ↔ Sat tbl t w := by
  have hc : ∀ i, s.cellAt i = t.cellAt i := fun i => by simp [Ctx.cellAt, h.typeId, h.ctxId]
  have key : ∀ l l' : List (AV p), l.map AV.cell = l'.map AV.cell → (∀ a ∈ l, tbl (at' w a)) →
      ∀ a ∈ l', tbl (at' w a) := by
    intro l l' e h1 a ha
    have : a.cell ∈ l.map AV.cell := by rw [e]; exact List.mem_map_of_mem ha
    obtain ⟨b, hb, hb2⟩ := List.mem_map.1 this
    have := h1 b hb
    simpa [at', hb2] using this
  constructor
  · rintro ⟨h1, h2, h3, h4⟩
    refine ⟨fun i hi => ?_, by rwa [← h.eqs], by rwa [← h.consts], key _ _ h.lookups h4⟩
    have := h1 i (by rw [h.selector]; exact hi)
    simpa only [GateAt, hc] using this
  · rintro ⟨h1, h2, h3, h4⟩
    refine ⟨fun i hi => ?_, by rwa [h.eqs], by rwa [h.consts], key _ _ h.lookups.symm h4⟩
    have := h1 i (by rw [← h.selector]; exact hi)
    simpa only [GateAt, hc] using this

variable [Fact p.Prime]

/-! ## C03 -/

private theorem pid : ∀ r r' : AV p, RA true r r' → r' = r.prover := fun _ _ h => h.toProver
private theorem pls : ∀ r r' : List (AV p), RAs true r r' → r' = r.map AV.prover := fun _ _ h => h.toProver
private theorem pun : ∀ r r' : Unit, True → r' = id r := fun _ _ _ => rfl
private theorem ppr : ∀ r r' : AV p × AV p, RA2 true r r' → r' = (r.1.prover, r.2.prover) :=
  fun _ _ h => Prod.ext h.1.toProver h.2.toProver

/-- C03 for the `Context` operations. -/
theorem C03_context (q : QCell p) (qs : List (QCell p)) (gs : List ℤ) (eo : List (ℕ × ℕ))
    (ex : List (Cell × ℕ)) (a b : AV p) (x : ZMod p) (xs : List (ZMod p)) (o : ℤ) :
    ProverMatches id (assignCell q) (assignCell q.prover) ∧
    ProverMatches id (assignRegion qs gs) (assignRegion (qs.map .prover) gs) ∧
    ProverMatches AV.prover (assignRegionLast qs gs) (assignRegionLast (qs.map .prover) gs) ∧
    ProverMatches id (assignRegionSmart qs gs eo ex) (assignRegionSmart (qs.map .prover) gs eo ex) ∧
    ProverMatches id (constrainEqual a b) (constrainEqual a.prover b.prover) ∧
    ProverMatches AV.prover (getM o : M p _) (getM o) ∧
    ProverMatches AV.prover (loadWitness x) (loadWitness x) ∧
    ProverMatches AV.prover (loadConstant x) (loadConstant x) ∧
    ProverMatches (List.map AV.prover) (loadConstants xs) (loadConstants xs) ∧
    ProverMatches AV.prover (loadZero : M p _) loadZero ∧
    ProverMatches id (assertIsConst a x) (assertIsConst a.prover x) :=
  ⟨(assignCell_rel0 (rq_prover q)).prover pun, (assignRegion_rel0 (rqs_prover qs) fun _ => rfl).prover pun,
    (assignRegionLast_rel (rqs_prover qs) (fun _ => rfl) (by simp)).prover' pid,
    (assignRegionSmart_rel (rqs_prover qs) gs eo ex (by simp)).prover' pun,
    (constrainEqual_rel (ra_prover a) (ra_prover b)).prover pun, (getM_rel o).prover pid,
    (loadWitness_rel (RV.refl x)).prover pid, (loadConstant_rel x).prover pid,
    (loadConstants_rel xs).prover pls, loadZero_rel.prover pid,
    (assertIsConst_rel (ra_prover a) x).prover pun⟩

/-- C03 for the gate routines with a fixed number of inputs. -/
theorem C03_gate_arith (a b c : QCell p) (x : AV p) :
    ProverMatches AV.prover (add a b) (add a.prover b.prover) ∧
    ProverMatches AV.prover (inc a) (inc a.prover) ∧
    ProverMatches AV.prover (sub a b) (sub a.prover b.prover) ∧
    ProverMatches AV.prover (dec a) (dec a.prover) ∧
    ProverMatches AV.prover (subMul a b c) (subMul a.prover b.prover c.prover) ∧
    ProverMatches AV.prover (neg a) (neg a.prover) ∧
    ProverMatches AV.prover (mul a b) (mul a.prover b.prover) ∧
    ProverMatches AV.prover (mulAdd a b c) (mulAdd a.prover b.prover c.prover) ∧
    ProverMatches AV.prover (mulNot a b) (mulNot a.prover b.prover) ∧
    ProverMatches id (assertBit x) (assertBit x.prover) ∧
    ProverMatches AV.prover (divUnsafe a b) (divUnsafe a.prover b.prover) ∧
    ProverMatches AV.prover (or a b) (or a.prover b.prover) ∧
    ProverMatches AV.prover (and a b) (and a.prover b.prover) ∧
    ProverMatches AV.prover (xor a b) (xor a.prover b.prover) ∧
    ProverMatches AV.prover (not a) (not a.prover) ∧
    ProverMatches AV.prover (select a b c) (select a.prover b.prover c.prover) ∧
    ProverMatches AV.prover (orAnd a b c) (orAnd a.prover b.prover c.prover) ∧
    ProverMatches AV.prover (isZero x) (isZero x.prover) ∧
    ProverMatches AV.prover (isEqual a b) (isEqual a.prover b.prover) := by
  have ha := rq_prover a
  have hb := rq_prover b
  have hc := rq_prover c
  have hx := ra_prover x
  exact ⟨(add_rel ha hb).prover pid, (inc_rel ha).prover pid, (sub_rel ha hb).prover pid,
    (dec_rel ha).prover pid, (subMul_rel ha hb hc).prover pid, (neg_rel ha).prover pid,
    (mul_rel ha hb).prover pid, (mulAdd_rel ha hb hc).prover pid, (mulNot_rel ha hb).prover pid,
    (assertBit_rel hx).prover pun, (divUnsafe_rel ha hb).prover pid, (or_rel ha hb).prover pid,
    (and_rel ha hb).prover pid, (xor_rel ha hb).prover pid, (not_rel ha).prover pid,
    (select_rel ha hb hc).prover pid, (orAnd_rel ha hb hc).prover pid, (isZero_rel hx).prover pid,
    (isEqual_rel ha hb).prover pid⟩

private theorem ra2s_prover (l : List (AV p × AV p)) :
    List.Forall₂ (RA2 true) l (l.map fun c => (c.1.prover, c.2.prover)) := by
  induction l with
  | nil => exact .nil
  | cons a l ih => exact .cons ⟨ra_prover _, ra_prover _⟩ ih

private theorem rt_prover (l : List (ZMod p × QCell p × QCell p)) :
    List.Forall₂ (RT true) l (l.map fun c => (c.1, c.2.1.prover, c.2.2.prover)) := by
  induction l with
  | nil => exact .nil
  | cons a l ih => exact .cons ⟨rfl, rq_prover _, rq_prover _⟩ ih

private theorem rass_prover (l : List (List (AV p))) :
    List.Forall₂ (RAs true) l (l.map (List.map AV.prover)) := by
  induction l with
  | nil => exact .nil
  | cons a l ih => exact .cons (ras_prover _) ih

/-- C03 for the gate routines over lists. -/
theorem C03_gate_lists (as bs : List (QCell p)) (xs ys : List (AV p)) (xss : List (List (AV p)))
    (vs : List (ZMod p × QCell p × QCell p)) (cs : List (AV p × AV p)) (q : QCell p) (x e : AV p) (n : ℕ) :
    ProverMatches AV.prover (sum as) (sum (as.map .prover)) ∧
    ProverMatches (List.map AV.prover) (partialSums as) (partialSums (as.map .prover)) ∧
    ProverMatches (List.map AV.prover) (accumulatedProduct as bs)
      (accumulatedProduct (as.map .prover) (bs.map .prover)) ∧
    ProverMatches AV.prover (innerProduct as bs) (innerProduct (as.map .prover) (bs.map .prover)) ∧
    ProverMatches (fun r => (r.1.prover, r.2.prover)) (innerProductLeftLast as bs)
      (innerProductLeftLast (as.map .prover) (bs.map .prover)) ∧
    ProverMatches (fun r => (r.1.prover, r.2.map .prover)) (innerProductLeft as bs)
      (innerProductLeft (as.map .prover) (bs.map .prover)) ∧
    ProverMatches (List.map AV.prover) (innerProductWithSums as bs)
      (innerProductWithSums (as.map .prover) (bs.map .prover)) ∧
    ProverMatches AV.prover (sumProductsWithCoeffAndVar vs q)
      (sumProductsWithCoeffAndVar (vs.map fun c => (c.1, c.2.1.prover, c.2.2.prover)) q.prover) ∧
    ProverMatches (List.map AV.prover) (bitsToIndicator xs) (bitsToIndicator (xs.map .prover)) ∧
    ProverMatches (List.map AV.prover) (idxToIndicator q n) (idxToIndicator q.prover n) ∧
    ProverMatches AV.prover (selectByIndicator as ys) (selectByIndicator (as.map .prover) (ys.map .prover)) ∧
    ProverMatches AV.prover (selectFromIdx as q) (selectFromIdx (as.map .prover) q.prover) ∧
    ProverMatches (List.map AV.prover) (selectArrayByIndicator xss ys)
      (selectArrayByIndicator (xss.map (List.map .prover)) (ys.map .prover)) ∧
    ProverMatches (List.map AV.prover) (numToBits x n) (numToBits x.prover n) ∧
    ProverMatches AV.prover (bitsToNum xs) (bitsToNum (xs.map .prover)) ∧
    ProverMatches AV.prover (powVar x e n) (powVar x.prover e.prover n) ∧
    ProverMatches (fun r => (r.1.prover, r.2.prover)) (lagrangeAndEval cs x)
      (lagrangeAndEval (cs.map fun c => (c.1.prover, c.2.prover)) x.prover) := by
  have ha := rqs_prover as
  have hb := rqs_prover bs
  have hx := ras_prover xs
  have hy := ras_prover ys
  have hq := rq_prover q
  have hx0 := ra_prover x
  exact ⟨(sum_rel ha).prover pid, (partialSums_rel ha).prover pls, (accumulatedProduct_rel ha hb).prover pls,
    (innerProduct_rel ha hb).prover pid, (innerProductLeftLast_rel ha hb).prover ppr,
    (innerProductLeft_rel ha hb).prover fun _ _ h => Prod.ext h.1.toProver h.2.toProver,
    (innerProductWithSums_rel ha hb).prover pls,
    (sumProductsWithCoeffAndVar_rel (rt_prover vs) hq).prover pid, (bitsToIndicator_rel hx).prover fun _ _ h => pls _ _ h.1,
    (idxToIndicator_rel hq n).prover fun _ _ h => pls _ _ h.1, (selectByIndicator_rel ha hy (by simp)).prover' pid,
    (selectFromIdx_rel ha hq).prover pid, (selectArrayByIndicator_rel (rass_prover xss) hy (by simp)).prover' pls,
    (numToBits_rel hx0 n).prover pls, (bitsToNum_rel hx).prover pid,
    (powVar_rel hx0 (ra_prover e) n).prover pid,
    (lagrangeAndEval_rel (ra2s_prover cs) hx0).prover ppr⟩

/-- C03 for the range chip. -/
theorem C03_range (L : ℕ) (a b : QCell p) (x : AV p) (xs : List (AV p)) (n m : ℕ) :
    ProverMatches id (rangeCheck L x n) (rangeCheck L x.prover n) ∧
    ProverMatches id (checkLessThan L a b n) (checkLessThan L a.prover b.prover n) ∧
    ProverMatches id (checkLessThanSafe L x n) (checkLessThanSafe L x.prover n) ∧
    ProverMatches id (checkBigLessThanSafe L x n) (checkBigLessThanSafe L x.prover n) ∧
    ProverMatches AV.prover (isLessThan L a b n) (isLessThan L a.prover b.prover n) ∧
    ProverMatches AV.prover (isLessThanSafe L x n) (isLessThanSafe L x.prover n) ∧
    ProverMatches AV.prover (isBigLessThanSafe L x n) (isBigLessThanSafe L x.prover n) ∧
    ProverMatches (fun r => (r.1.prover, r.2.prover)) (divMod L a n m) (divMod L a.prover n m) ∧
    ProverMatches (fun r => (r.1.prover, r.2.prover)) (divModVar L a b n m)
      (divModVar L a.prover b.prover n m) ∧
    ProverMatches AV.prover (getLastBit L x n) (getLastBit L x.prover n) ∧
    ProverMatches (List.map AV.prover) (decomposeLe L x n m) (decomposeLe L x.prover n m) ∧
    ProverMatches AV.prover (limbsToNum xs n) (limbsToNum (xs.map .prover) n) ∧
    ProverMatches AV.prover (constRightRotate L x n m) (constRightRotate L x.prover n m) ∧
    ProverMatches AV.prover (constLeftRotate L x n m) (constLeftRotate L x.prover n m) := by
  have ha := rq_prover a
  have hb := rq_prover b
  have hx := ra_prover x
  exact ⟨(rangeCheck_rel L hx n).prover pun, (checkLessThan_rel L ha hb n).prover pun,
    (checkLessThanSafe_rel L hx n).prover pun, (checkBigLessThanSafe_rel L hx n).prover pun,
    (isLessThan_rel L ha hb n).prover pid, (isLessThanSafe_rel L hx n).prover pid,
    (isBigLessThanSafe_rel L hx n).prover pid, (divMod_rel L ha n m).prover ppr,
    (divModVar_rel L ha hb n m).prover ppr, (getLastBit_rel L hx n).prover pid,
    (decomposeLe_rel L hx n m).prover pls, (limbsToNum_rel (ras_prover xs) n).prover pid,
    (constRightRotate_rel L hx n m).prover pid, (constLeftRotate_rel L hx n m).prover pid⟩

/-- The prover-mode context corresponding to a keygen-mode one exists (the relation is inhabited). -/
theorem proverOf_new (phase : ℕ) (t : String) (i : ℕ) :
    ProverOf (Ctx.new false phase t i [] [] : Ctx p) (Ctx.new true phase t i [] []) :=
  ⟨rfl, rfl, rfl, rfl, rfl, rfl, rfl⟩

/-- Concrete instance: `add` of two witnesses in prover mode. -/
example : ∃ t', add (.witness 3) (.witness (4 : ZMod 101)) (Ctx.new true 0 "t" 0 [] []) =
    some (⟨.trivial 7, none⟩, t') := ⟨_, by simp [add, unwrap, assignRegionLast, assignRegion, assignCells, assignCell, lastM,
      last?, Ctx.new, QCell.val?, bind_apply]; exact ⟨by decide, rfl⟩⟩

/-! ## C56 -/

private theorem sid : ∀ r r' : AV p, RA false r r' → AV.Same r r' := fun _ _ h => ra_same.1 h
private theorem sls : ∀ r r' : List (AV p), RAs false r r' → AVs.Same r r' := fun _ _ h => ras_same.1 h
private theorem sun : ∀ r r' : Unit, True → r = r' := fun _ _ _ => rfl
private theorem spr : ∀ r r' : AV p × AV p, RA2 false r r' → AV.Same r.1 r'.1 ∧ AV.Same r.2 r'.2 :=
  fun _ _ h => ⟨ra_same.1 h.1, ra_same.1 h.2⟩

/-- C56 for the gate routines with a fixed number of inputs. -/
theorem C56_gate_arith {a b c a' b' c' : QCell p} {x x' : AV p} (ha : a.Same a') (hb : b.Same b')
    (hc : c.Same c') (hx : x.Same x') :
    ShapeIndep AV.Same (add a b) (add a' b') ∧
    ShapeIndep AV.Same (inc a) (inc a') ∧
    ShapeIndep AV.Same (sub a b) (sub a' b') ∧
    ShapeIndep AV.Same (dec a) (dec a') ∧
    ShapeIndep AV.Same (subMul a b c) (subMul a' b' c') ∧
    ShapeIndep AV.Same (neg a) (neg a') ∧
    ShapeIndep AV.Same (mul a b) (mul a' b') ∧
    ShapeIndep AV.Same (mulAdd a b c) (mulAdd a' b' c') ∧
    ShapeIndep AV.Same (mulNot a b) (mulNot a' b') ∧
    ShapeIndep Eq (assertBit x) (assertBit x') ∧
    ShapeIndep AV.Same (divUnsafe a b) (divUnsafe a' b') ∧
    ShapeIndep AV.Same (or a b) (or a' b') ∧
    ShapeIndep AV.Same (and a b) (and a' b') ∧
    ShapeIndep AV.Same (xor a b) (xor a' b') ∧
    ShapeIndep AV.Same (not a) (not a') ∧
    ShapeIndep AV.Same (select a b c) (select a' b' c') ∧
    ShapeIndep AV.Same (orAnd a b c) (orAnd a' b' c') ∧
    ShapeIndep AV.Same (isZero x) (isZero x') ∧
    ShapeIndep AV.Same (isEqual a b) (isEqual a' b') := by
  rw [← rq_same] at ha hb hc
  rw [← ra_same] at hx
  exact ⟨(add_rel ha hb).shape sid, (inc_rel ha).shape sid, (sub_rel ha hb).shape sid,
    (dec_rel ha).shape sid, (subMul_rel ha hb hc).shape sid, (neg_rel ha).shape sid,
    (mul_rel ha hb).shape sid, (mulAdd_rel ha hb hc).shape sid, (mulNot_rel ha hb).shape sid,
    (assertBit_rel hx).shape sun, (divUnsafe_rel ha hb).shape sid, (or_rel ha hb).shape sid,
    (and_rel ha hb).shape sid, (xor_rel ha hb).shape sid, (not_rel ha).shape sid,
    (select_rel ha hb hc).shape sid, (orAnd_rel ha hb hc).shape sid, (isZero_rel hx).shape sid,
    (isEqual_rel ha hb).shape sid⟩

/-- C56 for the gate routines over lists. -/
theorem C56_gate_lists {as bs as' bs' : List (QCell p)} {xs ys xs' ys' : List (AV p)}
    {xss xss' : List (List (AV p))} {vs vs' : List (ZMod p × QCell p × QCell p)}
    {cs cs' : List (AV p × AV p)} {q q' : QCell p} {x e x' e' : AV p} (n : ℕ)
    (ha : QCells.Same as as') (hb : QCells.Same bs bs') (hx : AVs.Same xs xs') (hy : AVs.Same ys ys')
    (hxs : List.Forall₂ AVs.Same xss xss')
    (hvs : List.Forall₂ (fun c d => c.1 = d.1 ∧ c.2.1.Same d.2.1 ∧ c.2.2.Same d.2.2) vs vs')
    (hcs : List.Forall₂ (fun c d => AV.Same c.1 d.1 ∧ AV.Same c.2 d.2) cs cs') (hq : q.Same q')
    (hx0 : x.Same x') (he : e.Same e') :
    ShapeIndep AV.Same (sum as) (sum as') ∧
    ShapeIndep AVs.Same (partialSums as) (partialSums as') ∧
    ShapeIndep AVs.Same (accumulatedProduct as bs) (accumulatedProduct as' bs') ∧
    ShapeIndep AV.Same (innerProduct as bs) (innerProduct as' bs') ∧
    ShapeIndep (fun r r' => AV.Same r.1 r'.1 ∧ AV.Same r.2 r'.2) (innerProductLeftLast as bs)
      (innerProductLeftLast as' bs') ∧
    ShapeIndep (fun r r' => AV.Same r.1 r'.1 ∧ AVs.Same r.2 r'.2) (innerProductLeft as bs)
      (innerProductLeft as' bs') ∧
    ShapeIndep AVs.Same (innerProductWithSums as bs) (innerProductWithSums as' bs') ∧
    ShapeIndep AV.Same (sumProductsWithCoeffAndVar vs q) (sumProductsWithCoeffAndVar vs' q') ∧
    ShapeIndep AVs.Same (bitsToIndicator xs) (bitsToIndicator xs') ∧
    ShapeIndep AVs.Same (idxToIndicator q n) (idxToIndicator q' n) ∧
    ShapeIndep AV.Same (selectByIndicator as ys) (selectByIndicator as' ys') ∧
    ShapeIndep AV.Same (selectFromIdx as q) (selectFromIdx as' q') ∧
    ShapeIndep AVs.Same (selectArrayByIndicator xss ys) (selectArrayByIndicator xss' ys') ∧
    ShapeIndep AVs.Same (numToBits x n) (numToBits x' n) ∧
    ShapeIndep AV.Same (bitsToNum xs) (bitsToNum xs') ∧
    ShapeIndep AV.Same (powVar x e n) (powVar x' e' n) ∧
    ShapeIndep (fun r r' => AV.Same r.1 r'.1 ∧ AV.Same r.2 r'.2) (lagrangeAndEval cs x)
      (lagrangeAndEval cs' x') := by
  rw [← rqs_same] at ha hb
  rw [← ras_same] at hx hy
  rw [← rq_same] at hq
  rw [← ra_same] at hx0 he
  have hxs2 : List.Forall₂ (RAs false) xss xss' := hxs.imp fun _ _ h => ras_same.2 h
  have hvs2 : List.Forall₂ (RT false) vs vs' := hvs.imp fun _ _ h => ⟨h.1, rq_same.2 h.2.1, rq_same.2 h.2.2⟩
  have hcs2 : List.Forall₂ (RA2 false) cs cs' := hcs.imp fun _ _ h => ⟨ra_same.2 h.1, ra_same.2 h.2⟩
  exact ⟨(sum_rel ha).shape sid, (partialSums_rel ha).shape sls, (accumulatedProduct_rel ha hb).shape sls,
    (innerProduct_rel ha hb).shape sid, (innerProductLeftLast_rel ha hb).shape spr,
    (innerProductLeft_rel ha hb).shape fun _ _ h => ⟨ra_same.1 h.1, ras_same.1 h.2⟩,
    (innerProductWithSums_rel ha hb).shape sls, (sumProductsWithCoeffAndVar_rel hvs2 hq).shape sid,
    (bitsToIndicator_rel hx).shape fun _ _ h => sls _ _ h.1,
    (idxToIndicator_rel hq n).shape fun _ _ h => sls _ _ h.1, (selectByIndicator_rel ha hy (by simp)).shape sid,
    (selectFromIdx_rel ha hq).shape sid, (selectArrayByIndicator_rel hxs2 hy (by simp)).shape sls,
    (numToBits_rel hx0 n).shape sls, (bitsToNum_rel hx).shape sid, (powVar_rel hx0 he n).shape sid,
    (lagrangeAndEval_rel hcs2 hx0).shape spr⟩

/-- C56 for the range chip. -/
theorem C56_range (L : ℕ) {a b a' b' : QCell p} {x x' : AV p} {xs xs' : List (AV p)} (n m : ℕ)
    (ha : a.Same a') (hb : b.Same b') (hx : x.Same x') (hxs : AVs.Same xs xs') :
    ShapeIndep Eq (rangeCheck L x n) (rangeCheck L x' n) ∧
    ShapeIndep Eq (checkLessThan L a b n) (checkLessThan L a' b' n) ∧
    ShapeIndep Eq (checkLessThanSafe L x n) (checkLessThanSafe L x' n) ∧
    ShapeIndep Eq (checkBigLessThanSafe L x n) (checkBigLessThanSafe L x' n) ∧
    ShapeIndep AV.Same (isLessThan L a b n) (isLessThan L a' b' n) ∧
    ShapeIndep AV.Same (isLessThanSafe L x n) (isLessThanSafe L x' n) ∧
    ShapeIndep AV.Same (isBigLessThanSafe L x n) (isBigLessThanSafe L x' n) ∧
    ShapeIndep (fun r r' => AV.Same r.1 r'.1 ∧ AV.Same r.2 r'.2) (divMod L a n m) (divMod L a' n m) ∧
    ShapeIndep (fun r r' => AV.Same r.1 r'.1 ∧ AV.Same r.2 r'.2) (divModVar L a b n m)
      (divModVar L a' b' n m) ∧
    ShapeIndep AV.Same (getLastBit L x n) (getLastBit L x' n) ∧
    ShapeIndep AVs.Same (decomposeLe L x n m) (decomposeLe L x' n m) ∧
    ShapeIndep AV.Same (limbsToNum xs n) (limbsToNum xs' n) ∧
    ShapeIndep AV.Same (constRightRotate L x n m) (constRightRotate L x' n m) ∧
    ShapeIndep AV.Same (constLeftRotate L x n m) (constLeftRotate L x' n m) := by
  rw [← rq_same] at ha hb
  rw [← ra_same] at hx
  rw [← ras_same] at hxs
  exact ⟨(rangeCheck_rel L hx n).shape sun, (checkLessThan_rel L ha hb n).shape sun,
    (checkLessThanSafe_rel L hx n).shape sun, (checkBigLessThanSafe_rel L hx n).shape sun,
    (isLessThan_rel L ha hb n).shape sid, (isLessThanSafe_rel L hx n).shape sid,
    (isBigLessThanSafe_rel L hx n).shape sid, (divMod_rel L ha n m).shape spr,
    (divModVar_rel L ha hb n m).shape spr, (getLastBit_rel L hx n).shape sid,
    (decomposeLe_rel L hx n m).shape sls, (limbsToNum_rel hxs n).shape sid,
    (constRightRotate_rel L hx n m).shape sid, (constLeftRotate_rel L hx n m).shape sid⟩

/-- C56, the consequence users rely on: keys generated with dummy values (`s₀`) fit the proof of any other
values (`s₁`): whatever satisfies the constraints of one run satisfies those of the other. -/
theorem C56_keygen_fits_proof {α : Type} {R : α → α → Prop} {m m' : M p α} (h : ShapeIndep R m m')
    {s₀ s₁ s₀' s₁' : Ctx p} {r r' : α} (hs : SameShape s₀ s₁) (h0 : m s₀ = some (r, s₀'))
    (h1 : m' s₁ = some (r', s₁')) {tbl : ZMod p → Prop} {w : Cell → ZMod p} :
    Sat tbl s₀' w ↔ Sat tbl s₁' w := (h _ _ hs _ _ _ _ h0 h1).1.sat w

/-- Same shape is reflexive on keygen contexts, so the hypotheses of C56 are met, e.g., by two runs
with witnesses 3 and 5 from an empty context. -/
theorem sameShape_refl {s : Ctx p} (h : s.wgo = false) : SameShape s s :=
  ⟨h, h, rfl, rfl, rfl, rfl, rfl, rfl, rfl, rfl⟩

example : SameShape ctx0 ctx0 ∧ (QCell.witness (3 : ZMod 101)).Same (.witness 5) := ⟨sameShape_refl rfl, trivial⟩

end H2
