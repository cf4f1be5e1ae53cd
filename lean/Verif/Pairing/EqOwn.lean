import Verif.Ecc.EqOwn
import Verif.Pairing.Model

/-!
# The copy constraints of the extension fields and of the pairing involve a cell of the context

As `Verif/Ecc/EqOwn`.
-/

set_option autoImplicit false
set_option linter.unusedVariables false
namespace H2.EqO
open H2 Lean Elab Tactic Meta Command
variable {p : ℕ}

/-- `EqOwn.bind`, for a block whose type is known only by unfolding. -/
elab "eo_bind" : tactic => withMainContext do
  let t ← instantiateMVars (← getMainTarget)
  let m := t.consumeMData.getAppArgs.back!
  unless m.consumeMData.isAppOf ``Bind.bind do throwError "not a bind"
  let gs ← (← getMainGoal).apply (← mkConstWithFreshMVarLevels ``EqOwn.bind)
  replaceMainGoal gs

/-- As `eof`, with `eo_bind`. -/
macro "eog" : tactic => `(tactic| repeat' (first
  | intro _
  | assumption
  | with_reducible exact EqOwn.pure _
  | exact innerProduct_ro _ _
  | exact and_ro _ _
  | with_reducible apply EqOwn.bindEq
  | eo_known
  | with_reducible apply EqOwn.bind
  | eo_bind
  | (split)
  | (dsimp only)
  | solve_by_elim))

/-- As `eof_auto`, with `eog`. -/
elab "eog_auto " fs:ident+ : command => do
  for id in fs do
    liftTermElabM do
      let f ← realizeGlobalConstNoOverloadWithInfo id
      let info ← getConstInfo f
      let lvls := info.levelParams.map Level.param
      let fe := mkConst f lvls
      forallTelescope info.type fun xs _ => do
        let e := mkAppN fe xs
        let stmt ← mkAppM ``EqOwn #[e]
        let fld ← xs.findM? fun x => do return (← inferType x).isAppOf ``FieldOps
        let go (xs : Array Expr) : TermElabM Unit := do
          let goalTy ← mkForallFVars xs stmt
          let fid := mkIdent f
          let ctor ← `(by intros; first | (unfold $fid; eog; done) | (fun_induction $fid <;> (eog; done)))
          let v ← Term.elabTermEnsuringType ctor goalTy
          Term.synthesizeSyntheticMVarsNoPostponing
          let v ← instantiateMVars v
          addDecl <| .thmDecl { name := eoName f, levelParams := info.levelParams, type := goalTy, value := v }
        match fld with
        | none => go xs
        | some x => withLocalDecl `inst .instImplicit (← mkAppM ``OpsEo #[x]) fun i => go (xs.push i)

/-! ### Extension fields -/

theorem mapList_eo {α β : Type} {f : α → M p β} (as : List α) (h : ∀ a, EqOwn (f a)) : EqOwn (mapList f as) := by
  fun_induction mapList f as <;> eog
theorem zipEqList_eo {α β γ : Type} {f : α → β → M p γ} (as : List α) (bs : List β) (h : ∀ a b, EqOwn (f a b)) : EqOwn (zipEqList f as bs) := by
  fun_induction zipEqList f as bs <;> eog
theorem forList_eo {α : Type} {f : α → M p Unit} (as : List α) (h : ∀ a, EqOwn (f a)) : EqOwn (forList f as) := by
  fun_induction forList f as <;> eog
theorem foldGate_eo {α : Type} {f : α → M p (AV p)} {g : QCell p → QCell p → M p (AV p)} (prev : AV p) (as : List α) (h : ∀ a, EqOwn (f a))
    (hg : ∀ a b, EqOwn (g a b)) : EqOwn (foldGate f g prev as) := by
  fun_induction foldGate f g prev as <;> eog
theorem foldGate1_eo {α : Type} {f : α → M p (AV p)} {g : QCell p → QCell p → M p (AV p)} (as : List α) (h : ∀ a, EqOwn (f a))
    (hg : ∀ a b, EqOwn (g a b)) : EqOwn (foldGate1 f g as) := by
  unfold foldGate1; eog
theorem foldEq_eo [Fact p.Prime] {α : Type} {f : α → α → M p (AV p)} (prev : AV p) (as bs : List α) (h : ∀ a b, EqOwn (f a b)) : EqOwn (foldEq f prev as bs) := by
  fun_induction foldEq f prev as bs <;> eog
theorem foldEq1_eo [Fact p.Prime] {α : Type} {f : α → α → M p (AV p)} (as bs : List α) (h : ∀ a b, EqOwn (f a b)) : EqOwn (foldEq1 f as bs) := by
  unfold foldEq1; eog

eog_auto H2.fpMulNoCarry H2.vecSelect H2.fp2MulNoCarry H2.extGetAssignedValue

theorem vecOps_opsEo [Fact p.Prime] {F : FieldOps p} [OpsEo F] (E : ExtField F) {g : List F.U → M p E.V} {mul : List F.U → List F.U → M p (List F.U)}
    (hg : ∀ a, EqOwn (g a)) (hm : ∀ a b, EqOwn (mul a b)) : OpsEo (vecOps F E g mul) where
  getAssignedValue := hg
  loadPrivate := fun _ => mapList_eo _ OpsEo.loadPrivate
  loadConstant := fun _ => mapList_eo _ OpsEo.loadConstant
  addNoCarry := fun _ _ => zipEqList_eo _ _ OpsEo.addNoCarry
  addConstantNoCarry := fun _ _ => zipEqList_eo _ _ OpsEo.addConstantNoCarry
  subNoCarry := fun _ _ => zipEqList_eo _ _ OpsEo.subNoCarry
  negate := fun _ => mapList_eo _ OpsEo.negate
  scalarMulNoCarry := fun _ _ => mapList_eo _ fun _ => OpsEo.scalarMulNoCarry _ _
  scalarMulAddNoCarry := fun _ _ _ => zipEqList_eo _ _ fun _ _ => OpsEo.scalarMulAddNoCarry _ _ _
  mulNoCarry := hm
  checkCarryModToZero := fun _ => forList_eo _ OpsEo.checkCarryModToZero
  carryMod := fun _ => mapList_eo _ OpsEo.carryMod
  enforceLessThan := fun _ => mapList_eo _ OpsEo.enforceLessThan
  isSoftNonzero := fun _ => foldGate1_eo _ OpsEo.isSoftNonzero or_eo
  isZero := fun _ => foldGate1_eo _ OpsEo.isZero and_eo
  isEqualUnenforced := fun _ _ => foldEq1_eo _ _ OpsEo.isEqualUnenforced
  select := fun _ _ _ => vecSelect_eo _ _ _ _
  selectByIndicator := fun _ _ => panic_eo

instance [Fact p.Prime] {F : FieldOps p} [OpsEo F] (E : ExtField F) : OpsEo (fp2Ops F E) := vecOps_opsEo E (fun a => extGetAssignedValue_eo F E 2 a) (fun a b => fp2MulNoCarry_eo F a b)

eog_auto H2.fp2Conjugate H2.fp2NegConjugate H2.mulNoCarryW6 H2.accAdd H2.fp12Step H2.fp12Inner H2.fp12Outer H2.fp12Combine H2.fp12Out0 H2.fp12Out1 H2.fp12MulNoCarry

instance [Fact p.Prime] {F : FieldOps p} [OpsEo F] (E : ExtField F) (xi : ℤ) : OpsEo (fp12Ops F E xi) := vecOps_opsEo E (fun a => extGetAssignedValue_eo F E 12 a) (fun a b => fp12MulNoCarry_eo F xi a b)

eog_auto H2.fp2MulLoop0 H2.fp2MulLoop1 H2.fp12Fp2MulNoCarry H2.conjLoop H2.fp12Conjugate

/-! ### The pairing -/

section
variable [Fact p.Prime] (C : PairCfg p)
instance : OpsEo C.F := inferInstanceAs (OpsEo C.c.ops)
instance : OpsEo C.F2 := inferInstanceAs (OpsEo (fp2Ops C.F C.E2))
instance : OpsEo C.F12 := inferInstanceAs (OpsEo (fp12Ops C.F C.E12 9))
end

eog_auto H2.PairCfg.slices H2.PairCfg.join

theorem EqOwn.ite_ {α : Type} {c : Prop} [Decidable c] {a b : M p α} (ha : EqOwn a) (hb : EqOwn b) : EqOwn (if c then a else b) := by
  split
  · exact ha
  · exact hb

/-- `eog`, with a fallback up to unfolding for `pure`. -/
macro "eoh" : tactic => `(tactic| repeat' (first
  | intro _
  | assumption
  | with_reducible exact EqOwn.pure _
  | with_reducible apply EqOwn.bindEq
  | eo_known
  | with_reducible apply EqOwn.bind
  | eo_bind
  | (split)
  | (dsimp only)
  | exact EqOwn.pure _
  | apply EqOwn.ite_
  | solve_by_elim))

theorem «PairCfg.frobCoeff_eo» [Fact p.Prime] (C : PairCfg p) (pow i : ℕ) (a : List (CrtInt p)) : EqOwn (C.frobCoeff pow i a) := by
  unfold PairCfg.frobCoeff
  eoh

theorem «PairCfg.powLoop_eo» [Fact p.Prime] (C : PairCfg p) (a : List (CrtInt p)) (l : List ℤ) (b : Bool) (res : List (CrtInt p)) :
    EqOwn (C.powLoop a l b res) := by
  induction l generalizing b res with
  | nil => exact EqOwn.pure _
  | cons z zs ih => unfold PairCfg.powLoop; eoh


elab "eoh_auto " fs:ident+ : command => do
  for id in fs do
    liftTermElabM do
      let f ← realizeGlobalConstNoOverloadWithInfo id
      let info ← getConstInfo f
      let lvls := info.levelParams.map Level.param
      let fe := mkConst f lvls
      forallTelescope info.type fun xs _ => do
        let stmt ← mkAppM ``EqOwn #[mkAppN fe xs]
        let goalTy ← mkForallFVars xs stmt
        let fid := mkIdent f
        let ctor ← `(by intros; first | (unfold $fid; eoh; done) | (fun_induction $fid <;> (eoh; done)))
        let v ← Term.elabTermEnsuringType ctor goalTy
        Term.synthesizeSyntheticMVarsNoPostponing
        let v ← instantiateMVars v
        addDecl <| .thmDecl { name := eoName f, levelParams := info.levelParams, type := goalTy, value := v }

eoh_auto H2.PairCfg.frobLoop H2.PairCfg.frobeniusMap H2.PairCfg.pow
eoh_auto H2.PairCfg.slice H2.PairCfg.cycCompress H2.PairCfg.crtAddOne H2.PairCfg.addOne H2.PairCfg.cycDecompress H2.PairCfg.cycSquare

theorem «PairCfg.cycPowLoop_eo» [Fact p.Prime] (C : PairCfg p) (a : List (CrtInt p)) (l : List ℤ) (b : Bool) (c : PairCfg.Comp (CrtInt p)) (o : Option (List (CrtInt p))) :
    EqOwn (C.cycPowLoop a l b c o) := by
  induction l generalizing b c o with
  | nil => exact EqOwn.pure _
  | cons z zs ih => unfold PairCfg.cycPowLoop; eoh

eoh_auto H2.PairCfg.cycPow H2.PairCfg.hardPart H2.PairCfg.easyPart H2.PairCfg.finalExp
eoh_auto H2.PairCfg.carryOpt H2.PairCfg.lineUnequal H2.PairCfg.lineEqual H2.PairCfg.sparseCell H2.PairCfg.sparseInner H2.PairCfg.sparseOuter H2.PairCfg.sparseFold H2.PairCfg.sparseOut H2.PairCfg.sparseMultiply
eoh_auto H2.PairCfg.mulLineUnequal H2.PairCfg.mulLineEqual H2.PairCfg.fillZero H2.PairCfg.firstLine H2.PairCfg.twistedFrob H2.PairCfg.negTwistedFrob

theorem «PairCfg.millerRounds_eo» [Fact p.Prime] (C : PairCfg p) (Q nQ : EcPt C.F2) (P : EcPt C.F) (l : List ℤ) (b : Bool) (f : List (CrtInt p)) (R : EcPt C.F2) :
    EqOwn (C.millerRounds Q nQ P l b f R) := by
  induction l generalizing b f R with
  | nil => exact EqOwn.pure _
  | cons z zs ih => unfold PairCfg.millerRounds; eoh

eof_auto H2.ecNegate
eoh_auto H2.PairCfg.millerEnd H2.PairCfg.millerLoop H2.PairCfg.pairing

end H2.EqO
