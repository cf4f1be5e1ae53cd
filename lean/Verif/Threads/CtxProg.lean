import Verif.Threads.Builder
import Verif.Range.Model
import Lean.Elab.Tactic
import Lean.Elab.Command

/-!
# The library's routines only use `Context` through its methods

`cp_auto f` proves `CtxProg (f ..)` for all arguments, under the name `f_cp`; the proof is an ordinary term checked by the kernel.
-/

set_option autoImplicit false
namespace H2.Bld
open H2 Lean Elab Tactic Meta Command
variable {p : ℕ}

theorem panic_cp {α : Type} : CtxProg (panic : M p α) := .read fun s r s' h => by simp [panic] at h
theorem unwrap_cp {α : Type} (o : Option α) : CtxProg (unwrap o : M p α) := .read fun s r s' h => by
  simp only [unwrap, Option.map_eq_some_iff, Prod.mk.injEq] at h
  obtain ⟨_, _, _, h⟩ := h; exact h.symm
theorem assertM_cp (c : Bool) : CtxProg (assertM c : M p Unit) := .read fun s r s' h => by
  simp only [assertM] at h; split at h
  · simp only [Option.some.injEq, Prod.mk.injEq, true_and] at h; exact h.symm
  · cases h
theorem adviceLen_cp : CtxProg (adviceLen : M p ℕ) := .read fun s r s' h => by
  simp only [adviceLen, Option.some.injEq, Prod.mk.injEq] at h; exact h.2.symm
theorem getWgo_cp : CtxProg (getWgo : M p Bool) := .read fun s r s' h => by
  simp only [getWgo, Option.some.injEq, Prod.mk.injEq] at h; exact h.2.symm
theorem last?_cp : CtxProg (last? : M p _) := .read fun s r s' h => by
  simp only [last?, Option.some.injEq, Prod.mk.injEq] at h; exact h.2.symm
theorem getM_cp (o : ℤ) : CtxProg (getM o : M p (AV p)) := .read fun s r s' h => by
  unfold getM at h
  dsimp only at h
  generalize (if o < 0 then (s.advice.length : ℤ) + o else o) = i at h
  split at h
  · cases h
  · simp only [Option.map_eq_some_iff, Prod.mk.injEq] at h
    obtain ⟨_, _, _, h⟩ := h; exact h.symm
theorem assignRegion_cp (qs : List (QCell p)) (gs : List ℤ) : CtxProg (assignRegion qs gs) := .assignRegion qs gs
theorem assignRegionSmart_cp (qs : List (QCell p)) (gs : List ℤ) (e : List (ℕ × ℕ)) (x : List (Cell × ℕ)) :
    CtxProg (assignRegionSmart qs gs e x) := .assignRegionSmart qs gs e x
theorem constrainEqual_cp (a b : AV p) : CtxProg (constrainEqual a b) := .constrainEqual a b
theorem assignWitnesses_cp (ws : List (ZMod p)) : CtxProg (H2.assignWitnesses ws) := .assignWitnesses ws
theorem loadWitness_cp (x : ZMod p) : CtxProg (loadWitness x) := .loadWitness x
theorem loadConstant_cp (c : ZMod p) : CtxProg (loadConstant c) := .loadConstant c
theorem loadZero_cp : CtxProg (loadZero : M p (AV p)) := .loadZero
theorem assertIsConst_cp (a : AV p) (c : ZMod p) : CtxProg (assertIsConst a c) := .assertIsConst a c
theorem addCellToLookup_cp (a : AV p) : CtxProg (addCellToLookup a) := .addCellToLookup a

/-- The name of the lemma about `f`. -/
def cpName (f : Name) : Name := `H2.Bld ++ Name.mkSimple (toString (f.replacePrefix `H2 .anonymous) ++ "_cp")

/-- Closes `CtxProg (f ..)` by the lemma `f_cp`. -/
elab "cp_known" : tactic => withMainContext do
  let t ← instantiateMVars (← getMainTarget)
  let m := t.consumeMData.getAppArgs.back!
  let some f := m.consumeMData.getAppFn.constName? | throwError "no head"
  let gs ← (← getMainGoal).apply (← mkConstWithFreshMVarLevels (cpName f))
  replaceMainGoal gs

/-- `CtxProg` of a `do` block. -/
macro "cp" : tactic => `(tactic| repeat' (first
  | intro _
  | assumption
  | with_reducible exact CtxProg.pure _
  | cp_known
  | with_reducible apply CtxProg.bind
  | (split)
  | (dsimp only)
  | solve_by_elim))

/-- `cp_auto f` proves `theorem f_cp : CtxProg (f ..)`. -/
elab "cp_auto " fs:ident+ : command => do
  for id in fs do
    liftTermElabM do
      let f ← realizeGlobalConstNoOverloadWithInfo id
      let info ← getConstInfo f
      let lvls := info.levelParams.map Level.param
      let fe := mkConst f lvls
      -- arguments up to `M p α`
      forallTelescope info.type fun xs _ => do
        -- the last explicit argument is the context when `M` was unfolded; `forallTelescope` does not unfold `M`
        let e := mkAppN fe xs
        let stmt ← mkAppM ``CtxProg #[e]
        let args ← xs.filterM fun x => do return (← x.fvarId!.getBinderInfo).isExplicit
        let _ := args
        let goalTy ← mkForallFVars xs stmt
        let fid := mkIdent f
        let ctor ← `(by intros; first | (unfold $fid; cp; done) | (fun_induction $fid <;> (cp; done)))
        let v ← Term.elabTermEnsuringType ctor goalTy
        Term.synthesizeSyntheticMVarsNoPostponing
        let v ← instantiateMVars v
        let nm := cpName f
        addDecl <| .thmDecl { name := nm, levelParams := info.levelParams, type := goalTy, value := v }

cp_auto H2.lastM H2.assignRegionLast H2.loadConstants H2.sliceTo H2.getsM H2.add H2.inc H2.sub H2.dec H2.subMul H2.neg H2.mul H2.mulAdd H2.mulNot H2.assertBit H2.invertUnwrap H2.divUnsafe H2.sumBody H2.sum H2.partialSums H2.accProdLoop H2.accumulatedProduct H2.or H2.and H2.xor H2.not H2.select H2.orAnd H2.isZero H2.isEqual H2.indicatorInner H2.indicatorOuter H2.bitsToIndicator H2.idxToIndicatorLoop H2.idxToIndicator H2.selStep H2.selBody H2.selectByIndicator H2.selectFromIdx H2.column H2.selectArrayLoop H2.selectArrayByIndicator H2.ipBody H2.ipCells H2.ipRegion H2.innerProductSimple H2.innerProduct H2.ipLastCell H2.innerProductLeftLast H2.innerProductLeft H2.innerProductWithSums H2.spBody H2.sumProductsWithCoeffAndVar H2.assertBits H2.numToBits H2.bitsToNum H2.powSquare H2.powVarLoop H2.powVar H2.lagrangeZ H2.lagrangeDenom H2.lagrangeAcc H2.lagrangeEval H2.lagrangeAndEval H2.pow2At H2.bigToFe H2.lookupsAt H2.rangeLimbs H2.rangeRem H2.rangeCheckLimb H2.rangeCheck H2.checkLessThan H2.checkLessThanSafe H2.checkBigLessThanSafe H2.isLessThan H2.isLessThanSafe H2.isBigLessThanSafe H2.divMod H2.divModVarHi H2.divModVar H2.getLastBit H2.powStep H2.rangeChecks H2.decomposeLe H2.limbsToNum H2.rotRightInternal H2.constRightRotate H2.constLeftRotate
end H2.Bld
