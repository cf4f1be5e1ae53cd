import Verif.Threads.EqOwn
import Verif.Ecc.Sig

/-!
# The copy constraints of the elliptic curve routines involve a cell of the context

As `Verif/Threads/EqOwn`, for big integers, prime fields, elliptic curves and ECDSA; the routines that call `constrain_equal` do so with a
cell they have just made (`RetOwn`).
-/

set_option autoImplicit false
namespace H2.EqO
open H2 Lean Elab Tactic Meta Command
variable {p : ℕ}

/-- The routine returns a cell of the context. -/
def RetOwn (m : M p (AV p)) : Prop := ∀ s r s', m s = some (r, s') → ∀ c, r.cell = some c → Own s' c

theorem lastM_ro : RetOwn (lastM : M p (AV p)) := by
  intro s r s' h c hc
  unfold lastM at h
  obtain ⟨a, s1, h1, h2⟩ := bind_some.1 h
  simp only [last?, Option.some.injEq, Prod.mk.injEq] at h1
  obtain ⟨rfl, rfl⟩ := h1
  simp only [unwrap, Option.map_eq_some_iff, Prod.mk.injEq] at h2
  obtain ⟨x, hx, rfl, rfl⟩ := h2
  obtain ⟨w, -, rfl⟩ := hx
  dsimp only at hc
  split at hc
  · cases hc
  · cases hc; exact ⟨rfl, rfl⟩

theorem RetOwn.bind {α : Type} {m : M p α} {k : α → M p (AV p)} (h : ∀ a, RetOwn (k a)) : RetOwn (m >>= k) := by
  intro s r s' hr
  obtain ⟨a, s1, -, h2⟩ := bind_some.1 hr
  exact h a s1 r s' h2

theorem innerProduct_ro [Fact p.Prime] (a b : List (QCell p)) : RetOwn (innerProduct a b) := .bind fun _ => lastM_ro

theorem and_ro [Fact p.Prime] (a b : QCell p) : RetOwn (H2.and a b) := by
  unfold H2.and mul assignRegionLast
  exact .bind fun _ => .bind fun _ => .bind fun _ => lastM_ro

/-- `constrain_equal` of a cell that was just made. -/
theorem EqOwn.bindEq {β : Type} {a : AV p} {m : M p (AV p)} {k : AV p → M p β} (hm : EqOwn m) (hr : RetOwn m) (hk : ∀ b, EqOwn (k b)) :
    EqOwn (m >>= fun b => constrainEqual a b >>= fun _ => k b) := by
  unfold EqOwn at hm hk ⊢
  intro s r s' h
  obtain ⟨b, s1, h1, h2⟩ := bind_some.1 h
  obtain ⟨u, s2, h3, h4⟩ := bind_some.1 h2
  obtain ⟨t1, c1, e1⟩ := hm s b s1 h1
  obtain ⟨t3, c3, e3⟩ := hk b s2 r s' h4
  have hs : s2.typeId = s1.typeId ∧ s2.ctxId = s1.ctxId ∧ ∀ e ∈ s2.eqs, e ∈ s1.eqs ∨ Own s1 e.2 := by
    unfold constrainEqual at h3
    split at h3
    · simp only [Option.some.injEq, Prod.mk.injEq, true_and] at h3
      subst h3
      exact ⟨rfl, rfl, fun e he => .inl he⟩
    · split at h3
      · rename_i d hd
        simp only [Option.some.injEq, Prod.mk.injEq, true_and] at h3
        subst h3
        refine ⟨rfl, rfl, fun e he => ?_⟩
        rcases List.mem_append.1 he with he | he
        · exact .inl he
        · rw [List.mem_singleton.1 he]
          exact .inr (hr s b s1 h1 _ hd)
      · cases h3
  obtain ⟨t2, c2, e2⟩ := hs
  refine ⟨t3.trans (t2.trans t1), c3.trans (c2.trans c1), fun e he => ?_⟩
  rcases e3 e he with h | h | h
  · rcases e2 e h with h | h
    · exact e1 e h
    · exact .inr (.inr ⟨h.1.trans t1, h.2.trans c1⟩)
  · exact .inr (.inl ⟨h.1.trans (t2.trans t1), h.2.trans (c2.trans c1)⟩)
  · exact .inr (.inr ⟨h.1.trans (t2.trans t1), h.2.trans (c2.trans c1)⟩)

attribute [irreducible] RetOwn

/-- `EqOwn` of the operations of a field chip used here (`assert_equal` is not: its arguments may come from another context). -/
class OpsEo (F : FieldOps p) : Prop where
  getAssignedValue : ∀ a, EqOwn (F.getAssignedValue a)
  loadPrivate : ∀ a, EqOwn (F.loadPrivate a)
  loadConstant : ∀ a, EqOwn (F.loadConstant a)
  addNoCarry : ∀ a b, EqOwn (F.addNoCarry a b)
  addConstantNoCarry : ∀ a b, EqOwn (F.addConstantNoCarry a b)
  subNoCarry : ∀ a b, EqOwn (F.subNoCarry a b)
  negate : ∀ a, EqOwn (F.negate a)
  scalarMulNoCarry : ∀ a b, EqOwn (F.scalarMulNoCarry a b)
  scalarMulAddNoCarry : ∀ a b c, EqOwn (F.scalarMulAddNoCarry a b c)
  mulNoCarry : ∀ a b, EqOwn (F.mulNoCarry a b)
  checkCarryModToZero : ∀ a, EqOwn (F.checkCarryModToZero a)
  carryMod : ∀ a, EqOwn (F.carryMod a)
  enforceLessThan : ∀ a, EqOwn (F.enforceLessThan a)
  isSoftNonzero : ∀ a, EqOwn (F.isSoftNonzero a)
  isZero : ∀ a, EqOwn (F.isZero a)
  isEqualUnenforced : ∀ a b, EqOwn (F.isEqualUnenforced a b)
  select : ∀ a b c, EqOwn (F.select a b c)
  selectByIndicator : ∀ a b, EqOwn (F.selectByIndicator a b)

section
variable (F : FieldOps p) [OpsEo F]
theorem «FieldOps.getAssignedValue_eo» (a : F.U) : EqOwn (F.getAssignedValue a) := OpsEo.getAssignedValue a
theorem «FieldOps.loadPrivate_eo» (a : F.V) : EqOwn (F.loadPrivate a) := OpsEo.loadPrivate a
theorem «FieldOps.loadConstant_eo» (a : F.V) : EqOwn (F.loadConstant a) := OpsEo.loadConstant a
theorem «FieldOps.addNoCarry_eo» (a b : F.U) : EqOwn (F.addNoCarry a b) := OpsEo.addNoCarry a b
theorem «FieldOps.addConstantNoCarry_eo» (a : F.U) (b : F.V) : EqOwn (F.addConstantNoCarry a b) := OpsEo.addConstantNoCarry a b
theorem «FieldOps.subNoCarry_eo» (a b : F.U) : EqOwn (F.subNoCarry a b) := OpsEo.subNoCarry a b
theorem «FieldOps.negate_eo» (a : F.P) : EqOwn (F.negate a) := OpsEo.negate a
theorem «FieldOps.scalarMulNoCarry_eo» (a : F.U) (b : ℤ) : EqOwn (F.scalarMulNoCarry a b) := OpsEo.scalarMulNoCarry a b
theorem «FieldOps.scalarMulAddNoCarry_eo» (a b : F.U) (c : ℤ) : EqOwn (F.scalarMulAddNoCarry a b c) := OpsEo.scalarMulAddNoCarry a b c
theorem «FieldOps.mulNoCarry_eo» (a b : F.U) : EqOwn (F.mulNoCarry a b) := OpsEo.mulNoCarry a b
theorem «FieldOps.checkCarryModToZero_eo» (a : F.U) : EqOwn (F.checkCarryModToZero a) := OpsEo.checkCarryModToZero a
theorem «FieldOps.carryMod_eo» (a : F.U) : EqOwn (F.carryMod a) := OpsEo.carryMod a
theorem «FieldOps.enforceLessThan_eo» (a : F.P) : EqOwn (F.enforceLessThan a) := OpsEo.enforceLessThan a
theorem «FieldOps.isSoftNonzero_eo» (a : F.P) : EqOwn (F.isSoftNonzero a) := OpsEo.isSoftNonzero a
theorem «FieldOps.isZero_eo» (a : F.P) : EqOwn (F.isZero a) := OpsEo.isZero a
theorem «FieldOps.isEqualUnenforced_eo» (a b : F.P) : EqOwn (F.isEqualUnenforced a b) := OpsEo.isEqualUnenforced a b
theorem «FieldOps.select_eo» (a b : F.P) (c : AV p) : EqOwn (F.select a b c) := OpsEo.select a b c
theorem «FieldOps.selectByIndicator_eo» (a : List F.P) (b : List (AV p)) : EqOwn (F.selectByIndicator a b) := OpsEo.selectByIndicator a b
end

/-- `EqOwn` of a `do` block, with `constrain_equal` of fresh cells. -/
macro "eof" : tactic => `(tactic| repeat' (first
  | intro _
  | assumption
  | with_reducible exact EqOwn.pure _
  | exact innerProduct_ro _ _
  | exact and_ro _ _
  | with_reducible apply EqOwn.bindEq
  | eo_known
  | with_reducible apply EqOwn.bind
  | (split)
  | (dsimp only)
  | solve_by_elim))

/-- `eof_auto f` proves `theorem f_eo : EqOwn (f ..)`, for a routine of a field chip `F` under `OpsEo F`. -/
elab "eof_auto " fs:ident+ : command => do
  for id in fs do
    liftTermElabM do
      let f ← realizeGlobalConstNoOverloadWithInfo id
      let info ← getConstInfo f
      let lvls := info.levelParams.map Level.param
      let fe := mkConst f lvls
      forallTelescope info.type fun xs _ => do
        let e := mkAppN fe xs
        let stmt ← mkAppM ``EqOwn #[e]
        let fld ← xs.findM? fun x => do return (← inferType x).isAppOf ``FieldOps
        let go (xs : Array Expr) : TermElabM Unit := do
          let goalTy ← mkForallFVars xs stmt
          let fid := mkIdent f
          let ctor ← `(by intros; first | (unfold $fid; eof; done) | (fun_induction $fid <;> (eof; done)))
          let v ← Term.elabTermEnsuringType ctor goalTy
          Term.synthesizeSyntheticMVarsNoPostponing
          let v ← instantiateMVars v
          addDecl <| .thmDecl { name := eoName f, levelParams := info.levelParams, type := goalTy, value := v }
        match fld with
        | none => go xs
        | some x => withLocalDecl `inst .instImplicit (← mkAppM ``OpsEo #[x]) fun i => go (xs.push i)

theorem adviceLen_eo : EqOwn (adviceLen : M p ℕ) := .read fun s r s' h => by
  simp only [adviceLen, Option.some.injEq, Prod.mk.injEq] at h; exact h.2.symm
theorem addCellToLookup_eo (a : AV p) : EqOwn (addCellToLookup a) := .of_eqs fun s r s' h => by
  simp only [addCellToLookup, Option.some.injEq, Prod.mk.injEq, true_and] at h; subst h; exact ⟨rfl, rfl, rfl⟩
theorem assertIsConst_eo (a : AV p) (c : ZMod p) : EqOwn (assertIsConst a c) := .of_eqs fun s r s' h => by
  unfold assertIsConst at h
  split at h
  · simp only [Option.some.injEq, Prod.mk.injEq, true_and] at h; subst h; exact ⟨rfl, rfl, rfl⟩
  · simp only [Option.map_eq_some_iff, Prod.mk.injEq, true_and] at h
    obtain ⟨_, _, rfl⟩ := h; exact ⟨rfl, rfl, rfl⟩
theorem assignWitnesses_eo (ws : List (ZMod p)) : EqOwn (assignWitnesses ws) := by
  have h0 : ∀ n, EqOwn (assignRegion (ws.map .witness) [] >>= fun _ => (fun s' => some ((s'.advice.drop n).mapIdx
      (fun i v => ⟨v, if s'.wgo then none else some (s'.cellAt (n + i))⟩), s') : M p (List (AV p)))) := fun n =>
    (assignRegion_eo _ _).bind fun _ => .read fun s r s' h => by
      simp only [Option.some.injEq, Prod.mk.injEq] at h; exact h.2.symm
  unfold EqOwn at h0 ⊢
  intro s r s' h
  exact h0 _ s r s' h

theorem zipEqM_eo {f : AV p → AV p → M p (AV p)} (as bs : List (AV p)) (h : ∀ a b, EqOwn (f a b)) : EqOwn (zipEqM f as bs) := by
  fun_induction zipEqM f as bs <;> eof
theorem mapAM_eo {f : AV p → M p (AV p)} (as : List (AV p)) (h : ∀ a, EqOwn (f a)) : EqOwn (mapAM f as) := by
  fun_induction mapAM f as <;> eof

eof_auto H2.assertBit H2.assertBits H2.sliceTo H2.numToBits H2.pow2At H2.lookupsAt H2.rangeLimbs H2.rangeRem H2.rangeCheckLimb H2.rangeCheck H2.isLessThan
eof_auto H2.neg H2.and H2.or H2.indicatorInner H2.indicatorOuter H2.bitsToIndicator H2.selStep H2.selBody H2.selectByIndicator H2.column
theorem selIndVal_eo [Fact p.Prime] (acc : ℤ) (l : List (CrtInt p × AV p)) : EqOwn (selIndVal acc l) := by
  induction l generalizing acc with
  | nil => exact EqOwn.pure _
  | cons x l ih => obtain ⟨x, y⟩ := x; exact (unwrap_eo _).bind fun _ => ih _

eof_auto H2.ipLastCell H2.innerProductLeftLast
eof_auto H2.FpChip.base1 H2.subU H2.addNoCarry H2.addNoCarryCrt H2.subNoCarry H2.subNoCarryCrt H2.negInt H2.scalarMulNoCarry H2.i64ToFe H2.scalarMulNoCarryCrt H2.scalarMulAddNoCarry H2.scalarMulAddNoCarryCrt H2.mulLoop H2.mulNoCarry H2.mulNoCarryCrt H2.selectInt H2.selectCrt H2.limbCol H2.selIndLoop H2.selIndInt H2.evalNative H2.selIndNative H2.selIndCrt H2.intoCrt H2.assignFixed H2.carries H2.carryLoop H2.checkCarryToZero H2.carryModLoop H2.rangeChecksLast H2.quotCheck H2.quotChecks H2.carryModCrt H2.carryZeroLoop H2.checkCarryModToZeroCrt H2.subLt H2.subStep H2.subLoop H2.subInt H2.subCrt H2.bigLessThan H2.bigIsZeroPositive H2.bigIsEqualLoop H2.bigIsEqual

eof_auto H2.FieldOps.isEqual H2.FieldOps.mul H2.FieldOps.divideUnsafe H2.FieldOps.negDivideUnsafe H2.FieldOps.loadPrivateReduced

eof_auto H2.FpChip.enforceLoop H2.FpChip.enforceLessThanP H2.FpChip.loadConstantUint H2.FpChip.getAssignedValue H2.FpChip.rangeCheckLoop H2.FpChip.rangeCheck H2.FpChip.loadPrivate H2.FpChip.loadConstant H2.FpChip.addConstLoop H2.FpChip.addConstantNoCarry H2.FpChip.negate H2.FpChip.isSoftNonzero H2.FpChip.isZero

instance [Fact p.Prime] (c : FpChip p) : OpsEo c.ops where
  getAssignedValue := «FpChip.getAssignedValue_eo» c
  loadPrivate := «FpChip.loadPrivate_eo» c
  loadConstant := «FpChip.loadConstant_eo» c
  addNoCarry := addNoCarryCrt_eo
  addConstantNoCarry := «FpChip.addConstantNoCarry_eo» c
  subNoCarry := subNoCarryCrt_eo
  negate := «FpChip.negate_eo» c
  scalarMulNoCarry := scalarMulNoCarryCrt_eo
  scalarMulAddNoCarry := scalarMulAddNoCarryCrt_eo
  mulNoCarry := fun a b => mulNoCarryCrt_eo a b _
  checkCarryModToZero := checkCarryModToZeroCrt_eo c
  carryMod := carryModCrt_eo c
  enforceLessThan := fun a => («FpChip.enforceLessThanP_eo» c a).bind fun _ => .pure _
  isSoftNonzero := «FpChip.isSoftNonzero_eo» c
  isZero := «FpChip.isZero_eo» c
  isEqualUnenforced := fun a b => bigIsEqual_eo _ _
  select := selectCrt_eo
  selectByIndicator := fun a b => selIndCrt_eo a b _

eof_auto H2.reducedX H2.checkPointsAreUnequal H2.chordEnd H2.ecAddUnequal H2.ecSubUnequal H2.ecSelect H2.ecSubStrict H2.ecDouble
eof_auto H2.ecSelectByIndicator H2.ecSelectFromBits H2.curveDiff H2.checkIsOnCurve H2.loadPrivateUnchecked H2.loadPoint H2.intoStrictPoint H2.assignConstantPoint H2.ecSumLoop H2.ecSum H2.chunkBits H2.msmBits H2.doublings H2.doubleN H2.cacheRow H2.cacheLoop H2.sliceM H2.msmAddLoop H2.msmLoop H2.multiScalarMultiply H2.scalarMultiply H2.fbLoad H2.fbLoop H2.fixedScalarMultiply

theorem ecdsaVerify_eo [Fact p.Prime] (c : FpChip p) (N : ℕ) (C : NativeCurve c.ops) (b : c.ops.V) (gen : C.G) (rand : SigRand c) (pubkey : EcPt c.ops)
    (r s msghash : CrtInt p) (varWindowBits fixedWindowBits : ℕ) : EqOwn (ecdsaVerify c N C b gen rand pubkey r s msghash varWindowBits fixedWindowBits) := by
  unfold ecdsaVerify
  eof
  refine EqOwn.bind («FieldOps.divideUnsafe_eo» _ _ _) fun _ => EqOwn.bind («FieldOps.divideUnsafe_eo» _ _ _) fun _ => ?_
  eof
  refine EqOwn.bind («FieldOps.enforceLessThan_eo» _ _) fun _ => ?_
  eof

eof_auto H2.getLastBit H2.bigIsEvenPositive H2.FpChip.isEven H2.FpChip.isLessThanP

theorem schnorrVerify_eo [Fact p.Prime] (c : FpChip p) (N : ℕ) (C : NativeCurve c.ops) (b : c.ops.V) (gen : C.G) (rand : SigRand c) (pubkey : EcPt c.ops)
    (r s msghash : CrtInt p) (varWindowBits fixedWindowBits : ℕ) : EqOwn (schnorrVerify c N C b gen rand pubkey r s msghash varWindowBits fixedWindowBits) := by
  unfold schnorrVerify
  eof
  refine EqOwn.bind («FieldOps.enforceLessThan_eo» _ _) fun _ => ?_
  eof

end H2.EqO
