import Verif.Fields.Laws
import Verif.Fields.Ext

/-!
# `NativeFieldChip` satisfies the field laws
-/

set_option autoImplicit false
set_option linter.unusedSectionVars false
namespace H2
variable {p : ℕ} [Fact p.Prime] {tbl : ZMod p → Prop}

theorem native_selInd (as : List (AV p)) (ind : List (AV p)) : Sound tbl (selectByIndicator (as.map QCell.existing) ind) (fun w r => ∀ Xs,
    as.Forall₂ (fun a X => at' w a = X) Xs → ∀ idx, ind.map (at' w) = oneHot as.length idx → ∀ X, Xs[idx]? = some X → at' w r = X) := by
  intro s
  by_cases hl : (as.map QCell.existing).length = ind.length
  · refine (selectByIndicator_sound _ ind hl s).weaken ?_
    rintro w r _ ⟨xs, h1, h2⟩ Xs hX idx hi X hx
    have hXs : Xs = as.map (at' w) := by
      clear * - hX
      induction hX with
      | nil => rfl
      | cons h _ ih => rw [List.map_cons, h, ih]
    subst hXs
    rw [h2, QOks.existing h1, hi]
    have := dot_oneHot (as.map (at' w)) idx
    rw [List.length_map] at this
    rw [this, List.getD, hx]
    rfl
  · refine Snd.rd (selBody_rd 0 ((as.map QCell.existing).zip ind)) fun cells _ => ?_
    refine (assignRegionLast_snd _ _ (by simp)).weaken ?_
    rintro w r _ _ Xs hX idx hi X hx
    have := congrArg List.length hi
    simp [oneHot] at this
    simp [this] at hl

/-- The native chip implements the circuit's own field. -/
def nativeLaws (L : ℕ) : FieldLaws (nativeOps p L) (ZMod p) tbl where
  Sz := Unit
  URep := fun w a X _ => at' w a = X
  PRep := fun w a X => at' w a = X
  RRep := fun w a X => at' w a = X
  val := fun v => v
  pSz := ()
  addSz := fun _ _ => ()
  addcSz := fun _ => ()
  subSz := fun _ _ => ()
  mulSz := fun _ _ => ()
  smulSz := fun _ _ => ()
  smulAddSz := fun _ _ _ => ()
  carryFits := fun _ => True
  zeroFits := fun _ => True
  r_p := fun _ _ _ h => h
  p_u := fun _ _ _ h => h
  p_unique := fun _ _ _ _ h1 h2 => h1.symm.trans h2
  getAssignedValue := fun a s => Snd.weaken ((unwrap_rd _).snd) fun _ _ _ _ => trivial
  loadPrivate := fun v s => (loadWitness_sound v s).weaken fun w r _ _ => ⟨_, rfl⟩
  loadConstant := fun v s => loadConstant_sound v s
  addNoCarry := fun a b s => (add_sound _ _ s).weaken <| by
    rintro w r _ ⟨x, y, rfl, rfl, h⟩ X Y - - rfl rfl
    exact h
  addConstantNoCarry := fun a b s => (add_sound _ _ s).weaken <| by
    rintro w r _ ⟨x, y, rfl, rfl, h⟩ X - rfl
    exact h
  subNoCarry := fun a b s => (sub_sound _ _ s).weaken <| by
    rintro w r _ ⟨x, y, rfl, rfl, h⟩ X Y - - rfl rfl
    exact h
  negate := fun a s => (neg_sound _ s).weaken <| by
    rintro w r _ ⟨x, rfl, h⟩ X rfl
    exact h
  scalarMulNoCarry := fun a c s => by
    refine Snd.rd (i64ToFe_rd c) fun cf hcf => (mul_sound _ _ s).weaken ?_
    rintro w r _ ⟨x, y, rfl, rfl, h⟩ X - rfl
    rw [h, hcf.1]
  scalarMulAddNoCarry := fun a b c s => by
    refine Snd.rd (i64ToFe_rd c) fun cf hcf => (mulAdd_sound _ _ _ s).weaken ?_
    rintro w r _ ⟨x, y, z, rfl, rfl, rfl, h⟩ X Y - - rfl rfl
    rw [h, hcf.1]
  mulNoCarry := fun a b s => (mul_sound _ _ s).weaken <| by
    rintro w r _ ⟨x, y, rfl, rfl, h⟩ X Y - - rfl rfl
    exact h
  checkCarryModToZero := fun a s => (assertIsConst_sound a 0 s).weaken <| by
    rintro w r _ h X - - rfl
    exact h
  carryMod := fun a s => Snd.pure fun w _ X _ _ h => h
  enforceLessThan := fun a s => Snd.pure fun w _ X h => h
  isSoftZero := fun a s => (isZero_sound a s).weaken <| by
    rintro w r _ h X rfl
    rw [h]
    refine ⟨by split <;> simp, ?_, fun _ => rfl⟩
    split
    · next h => exact fun _ => h
    · intro h; simp at h
  isZero := fun a s => (isZero_sound a s).weaken <| by
    rintro w r _ h X rfl
    exact h
  isEqualUnenforced := fun a b s => (isEqual_sound _ _ s).weaken <| by
    rintro w r _ ⟨x, y, rfl, rfl, h⟩ X Y rfl rfl
    rw [h]
    refine ⟨by split <;> simp, ?_, fun _ _ => rfl⟩
    split
    · next h => exact fun _ => h
    · intro h; simp at h
  assertEqual := fun a b s => (constrainEqual_sound a b s).weaken <| by
    rintro w r _ h X Y rfl rfl
    exact h
  select := fun a b sel s => (select_sound _ _ _ s).weaken <| by
    rintro w r _ ⟨x, y, z, rfl, rfl, rfl, h⟩
    constructor <;>
    · rintro X Y rfl rfl
      exact ⟨fun hs => by rw [h, hs]; ring, fun hs => by rw [h, hs]; ring⟩
  selectByIndicator := native_selInd
  selectByIndicatorR := native_selInd
  val_zero := rfl

/-- `NativeFieldChip::is_soft_nonzero` returns `-1` for zero and `0` for every other element. -/
theorem nativeIsSoftNonzero_sound (a : AV p) : Sound tbl (nativeIsSoftNonzero a) (fun w r =>
    at' w r = if at' w a = 0 then -1 else 0) := by
  intro s
  refine Snd.bind (isZero_sound a s) fun z s1 _ => (neg_sound _ s1).weaken ?_
  rintro w r _ ⟨x, rfl, h⟩ hz
  rw [h, hz]
  split <;> simp

end H2
