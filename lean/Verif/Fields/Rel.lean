import Verif.BigInt.Rel
import Verif.Fields.Model

/-! # Relational lemmas for field chips: the laws `FieldRel` and their proof for `FpChip` -/

set_option autoImplicit false
set_option linter.unusedSectionVars false
namespace H2
variable {p : ℕ} [Fact p.Prime] {k : Bool}

theorem assignWitnesses_rel {ws ws' : List (ZMod p)} (h : RVs k ws ws') :
    Rel k (assignWitnesses ws) (assignWitnesses ws') (RAs k) := by
  intro s t hs r s' hr
  have hq : RQs k (ws.map QCell.witness) (ws'.map QCell.witness) := forall₂_map (fun _ _ h => h.w) h
  have key := assignRegion_rel (k := k) hq (gs := []) (gs' := []) (l := True) (fun _ => rfl) (fun _ _ => gok_nil _)
  unfold assignWitnesses at hr ⊢
  obtain ⟨u, s1, h1, h2⟩ := bind_some.1 hr
  simp only [Option.some.injEq, Prod.mk.injEq] at h2
  obtain ⟨rfl, rfl⟩ := h2
  obtain ⟨e, q⟩ := key s t hs u s1 h1
  refine ⟨fun hk => ?_, fun r' t' hr' => ?_⟩
  · obtain ⟨ly, u', t1, h1'⟩ := e hk
    exact ⟨ly, _, t1, bind_some.2 ⟨u', t1, h1', rfl⟩⟩
  · obtain ⟨u', t1, h1', h2'⟩ := bind_some.1 hr'
    simp only [Option.some.injEq, Prod.mk.injEq] at h2'
    obtain ⟨rfl, rfl⟩ := h2'
    obtain ⟨c, fr, -⟩ := q u' t1 h1'
    refine ⟨c, fr, ?_⟩
    rw [hs.len]
    refine List.forall₂_iff_get.2 ⟨by simp [c.len], fun i hi hi' => ?_⟩
    simp only [List.get_eq_getElem, List.getElem_mapIdx, List.getElem_drop, c.wl, c.wr]
    refine ⟨fun hk => ⟨?_, by simp [hk]⟩, fun hk => ?_⟩
    · simp only [c.advice hk]
    · subst hk; simp [c.cellAt]

/-- Two runs of the routines of a field chip on related points are related. -/
structure FieldRel (F : FieldOps p) (k : Bool) where
  RU : F.U → F.U → Prop
  RP : F.P → F.P → Prop
  ofP : ∀ {a a' : F.P}, RP a a' → RU (F.ofP a) (F.ofP a')
  getAssignedValue : ∀ {a a' : F.U}, RU a a' → Rel k (F.getAssignedValue a) (F.getAssignedValue a') (RV k)
  loadPrivate : ∀ {v v' : F.V}, RV k v v' → Rel k (F.loadPrivate v) (F.loadPrivate v') RP
  loadConstant : ∀ v : F.V, Rel k (F.loadConstant v) (F.loadConstant v) RP
  addNoCarry : ∀ {a a' b b' : F.U}, RU a a' → RU b b' → Rel k (F.addNoCarry a b) (F.addNoCarry a' b') RU
  addConstantNoCarry : ∀ {a a' : F.U} (v : F.V), RU a a' → Rel k (F.addConstantNoCarry a v) (F.addConstantNoCarry a' v) RU
  subNoCarry : ∀ {a a' b b' : F.U}, RU a a' → RU b b' → Rel k (F.subNoCarry a b) (F.subNoCarry a' b') RU
  negate : ∀ {a a' : F.P}, RP a a' → Rel k (F.negate a) (F.negate a') RP
  scalarMulNoCarry : ∀ {a a' : F.U} (c : ℤ), RU a a' → Rel k (F.scalarMulNoCarry a c) (F.scalarMulNoCarry a' c) RU
  scalarMulAddNoCarry : ∀ {a a' b b' : F.U} (c : ℤ), RU a a' → RU b b' →
    Rel k (F.scalarMulAddNoCarry a b c) (F.scalarMulAddNoCarry a' b' c) RU
  mulNoCarry : ∀ {a a' b b' : F.U}, RU a a' → RU b b' → Rel k (F.mulNoCarry a b) (F.mulNoCarry a' b') RU
  checkCarryModToZero : ∀ {a a' : F.U}, RU a a' → Rel k (F.checkCarryModToZero a) (F.checkCarryModToZero a') (fun _ _ => True)
  carryMod : ∀ {a a' : F.U}, RU a a' → Rel k (F.carryMod a) (F.carryMod a') RP
  rangeCheck : ∀ {a a' : F.P} (n : ℕ), RP a a' → Rel k (F.rangeCheck a n) (F.rangeCheck a' n) (fun _ _ => True)
  enforceLessThan : ∀ {a a' : F.P}, RP a a' → Rel k (F.enforceLessThan a) (F.enforceLessThan a') RP
  isSoftZero : ∀ {a a' : F.P}, RP a a' → Rel k (F.isSoftZero a) (F.isSoftZero a') (RA k)
  isSoftNonzero : ∀ {a a' : F.P}, RP a a' → Rel k (F.isSoftNonzero a) (F.isSoftNonzero a') (RA k)
  isZero : ∀ {a a' : F.P}, RP a a' → Rel k (F.isZero a) (F.isZero a') (RA k)
  isEqualUnenforced : ∀ {a a' b b' : F.P}, RP a a' → RP b b' →
    Rel k (F.isEqualUnenforced a b) (F.isEqualUnenforced a' b') (RA k)
  assertEqual : ∀ {a a' b b' : F.P}, RP a a' → RP b b' → Rel k (F.assertEqual a b) (F.assertEqual a' b') (fun _ _ => True)
  select : ∀ {a a' b b' : F.P} {s s' : AV p}, RP a a' → RP b b' → RA k s s' → Rel k (F.select a b s) (F.select a' b' s') RP
  selectByIndicator : ∀ {as as' : List F.P} {ind ind' : List (AV p)} {l : Prop}, List.Forall₂ RP as as' → RAs k ind ind' →
    (k = true → l → as.length = ind.length) → Rel k (F.selectByIndicator as ind) (F.selectByIndicator as' ind') RP l

namespace FieldRel
variable {F : FieldOps p} (R : FieldRel F k)
include R

theorem loadPrivateReduced {v v' : F.V} (h : RV k v v') : Rel k (F.loadPrivateReduced v) (F.loadPrivateReduced v') R.RP :=
  (R.loadPrivate h).bind fun _ _ h1 => R.enforceLessThan h1

theorem isEqual {a a' b b' : F.P} (ha : R.RP a a') (hb : R.RP b b') : Rel k (F.isEqual a b) (F.isEqual a' b') (RA k) :=
  (R.enforceLessThan ha).bind fun _ _ h1 => (R.enforceLessThan hb).bind fun _ _ h2 => R.isEqualUnenforced h1 h2

theorem mul {a a' b b' : F.U} (ha : R.RU a a') (hb : R.RU b b') : Rel k (F.mul a b) (F.mul a' b') R.RP :=
  (R.mulNoCarry ha hb).bind fun _ _ h => R.carryMod h

theorem divideUnsafe {a a' b b' : F.U} (ha : R.RU a a') (hb : R.RU b b') :
    Rel k (F.divideUnsafe a b) (F.divideUnsafe a' b') R.RP :=
  (R.getAssignedValue ha).bind fun _ _ h1 => (R.getAssignedValue hb).bind fun _ _ h2 =>
    (R.loadPrivate (h1.map2 F.vdiv h2)).bind fun _ _ h3 => (R.mulNoCarry (R.ofP h3) hb).bind fun _ _ h4 =>
    (R.subNoCarry h4 ha).bind fun _ _ h5 => (R.checkCarryModToZero h5).bind fun _ _ _ => Rel.pure h3

theorem divide {a a' b b' : F.P} (ha : R.RP a a') (hb : R.RP b b') : Rel k (F.divide a b) (F.divide a' b') R.RP :=
  (R.isZero hb).bind fun _ _ h => (assertIsConst_rel h _).bind fun _ _ _ => R.divideUnsafe (R.ofP ha) (R.ofP hb)

theorem negDivideUnsafe {a a' b b' : F.U} (ha : R.RU a a') (hb : R.RU b b') :
    Rel k (F.negDivideUnsafe a b) (F.negDivideUnsafe a' b') R.RP :=
  (R.getAssignedValue ha).bind fun _ _ h1 => (R.getAssignedValue hb).bind fun _ _ h2 =>
    (R.loadPrivate ((h1.map F.vneg).map2 F.vdiv h2)).bind fun _ _ h3 => (R.mulNoCarry (R.ofP h3) hb).bind fun _ _ h4 =>
    (R.addNoCarry h4 ha).bind fun _ _ h5 => (R.checkCarryModToZero h5).bind fun _ _ _ => Rel.pure h3

theorem negDivide {a a' b b' : F.P} (ha : R.RP a a') (hb : R.RP b b') : Rel k (F.negDivide a b) (F.negDivide a' b') R.RP :=
  (R.isZero hb).bind fun _ _ h => (assertIsConst_rel h _).bind fun _ _ _ => R.negDivideUnsafe (R.ofP ha) (R.ofP hb)

end FieldRel

namespace FpChip
variable (c : FpChip p)

theorem enforceLoop_rel (L n : ℕ) {l l' : List (ZMod p × AV p)} (h : List.Forall₂ (fun x y => x.1 = y.1 ∧ RA k x.2 y.2) l l')
    {o o' : Option (AV p)} (ho : RO k o o') : Rel k (enforceLoop L n l o) (enforceLoop L n l' o') (RO k) := by
  induction h generalizing o o' with
  | nil => cases ho with
    | none => exact Rel.pure .none
    | some h => exact Rel.pure (.some h)
  | @cons x y _ _ h _ ih =>
    obtain ⟨m, a⟩ := x
    obtain ⟨m', a'⟩ := y
    obtain ⟨rfl, h⟩ := h
    cases ho with
    | none => exact (isLessThan_rel L h.q (RQ.constant_rfl _) n).bind fun _ _ h1 => ih (.some h1)
    | some h2 => exact (add_rel (RQ.constant_rfl _) h2.q).bind fun _ _ h3 => (isLessThan_rel L h.q h3.q n).bind fun _ _ h1 => ih (.some h1)

theorem same_rel {α : Type} (l : List α) : List.Forall₂ (fun x y => x = y) l l := List.forall₂_same.2 fun _ _ => rfl

theorem enforceLessThanP_rel {a a' : CrtInt p} (ha : RC k a a') :
    Rel k (c.enforceLessThanP a) (c.enforceLessThanP a') (fun _ _ => True) :=
  (enforceLoop_rel c.L c.n (zip_rel (same_rel _) ha.trunc.limbs) .none).bind fun _ _ h => (unwrapO_rel h).bind fun _ _ h1 =>
    assertIsConst_rel h1 _

theorem loadConstantUint_rel (a : ℕ) : Rel k (c.loadConstantUint a) (c.loadConstantUint a) (RC k) := assignFixed_rel _ _ _

theorem isLessThanP_rel {a a' : CrtInt p} (ha : RC k a a') : Rel k (c.isLessThanP a) (c.isLessThanP a') (RA k) := by
  refine (c.loadConstantUint_rel _).bind fun _ _ h => (base1_rel c).bind ?_
  rintro b _ rfl
  refine (subCrt_rel _ _ _ ha h).bind ?_
  rintro ⟨_, _⟩ ⟨_, _⟩ ⟨-, h2⟩
  exact (isZero_rel h2).bind fun _ _ h3 => not_rel h3.q

theorem isEven_rel {a a' : CrtInt p} (ha : RC k a a') : Rel k (c.isEven a) (c.isEven a') (RA k) :=
  (c.enforceLessThanP_rel ha).bind fun _ _ _ => bigIsEvenPositive_rel _ _ ha.trunc

theorem getAssignedValue_rel {a a' : CrtInt p} (ha : RC k a a') : Rel k (c.getAssignedValue a) (c.getAssignedValue a') (RV k) :=
  unwrapV_rel (ha.value.map fun v => Utils.bigintToFe c.modulus (v.tmod (c.modulus : ℤ)))

theorem rangeCheckLoop_rel (L n : ℕ) {l l' : List (AV p)} (h : RAs k l l') (r : ℕ) :
    Rel k (rangeCheckLoop L n l r) (rangeCheckLoop L n l' r) (fun _ _ => True) := by
  induction h generalizing r with
  | nil => exact Rel.pure trivial
  | cons h _ ih => exact (rangeCheck_rel L h _).bind fun _ _ _ => ih _

theorem rangeCheck_rel {a a' : CrtInt p} (ha : RC k a a') (n : ℕ) : Rel k (c.rangeCheck a n) (c.rangeCheck a' n) (fun _ _ => True) :=
  rangeCheckLoop_rel _ _ ha.trunc.limbs _

theorem loadPrivate_rel {v v' : ZMod c.modulus} (h : RV k v v') : Rel k (c.loadPrivate v) (c.loadPrivate v') (RC k) := by
  have hv := h.map (Utils.feToBiguint (p := c.modulus))
  exact (decomposeBiguint_rel hv _ _).bind fun _ _ h1 => (assignWitnesses_rel h1).bind fun _ _ h2 =>
    (intoCrt_rel h2 hv _ _).bind fun _ _ h3 => (c.rangeCheck_rel h3 _).bind fun _ _ _ => Rel.pure h3

theorem loadConstant_rel (v : ZMod c.modulus) : Rel k (c.loadConstant v) (c.loadConstant v) (RC k) := c.loadConstantUint_rel _

theorem addConstLoop_rel {l l' : List (AV p × ZMod p)} (h : List.Forall₂ (fun x y => RA k x.1 y.1 ∧ x.2 = y.2) l l') :
    Rel k (addConstLoop l) (addConstLoop l') (RAs k) := by
  induction h with
  | nil => exact Rel.pure .nil
  | @cons x y _ _ h _ ih =>
    obtain ⟨a, m⟩ := x
    obtain ⟨a', m'⟩ := y
    obtain ⟨h, rfl⟩ := h
    exact (add_rel h.q (RQ.constant_rfl _)).bind fun _ _ h1 => ih.bind fun _ _ h2 => Rel.pure (.cons h1 h2)

theorem addConstantNoCarry_rel {a a' : CrtInt p} (ha : RC k a a') (v : ZMod c.modulus) :
    Rel k (c.addConstantNoCarry a v) (c.addConstantNoCarry a' v) (RC k) := by
  refine (unwrapS_rel _).bind ?_
  rintro ls _ rfl
  refine (unwrapS_rel _).bind ?_
  rintro nv _ rfl
  exact (addConstLoop_rel (zip_rel ha.trunc.limbs (same_rel _))).bind fun _ _ h =>
    (add_rel ha.native.q (RQ.constant_rfl _)).bind fun _ _ h2 =>
    Rel.pure ⟨⟨h, by simp only [ha.trunc.bits]⟩, h2, fun hk => by simp only [ha.value hk]⟩

theorem negate_rel {a a' : CrtInt p} (ha : RC k a a') : Rel k (c.negate a) (c.negate a') (RC k) := by
  refine (c.loadConstantUint_rel _).bind fun _ _ h => (base1_rel c).bind ?_
  rintro b _ rfl
  refine (subCrt_rel _ _ _ h ha).bind ?_
  rintro ⟨_, _⟩ ⟨_, _⟩ ⟨h1, h2⟩
  exact (assertIsConst_rel h2 _).bind fun _ _ _ => (bigIsZeroPositive_rel ha.trunc).bind fun _ _ h3 => selectCrt_rel ha h1 h3

theorem isSoftNonzero_rel {a a' : CrtInt p} (ha : RC k a a') : Rel k (c.isSoftNonzero a) (c.isSoftNonzero a') (RA k) := by
  refine (bigIsZeroPositive_rel ha.trunc).bind fun _ _ h0 => (not_rel h0.q).bind fun _ _ h1 =>
    (c.loadConstantUint_rel _).bind fun _ _ h => (base1_rel c).bind ?_
  rintro b _ rfl
  refine (subCrt_rel _ _ _ ha h).bind ?_
  rintro ⟨_, _⟩ ⟨_, _⟩ ⟨-, h2⟩
  exact (isZero_rel h2).bind fun _ _ h3 => (not_rel h3.q).bind fun _ _ h4 => and_rel h1.q h4.q

theorem isZero_rel {a a' : CrtInt p} (ha : RC k a a') : Rel k (c.isZero a) (c.isZero a') (RA k) :=
  (c.enforceLessThanP_rel ha).bind fun _ _ _ => bigIsZeroPositive_rel ha.trunc

theorem eqLoop_rel {l l' : List (AV p × AV p)} (h : List.Forall₂ (RA2 k) l l') :
    Rel k (eqLoop l) (eqLoop l') (fun _ _ => True) := by
  induction h with
  | nil => exact Rel.pure trivial
  | cons h _ ih => exact (constrainEqual_rel h.1 h.2).bind fun _ _ _ => ih

theorem assertEqual_rel {a a' b b' : CrtInt p} (ha : RC k a a') (hb : RC k b b') :
    Rel k (c.assertEqual a b) (c.assertEqual a' b') (fun _ _ => True) :=
  (eqLoop_rel (zip_rel ha.trunc.limbs hb.trunc.limbs)).bind fun _ _ _ => (c.enforceLessThanP_rel ha).bind fun _ _ _ =>
    c.enforceLessThanP_rel hb

/-- `FpChip` satisfies the relational laws. -/
def fieldRel (k : Bool) : FieldRel c.ops k where
  RU := RC k
  RP := RC k
  ofP := id
  getAssignedValue := fun h => c.getAssignedValue_rel h
  loadPrivate := fun h => c.loadPrivate_rel h
  loadConstant := fun v => c.loadConstant_rel v
  addNoCarry := addNoCarryCrt_rel
  addConstantNoCarry := fun v h => c.addConstantNoCarry_rel h v
  subNoCarry := subNoCarryCrt_rel
  negate := fun h => c.negate_rel h
  scalarMulNoCarry := fun n h => scalarMulNoCarryCrt_rel h n
  scalarMulAddNoCarry := fun n h h' => scalarMulAddNoCarryCrt_rel h h' n
  mulNoCarry := fun h h' => mulNoCarryCrt_rel h h' _
  checkCarryModToZero := fun h => checkCarryModToZeroCrt_rel c h
  carryMod := fun h => carryModCrt_rel c h
  rangeCheck := fun n h => c.rangeCheck_rel h n
  enforceLessThan := fun h => (c.enforceLessThanP_rel h).bind fun _ _ _ => Rel.pure h
  isSoftZero := fun h => bigIsZeroPositive_rel h.trunc
  isSoftNonzero := fun h => c.isSoftNonzero_rel h
  isZero := fun h => c.isZero_rel h
  isEqualUnenforced := fun h h' => bigIsEqual_rel h.trunc.limbs h'.trunc.limbs
  assertEqual := fun h h' => c.assertEqual_rel h h'
  select := fun h1 h2 h3 => selectCrt_rel h1 h2 h3
  selectByIndicator := fun h h' _ => (selIndCrt_rel h h' _).mono fun _ => trivial

end FpChip
end H2
