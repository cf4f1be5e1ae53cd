import Verif.Fields.Complete
import Verif.Fields.Laws
import Verif.Props.Utils

/-!
# What a `FieldChip` must satisfy to be complete, and the derived operations

`FieldCmp l`: every method of the chip, run honestly on points which hold canonical representatives, succeeds, leaves a state in which
the honest assignment satisfies all constraints, and returns the honest result.
-/

set_option autoImplicit false
set_option linter.unusedSectionVars false
namespace H2
variable {p : ℕ} [Fact p.Prime]

/-- The bit for a proposition. -/
def bit {p : ℕ} (b : Prop) [Decidable b] : ZMod p := if b then 1 else 0

/-- The methods of the chip `F` are complete (with the sizes of the laws `l`). -/
structure FieldCmp {F : FieldOps p} {K : Type} [Field K] [DecidableEq K] {tbl : ZMod p → Prop} (l : FieldLaws F K tbl) where
  /-- in the honest assignment of this state, an unreduced point holds an element (and knows its value) -/
  UW : (Cell → ZMod p) → Ctx p → F.U → K → l.Sz → Prop
  /-- in the honest assignment of this state, a point holds the canonical representative of an element -/
  PW : (Cell → ZMod p) → Ctx p → F.P → K → Prop
  cFits : l.Sz → Prop
  zFits : l.Sz → Prop
  u_mono : ∀ {ext s s' a X sx}, UW ext s a X sx → Ext s s' → UW ext s' a X sx
  p_mono : ∀ {ext s s' a X}, PW ext s a X → Ext s s' → PW ext s' a X
  p_u : ∀ {ext s a X}, PW ext s a X → UW ext s (F.ofP a) X l.pSz
  /-- the size of canonical representatives (`pSz` is that of all proper representatives) -/
  cSz : l.Sz
  p_c : ∀ {ext s a X}, PW ext s a X → UW ext s (F.ofP a) X cSz
  p_r : ∀ {ext s a X}, PW ext s a X → l.RRep (hw ext s) a X
  val_div : ∀ u v, l.val (F.vdiv u v) = l.val u / l.val v
  val_neg : ∀ u, l.val (F.vneg u) = -l.val u
  getAssignedValue : ∀ {ext s a X sx}, UW ext s a X sx → ∃ v, F.getAssignedValue a = pure v ∧ l.val v = X
  loadPrivate : ∀ {ext s} v, Cmp tbl ext s (F.loadPrivate v) (fun r s' => PW ext s' r (l.val v))
  loadConstant : ∀ {ext s} v, Cmp tbl ext s (F.loadConstant v) (fun r s' => PW ext s' r (l.val v))
  addNoCarry : ∀ {ext s a b X Y sx sy}, UW ext s a X sx → UW ext s b Y sy →
    Cmp tbl ext s (F.addNoCarry a b) (fun r s' => UW ext s' r (X + Y) (l.addSz sx sy))
  addConstantNoCarry : ∀ {ext s a X sx} v, UW ext s a X sx →
    Cmp tbl ext s (F.addConstantNoCarry a v) (fun r s' => UW ext s' r (X + l.val v) (l.addcSz sx))
  subNoCarry : ∀ {ext s a b X Y sx sy}, UW ext s a X sx → UW ext s b Y sy →
    Cmp tbl ext s (F.subNoCarry a b) (fun r s' => UW ext s' r (X - Y) (l.subSz sx sy))
  negate : ∀ {ext s a X}, PW ext s a X → Cmp tbl ext s (F.negate a) (fun r s' => PW ext s' r (-X))
  scalarMulNoCarry : ∀ {ext s a X sx} (c : ℤ), |c| < 2 ^ 63 → UW ext s a X sx →
    Cmp tbl ext s (F.scalarMulNoCarry a c) (fun r s' => UW ext s' r (X * (c : K)) (l.smulSz c sx))
  scalarMulAddNoCarry : ∀ {ext s a b X Y sx sy} (c : ℤ), |c| < 2 ^ 63 → UW ext s a X sx → UW ext s b Y sy →
    Cmp tbl ext s (F.scalarMulAddNoCarry a b c) (fun r s' => UW ext s' r (X * (c : K) + Y) (l.smulAddSz c sx sy))
  mulNoCarry : ∀ {ext s a b X Y sx sy}, UW ext s a X sx → UW ext s b Y sy →
    Cmp tbl ext s (F.mulNoCarry a b) (fun r s' => UW ext s' r (X * Y) (l.mulSz sx sy))
  checkCarryModToZero : ∀ {ext s a sx}, UW ext s a 0 sx → zFits sx → Cmp tbl ext s (F.checkCarryModToZero a) (fun _ _ => True)
  carryMod : ∀ {ext s a X sx}, UW ext s a X sx → cFits sx → Cmp tbl ext s (F.carryMod a) (fun r s' => PW ext s' r X)
  enforceLessThan : ∀ {ext s a X}, PW ext s a X → Cmp tbl ext s (F.enforceLessThan a) (fun r s' => PW ext s' r X)
  isSoftZero : ∀ {ext s a X}, PW ext s a X → Cmp tbl ext s (F.isSoftZero a) (fun r s' => Con ext s' r (bit (X = 0)))
  isSoftNonzero : ∀ {ext s a X}, PW ext s a X → Cmp tbl ext s (F.isSoftNonzero a) (fun r s' => Con ext s' r (bit (X ≠ 0)))
  isZero : ∀ {ext s a X}, PW ext s a X → Cmp tbl ext s (F.isZero a) (fun r s' => Con ext s' r (bit (X = 0)))
  isEqualUnenforced : ∀ {ext s a b X Y}, PW ext s a X → PW ext s b Y →
    Cmp tbl ext s (F.isEqualUnenforced a b) (fun r s' => Con ext s' r (bit (X = Y)))
  assertEqual : ∀ {ext s a b X}, PW ext s a X → PW ext s b X → Cmp tbl ext s (F.assertEqual a b) (fun _ _ => True)
  select : ∀ {ext s a b X Y sel} {t : Prop} [Decidable t], PW ext s a X → PW ext s b Y → Con ext s sel (bit t) →
    Cmp tbl ext s (F.select a b sel) (fun r s' => PW ext s' r (if t then X else Y))

/-- `select_by_indicator` of the chip is complete too (the chips of extension fields have no such method). -/
class SelIndCmp {F : FieldOps p} {K : Type} [Field K] [DecidableEq K] {tbl : ZMod p → Prop} {l : FieldLaws F K tbl} (k : FieldCmp l) :
    Prop where
  selectByIndicator : ∀ {ext s as ind Xs idx X}, as.Forall₂ (k.PW ext s) Xs → AvsCon ext s ind (oneHot as.length idx) →
    Xs[idx]? = some X → Cmp tbl ext s (F.selectByIndicator as ind) (fun r s' => k.PW ext s' r X)

namespace FieldCmp
variable {F : FieldOps p} {K : Type} [Field K] [DecidableEq K] {tbl : ZMod p → Prop} {l : FieldLaws F K tbl} (k : FieldCmp l)
variable {ext : Cell → ZMod p} {s s' : Ctx p}

theorem loadPrivateReduced (v : F.V) : Cmp tbl ext s (F.loadPrivateReduced v) (fun r s' => k.PW ext s' r (l.val v)) :=
  Cmp.bind (k.loadPrivate v) fun _ _ _ h => k.enforceLessThan h

theorem isEqual {a b : F.P} {X Y : K} (ha : k.PW ext s a X) (hb : k.PW ext s b Y) :
    Cmp tbl ext s (F.isEqual a b) (fun r s' => Con ext s' r (bit (X = Y))) :=
  Cmp.bind (k.enforceLessThan ha) fun _ _ e1 h1 => Cmp.bind (k.enforceLessThan (k.p_mono hb e1)) fun _ _ e2 h2 =>
    k.isEqualUnenforced (k.p_mono h1 e2) h2

theorem mul {a b : F.U} {X Y : K} {sx sy : l.Sz} (hf : k.cFits (l.mulSz sx sy)) (ha : k.UW ext s a X sx) (hb : k.UW ext s b Y sy) :
    Cmp tbl ext s (F.mul a b) (fun r s' => k.PW ext s' r (X * Y)) :=
  Cmp.bind (k.mulNoCarry ha hb) fun _ _ _ h => k.carryMod h hf

/-- `divide_unsafe` is complete if the divisor is nonzero, or both are zero. -/
theorem divideUnsafe {a b : F.U} {X Y : K} {sx sy : l.Sz} (hf : k.zFits (l.subSz (l.mulSz l.pSz sy) sx)) (ha : k.UW ext s a X sx)
    (hb : k.UW ext s b Y sy) (hY : Y = 0 → X = 0) :
    Cmp tbl ext s (F.divideUnsafe a b) (fun r s' => k.PW ext s' r (X / Y)) := by
  obtain ⟨u, hu, rfl⟩ := k.getAssignedValue ha
  obtain ⟨v, hv, rfl⟩ := k.getAssignedValue hb
  unfold FieldOps.divideUnsafe
  rw [hu, pure_bind, hv, pure_bind]
  refine Cmp.bind (k.loadPrivate _) fun q s1 e1 hq => ?_
  rw [k.val_div] at hq
  refine Cmp.bind (k.mulNoCarry (k.p_u hq) (k.u_mono hb e1)) fun qb s2 e2 hqb => ?_
  refine Cmp.bind (k.subNoCarry hqb (k.u_mono ha (e1.trans e2))) fun c s3 e3 hc => ?_
  have h0 : l.val u / l.val v * l.val v - l.val u = 0 := by
    by_cases hv0 : l.val v = 0
    · rw [hY hv0, hv0]; simp
    · rw [div_mul_cancel₀ _ hv0, sub_self]
  rw [h0] at hc
  exact Cmp.bind (k.checkCarryModToZero hc hf) fun _ s4 e4 _ => Cmp.pure (k.p_mono hq ((e2.trans e3).trans e4))

theorem negDivideUnsafe {a b : F.U} {X Y : K} {sx sy : l.Sz} (hf : k.zFits (l.addSz (l.mulSz l.pSz sy) sx)) (ha : k.UW ext s a X sx)
    (hb : k.UW ext s b Y sy) (hY : Y = 0 → X = 0) :
    Cmp tbl ext s (F.negDivideUnsafe a b) (fun r s' => k.PW ext s' r (-X / Y)) := by
  obtain ⟨u, hu, rfl⟩ := k.getAssignedValue ha
  obtain ⟨v, hv, rfl⟩ := k.getAssignedValue hb
  unfold FieldOps.negDivideUnsafe
  rw [hu, pure_bind, hv, pure_bind]
  refine Cmp.bind (k.loadPrivate _) fun q s1 e1 hq => ?_
  rw [k.val_div, k.val_neg] at hq
  refine Cmp.bind (k.mulNoCarry (k.p_u hq) (k.u_mono hb e1)) fun qb s2 e2 hqb => ?_
  refine Cmp.bind (k.addNoCarry hqb (k.u_mono ha (e1.trans e2))) fun c s3 e3 hc => ?_
  have h0 : -l.val u / l.val v * l.val v + l.val u = 0 := by
    by_cases hv0 : l.val v = 0
    · rw [hY hv0, hv0]; simp
    · rw [div_mul_cancel₀ _ hv0, neg_add_cancel]
  rw [h0] at hc
  exact Cmp.bind (k.checkCarryModToZero hc hf) fun _ s4 e4 _ => Cmp.pure (k.p_mono hq ((e2.trans e3).trans e4))

theorem divide {a b : F.P} {X Y : K} (hf : k.zFits (l.subSz (l.mulSz l.pSz l.pSz) l.pSz)) (ha : k.PW ext s a X) (hb : k.PW ext s b Y)
    (hY : Y ≠ 0) : Cmp tbl ext s (F.divide a b) (fun r s' => k.PW ext s' r (X / Y)) := by
  refine Cmp.bind (k.isZero hb) fun z s1 e1 hz => ?_
  rw [bit, if_neg hY] at hz
  exact Cmp.bind (assertIsConst_cmp hz.conF) fun _ s2 e2 _ =>
    k.divideUnsafe hf (k.p_u (k.p_mono ha (e1.trans e2))) (k.p_u (k.p_mono hb (e1.trans e2))) fun h => absurd h hY

theorem negDivide {a b : F.P} {X Y : K} (hf : k.zFits (l.addSz (l.mulSz l.pSz l.pSz) l.pSz)) (ha : k.PW ext s a X) (hb : k.PW ext s b Y)
    (hY : Y ≠ 0) : Cmp tbl ext s (F.negDivide a b) (fun r s' => k.PW ext s' r (-X / Y)) := by
  refine Cmp.bind (k.isZero hb) fun z s1 e1 hz => ?_
  rw [bit, if_neg hY] at hz
  exact Cmp.bind (assertIsConst_cmp hz.conF) fun _ s2 e2 _ =>
    k.negDivideUnsafe hf (k.p_u (k.p_mono ha (e1.trans e2))) (k.p_u (k.p_mono hb (e1.trans e2))) fun h => absurd h hY

end FieldCmp

/-! ### `FpChip` -/

namespace FpChip
variable {c : FpChip p} {ext : Cell → ZMod p} {s : Ctx p}

/-- In the honest assignment, the unreduced `a` represents `X`. -/
def uW (c : FpChip p) (ext : Cell → ZMod p) (s : Ctx p) (a : CrtInt p) (X : ZMod c.modulus) (sz : ℕ × ℕ) : Prop :=
  ∃ A : ℤ, CrtW c.n c.k ext s a A ∧ a.trunc.maxBits ≤ sz.1 ∧ |A| ≤ sz.2 ∧ (A : ZMod c.modulus) = X

/-- In the honest assignment, `a` is the canonical representative of `X`. -/
def pW (c : FpChip p) (ext : Cell → ZMod p) (s : Ctx p) (a : CrtInt p) (X : ZMod c.modulus) : Prop := ProperW c.n c.k ext s a X.val

theorem bigintToFe_some {m : ℕ} [Fact m.Prime] (hm : m ≤ 256 ^ 32) (A : ℤ) :
    Utils.bigintToFe m (A.tmod (m : ℤ)) = some (A : ZMod m) := by
  have hpos : 0 < m := (Fact.out : m.Prime).pos
  rw [Utils.C28_bigint_to_fe hm]
  · congr 1
    have h := Int.mul_tdiv_add_tmod A (m : ℤ)
    conv_rhs => rw [← h]
    push_cast
    rw [ZMod.natCast_self, zero_mul, zero_add]
  · rw [Int.natAbs_tmod]
    exact Nat.mod_lt _ (by simpa using hpos)

theorem selInd_cmp {tbl : ZMod p → Prop} (h : FpCmp c) {as : List (CrtInt p)} {ind : List (AV p)} {As : List ℕ} {idx A : ℕ}
    (ha : as.Forall₂ (ProperW c.n c.k ext s) As) (hi : AvsCon ext s ind (oneHot as.length idx)) (hA : As[idx]? = some A) :
    Cmp tbl ext s (selIndCrt as ind c.bases) (fun r s' => ProperW c.n c.k ext s' r A) := by
  have hl := List.Forall₂.length_eq ha
  have hidx : idx < As.length := (List.getElem?_eq_some_iff.1 hA).1
  have hget := fun (i : ℕ) (h1 : i < as.length) (h2 : i < As.length) => (List.forall₂_iff_get.1 ha).2 i h1 h2
  have hall : ∀ b ∈ as, ∃ B, ProperW c.n c.k ext s b B := by
    intro b hb
    obtain ⟨i, hi, rfl⟩ := List.getElem_of_mem hb
    exact ⟨_, hget i hi (by omega)⟩
  have haA := hget idx (by omega) hidx
  rw [List.get_eq_getElem, List.get_eq_getElem, (List.getElem?_eq_some_iff.1 hA).2] at haA
  have h1 := selIndCrt_cmp (tbl := tbl) (ext := ext) (s := s) (as := as) (ind := ind) (bases := c.bases) (k := c.k) (idx := idx)
    (a := as[idx]'(by omega)) (fun a h => by obtain ⟨B, hB⟩ := hall a h; exact ⟨hB.limbs, hB.native⟩)
    (fun a h => by obtain ⟨B, hB⟩ := hall a h; exact hB.ok.length) (by rw [h.ok.ok.bases]; simp) hi
    (List.getElem?_eq_getElem (by omega))
  refine (h1.withSnd (selIndProper h.ok as ind)).weakenE ?_
  rintro r s' e ⟨⟨hs, hv⟩, hr⟩
  refine ⟨hr As (ha.imp fun _ _ h => (h.mono e).ok) idx (hi.mono e).map_at A hA, hs.limbs, hs.native, ?_⟩
  rw [hv, haA.value]

theorem pW.lt (h : FpCmp c) {a : CrtInt p} {X : ZMod c.modulus} (_ : c.pW ext s a X) : X.val < c.modulus := by
  have : NeZero c.modulus := ⟨by have := h.ok.ok.pos; omega⟩
  exact ZMod.val_lt X

/-- The methods of `FpChip` are complete. -/
def cmp (h : FpCmp c) [Fact c.modulus.Prime] : FieldCmp (laws h.ok) where
  UW := c.uW
  PW := c.pW
  cFits := fun x => CarryFits c x.1 ∧ x.2 < 2 ^ (c.n * c.k + numBits p - 3)
  zFits := fun x => CarryZeroFits c x.1 ∧ x.1 + 2 ≤ 3 * c.n ∧ x.2 < 2 ^ (c.n * c.k + numBits p - 3)
  u_mono := by
    rintro ext s s' a X sx ⟨A, h1, h2⟩ e
    exact ⟨A, h1.mono e, h2⟩
  p_mono := fun h e => ProperW.mono h e
  p_u := by
    intro ext s a X ha
    have hlt := pW.lt h ha
    refine ⟨X.val, ProperW.crt ha, ?_, ?_, ?_⟩
    · obtain ⟨_, _, e, -⟩ := ha.ok
      exact e.le
    · rw [abs_of_nonneg (Int.natCast_nonneg _)]
      exact_mod_cast (hlt.trans (Nat.lt_size_self _)).le
    · rw [Int.cast_natCast, ZMod.natCast_zmod_val]
  cSz := (c.n, c.modulus)
  p_c := by
    intro ext s a X ha
    have hlt := pW.lt h ha
    refine ⟨X.val, ProperW.crt ha, ?_, ?_, ?_⟩
    · obtain ⟨_, _, e, -⟩ := ha.ok
      exact e.le
    · rw [abs_of_nonneg (Int.natCast_nonneg _)]
      exact_mod_cast hlt.le
    · rw [Int.cast_natCast, ZMod.natCast_zmod_val]
  p_r := fun h => ProperW.ok h
  val_div := fun u v => (div_eq_mul_inv _ _).symm
  val_neg := fun u => rfl
  getAssignedValue := by
    rintro ext s a X sx ⟨A, h1, -, -, rfl⟩
    have : NeZero c.modulus := ⟨by have := h.ok.ok.pos; omega⟩
    refine ⟨(A : ZMod c.modulus), ?_, rfl⟩
    show c.getAssignedValue a = _
    unfold FpChip.getAssignedValue
    rw [h1.value, bigintToFe_some h.ok.m32]
    rfl
  loadPrivate := fun v => loadPrivate_cmp h v
  loadConstant := fun v => loadConstant_cmp h v
  addNoCarry := by
    rintro ext s a b X Y sx sy ⟨A, a1, a2, a3, rfl⟩ ⟨B, b1, b2, b3, rfl⟩
    refine (addNoCarryCrt_cmp a1 b1).weaken ?_
    rintro r s' ⟨h1, h2⟩
    refine ⟨A + B, h2, by show r.trunc.maxBits ≤ max sx.1 sy.1 + 1; rw [h1]; omega, ?_, by push_cast; rfl⟩
    have := abs_add_le A B
    show _ ≤ (((sx.2 + sy.2 : ℕ)) : ℤ)
    push_cast
    linarith
  addConstantNoCarry := by
    rintro ext s a X sx v ⟨A, a1, a2, a3, rfl⟩
    change ZMod c.modulus at v
    have hm : NeZero c.modulus := ⟨by have := h.ok.ok.pos; omega⟩
    refine (addConstantNoCarry_cmp h v a1).weaken ?_
    rintro r s' ⟨h1, h2⟩
    refine ⟨A + v.val, h2, by show r.trunc.maxBits ≤ max sx.1 c.n + 1; rw [h1]; omega, ?_,
      by rw [Int.cast_add, Int.cast_natCast, ZMod.natCast_zmod_val]; rfl⟩
    have := abs_add_le A v.val
    have h3 : |(v.val : ℤ)| ≤ c.modulus := by
      rw [abs_of_nonneg (Int.natCast_nonneg _)]
      exact_mod_cast (ZMod.val_lt v).le
    show _ ≤ (((sx.2 + c.modulus : ℕ)) : ℤ)
    push_cast at *
    linarith
  subNoCarry := by
    rintro ext s a b X Y sx sy ⟨A, a1, a2, a3, rfl⟩ ⟨B, b1, b2, b3, rfl⟩
    refine (subNoCarryCrt_cmp a1 b1).weaken ?_
    rintro r s' ⟨h1, h2⟩
    refine ⟨A - B, h2, by show r.trunc.maxBits ≤ max sx.1 sy.1 + 1; rw [h1]; omega, ?_, by push_cast; rfl⟩
    have := abs_sub A B
    show _ ≤ (((sx.2 + sy.2 : ℕ)) : ℤ)
    push_cast
    linarith
  negate := by
    intro ext s a X ha
    have hlt := pW.lt h ha
    have hm : NeZero c.modulus := ⟨by have := h.ok.ok.pos; omega⟩
    refine (negate_cmp h ha hlt.le).weaken ?_
    intro r s' hr
    unfold pW
    rw [ZMod.neg_val]
    have : (X = 0) ↔ X.val = 0 := (ZMod.val_eq_zero X).symm
    simpa only [this] using hr
  scalarMulNoCarry := by
    rintro ext s a X sx z hz ⟨A, a1, a2, a3, rfl⟩
    refine (scalarMulNoCarryCrt_cmp a1 hz).weaken ?_
    rintro r s' ⟨⟨cl, h1, h2⟩, h3⟩
    have := log2Ceil_le_mulBits hz h1
    refine ⟨A * z, h3, by show r.trunc.maxBits ≤ sx.1 + mulBits z; rw [h2]; omega, ?_, by push_cast; rfl⟩
    rw [abs_mul]
    show _ ≤ (((sx.2 * z.natAbs : ℕ)) : ℤ)
    push_cast
    exact mul_le_mul_of_nonneg_right a3 (abs_nonneg _)
  scalarMulAddNoCarry := by
    rintro ext s a b X Y sx sy z hz ⟨A, a1, a2, a3, rfl⟩ ⟨B, b1, b2, b3, rfl⟩
    refine (scalarMulAddNoCarryCrt_cmp a1 b1 hz).weaken ?_
    rintro r s' ⟨⟨cl, h1, h2⟩, h3⟩
    have := log2Ceil_le_mulBits hz h1
    refine ⟨A * z + B, h3, by show r.trunc.maxBits ≤ max (sx.1 + mulBits z) sy.1 + 1; rw [h2]; omega, ?_, by push_cast; rfl⟩
    have e1 := abs_add_le (A * z) B
    rw [abs_mul, Int.abs_eq_natAbs z] at e1
    have := mul_le_mul_of_nonneg_right a3 (Int.natCast_nonneg z.natAbs)
    show _ ≤ (((sx.2 * z.natAbs + sy.2 : ℕ)) : ℤ)
    push_cast at *
    linarith
  mulNoCarry := by
    rintro ext s a b X Y sx sy ⟨A, a1, a2, a3, rfl⟩ ⟨B, b1, b2, b3, rfl⟩
    refine (mulNoCarryCrt_cmp h.ok.ok.kLog2 a1 b1).weaken ?_
    rintro r s' ⟨h1, h2⟩
    refine ⟨A * B, h2, by show r.trunc.maxBits ≤ c.kLog2 + sx.1 + sy.1; rw [h1]; omega, ?_, by push_cast; rfl⟩
    rw [abs_mul]
    show _ ≤ (((sx.2 * sy.2 : ℕ)) : ℤ)
    push_cast
    exact mul_le_mul a3 b3 (abs_nonneg _) (Int.natCast_nonneg _)
  checkCarryModToZero := by
    rintro ext s a sx ⟨A, a1, a2, a3, a4⟩ ⟨f1, f2, f3⟩
    refine checkCarryModToZeroCrt_cmp h.ok.ok h.ok.L h.carry (CarryZeroFits.mono f1 a2) (by omega) a1 ?_ ?_
    · exact lt_of_le_of_lt a3 (by exact_mod_cast f3)
    · exact (ZMod.intCast_zmod_eq_zero_iff_dvd A c.modulus).1 a4
  carryMod := by
    rintro ext s a X sx ⟨A, a1, a2, a3, rfl⟩ ⟨f1, f2⟩
    have hm : NeZero c.modulus := ⟨by have := h.ok.ok.pos; omega⟩
    refine (carryModCrt_cmp h.ok.ok h.ok.L h.carry (CarryFits.mono f1 a2) a1 (lt_of_le_of_lt a3 (by exact_mod_cast f2))).weaken ?_
    intro r s' hr
    unfold pW
    have : (A : ZMod c.modulus).val = (A % c.modulus).toNat := by
      have h1 := ZMod.val_intCast (n := c.modulus) A
      omega
    rw [this]
    exact hr
  enforceLessThan := by
    intro ext s a X ha
    exact Cmp.bind (enforceLessThanP_cmp h ha (pW.lt h ha)) fun _ s1 e1 _ => Cmp.pure (ProperW.mono ha e1)
  isSoftZero := by
    intro ext s a X ha
    have hm : NeZero c.modulus := ⟨by have := h.ok.ok.pos; omega⟩
    refine (bigIsZeroPositive_cmp h.ok.ok.k1 h.cap ha).weaken fun r s' hr => ?_
    have : (X = 0) ↔ X.val = 0 := (ZMod.val_eq_zero X).symm
    simpa only [bit, this] using hr
  isSoftNonzero := by
    intro ext s a X ha
    have hlt := pW.lt h ha
    have hm : NeZero c.modulus := ⟨by have := h.ok.ok.pos; omega⟩
    refine (isSoftNonzero_cmp h ha).weaken fun r s' hr => ?_
    have : (X = 0) ↔ X.val = 0 := (ZMod.val_eq_zero X).symm
    simpa only [bit, ne_eq, this, hlt, and_true] using hr
  isZero := by
    intro ext s a X ha
    have hlt := pW.lt h ha
    have hm : NeZero c.modulus := ⟨by have := h.ok.ok.pos; omega⟩
    refine (isZero_cmp h ha hlt).weaken fun r s' hr => ?_
    have : (X = 0) ↔ X.val = 0 := (ZMod.val_eq_zero X).symm
    simpa only [bit, this] using hr
  isEqualUnenforced := by
    intro ext s a b X Y ha hb
    have hm : NeZero c.modulus := ⟨by have := h.ok.ok.pos; omega⟩
    refine (bigIsEqual_cmp h.ok.ok.k1 h.ok.pow_n' ha hb).weaken fun r s' hr => ?_
    have : (X = Y) ↔ X.val = Y.val := (ZMod.val_injective c.modulus).eq_iff.symm
    simpa only [bit, this] using hr
  assertEqual := fun ha hb => assertEqual_cmp h ha hb (pW.lt h ha)
  select := by
    intro ext s a b X Y sel t _ ha hb hs
    refine (select_cmp (t := decide t) ha hb (by simpa [bit] using hs)).weaken fun r s' hr => ?_
    unfold pW
    by_cases ht : t <;> simpa [ht] using hr

instance selIndCmp (h : FpCmp c) [Fact c.modulus.Prime] : SelIndCmp (cmp h) where
  selectByIndicator := by
    intro ext s as ind Xs idx X ha hi hX
    refine selInd_cmp h (As := Xs.map ZMod.val) ?_ hi (by rw [List.getElem?_map, hX]; rfl)
    clear hi hX
    induction ha with
    | nil => exact .nil
    | cons hx _ ih => exact .cons hx ih

end FpChip
end H2
