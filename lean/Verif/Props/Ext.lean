import Verif.Fields.ConcreteBn
import Verif.Fields.LawsNative
import Verif.Props.Fields
import Verif.Props.Ecc

/-!
# Property C48 (extension field chips, native field chip)

The base field chip is any chip `F` satisfying the laws `l` of the field `K` (`FpChip`, by C47; `NativeFieldChip`, by C48 below).
`u` is a square root of -1 and `w` a sixth root of `XI_0 + u` in an extension `K2` of `K`.
-/

set_option autoImplicit false
set_option linter.unusedSectionVars false
namespace H2
variable {p : ℕ} [Fact p.Prime] {tbl : ZMod p → Prop}

section
variable {K : Type} [Field K] [DecidableEq K] {K2 : Type} [Field K2] [DecidableEq K2] [Algebra K K2]
variable {F : FieldOps p}

/-- In the assignment `v` the vector `a` has two coordinates, which represent `x0` and `x1` with `X = x0 + x1 u`. -/
def Fp2Rep (l : FieldLaws F K tbl) (u : K2) (v : Cell → ZMod p) (a : List F.P) (X : K2) : Prop :=
  ∃ (a0 a1 : F.P) (x0 x1 : K), a = [a0, a1] ∧ l.PRep v a0 x0 ∧ l.PRep v a1 x1 ∧ X = algebraMap K K2 x0 + algebraMap K K2 x1 * u

/-- In the assignment `v` the vector `a` has twelve coordinates, which represent `x 0, …, x 11` with
`X = Σ (x i + x (i + 6) u) wⁱ`. -/
def Fp12Rep (l : FieldLaws F K tbl) (u w : K2) (v : Cell → ZMod p) (a : List F.P) (X : K2) : Prop :=
  ∃ x : ℕ → K, a.Forall₂ (l.PRep v) ((List.range 12).map x) ∧
    X = ∑ i ∈ Finset.range 6, (algebraMap K K2 (x i) + algebraMap K K2 (x (i + 6)) * u) * w ^ i

variable {l : FieldLaws F K tbl} {u w X Y : K2} {v : Cell → ZMod p} {a b r : List F.P} {s s' : Ctx p}

theorem fp2Rep_iff : Fp2Rep l u v a X ↔ vecRep [1, u] (l.PRep v) a X := by
  constructor
  · rintro ⟨a0, a1, x0, x1, rfl, h0, h1, rfl⟩
    exact ⟨[x0, x1], rfl, .cons h0 (.cons h1 .nil), by simp [lin]⟩
  · rintro ⟨xs, hx, h, rfl⟩
    obtain ⟨x0, x1, rfl⟩ := list2 hx
    obtain ⟨a0, a1, rfl⟩ := list2 h.length_eq
    simp only [List.forall₂_cons, List.forall₂_nil_left_iff, and_true] at h
    exact ⟨a0, a1, x0, x1, rfl, h.1, h.2, by simp [lin]⟩

theorem fp12Rep_iff : Fp12Rep l u w v a X ↔ vecRep (basis12 u w) (l.PRep v) a X := by
  constructor
  · rintro ⟨x, h0, rfl⟩
    refine ⟨(List.range 12).map x, rfl, h0, ?_⟩
    simp [Finset.sum_range_succ, lin, basis12, List.range_succ]
    ring
  · rintro ⟨xs, hx, h, rfl⟩
    refine ⟨fun i => xs.getD i 0, ?_, ?_⟩
    · convert h using 1
      refine List.ext_getElem (by simp [hx, basis12]) fun i h1 h2 => ?_
      simp [List.getD, h2]
    · obtain ⟨a0, a1, a2, a3, a4, a5, a6, a7, a8, a9, a10, a11, rfl⟩ := list12 hx
      simp [Finset.sum_range_succ, lin, basis12]
      ring

/-! ### `Fp2Chip` -/

section
variable (hu : u * u = -1) {B : ExtBasis K K2} (hB : B.e = [1, u]) {E : ExtField F}
  (hE : ∀ v, (E.coeffs v).length = 2) (hz : ∀ v ∈ E.coeffs E.vzero, l.val v = 0)
include hu hB hE hz

/-- C48: `Fp2Chip::mul` (no-carry multiplication followed by the carry) is the product in the extension. -/
theorem C48_fp2_mul (hf : (fp2Laws l hu B hB E hE hz).carryFits ((fp2Laws l hu B hB E hE hz).mulSz
      (fp2Laws l hu B hB E hE hz).pSz (fp2Laws l hu B hB E hE hz).pSz)) (hi : Inv s)
    (hrun : (fp2Ops F E).mul ((fp2Ops F E).ofP a) ((fp2Ops F E).ofP b) s = some (r, s')) (hw : Sat tbl s' v)
    (ha : Fp2Rep l u v a X) (hb : Fp2Rep l u v b Y) : Fp2Rep l u v r (X * Y) := by
  have hR : ∀ a X, Fp2Rep l u v a X ↔ vecRep B.e (l.PRep v) a X := fun a X => by rw [hB]; exact fp2Rep_iff
  simp only [hR] at ha hb ⊢
  let L := fp2Laws l hu B hB E hE hz
  exact (L.mul _ _).run hi hrun hw X Y _ _ hf (L.p_u _ _ _ ha) (L.p_u _ _ _ hb)

/-- C48: `Fp2Chip::divide` is the quotient; the circuit is unsatisfiable if the divisor is zero. -/
theorem C48_fp2_divide (hf : (fp2Laws l hu B hB E hE hz).zeroFits ((fp2Laws l hu B hB E hE hz).subSz
      ((fp2Laws l hu B hB E hE hz).mulSz (fp2Laws l hu B hB E hE hz).pSz (fp2Laws l hu B hB E hE hz).pSz)
      (fp2Laws l hu B hB E hE hz).pSz)) (hi : Inv s)
    (hrun : (fp2Ops F E).divide a b s = some (r, s')) (hw : Sat tbl s' v)
    (ha : Fp2Rep l u v a X) (hb : Fp2Rep l u v b Y) : Y ≠ 0 ∧ Fp2Rep l u v r (X / Y) := by
  have hR : ∀ a X, Fp2Rep l u v a X ↔ vecRep B.e (l.PRep v) a X := fun a X => by rw [hB]; exact fp2Rep_iff
  simp only [hR] at ha hb ⊢
  exact ((fp2Laws l hu B hB E hE hz).divide a b hf).run hi hrun hw X Y ha hb

/-- C48: `Fp2Chip::divide_unsafe`. -/
theorem C48_fp2_divide_unsafe (hf : (fp2Laws l hu B hB E hE hz).zeroFits ((fp2Laws l hu B hB E hE hz).subSz
      ((fp2Laws l hu B hB E hE hz).mulSz (fp2Laws l hu B hB E hE hz).pSz (fp2Laws l hu B hB E hE hz).pSz)
      (fp2Laws l hu B hB E hE hz).pSz)) (hi : Inv s)
    (hrun : (fp2Ops F E).divideUnsafe ((fp2Ops F E).ofP a) ((fp2Ops F E).ofP b) s = some (r, s')) (hw : Sat tbl s' v)
    (ha : Fp2Rep l u v a X) (hb : Fp2Rep l u v b Y) : ∃ Q, Fp2Rep l u v r Q ∧ Q * Y = X := by
  have hR : ∀ a X, Fp2Rep l u v a X ↔ vecRep B.e (l.PRep v) a X := fun a X => by rw [hB]; exact fp2Rep_iff
  simp only [hR] at ha hb ⊢
  let L := fp2Laws l hu B hB E hE hz
  obtain ⟨Q, h1, h2⟩ := (L.divideUnsafe _ _).run hi hrun hw
  exact ⟨Q, h1, h2 X Y _ _ hf (L.p_u _ _ _ ha) (L.p_u _ _ _ hb)⟩

/-- C48: `Fp2Chip::is_zero`. -/
theorem C48_fp2_is_zero {z : AV p} (hi : Inv s) (hrun : (fp2Ops F E).isZero a s = some (z, s')) (hw : Sat tbl s' v)
    (ha : Fp2Rep l u v a X) : at' v z = if X = 0 then 1 else 0 := by
  have hR : ∀ a X, Fp2Rep l u v a X ↔ vecRep B.e (l.PRep v) a X := fun a X => by rw [hB]; exact fp2Rep_iff
  simp only [hR] at ha ⊢
  exact ((fp2Laws l hu B hB E hE hz).isZero a).run hi hrun hw X ha

/-- C48: `Fp2Chip::is_equal`. -/
theorem C48_fp2_is_equal {z : AV p} (hi : Inv s) (hrun : (fp2Ops F E).isEqual a b s = some (z, s')) (hw : Sat tbl s' v)
    (ha : Fp2Rep l u v a X) (hb : Fp2Rep l u v b Y) : at' v z = if X = Y then 1 else 0 := by
  have hR : ∀ a X, Fp2Rep l u v a X ↔ vecRep B.e (l.PRep v) a X := fun a X => by rw [hB]; exact fp2Rep_iff
  simp only [hR] at ha hb ⊢
  exact ((fp2Laws l hu B hB E hE hz).isEqual a b).run hi hrun hw X Y ha hb

/-- C48: `Fp2Chip::assert_equal`. -/
theorem C48_fp2_assert_equal {z : Unit} (hi : Inv s) (hrun : (fp2Ops F E).assertEqual a b s = some (z, s')) (hw : Sat tbl s' v)
    (ha : Fp2Rep l u v a X) (hb : Fp2Rep l u v b Y) : X = Y := by
  have hR : ∀ a X, Fp2Rep l u v a X ↔ vecRep B.e (l.PRep v) a X := fun a X => by rw [hB]; exact fp2Rep_iff
  simp only [hR] at ha hb ⊢
  exact ((fp2Laws l hu B hB E hE hz).assertEqual a b).run hi hrun hw X Y ha hb

/-- C48: `Fp2Chip::negate`. -/
theorem C48_fp2_negate (hi : Inv s) (hrun : (fp2Ops F E).negate a s = some (r, s')) (hw : Sat tbl s' v)
    (ha : Fp2Rep l u v a X) : Fp2Rep l u v r (-X) := by
  have hR : ∀ a X, Fp2Rep l u v a X ↔ vecRep B.e (l.PRep v) a X := fun a X => by rw [hB]; exact fp2Rep_iff
  simp only [hR] at ha ⊢
  exact (fp2Laws l hu B hB E hE hz).r_p _ _ _ (((fp2Laws l hu B hB E hE hz).negate a).run hi hrun hw X ha)

/-- C48: whatever the prover loads is an element of the extension. -/
theorem C48_fp2_load_private {x : E.V} (hi : Inv s) (hrun : (fp2Ops F E).loadPrivate x s = some (r, s')) (hw : Sat tbl s' v) :
    ∃ X : K2, Fp2Rep l u v r X := by
  have hR : ∀ a X, Fp2Rep l u v a X ↔ vecRep B.e (l.PRep v) a X := fun a X => by rw [hB]; exact fp2Rep_iff
  simp only [hR]
  exact ((fp2Laws l hu B hB E hE hz).loadPrivate x).run hi hrun hw

/-- C48: a vector represents only one element. -/
theorem C48_fp2_unique (ha : Fp2Rep l u v a X) (hb : Fp2Rep l u v a Y) : X = Y := by
  have hR : ∀ a X, Fp2Rep l u v a X ↔ vecRep B.e (l.PRep v) a X := fun a X => by rw [hB]; exact fp2Rep_iff
  simp only [hR] at ha hb ⊢
  exact (fp2Laws l hu B hB E hE hz).p_unique v a X Y ha hb

end

/-- C48: `FieldVectorChip::select`. -/
theorem C48_fp2_select {sel : AV p} (hi : Inv s) (hrun : vecSelect F a b sel s = some (r, s')) (hw : Sat tbl s' v)
    (ha : Fp2Rep l u v a X) (hb : Fp2Rep l u v b Y) :
    (at' v sel = 1 → Fp2Rep l u v r X) ∧ (at' v sel = 0 → Fp2Rep l u v r Y) := by
  simp only [fp2Rep_iff] at ha hb ⊢
  obtain ⟨xs, x1, x2, rfl⟩ := ha
  obtain ⟨ys, y1, y2, rfl⟩ := hb
  have h := (zipEqList_sound (fun a b => l.select a b sel) a b).run hi hrun hw
  refine ⟨fun hs => ?_, fun hs => ?_⟩
  · exact ⟨xs, x1, All3.sel (f := true) hs (h.imp fun a b r hh X Y hX hY hs => (hh.1 X Y hX hY).1 hs) x2 y2, rfl⟩
  · exact ⟨ys, y1, All3.sel (f := false) hs (h.imp fun a b r hh X Y hX hY hs => (hh.1 X Y hX hY).2 hs) x2 y2, rfl⟩

/-- C48: `Fp2Chip::conjugate` applies the automorphism `u ↦ -u`. -/
theorem C48_fp2_conjugate (σ : K2 →ₐ[K] K2) (hσ : σ u = -u) (hi : Inv s) (hrun : fp2Conjugate F a s = some (r, s'))
    (hw : Sat tbl s' v) (ha : Fp2Rep l u v a X) : Fp2Rep l u v r (σ X) := by
  simp only [fp2Rep_iff] at ha ⊢
  exact ((fp2Conjugate_sound l a).run hi hrun hw u X σ hσ).1 ha

/-- C48: `Fp2Chip::neg_conjugate`. -/
theorem C48_fp2_neg_conjugate (σ : K2 →ₐ[K] K2) (hσ : σ u = -u) (hi : Inv s) (hrun : fp2NegConjugate F a s = some (r, s'))
    (hw : Sat tbl s' v) (ha : Fp2Rep l u v a X) : Fp2Rep l u v r (-σ X) := by
  simp only [fp2Rep_iff] at ha ⊢
  exact ((fp2NegConjugate_sound l a).run hi hrun hw u X σ hσ).1 ha

/-- C48: `mul_no_carry_w6` multiplies by `XI_0 + u`. -/
theorem C48_mul_no_carry_w6 {xi : ℤ} {a r : List F.U} {s0 s1 : l.Sz} (hu : u * u = -1) (hi : Inv s)
    (hrun : mulNoCarryW6 F xi a s = some (r, s')) (hw : Sat tbl s' v) (ha : vecURep l [1, u] v a X [s0, s1]) :
    vecURep l [1, u] v r (X * ((xi : K2) + u)) [l.subSz (l.smulSz xi s0) s1, l.smulAddSz xi s1 s0] :=
  (mulNoCarryW6_sound l xi a).run hi hrun hw u X s0 s1 hu ha

/-- C48: `fp_mul_no_carry` multiplies by an element of the base field. -/
theorem C48_fp_mul_no_carry {a r : List F.U} {x : F.U} {c : K} {e : List K2} {ss : List l.Sz} {sc : l.Sz} (hi : Inv s)
    (hrun : fpMulNoCarry F a x s = some (r, s')) (hw : Sat tbl s' v) (ha : vecURep l e v a X ss) (hx : l.URep v x c sc) :
    vecURep l e v r (X * algebraMap K K2 c) (ss.map fun t => l.mulSz t sc) :=
  (fpMulNoCarry_sound l a x).run hi hrun hw e X c ss sc ha hx

/-! ### `Fp12Chip` -/

section
variable {xi : ℤ} (hu : u * u = -1) (hw6 : w ^ 6 = u + (xi : K2)) {B : ExtBasis K K2} (hB : B.e = basis12 u w) {E : ExtField F}
  (hE : ∀ v, (E.coeffs v).length = 12) (hz : ∀ v ∈ E.coeffs E.vzero, l.val v = 0)
include hu hw6 hB hE hz

/-- C48: `Fp12Chip::mul` is the product in the extension. -/
theorem C48_fp12_mul (hf : (fp12Laws l hu hw6 B hB E hE hz).carryFits ((fp12Laws l hu hw6 B hB E hE hz).mulSz
      (fp12Laws l hu hw6 B hB E hE hz).pSz (fp12Laws l hu hw6 B hB E hE hz).pSz)) (hi : Inv s)
    (hrun : (fp12Ops F E xi).mul ((fp12Ops F E xi).ofP a) ((fp12Ops F E xi).ofP b) s = some (r, s')) (hw : Sat tbl s' v)
    (ha : Fp12Rep l u w v a X) (hb : Fp12Rep l u w v b Y) : Fp12Rep l u w v r (X * Y) := by
  have hR : ∀ a X, Fp12Rep l u w v a X ↔ vecRep B.e (l.PRep v) a X := fun a X => by rw [hB]; exact fp12Rep_iff
  simp only [hR] at ha hb ⊢
  let L := fp12Laws l hu hw6 B hB E hE hz
  exact (L.mul _ _).run hi hrun hw X Y _ _ hf (L.p_u _ _ _ ha) (L.p_u _ _ _ hb)

/-- C48: `Fp12Chip::divide`. -/
theorem C48_fp12_divide (hf : (fp12Laws l hu hw6 B hB E hE hz).zeroFits ((fp12Laws l hu hw6 B hB E hE hz).subSz
      ((fp12Laws l hu hw6 B hB E hE hz).mulSz (fp12Laws l hu hw6 B hB E hE hz).pSz (fp12Laws l hu hw6 B hB E hE hz).pSz)
      (fp12Laws l hu hw6 B hB E hE hz).pSz)) (hi : Inv s)
    (hrun : (fp12Ops F E xi).divide a b s = some (r, s')) (hw : Sat tbl s' v)
    (ha : Fp12Rep l u w v a X) (hb : Fp12Rep l u w v b Y) : Y ≠ 0 ∧ Fp12Rep l u w v r (X / Y) := by
  have hR : ∀ a X, Fp12Rep l u w v a X ↔ vecRep B.e (l.PRep v) a X := fun a X => by rw [hB]; exact fp12Rep_iff
  simp only [hR] at ha hb ⊢
  exact ((fp12Laws l hu hw6 B hB E hE hz).divide a b hf).run hi hrun hw X Y ha hb

/-- C48: `Fp12Chip::is_equal`. -/
theorem C48_fp12_is_equal {z : AV p} (hi : Inv s) (hrun : (fp12Ops F E xi).isEqual a b s = some (z, s')) (hw : Sat tbl s' v)
    (ha : Fp12Rep l u w v a X) (hb : Fp12Rep l u w v b Y) : at' v z = if X = Y then 1 else 0 := by
  have hR : ∀ a X, Fp12Rep l u w v a X ↔ vecRep B.e (l.PRep v) a X := fun a X => by rw [hB]; exact fp12Rep_iff
  simp only [hR] at ha hb ⊢
  exact ((fp12Laws l hu hw6 B hB E hE hz).isEqual a b).run hi hrun hw X Y ha hb

/-- C48: `Fp12Chip::is_zero`. -/
theorem C48_fp12_is_zero {z : AV p} (hi : Inv s) (hrun : (fp12Ops F E xi).isZero a s = some (z, s')) (hw : Sat tbl s' v)
    (ha : Fp12Rep l u w v a X) : at' v z = if X = 0 then 1 else 0 := by
  have hR : ∀ a X, Fp12Rep l u w v a X ↔ vecRep B.e (l.PRep v) a X := fun a X => by rw [hB]; exact fp12Rep_iff
  simp only [hR] at ha ⊢
  exact ((fp12Laws l hu hw6 B hB E hE hz).isZero a).run hi hrun hw X ha

/-- C48: a vector represents only one element. -/
theorem C48_fp12_unique (ha : Fp12Rep l u w v a X) (hb : Fp12Rep l u w v a Y) : X = Y := by
  have hR : ∀ a X, Fp12Rep l u w v a X ↔ vecRep B.e (l.PRep v) a X := fun a X => by rw [hB]; exact fp12Rep_iff
  simp only [hR] at ha hb ⊢
  exact (fp12Laws l hu hw6 B hB E hE hz).p_unique v a X Y ha hb

end

/-- C48: `Fp12Chip::conjugate` applies the automorphism `w ↦ -w`. -/
theorem C48_fp12_conjugate (σ : K2 →ₐ[K] K2) (hσ : σ u = u) (hτ : σ w = -w) (hi : Inv s) (hrun : fp12Conjugate F a s = some (r, s'))
    (hw : Sat tbl s' v) (ha : Fp12Rep l u w v a X) : Fp12Rep l u w v r (σ X) := by
  simp only [fp12Rep_iff] at ha ⊢
  exact ((fp12Conjugate_sound l a).run hi hrun hw u w X σ hσ hτ).1 ha

/-- C48: `Fp12Chip::fp2_mul_no_carry` multiplies by an element of `Fp2`. -/
theorem C48_fp12_fp2_mul_no_carry {a b r : List F.U} {ss : List l.Sz} {s0 s1 : l.Sz} (hu : u * u = -1) (hi : Inv s)
    (hrun : fp12Fp2MulNoCarry F a b s = some (r, s')) (hw : Sat tbl s' v) (ha : vecURep l (basis12 u w) v a X ss)
    (hb : vecURep l [1, u] v b Y [s0, s1]) : vecURep l (basis12 u w) v r (X * Y) (fp12Fp2Sz l s0 s1 ss) :=
  (fp12Fp2MulNoCarry_sound l a b).run hi hrun hw u w X Y ss s0 s1 hu ha hb

end

/-! ### BN254 with three limbs of 88 bits: no hypotheses left -/

/-- C48: over BN254, `Fp2Chip::mul` is the product of `Fq[u]/(u² + 1)`. -/
theorem C48_bn254_fp2_mul {a b r : List (CrtInt bn254R)} {s s' : Ctx bn254R} {v : Cell → ZMod bn254R} {X Y : Fq2} (hi : Inv s)
    (hrun : (fp2Ops bnChip.ops bnE2).mul a b s = some (r, s')) (hw : Sat (RangeTable bn254R 16) s' v)
    (ha : Fp2Rep bnLaws Fq2.u v a X) (hb : Fp2Rep bnLaws Fq2.u v b Y) : Fp2Rep bnLaws Fq2.u v r (X * Y) := by
  have e : ∀ a : List (CrtInt bn254R), (fp2Ops bnChip.ops bnE2).ofP a = a := fun a => List.map_id a
  exact C48_fp2_mul Fq2.u_sq (B := Fq2.basis) rfl (extFieldOf_len _ _) (extFieldOf_zero _ _) bnLaws2_mul hi
    (by rw [e, e]; exact hrun) hw ha hb

/-- C48: over BN254, `Fp2Chip::divide` is the quotient. -/
theorem C48_bn254_fp2_divide {a b r : List (CrtInt bn254R)} {s s' : Ctx bn254R} {v : Cell → ZMod bn254R} {X Y : Fq2} (hi : Inv s)
    (hrun : (fp2Ops bnChip.ops bnE2).divide a b s = some (r, s')) (hw : Sat (RangeTable bn254R 16) s' v)
    (ha : Fp2Rep bnLaws Fq2.u v a X) (hb : Fp2Rep bnLaws Fq2.u v b Y) : Y ≠ 0 ∧ Fp2Rep bnLaws Fq2.u v r (X / Y) :=
  C48_fp2_divide Fq2.u_sq (B := Fq2.basis) rfl (extFieldOf_len _ _) (extFieldOf_zero _ _) bnLaws2_div hi hrun hw ha hb

/-- C48: over BN254, `Fp12Chip::mul` is the product of `Fq2[w]/(w⁶ - 9 - u)`. -/
theorem C48_bn254_fp12_mul {a b r : List (CrtInt bn254R)} {s s' : Ctx bn254R} {v : Cell → ZMod bn254R} {X Y : Fq12} (hi : Inv s)
    (hrun : (fp12Ops bnChip.ops bnE12 9).mul a b s = some (r, s')) (hw : Sat (RangeTable bn254R 16) s' v)
    (ha : Fp12Rep bnLaws Fq12.u Fq12.w v a X) (hb : Fp12Rep bnLaws Fq12.u Fq12.w v b Y) :
    Fp12Rep bnLaws Fq12.u Fq12.w v r (X * Y) := by
  have e : ∀ a : List (CrtInt bn254R), (fp12Ops bnChip.ops bnE12 9).ofP a = a := fun a => List.map_id a
  exact C48_fp12_mul Fq12.u_sq Fq12.w_six (B := Fq12.basis) rfl (extFieldOf_len _ _) (extFieldOf_zero _ _) bnLaws12_mul hi
    (by rw [e, e]; exact hrun) hw ha hb

/-- C48: over BN254, `Fp12Chip::divide` is the quotient. -/
theorem C48_bn254_fp12_divide {a b r : List (CrtInt bn254R)} {s s' : Ctx bn254R} {v : Cell → ZMod bn254R} {X Y : Fq12} (hi : Inv s)
    (hrun : (fp12Ops bnChip.ops bnE12 9).divide a b s = some (r, s')) (hw : Sat (RangeTable bn254R 16) s' v)
    (ha : Fp12Rep bnLaws Fq12.u Fq12.w v a X) (hb : Fp12Rep bnLaws Fq12.u Fq12.w v b Y) :
    Y ≠ 0 ∧ Fp12Rep bnLaws Fq12.u Fq12.w v r (X / Y) :=
  C48_fp12_divide Fq12.u_sq Fq12.w_six (B := Fq12.basis) rfl (extFieldOf_len _ _) (extFieldOf_zero _ _) bnLaws12_div hi hrun hw ha hb

/-- C48: the curve chip over `Fp2` (G2 of BN254): addition of points of the twist `y² = x³ + 3 / (9 + u)`. -/
theorem C48_g2_add {P Q : CmpPt (fp2Ops bnChip.ops bnE2)} {r : EcPt (fp2Ops bnChip.ops bnE2)} {s s' : Ctx bn254R}
    {v : Cell → ZMod bn254R} {g1 g2 : ECurve g2B} (hi : Inv s)
    (hrun : ecAddUnequal (fp2Ops bnChip.ops bnE2) P Q true s = some (r, s')) (hw : Sat (RangeTable bn254R 16) s' v)
    (hP : CmpRep bnLaws2 g2B v P g1) (hQ : CmpRep bnLaws2 g2B v Q g2) :
    g1 ≠ g2 ∧ g1 ≠ -g2 ∧ EcRep bnLaws2 g2B v r (g1 + g2) := by
  obtain ⟨h1, h2⟩ := C49_add_unequal bnLaws2_ecFits hi hrun hw hP hQ
  exact ⟨(h1 rfl).1, (h1 rfl).2, h2 (h1 rfl).1 (h1 rfl).2⟩

/-- C48: multiplication of a point of G2 by a scalar. -/
theorem C48_g2_scalar_multiply {bv : Fq2} (hbv : bnLaws2.val bv = g2B) {rand : MsmRand (fp2Ops bnChip.ops bnE2)}
    {P r : EcPt (fp2Ops bnChip.ops bnE2)} {scalar : List (AV bn254R)} {m wb : ℕ} (hm : 1 ≤ m) (hmp : 2 ^ m ≤ bn254R)
    {s s' : Ctx bn254R} {v : Cell → ZMod bn254R} (hi : Inv s)
    (hrun : scalarMultiply (fp2Ops bnChip.ops bnE2) bv rand P scalar m wb s = some (r, s'))
    (hw : Sat (RangeTable bn254R 16) s' v) {g : ECurve (bnLaws2.val bv)} (hP : EcRep0 bnLaws2 (bnLaws2.val bv) v P g) :
    ScalarFits m v scalar ∧ EcRep0 bnLaws2 (bnLaws2.val bv) v r (scalarVal m v scalar • g) := by
  refine C50_scalar_multiply bnLaws2_ecFits (by rw [hbv]; exact curveOk_g2) hm hmp hi hrun hw hP ?_
  clear hP hrun
  revert g
  rw [hbv]
  intro g
  exact two_torsion_g2 g

/-! ### `NativeFieldChip` -/

/-- C48: every operation of `NativeFieldChip` except `is_soft_nonzero` is the operation of the circuit's own field; all its size
conditions hold. -/
theorem C48_native_fits (L : ℕ) (l := (nativeLaws (tbl := tbl) L)) (hl : l = nativeLaws L) :
    (∀ x, l.carryFits x) ∧ (∀ x, l.zeroFits x) ∧ (∀ w a X, l.PRep w a X ↔ at' w a = X) := by
  subst hl
  exact ⟨fun _ => trivial, fun _ => trivial, fun _ _ _ => Iff.rfl⟩

/-- C48 (native): multiplication. -/
theorem C48_native_mul {L : ℕ} {a b r : AV p} {s s' : Ctx p} {w : Cell → ZMod p} (hi : Inv s)
    (hrun : (nativeOps p L).mul a b s = some (r, s')) (hw : Sat tbl s' w) : at' w r = at' w a * at' w b :=
  ((nativeLaws (tbl := tbl) L).mul a b).run hi hrun hw _ _ () () trivial rfl rfl

/-- C48 (native): division. -/
theorem C48_native_divide {L : ℕ} {a b r : AV p} {s s' : Ctx p} {w : Cell → ZMod p} (hi : Inv s)
    (hrun : (nativeOps p L).divide a b s = some (r, s')) (hw : Sat tbl s' w) : at' w b ≠ 0 ∧ at' w r = at' w a / at' w b :=
  ((nativeLaws (tbl := tbl) L).divide a b trivial).run hi hrun hw _ _ rfl rfl

/-- C48 (finding): `NativeFieldChip::is_soft_nonzero` does not return a bit: it is `-1` for zero and `0` for everything else, so
for every nonzero element its answer (0) reads "zero". -/
theorem C48_native_is_soft_nonzero {L : ℕ} {a r : AV p} {s s' : Ctx p} {w : Cell → ZMod p} (hi : Inv s)
    (hrun : (nativeOps p L).isSoftNonzero a s = some (r, s')) (hw : Sat tbl s' w) :
    at' w r = if at' w a = 0 then -1 else 0 := (nativeIsSoftNonzero_sound (tbl := tbl) a).run hi hrun hw

theorem C48_native_not_softNonzero {L : ℕ} {a r : AV p} {s s' : Ctx p} {w : Cell → ZMod p} (hi : Inv s)
    (hrun : (nativeOps p L).isSoftNonzero a s = some (r, s')) (hw : Sat tbl s' w) (ha : at' w a ≠ 0) :
    at' w r ≠ if at' w a ≠ 0 then 1 else 0 := by
  rw [C48_native_is_soft_nonzero hi hrun hw, if_neg ha, if_pos ha]
  exact zero_ne_one

/-- The curve chip over the native field (Grumpkin in a BN254 circuit) satisfies every size condition. -/
theorem native_ecFits (L : ℕ) : EcFits (nativeLaws (p := p) (tbl := tbl) L) := by
  constructor <;> trivial

/-- C48: curve addition over the native field. -/
theorem C48_native_ec_add {L : ℕ} {b : ZMod p} {P Q : CmpPt (nativeOps p L)} {r : EcPt (nativeOps p L)} {s s' : Ctx p}
    {w : Cell → ZMod p} {g1 g2 : ECurve b} (hi : Inv s) (hrun : ecAddUnequal (nativeOps p L) P Q true s = some (r, s'))
    (hw : Sat tbl s' w) (hP : CmpRep (nativeLaws (tbl := tbl) L) b w P g1) (hQ : CmpRep (nativeLaws (tbl := tbl) L) b w Q g2) :
    g1 ≠ g2 ∧ g1 ≠ -g2 ∧ EcRep (nativeLaws (tbl := tbl) L) b w r (g1 + g2) := by
  obtain ⟨h1, h2⟩ := C49_add_unequal (native_ecFits L) hi hrun hw hP hQ
  exact ⟨(h1 rfl).1, (h1 rfl).2, h2 (h1 rfl).1 (h1 rfl).2⟩

/-- Non-vacuity: a run of the native chip (p = 101), with the honest witness. -/
example : ((do let a ← loadWitness 5; (nativeOps 101 8).isSoftNonzero a) ctx0).isSome = true := by decide +kernel

end H2
