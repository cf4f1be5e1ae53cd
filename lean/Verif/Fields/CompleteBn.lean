import Verif.Fields.CompleteFp12
import Verif.Fields.ConcreteBn
import Verif.Ecc.CompleteConcrete

/-!
# The chips of BN254's tower (three limbs of 88 bits) are complete, and every size condition of completeness holds
-/

set_option autoImplicit false
namespace H2

theorem bnCmpOk : FpCmp bnChip := fpCmp_88_3 (by decide +kernel) (by decide +kernel)

/-- The base field chip of BN254 is complete. -/
def bnCmp : FieldCmp bnLaws := FpChip.cmp bnCmpOk

theorem extFieldOf_coeffs {K2 : Type} [Field K2] [Algebra (ZMod bn254Q) K2] (B : ExtBasis (ZMod bn254Q) K2)
    (hs : ∀ x : K2, ∃ xs : List (ZMod bn254Q), xs.length = B.e.length ∧ x = lin B.e xs) (v : (extFieldOf B hs).V) :
    lin (K := ZMod bn254Q) B.e (((extFieldOf B hs).coeffs v).map bnLaws.val) = (v : K2) := by
  have h := (Classical.choose_spec (hs v)).2
  show lin B.e ((Classical.choose (hs v)).map fun x => x) = v
  rw [List.map_id']
  exact h.symm

/-- `Fp2Chip` over BN254 is complete. -/
noncomputable def bnCmp2 : FieldCmp bnLaws2 :=
  fp2Cmp bnCmp Fq2.u_sq Fq2.basis rfl bnE2 (extFieldOf_len _ _) (extFieldOf_zero _ _)
    (fun vs _ => by
      rw [extFieldOf_coeffs]
      show lin (K := ZMod bn254Q) Fq2.basis.e vs = lin Fq2.basis.e (List.map (fun x : ZMod bn254Q => x) vs)
      exact congrArg (lin _) (List.map_id' (α := ZMod bn254Q) vs).symm)
    (fun u v => by rw [extFieldOf_coeffs, extFieldOf_coeffs, extFieldOf_coeffs]; rfl)
    (fun u => by rw [extFieldOf_coeffs, extFieldOf_coeffs]; rfl)

/-- `Fp12Chip` over BN254 is complete. -/
noncomputable def bnCmp12 : FieldCmp bnLaws12 :=
  fp12Cmp bnCmp (by norm_num) Fq12.u_sq Fq12.w_six Fq12.basis rfl bnE12 (extFieldOf_len _ _) (extFieldOf_zero _ _)
    (fun vs _ => by
      rw [extFieldOf_coeffs]
      show lin (K := ZMod bn254Q) Fq12.basis.e vs = lin Fq12.basis.e (List.map (fun x : ZMod bn254Q => x) vs)
      exact congrArg (lin _) (List.map_id' (α := ZMod bn254Q) vs).symm)
    (fun u v => by rw [extFieldOf_coeffs, extFieldOf_coeffs, extFieldOf_coeffs]; rfl)
    (fun u => by rw [extFieldOf_coeffs, extFieldOf_coeffs]; rfl)

/-! ### Sizes -/

theorem bnCmp_cFits {x : ℕ × ℕ} (h : x.1 ≤ 240 ∧ x.2 < 2 ^ 515) : bnCmp.cFits x :=
  ⟨carryFits_88_3 _ _ h.1, by rw [bound_88_3]; exact h.2⟩

theorem bnCmp_zFits {x : ℕ × ℕ} (h : x.1 ≤ 240 ∧ x.2 < 2 ^ 515) : bnCmp.zFits x :=
  ⟨carryZeroFits_88_3 _ _ h.1, by show _ + 2 ≤ 3 * 88; omega, by rw [bound_88_3]; exact h.2⟩

/-- The sizes fit, decidably. -/
abbrev szOk (x : List (ℕ × ℕ)) : Bool := x.all fun y => decide (y.1 ≤ 240 ∧ y.2 < 2 ^ 515)

theorem bnCmp2_cFits {x : List (ℕ × ℕ)} (h : szOk x = true) : bnCmp2.cFits x := fun y hy =>
  bnCmp_cFits (of_decide_eq_true (List.all_eq_true.1 h y hy))
theorem bnCmp2_zFits {x : List (ℕ × ℕ)} (h : szOk x = true) : bnCmp2.zFits x := fun y hy =>
  bnCmp_zFits (of_decide_eq_true (List.all_eq_true.1 h y hy))
theorem bnCmp12_cFits {x : List (ℕ × ℕ)} (h : szOk x = true) : bnCmp12.cFits x := fun y hy =>
  bnCmp_cFits (of_decide_eq_true (List.all_eq_true.1 h y hy))
theorem bnCmp12_zFits {x : List (ℕ × ℕ)} (h : szOk x = true) : bnCmp12.zFits x := fun y hy =>
  bnCmp_zFits (of_decide_eq_true (List.all_eq_true.1 h y hy))

theorem bnCmp2_ecFits : EcFitsC bnCmp2 := by
  have hadd : bnLaws2.addSz = List.zipWith (bnSz 0).add := rfl
  have hsub : bnLaws2.subSz = List.zipWith (bnSz 0).add := rfl
  have hsm : ∀ z, bnLaws2.smulSz z = List.map (fun x : ℕ × ℕ => (x.1 + FpChip.mulBits z, x.2 * z.natAbs)) := fun _ => rfl
  have haddc : bnLaws2.addcSz = List.map (fun x : ℕ × ℕ => (max x.1 88 + 1, x.2 + bn254Q)) := rfl
  constructor
  all_goals
    simp only [bnLaws2_pSz, bnLaws2_mulSz, hadd, hsub, hsm, haddc]
    first
      | refine bnCmp2_cFits ?_
      | refine bnCmp2_zFits ?_
    decide +kernel

theorem bnCmp12_mul : bnCmp12.cFits (bnLaws12.mulSz bnLaws12.pSz bnLaws12.pSz) := by
  rw [bnLaws12_pSz, bnLaws12_mulSz]
  refine bnCmp12_cFits ?_
  decide +kernel

theorem bnCmp12_div : bnCmp12.zFits (bnLaws12.subSz (bnLaws12.mulSz bnLaws12.pSz bnLaws12.pSz) bnLaws12.pSz) := by
  have hsub : bnLaws12.subSz = List.zipWith (bnSz 0).add := rfl
  rw [bnLaws12_pSz, bnLaws12_mulSz, hsub]
  refine bnCmp12_zFits ?_
  decide +kernel

theorem bnCmp2_div : bnCmp2.zFits (bnLaws2.subSz (bnLaws2.mulSz bnLaws2.pSz bnLaws2.pSz) bnLaws2.pSz) := bnCmp2_ecFits.div

theorem bnCmp12_negDiv : bnCmp12.zFits (bnLaws12.addSz (bnLaws12.mulSz bnLaws12.pSz bnLaws12.pSz) bnLaws12.pSz) := bnCmp12_div

end H2
