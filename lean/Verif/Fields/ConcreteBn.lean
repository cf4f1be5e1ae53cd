import Verif.Fields.ConcreteExt
import Verif.Ecc.Concrete

/-!
# The extension chips over BN254 with three limbs of 88 bits: every size condition holds
-/

set_option autoImplicit false
namespace H2

/-- The base field chip of BN254 (`FpChip<Fr, Fq>` with 88-bit limbs, 3 limbs, 16 lookup bits). -/
abbrev bnChip : FpChip bn254R := fpChip bn254R 16 bn254Q 88 3

theorem bnOk : FpOk bnChip := fpParams_bn254Q.ok fpParams_bn254Q.new_eq

instance fact_bnChip : Fact bnChip.modulus.Prime := fact_bn254Q

/-- Its laws. -/
abbrev bnLaws : FieldLaws bnChip.ops (ZMod bn254Q) (RangeTable bn254R 16) := FpChip.laws bnOk

/-- The native field of an extension with a basis, as the parameter of the extension chips. -/
noncomputable def extFieldOf {K2 : Type} [Field K2] [Algebra (ZMod bn254Q) K2] (B : ExtBasis (ZMod bn254Q) K2)
    (hs : ∀ x : K2, ∃ xs : List (ZMod bn254Q), xs.length = B.e.length ∧ x = lin B.e xs) : ExtField bnChip.ops where
  V := K2
  new := fun cs => lin (K := ZMod bn254Q) B.e cs
  coeffs := fun x => (Classical.choose (hs x) : List (ZMod bn254Q))
  vdiv := fun a b => a / b
  vneg := fun a => -a
  vzero := (0 : K2)

theorem extFieldOf_len {K2 : Type} [Field K2] [Algebra (ZMod bn254Q) K2] (B : ExtBasis (ZMod bn254Q) K2)
    (hs : ∀ x : K2, ∃ xs : List (ZMod bn254Q), xs.length = B.e.length ∧ x = lin B.e xs) (v : (extFieldOf B hs).V) :
    ((extFieldOf B hs).coeffs v).length = B.e.length := (Classical.choose_spec (hs v)).1

theorem extFieldOf_zero {K2 : Type} [Field K2] [DecidableEq K2] [Algebra (ZMod bn254Q) K2] (B : ExtBasis (ZMod bn254Q) K2)
    (hs : ∀ x : K2, ∃ xs : List (ZMod bn254Q), xs.length = B.e.length ∧ x = lin B.e xs) :
    ∀ v ∈ (extFieldOf B hs).coeffs (extFieldOf B hs).vzero, bnLaws.val v = 0 := by
  obtain ⟨h1, h2⟩ := Classical.choose_spec (hs 0)
  intro v hv
  exact (B.lin_eq_zero h1).1 h2.symm v hv

theorem Fq2.span (x : Fq2) : ∃ xs : List (ZMod bn254Q), xs.length = Fq2.basis.e.length ∧ x = lin Fq2.basis.e xs := by
  refine ⟨[x.re, x.im], rfl, ?_⟩
  simp only [Fq2.basis, lin, List.zipWith_cons_cons, List.zipWith_nil_left, List.sum_cons, List.sum_nil, Fq2.alg]
  ext <;> simp

theorem Fq12.span (x : Fq12) : ∃ xs : List (ZMod bn254Q), xs.length = Fq12.basis.e.length ∧ x = lin Fq12.basis.e xs := by
  obtain ⟨P, rfl⟩ := AdjoinRoot.mk_surjective x
  have hm : Fq12.poly.Monic := Polynomial.monic_X_pow_sub_C _ (by norm_num)
  have hd : Polynomial.natDegree Fq12.poly = 6 := Polynomial.natDegree_X_pow_sub_C
  have e : AdjoinRoot.mk Fq12.poly P = AdjoinRoot.mk Fq12.poly (P %ₘ Fq12.poly) := by
    rw [AdjoinRoot.mk_eq_mk]
    rw [Polynomial.modByMonic_eq_sub_mul_div, sub_sub_cancel]
    exact dvd_mul_right _ _
  have hl : (P %ₘ Fq12.poly).natDegree < 6 := by
    have := Polynomial.natDegree_modByMonic_lt P hm (by
      intro h1
      rw [h1] at hd
      simp at hd)
    omega
  rw [e]
  generalize P %ₘ Fq12.poly = Q at hl
  refine ⟨[(Q.coeff 0).re, (Q.coeff 1).re, (Q.coeff 2).re, (Q.coeff 3).re, (Q.coeff 4).re, (Q.coeff 5).re,
    (Q.coeff 0).im, (Q.coeff 1).im, (Q.coeff 2).im, (Q.coeff 3).im, (Q.coeff 4).im, (Q.coeff 5).im], rfl, ?_⟩
  show _ = lin (basis12 Fq12.u Fq12.w) _
  rw [Fq12.lin_eq]
  congr 1
  conv_lhs => rw [Q.as_sum_range' 6 hl]
  simp [Finset.sum_range_succ, ← Polynomial.C_mul_X_pow_eq_monomial]

/-- The native fields of the two chips. -/
noncomputable abbrev bnE2 : ExtField bnChip.ops := extFieldOf Fq2.basis Fq2.span
noncomputable abbrev bnE12 : ExtField bnChip.ops := extFieldOf Fq12.basis Fq12.span

/-- `Fp2Chip` over BN254 implements `Fq2`. -/
noncomputable abbrev bnLaws2 : FieldLaws (fp2Ops bnChip.ops bnE2) Fq2 (RangeTable bn254R 16) :=
  fp2Laws bnLaws Fq2.u_sq Fq2.basis rfl bnE2 (extFieldOf_len _ _) (extFieldOf_zero _ _)

/-- `Fp12Chip` over BN254 implements `Fq12`. -/
noncomputable abbrev bnLaws12 : FieldLaws (fp12Ops bnChip.ops bnE12 9) Fq12 (RangeTable bn254R 16) :=
  fp12Laws bnLaws Fq12.u_sq Fq12.w_six Fq12.basis rfl bnE12 (extFieldOf_len _ _) (extFieldOf_zero _ _)

/-! ### Sizes -/

theorem bnLaws_pSz : bnLaws.pSz = (88, 2 ^ 254) := by
  have h : bnLaws.pSz = (88, 2 ^ Nat.size bnChip.modulus) := rfl
  rw [h, show bnChip.modulus = bn254Q from rfl, size_bn254Q]

theorem bound_88_3 (m : ℕ) : 2 ^ ((fpChip bn254R 16 m 88 3).n * (fpChip bn254R 16 m 88 3).k + numBits bn254R - 3) = 2 ^ 515 := by
  show 2 ^ (88 * 3 + numBits bn254R - 3) = 2 ^ 515
  rw [numBits, size_bn254R]

/-- The sizes of `bnLaws`, spelled out. -/
theorem bnLaws_carryFits {x : ℕ × ℕ} (h : x.1 ≤ 240 ∧ x.2 ≤ 2 ^ 515) : bnLaws.carryFits x :=
  ⟨carryFits_88_3 _ _ h.1, h.2.trans (bound_88_3 bn254Q ▸ FpChip.max_ge bnOk)⟩

theorem bnLaws_zeroFits {x : ℕ × ℕ} (h : x.1 ≤ 240 ∧ x.2 ≤ 2 ^ 515) : bnLaws.zeroFits x :=
  ⟨carryZeroFits_88_3 _ _ h.1, by
    rw [bound_88_3]
    exact h.2⟩

theorem bnLaws2_carryFits {x : List (ℕ × ℕ)} (h : ∀ y ∈ x, y.1 ≤ 240 ∧ y.2 ≤ 2 ^ 515) : bnLaws2.carryFits x :=
  fun y hy => bnLaws_carryFits (h y hy)
theorem bnLaws2_zeroFits {x : List (ℕ × ℕ)} (h : ∀ y ∈ x, y.1 ≤ 240 ∧ y.2 ≤ 2 ^ 515) : bnLaws2.zeroFits x :=
  fun y hy => bnLaws_zeroFits (h y hy)
theorem bnLaws12_carryFits {x : List (ℕ × ℕ)} (h : ∀ y ∈ x, y.1 ≤ 240 ∧ y.2 ≤ 2 ^ 515) : bnLaws12.carryFits x :=
  fun y hy => bnLaws_carryFits (h y hy)
theorem bnLaws12_zeroFits {x : List (ℕ × ℕ)} (h : ∀ y ∈ x, y.1 ≤ 240 ∧ y.2 ≤ 2 ^ 515) : bnLaws12.zeroFits x :=
  fun y hy => bnLaws_zeroFits (h y hy)

/-- The size arithmetic of the base chip, on literals. -/
def bnSz (xi : ℤ) : Arith (ℕ × ℕ) where
  add := fun x y => (max x.1 y.1 + 1, x.2 + y.2)
  sub := fun x y => (max x.1 y.1 + 1, x.2 + y.2)
  mul := fun x y => (2 + x.1 + y.1, x.2 * y.2)
  smulAdd := fun x y => (max (x.1 + FpChip.mulBits xi) y.1 + 1, x.2 * xi.natAbs + y.2)

theorem bnSz_eq (xi : ℤ) : bnLaws.szArith xi = bnSz xi := rfl

theorem bnLaws2_pSz : bnLaws2.pSz = [(88, 2 ^ 254), (88, 2 ^ 254)] := by
  show List.replicate 2 bnLaws.pSz = _
  rw [bnLaws_pSz]
  rfl

theorem bnLaws12_pSz : bnLaws12.pSz = List.replicate 12 (88, 2 ^ 254) := by
  have h : bnLaws12.pSz = List.replicate 12 bnLaws.pSz := rfl
  rw [h, bnLaws_pSz]
  rfl

theorem bnLaws2_mulSz : bnLaws2.mulSz = fp2S (bnSz 0) := rfl
theorem bnLaws12_mulSz : bnLaws12.mulSz = fp12S (bnSz 9) := rfl

/-- `FieldLaws` size functions of an `Fp2Chip`, on literals. -/
theorem bnLaws2_ecFits : EcFits bnLaws2 := by
  have hc : ∀ x : List (ℕ × ℕ), x.all (fun y => decide (y.1 ≤ 240 ∧ y.2 ≤ 2 ^ 515)) = true → bnLaws2.carryFits x := fun x h =>
    bnLaws2_carryFits fun y hy => of_decide_eq_true (List.all_eq_true.1 h y hy)
  have hz : ∀ x : List (ℕ × ℕ), x.all (fun y => decide (y.1 ≤ 240 ∧ y.2 ≤ 2 ^ 515)) = true → bnLaws2.zeroFits x := fun x h =>
    bnLaws2_zeroFits fun y hy => of_decide_eq_true (List.all_eq_true.1 h y hy)
  have hadd : bnLaws2.addSz = List.zipWith (bnSz 0).add := rfl
  have hsub : bnLaws2.subSz = List.zipWith (bnSz 0).add := rfl
  have hsm : ∀ z, bnLaws2.smulSz z = List.map (fun x : ℕ × ℕ => (x.1 + FpChip.mulBits z, x.2 * z.natAbs)) := fun _ => rfl
  have haddc : bnLaws2.addcSz = List.map (fun x : ℕ × ℕ => (max x.1 88 + 1, x.2 + bn254Q)) := rfl
  constructor
  all_goals
    simp only [bnLaws2_pSz, bnLaws2_mulSz, hadd, hsub, hsm, haddc]
    first
      | refine hc _ ?_
      | refine hz _ ?_
    decide +kernel

/-- Products of two points of `Fp12` can be carried. -/
theorem bnLaws12_mul : bnLaws12.carryFits (bnLaws12.mulSz bnLaws12.pSz bnLaws12.pSz) := by
  rw [bnLaws12_pSz, bnLaws12_mulSz]
  refine bnLaws12_carryFits fun y hy => ?_
  have : (fp12S (bnSz 9) (List.replicate 12 (88, 2 ^ 254)) (List.replicate 12 (88, 2 ^ 254))).all
      (fun y => decide (y.1 ≤ 240 ∧ y.2 ≤ 2 ^ 515)) = true := by decide +kernel
  exact of_decide_eq_true (List.all_eq_true.1 this y hy)

/-- Quotients of two points of `Fp12` can be checked. -/
theorem bnLaws12_div : bnLaws12.zeroFits (bnLaws12.subSz (bnLaws12.mulSz bnLaws12.pSz bnLaws12.pSz) bnLaws12.pSz) := by
  have hsub : bnLaws12.subSz = List.zipWith (bnSz 0).add := rfl
  rw [bnLaws12_pSz, bnLaws12_mulSz, hsub]
  refine bnLaws12_zeroFits fun y hy => ?_
  have : (List.zipWith (bnSz 0).add (fp12S (bnSz 9) (List.replicate 12 (88, 2 ^ 254)) (List.replicate 12 (88, 2 ^ 254)))
      (List.replicate 12 (88, 2 ^ 254))).all (fun y => decide (y.1 ≤ 240 ∧ y.2 ≤ 2 ^ 515)) = true := by decide +kernel
  exact of_decide_eq_true (List.all_eq_true.1 this y hy)

theorem bnLaws2_mul : bnLaws2.carryFits (bnLaws2.mulSz bnLaws2.pSz bnLaws2.pSz) := bnLaws2_ecFits.sq

theorem bnLaws2_div : bnLaws2.zeroFits (bnLaws2.subSz (bnLaws2.mulSz bnLaws2.pSz bnLaws2.pSz) bnLaws2.pSz) := by
  have hsub : bnLaws2.subSz = List.zipWith (bnSz 0).add := rfl
  rw [bnLaws2_pSz, bnLaws2_mulSz, hsub]
  refine bnLaws2_zeroFits fun y hy => ?_
  have : (List.zipWith (bnSz 0).add (fp2S (bnSz 0) (List.replicate 2 (88, 2 ^ 254)) (List.replicate 2 (88, 2 ^ 254)))
      (List.replicate 2 (88, 2 ^ 254))).all (fun y => decide (y.1 ≤ 240 ∧ y.2 ≤ 2 ^ 515)) = true := by decide +kernel
  exact of_decide_eq_true (List.all_eq_true.1 this y hy)

/-! ### The twist -/

/-- The constant `3 / (9 + u)` of the curve of G2. -/
noncomputable abbrev g2B : Fq2 := 3 / Fq2.xi

theorem Fq2.natCast_ne {c : ℕ} (hc : c % bn254Q ≠ 0) : ((c : ℕ) : Fq2) ≠ 0 := by
  intro h
  have := congrArg QuadraticAlgebra.re h
  rw [QuadraticAlgebra.re_natCast] at this
  exact natCast_ne_zero_of hc this

theorem Fq2.xi_ne : Fq2.xi ≠ 0 := by
  intro h
  have := congrArg QuadraticAlgebra.im h
  simp at this

theorem curveOk_g2 : CurveOk g2B :=
  ⟨Fq2.natCast_ne (c := 2) (by decide +kernel), Fq2.natCast_ne (c := 3) (by decide +kernel),
    div_ne_zero (Fq2.natCast_ne (c := 3) (by decide +kernel)) Fq2.xi_ne⟩

/-- G2's curve has no point of order two. -/
theorem two_torsion_g2 (g : ECurve g2B) (hg : 2 • g = 0) : g = 0 := by
  refine two_torsion curveOk_g2 (fun x hx => ?_) g hg
  have h1 : (Fq2.xi * x) ^ 3 = -(3 * Fq2.xi ^ 2) := by
    have : Fq2.xi * x ^ 3 = -3 := by
      have := Fq2.xi_ne
      have h2 : x ^ 3 = -(3 / Fq2.xi) := by linear_combination hx
      rw [h2]
      field_simp
    linear_combination Fq2.xi ^ 2 * this
  have h2 := congrArg QuadraticAlgebra.norm h1
  have n3 : QuadraticAlgebra.norm (-(3 * Fq2.xi ^ 2)) = (9 * 82 ^ 2 : ZMod bn254Q) := by
    have e : -(3 * Fq2.xi ^ 2) = (⟨-3, 0⟩ : Fq2) * Fq2.xi ^ 2 := by
      have : (⟨-3, 0⟩ : Fq2) = -3 := by
        ext
        · simp
          rfl
        · simp
          rfl
      rw [this]; ring
    rw [e, map_mul, map_pow, Fq2.norm_xi, QuadraticAlgebra.norm_def]
    norm_num
  rw [map_pow, n3] at h2
  refine not_cube (q := bn254Q) (by decide +kernel) (by decide +kernel) (9 * 82 ^ 2) (by decide +kernel) (by decide +kernel)
    (QuadraticAlgebra.norm (Fq2.xi * x)) ?_
  rw [h2]
  push_cast
  rfl

end H2
