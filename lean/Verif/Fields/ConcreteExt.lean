import Verif.Fields.LawsExt2
import Verif.Fields.Concrete
import Mathlib.Algebra.QuadraticAlgebra.Basic
import Mathlib.FieldTheory.KummerExtension
import Mathlib.NumberTheory.LegendreSymbol.Basic

/-!
# The extension fields of BN254

`Fq2 = Fq[u]/(u² + 1)` and `Fq12 = Fq2[w]/(w⁶ - (9 + u))`: that these are fields is proved here.
-/

set_option autoImplicit false
namespace H2
open Polynomial

/-- `u² = -1` has no root modulo the BN254 base field modulus. -/
theorem bn254Q_sq (r : ZMod bn254Q) : r ^ 2 ≠ -1 + 0 * r := by
  intro h
  have : bn254Q % 4 ≠ 3 := ZMod.exists_sq_eq_neg_one_iff.1 ⟨r, by rw [← sq, h]; ring⟩
  exact this (by decide +kernel)

instance fact_bn254Q_sq : Fact (∀ r : ZMod bn254Q, r ^ 2 ≠ -1 + 0 * r) := ⟨bn254Q_sq⟩

/-- The quadratic extension. -/
abbrev Fq2 := QuadraticAlgebra (ZMod bn254Q) (-1) 0

/-- The square root of -1. -/
abbrev Fq2.u : Fq2 := ⟨0, 1⟩

theorem Fq2.u_sq : Fq2.u * Fq2.u = -1 := by
  ext
  · simp
    rfl
  · simp
    rfl

theorem Fq2.alg (x : ZMod bn254Q) : algebraMap (ZMod bn254Q) Fq2 x = ⟨x, 0⟩ := rfl

/-- The basis `1, u`. -/
def Fq2.basis : ExtBasis (ZMod bn254Q) Fq2 where
  e := [1, Fq2.u]
  pos := by simp
  indep := by
    intro xs ys hx hy h
    obtain ⟨x0, x1, rfl⟩ := list2 hx
    obtain ⟨y0, y1, rfl⟩ := list2 hy
    simp only [lin, List.zipWith_cons_cons, List.zipWith_nil_left, List.sum_cons, List.sum_nil, Fq2.alg] at h
    have h0 := congrArg QuadraticAlgebra.re h
    have h1 := congrArg QuadraticAlgebra.im h
    simp at h0 h1
    rw [h0, h1]

/-- The sextic non-residue `9 + u`. -/
abbrev Fq2.xi : Fq2 := ⟨9, 1⟩

theorem bn254Q_no_root {d : ℕ} (hd : d ∣ bn254Q - 1) (h : powMod bn254Q 256 82 ((bn254Q - 1) / d) 1 ≠ 1) (y : ZMod bn254Q) :
    y ^ d ≠ 82 := by
  intro hy
  apply h
  have hs : bn254Q < 2 ^ 256 := by decide +kernel
  rw [powMod_eq _ _ _ _ _ ((Nat.div_le_self _ _).trans_lt ((Nat.sub_le _ _).trans_lt hs)), one_mul]
  have h1 : ((82 ^ ((bn254Q - 1) / d) : ℕ) : ZMod bn254Q) = ((1 : ℕ) : ZMod bn254Q) := by
    push_cast
    rw [← hy, ← pow_mul, Nat.mul_div_cancel' hd]
    refine ZMod.pow_card_sub_one_eq_one ?_
    rintro rfl
    have h2 : d ≠ 0 := by
      rintro rfl
      have : bn254Q - 1 ≠ 0 := by decide +kernel
      exact this (Nat.eq_zero_of_zero_dvd hd)
    rw [zero_pow h2] at hy
    have : ((0 : ℕ) : ZMod bn254Q) = ((82 : ℕ) : ZMod bn254Q) := by exact_mod_cast hy
    rw [ZMod.natCast_eq_natCast_iff'] at this
    revert this
    decide +kernel
  rw [ZMod.natCast_eq_natCast_iff'] at h1
  rw [h1]
  decide +kernel

theorem Fq2.norm_xi : QuadraticAlgebra.norm Fq2.xi = 82 := by
  rw [QuadraticAlgebra.norm_def]
  norm_num

theorem Fq2.xi_sq (y : Fq2) : y ^ 2 ≠ Fq2.xi := by
  intro h
  refine bn254Q_no_root (d := 2) (by decide +kernel) (by decide +kernel) (QuadraticAlgebra.norm y) ?_
  rw [← map_pow, h, Fq2.norm_xi]

theorem Fq2.xi_cube (y : Fq2) : y ^ 3 ≠ Fq2.xi := by
  intro h
  refine bn254Q_no_root (d := 3) (by decide +kernel) (by decide +kernel) (QuadraticAlgebra.norm y) ?_
  rw [← map_pow, h, Fq2.norm_xi]

/-- `X⁶ - (9 + u)`. -/
noncomputable abbrev Fq12.poly : Fq2[X] := X ^ 6 - C Fq2.xi

theorem Fq12.irr : Irreducible Fq12.poly := by
  show Irreducible (X ^ (2 * 3) - C Fq2.xi)
  refine X_pow_mul_sub_C_irreducible (X_pow_sub_C_irreducible_of_prime Nat.prime_three Fq2.xi_cube) ?_
  intro E _ _ x hx
  have : IsIntegral Fq2 x := not_not.mp fun h ↦ by
    simpa only [degree_zero, degree_X_pow_sub_C (show 0 < 3 by norm_num),
      WithBot.natCast_ne_bot] using congr_arg degree (hx.symm.trans (dif_neg h))
  refine X_pow_sub_C_irreducible_of_prime Nat.prime_two ?_
  intro b hb
  apply Fq2.xi_sq (Algebra.norm _ b)
  rw [← map_pow, hb, ← IntermediateField.adjoin.powerBasis_gen this,
    Algebra.PowerBasis.norm_gen_eq_coeff_zero_minpoly]
  have h3 : natDegree (X ^ 3 - C Fq2.xi) = 3 := natDegree_X_pow_sub_C
  have e3 : (-1 : Fq2) ^ 3 = -1 := by ring
  simp [IntermediateField.minpoly_gen, hx, h3, e3]

instance Fq12.fact : Fact (Irreducible Fq12.poly) := ⟨Fq12.irr⟩

/-- The extension of degree twelve. -/
abbrev Fq12 := AdjoinRoot Fq12.poly

/-- The generator `w`. -/
noncomputable abbrev Fq12.w : Fq12 := AdjoinRoot.root _

/-- `u` in `Fq12`. -/
noncomputable abbrev Fq12.u : Fq12 := algebraMap Fq2 Fq12 Fq2.u

theorem Fq12.u_sq : Fq12.u * Fq12.u = -1 := by
  rw [← map_mul, Fq2.u_sq, map_neg, map_one]

theorem Fq12.w_six : Fq12.w ^ 6 = Fq12.u + ((9 : ℤ) : Fq12) := by
  have h : AdjoinRoot.mk Fq12.poly Fq12.poly = 0 := AdjoinRoot.mk_self
  have h2 : AdjoinRoot.mk Fq12.poly Fq12.poly = Fq12.w ^ 6 - algebraMap Fq2 Fq12 Fq2.xi := by
    rw [map_sub, map_pow, AdjoinRoot.mk_X]
    rfl
  rw [h2, sub_eq_zero] at h
  rw [h, ← map_intCast (algebraMap Fq2 Fq12), ← map_add]
  congr 1

/-- Elements of `Fq12` are polynomials of degree at most 5 in `w`. -/
theorem Fq12.inj {P Q : Fq2[X]} (hP : P.natDegree < 6) (hQ : Q.natDegree < 6) (h : AdjoinRoot.mk Fq12.poly P = AdjoinRoot.mk Fq12.poly Q) :
    P = Q := by
  rw [AdjoinRoot.mk_eq_mk] at h
  have hd : natDegree Fq12.poly = 6 := natDegree_X_pow_sub_C
  by_contra hne
  have := natDegree_le_of_dvd h (sub_ne_zero.2 hne)
  have h2 := natDegree_sub_le P Q
  omega

theorem Fq12.lin_eq (x0 x1 x2 x3 x4 x5 x6 x7 x8 x9 x10 x11 : ZMod bn254Q) :
    lin (basis12 Fq12.u Fq12.w) [x0, x1, x2, x3, x4, x5, x6, x7, x8, x9, x10, x11] =
    AdjoinRoot.mk Fq12.poly (C ⟨x0, x6⟩ + C ⟨x1, x7⟩ * X + C ⟨x2, x8⟩ * X ^ 2 + C ⟨x3, x9⟩ * X ^ 3 + C ⟨x4, x10⟩ * X ^ 4 +
      C ⟨x5, x11⟩ * X ^ 5) := by
  have key : ∀ a b : ZMod bn254Q, AdjoinRoot.mk Fq12.poly (C (⟨a, b⟩ : Fq2)) = algebraMap (ZMod bn254Q) Fq12 a +
      algebraMap (ZMod bn254Q) Fq12 b * Fq12.u := by
    intro a b
    rw [IsScalarTower.algebraMap_apply (ZMod bn254Q) Fq2 Fq12, IsScalarTower.algebraMap_apply (ZMod bn254Q) Fq2 Fq12,
      ← map_mul, ← map_add]
    show algebraMap Fq2 Fq12 _ = _
    congr 1
    rw [Fq2.alg, Fq2.alg]
    ext <;> simp
  simp only [map_add, map_mul, map_pow, key, AdjoinRoot.mk_X]
  simp only [lin, basis12, List.zipWith_cons_cons, List.zipWith_nil_left, List.sum_cons, List.sum_nil]
  ring

/-- The basis `1, w, …, w⁵, u, …, uw⁵`. -/
noncomputable def Fq12.basis : ExtBasis (ZMod bn254Q) Fq12 where
  e := basis12 Fq12.u Fq12.w
  pos := by simp [basis12]
  indep := by
    intro xs ys hx hy h
    obtain ⟨x0, x1, x2, x3, x4, x5, x6, x7, x8, x9, x10, x11, rfl⟩ := list12 hx
    obtain ⟨y0, y1, y2, y3, y4, y5, y6, y7, y8, y9, y10, y11, rfl⟩ := list12 hy
    rw [Fq12.lin_eq, Fq12.lin_eq] at h
    have hd : ∀ a b c d e f : Fq2, natDegree (C a + C b * X + C c * X ^ 2 + C d * X ^ 3 + C e * X ^ 4 + C f * X ^ 5) < 6 := by
      intro a b c d e f
      have : natDegree (C a + C b * X + C c * X ^ 2 + C d * X ^ 3 + C e * X ^ 4 + C f * X ^ 5) ≤ 5 := by compute_degree
      omega
    have := Fq12.inj (hd _ _ _ _ _ _) (hd _ _ _ _ _ _) h
    have c : ∀ n, n < 6 → _ := fun n (_ : n < 6) => congrArg (fun P => coeff P n) this
    have c0 := c 0 (by norm_num)
    have c1 := c 1 (by norm_num)
    have c2 := c 2 (by norm_num)
    have c3 := c 3 (by norm_num)
    have c4 := c 4 (by norm_num)
    have c5 := c 5 (by norm_num)
    simp [coeff_X, coeff_C, coeff_X_pow] at c0 c1 c2 c3 c4 c5
    simp [c0, c1, c2, c3, c4, c5]

end H2
