import Verif.Fields.ConcreteBn
import Mathlib.Algebra.CharP.Algebra
import Mathlib.Algebra.CharP.Lemmas

/-!
# The fields `Fq2` and `Fq12` of BN254: coordinates, Frobenius, the cyclotomic subgroup

Pure mathematics; nothing about circuits.
-/

set_option autoImplicit false
set_option linter.unusedSectionVars false
namespace H2

instance Fq2.charP : CharP Fq2 bn254Q := charP_of_injective_algebraMap (algebraMap (ZMod bn254Q) Fq2).injective bn254Q
instance Fq12.charP : CharP Fq12 bn254Q := charP_of_injective_algebraMap (algebraMap Fq2 Fq12).injective bn254Q

/-! ### Coordinates -/

/-- The embedding of `Fq2`. -/
noncomputable abbrev Fq12.ι : Fq2 →+* Fq12 := algebraMap Fq2 Fq12

/-- The element with the given coordinates over `Fq2` in the basis `1, w, …, w⁵`. -/
noncomputable def e6 (a0 a1 a2 a3 a4 a5 : Fq2) : Fq12 :=
  Fq12.ι a0 + Fq12.ι a1 * Fq12.w + Fq12.ι a2 * Fq12.w ^ 2 + Fq12.ι a3 * Fq12.w ^ 3 + Fq12.ι a4 * Fq12.w ^ 4 + Fq12.ι a5 * Fq12.w ^ 5

theorem Fq12.w6 : Fq12.w ^ 6 = Fq12.ι Fq2.xi := by
  rw [Fq12.w_six, ← map_intCast (algebraMap Fq2 Fq12), ← map_add]
  congr 1

open Polynomial in
theorem e6_mk (a0 a1 a2 a3 a4 a5 : Fq2) : e6 a0 a1 a2 a3 a4 a5 =
    AdjoinRoot.mk Fq12.poly (C a0 + C a1 * X + C a2 * X ^ 2 + C a3 * X ^ 3 + C a4 * X ^ 4 + C a5 * X ^ 5) := by
  simp only [map_add, map_mul, map_pow, AdjoinRoot.mk_X]
  rfl

open Polynomial in
theorem e6_inj {a0 a1 a2 a3 a4 a5 b0 b1 b2 b3 b4 b5 : Fq2} (h : e6 a0 a1 a2 a3 a4 a5 = e6 b0 b1 b2 b3 b4 b5) :
    a0 = b0 ∧ a1 = b1 ∧ a2 = b2 ∧ a3 = b3 ∧ a4 = b4 ∧ a5 = b5 := by
  rw [e6_mk, e6_mk] at h
  have hd : ∀ a b c d e f : Fq2, natDegree (C a + C b * X + C c * X ^ 2 + C d * X ^ 3 + C e * X ^ 4 + C f * X ^ 5) < 6 := by
    intro a b c d e f
    have : natDegree (C a + C b * X + C c * X ^ 2 + C d * X ^ 3 + C e * X ^ 4 + C f * X ^ 5) ≤ 5 := by compute_degree
    omega
  have := Fq12.inj (hd _ _ _ _ _ _) (hd _ _ _ _ _ _) h
  have c0 := congrArg (fun P => coeff P 0) this
  have c1 := congrArg (fun P => coeff P 1) this
  have c2 := congrArg (fun P => coeff P 2) this
  have c3 := congrArg (fun P => coeff P 3) this
  have c4 := congrArg (fun P => coeff P 4) this
  have c5 := congrArg (fun P => coeff P 5) this
  simp only [coeff_add, coeff_C_mul, coeff_X, coeff_C, coeff_X_pow] at c0 c1 c2 c3 c4 c5
  norm_num at c0 c1 c2 c3 c4 c5
  exact ⟨c0, c1, c2, c3, c4, c5⟩

theorem e6_surj (x : Fq12) : ∃ a0 a1 a2 a3 a4 a5, x = e6 a0 a1 a2 a3 a4 a5 := by
  obtain ⟨xs, h1, rfl⟩ := Fq12.span x
  obtain ⟨x0, x1, x2, x3, x4, x5, x6, x7, x8, x9, x10, x11, rfl⟩ := list12 h1
  refine ⟨_, _, _, _, _, _, (Fq12.lin_eq _ _ _ _ _ _ _ _ _ _ _ _).trans (e6_mk _ _ _ _ _ _).symm⟩

theorem e6_congr {a0 a1 a2 a3 a4 a5 b0 b1 b2 b3 b4 b5 : Fq2} (h0 : a0 = b0) (h1 : a1 = b1) (h2 : a2 = b2) (h3 : a3 = b3)
    (h4 : a4 = b4) (h5 : a5 = b5) : e6 a0 a1 a2 a3 a4 a5 = e6 b0 b1 b2 b3 b4 b5 := by
  rw [h0, h1, h2, h3, h4, h5]

theorem e6_one : (1 : Fq12) = e6 1 0 0 0 0 0 := by simp [e6]
theorem e6_zero : (0 : Fq12) = e6 0 0 0 0 0 0 := by simp [e6]

theorem e6_mul (a0 a1 a2 a3 a4 a5 b0 b1 b2 b3 b4 b5 : Fq2) : e6 a0 a1 a2 a3 a4 a5 * e6 b0 b1 b2 b3 b4 b5 =
    e6 (a0 * b0 + Fq2.xi * (a1 * b5 + a2 * b4 + a3 * b3 + a4 * b2 + a5 * b1))
      (a0 * b1 + a1 * b0 + Fq2.xi * (a2 * b5 + a3 * b4 + a4 * b3 + a5 * b2))
      (a0 * b2 + a1 * b1 + a2 * b0 + Fq2.xi * (a3 * b5 + a4 * b4 + a5 * b3))
      (a0 * b3 + a1 * b2 + a2 * b1 + a3 * b0 + Fq2.xi * (a4 * b5 + a5 * b4))
      (a0 * b4 + a1 * b3 + a2 * b2 + a3 * b1 + a4 * b0 + Fq2.xi * (a5 * b5))
      (a0 * b5 + a1 * b4 + a2 * b3 + a3 * b2 + a4 * b1 + a5 * b0) := by
  have h := Fq12.w6
  simp only [e6, map_add, map_mul]
  rw [← h]
  ring

/-! ### Frobenius -/

/-- The conjugation of `Fq2`. -/
def Fq2.conj (x : Fq2) : Fq2 := ⟨x.re, -x.im⟩

/-- Conjugation, as a homomorphism over `Fq`. -/
def Fq2.σ : Fq2 →ₐ[ZMod bn254Q] Fq2 where
  toFun := Fq2.conj
  map_one' := by
    ext
    · rfl
    · simp [Fq2.conj, QuadraticAlgebra.im_one]
  map_mul' := by intro x y; ext <;> simp [Fq2.conj] <;> ring
  map_zero' := by ext <;> simp [Fq2.conj]
  map_add' := by intro x y; ext <;> simp [Fq2.conj]; ring
  commutes' := by intro r; ext <;> simp [Fq2.conj, Fq2.alg]

theorem Fq2.σ_apply (x : Fq2) : Fq2.σ x = Fq2.conj x := rfl
theorem Fq2.σ_u : Fq2.σ Fq2.u = -Fq2.u := by
  rw [Fq2.σ_apply]; ext <;> simp [Fq2.conj]

theorem bn254Q_odd : bn254Q = 2 * ((bn254Q - 1) / 2) + 1 ∧ (bn254Q - 1) / 2 = 2 * ((bn254Q - 3) / 4) + 1 := by decide +kernel

theorem Fq2.u_pow : Fq2.u ^ bn254Q = -Fq2.u := by
  obtain ⟨h1, h2⟩ := bn254Q_odd
  have hu : Fq2.u ^ 2 = -1 := by rw [sq, Fq2.u_sq]
  have key : ∀ n m : ℕ, n = 2 * m + 1 → Fq2.u ^ n = (-1) ^ m * Fq2.u := by
    rintro n m rfl
    rw [pow_succ, pow_mul, hu]
  have key2 : ∀ n m : ℕ, n = 2 * m + 1 → (-1 : Fq2) ^ n = -1 := by
    rintro n m rfl
    rw [pow_succ, pow_mul]
    norm_num
  rw [key _ _ h1, key2 _ _ h2, neg_one_mul]

theorem Fq2.eq_lin (x : Fq2) : x = algebraMap (ZMod bn254Q) Fq2 x.re + algebraMap (ZMod bn254Q) Fq2 x.im * Fq2.u := by
  rw [Fq2.alg, Fq2.alg]
  ext <;> simp

/-- Conjugation is the Frobenius map. -/
theorem Fq2.pow_q (x : Fq2) : x ^ bn254Q = Fq2.conj x := by
  have e := Fq2.eq_lin x
  have : x ^ bn254Q = (algebraMap (ZMod bn254Q) Fq2 x.re + algebraMap (ZMod bn254Q) Fq2 x.im * Fq2.u) ^ bn254Q := by rw [← e]
  rw [this, add_pow_char, mul_pow, ← map_pow, ← map_pow, ZMod.pow_card, ZMod.pow_card, Fq2.u_pow, Fq2.alg, Fq2.alg]
  ext <;> simp [Fq2.conj]

theorem Fq2.conj_conj (x : Fq2) : Fq2.conj (Fq2.conj x) = x := by ext <;> simp [Fq2.conj]

theorem Fq2.pow_q_even (k : ℕ) (x : Fq2) : x ^ bn254Q ^ (2 * k) = x := by
  induction k with
  | zero => simp
  | succ k ih =>
    rw [show 2 * (k + 1) = 2 * k + 1 + 1 by ring, pow_succ, pow_mul, pow_succ, pow_mul, ih, Fq2.pow_q, Fq2.pow_q, Fq2.conj_conj]

theorem Fq2.pow_q_odd (k : ℕ) (x : Fq2) : x ^ bn254Q ^ (2 * k + 1) = Fq2.conj x := by
  rw [pow_succ, pow_mul, Fq2.pow_q_even, Fq2.pow_q]

/-- The constants `FROBENIUS_COEFF_FQ12_C1`. -/
def frobC (k : ℕ) : Fq2 := Fq2.xi ^ ((bn254Q ^ k - 1) / 6)

theorem six_dvd (k : ℕ) : bn254Q ^ k = 6 * ((bn254Q ^ k - 1) / 6) + 1 := by
  have h : bn254Q ^ k ≡ 1 [MOD 6] := by
    have : bn254Q ≡ 1 [MOD 6] := by unfold Nat.ModEq; decide +kernel
    simpa using this.pow k
  have h2 := h.symm
  have h1 : 1 ≤ bn254Q ^ k := Nat.one_le_pow _ _ (by decide +kernel)
  rw [Nat.modEq_iff_dvd' h1] at h2
  rw [Nat.mul_div_cancel' h2]
  omega

theorem w_pow_q (k : ℕ) : Fq12.w ^ bn254Q ^ k = Fq12.ι (frobC k) * Fq12.w := by
  conv_lhs => rw [six_dvd k, pow_succ, pow_mul, Fq12.w6, ← map_pow]
  rfl

theorem e6_pow_q (k : ℕ) (a0 a1 a2 a3 a4 a5 : Fq2) : e6 a0 a1 a2 a3 a4 a5 ^ bn254Q ^ k =
    e6 (a0 ^ bn254Q ^ k) (a1 ^ bn254Q ^ k * frobC k) (a2 ^ bn254Q ^ k * frobC k ^ 2) (a3 ^ bn254Q ^ k * frobC k ^ 3)
      (a4 ^ bn254Q ^ k * frobC k ^ 4) (a5 ^ bn254Q ^ k * frobC k ^ 5) := by
  have hw := w_pow_q k
  unfold e6
  simp only [add_pow_char_pow, mul_pow, ← pow_mul, map_mul, map_pow]
  simp only [Nat.mul_comm _ (bn254Q ^ k), pow_mul, hw]
  ring

/-! ### The constants -/

/-- `82 ^ ((q - 1) / 6)`, a primitive sixth root of unity modulo `q`. -/
def zeta : Fq2 := ((powMod bn254Q 256 82 ((bn254Q - 1) / 6) 1 : ℕ) : Fq2)

theorem Fq2.xi_norm : Fq2.xi ^ (bn254Q + 1) = 82 := by
  rw [pow_succ, Fq2.pow_q]
  have h82 : (82 : Fq2) = ⟨82, 0⟩ := by
    ext
    · rfl
    · rfl
  rw [h82]
  ext <;> simp [Fq2.conj] <;> norm_num

theorem powMod_cast (a n : ℕ) (h : n < 2 ^ 256) : ((powMod bn254Q 256 a n 1 : ℕ) : Fq2) = (a : Fq2) ^ n := by
  rw [powMod_eq _ _ _ _ _ h, one_mul]
  have h := congrArg (algebraMap (ZMod bn254Q) Fq2) (ZMod.natCast_mod (a ^ n) bn254Q)
  rw [map_natCast, map_natCast] at h
  rw [h, Nat.cast_pow]

theorem frobC_two : frobC 2 = zeta := by
  have e : (bn254Q ^ 2 - 1) / 6 = (bn254Q + 1) * ((bn254Q - 1) / 6) := by decide +kernel
  unfold frobC zeta
  rw [e, pow_mul, Fq2.xi_norm]
  have hs : (bn254Q - 1) / 6 < 2 ^ 256 := by decide +kernel
  exact (powMod_cast 82 _ hs).symm

theorem natCast_zmod_eq {a b : ℕ} (h : a % bn254Q = b % bn254Q) : ((a : ℕ) : Fq2) = ((b : ℕ) : Fq2) := by
  have h1 : ((a : ℕ) : ZMod bn254Q) = ((b : ℕ) : ZMod bn254Q) := (ZMod.natCast_eq_natCast_iff' _ _ _).2 h
  have h2 := congrArg (algebraMap (ZMod bn254Q) Fq2) h1
  rwa [map_natCast, map_natCast] at h2

theorem zeta_sq : zeta ^ 2 = zeta - 1 := by
  have h : ((powMod bn254Q 256 82 ((bn254Q - 1) / 6) 1 ^ 2 + 1 : ℕ) : Fq2) = ((powMod bn254Q 256 82 ((bn254Q - 1) / 6) 1 : ℕ) : Fq2) :=
    natCast_zmod_eq (by decide +kernel)
  push_cast at h
  unfold zeta
  linear_combination h

theorem zeta_cube : zeta ^ 3 = -1 := by
  have := zeta_sq
  linear_combination (zeta + 1) * this

theorem frobC_two_mul (k : ℕ) : frobC (2 * k) = zeta ^ k := by
  have key : ∀ k, Fq12.w ^ bn254Q ^ (2 * k) = Fq12.ι (zeta ^ k) * Fq12.w := by
    intro k
    induction k with
    | zero => simp
    | succ k ih =>
      rw [show 2 * (k + 1) = 2 * k + 2 by ring, pow_add, pow_mul, ih, mul_pow, w_pow_q, frobC_two, ← map_pow]
      have : (zeta ^ k) ^ bn254Q ^ 2 = zeta ^ k := Fq2.pow_q_even 1 _
      rw [this, pow_succ, map_mul]
      ring
  have h := key k
  rw [w_pow_q] at h
  have hw : Fq12.w ≠ 0 := by
    intro h0
    have := Fq12.w6
    rw [h0, zero_pow (by norm_num)] at this
    exact Fq2.xi_ne ((map_eq_zero _).1 this.symm)
  exact Fq12.ι.injective (mul_right_cancel₀ hw h)

attribute [irreducible] zeta frobC

theorem e6_pow_q2 (a0 a1 a2 a3 a4 a5 : Fq2) : e6 a0 a1 a2 a3 a4 a5 ^ bn254Q ^ 2 =
    e6 a0 (a1 * zeta) (a2 * (zeta - 1)) (-a3) (-a4 * zeta) (a5 * (1 - zeta)) := by
  have h := fun x => Fq2.pow_q_even 1 x
  have h2 := frobC_two
  have z2 := zeta_sq
  have z3 := zeta_cube
  rw [e6_pow_q]
  simp only [mul_one] at h
  simp only [h, h2]
  refine e6_congr rfl rfl ?_ ?_ ?_ ?_
  · rw [z2]
  · rw [z3]; ring
  · linear_combination (a4 * zeta) * z3
  · linear_combination (a5 * zeta ^ 2) * z3 - a5 * z2

theorem e6_pow_q4 (a0 a1 a2 a3 a4 a5 : Fq2) : e6 a0 a1 a2 a3 a4 a5 ^ bn254Q ^ 4 =
    e6 a0 (a1 * (zeta - 1)) (-a2 * zeta) a3 (a4 * (zeta - 1)) (-a5 * zeta) := by
  rw [show (4 : ℕ) = 2 + 2 by norm_num, pow_add, pow_mul, e6_pow_q2, e6_pow_q2]
  have z2 := zeta_sq
  refine e6_congr rfl ?_ ?_ ?_ ?_ ?_
  · linear_combination a1 * z2
  · linear_combination a2 * z2
  · ring
  · linear_combination a4 * z2
  · linear_combination a5 * z2

theorem e6_pow_q6 (a0 a1 a2 a3 a4 a5 : Fq2) : e6 a0 a1 a2 a3 a4 a5 ^ bn254Q ^ 6 = e6 a0 (-a1) a2 (-a3) a4 (-a5) := by
  rw [show (6 : ℕ) = 4 + 2 by norm_num, pow_add, pow_mul, e6_pow_q4, e6_pow_q2]
  have z2 := zeta_sq
  refine e6_congr rfl ?_ ?_ ?_ ?_ ?_
  · linear_combination a1 * z2
  · linear_combination -a2 * z2
  · ring
  · linear_combination -a4 * z2
  · linear_combination a5 * z2

theorem e6_pow_q12 (x : Fq12) : x ^ bn254Q ^ 12 = x := by
  obtain ⟨a0, a1, a2, a3, a4, a5, rfl⟩ := e6_surj x
  rw [show (12 : ℕ) = 6 + 6 by norm_num, pow_add, pow_mul, e6_pow_q6, e6_pow_q6]
  simp

theorem Fq12.pow_card_sub_one {x : Fq12} (hx : x ≠ 0) : x ^ (bn254Q ^ 12 - 1) = 1 := by
  have h := e6_pow_q12 x
  have h1 : 1 ≤ bn254Q ^ 12 := Nat.one_le_pow _ _ (by decide +kernel)
  have e : bn254Q ^ 12 = (bn254Q ^ 12 - 1) + 1 := by omega
  rw [e, pow_succ] at h
  exact mul_right_cancel₀ hx (h.trans (one_mul x).symm)

/-! ### The cyclotomic subgroup -/

/-- The order `Φ₁₂(q)` of the cyclotomic subgroup. -/
def cycOrd : ℕ := bn254Q ^ 4 - bn254Q ^ 2 + 1

theorem cycOrd_eq : cycOrd + bn254Q ^ 2 = bn254Q ^ 4 + 1 := by decide +kernel
theorem cycOrd_mul : cycOrd * (bn254Q ^ 2 + 1) = bn254Q ^ 6 + 1 := by decide +kernel

/-- Membership in the cyclotomic subgroup. -/
def InCyc (x : Fq12) : Prop := x ^ cycOrd = 1

theorem InCyc.ne_zero {x : Fq12} (h : InCyc x) : x ≠ 0 := by
  rintro rfl
  unfold InCyc at h
  rw [zero_pow (by unfold cycOrd; omega)] at h
  exact zero_ne_one h

theorem InCyc.pow {x : Fq12} (h : InCyc x) (n : ℕ) : InCyc (x ^ n) := by
  unfold InCyc at *
  rw [← pow_mul, mul_comm, pow_mul, h, one_pow]

theorem InCyc.mul {x y : Fq12} (hx : InCyc x) (hy : InCyc y) : InCyc (x * y) := by
  unfold InCyc at *
  rw [mul_pow, hx, hy, one_mul]

theorem InCyc.inv {x : Fq12} (hx : InCyc x) : InCyc x⁻¹ := by
  unfold InCyc at *
  rw [inv_pow, hx, inv_one]

theorem InCyc.frob {x : Fq12} (h : InCyc x) : x ^ bn254Q ^ 4 * x = x ^ bn254Q ^ 2 := by
  rw [← pow_succ, ← cycOrd_eq, pow_add, h, one_mul]

theorem InCyc.conj {x : Fq12} (h : InCyc x) : x ^ bn254Q ^ 6 * x = 1 := by
  rw [← pow_succ, ← cycOrd_mul, pow_mul, h, one_pow]

/-- The relations between the coordinates of an element of the cyclotomic subgroup. -/
structure CycRel (a0 a1 a2 a3 a4 a5 : Fq2) : Prop where
  k0 : a0 ^ 2 + Fq2.xi * (a3 ^ 2 - a1 * a5 - a2 * a4) = a0
  k1 : a0 * a1 - 2 * Fq2.xi * a2 * a5 + Fq2.xi * a3 * a4 = a1
  k2 : a1 ^ 2 + Fq2.xi * a4 ^ 2 - a0 * a2 - Fq2.xi * a3 * a5 = a2
  k3 : 2 * a0 * a3 - a1 * a2 - Fq2.xi * a4 * a5 = -a3
  k4 : -a0 * a4 - a1 * a3 + a2 ^ 2 + Fq2.xi * a5 ^ 2 = a4
  k5 : a0 * a5 - 2 * a1 * a4 + a2 * a3 = a5
  n0 : a0 ^ 2 + Fq2.xi * (-2 * a1 * a5 + 2 * a2 * a4 - a3 ^ 2) = 1
  n4 : 2 * a0 * a4 - 2 * a1 * a3 + a2 ^ 2 - Fq2.xi * a5 ^ 2 = 0

theorem InCyc.rel {a0 a1 a2 a3 a4 a5 : Fq2} (h : InCyc (e6 a0 a1 a2 a3 a4 a5)) : CycRel a0 a1 a2 a3 a4 a5 := by
  have h1 := h.frob
  have h2 := h.conj
  rw [e6_pow_q4, e6_pow_q2, e6_mul] at h1
  rw [e6_pow_q6, e6_mul, e6_one] at h2
  obtain ⟨f0, f1, f2, f3, f4, f5⟩ := e6_inj h1
  obtain ⟨g0, -, g2, -, g4, -⟩ := e6_inj h2
  have z2 := zeta_sq
  constructor
  · linear_combination f0
  · linear_combination (1 - zeta) * f1 + (a0 * a1 - 2 * Fq2.xi * a2 * a5 + Fq2.xi * a3 * a4 - a1) * z2
  · linear_combination -zeta * f2 + (a1 ^ 2 + Fq2.xi * a4 ^ 2 - a0 * a2 - Fq2.xi * a3 * a5 - a2) * z2
  · linear_combination f3
  · linear_combination (zeta - 1) * f4 + (-a0 * a4 - a1 * a3 + a2 ^ 2 + Fq2.xi * a5 ^ 2 - a4) * z2
  · linear_combination zeta * f5 + (a0 * a5 - 2 * a1 * a4 + a2 * a3 - a5) * z2
  · linear_combination g0
  · linear_combination g4

/-- Theorem 3.1 of eprint 2010/542: decompression. -/
theorem CycRel.decompress {a0 a1 a2 a3 a4 a5 : Fq2} (h : CycRel a0 a1 a2 a3 a4 a5) :
    a3 * (a1 * 4) = a5 * a5 * Fq2.xi + a2 * a2 * 3 - a4 * 2 ∧
    a0 = (a3 * a3 * 2 + a1 * a5 - a4 * a2 * 3) * Fq2.xi + 1 ∧
    (a1 = 0 → a3 * a4 = a2 * a5 * 2) := by
  obtain ⟨k0, k1, k2, k3, k4, k5, n0, n4⟩ := h
  refine ⟨by linear_combination -2 * k4 - n4, by linear_combination n0 - k0, ?_⟩
  rintro rfl
  refine mul_left_cancel₀ Fq2.xi_ne ?_
  linear_combination k1

/-- The only element of the cyclotomic subgroup which decompression does not determine is 1. -/
theorem CycRel.eq_one {a0 a1 a2 a3 a4 a5 : Fq2} (h : CycRel a0 a1 a2 a3 a4 a5) (h1 : a1 = 0) (h4 : a4 = 0) :
    e6 a0 a1 a2 a3 a4 a5 = 1 := by
  obtain ⟨k0, k1, k2, k3, k4, k5, n0, n4⟩ := h
  subst h1 h4
  have hx := Fq2.xi_ne
  have two : (2 : Fq2) ≠ 0 := Fq2.natCast_ne (c := 2) (by decide +kernel)
  have h25 : a2 * a5 = 0 := by
    refine mul_left_cancel₀ (mul_ne_zero two hx) ?_
    linear_combination -k1
  have h2 : a2 = 0 ∧ a5 = 0 := by
    rcases mul_eq_zero.1 h25 with rfl | rfl
    · refine ⟨rfl, ?_⟩
      have : Fq2.xi * a5 ^ 2 = 0 := by linear_combination k4
      exact pow_eq_zero_iff (by norm_num) |>.1 ((mul_eq_zero.1 this).resolve_left hx)
    · refine ⟨?_, rfl⟩
      have : a2 ^ 2 = 0 := by linear_combination k4
      exact pow_eq_zero_iff (by norm_num) |>.1 this
  obtain ⟨rfl, rfl⟩ := h2
  have h3' : a3 * (2 * a0 + 1) = 0 := by linear_combination k3
  rcases mul_eq_zero.1 h3' with rfl | h3
  · have : a0 = 1 := by linear_combination n0 - k0
    rw [this, e6_one]
  · exfalso
    have z2 := zeta_sq
    have e : Fq2.xi * (2 * a3) ^ 2 = (2 * zeta - 1) ^ 2 := by
      linear_combination (3 - 2 * a0) * h3 + 4 * k0 - 4 * z2
    have h30 : 2 * a3 ≠ 0 := by
      intro h0
      have h0 : a3 = 0 := (mul_eq_zero.1 h0).resolve_left two
      subst h0
      have : a0 = 1 := by linear_combination n0 - k0
      subst this
      exact Fq2.natCast_ne (c := 3) (by decide +kernel) (by push_cast; linear_combination h3)
    refine Fq2.xi_sq ((2 * zeta - 1) / (2 * a3)) ?_
    rw [div_pow, ← e, mul_div_assoc, div_self (pow_ne_zero _ h30), mul_one]

/-- Theorem 3.2 of eprint 2010/542: squaring in compressed form. -/
theorem CycRel.square {a0 a1 a2 a3 a4 a5 : Fq2} (h : CycRel a0 a1 a2 a3 a4 a5) : ∃ h0 h1,
    e6 a0 a1 a2 a3 a4 a5 ^ 2 = e6 h0 (2 * (a1 + 3 * (Fq2.xi * (a2 * a5)))) (3 * (a1 ^ 2 + Fq2.xi * a4 ^ 2) - 2 * a2) h1
      (3 * (a2 ^ 2 + Fq2.xi * a5 ^ 2) - 2 * a4) (2 * (a5 + 3 * (a1 * a4))) := by
  obtain ⟨k0, k1, k2, k3, k4, k5, n0, n4⟩ := h
  rw [sq, e6_mul]
  refine ⟨_, _, e6_congr rfl ?_ ?_ rfl ?_ ?_⟩
  · linear_combination 2 * k1
  · linear_combination -2 * k2
  · linear_combination -2 * k4
  · linear_combination 2 * k5

/-! ### Exponents of the final exponentiation -/

/-- The order of the pairing groups. -/
abbrev rOrd : ℕ := bn254R

/-- `BN_X` of halo2curves, the parameter of the curve. -/
def bnX : ℕ := 4965661367192848881

/-- The parametrisation of Barreto-Naehrig curves. -/
theorem bn_params : bn254Q = 36 * bnX ^ 4 + 36 * bnX ^ 3 + 24 * bnX ^ 2 + 6 * bnX + 1 ∧
    bn254R = 36 * bnX ^ 4 + 36 * bnX ^ 3 + 18 * bnX ^ 2 + 6 * bnX + 1 := by decide +kernel

/-- The exponent of the hard part. -/
def hardE : ℕ := cycOrd / bn254R

theorem hardE_eq : hardE * bn254R = cycOrd := by decide +kernel

/-- The exponent of the final exponentiation. -/
def finalE : ℕ := (bn254Q ^ 12 - 1) / bn254R

theorem finalE_mul : finalE * bn254R = bn254Q ^ 12 - 1 := by decide +kernel

theorem finalE_eq : finalE = (bn254Q ^ 6 - 1) * (bn254Q ^ 2 + 1) * hardE := by decide +kernel

/-- The exponent which the addition chain of the hard part computes. -/
def chainE : ℕ := (bn254Q + (bn254Q ^ 2 + bn254Q ^ 3)) + 2 * bn254Q ^ 6 + 6 * (bnX * bnX * bn254Q ^ 2) +
  12 * (bnX * bn254Q * bn254Q ^ 6) + 18 * ((bnX + bnX * bnX * bn254Q) * bn254Q ^ 6) + 30 * (bnX * bnX * bn254Q ^ 6) +
  36 * ((bnX * bnX * bnX + bnX * bnX * bnX * bn254Q) * bn254Q ^ 6)

theorem chainE_mod : chainE = cycOrd * (chainE / cycOrd) + hardE := by decide +kernel

theorem InCyc.hard {x : Fq12} (h : InCyc x) : x ^ chainE = x ^ hardE := by
  rw [chainE_mod, pow_add, pow_mul, h, one_pow, one_mul]

theorem InCyc.easy {x : Fq12} (h : x ≠ 0) : InCyc (x ^ ((bn254Q ^ 6 - 1) * (bn254Q ^ 2 + 1))) := by
  unfold InCyc
  have e : (bn254Q ^ 6 - 1) * (bn254Q ^ 2 + 1) * cycOrd = bn254Q ^ 12 - 1 := by decide +kernel
  rw [← pow_mul, e, Fq12.pow_card_sub_one h]

/-- If the hard part of the exponentiation of `x` is not 1, neither is a power of `x` with an exponent prime to `r`. -/
theorem InCyc.pow_ne_one {x : Fq12} (h : InCyc x) (hx : x ^ hardE ≠ 1) {n : ℕ} (hn : n.Coprime bn254R) : x ^ n ≠ 1 := by
  intro h1
  apply hx
  have e1 : (x ^ hardE) ^ n = 1 := by rw [← pow_mul, mul_comm, pow_mul, h1, one_pow]
  have e2 : (x ^ hardE) ^ bn254R = 1 := by rw [← pow_mul, hardE_eq]; exact h
  have h3 : orderOf (x ^ hardE) ∣ Nat.gcd n bn254R :=
    Nat.dvd_gcd (orderOf_dvd_of_pow_eq_one e1) (orderOf_dvd_of_pow_eq_one e2)
  rw [hn, Nat.dvd_one, orderOf_eq_one_iff] at h3
  exact h3

attribute [irreducible] cycOrd hardE finalE chainE

end H2
