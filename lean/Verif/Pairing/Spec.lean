import Verif.Pairing.Math
import Verif.Ecc.Concrete

/-!
# Specification of the optimal Ate pairing of BN254

Independent of the circuits: the line functions, Miller's algorithm over a list of signed binary digits, the two last lines with
the Frobenius images, and the final exponent `(q ^ 12 - 1) / r`.
-/

set_option autoImplicit false
namespace H2

/-- G1: `y² = x³ + 3` over `Fq`. -/
abbrev G1 : Type := ECurve (3 : ZMod bn254Q)
/-- The twist: `y² = x³ + 3 / (9 + u)` over `Fq2`. -/
abbrev G2 : Type := ECurve g2B

/-- The first coordinate (`0` for the point at infinity). -/
def xOf {K : Type} [Field K] {b : K} : ECurve b → K
  | .zero => 0
  | .some x _ _ => x

/-- The second coordinate (`0` for the point at infinity). -/
def yOf {K : Type} [Field K] {b : K} : ECurve b → K
  | .zero => 0
  | .some _ y _ => y

theorem IsPt.xOf_eq {K : Type} [Field K] {b x y : K} {g : ECurve b} (h : IsPt b x y g) : xOf g = x ∧ yOf g = y := by
  obtain ⟨h, rfl⟩ := h
  exact ⟨rfl, rfl⟩

theorem isPt_of_ne {K : Type} [Field K] {b : K} {g : ECurve b} (h : g ≠ 0) : IsPt b (xOf g) (yOf g) g := by
  cases g with
  | zero => exact absurd rfl h
  | some x y h' => exact ⟨h', rfl⟩

/-- The line through `(x₁, y₁)` and `(x₂, y₂)`, evaluated at `(X, Y)`. -/
def chordAt {K : Type} [CommRing K] (x₁ y₁ x₂ y₂ X Y : K) : K := (y₁ - y₂) * X + (x₂ - x₁) * Y + (x₁ * y₂ - x₂ * y₁)

/-- The tangent of a curve `y² = x³ + b` in `(x, y)`, evaluated at `(X, Y)`. -/
def tangentAt {K : Type} [CommRing K] (x y X Y : K) : K := 2 * y * (Y - y) - 3 * x ^ 2 * (X - x)

/-- The coordinates of `Ψ(Q)`, `Ψ(x, y) = (w² x, w³ y)`. -/
noncomputable def psiX (Q : G2) : Fq12 := Fq12.w ^ 2 * Fq12.ι (xOf Q)
noncomputable def psiY (Q : G2) : Fq12 := Fq12.w ^ 3 * Fq12.ι (yOf Q)

/-- Elements of `Fq` in `Fq12`. -/
noncomputable def base12 (x : ZMod bn254Q) : Fq12 := Fq12.ι (algebraMap (ZMod bn254Q) Fq2 x)

/-- The line through `Ψ(A)` and `Ψ(B)`, evaluated at `P`. -/
noncomputable def chord (A B : G2) (P : G1) : Fq12 := chordAt (psiX A) (psiY A) (psiX B) (psiY B) (base12 (xOf P)) (base12 (yOf P))

/-- The tangent in `Ψ(A)`, evaluated at `P`. -/
noncomputable def tangent (A : G2) (P : G1) : Fq12 := tangentAt (psiX A) (psiY A) (base12 (xOf P)) (base12 (yOf P))

/-- One round of Miller's algorithm for the digit `d`. -/
noncomputable def millerStep (Q : G2) (P : G1) (st : Fq12 × G2) (d : ℤ) : Fq12 × G2 :=
  let f := st.1 ^ 2 * tangent st.2 P
  let R := (2 : ℤ) • st.2
  if d = 0 then (f, R) else (f * chord R (d • Q) P, R + d • Q)

/-- Miller's algorithm: the digits below the leading one, most significant first. -/
noncomputable def miller (Q : G2) (P : G1) (ds : List ℤ) : Fq12 × G2 := ds.foldl (millerStep Q P) (1, Q)

theorem frobC_six : frobC 1 ^ 6 * Fq2.xi = Fq2.conj Fq2.xi := by
  have hw := w_pow_q 1
  rw [pow_one] at hw
  have h := congrArg (fun z => z ^ 6) hw
  simp only [mul_pow, Fq12.w6, ← pow_mul] at h
  rw [mul_comm bn254Q 6, pow_mul, Fq12.w6, ← map_pow, ← map_pow, ← map_mul, Fq2.pow_q] at h
  exact (Fq12.ι.injective h).symm

theorem frob_eqn_aux {K : Type} [Field K] {x y c xi t xi' : K} (h : y ^ 2 = x ^ 3 + t / xi') (h6 : c ^ 6 * xi = xi') (hx : xi ≠ 0) (hc : c ≠ 0) :
    (c ^ 3 * y) ^ 2 = (c ^ 2 * x) ^ 3 + t / xi := by
  subst h6
  have hb : c ^ 6 * (t / (c ^ 6 * xi)) = t / xi := by field_simp
  linear_combination c ^ 6 * h + hb

theorem frobC_ne : frobC 1 ≠ 0 := by
  intro h0
  have h6 := frobC_six
  rw [h0, zero_pow (by decide), zero_mul] at h6
  have := congrArg Fq2.conj h6
  rw [Fq2.conj_conj, ← Fq2.σ_apply, map_zero] at this
  exact Fq2.xi_ne this.symm

theorem frob_eqn {x y : Fq2} (h : y ^ 2 = x ^ 3 + g2B) : (frobC 1 ^ 3 * Fq2.conj y) ^ 2 = (frobC 1 ^ 2 * Fq2.conj x) ^ 3 + g2B := by
  have hc := congrArg Fq2.σ h
  have h3 : Fq2.σ (3 : Fq2) = 3 := map_ofNat Fq2.σ 3
  have hg : g2B = 3 / Fq2.xi := rfl
  rw [map_pow, map_add, map_pow, hg, map_div₀, h3, Fq2.σ_apply, Fq2.σ_apply, Fq2.σ_apply] at hc
  rw [hg]
  exact frob_eqn_aux hc frobC_six Fq2.xi_ne frobC_ne

/-- The Frobenius map through the twist: `(x, y) ↦ (ξ^((q-1)/3) x^q, ξ^((q-1)/2) y^q)`. -/
noncomputable def frobPt : G2 → G2
  | .zero => .zero
  | .some _ _ h => .some _ _ (curve_nonsingular curveOk_g2 (frob_eqn (curve_eqn.1 h.1)))

theorem frobPt_isPt {x y : Fq2} {Q : G2} (h : IsPt g2B x y Q) : IsPt g2B (frobC 1 ^ 2 * Fq2.conj x) (frobC 1 ^ 3 * Fq2.conj y) (frobPt Q) := by
  obtain ⟨h, rfl⟩ := h
  exact ⟨_, rfl⟩

/-- It is the Frobenius map of `Ψ(Q)`. -/
theorem frobPt_psi (Q : G2) : psiX (frobPt Q) = psiX Q ^ bn254Q ∧ psiY (frobPt Q) = psiY Q ^ bn254Q := by
  cases Q with
  | zero =>
    have h0 : bn254Q ≠ 0 := by decide +kernel
    have e1 : xOf (frobPt WeierstrassCurve.Affine.Point.zero) = 0 := rfl
    have e2 : yOf (frobPt WeierstrassCurve.Affine.Point.zero) = 0 := rfl
    have e3 : xOf (WeierstrassCurve.Affine.Point.zero : G2) = 0 := rfl
    have e4 : yOf (WeierstrassCurve.Affine.Point.zero : G2) = 0 := rfl
    unfold psiX psiY
    rw [e1, e2, e3, e4, map_zero, mul_zero, mul_zero, zero_pow h0]
    exact ⟨rfl, rfl⟩
  | some x y h =>
    have hw := w_pow_q 1
    rw [pow_one] at hw
    have hp : IsPt g2B x y (.some x y h) := ⟨h, rfl⟩
    obtain ⟨a1, a2⟩ := hp.xOf_eq
    obtain ⟨b1, b2⟩ := (frobPt_isPt hp).xOf_eq
    unfold psiX psiY
    rw [a1, a2, b1, b2]
    constructor
    · rw [mul_pow, ← pow_mul, mul_comm 2, pow_mul, hw, ← map_pow, Fq2.pow_q]
      simp only [map_mul, map_pow]
      ring
    · rw [mul_pow, ← pow_mul, mul_comm 3, pow_mul, hw, ← map_pow, Fq2.pow_q]
      simp only [map_mul, map_pow]
      ring

/-- The value of the Miller loop of the optimal Ate pairing: the loop, and the two lines
`l_{R, π(Q)}(P)`, `l_{R + π(Q), -π²(Q)}(P)`. -/
noncomputable def ateMiller (ds : List ℤ) (Q : G2) (P : G1) : Fq12 :=
  let st := miller Q P ds
  st.1 * chord st.2 (frobPt Q) P * chord (st.2 + frobPt Q) (-frobPt (frobPt Q)) P

/-- The digits of `6 x + 2` (in signed binary) below the leading one, most significant first. -/
def ateDigits : List ℤ :=
  [1, 0, 1, 0, 0, -1, 0, 1, 1, 0, 0, 0, -1, 0, 0, 1, 1, 0, 0, -1, 0, 0, 0, 0, 0, 1, 0, 0, -1, 0, 0, 1, 1, 1, 0, 0, 0, 0, -1, 0, 1,
   0, 0, -1, 0, 1, 1, 0, 0, 1, 0, 0, -1, 1, 0, 0, -1, 0, 1, 0, 1, 0, 0, 0]

/-- They are the digits of `6 x + 2`. -/
theorem ateDigits_value : (1 :: ateDigits).foldl (fun n z => 2 * n + z) 0 = 6 * (bnX : ℤ) + 2 := by decide +kernel

/-- The Miller value of the optimal Ate pairing of BN254. -/
noncomputable def fAte (Q : G2) (P : G1) : Fq12 := ateMiller ateDigits Q P

/-- The optimal Ate pairing of BN254. -/
noncomputable def eAte (Q : G2) (P : G1) : Fq12 := fAte Q P ^ finalE

/-- `Q` is a nonzero element of the second group of the pairing: the points of order `r` on which the Frobenius map acts as `q`. -/
structure InG2 (Q : G2) : Prop where
  ne : Q ≠ 0
  ord : bn254R • Q = 0
  frob : frobPt Q = bn254Q • Q

end H2
