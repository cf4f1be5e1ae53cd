import Verif.Pairing.SoundMiller
import Verif.Ecc.Order

/-!
# The Miller value: it is not zero, and its behaviour under negation
-/

set_option autoImplicit false
set_option linter.unusedSectionVars false
set_option linter.unusedVariables false
namespace H2

/-! ### The Frobenius map is a homomorphism -/

theorem frobPt_zero : frobPt 0 = 0 := rfl

theorem frobPt_neg (A : G2) : frobPt (-A) = -frobPt A := by
  by_cases h : A = 0
  · subst h
    rw [neg_zero, frobPt_zero, neg_zero]
  · have hA := isPt_of_ne h
    have h1 := frobPt_isPt hA.neg
    have h2 := (frobPt_isPt hA).neg
    have e : Fq2.conj (-yOf A) = -Fq2.conj (yOf A) := by rw [← Fq2.σ_apply, map_neg, Fq2.σ_apply]
    rw [e, mul_neg] at h1
    exact h1.unique h2

theorem Fq2.conj_add (a b : Fq2) : Fq2.conj (a + b) = Fq2.conj a + Fq2.conj b := map_add Fq2.σ a b
theorem Fq2.conj_sub (a b : Fq2) : Fq2.conj (a - b) = Fq2.conj a - Fq2.conj b := map_sub Fq2.σ a b
theorem Fq2.conj_mul (a b : Fq2) : Fq2.conj (a * b) = Fq2.conj a * Fq2.conj b := map_mul Fq2.σ a b
theorem Fq2.conj_two : Fq2.conj (2 : Fq2) = 2 := map_ofNat Fq2.σ 2
theorem Fq2.conj_three : Fq2.conj (3 : Fq2) = 3 := map_ofNat Fq2.σ 3
theorem Fq2.conj_inj {a b : Fq2} (h : Fq2.conj a = Fq2.conj b) : a = b := by
  have := congrArg Fq2.conj h
  rwa [Fq2.conj_conj, Fq2.conj_conj] at this

theorem y_ne_g2 {x y : Fq2} {A : G2} (h : IsPt g2B x y A) : y ≠ 0 := by
  rintro rfl
  have e : A = -A := h.unique (by simpa using h.neg)
  apply h.ne_zero
  apply two_torsion_g2
  rw [two_nsmul]
  exact eq_neg_iff_add_eq_zero.1 e

theorem y_ne_g1 {x y : ZMod bn254Q} {A : G1} (h : IsPt (3 : ZMod bn254Q) x y A) : y ≠ 0 := by
  rintro rfl
  have e : A = -A := h.unique (by simpa using h.neg)
  apply h.ne_zero
  apply two_torsion_bn254
  rw [two_nsmul]
  exact eq_neg_iff_add_eq_zero.1 e

theorem frobPt_double (A : G2) : frobPt (2 • A) = 2 • frobPt A := by
  by_cases h : A = 0
  · subst h
    simp [frobPt_zero]
  · have hA := isPt_of_ne h
    have hy : yOf A * 2 ≠ 0 := mul_ne_zero (y_ne_g2 hA) curveOk_g2.two
    generalize hl : xOf A * 3 * xOf A / (yOf A * 2) = l
    have hl' : l * (yOf A * 2) = xOf A * 3 * xOf A := by rw [← hl]; exact div_mul_cancel₀ _ hy
    have h1 := frobPt_isPt (hA.double curveOk_g2 hl' rfl rfl)
    have hc := congrArg Fq2.conj hl'
    simp only [Fq2.conj_mul, Fq2.conj_two, Fq2.conj_three] at hc
    have h2 := (frobPt_isPt hA).double curveOk_g2 (l := frobC 1 * Fq2.conj l) (by linear_combination frobC 1 ^ 4 * hc) rfl rfl
    refine h1.unique (cast_isPt h2 ?_ ?_) <;> simp only [Fq2.conj_mul, Fq2.conj_sub, Fq2.conj_two] <;> ring

theorem frobPt_add (A B : G2) : frobPt (A + B) = frobPt A + frobPt B := by
  by_cases hA0 : A = 0
  · subst hA0
    rw [zero_add, frobPt_zero, zero_add]
  by_cases hB0 : B = 0
  · subst hB0
    rw [add_zero, frobPt_zero, add_zero]
  by_cases h1 : A = B
  · subst h1
    have := frobPt_double A
    rwa [two_nsmul, two_nsmul] at this
  by_cases h2 : A = -B
  · subst h2
    rw [neg_add_cancel, frobPt_neg, neg_add_cancel, frobPt_zero]
  have hA := isPt_of_ne hA0
  have hB := isPt_of_ne hB0
  have hx := (hA.x_ne_iff hB).2 ⟨h1, h2⟩
  have hd : xOf B - xOf A ≠ 0 := sub_ne_zero.2 hx.symm
  generalize hl : (yOf B - yOf A) / (xOf B - xOf A) = l
  have hl' : l * (xOf B - xOf A) = yOf B - yOf A := by rw [← hl]; exact div_mul_cancel₀ _ hd
  have k1 := frobPt_isPt (hA.add hB hx hl' rfl rfl)
  have hc := congrArg Fq2.conj hl'
  simp only [Fq2.conj_mul, Fq2.conj_sub] at hc
  have hx' : frobC 1 ^ 2 * Fq2.conj (xOf A) ≠ frobC 1 ^ 2 * Fq2.conj (xOf B) := fun e =>
    hx (Fq2.conj_inj (mul_left_cancel₀ (pow_ne_zero 2 frobC_ne) e))
  have k2 := (frobPt_isPt hA).add (frobPt_isPt hB) hx' (l := frobC 1 * Fq2.conj l) (by linear_combination frobC 1 ^ 3 * hc) rfl rfl
  refine k1.unique (cast_isPt k2 ?_ ?_) <;> simp only [Fq2.conj_mul, Fq2.conj_sub] <;> ring

/-- The Frobenius map as a homomorphism. -/
noncomputable def frobHom : G2 →+ G2 where
  toFun := frobPt
  map_zero' := frobPt_zero
  map_add' := frobPt_add

theorem frobPt_zsmul (n : ℤ) (A : G2) : frobPt (n • A) = n • frobPt A := map_zsmul frobHom n A

theorem InG2.neg {A : G2} (h : InG2 A) : InG2 (-A) :=
  ⟨neg_ne_zero.2 h.ne, by rw [smul_neg, h.ord, neg_zero], by rw [frobPt_neg, h.frob, smul_neg]⟩

theorem InG2.frob' {A : G2} (h : InG2 A) : frobPt A = (bn254Q : ℤ) • A := by rw [h.frob, natCast_zsmul]
theorem InG2.frob2 {A : G2} (h : InG2 A) : frobPt (frobPt A) = ((bn254Q : ℤ) * bn254Q) • A := by
  rw [h.frob', frobPt_zsmul, h.frob', mul_smul]

theorem InG2.zsmul_ne_zero {A : G2} (h : InG2 A) {m : ℤ} (hm : ¬ (bn254R : ℤ) ∣ m) : m • A ≠ 0 := fun e =>
  hm ((zsmul_eq_zero_iff h.ne h.ord m).1 e)

/-! ### The lines do not vanish -/

theorem alg2_ne {x : ZMod bn254Q} (h : x ≠ 0) : alg2 x ≠ 0 := fun e => h ((algebraMap (ZMod bn254Q) Fq2).injective (e.trans (map_zero _).symm))

theorem chord_ne {A B : G2} {P : G1} (hA : A ≠ 0) (hB : B ≠ 0) (hP : P ≠ 0) (h1 : A ≠ B) (h2 : A ≠ -B) : chord A B P ≠ 0 := by
  intro h
  rw [chord_eq, e6_zero] at h
  obtain ⟨-, -, h, -⟩ := e6_inj h
  have hx := ((isPt_of_ne hA).x_ne_iff (isPt_of_ne hB)).2 ⟨h1, h2⟩
  exact mul_ne_zero (sub_ne_zero.2 hx.symm) (alg2_ne (y_ne_g1 (isPt_of_ne hP))) h

theorem tangent_ne {A : G2} {P : G1} (hA : A ≠ 0) (hP : P ≠ 0) : tangent A P ≠ 0 := by
  intro h
  rw [tangent_eq, e6_zero] at h
  obtain ⟨-, -, -, h, -⟩ := e6_inj h
  exact mul_ne_zero (mul_ne_zero curveOk_g2.two (y_ne_g2 (isPt_of_ne hA))) (alg2_ne (y_ne_g1 (isPt_of_ne hP))) h

theorem miller_ne {A : G2} {P : G1} (hA : InG2 A) (hP : P ≠ 0) : ∀ (ds : List ℤ) (X : Fq12) (n : ℤ), X ≠ 0 → (∀ d ∈ ds, d = 1 ∨ d = -1 ∨ d = 0) →
    1 ≤ n → (n + 1) * 2 ^ ds.length ≤ (bn254R : ℤ) → (ds.foldl (millerStep A P) (X, n • A)).1 ≠ 0 := by
  intro ds
  induction ds with
  | nil => intro X n hX _ _ _; exact hX
  | cons d ds ih =>
    intro X n hX hd hn hb
    rw [List.length_cons] at hb
    obtain ⟨b1, b2, b3, b4, b5⟩ := loop_bound hn hb (hd d (List.mem_cons_self ..))
    have hb0 : n < (bn254R : ℤ) := by
      have := hd d (List.mem_cons_self ..)
      omega
    rw [List.foldl_cons, show millerStep A P (X, n • A) d = (X ^ 2 * stepF A P (n • A) d, (2 * n + d) • A) from
      Prod.ext (millerStep_fst _ _ _ _ _) (millerStep_snd _ _ _ _ _)]
    refine ih _ _ ?_ (fun e he => hd e (List.mem_cons_of_mem _ he)) b1 b2
    refine mul_ne_zero (pow_ne_zero 2 hX) (mul_ne_zero (tangent_ne (hA.zsmul_ne_zero (not_dvd_of_lt (by omega) hb0)) hP) ?_)
    split
    · exact one_ne_zero
    · rename_i h0
      have e2 : (2 : ℤ) • n • A = (2 * n) • A := (mul_smul _ _ _).symm
      have hd' := hd d (List.mem_cons_self ..)
      rw [e2]
      refine chord_ne (hA.zsmul_ne_zero (not_dvd_of_lt (by omega) (by omega))) ?_ hP (zsmul_ne hA.ne hA.ord (not_dvd_of_lt b3 b4))
        (zsmul_ne_neg hA.ne hA.ord (not_dvd_of_lt (by omega) b5))
      rcases hd' with rfl | rfl | rfl
      · rw [one_smul]
        exact hA.ne
      · rw [neg_smul, one_smul]
        exact neg_ne_zero.2 hA.ne
      · exact absurd rfl h0

theorem ateDigits_mem : ∀ d ∈ ateDigits, d = 1 ∨ d = -1 ∨ d = 0 := by decide +kernel

theorem end_not_dvd2 : ¬ (bn254R : ℤ) ∣ (6 * (bnX : ℤ) + 2) ∧ ¬ (bn254R : ℤ) ∣ bn254Q ∧
    ¬ (bn254R : ℤ) ∣ (6 * (bnX : ℤ) + 2) + bn254Q ∧ ¬ (bn254R : ℤ) ∣ -((bn254Q : ℤ) * bn254Q) ∧
    ¬ (bn254R : ℤ) ∣ (6 * (bnX : ℤ) + 2 + bn254Q) - -((bn254Q : ℤ) * bn254Q) ∧
    ¬ (bn254R : ℤ) ∣ (6 * (bnX : ℤ) + 2 + bn254Q) + -((bn254Q : ℤ) * bn254Q) := by decide +kernel

/-- The Miller value is not zero. -/
theorem fAte_ne {A : G2} {P : G1} (hA : InG2 A) (hP : P ≠ 0) : fAte A P ≠ 0 := by
  obtain ⟨d1, d2, d3, d4, d5, d6⟩ := end_not_dvd2
  rw [fAte_eq]
  refine mul_ne_zero (mul_ne_zero ?_ ?_) ?_
  · have := miller_ne hA hP ateDigits 1 1 one_ne_zero ateDigits_mem le_rfl ate_bound
    rwa [one_smul] at this
  · rw [hA.frob']
    exact chord_ne (hA.zsmul_ne_zero d1) (hA.zsmul_ne_zero d2) hP (zsmul_ne hA.ne hA.ord end_not_dvd.1)
      (zsmul_ne_neg hA.ne hA.ord end_not_dvd.2)
  · rw [hA.frob2, hA.frob', ← add_smul, ← neg_smul]
    exact chord_ne (hA.zsmul_ne_zero d3) (hA.zsmul_ne_zero d4) hP (zsmul_ne hA.ne hA.ord d5) (zsmul_ne_neg hA.ne hA.ord d6)

/-! ### Negation -/

theorem xOf_neg {K : Type} [Field K] {b : K} (A : ECurve b) : xOf (-A) = xOf A := by
  cases A with
  | zero => rfl
  | some x y h => exact (IsPt.neg ⟨h, rfl⟩).xOf_eq.1

theorem yOf_neg {K : Type} [Field K] {b : K} (A : ECurve b) : yOf (-A) = -yOf A := by
  cases A with
  | zero => exact neg_zero.symm
  | some x y h => exact (IsPt.neg ⟨h, rfl⟩).xOf_eq.2

theorem alg2_neg (x : ZMod bn254Q) : alg2 (-x) = -alg2 x := map_neg _ _

theorem chord_negP (A B : G2) (P : G1) : chord A B (-P) = -chord A B P ^ bn254Q ^ 6 := by
  rw [chord_eq, chord_eq, e6_pow_q6, xOf_neg, yOf_neg, alg2_neg]
  unfold e6
  simp only [map_neg, map_zero, mul_neg]
  ring

theorem tangent_negP (A : G2) (P : G1) : tangent A (-P) = tangent A P ^ bn254Q ^ 6 := by
  rw [tangent_eq, tangent_eq, e6_pow_q6, xOf_neg, yOf_neg, alg2_neg]
  refine e6_congr rfl ?_ rfl ?_ rfl ?_ <;> ring

theorem chord_negQ (A B : G2) (P : G1) : chord (-A) (-B) P = chord A B P ^ bn254Q ^ 6 := by
  rw [chord_eq, chord_eq, e6_pow_q6, xOf_neg, yOf_neg, xOf_neg, yOf_neg]
  refine e6_congr rfl ?_ rfl ?_ rfl ?_ <;> ring

theorem tangent_negQ (A : G2) (P : G1) : tangent (-A) P = tangent A P ^ bn254Q ^ 6 := by
  rw [tangent_eq, tangent_eq, e6_pow_q6, xOf_neg, yOf_neg]
  refine e6_congr ?_ ?_ rfl ?_ rfl ?_ <;> ring

theorem conj_mul6 (a b : Fq12) : (a * b) ^ bn254Q ^ 6 = a ^ bn254Q ^ 6 * b ^ bn254Q ^ 6 := mul_pow _ _ _

theorem miller_negP_aux (N : ℕ) (A : G2) (P : G1) (ht : ∀ R, tangent R (-P) = tangent R P ^ N) (hc : ∀ R B, chord R B (-P) = -chord R B P ^ N) :
    ∀ (ds : List ℤ) (X X' : Fq12) (R : G2), (X' = X ^ N ∨ X' = -X ^ N) →
    (ds.foldl (millerStep A (-P)) (X', R)).1 = (ds.foldl (millerStep A P) (X, R)).1 ^ N ∨
      (ds.foldl (millerStep A (-P)) (X', R)).1 = -(ds.foldl (millerStep A P) (X, R)).1 ^ N := by
  intro ds
  induction ds with
  | nil => intro X X' R h; exact h
  | cons d ds ih =>
    intro X X' R h
    rw [List.foldl_cons, List.foldl_cons]
    have h2 : X' ^ 2 = (X ^ 2) ^ N := by
      rw [← pow_mul, mul_comm, pow_mul]
      rcases h with rfl | rfl
      · rfl
      · rw [neg_sq]
    unfold millerStep
    dsimp only
    split
    · refine ih _ _ _ (.inl ?_)
      rw [h2, ht, mul_pow]
    · refine ih _ _ _ (.inr ?_)
      rw [h2, ht, hc, mul_pow, mul_pow, mul_neg]

theorem miller_negQ_aux (N : ℕ) (A : G2) (P : G1) (ht : ∀ R, tangent (-R) P = tangent R P ^ N) (hc : ∀ R B, chord (-R) (-B) P = chord R B P ^ N) :
    ∀ (ds : List ℤ) (X : Fq12) (R : G2), ds.foldl (millerStep (-A) P) (X ^ N, -R) =
      ((ds.foldl (millerStep A P) (X, R)).1 ^ N, -(ds.foldl (millerStep A P) (X, R)).2) := by
  intro ds
  induction ds with
  | nil => intro X R; rfl
  | cons d ds ih =>
    intro X R
    rw [List.foldl_cons, List.foldl_cons, ← ih]
    congr 1
    have e : ((2 : ℤ) • -R) = -((2 : ℤ) • R) := smul_neg _ _
    have e' : d • -A = -(d • A) := smul_neg _ _
    unfold millerStep
    dsimp only
    rw [e, e', ht, hc]
    split
    · rw [mul_pow, ← pow_mul, ← pow_mul, mul_comm 2]
    · rw [mul_pow, mul_pow, ← pow_mul, ← pow_mul, mul_comm 2, neg_add]

theorem one_conj : (1 : Fq12) = 1 ^ bn254Q ^ 6 := (one_pow _).symm

theorem fAte_negP (A : G2) (P : G1) : fAte A (-P) = fAte A P ^ bn254Q ^ 6 ∨ fAte A (-P) = -fAte A P ^ bn254Q ^ 6 := by
  have h1 := miller_negP_aux (bn254Q ^ 6) A P (fun R => tangent_negP R P) (fun R B => chord_negP R B P) ateDigits 1 1 A (.inl one_conj)
  rw [fAte_eq, fAte_eq, chord_negP, chord_negP, conj_mul6, conj_mul6]
  change (miller A (-P) ateDigits).1 = (miller A P ateDigits).1 ^ _ ∨ (miller A (-P) ateDigits).1 = -(miller A P ateDigits).1 ^ _ at h1
  rcases h1 with h | h <;> rw [h]
  · left
    ring
  · right
    ring

theorem fAte_negQ (A : G2) (P : G1) : fAte (-A) P = fAte A P ^ bn254Q ^ 6 := by
  have h1 := miller_negQ_aux (bn254Q ^ 6) A P (fun R => tangent_negQ R P) (fun R B => chord_negQ R B P) ateDigits 1 A
  rw [one_pow] at h1
  have h2 : (miller (-A) P ateDigits).1 = (miller A P ateDigits).1 ^ bn254Q ^ 6 := by
    unfold miller
    rw [h1]
  rw [fAte_eq, fAte_eq, h2, conj_mul6, conj_mul6, frobPt_neg, frobPt_neg, smul_neg, ← neg_add, chord_negQ, chord_negQ]

theorem finalE_even : finalE = 2 * (finalE / 2) := by
  have h : finalE % 2 = 0 := by decide +kernel
  exact (Nat.mul_div_cancel' (Nat.dvd_of_mod_eq_zero h)).symm

theorem finalE_conj (X : Fq12) (h : X ≠ 0) : (X ^ bn254Q ^ 6) ^ finalE = (X ^ finalE)⁻¹ := by
  have h1 : InCyc (X ^ finalE) := by
    have := (InCyc.easy h).pow hardE
    rwa [← pow_mul, ← finalE_eq] at this
  rw [← pow_mul, mul_comm, pow_mul]
  exact eq_inv_of_mul_eq_one_left h1.conj

/-- `e(Q, -P) = e(Q, P)⁻¹`. -/
theorem eAte_negP {A : G2} {P : G1} (hA : InG2 A) (hP : P ≠ 0) : eAte A (-P) = (eAte A P)⁻¹ := by
  unfold eAte
  rw [← finalE_conj _ (fAte_ne hA hP)]
  rcases fAte_negP A P with h | h <;> rw [h]
  exact (even_iff_two_dvd.2 ⟨_, finalE_even⟩).neg_pow _

/-- `e(-Q, P) = e(Q, P)⁻¹`. -/
theorem eAte_negQ {A : G2} {P : G1} (hA : InG2 A) (hP : P ≠ 0) : eAte (-A) P = (eAte A P)⁻¹ := by
  unfold eAte
  rw [← finalE_conj _ (fAte_ne hA hP), fAte_negQ]

theorem eAte_ne {A : G2} {P : G1} (hA : InG2 A) (hP : P ≠ 0) : eAte A P ≠ 0 := pow_ne_zero _ (fAte_ne hA hP)

/-- The values of the pairing are `r`-th roots of unity. -/
theorem eAte_pow {A : G2} {P : G1} (hA : InG2 A) (hP : P ≠ 0) : eAte A P ^ bn254R = 1 := by
  unfold eAte
  rw [← pow_mul, finalE_mul]
  exact Fq12.pow_card_sub_one (fAte_ne hA hP)

end H2
