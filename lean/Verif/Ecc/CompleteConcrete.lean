import Verif.Ecc.MsmCount
import Verif.Ecc.GroupOrder

/-!
# The conditions for completeness hold for the parameters which the repository uses
-/

set_option autoImplicit false
namespace H2

/-- Three limbs of 88 bits, 16 lookup bits, BN254 `Fr` native, and any emulated modulus of 253 to 256 bits. -/
theorem fpCmp_88_3 {m : ℕ} (h1 : 2 ^ 252 ≤ m) (h2 : m < 2 ^ 256) : FpCmp (fpChip bn254R 16 m 88 3) := by
  have hp := fpParams_88_3 h1 h2
  refine ⟨hp.ok hp.new_eq, by show 2 ≤ 3; norm_num, ?_, ?_⟩
  · show 88 * (3 - 1) ≤ Nat.size m
    have : 253 ≤ Nat.size m := Nat.lt_size.2 h1
    omega
  · show 88 + Nat.log2 3 < capacity bn254R
    rw [capacity_bn254R]
    decide

theorem ecSizesC_aux {x y m Q : ℕ} (hQ : 0 < Q) (hx : x ≤ Q) (hm : m ≤ Q) (hy : y ≤ Q) (hxy : x * x = y) :
    x * (x + x) + (x + x) < 8 * Q ∧ x * x + x + x < 8 * Q ∧ x * (x + x) + x < 8 * Q ∧
    x * (x * 2) + x * 3 * x < 8 * Q ∧ x * x + x * 2 < 8 * Q ∧ x * (x + x) + x * 2 < 8 * Q ∧
    (x + x) * (x + x) + x + x < 8 * Q ∧ (x + x) * (x + x) + x < 8 * Q ∧ x * x < 8 * Q ∧
    x * x + (x * x + m) < 8 * Q ∧ x * x + x < 8 * Q := by
  have e1 : x * (x + x) = 2 * y := by rw [← hxy]; ring
  have e2 : (x + x) * (x + x) = 4 * y := by rw [← hxy]; ring
  have e3 : x * (x * 2) = 2 * y := by rw [← hxy]; ring
  have e4 : x * 3 * x = 3 * y := by rw [← hxy]; ring
  rw [e1, e2, e3, e4, hxy]
  omega

theorem ecSizesC {x m : ℕ} (hx : x ≤ 2 ^ 256) (hm : m ≤ 2 ^ 256) :
    x * (x + x) + (x + x) < 2 ^ 515 ∧ x * x + x + x < 2 ^ 515 ∧ x * (x + x) + x < 2 ^ 515 ∧
    x * (x * 2) + x * 3 * x < 2 ^ 515 ∧ x * x + x * 2 < 2 ^ 515 ∧ x * (x + x) + x * 2 < 2 ^ 515 ∧
    (x + x) * (x + x) + x + x < 2 ^ 515 ∧ (x + x) * (x + x) + x < 2 ^ 515 ∧ x * x < 2 ^ 515 ∧
    x * x + (x * x + m) < 2 ^ 515 ∧ x * x + x < 2 ^ 515 := by
  have h1 : (2 : ℕ) ^ 256 ≤ 2 ^ 512 := Nat.pow_le_pow_right (by norm_num) (by norm_num)
  have h2 : (2 : ℕ) ^ 515 = 8 * 2 ^ 512 := by rw [show (8 : ℕ) = 2 ^ 3 by norm_num, ← pow_add]
  rw [h2]
  exact ecSizesC_aux (by positivity) (hx.trans h1) (hm.trans h1) ((Nat.mul_le_mul hx hx).trans (by rw [← pow_add])) rfl

/-- The size conditions of the curve operations. -/
theorem ecFitsC_88_3 {m : ℕ} (hm : m < 2 ^ 256) [Fact (fpChip bn254R 16 m 88 3).modulus.Prime]
    (h : FpCmp (fpChip bn254R 16 m 88 3)) : EcFitsC (FpChip.cmp h) := by
  have hx : 2 ^ Nat.size m ≤ 2 ^ 256 := Nat.pow_le_pow_right (by norm_num) (Nat.size_le.2 hm)
  obtain ⟨h1, h2, h3, h4, h5, h6, h7, h8, h9, h10, h11⟩ := ecSizesC hx hm.le
  have e : 2 ^ ((fpChip bn254R 16 m 88 3).n * (fpChip bn254R 16 m 88 3).k + numBits bn254R - 3) = 2 ^ 515 := by
    show 2 ^ (88 * 3 + numBits bn254R - 3) = 2 ^ 515
    rw [numBits, size_bn254R]
  have z : ∀ {a : ℕ × ℕ}, a.1 ≤ 240 → a.2 < 2 ^ 515 → (FpChip.cmp h).zFits a := fun ha hb =>
    ⟨carryZeroFits_88_3 _ _ ha, by show _ + 2 ≤ 3 * 88; omega, lt_of_lt_of_eq hb e.symm⟩
  have c : ∀ {a : ℕ × ℕ}, a.1 ≤ 240 → a.2 < 2 ^ 515 → (FpChip.cmp h).cFits a := fun ha hb =>
    ⟨carryFits_88_3 _ _ ha, lt_of_lt_of_eq hb e.symm⟩
  refine ⟨z (of_decide_eq_true rfl : _ ≤ 240) ?_, z (of_decide_eq_true rfl : _ ≤ 240) ?_, c (of_decide_eq_true rfl : _ ≤ 240) ?_,
    c (of_decide_eq_true rfl : _ ≤ 240) ?_, z (of_decide_eq_true rfl : _ ≤ 240) ?_, c (of_decide_eq_true rfl : _ ≤ 240) ?_,
    z (of_decide_eq_true rfl : _ ≤ 240) ?_, c (of_decide_eq_true rfl : _ ≤ 240) ?_, c (of_decide_eq_true rfl : _ ≤ 240) ?_,
    c (of_decide_eq_true rfl : _ ≤ 240) ?_, z (of_decide_eq_true rfl : _ ≤ 240) ?_, c (of_decide_eq_true rfl : _ ≤ 240) ?_,
    z (of_decide_eq_true rfl : _ ≤ 240) ?_⟩
  all_goals clear e
  all_goals clear z c
  all_goals assumption

end H2
