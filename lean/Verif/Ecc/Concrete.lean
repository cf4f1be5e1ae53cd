import Verif.Ecc.SoundMsm
import Verif.Fields.Concrete
import Verif.Core.PrimesSecp
import Mathlib.FieldTheory.Finite.Basic

/-!
# The size conditions of the curve operations hold for the parameters which the repository uses
-/

set_option autoImplicit false
namespace H2

theorem ecSizes_aux {x y m Q : ℕ} (hx : x ≤ Q) (hm : m ≤ Q) (hy : y ≤ Q) (hxy : x * x = y) :
    x * (x + x) + (x + x) ≤ 8 * Q ∧ x * x + x + x ≤ 8 * Q ∧ x * (x + x) + x ≤ 8 * Q ∧
    x * (x * 2) + x * 3 * x ≤ 8 * Q ∧ x * x + x * 2 ≤ 8 * Q ∧ x * (x + x) + x * 2 ≤ 8 * Q ∧
    (x + x) * (x + x) + x + x ≤ 8 * Q ∧ (x + x) * (x + x) + x ≤ 8 * Q ∧ x * x ≤ 8 * Q ∧
    x * x + (x * x + m) ≤ 8 * Q := by
  have e1 : x * (x + x) = 2 * y := by rw [← hxy]; ring
  have e2 : (x + x) * (x + x) = 4 * y := by rw [← hxy]; ring
  have e3 : x * (x * 2) = 2 * y := by rw [← hxy]; ring
  have e4 : x * 3 * x = 3 * y := by rw [← hxy]; ring
  rw [e1, e2, e3, e4, hxy]
  omega

theorem ecSizes {x m : ℕ} (hx : x ≤ 2 ^ 256) (hm : m ≤ 2 ^ 256) :
    x * (x + x) + (x + x) ≤ 2 ^ 515 ∧ x * x + x + x ≤ 2 ^ 515 ∧ x * (x + x) + x ≤ 2 ^ 515 ∧
    x * (x * 2) + x * 3 * x ≤ 2 ^ 515 ∧ x * x + x * 2 ≤ 2 ^ 515 ∧ x * (x + x) + x * 2 ≤ 2 ^ 515 ∧
    (x + x) * (x + x) + x + x ≤ 2 ^ 515 ∧ (x + x) * (x + x) + x ≤ 2 ^ 515 ∧ x * x ≤ 2 ^ 515 ∧
    x * x + (x * x + m) ≤ 2 ^ 515 := by
  have h1 : (2 : ℕ) ^ 256 ≤ 2 ^ 512 := Nat.pow_le_pow_right (by norm_num) (by norm_num)
  have h2 : (2 : ℕ) ^ 515 = 8 * 2 ^ 512 := by rw [show (8 : ℕ) = 2 ^ 3 by norm_num, ← pow_add]
  rw [h2]
  exact ecSizes_aux (hx.trans h1) (hm.trans h1) ((Nat.mul_le_mul hx hx).trans (by rw [← pow_add])) rfl

/-- Three limbs of 88 bits, 16 lookup bits, BN254 `Fr` native, any emulated prime of at most 256 bits. -/
theorem ecFits_88_3 {m : ℕ} (hm : m < 2 ^ 256) [Fact (fpChip bn254R 16 m 88 3).modulus.Prime]
    (h : FpOk (fpChip bn254R 16 m 88 3)) : EcFits (FpChip.laws h) := by
  have hx : 2 ^ Nat.size m ≤ 2 ^ 256 := Nat.pow_le_pow_right (by norm_num) (Nat.size_le.2 hm)
  obtain ⟨h1, h2, h3, h4, h5, h6, h7, h8, h9, h10⟩ := ecSizes hx hm.le
  have e : 2 ^ ((fpChip bn254R 16 m 88 3).n * (fpChip bn254R 16 m 88 3).k + numBits bn254R - 3) = 2 ^ 515 := by
    show 2 ^ (88 * 3 + numBits bn254R - 3) = 2 ^ 515
    rw [numBits, size_bn254R]
  have e' : 2 ^ 515 ≤ crtMax (fpChip bn254R 16 m 88 3) := e ▸ FpChip.max_ge h
  refine ⟨⟨carryZeroFits_88_3 _ _ (of_decide_eq_true rfl : _ ≤ 240), le_of_le_of_eq ?_ e.symm⟩, ⟨carryZeroFits_88_3 _ _ (of_decide_eq_true rfl : _ ≤ 240), le_of_le_of_eq ?_ e.symm⟩, ⟨carryFits_88_3 _ _ (of_decide_eq_true rfl : _ ≤ 240), le_trans ?_ e'⟩,
    ⟨carryFits_88_3 _ _ (of_decide_eq_true rfl : _ ≤ 240), le_trans ?_ e'⟩, ⟨carryZeroFits_88_3 _ _ (of_decide_eq_true rfl : _ ≤ 240), le_of_le_of_eq ?_ e.symm⟩, ⟨carryFits_88_3 _ _ (of_decide_eq_true rfl : _ ≤ 240), le_trans ?_ e'⟩, ⟨carryZeroFits_88_3 _ _ (of_decide_eq_true rfl : _ ≤ 240), le_of_le_of_eq ?_ e.symm⟩,
    ⟨carryFits_88_3 _ _ (of_decide_eq_true rfl : _ ≤ 240), le_trans ?_ e'⟩, ⟨carryFits_88_3 _ _ (of_decide_eq_true rfl : _ ≤ 240), le_trans ?_ e'⟩, ⟨carryFits_88_3 _ _ (of_decide_eq_true rfl : _ ≤ 240), le_trans ?_ e'⟩, ⟨carryZeroFits_88_3 _ _ (of_decide_eq_true rfl : _ ≤ 240), le_of_le_of_eq ?_ e.symm⟩,
    ⟨carryFits_88_3 _ _ (of_decide_eq_true rfl : _ ≤ 240), le_trans ?_ e'⟩⟩
  all_goals clear e' e
  all_goals assumption

/-! ### The curves secp256k1 and BN254 G1 -/

/-- A curve `y² = x³ + b` where `x³ + b` has no root has no point of order two. -/
theorem two_torsion {K : Type} [Field K] [DecidableEq K] {b : K} (hb : CurveOk b) (h : ∀ x : K, x ^ 3 + b ≠ 0) (g : ECurve b)
    (hg : 2 • g = 0) : g = 0 := by
  rcases g with _ | ⟨x, y, hxy⟩
  · rfl
  · exfalso
    have i : IsPt b x y (.some x y hxy) := ⟨hxy, rfl⟩
    have e : (.some x y hxy : ECurve b) = -(.some x y hxy : ECurve b) := by
      rw [two_nsmul] at hg
      exact eq_neg_of_add_eq_zero_left hg
    have j := i.neg
    rw [← e] at j
    have hy : y = -y := (i.coords j).2
    have hy0 : y = 0 := by
      have : 2 * y = 0 := by linear_combination hy
      exact (mul_eq_zero.1 this).resolve_left hb.two
    have := i.eqn
    rw [hy0] at this
    exact h x (by rw [← this]; ring)

/-- If `c ^ ((q - 1) / 3)` is not one, `c` is not a cube modulo `q`. -/
theorem not_cube {q : ℕ} [hq : Fact q.Prime] (h3 : q % 3 = 1) (hs : q < 2 ^ 256) (c : ℕ) (hc : c % q ≠ 0)
    (h : powMod q 256 c ((q - 1) / 3) 1 ≠ 1) (x : ZMod q) : x ^ 3 ≠ (c : ZMod q) := by
  intro hx
  have hc0 : (c : ZMod q) ≠ 0 := by
    rw [Ne, ZMod.natCast_eq_zero_iff]
    exact fun hd => hc (Nat.mod_eq_zero_of_dvd hd)
  have hx0 : x ≠ 0 := by
    rintro rfl
    exact hc0 (by rw [← hx]; ring)
  have h1 : (c : ZMod q) ^ ((q - 1) / 3) = 1 := by
    rw [← hx, ← pow_mul, Nat.mul_div_cancel' (by omega)]
    exact ZMod.pow_card_sub_one_eq_one hx0
  apply h
  rw [powMod_eq _ _ _ _ _ (lt_of_le_of_lt (Nat.div_le_self _ _) (by omega)), one_mul]
  generalize (q - 1) / 3 = e at h1 ⊢
  rw [← Nat.cast_pow, ← Nat.cast_one, ZMod.natCast_eq_natCast_iff, Nat.ModEq, Nat.mod_eq_of_lt hq.out.one_lt] at h1
  exact h1

theorem natCast_ne_zero_of {q c : ℕ} (hc : c % q ≠ 0) : (c : ZMod q) ≠ 0 := by
  rw [Ne, ZMod.natCast_eq_zero_iff]
  exact fun hd => hc (Nat.mod_eq_zero_of_dvd hd)

theorem curveOk_secp256k1 : CurveOk (7 : ZMod secpP) :=
  ⟨natCast_ne_zero_of (c := 2) (by decide +kernel), natCast_ne_zero_of (c := 3) (by decide +kernel),
    natCast_ne_zero_of (c := 7) (by decide +kernel)⟩

theorem curveOk_bn254 : CurveOk (3 : ZMod bn254Q) :=
  ⟨natCast_ne_zero_of (c := 2) (by decide +kernel), natCast_ne_zero_of (c := 3) (by decide +kernel),
    natCast_ne_zero_of (c := 3) (by decide +kernel)⟩

theorem neg_natCast {q b c : ℕ} (h : b + c = q) : ((c : ℕ) : ZMod q) = -(b : ZMod q) := by
  have : ((b + c : ℕ) : ZMod q) = 0 := by rw [h]; exact ZMod.natCast_self q
  push_cast at this
  linear_combination this

/-- secp256k1 has no point of order two. -/
theorem two_torsion_secp256k1 (g : ECurve (7 : ZMod secpP)) (hg : 2 • g = 0) : g = 0 := by
  refine two_torsion curveOk_secp256k1 (fun x hx => ?_) g hg
  refine not_cube (q := secpP) (by decide +kernel) (by decide +kernel) (secpP - 7) (by decide +kernel) (by decide +kernel) x ?_
  rw [neg_natCast (b := 7) (by decide +kernel)]
  push_cast
  linear_combination hx

/-- BN254 G1 has no point of order two. -/
theorem two_torsion_bn254 (g : ECurve (3 : ZMod bn254Q)) (hg : 2 • g = 0) : g = 0 := by
  refine two_torsion curveOk_bn254 (fun x hx => ?_) g hg
  refine not_cube (q := bn254Q) (by decide +kernel) (by decide +kernel) (bn254Q - 3) (by decide +kernel) (by decide +kernel) x ?_
  rw [neg_natCast (b := 3) (by decide +kernel)]
  push_cast
  linear_combination hx

end H2
