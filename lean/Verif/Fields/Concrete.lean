import Verif.Fields.Laws
import Verif.Core.PrimesSecp
import Verif.Props.Range

/-!
# Chips built by `FpChip::new`

`FpParams` lists the arithmetic conditions on the native modulus `p`, `lookup_bits`, the emulated modulus and the limb
parameters under which everything proved about `FpChip` applies; it holds for the parameters used in the library's tests
(native field BN254 `Fr`; secp256k1 base and scalar fields, BN254 `Fq`; three limbs of 88 bits).
-/

set_option autoImplicit false
namespace H2
variable {p : ℕ} [Fact p.Prime]

/-- Parameters for which an `FpChip` is sound. -/
structure FpParams (p L m n k : ℕ) : Prop where
  p32 : p ≤ 256 ^ 32
  m32 : m ≤ 256 ^ 32
  m0 : 1 ≤ m
  n64 : 64 ≤ n
  n128 : n < 128
  k0 : k ≠ 0
  k64 : k < 2 ^ 64
  fits : m < 2 ^ (n * k)
  range : RangeOk p L
  sub : SubOk p L n
  quot : numBits p ≤ Nat.size m + 1
  crt : Nat.size m + 5 ≤ n + numBits p
  field : 4 ≤ numBits p

/-- The chip which `FpChip::new` returns. -/
def fpChip (p L m n k : ℕ) [Fact p.Prime] : FpChip p :=
  { L := L, n := n, k := k, kBits := Utils.bitLength k, kLog2 := (Utils.log2Ceil k).getD 0,
    bases := 1 :: limbBasesLoop ((2 ^ n : ℕ) : ZMod p) (k - 1) 1, modulus := m,
    modLimbs := (limbsOf m k n).map (fun d : ℕ => (d : ZMod p)), modNative := ((m % p : ℕ) : ZMod p) }

theorem FpParams.new_eq {L m n k : ℕ} (h : FpParams p L m n k) : FpChip.new L m n k = some (fpChip p L m n k) := by
  have hpp : 0 < p := Nat.Prime.pos Fact.out
  have : NeZero m := ⟨by have := h.m0; omega⟩
  have : NeZero p := ⟨by omega⟩
  have hn : n + 1 ≤ capacity p := by have := h.sub.rest; have := le_ceilDiv h.range.pos (n + 1); omega
  have hnp : 2 ^ n < p := by
    have := pow_capacity_le hn
    have h1 : 1 ≤ 2 ^ n := Nat.one_le_two_pow
    rw [pow_succ] at this; omega
  obtain ⟨kl, hkl, -⟩ := Utils.C28_log2_ceil k h.k64
  unfold FpChip.new
  dsimp only
  rw [if_neg (by have := h.n64; have := h.k0; omega), Utils.C28_modulus h.m32, Utils.C28_modulus h.p32, hkl,
    Utils.C28_biguint_to_fe h.p32, Utils.C28_biguint_to_fe h.p32, if_pos (Nat.mod_lt _ hpp), if_pos hnp]
  simp [fpChip, hkl, Utils.decomposeBiguint, Utils.decomposeBigLimbs_eq h.n64 h.n128 h.k0]

theorem FpParams.ok {L m n k : ℕ} (h : FpParams p L m n k) {c : FpChip p} (hc : FpChip.new L m n k = some c) : FpOk c := by
  obtain ⟨⟨rfl, rfl, rfl, rfl⟩, h2⟩ := FpChip.new_ok hc h.p32 h.m32 h.m0 h.n64 h.n128 h.k64 h.fits
  exact ⟨h2, h.range, h.p32, h.m32, h.sub, h.quot, h.crt, h.field⟩

theorem FpParams.fields {L m n k : ℕ} (h : FpParams p L m n k) {c : FpChip p} (hc : FpChip.new L m n k = some c) :
    c.L = L ∧ c.n = n ∧ c.k = k ∧ c.modulus = m ∧ c.kBits = Utils.bitLength k ∧ Utils.log2Ceil k = some c.kLog2 := by
  obtain ⟨kl, hkl, -⟩ := Utils.C28_log2_ceil k h.k64
  rw [h.new_eq, Option.some.injEq] at hc
  subst hc
  refine ⟨rfl, rfl, rfl, rfl, rfl, ?_⟩
  show _ = some ((Utils.log2Ceil k).getD 0)
  rw [hkl]; rfl

theorem size_of {m k : ℕ} (h : 2 ^ k ≤ m) (h2 : m < 2 ^ (k + 1)) : Nat.size m = k + 1 :=
  le_antisymm (Nat.size_le.2 h2) (Nat.lt_size.2 h)

theorem size_secpP : Nat.size secpP = 256 := size_of (k := 255) (by decide +kernel) (by decide +kernel)
theorem size_secpN : Nat.size secpN = 256 := size_of (k := 255) (by decide +kernel) (by decide +kernel)
theorem size_bn254Q : Nat.size bn254Q = 254 := size_of (k := 253) (by decide +kernel) (by decide +kernel)

/-- Three limbs of 88 bits, 16 lookup bits, BN254 `Fr` native, and any emulated modulus of 253 to 256 bits. -/
theorem fpParams_88_3 {m : ℕ} (h1 : 2 ^ 252 ≤ m) (h2 : m < 2 ^ 256) : FpParams bn254R 16 m 88 3 := by
  have s1 : 253 ≤ Nat.size m := Nat.lt_size.2 h1
  have s2 : Nat.size m ≤ 256 := Nat.size_le.2 h2
  refine ⟨by decide +kernel, ?_, ?_, by norm_num, by norm_num, by norm_num, by norm_num, ?_, rangeOk_bn254 (by norm_num) (by norm_num),
    ⟨?_, ?_⟩, ?_, ?_, ?_⟩
  · exact h2.le.trans (by norm_num)
  · exact (show 1 ≤ 2 ^ 252 by norm_num).trans h1
  · exact h2.trans_le (Nat.pow_le_pow_right (by norm_num) (by norm_num))
  · rw [capacity_bn254R]; decide
  · rw [capacity_bn254R]; decide
  · rw [numBits, size_bn254R]; omega
  · rw [numBits, size_bn254R]; omega
  · rw [numBits, size_bn254R]; omega

theorem fpParams_secpP : FpParams bn254R 16 secpP 88 3 := fpParams_88_3 (by decide +kernel) (by decide +kernel)
theorem fpParams_secpN : FpParams bn254R 16 secpN 88 3 := fpParams_88_3 (by decide +kernel) (by decide +kernel)
theorem fpParams_bn254Q : FpParams bn254R 16 bn254Q 88 3 := fpParams_88_3 (by decide +kernel) (by decide +kernel)

/-- With these parameters limbs of up to 240 bits can be carried. -/
theorem carryFits_88_3 (m ma : ℕ) (h : ma ≤ 240) : CarryFits (fpChip bn254R 16 m 88 3) ma := by
  have : CarryFits (fpChip bn254R 16 m 88 3) 240 := by
    show 3 * 2 ^ (2 * 88) + 2 ^ 240 + 2 ^ 88 + (2 ^ 88 + 1) * 2 ^ carryBits 16 (max (max 88 240 + 1) (2 * 88 + Utils.bitLength 3)) 88 < bn254R
    decide +kernel
  exact FpChip.CarryFits.mono this h

theorem carryZeroFits_88_3 (m ma : ℕ) (h : ma ≤ 240) : CarryZeroFits (fpChip bn254R 16 m 88 3) ma := by
  have : CarryZeroFits (fpChip bn254R 16 m 88 3) 240 := by
    show 3 * 2 ^ (2 * 88) + 2 ^ 240 + (2 ^ 88 + 1) * 2 ^ carryBits 16 (max 240 (2 * 88 + Utils.bitLength 3)) 88 < bn254R
    decide +kernel
  exact FpChip.CarryZeroFits.mono this h

end H2
