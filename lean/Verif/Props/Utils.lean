import Verif.Utils.Sound
import Verif.Core.Primes
import Mathlib.Tactic.LinearCombination

/-!
# C26-C28: limb decomposition, conversions
The specification is plain arithmetic: the `i`-th limb of `v` in base `2^b` is `v / 2^(b*i) % 2^b`.
-/

set_option autoImplicit false
namespace H2.Utils
open H2

/-- Specification: the `n` low base-`2^b` digits of `v`. -/
def IsLimbs (l : List ℕ) (v n b : ℕ) : Prop :=
  l.length = n ∧ ∀ i, (hi : i < l.length) → l[i] = v / 2 ^ (b * i) % 2 ^ b

theorem isLimbs_limbsOf (v n b : ℕ) : IsLimbs (limbsOf v n b) v n b := by
  refine ⟨by simp [limbsOf], fun i hi => by simp [limbsOf]⟩

/-! ## C26 -/

/-- C26: for every stream of 64-bit digits, every `bit_len < 64` and limb count, in debug and release builds: no
overflow or panic, and the limbs are exactly the base-`2^bit_len` digits. -/
theorem C26_decompose_u64_digits (chk : Bool) (e : List ℕ) (n b : ℕ) (hb : b < 64) (he : ∀ d ∈ e, d < 2 ^ 64) :
    ∃ l, decomposeU64Digits chk e n b = some l ∧ IsLimbs l (Nat.ofDigits (2 ^ 64) e) n b :=
  ⟨_, decomposeU64Digits_eq hb he, isLimbs_limbsOf _ _ _⟩

/-- C26 on field elements (`to_u64_limbs`, `decompose_fe_to_u64_limbs`). -/
theorem C26_decompose_fe {p : ℕ} (chk : Bool) (x : ZMod p) (n b : ℕ) (hb : b < 64) :
    ∃ l, decomposeFeToU64Limbs chk x n b = some l ∧ IsLimbs l x.val n b := by
  obtain ⟨l, h1, h2⟩ := C26_decompose_u64_digits chk (u64Digits x.val) n b hb u64Digits_lt
  rw [ofDigits_u64Digits] at h2
  exact ⟨l, h1, h2⟩

example : decomposeU64Digits true [2 ^ 64 - 1, 5] 4 20 = some [2 ^ 20 - 1, 2 ^ 20 - 1, 2 ^ 20 - 1, 95] := by
  decide +kernel

/-! ## C27 -/

/-- C27: `decompose_biguint` for every `64 ≤ bit_len < 128` and `num_limbs ≥ 1`. -/
theorem C27_decompose_biguint {p : ℕ} (chk : Bool) (e n b : ℕ) (hb : 64 ≤ b) (hb' : b < 128) (hn : n ≠ 0) :
    ∃ l, IsLimbs l e n b ∧ decomposeBiguint p chk e n b = some (l.map fun k : ℕ => (k : ZMod p)) :=
  ⟨_, isLimbs_limbsOf _ _ _, by rw [decomposeBiguint, decomposeBigLimbs_eq hb hb' hn]; rfl⟩

/-- C27: `decompose_bigint` gives the limbs of the absolute value with the sign of `e`, so that the weighted sum of
the limbs is `e` whenever `|e| < 2^(bit_len * num_limbs)`. -/
theorem C27_decompose_bigint {p : ℕ} (chk : Bool) (e : ℤ) (n b : ℕ) (hb : 64 ≤ b) (hb' : b < 128) (hn : n ≠ 0) :
    ∃ l, IsLimbs l e.natAbs n b ∧ decomposeBigint p chk e n b =
      some (l.map fun k : ℕ => (if e < 0 then -(k : ZMod p) else (k : ZMod p))) := by
  obtain ⟨l, h1, h2⟩ := C27_decompose_biguint (p := p) chk e.natAbs n b hb hb' hn
  refine ⟨l, h1, ?_⟩
  unfold decomposeBigint
  split <;> rename_i h <;> simp [h2, h]

/-- C27: `decompose` of a field element, every `bit_len < 128` except 64. -/
theorem C27_decompose {p : ℕ} (chk : Bool) (x : ZMod p) (n b : ℕ) (hb : b < 128) (h64 : b ≠ 64) (hn : n ≠ 0) :
    ∃ l, IsLimbs l x.val n b ∧ decompose chk x n b = some (l.map fun k : ℕ => (k : ZMod p)) := by
  unfold decompose
  split
  · exact C27_decompose_biguint chk _ n b (by omega) hb hn
  · obtain ⟨l, h1, h2⟩ := C26_decompose_fe chk x n b (by omega)
    exact ⟨l, h2, by rw [h1]; rfl⟩

theorem u64Loop_zero_mask (n : ℕ) : ∀ (e : List ℕ) (d : ℕ),
    u64Loop false 0 64 n e d 64 = some (List.replicate n 0) := by
  induction n with
  | zero => intros; rfl
  | succ n ih =>
    intro e d
    rw [u64Loop, if_neg (by omega), if_pos rfl, ih]
    simp [List.replicate_succ]

/-- Finding: `decompose` documents `bit_len < 128`, but at `bit_len = 64` a debug build panics and a release build
returns zeros for every element. -/
theorem C27_decompose_64_wrong {p : ℕ} (x : ZMod p) (n : ℕ) :
    decompose true x n 64 = none ∧ decompose false x n 64 = some (List.replicate n 0) := by
  constructor
  · simp [decompose, decomposeFeToU64Limbs, decomposeU64Digits]
  · simp only [decompose, decomposeFeToU64Limbs, decomposeU64Digits]
    have : maskW false 64 = some 0 := by decide
    simp [this, u64Loop_zero_mask]

/-- Finding: `decompose_biguint` with `num_limbs = 0` returns one limb, not zero. -/
theorem C27_decompose_biguint_zero {p : ℕ} (chk : Bool) (e b : ℕ) (hb : 64 ≤ b) (hb' : b < 128) :
    decomposeBiguint p chk e 0 b = decomposeBiguint p chk e 1 b := rfl

example : decomposeBigLimbs true (2 ^ 200 + 7) 3 88 = some [7, 0, 2 ^ 24] := by decide +kernel

/-! ## C28 -/

/-- C28: `compose` is the weighted sum, and inverts the decomposition. -/
theorem C28_compose_decompose (v n b : ℕ) (l : List ℕ) (h : IsLimbs l v n b) (hv : v < 2 ^ (b * n)) :
    compose l b = v := by
  have : l = limbsOf v n b := by
    refine List.ext_getElem (by simp [limbsOf, h.1]) fun i h1 h2 => ?_
    rw [h.2 i h1, (isLimbs_limbsOf v n b).2 i h2]
  rw [this, compose_limbsOf, Nat.mod_eq_of_lt hv]

theorem C28_compose (l : List ℕ) (b : ℕ) :
    compose l b = ((List.range l.length).map fun i => 2 ^ (b * i) * l.getD i 0).sum := by
  induction l with
  | nil => simp [compose]
  | cons a t ih =>
    rw [compose_cons, ih, List.length_cons, List.range_succ_eq_map, List.map_cons, List.map_map, List.sum_cons,
      ← List.sum_map_mul_left]
    simp only [Nat.mul_zero, pow_zero, one_mul, List.getD_cons_zero, Function.comp_def, List.getD_cons_succ]
    congr 2
    refine List.map_congr_left fun i _ => ?_
    rw [Nat.succ_eq_add_one, mul_add, mul_one, pow_add]; ring

/-- C28: `bit_length` on `u64`: the least `k` with `x < 2^k`. -/
theorem C28_bit_length (x k : ℕ) (hx : x < 2 ^ 64) : bitLength x ≤ k ↔ x < 2 ^ k := by
  have : Nat.size x ≤ 64 := Nat.size_le.2 hx
  rw [← Nat.size_le, bitLength, leadingZeros]
  omega

theorem isPow2_iff (x : ℕ) : isPow2 x = true ↔ ∃ k, x = 2 ^ k := by
  unfold isPow2
  rw [decide_eq_true_iff]
  constructor
  · rintro ⟨h0, h1⟩
    refine ⟨Nat.log 2 x, ?_⟩
    by_contra hne
    have hl : 2 ^ Nat.log 2 x < x := lt_of_le_of_ne (Nat.pow_log_le_self 2 h0) (Ne.symm hne)
    have hu : x < 2 ^ (Nat.log 2 x + 1) := Nat.lt_pow_succ_log_self (by norm_num) x
    have t1 : x.testBit (Nat.log 2 x) = true := by
      rw [Nat.testBit_eq_decide_div_mod_eq, decide_eq_true_iff]
      have : x / 2 ^ Nat.log 2 x = 1 := by
        rw [Nat.div_eq_iff (by positivity)]
        rw [pow_succ] at hu
        omega
      rw [this]
    have t2 : (x - 1).testBit (Nat.log 2 x) = true := by
      rw [Nat.testBit_eq_decide_div_mod_eq, decide_eq_true_iff]
      have : (x - 1) / 2 ^ Nat.log 2 x = 1 := by
        rw [Nat.div_eq_iff (by positivity)]
        rw [pow_succ] at hu
        omega
      rw [this]
    have := congrArg (fun n => n.testBit (Nat.log 2 x)) h1
    simp [Nat.testBit_and, t1, t2] at this
  · rintro ⟨k, rfl⟩
    refine ⟨by positivity, ?_⟩
    rw [Nat.and_two_pow_sub_one_eq_mod, Nat.mod_self]

/-- C28: `log2_ceil` on `u64` never underflows and is the ceiling of the logarithm: for `x ≠ 0` the least `k` with
`x ≤ 2^k`; `log2_ceil(0) = 0`. -/
theorem C28_log2_ceil (x : ℕ) (hx : x < 2 ^ 64) :
    ∃ r, log2Ceil x = some r ∧ (x = 0 → r = 0) ∧ ∀ k, r ≤ k ↔ x ≤ 2 ^ k := by
  have h64 : Nat.size x ≤ 64 := Nat.size_le.2 hx
  have e : 64 - leadingZeros x = Nat.size x := by rw [leadingZeros]; omega
  unfold log2Ceil
  rw [e]
  by_cases hp : isPow2 x
  · obtain ⟨j, rfl⟩ := (isPow2_iff x).1 hp
    rw [if_pos hp, Nat.size_pow, if_neg (by omega)]
    refine ⟨_, rfl, fun h => absurd h (by positivity), fun k => ?_⟩
    rw [Nat.pow_le_pow_iff_right (by norm_num)]
    omega
  · rw [if_neg hp, if_neg (by omega)]
    refine ⟨_, rfl, fun h => by rw [h]; rfl, fun k => ?_⟩
    rw [Nat.sub_zero, Nat.size_le]
    have : x ≠ 2 ^ k := fun h => hp ((isPow2_iff x).2 ⟨k, h⟩)
    omega

example : log2Ceil 5 = some 3 ∧ log2Ceil 8 = some 3 ∧ log2Ceil 1 = some 0 := by decide +kernel

section
variable {p : ℕ}

theorem ofDigits_range_map (x n : ℕ) :
    Nat.ofDigits 256 ((List.range n).map fun i => x / 256 ^ i % 256) = x % 256 ^ n := by
  induction n generalizing x with
  | zero => simp [Nat.mod_one]
  | succ n ih =>
    rw [List.range_succ_eq_map, List.map_cons, List.map_map, Nat.ofDigits_cons]
    have : ((fun i => x / 256 ^ i % 256) ∘ Nat.succ) = fun i => (x / 256) / 256 ^ i % 256 := by
      funext i
      simp only [Function.comp, Nat.succ_eq_add_one, pow_succ', Nat.div_div_eq_div_mul]
    rw [this, ih, pow_zero, Nat.div_one, pow_succ', Nat.mod_mul]

/-- C28: `fe_to_biguint` is the canonical representative (32-byte representation, `p ≤ 2^256`). -/
theorem C28_fe_to_biguint [NeZero p] (hp : p ≤ 256 ^ 32) (x : ZMod p) : feToBiguint x = x.val := by
  rw [feToBiguint, toBytesLe, ofDigits_range_map, Nat.mod_eq_of_lt (lt_of_lt_of_le (ZMod.val_lt x) hp)]

theorem bigToBytesLe_val (e : ℕ) : Nat.ofDigits 256 (bigToBytesLe e) = e := by
  unfold bigToBytesLe
  split
  · next h => subst h; simp
  · exact Nat.ofDigits_digits _ _

theorem bigToBytesLe_len {e : ℕ} (h : e < 256 ^ 32) : (bigToBytesLe e).length ≤ 32 := by
  unfold bigToBytesLe
  split
  · simp
  · next h0 =>
    rw [Nat.digits_length_le_iff (by norm_num)]
    exact h

/-- C28: `biguint_to_fe` is the residue for `e < p` and panics for every other `e`. -/
theorem C28_biguint_to_fe (hp : p ≤ 256 ^ 32) (e : ℕ) :
    biguintToFe p e = if e < p then some (e : ZMod p) else none := by
  unfold biguintToFe fromBytesLe
  rw [bigToBytesLe_val]
  by_cases h : e < p
  · rw [if_neg (by have := bigToBytesLe_len (lt_of_lt_of_le h hp); omega)]
  · simp [h]

/-- C28: integer → field → integer. -/
theorem C28_roundtrip_biguint [NeZero p] (hp : p ≤ 256 ^ 32) (e : ℕ) (he : e < p) :
    ∃ x, biguintToFe p e = some x ∧ feToBiguint x = e :=
  ⟨e, by rw [C28_biguint_to_fe hp, if_pos he], by rw [C28_fe_to_biguint hp, ZMod.val_natCast_of_lt he]⟩

/-- C28: field → integer → field. -/
theorem C28_roundtrip_fe [NeZero p] (hp : p ≤ 256 ^ 32) (x : ZMod p) : biguintToFe p (feToBiguint x) = some x := by
  rw [C28_fe_to_biguint hp, C28_biguint_to_fe hp, if_pos (ZMod.val_lt x), ZMod.natCast_zmod_val]

/-- C28: `modulus()` is the modulus. -/
theorem C28_modulus [NeZero p] (hp : p ≤ 256 ^ 32) : modulus p = p := by
  unfold modulus
  rw [C28_fe_to_biguint hp]
  obtain ⟨n, rfl⟩ : ∃ n, p = n + 1 := Nat.exists_eq_succ_of_ne_zero (NeZero.ne p)
  rw [ZMod.val_neg_one]

/-- C28: `power_of_two(n)`. -/
theorem C28_power_of_two (hp : p ≤ 256 ^ 32) (n : ℕ) :
    powerOfTwo p n = if 2 ^ n < p then some (2 ^ n : ZMod p) else none := by
  rw [powerOfTwo, one_mul, C28_biguint_to_fe hp]
  push_cast
  rfl

/-- C28: `fe_to_bigint` is the signed representative: congruent to `x` and in `[-(p-1)/2, p/2]`. -/
theorem C28_fe_to_bigint [NeZero p] (hp : p ≤ 256 ^ 32) (x : ZMod p) :
    ((feToBigint x : ℤ) : ZMod p) = x ∧ -((p : ℤ) - 1) ≤ 2 * feToBigint x ∧ 2 * feToBigint x ≤ p := by
  have hx := ZMod.val_lt x
  unfold feToBigint
  simp only [C28_modulus hp, C28_fe_to_biguint hp]
  split
  · refine ⟨by simp, by omega, by omega⟩
  · refine ⟨?_, by omega, by omega⟩
    rw [Nat.cast_sub hx.le]
    push_cast
    simp

/-- C28: signed round trip; the honest conversion never panics. -/
theorem C28_roundtrip_bigint [NeZero p] (hp : p ≤ 256 ^ 32) (hp1 : 1 < p) (x : ZMod p) :
    bigintToFe p (feToBigint x) = some x := by
  obtain ⟨h1, h2, h3⟩ := C28_fe_to_bigint hp x
  have key : ∀ e : ℕ, fromBytesLe p (bigToBytesLe e) = if e < p then some (e : ZMod p) else none :=
    C28_biguint_to_fe hp
  unfold bigintToFe
  rw [key, if_pos (by omega)]
  simp only [Option.bind_eq_bind, Option.bind_some, Option.pure_def, Option.some.injEq]
  split
  · next h =>
    have : ((feToBigint x).natAbs : ℤ) = - feToBigint x := by omega
    have h4 : (((feToBigint x).natAbs : ℤ) : ZMod p) = -x := by rw [this, Int.cast_neg, h1]
    rw [Int.cast_natCast] at h4
    rw [h4, neg_neg]
  · next h =>
    have : ((feToBigint x).natAbs : ℤ) = feToBigint x := by omega
    have h4 : (((feToBigint x).natAbs : ℤ) : ZMod p) = x := by rw [this, h1]
    rwa [Int.cast_natCast] at h4

/-- C28: `bigint_to_fe` is the residue of the integer whenever `|e| < p`. -/
theorem C28_bigint_to_fe (hp : p ≤ 256 ^ 32) (e : ℤ) (he : e.natAbs < p) :
    bigintToFe p e = some (e : ZMod p) := by
  have key : ∀ e : ℕ, fromBytesLe p (bigToBytesLe e) = if e < p then some (e : ZMod p) else none :=
    C28_biguint_to_fe hp
  unfold bigintToFe
  rw [key, if_pos he]
  simp only [Option.bind_eq_bind, Option.bind_some, Option.pure_def, Option.some.injEq]
  split
  · next h =>
    have : e = -(e.natAbs : ℤ) := by omega
    conv_rhs => rw [this]
    simp
  · next h =>
    have : e = (e.natAbs : ℤ) := by omega
    conv_rhs => rw [this]
    simp

theorem lowerLoop_eq {w : ℕ} {chk : Bool} (l : List ℕ) : ∀ (i acc : ℕ), (∀ b ∈ l, b < 256) → acc < 2 ^ (i * 8) →
    (i + l.length) * 8 ≤ w → lowerLoop w chk l i acc = some (acc + 2 ^ (i * 8) * Nat.ofDigits 256 l) := by
  induction l with
  | nil => intros; simp [lowerLoop]
  | cons b t ih =>
    intro i acc hl ha hw
    rw [List.length_cons] at hw
    have hb : b < 2 ^ 8 := hl b (by simp)
    rw [lowerLoop, shlW_eq (by omega) (mul_lt_pow hb (by omega))]
    simp only [Option.bind_eq_bind, Option.bind_some]
    rw [or_hi ha]
    have hlt := low_lt ha hb
    rw [show i * 8 + 8 = (i + 1) * 8 by ring] at hlt
    rw [ih _ _ (fun x hx => hl x (by simp [hx])) hlt (by omega), Nat.ofDigits_cons,
      show (i + 1) * 8 = i * 8 + 8 by ring, pow_add]
    congr 1
    ring

/-- C28: `get_lower_32`, `get_lower_64`, `get_lower_128` return the residue modulo `2^w`, without overflow. -/
theorem C28_get_lower [NeZero p] (chk : Bool) (x : ZMod p) (k : ℕ) (hk : k ≤ 32) :
    getLower (8 * k) chk x = some (x.val % 2 ^ (8 * k)) := by
  unfold getLower toBytesLe
  rw [Nat.mul_div_cancel_left _ (by norm_num), ← List.map_take, List.take_range, Nat.min_eq_left hk,
    lowerLoop_eq _ _ _ ?_ (by norm_num) (by simp; omega)]
  · rw [ofDigits_range_map, show (256 : ℕ) = 2 ^ 8 from rfl, ← pow_mul]
    simp
  · intro b hb
    simp only [List.mem_map] at hb
    obtain ⟨_, _, rfl⟩ := hb
    exact Nat.mod_lt _ (by norm_num)

end

/-- Non-vacuity: BN254's scalar field has a 32-byte representation. -/
theorem bn254R_le : bn254R ≤ 256 ^ 32 := by decide +kernel

example : feToBigint (-3 : ZMod bn254R) = -3 := by
  have h := C28_fe_to_bigint bn254R_le (-3 : ZMod bn254R)
  have : feToBigint (-3 : ZMod bn254R) + 3 = 0 := by
    have h0 : ((feToBigint (-3 : ZMod bn254R) + 3 : ℤ) : ZMod bn254R) = 0 := by
      push_cast; rw [h.1]; ring
    rw [ZMod.intCast_zmod_eq_zero_iff_dvd] at h0
    have hb : (8 : ℤ) < bn254R := by exact_mod_cast (by decide +kernel : 8 < bn254R)
    refine Int.eq_zero_of_abs_lt_dvd h0 ?_
    rw [abs_lt]
    constructor <;> omega
  omega

end H2.Utils
