import Verif.Range.Model
import Mathlib.Data.Nat.Bitwise
import Mathlib.Data.Nat.Size
import Mathlib.Data.Nat.Digits.Defs

/-!
# Model of `halo2-base/src/utils/mod.rs`: machine-word limb decomposition and conversions

`u64`/`u128`/`u32` values are naturals; every shift is modelled with its machine semantics (`<<` drops the high
bits; a shift by at least the width panics when overflow checks are on and otherwise uses the low bits of the
shift amount).  `chk = true`: overflow checks and debug assertions on (debug build); `chk = false`: release.
-/

set_option autoImplicit false
namespace H2.Utils
open H2

/-- `x << k` on an `w`-bit unsigned integer (Rust reference, operators; not a function of the crate). -/
def shlW (w : ℕ) (chk : Bool) (x k : ℕ) : Option ℕ :=
  if k < w then some (x * 2 ^ k % 2 ^ w) else if chk then none else some (x * 2 ^ (k % w) % 2 ^ w)

/-- `x >> k` on an `w`-bit unsigned integer. -/
def shrW (w : ℕ) (chk : Bool) (x k : ℕ) : Option ℕ :=
  if k < w then some (x / 2 ^ k) else if chk then none else some (x / 2 ^ (k % w))

/-- `(1u64 << k) - 1u64`. -/
def maskW (chk : Bool) (k : ℕ) : Option ℕ := (shlW 64 chk 1 k).map (· - 1)

/-- `e.next().unwrap_or(0)` on the rest of a digit iterator. -/
def next (e : List ℕ) : ℕ := e.headD 0

/-- The closure of `decompose_u64_digits_to_limbs` (utils/mod.rs:131-160) run `n` times; state: the rest of the
iterator, `u64_digit` and `rem`. -/
def u64Loop (chk : Bool) (mask bitLen : ℕ) : ℕ → List ℕ → ℕ → ℕ → Option (List ℕ)
  | 0, _, _, _ => some []
  | n + 1, e, d, rem =>
    if bitLen < rem then do
      let limb := d &&& mask
      let d' ← shrW 64 chk d bitLen
      let r ← u64Loop chk mask bitLen n e d' (rem - bitLen)
      pure (limb :: r)
    else if rem = bitLen then do
      let limb := d &&& mask
      let r ← u64Loop chk mask bitLen n e.tail (next e) 64
      pure (limb :: r)
    else do
      let d1 := next e
      let m ← maskW chk (bitLen - rem)
      let hi ← shlW 64 chk (d1 &&& m) rem
      let limb := d ||| hi
      let d2 ← shrW 64 chk d1 (bitLen - rem)
      let r ← u64Loop chk mask bitLen n e.tail d2 (rem + (64 - bitLen))
      pure (limb :: r)

/-- `decompose_u64_digits_to_limbs` (utils/mod.rs:118-162). -/
def decomposeU64Digits (chk : Bool) (e : List ℕ) (numLimbs bitLen : ℕ) : Option (List ℕ) := do
  if chk ∧ ¬ bitLen < 64 then none
  let mask ← maskW chk bitLen
  u64Loop chk mask bitLen numLimbs e.tail (next e) 64

/-- `BigUint::iter_u64_digits`: little-endian base-2^64 digits, no leading zeros. -/
def u64Digits (e : ℕ) : List ℕ := Nat.digits (2 ^ 64) e

/-- `ScalarField::to_u64_limbs` (utils/mod.rs:395-401), `decompose_fe_to_u64_limbs` (253-268). -/
def decomposeFeToU64Limbs {p : ℕ} (chk : Bool) (x : ZMod p) (numLimbs bitLen : ℕ) : Option (List ℕ) :=
  decomposeU64Digits chk (u64Digits x.val) numLimbs bitLen

/-- The closure of `decompose_biguint` (utils/mod.rs:299-313) run `n` times; state: the rest of the iterator,
`u64_digit` and `rem`.  `64 + bits` and the subtractions are on `usize`; `bit_len - bits` is checked. -/
def bigLoop (chk : Bool) (bitLen : ℕ) : ℕ → List ℕ → ℕ → ℕ → Option (List ℕ)
  | 0, _, _, _ => some []
  | n + 1, e, d, rem => do
    let limb := d
    let bits := rem
    let d1 := next e
    let e := e.tail
    let (limb, d1, e, bits) ←
      if 64 + bits ≤ bitLen then do
        let hi ← shlW 128 chk d1 bits
        pure (limb ||| hi, next e, e.tail, bits + 64)
      else pure (limb, d1, e, bits)
    if bitLen < bits then none
    let rem := bitLen - bits
    let m ← maskW chk rem
    let hi ← shlW 128 chk (d1 &&& m) bits
    let limb := limb ||| hi
    let d2 ← shrW 64 chk d1 rem
    if 64 < rem then none
    let r ← bigLoop chk bitLen n e d2 (64 - rem)
    pure (limb :: r)

/-- `decompose_biguint` (utils/mod.rs:278-315), the limbs before `F::from_u128`.  As in the code the first limb is
always produced, even for `num_limbs = 0`. -/
def decomposeBigLimbs (chk : Bool) (e : ℕ) (numLimbs bitLen : ℕ) : Option (List ℕ) := do
  if chk ∧ ¬ (64 ≤ bitLen ∧ bitLen < 128) then none
  if bitLen < 64 then none
  let ds := u64Digits e
  let limb0 := next ds
  let rem := bitLen - 64
  let ds := ds.tail
  let d := next ds
  let ds := ds.tail
  let m ← maskW chk rem
  let hi ← shlW 128 chk (d &&& m) 64
  let limb0 := limb0 ||| hi
  let d' ← shrW 64 chk d rem
  if 64 < rem then none
  let r ← bigLoop chk bitLen (numLimbs - 1) ds d' (64 - rem)
  pure (limb0 :: r)

section
variable {p : ℕ}

/-- `decompose_biguint` (utils/mod.rs:278-315) with `F::from_u128` = the residue modulo `p`. -/
def decomposeBiguint (p : ℕ) (chk : Bool) (e : ℕ) (numLimbs bitLen : ℕ) : Option (List (ZMod p)) :=
  (decomposeBigLimbs chk e numLimbs bitLen).map (List.map fun n : ℕ => (n : ZMod p))

/-- `decompose_bigint` (utils/mod.rs:323-329). -/
def decomposeBigint (p : ℕ) (chk : Bool) (e : ℤ) (numLimbs bitLen : ℕ) : Option (List (ZMod p)) :=
  if e < 0 then (decomposeBiguint p chk e.natAbs numLimbs bitLen).map (List.map fun x => -x)
  else decomposeBiguint p chk e.natAbs numLimbs bitLen

/-- `decompose` (utils/mod.rs:239-245). -/
def decompose (chk : Bool) (x : ZMod p) (numLimbs bitLen : ℕ) : Option (List (ZMod p)) :=
  if bitLen > 64 then decomposeBiguint p chk x.val numLimbs bitLen
  else (decomposeFeToU64Limbs chk x numLimbs bitLen).map (List.map fun n : ℕ => (n : ZMod p))

/-- `compose` (utils/mod.rs:362-364). -/
def compose (input : List ℕ) (bitLen : ℕ) : ℕ :=
  input.reverse.foldl (fun acc v => acc * 2 ^ bitLen + v) 0

/-- `u64::leading_zeros` for `x < 2^64`. -/
def leadingZeros (x : ℕ) : ℕ := 64 - Nat.size x

/-- `bit_length` (utils/mod.rs:165-167). -/
def bitLength (x : ℕ) : ℕ := 64 - leadingZeros x

/-- `u64::is_power_of_two`: exactly one bit set. -/
def isPow2 (x : ℕ) : Bool := x ≠ 0 ∧ x &&& (x - 1) = 0

/-- `log2_ceil` (utils/mod.rs:172-174); the subtraction is on `usize`. -/
def log2Ceil (x : ℕ) : Option ℕ :=
  if 64 - leadingZeros x < (if isPow2 x then 1 else 0) then none
  else some (64 - leadingZeros x - (if isPow2 x then 1 else 0))

/-- `PrimeField::to_repr`, 32 little-endian bytes (`Repr = [u8; 32]`); `to_bytes_le` (utils/mod.rs:58-60). -/
def toBytesLe (x : ZMod p) : List ℕ := (List.range 32).map fun i => x.val / 256 ^ i % 256

/-- `BigUint::to_bytes_le`: base-256 digits, `[0]` for zero. -/
def bigToBytesLe (e : ℕ) : List ℕ := if e = 0 then [0] else Nat.digits 256 e

/-- `from_bytes_le` (utils/mod.rs:66-70): panics if there are more than 32 bytes, or (`from_repr(..).unwrap()`) if the
value is not below the modulus. -/
def fromBytesLe (p : ℕ) (bytes : List ℕ) : Option (ZMod p) :=
  if 32 < bytes.length then none
  else if Nat.ofDigits 256 bytes < p then some (Nat.ofDigits 256 bytes : ℕ) else none

/-- `biguint_to_fe` (utils/mod.rs:192-195). -/
def biguintToFe (p : ℕ) (e : ℕ) : Option (ZMod p) := fromBytesLe p (bigToBytesLe e)

/-- `bigint_to_fe` (utils/mod.rs:202-210). -/
def bigintToFe (p : ℕ) (e : ℤ) : Option (ZMod p) := do
  let fabs ← fromBytesLe p (bigToBytesLe e.natAbs)
  pure (if e < 0 then -fabs else fabs)

/-- `fe_to_biguint` (utils/mod.rs:214-216). -/
def feToBiguint (x : ZMod p) : ℕ := Nat.ofDigits 256 (toBytesLe x)

/-- `modulus` (utils/mod.rs:177-179). -/
def modulus (p : ℕ) : ℕ := feToBiguint (-1 : ZMod p) + 1

/-- `power_of_two` (utils/mod.rs:183-185). -/
def powerOfTwo (p n : ℕ) : Option (ZMod p) := biguintToFe p (1 * 2 ^ n)

/-- `fe_to_bigint` (utils/mod.rs:223-232). -/
def feToBigint (x : ZMod p) : ℤ :=
  let m := modulus p
  let e := feToBiguint x
  if e ≤ m / 2 then (e : ℤ) else -((m - e : ℕ) : ℤ)

/-- The loop of `get_lower_{32,64,128}` (utils/mod.rs:73-100): `acc |= (byte as uW) << (8 i)`. -/
def lowerLoop (w : ℕ) (chk : Bool) : List ℕ → ℕ → ℕ → Option ℕ
  | [], _, acc => some acc
  | b :: bs, i, acc => do
    let v ← shlW w chk b (i * 8)
    lowerLoop w chk bs (i + 1) (acc ||| v)

/-- `get_lower_{32,64,128}` (utils/mod.rs:73-100), `w` the width. -/
def getLower (w : ℕ) (chk : Bool) (x : ZMod p) : Option ℕ :=
  lowerLoop w chk ((toBytesLe x).take (w / 8)) 0 0

end
end H2.Utils
