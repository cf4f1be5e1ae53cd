import Mathlib.Data.List.Basic
import Mathlib.Data.Nat.Find

/-!
# SHA-256 (FIPS 180-4), the specification

Written from the standard, independently of the circuit.  Messages are lists of bytes.
-/

set_option autoImplicit false
namespace H2.Sha

/-- A byte. -/
abbrev Byte := BitVec 8
/-- A 32-bit word. -/
abbrev W := BitVec 32

/-- FIPS 180-4, 4.1.2. -/
def Ch (x y z : W) : W := (x &&& y) ^^^ (~~~x &&& z)
def Maj (x y z : W) : W := (x &&& y) ^^^ (x &&& z) ^^^ (y &&& z)
def bigSigma0 (x : W) : W := x.rotateRight 2 ^^^ x.rotateRight 13 ^^^ x.rotateRight 22
def bigSigma1 (x : W) : W := x.rotateRight 6 ^^^ x.rotateRight 11 ^^^ x.rotateRight 25
def smallSigma0 (x : W) : W := x.rotateRight 7 ^^^ x.rotateRight 18 ^^^ (x >>> 3)
def smallSigma1 (x : W) : W := x.rotateRight 17 ^^^ x.rotateRight 19 ^^^ (x >>> 10)

/-- FIPS 180-4, 4.2.2: the first 32 bits of the fractional parts of the cube roots of the first 64 primes. -/
def K : List W := [
  0x428a2f98, 0x71374491, 0xb5c0fbcf, 0xe9b5dba5, 0x3956c25b, 0x59f111f1, 0x923f82a4, 0xab1c5ed5,
  0xd807aa98, 0x12835b01, 0x243185be, 0x550c7dc3, 0x72be5d74, 0x80deb1fe, 0x9bdc06a7, 0xc19bf174,
  0xe49b69c1, 0xefbe4786, 0x0fc19dc6, 0x240ca1cc, 0x2de92c6f, 0x4a7484aa, 0x5cb0a9dc, 0x76f988da,
  0x983e5152, 0xa831c66d, 0xb00327c8, 0xbf597fc7, 0xc6e00bf3, 0xd5a79147, 0x06ca6351, 0x14292967,
  0x27b70a85, 0x2e1b2138, 0x4d2c6dfc, 0x53380d13, 0x650a7354, 0x766a0abb, 0x81c2c92e, 0x92722c85,
  0xa2bfe8a1, 0xa81a664b, 0xc24b8b70, 0xc76c51a3, 0xd192e819, 0xd6990624, 0xf40e3585, 0x106aa070,
  0x19a4c116, 0x1e376c08, 0x2748774c, 0x34b0bcb5, 0x391c0cb3, 0x4ed8aa4a, 0x5b9cca4f, 0x682e6ff3,
  0x748f82ee, 0x78a5636f, 0x84c87814, 0x8cc70208, 0x90befffa, 0xa4506ceb, 0xbef9a3f7, 0xc67178f2]

/-- The working variables `a, …, h` (also the hash value `H0, …, H7`). -/
structure St where
  (a b c d e f g h : W)
  deriving DecidableEq

/-- FIPS 180-4, 5.3.3: the first 32 bits of the fractional parts of the square roots of the first 8 primes. -/
def iv : St := ⟨0x6a09e667, 0xbb67ae85, 0x3c6ef372, 0xa54ff53a, 0x510e527f, 0x9b05688c, 0x1f83d9ab, 0x5be0cd19⟩

/-- FIPS 180-4, 6.2.2, step 1: the message schedule of a block of 16 words. -/
def schedule (m : ℕ → W) (t : ℕ) : W :=
  if t < 16 then m t
  else smallSigma1 (schedule m (t - 2)) + schedule m (t - 7) + smallSigma0 (schedule m (t - 15)) + schedule m (t - 16)
termination_by t

/-- FIPS 180-4, 6.2.2, step 3: one round. -/
def round (k w : W) (s : St) : St :=
  let t1 := s.h + bigSigma1 s.e + Ch s.e s.f s.g + k + w
  let t2 := bigSigma0 s.a + Maj s.a s.b s.c
  ⟨t1 + t2, s.a, s.b, s.c, s.d + t1, s.e, s.f, s.g⟩

/-- The first `t` rounds. -/
def rounds (w : ℕ → W) (s : St) : ℕ → St
  | 0 => s
  | t + 1 => round (K.getD t 0) (w t) (rounds w s t)

/-- Step 4. -/
def St.add (x y : St) : St := ⟨x.a + y.a, x.b + y.b, x.c + y.c, x.d + y.d, x.e + y.e, x.f + y.f, x.g + y.g, x.h + y.h⟩

/-- FIPS 180-4, 6.2.2: the processing of one block. -/
def compress (hv : St) (m : ℕ → W) : St := (rounds (schedule m) hv 64).add hv

/-- The 64-bit big-endian encoding of `n` as 8 bytes. -/
def be64 (n : ℕ) : List Byte := (List.range 8).map fun i => BitVec.ofNat 8 (n / 256 ^ (7 - i))

/-- The number of zero bytes of the padding of a message of `l` bytes: the least `k` such that
`l + 1 + k + 8` is a multiple of 64 (`zeros_spec`). -/
def zeros (l : ℕ) : ℕ := (119 - l % 64) % 64

/-- FIPS 180-4, 5.1.1: padding. -/
def pad (m : List Byte) : List Byte := m ++ [0x80] ++ List.replicate (zeros m.length) 0 ++ be64 (8 * m.length)

/-- FIPS 180-4, 5.2.1: the `i`-th word of the byte string `l`, big-endian. -/
def beWord (l : List Byte) (i : ℕ) : W :=
  (l.getD (4 * i) 0) ++ (l.getD (4 * i + 1) 0) ++ (l.getD (4 * i + 2) 0) ++ (l.getD (4 * i + 3) 0)

/-- The chaining value after `n` blocks of the padded message `l`. -/
def chain (l : List Byte) : ℕ → St
  | 0 => iv
  | n + 1 => compress (chain l n) fun i => beWord l (16 * n + i)

/-- The digest as eight words. -/
def sha256St (m : List Byte) : St := chain (pad m) ((pad m).length / 64)

/-- The digest as a 256-bit big-endian number. -/
def sha256 (m : List Byte) : BitVec 256 :=
  let s := sha256St m
  s.a ++ s.b ++ s.c ++ s.d ++ s.e ++ s.f ++ s.g ++ s.h

theorem zeros_spec (l : ℕ) : (l + 1 + zeros l + 8) % 64 = 0 ∧ ∀ k < zeros l, (l + 1 + k + 8) % 64 ≠ 0 := by
  unfold zeros; constructor
  · omega
  · intro k hk; omega

theorem be64_length (n : ℕ) : (be64 n).length = 8 := by simp [be64]

theorem pad_length (m : List Byte) : (pad m).length = m.length + 1 + zeros m.length + 8 := by
  simp [pad, be64_length]; omega

theorem pad_mod (m : List Byte) : (pad m).length % 64 = 0 := by rw [pad_length]; exact (zeros_spec _).1

/-- The constants are the ones of the standard: the fractional parts of the roots of the primes. -/
def firstPrimes : List ℕ := [2, 3, 5, 7, 11, 13, 17, 19, 23, 29, 31, 37, 41, 43, 47, 53, 59, 61, 67, 71, 73, 79, 83, 89, 97, 101, 103,
  107, 109, 113, 127, 131, 137, 139, 149, 151, 157, 163, 167, 173, 179, 181, 191, 193, 197, 199, 211, 223, 227, 229, 233, 239, 241,
  251, 257, 263, 269, 271, 277, 281, 283, 293, 307, 311]

example : ∀ i < 64, ∃ n < 7, let r := n * 2 ^ 32 + (K.getD i 0).toNat
    r ^ 3 ≤ firstPrimes.getD i 0 * 2 ^ 96 ∧ firstPrimes.getD i 0 * 2 ^ 96 < (r + 1) ^ 3 := by decide +kernel

example : ∀ i < 8, ∃ n < 5, let r := n * 2 ^ 32 + ([iv.a, iv.b, iv.c, iv.d, iv.e, iv.f, iv.g, iv.h].getD i 0).toNat
    r ^ 2 ≤ firstPrimes.getD i 0 * 2 ^ 64 ∧ firstPrimes.getD i 0 * 2 ^ 64 < (r + 1) ^ 2 := by decide +kernel

/-! ### Test vectors

`schedule` is defined by course-of-values recursion; to evaluate it we tabulate it. -/

/-- The first `n` words of the schedule, last one first. -/
def schedRev (m : ℕ → W) : ℕ → List W
  | 0 => []
  | n + 1 =>
    let l := schedRev m n
    (if n < 16 then m n else smallSigma1 (l.getD 1 0) + l.getD 6 0 + smallSigma0 (l.getD 14 0) + l.getD 15 0) :: l

theorem schedRev_length (m : ℕ → W) (n : ℕ) : (schedRev m n).length = n := by
  induction n with
  | zero => rfl
  | succ n ih => simp [schedRev, ih]

theorem schedRev_getD (m : ℕ → W) (n : ℕ) : ∀ i < n, (schedRev m n).getD i 0 = schedule m (n - 1 - i) := by
  induction n with
  | zero => intro i hi; omega
  | succ n ih =>
    intro i hi
    cases i with
    | succ i =>
      have h := ih i (by omega)
      simp only [schedRev, List.getD_cons_succ]
      rw [h]; congr 1; omega
    | zero =>
      simp only [schedRev, List.getD_cons_zero]
      conv_rhs => rw [schedule]
      simp only [Nat.add_sub_cancel, Nat.sub_zero]
      by_cases h : n < 16
      · rw [if_pos h, if_pos h]
      · rw [if_neg h, if_neg h, ih 1 (by omega), ih 6 (by omega), ih 14 (by omega), ih 15 (by omega)]
        simp only [Nat.sub_sub, Nat.reduceAdd]

/-- `compress` with the tabulated schedule. -/
def compressTab (hv : St) (m : ℕ → W) : St :=
  let l := (schedRev m 64).reverse
  (rounds (fun t => l.getD t 0) hv 64).add hv

theorem rounds_congr (w w' : ℕ → W) (s : St) : ∀ t, (∀ i < t, w i = w' i) → rounds w s t = rounds w' s t
  | 0, _ => rfl
  | t + 1, h => by
    rw [rounds, rounds, rounds_congr w w' s t fun i hi => h i (by omega), h t (by omega)]

theorem compressTab_eq (hv : St) (m : ℕ → W) : compressTab hv m = compress hv m := by
  have H : ∀ i < 64, ((schedRev m 64).reverse).getD i 0 = schedule m i := ?_
  · unfold compressTab compress
    simp only
    rw [rounds_congr _ (schedule m) hv 64 H]
  intro i hi
  have h := schedRev_getD m 64 (63 - i) (by omega)
  have e : (schedRev m 64).reverse.getD i 0 = (schedRev m 64).getD (63 - i) 0 := by
    have hl := schedRev_length m 64
    simp only [List.getD]
    rw [List.getElem?_reverse (by rw [hl]; exact hi), hl]
  rw [e, h]; congr 1; omega

def chainTab (l : List Byte) : ℕ → St
  | 0 => iv
  | n + 1 => compressTab (chainTab l n) fun i => beWord l (16 * n + i)

theorem chainTab_eq (l : List Byte) : ∀ n, chainTab l n = chain l n
  | 0 => rfl
  | n + 1 => by rw [chainTab, chain, compressTab_eq, chainTab_eq l n]

def sha256Tab (m : List Byte) : BitVec 256 :=
  let s := chainTab (pad m) ((pad m).length / 64)
  s.a ++ s.b ++ s.c ++ s.d ++ s.e ++ s.f ++ s.g ++ s.h

theorem sha256Tab_eq (m : List Byte) : sha256Tab m = sha256 m := by
  unfold sha256Tab sha256 sha256St
  simp only [chainTab_eq]

/-- The standard's examples: "abc", and the 448-bit message (two blocks). -/
example : sha256 [0x61, 0x62, 0x63] = 0xba7816bf8f01cfea414140de5dae2223b00361a396177a9cb410ff61f20015ad := by
  rw [← sha256Tab_eq]; decide +kernel

example : sha256 [0x61, 0x62, 0x63, 0x64, 0x62, 0x63, 0x64, 0x65, 0x63, 0x64, 0x65, 0x66, 0x64, 0x65, 0x66, 0x67, 0x65, 0x66, 0x67, 0x68,
    0x66, 0x67, 0x68, 0x69, 0x67, 0x68, 0x69, 0x6a, 0x68, 0x69, 0x6a, 0x6b, 0x69, 0x6a, 0x6b, 0x6c, 0x6a, 0x6b, 0x6c, 0x6d,
    0x6b, 0x6c, 0x6d, 0x6e, 0x6c, 0x6d, 0x6e, 0x6f, 0x6d, 0x6e, 0x6f, 0x70, 0x6e, 0x6f, 0x70, 0x71] =
    0x248d6a61d20638b8e5c026930c3e6039a33ce45964ff2167f6ecedd419db06c1 := by
  rw [← sha256Tab_eq]; decide +kernel

end H2.Sha
