import Mathlib.Data.List.Basic

/-!
# Keccak-256, the specification

Written from the Keccak reference (and FIPS 202, section 3; Keccak-256 is the original submission, with padding `pad10*1` and no
domain separation suffix), independently of the circuit.  Messages are lists of bytes.
-/

set_option autoImplicit false
namespace H2.Kec

/-- A byte. -/
abbrev Byte := BitVec 8
/-- A lane of the state: 64 bits, bit `z` is `getLsbD z`. -/
abbrev Lane := BitVec 64
/-- The state `A[x, y]`, `x, y < 5`. -/
abbrev St := ℕ → ℕ → Lane

/-- FIPS 202, 3.2.1 (steps 1 and 2): the column parities and `D`. -/
def thetaC (A : St) (x : ℕ) : Lane := A x 0 ^^^ A x 1 ^^^ A x 2 ^^^ A x 3 ^^^ A x 4
def thetaD (A : St) (x : ℕ) : Lane := thetaC A ((x + 4) % 5) ^^^ (thetaC A ((x + 1) % 5)).rotateLeft 1
/-- FIPS 202, 3.2.1: theta. -/
def theta (A : St) : St := fun x y => A x y ^^^ thetaD A x

/-- FIPS 202, 3.2.2: the walk `(x, y) := (y, 2x + 3y)` from `(1, 0)` after `t` steps. -/
def rhoWalk : ℕ → ℕ × ℕ
  | 0 => (1, 0)
  | t + 1 => ((rhoWalk t).2, (2 * (rhoWalk t).1 + 3 * (rhoWalk t).2) % 5)

/-- FIPS 202, 3.2.2: the rotation offset of lane `(x, y)`: `(t+1)(t+2)/2 mod 64` for the step `t` that reaches it, 0 for `(0, 0)`. -/
def rhoOff (x y : ℕ) : ℕ :=
  match (List.range 24).find? fun t => rhoWalk t = (x, y) with
  | some t => (t + 1) * (t + 2) / 2 % 64
  | none => 0

/-- FIPS 202, 3.2.2: rho. -/
def rho (A : St) : St := fun x y => (A x y).rotateLeft (rhoOff x y)
/-- FIPS 202, 3.2.3: pi, `A'[x, y] = A[x + 3y, x]`. -/
def pi (A : St) : St := fun x y => A ((x + 3 * y) % 5) x
/-- FIPS 202, 3.2.4: chi. -/
def chi (A : St) : St := fun x y => A x y ^^^ (~~~(A ((x + 1) % 5) y) &&& A ((x + 2) % 5) y)

/-- FIPS 202, 3.2.5, algorithm 5: the linear feedback shift register (bit `i` of the list is `R[i]`) after `t` steps. -/
def lfsr : ℕ → List Bool
  | 0 => [true, false, false, false, false, false, false, false]
  | t + 1 =>
    let R := false :: lfsr t
    let r8 := R.getD 8 false
    let R := R.set 0 (xor (R.getD 0 false) r8)
    let R := R.set 4 (xor (R.getD 4 false) r8)
    let R := R.set 5 (xor (R.getD 5 false) r8)
    let R := R.set 6 (xor (R.getD 6 false) r8)
    R.take 8
/-- FIPS 202, 3.2.5: `rc(t)`. -/
def rc (t : ℕ) : Bool := (lfsr (t % 255)).getD 0 false
/-- FIPS 202, 3.2.5, algorithm 6: the round constant: bit `2^j - 1` is `rc(j + 7 ir)`, `j ≤ 6`. -/
def RC (ir : ℕ) : Lane :=
  (List.range 7).foldl (fun a j => a ||| (if rc (j + 7 * ir) then BitVec.ofNat 64 (2 ^ (2 ^ j - 1)) else 0)) 0
/-- FIPS 202, 3.2.5: iota. -/
def iota (ir : ℕ) (A : St) : St := fun x y => if x = 0 ∧ y = 0 then A 0 0 ^^^ RC ir else A x y

/-- FIPS 202, 3.3: one round. -/
def rnd (ir : ℕ) (A : St) : St := iota ir (chi (pi (rho (theta A))))
/-- The first `t` rounds. -/
def rnds (A : St) : ℕ → St
  | 0 => A
  | t + 1 => rnd t (rnds A t)
/-- Keccak-f[1600]. -/
def keccakF (A : St) : St := rnds A 24

/-- The `i`-th lane of the byte string `l` (little-endian; bytes after the end are 0). -/
def leLane (l : List Byte) (i : ℕ) : Lane :=
  l.getD (8 * i + 7) 0 ++ l.getD (8 * i + 6) 0 ++ l.getD (8 * i + 5) 0 ++ l.getD (8 * i + 4) 0 ++
    l.getD (8 * i + 3) 0 ++ l.getD (8 * i + 2) 0 ++ l.getD (8 * i + 1) 0 ++ l.getD (8 * i) 0

/-- The rate of Keccak-256 in bytes: 1600 - 2 * 256 bits. -/
def rate : ℕ := 136

/-- `pad10*1` on bytes, least significant bit first: a single 0x81 byte or 0x01, zeros, 0x80, up to a multiple of the rate. -/
def pad (m : List Byte) : List Byte :=
  let q := rate - m.length % rate
  m ++ if q = 1 then [0x81] else [0x01] ++ List.replicate (q - 2) 0 ++ [0x80]

/-- The sponge absorbs block `i` of the padded message `l`: the first 17 lanes (lane `x + 5 y`) are xored, then Keccak-f. -/
def absorbBlock (l : List Byte) (i : ℕ) (A : St) : St :=
  keccakF fun x y => if x + 5 * y < 17 then A x y ^^^ leLane l (17 * i + (x + 5 * y)) else A x y
/-- The state after the first `n` blocks. -/
def absorbed (l : List Byte) : ℕ → St
  | 0 => fun _ _ => 0
  | n + 1 => absorbBlock l n (absorbed l n)

/-- The bytes of a lane, little-endian. -/
def laneBytes (w : Lane) : List Byte := (List.range 8).map fun i => w.extractLsb' (8 * i) 8

/-- The state after the whole message. -/
def finalSt (m : List Byte) : St := absorbed (pad m) ((pad m).length / rate)
/-- Keccak-256: the first 32 bytes of the final state. -/
def keccak256 (m : List Byte) : List Byte := (List.range 4).flatMap fun x => laneBytes (finalSt m x 0)

/-- A byte string as a big-endian number. -/
def beNat (l : List Byte) : ℕ := l.foldl (fun a b => 256 * a + b.toNat) 0

/-! Test vectors. -/

/-- Lanes `0, …, 24` as a list (for evaluation). -/
def St.flat (A : St) : List Lane := (List.range 25).map fun i => A (i % 5) (i / 5)
def ofFlat (l : List Lane) : St := fun x y => l.getD (x + 5 * y) 0

end H2.Kec
