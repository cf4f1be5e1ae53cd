import Mathlib.Data.ZMod.Basic
import Mathlib.Algebra.Field.ZMod

/-!
# The SHA-256 circuit (`hashes/zkevm/src/sha256/vanilla`): columns, fixed values and gates

A halo2 gate is a list of polynomials in the cells of a row and of rows at fixed rotations; the circuit is satisfied when every
polynomial vanishes on every row.  Here an `Expression` is modelled by its value: `adv r` / `fx r` are the values of the advice and
fixed columns in row `r` (rotations: `r - 1`, …), and a gate is the list of the values of its polynomials.
The check `validate_degree` (an assertion about the polynomials' degree, not about values) is not modelled.
-/

set_option autoImplicit false
namespace H2.Sha
variable {F : Type} [Field F]

/-! ### `hashes/zkevm/src/util/expression.rs`, `util/mod.rs`, `sha256/vanilla/util.rs` -/

/-- expression.rs:8-10 `sum::expr` -/
def sumE (l : List F) : F := l.foldl (fun acc x => acc + x) 0
/-- expression.rs:26-28 `and::expr` -/
def andE (l : List F) : F := l.foldl (fun acc x => acc * x) 1
/-- expression.rs:62-64 `not::expr` -/
def notE (b : F) : F := 1 - b
/-- expression.rs:78-80 `xor::expr` -/
def xorE (a b : F) : F := a + b - 2 * a * b
/-- expression.rs:95-101 `select::expr` -/
def selE (s t f : F) : F := s * t + (1 - s) * f
/-- expression.rs:127-135 `from_bytes::expr`: little-endian. -/
def fromBytes (l : List F) : F := (l.foldl (fun (acc : F × F) b => (acc.1 + b * acc.2, acc.2 * 256)) (0, 1)).1
/-- util/mod.rs:13-27 `to_bytes::expr`: one chunk of 8 bits, little-endian. -/
def byteOf (bits : List F) : F := (bits.foldl (fun (acc : F × F) b => (acc.1 + b * acc.2, 2 * acc.2)) (0, 1)).1
/-- util/mod.rs:13-27 `to_bytes::expr` (`chunks_exact(8)`: an incomplete last chunk is dropped). -/
def toBytes : List F → List F
  | b0 :: b1 :: b2 :: b3 :: b4 :: b5 :: b6 :: b7 :: t => byteOf [b0, b1, b2, b3, b4, b5, b6, b7] :: toBytes t
  | _ => []
/-- sha256/vanilla/util.rs:25-33 `decode::expr`: big-endian bits. -/
def decode (bits : List F) : F := (bits.reverse.foldl (fun (acc : F × F) b => (acc.1 + b * acc.2, acc.2 * 2)) (0, 1)).1
/-- sha256/vanilla/util.rs:48-52 `rotate::expr` (`slice::rotate_right`). -/
def rotE (bits : List F) (c : ℕ) : List F := bits.drop (bits.length - c) ++ bits.take (bits.length - c)
/-- sha256/vanilla/util.rs:65-69 `shift::expr` -/
def shrE (bits : List F) (c : ℕ) : List F := List.replicate c 0 ++ bits.take (32 - c)
/-- sha256/vanilla/util.rs:82-87 `to_be_bytes::expr` -/
def toBeBytes (bits : List F) : List F := (toBytes bits.reverse).reverse
/-- constraints.rs:100-107: the closure `xor` -/
def xorL (a b : List F) : List F := List.zipWith xorE a b
/-- constraints.rs:109-121: the closure `select` -/
def selL (c t f : List F) : List F := List.zipWith (fun c (tf : F × F) => selE c tf.1 tf.2) c (t.zip f)

/-! ### `util/constraint_builder.rs` -/

/-- constraint_builder.rs:32-40 `require_equal` -/
def reqEq (a b : F) : List F := [a - b]
/-- constraint_builder.rs:42-44 `require_boolean` -/
def reqBool (v : F) : List F := [v * (1 - v)]
/-- constraint_builder.rs:14-16 `require_zero` -/
def reqZero (v : F) : List F := [v]
/-- constraint_builder.rs:46-57, 59-66 `condition`: every constraint added by the closure is multiplied by the condition. -/
def cond (c : F) (l : List F) : List F := l.map (c * ·)
/-- constraint_builder.rs:79-89 `gate` -/
def gate (sel : F) (l : List F) : List F := l.map (sel * ·)

/-! ### Columns and fixed values -/

/-- columns.rs:47-73: the advice columns in one row. -/
structure Row (F : Type) where
  w : ℕ → F
  a : ℕ → F
  e : ℕ → F
  pad : ℕ → F
  isFinal : F
  length : F
  io : F

/-- columns.rs:47-73: the fixed columns in one row. -/
structure Fix (F : Type) where
  (qEnable qFirst qExtend qStart qCompression qEnd qInput qInputLast qSqueeze roundCst hA hE : F)

/-- param.rs:25-34 `ROUND_CST` -/
def ROUND_CST : List ℕ := [
  0x428a2f98, 0x71374491, 0xb5c0fbcf, 0xe9b5dba5, 0x3956c25b, 0x59f111f1, 0x923f82a4, 0xab1c5ed5,
  0xd807aa98, 0x12835b01, 0x243185be, 0x550c7dc3, 0x72be5d74, 0x80deb1fe, 0x9bdc06a7, 0xc19bf174,
  0xe49b69c1, 0xefbe4786, 0x0fc19dc6, 0x240ca1cc, 0x2de92c6f, 0x4a7484aa, 0x5cb0a9dc, 0x76f988da,
  0x983e5152, 0xa831c66d, 0xb00327c8, 0xbf597fc7, 0xc6e00bf3, 0xd5a79147, 0x06ca6351, 0x14292967,
  0x27b70a85, 0x2e1b2138, 0x4d2c6dfc, 0x53380d13, 0x650a7354, 0x766a0abb, 0x81c2c92e, 0x92722c85,
  0xa2bfe8a1, 0xa81a664b, 0xc24b8b70, 0xc76c51a3, 0xd192e819, 0xd6990624, 0xf40e3585, 0x106aa070,
  0x19a4c116, 0x1e376c08, 0x2748774c, 0x34b0bcb5, 0x391c0cb3, 0x4ed8aa4a, 0x5b9cca4f, 0x682e6ff3,
  0x748f82ee, 0x78a5636f, 0x84c87814, 0x8cc70208, 0x90befffa, 0xa4506ceb, 0xbef9a3f7, 0xc67178f2]

/-- param.rs:36-38 `H` -/
def HINIT : List ℕ := [0x6a09e667, 0xbb67ae85, 0x3c6ef372, 0xa54ff53a, 0x510e527f, 0x9b05688c, 0x1f83d9ab, 0x5be0cd19]

/-- `F::from(bool)` -/
def ind (P : Prop) [Decidable P] : F := if P then 1 else 0

/-- witness.rs:142-190 `set_row`: the fixed values at `offset`. -/
def fixedAt (offset : ℕ) : Fix F :=
  let round := offset % 72
  { qEnable := 1
    qFirst := ind (offset = 0)
    qExtend := ind (20 ≤ round ∧ round < 68)
    qStart := ind (round < 4)
    qCompression := ind (4 ≤ round ∧ round < 68)
    qEnd := ind (68 ≤ round)
    qInput := ind (4 ≤ round ∧ round < 20)
    qInputLast := ind (round = 19)
    qSqueeze := ind (round = 71)
    roundCst := if 4 ≤ round ∧ round < 68 then ((ROUND_CST.getD (round - 4) 0 : ℕ) : F) else 0
    hA := if round < 4 then ((HINIT.getD (3 - round) 0 : ℕ) : F) else 0
    hE := if round < 4 then ((HINIT.getD (7 - round) 0 : ℕ) : F) else 0 }

/-- The fixed columns of a circuit with `n` blocks (assigned from offset 0, witness.rs:84-101); cells that are not assigned are 0.
-/
def fixedCols (n : ℕ) (r : ℤ) : Fix F :=
  if 0 ≤ r ∧ r < 72 * n then fixedAt r.toNat else ⟨0, 0, 0, 0, 0, 0, 0, 0, 0, 0, 0, 0⟩

/-! ### Gates (`constraints.rs`) -/

section
variable (fx : ℤ → Fix F) (adv : ℤ → Row F) (r : ℤ)

/-- constraints.rs:71-74: `w_ext` -/
def wExt : List F := (List.range 34).map (adv r).w
/-- constraints.rs:75-80: 32 bits of the column `w` at a rotation (`k = i + 2`). -/
def w32 (r : ℤ) : List F := (List.range 32).map fun i => (adv r).w (i + 2)
/-- constraints.rs:81-91: 32 bits of the column `a` at a rotation (`k = i + 3`). -/
def a32 (r : ℤ) : List F := (List.range 32).map fun i => (adv r).a (i + 3)
def e32 (r : ℤ) : List F := (List.range 32).map fun i => (adv r).e (i + 3)
/-- constraints.rs:92-95: `new_a_ext`, `new_e_ext` -/
def aExt : List F := (List.range 35).map (adv r).a
def eExt : List F := (List.range 35).map (adv r).e
/-- constraints.rs:98-100: `w`, `new_a`, `new_e` are slices of the extended words. -/
def wCur : List F := (wExt adv r).drop 2
def newA : List F := (aExt adv r).drop 3
def newE : List F := (eExt adv r).drop 3

/-- constraints.rs:122-134 "input checks" -/
def gInput : List F :=
  gate (fx r).qEnable (((wExt adv r).flatMap reqBool) ++ ((aExt adv r).flatMap reqBool) ++ ((eExt adv r).flatMap reqBool))

/-- constraints.rs:136-148 "w extend" -/
def gExtend : List F :=
  let w15 := w32 adv (r - 15)
  let w2 := w32 adv (r - 2)
  let s0 := xorL (rotE w15 7) (xorL (rotE w15 18) (shrE w15 3))
  let s1 := xorL (rotE w2 17) (xorL (rotE w2 19) (shrE w2 10))
  let newW := decode (w32 adv (r - 16)) + decode s0 + decode (w32 adv (r - 7)) + decode s1
  gate (fx r).qExtend (reqEq newW (decode (wExt adv r)))

/-- constraints.rs:150-166 "compression" -/
def gCompress : List F :=
  let a := a32 adv (r - 1)
  let b := a32 adv (r - 2)
  let c := a32 adv (r - 3)
  let d := a32 adv (r - 4)
  let e := e32 adv (r - 1)
  let f := e32 adv (r - 2)
  let g := e32 adv (r - 3)
  let h := e32 adv (r - 4)
  let s1 := xorL (rotE e 6) (xorL (rotE e 11) (rotE e 25))
  let ch := selL e f g
  let temp1 := decode h + decode s1 + decode ch + (fx r).roundCst + decode (wCur adv r)
  let s0 := xorL (rotE a 2) (xorL (rotE a 13) (rotE a 22))
  let maj := selL (xorL b c) a b
  let temp2 := decode s0 + decode maj
  gate (fx r).qCompression (reqEq (decode (aExt adv r)) (temp1 + temp2) ++ reqEq (decode (eExt adv r)) (decode d + temp1))

/-- constraints.rs:168-184 "start" -/
def gStart : List F :=
  gate (fx r).qStart
    (reqEq (decode (aExt adv r)) (selE (adv r).isFinal (fx r).hA (decode (a32 adv (r - 4)))) ++
     reqEq (decode (eExt adv r)) (selE (adv r).isFinal (fx r).hE (decode (e32 adv (r - 4)))))

/-- constraints.rs:186-200 "end" -/
def gEnd : List F :=
  gate (fx r).qEnd
    (reqEq (decode (aExt adv r)) (decode (a32 adv (r - 4)) + decode (a32 adv (r - 68))) ++
     reqEq (decode (eExt adv r)) (decode (e32 adv (r - 4)) + decode (e32 adv (r - 68))))

/-- constraints.rs:202-236 "is final" -/
def gFinal : List F :=
  let isPadding := (adv (r - 52 - 2)).pad 3
  gate 1
    (cond (fx r).qFirst (reqEq (adv r).isFinal 1) ++
     cond (fx r).qSqueeze (reqEq (adv r).isFinal isPadding) ++
     cond ((fx r).qStart - (fx r).qFirst) (reqEq (adv r).isFinal (adv (r - 1)).isFinal))

/-- constraints.rs:243: `input_bytes` -/
def inputBytes : List F := toBeBytes (wCur adv r)

/-- constraints.rs:260-301: the constraints for one padding selector. -/
def gPaddingAt (idx : ℕ) : List F :=
  let isPaddingPrev := if idx = 0 then (adv (r - 1)).pad 3 else (adv r).pad (idx - 1)
  let isPadding := (adv r).pad idx
  let isFirst := isPadding - isPaddingPrev
  let isFinalPaddingRow := (adv (r - 2)).pad 3
  cond (fx r).qInput (reqBool isFirst) ++
  cond (andE [(fx r).qInput - (fx r).qInputLast, isPadding]) (reqEq ((inputBytes adv r).getD idx 0) (isFirst * 128)) ++
  cond (andE [(fx r).qInputLast, isPadding, notE isFinalPaddingRow]) (reqEq ((inputBytes adv r).getD idx 0) (isFirst * 128))

/-- constraints.rs:246-316 "padding" -/
def gPadding : List F :=
  gate 1
    ((List.range 4).flatMap (fun i => cond (fx r).qEnable (reqBool ((adv r).pad i))) ++
     (List.range 4).flatMap (gPaddingAt fx adv r) ++
     cond (andE [(fx r).qInputLast, (adv (r - 2)).pad 3]) (reqEq (decode (wCur adv r)) ((adv r).length * 8)))

/-- constraints.rs:321-339 "word_value" -/
def gWordValue : List F :=
  let masked := List.zipWith (fun b pd => b * notE pd) (inputBytes adv r) ((List.range 4).map (adv r).pad)
  gate (fx r).qInput (reqEq (fromBytes masked) (adv r).io)

/-- constraints.rs:341-356 "length" -/
def gLength : List F :=
  gate (fx r).qInput
    (reqEq (adv r).length ((adv (r - 1)).length + sumE ((List.range 4).map fun i => notE ((adv r).pad i))))

/-- constraints.rs:362-391: the closure `add` of "cross block data consistency" -/
def crossAdd (col : Row F → F) : List F :=
  let start := (adv r).isFinal
  cond (fx r).qSqueeze (reqEq (col (adv r)) (col (adv (r - 52)))) ++
  cond ((fx r).qStart - (fx r).qFirst) (reqEq (col (adv r)) (col (adv (r - 1)) * notE start)) ++
  cond (fx r).qFirst (reqEq (col (adv r)) 0)

/-- constraints.rs:359-395 "cross block data consistency" -/
def gCross : List F := gate 1 (crossAdd fx adv r (·.length) ++ crossAdd fx adv r fun x => x.pad 3)

/-- constraints.rs:396-416 "squeeze" (word.rs:283-293 `to_word`: two chunks of 16 bytes, little-endian) -/
def gSqueeze : List F :=
  let parts := [newA adv r, a32 adv (r - 1), a32 adv (r - 2), a32 adv (r - 3), newE adv r, e32 adv (r - 1), e32 adv (r - 2), e32 adv (r - 3)]
  let le := (parts.flatMap toBeBytes).reverse
  gate (fx r).qSqueeze
    (cond (adv r).isFinal (reqEq (fromBytes (le.take 16)) (adv r).io ++ reqEq (fromBytes (le.drop 16)) (adv (r - 1)).io))

/-- constraints.rs:419-494 "unused is zero" -/
def gUnused : List F :=
  let x := fx r
  let y := adv r
  gate x.qEnable
    (cond (notE x.qExtend) (reqZero (y.w 0) ++ reqZero (y.w 1)) ++
     cond (x.qStart + x.qEnd) ((List.range 32).flatMap fun k => reqZero (y.w (k + 2))) ++
     cond (x.qCompression + x.qEnd - x.qSqueeze) (reqZero y.isFinal) ++
     cond (notE x.qInput) ((List.range 3).flatMap fun k => reqZero (y.pad k)) ++
     cond (x.qExtend + x.qEnd - x.qSqueeze) (reqZero (y.pad 3)) ++
     cond (notE (x.qInput + (fx (r + 1)).qSqueeze + x.qSqueeze)) (reqZero y.io) ++
     cond (x.qExtend + x.qEnd - x.qSqueeze) (reqZero y.length))

/-- constraints.rs:29-519 `Sha256CircuitConfig::new`: all gates in row `r`. -/
def gates : List F :=
  gInput fx adv r ++ gExtend fx adv r ++ gCompress fx adv r ++ gStart fx adv r ++ gEnd fx adv r ++ gFinal fx adv r ++
  gPadding fx adv r ++ gWordValue fx adv r ++ gLength fx adv r ++ gCross fx adv r ++ gSqueeze fx adv r ++ gUnused fx adv r

end

/-- The circuit with `n` blocks is satisfied by the advice `adv`: every polynomial of every gate vanishes in every assigned row.
(In the proof system the rows wrap around and the gates are also enforced in the unassigned rows: that only adds constraints; see
`unassigned_rows`.) -/
def ShaSat (n : ℕ) (adv : ℤ → Row F) : Prop := ∀ r : ℕ, r < 72 * n → ∀ c ∈ gates (fixedCols n) adv r, c = 0

/-! ### The cells handed to the caller (witness.rs:58-75, 103-129) -/

/-- `AssignedSha256Block`, as values. -/
structure Block (F : Type) where
  isFinal : F
  outputLo : F
  outputHi : F
  wordValues : List F
  length : F

/-- witness.rs:104-128: the cells of block `b`. -/
def blockAt (adv : ℤ → Row F) (b : ℕ) : Block F :=
  { isFinal := (adv (72 * b + 71)).isFinal
    outputLo := (adv (72 * b + 71)).io
    outputHi := (adv (72 * b + 70)).io
    wordValues := (List.range 16).map fun (i : ℕ) => (adv (72 * b + 4 + (i : ℤ))).io
    length := (adv (72 * b + 19)).length }

end H2.Sha
