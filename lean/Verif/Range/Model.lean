import Verif.Gate.Model

/-!
# Model of `RangeInstructions` / `RangeChip` (halo2-base/src/gates/range/mod.rs)

`L` is `lookup_bits`.  The constructor divides by `lookup_bits` and computes `1u64 << lookup_bits`
(mod.rs:538-541), so a chip exists only for `1 ≤ L` and (without overflow) `L < 64`; theorems carry these
as hypotheses (`RangeOk`).
-/

set_option autoImplicit false
namespace H2
variable {p : ℕ} [Fact p.Prime]

/-- `RangeChip::new(..).limb_bases` (mod.rs:537-552) as the list of the constants: `2^(L i)` for
`i ≤ CAPACITY / L`, but at least the two initial elements. -/
def limbBases (p L : ℕ) : List (ZMod p) :=
  (List.range (max 2 (capacity p / L + 1))).map (fun i : ℕ => ((2 ^ L : ℕ) : ZMod p) ^ i)

/-- `gate.pow_of_two[n]`, panics when out of bounds. -/
def pow2At (n : ℕ) : M p (ZMod p) := unwrap ((powOfTwo p)[n]?)

/-- `biguint_to_fe(&e)` (utils/mod.rs:195-198): `from_repr(..).unwrap()` panics on a non-canonical value. -/
def bigToFe (n : ℕ) : M p (ZMod p) := if n < p then pure (n : ZMod p) else panic

/-- `(n + L - 1) / L`. -/
def ceilDiv (n L : ℕ) : ℕ := (n + L - 1) / L

/-- `for i in .. { self.add_cell_to_lookup(ctx, ctx.get(..)) }` (mod.rs:602-605). -/
def lookupsAt : List ℤ → M p Unit
  | [] => pure ()
  | o :: os => do
    let c ← getM o
    addCellToLookup c
    lookupsAt os

/-- The `if num_limbs == 1 { .. } else { .. }` of `_range_check` (mod.rs:590-607); returns the last limb. -/
def rangeLimbs (L : ℕ) (a : AV p) (k : ℕ) : M p (AV p) :=
  if k = 1 then do
    addCellToLookup a
    pure a
  else do
    let x ← unwrap a.val?
    let row ← adviceLen
    let bases ← sliceTo (limbBases p L) k
    let acc ← innerProduct ((limbsOf x.val k L).map (fun b : ℕ => .witness (b : ZMod p)))
      (bases.map .constant)
    constrainEqual a acc
    lookupsAt ((row : ℤ) :: (List.range (k - 1)).map (fun i : ℕ => ((row + 1 + 3 * i : ℕ) : ℤ)))
    getM ((row + 1 + 3 * (k - 2) : ℕ) : ℤ)

/-- The `match rem_bits.cmp(&1)` of `_range_check` (mod.rs:610-627). -/
def rangeRem (L : ℕ) (last : AV p) (rem : ℕ) : M p Unit :=
  if rem = 1 then assertBit last
  else if 1 < rem then do
    let m ← pow2At (L - rem)
    let check ← mul (.existing last) (.constant m)
    addCellToLookup check
  else pure ()

/-- `RangeChip::_range_check` (mod.rs:576-628).  `debug_assert!(limb_bases.len() >= num_limbs)` is implied by
the slice `limb_bases[..num_limbs]`, which panics in every build. -/
def rangeCheckLimb (L : ℕ) (a : AV p) (rangeBits : ℕ) : M p (AV p) :=
  if rangeBits = 0 then do
    assertIsConst a 0
    pure a
  else do
    let last ← rangeLimbs L a (ceilDiv rangeBits L)
    rangeRem L last (rangeBits % L)
    pure last

/-- `range_check` (mod.rs:690-692). -/
def rangeCheck (L : ℕ) (a : AV p) (rangeBits : ℕ) : M p Unit := do
  let _ ← rangeCheckLimb L a rangeBits
  pure ()

/-- `check_less_than` (mod.rs:703-730). -/
def checkLessThan (L : ℕ) (a b : QCell p) (n : ℕ) : M p Unit := do
  let pw ← pow2At n
  let x ← unwrap a.val?
  let y ← unwrap b.val?
  assignRegion [.witness (pw + x - y), b, .constant 1, .witness (pw + x), .constant (-pw), .constant 1, a]
    [0, 3]
  let c ← getM (-7)
  rangeCheck L c n

/-- `check_less_than_safe` (mod.rs:201-207): `b: u64`, `bit_length(b)` is `Nat.size` (proved in
`Verif/Utils`), `F::from(b)` is the residue. -/
def checkLessThanSafe (L : ℕ) (a : AV p) (b : ℕ) : M p Unit := do
  let rb := ceilDiv (Nat.size b) L * L
  rangeCheck L a rb
  checkLessThan L (.existing a) (.constant (b : ZMod p)) rb

/-- `check_big_less_than_safe` (mod.rs:216-225). -/
def checkBigLessThanSafe (L : ℕ) (a : AV p) (b : ℕ) : M p Unit := do
  let rb := ceilDiv (Nat.size b) L * L
  rangeCheck L a rb
  let bf ← bigToFe b
  checkLessThan L (.existing a) (.constant bf) rb

/-- `is_less_than` (mod.rs:741-782).  The `debug_assert!` is a hypothesis of the theorems. -/
def isLessThan (L : ℕ) (a b : QCell p) (n : ℕ) : M p (AV p) := do
  let padded := ceilDiv n L * L
  let pw ← pow2At padded
  let x ← unwrap a.val?
  let y ← unwrap b.val?
  assignRegion [.witness (pw + x - y), b, .constant 1, .witness (pw + x), .constant (-pw), .constant 1, a]
    [0, 3]
  let c ← getM (-7)
  let last ← rangeCheckLimb L c (padded + L)
  isZero last

/-- `is_less_than_safe` (mod.rs:248-258). -/
def isLessThanSafe (L : ℕ) (a : AV p) (b : ℕ) : M p (AV p) := do
  let rb := ceilDiv (Nat.size b) L * L
  rangeCheck L a rb
  isLessThan L (.existing a) (.constant (b : ZMod p)) rb

/-- `is_big_less_than_safe` (mod.rs:268-282). -/
def isBigLessThanSafe (L : ℕ) (a : AV p) (b : ℕ) : M p (AV p) := do
  let rb := ceilDiv (Nat.size b) L * L
  rangeCheck L a rb
  let bf ← bigToFe b
  isLessThan L (.existing a) (.constant bf) rb

/-- `div_mod` (mod.rs:294-321).  `div_mod_floor` panics when `b = 0`. -/
def divMod (L : ℕ) (a : QCell p) (b : ℕ) (n : ℕ) : M p (AV p × AV p) := do
  let x ← unwrap a.val?
  assertM (decide (b ≠ 0))
  let div ← bigToFe (x.val / b)
  let rem ← bigToFe (x.val % b)
  let bf ← bigToFe b
  assignRegion [.witness rem, .constant bf, .witness div, a] [0]
  let rem ← getM (-4)
  let div ← getM (-2)
  checkBigLessThanSafe L div (2 ^ n / b + 1)
  checkBigLessThanSafe L rem b
  pure (div, rem)

/-- The `if a_num_bits <= b_num_bits` of `div_mod_var` (mod.rs:369-373). -/
def divModVarHi (L : ℕ) (divHi : AV p) (an bn : ℕ) : M p Unit :=
  if an ≤ bn then assertIsConst divHi 0 else rangeCheck L divHi (an - bn)

/-- `div_mod_var` (mod.rs:344-390). -/
def divModVar (L : ℕ) (a b : QCell p) (an bn : ℕ) : M p (AV p × AV p) := do
  let x ← unwrap a.val?
  let y ← unwrap b.val?
  assertM (decide (y.val ≠ 0))
  let d := x.val / y.val
  let xfe ← pow2At bn
  let div ← bigToFe d
  let divHi ← bigToFe (d / 2 ^ bn)
  let divLo ← bigToFe (d % 2 ^ bn)
  let rem ← bigToFe (x.val % y.val)
  assignRegion [.witness divLo, .witness divHi, .constant xfe, .witness div, .witness rem] [0]
  let divLo ← getM (-5)
  let divHi ← getM (-4)
  let div ← getM (-2)
  let rem ← getM (-1)
  rangeCheck L divLo bn
  divModVarHi L divHi an bn
  let bcr0 ← mulAdd b (.existing divLo) (.existing rem)
  let (bcr0Hi, bcr0Lo) ← divMod L (.existing bcr0) (2 ^ bn) an
  let bcrHi ← mulAdd b (.existing divHi) (.existing bcr0Hi)
  let (aHi, aLo) ← divMod L a (2 ^ bn) an
  constrainEqual bcrHi aHi
  constrainEqual bcr0Lo aLo
  rangeCheck L rem bn
  checkLessThan L (.existing rem) b bn
  pure (div, rem)

/-- `get_last_bit` (mod.rs:397-415).  `limb_bits - 1` on `usize`: panic (or a huge range, whose limb slice
panics) when `limb_bits = 0`. -/
def getLastBit (L : ℕ) (a : AV p) (limbBits : ℕ) : M p (AV p) := do
  let x ← unwrap a.val?
  assignRegion [.witness ((x.val % 2 : ℕ) : ZMod p), .witness ((x.val / 2 : ℕ) : ZMod p), .constant 2,
    .existing a] [0]
  let half ← getM (-3)
  let bit ← getM (-4)
  assertM (decide (limbBits ≠ 0))
  rangeCheck L half (limbBits - 1)
  assertBit bit
  pure bit

/-- `pow_of_two().iter().step_by(limb_bits).take(n)` (mod.rs:437-443, 474-480); `step_by(0)` panics. -/
def powStep (limbBits n : ℕ) : M p (List (ZMod p)) :=
  if limbBits = 0 then panic
  else pure (((List.range (ceilDiv (numBits p) limbBits)).map (fun i : ℕ => (2 : ZMod p) ^ (limbBits * i))).take n)

/-- `for limb in &limbs_le { self.range_check(ctx, *limb, limb_bits) }` (mod.rs:447-449). -/
def rangeChecks (L : ℕ) : List (AV p) → ℕ → M p Unit
  | [], _ => pure ()
  | a :: as, n => do
    rangeCheck L a n
    rangeChecks L as n

/-- `decompose_le` (mod.rs:425-451).  `inner_product` zips, so its length is that of the shorter operand; it
debug-asserts (`izip` without check in release) equality of the lengths: the theorems assume
`num_limbs * limb_bits ≤ NUM_BITS + limb_bits - 1`, i.e. enough powers. -/
def decomposeLe (L : ℕ) (num : AV p) (limbBits numLimbs : ℕ) : M p (List (AV p)) := do
  let pows ← powStep limbBits numLimbs
  let x ← unwrap num.val?
  let (acc, limbs) ← innerProductLeft
    ((limbsOf x.val numLimbs limbBits).map (fun b : ℕ => .witness (b : ZMod p))) (pows.map .constant)
  constrainEqual acc num
  rangeChecks L limbs limbBits
  pure limbs

/-- `limbs_to_num` (mod.rs:463-482). -/
def limbsToNum (limbs : List (AV p)) (limbBits : ℕ) : M p (AV p) := do
  let pows ← powStep limbBits limbs.length
  innerProduct (limbs.map .existing) (pows.map .constant)

/-- `const_right_rotate_internal` (mod.rs:634-663).  Note that the code binds
`let (val_r, val_l) = val.div_mod_floor(&(1 << bit))`, i.e. `val_r` is the *quotient* and `val_l` the
*remainder*; the model follows the code. -/
def rotRightInternal (L : ℕ) (a : AV p) (bit n : ℕ) : M p (AV p) := do
  assertM (decide (0 < n ∧ n ≤ capacity p))
  let x ← unwrap a.val?
  assertM (decide (Nat.size x.val ≤ n))
  let valR := x.val / 2 ^ bit
  let valL := x.val % 2 ^ bit
  let lf ← bigToFe valL
  let l ← loadWitness lf
  let rf ← bigToFe valR
  let r ← loadWitness rf
  let pb ← pow2At bit
  let v ← mulAdd (.existing l) (.constant pb) (.existing r)
  rangeCheck L l (n - bit)
  rangeCheck L r bit
  constrainEqual a v
  let pnb ← pow2At (n - bit)
  mulAdd (.existing r) (.constant pnb) (.existing l)

/-- `const_right_rotate::<BIT, NUM_BITS>` (mod.rs:784-798); `BIT % 0` panics. -/
def constRightRotate (L : ℕ) (a : AV p) (bit n : ℕ) : M p (AV p) :=
  if n = 0 then panic
  else if bit % n = 0 then pure a else rotRightInternal L a (bit % n) n

/-- `const_left_rotate::<BIT, NUM_BITS>` (mod.rs:800-815). -/
def constLeftRotate (L : ℕ) (a : AV p) (bit n : ℕ) : M p (AV p) :=
  if n = 0 then panic
  else if bit % n = 0 then pure a else rotRightInternal L a (n - bit % n) n

end H2
