import Verif.Core.Context
import Mathlib.Data.Nat.Size

/-!
# Model of `GateInstructions` / `GateChip` (halo2-base/src/gates/flex_gate/mod.rs)

Rust iterators are lists; an iterator closure that calls `value()` is evaluated in the same order.
`a: impl Into<QuantumCell<F>>` is a `QCell`.
-/

set_option autoImplicit false
namespace H2
variable {p : ℕ} [Fact p.Prime]

/-- `F::NUM_BITS` of the prime field. -/
def numBits (p : ℕ) : ℕ := Nat.size p
/-- `F::CAPACITY = NUM_BITS - 1`. -/
def capacity (p : ℕ) : ℕ := numBits p - 1

/-- `GateChip::new().pow_of_two` (mod.rs:951-960): `2^i` for `i < NUM_BITS` (every prime has at least 2
bits, so the two initial pushes are never in excess). -/
def powOfTwo (p : ℕ) : List (ZMod p) := (List.range (numBits p)).map (fun i : ℕ => (2 : ZMod p) ^ i)

/-- Slicing `v[..n]`, panics when `n > v.len()`. -/
def sliceTo {α : Type} (l : List α) (n : ℕ) : M p (List α) :=
  if n ≤ l.length then pure (l.take n) else panic

/-- `iter.map(|i| ctx.get(i)).collect()`. -/
def getsM : List ℤ → M p (List (AV p))
  | [] => pure []
  | o :: os => do
    let a ← getM o
    let as ← getsM os
    pure (a :: as)

/-- Gate offsets `(0..len).map(|i| 3 * i)`. -/
def offs3 (n : ℕ) : List ℤ := (List.range n).map (fun i : ℕ => 3 * (i : ℤ))

/-- `add` (mod.rs:157-168). -/
def add (a b : QCell p) : M p (AV p) := do
  let x ← unwrap a.val?
  let y ← unwrap b.val?
  assignRegionLast [a, b, .constant 1, .witness (x + y)] [0]

/-- `inc` (mod.rs:174-176). -/
def inc (a : QCell p) : M p (AV p) := add a (.constant 1)

/-- `sub` (mod.rs:184-196). -/
def sub (a b : QCell p) : M p (AV p) := do
  let x ← unwrap a.val?
  let y ← unwrap b.val?
  assignRegion [.witness (x - y), b, .constant 1, a] [0]
  getM (-4)

/-- `dec` (mod.rs:202-204). -/
def dec (a : QCell p) : M p (AV p) := sub a (.constant 1)

/-- `sub_mul` (mod.rs:213-226). -/
def subMul (a b c : QCell p) : M p (AV p) := do
  let x ← unwrap a.val?
  let y ← unwrap b.val?
  let z ← unwrap c.val?
  let _ ← assignRegionLast [.witness (x - y * z), b, c, a] [0]
  getM (-4)

/-- `neg` (mod.rs:233-238). -/
def neg (a : QCell p) : M p (AV p) := do
  let x ← unwrap a.val?
  assignRegion [a, .witness (-x), .constant 1, .constant 0] [0]
  getM (-3)

/-- `mul` (mod.rs:246-256). -/
def mul (a b : QCell p) : M p (AV p) := do
  let x ← unwrap a.val?
  let y ← unwrap b.val?
  assignRegionLast [.constant 0, a, b, .witness (x * y)] [0]

/-- `mul_add` (mod.rs:265-277). -/
def mulAdd (a b c : QCell p) : M p (AV p) := do
  let x ← unwrap a.val?
  let y ← unwrap b.val?
  let z ← unwrap c.val?
  assignRegionLast [c, a, b, .witness (x * y + z)] [0]

/-- `mul_not` (mod.rs:285-296). -/
def mulNot (a b : QCell p) : M p (AV p) := do
  let x ← unwrap a.val?
  let y ← unwrap b.val?
  assignRegionSmart [.witness ((1 - x) * y), a, b, b] [0] [(2, 3)] []
  getM (-4)

/-- `assert_bit` (mod.rs:303-305). -/
def assertBit (x : AV p) : M p Unit :=
  assignRegion [.constant 0, .existing x, .existing x, .existing x] [0]

/-- `Field::invert().unwrap()`. -/
def invertUnwrap (x : ZMod p) : M p (ZMod p) := if x = 0 then panic else pure x⁻¹

/-- `div_unsafe` (mod.rs:315-328). -/
def divUnsafe (a b : QCell p) : M p (AV p) := do
  let y ← unwrap b.val?
  let yi ← invertUnwrap y
  let x ← unwrap a.val?
  assignRegion [.constant 0, .witness (yi * x), b, a] [0]
  getM (-3)

/-- The `flat_map` closure of `sum` / `partial_sums` (mod.rs:427-431, 457-461). -/
def sumBody (sum : ZMod p) : List (QCell p) → M p (List (QCell p))
  | [] => pure []
  | a :: l => do
    let x ← unwrap a.val?
    let rest ← sumBody (sum + x) l
    pure (a :: .constant 1 :: .witness (sum + x) :: rest)

/-- `sum` (mod.rs:411-433). -/
def sum (l : List (QCell p)) : M p (AV p) :=
  match l with
  | [] => loadZero
  | [start] => assignRegionLast [start] []
  | start :: a => do
    let x ← unwrap start.val?
    let cells ← sumBody x a
    assignRegionLast (start :: cells) (offs3 a.length)

/-- `partial_sums` (mod.rs:440-464). -/
def partialSums (l : List (QCell p)) : M p (List (AV p)) :=
  match l with
  | [] => do let z ← loadZero; pure [z]
  | [start] => do let r ← assignRegionLast [start] []; pure [r]
  | start :: a => do
    let x ← unwrap start.val?
    let cells ← sumBody x a
    assignRegion (start :: cells) (offs3 a.length)
    getsM ((List.range (a.length + 1)).reverse.map (fun i : ℕ => -1 - 3 * (i : ℤ)))

/-- The `successors` loop of `accumulated_product` (mod.rs:497-499). -/
def accProdLoop (x : AV p) : List (QCell p × QCell p) → M p (List (AV p))
  | [] => pure []
  | (a, b) :: l => do
    let y ← mulAdd (.existing x) a b
    let rest ← accProdLoop y l
    pure (y :: rest)

/-- `accumulated_product` (mod.rs:482-504). -/
def accumulatedProduct (a b : List (QCell p)) : M p (List (AV p)) :=
  match b with
  | [] => pure []
  | b0 :: bs => do
    let x ← assignRegionLast [b0] []
    let rest ← accProdLoop x (a.zip bs)
    pure (x :: rest)

/-- `or` (mod.rs:524-547). -/
def or (a b : QCell p) : M p (AV p) := do
  let y ← unwrap b.val?
  let x ← unwrap a.val?
  assignRegionSmart
    [.witness (1 - y), .constant 1, b, .constant 1, b, a, .witness (1 - y), .witness (x + y - x * y)]
    [0, 4] [(0, 6), (2, 4)] []
  lastM

/-- `and` (mod.rs:555-562). -/
def and (a b : QCell p) : M p (AV p) := mul a b

/-- `xor` (mod.rs:570-593). -/
def xor (a b : QCell p) : M p (AV p) := do
  let y ← unwrap b.val?
  let x ← unwrap a.val?
  assignRegionSmart
    [.witness (1 - 2 * y), .constant 2, b, .constant 1, b, a, .witness (1 - 2 * y),
     .witness (x + y - 2 * x * y)]
    [0, 4] [(0, 6), (2, 4)] []
  lastM

/-- `not` (mod.rs:600-602). -/
def not (a : QCell p) : M p (AV p) := sub (.constant 1) a

/-- `select` (mod.rs:1179-1207). -/
def select (a b sel : QCell p) : M p (AV p) := do
  let x ← unwrap a.val?
  let y ← unwrap b.val?
  let z ← unwrap sel.val?
  assignRegionSmart
    [.witness (x - y), .constant 1, b, a, b, sel, .witness (x - y), .witness ((x - y) * z + y)]
    [0, 4] [(0, 6), (2, 4)] []
  lastM

/-- `or_and` (mod.rs:1214-1245). -/
def orAnd (a b c : QCell p) : M p (AV p) := do
  let y ← unwrap b.val?
  let z ← unwrap c.val?
  let x ← unwrap a.val?
  assignRegionSmart
    [.witness (1 - y * z), b, c, .constant 1, .witness (x - 1), .witness (1 - y * z),
     .witness (y * z + x - y * z * x), .witness (x - 1), .constant 1, .constant 1, a]
    [0, 3, 7] [(4, 7), (0, 5)] []
  getM (-5)

/-- `(is_zero, inv)` witnesses (mod.rs:704-708, 820-824). -/
def isZeroWitness (x : ZMod p) : ZMod p × Assigned p :=
  if x = 0 then (1, .trivial 1) else (0, .rational 1 x)

/-- `is_zero` (mod.rs:818-838). -/
def isZero (a : AV p) : M p (AV p) := do
  let x ← unwrap a.val?
  let z := isZeroWitness x
  assignRegionSmart
    [.witness z.1, .existing a, .witnessFraction z.2, .constant 1, .constant 0, .existing a,
     .witness z.1, .constant 0]
    [0, 4] [(0, 6)] []
  getM (-2)

/-- `is_equal` (mod.rs:844-852). -/
def isEqual (a b : QCell p) : M p (AV p) := do
  let d ← sub a b
  isZero d

/-- Inner loop `for old_idx in 0..(1 << idx)` of `bits_to_indicator` (mod.rs:665-682); `ind` is the
growing `indicator` vector. -/
def indicatorInner (bit : AV p) (offset : ℕ) : List ℕ → List (AV p) → M p (List (AV p))
  | [], ind => pure ind
  | old :: olds, ind => do
    let e ← unwrap ind[offset + old]?
    let bv ← unwrap bit.val?
    let ev ← unwrap e.val?
    assignRegion [.witness ((1 - bv) * ev), .existing e, .existing bit, .existing e] [0]
    let x ← getM (-4)
    let ind := ind ++ [x]
    let e ← unwrap ind[offset + old]?
    let y ← mul (.existing e) (.existing bit)
    indicatorInner bit offset olds (ind ++ [y])

/-- Outer loop of `bits_to_indicator` (mod.rs:664-684) over the remaining bits (in reverse order), `idx` the
enumerate index. -/
def indicatorOuter : List (AV p) → ℕ → ℕ → List (AV p) → M p (List (AV p))
  | [], _, _, ind => pure ind
  | bit :: bits, idx, offset, ind => do
    let ind ← indicatorInner bit offset (List.range (2 ^ idx)) ind
    indicatorOuter bits (idx + 1) (offset + 2 ^ idx) ind

/-- `bits_to_indicator` (mod.rs:638-686). -/
def bitsToIndicator (bits : List (AV p)) : M p (List (AV p)) :=
  match bits.reverse with
  | [] => panic
  | last :: rest => do
    let x ← unwrap last.val?
    assignRegion [.witness (1 - x), .existing last, .constant 1, .constant 1] [0]
    let inv ← getM (-4)
    let lb ← getM (-3)
    let ind ← indicatorOuter rest 1 0 [inv, lb]
    pure (ind.drop (2 ^ bits.length - 2))

/-- The iterations `i > 0` of `idx_to_indicator` (mod.rs:721-724). -/
def idxToIndicatorLoop (idx : AV p) : List ℕ → M p (List (AV p))
  | [] => pure []
  | i :: is => do
    let r ← isEqual (.existing idx) (.constant (i : ZMod p))
    let rest ← idxToIndicatorLoop idx is
    pure (r :: rest)

/-- `idx_to_indicator` (mod.rs:693-727). `F::from(i as u64)` is the cast `ℕ → ZMod p`. -/
def idxToIndicator (idx : QCell p) (len : ℕ) : M p (List (AV p)) :=
  match len with
  | 0 => pure []
  | n + 1 => do
    let x ← unwrap idx.val?
    let z := isZeroWitness x
    assignRegionSmart
      [.witness z.1, idx, .witnessFraction z.2, .constant 1, .constant 0, idx, .witness z.1,
       .constant 0]
      [0, 4] [(0, 6), (1, 5)] []
    let idx' ← getM (-3)
    let r ← getM (-2)
    let rest ← idxToIndicatorLoop idx' ((List.range n).map (· + 1))
    pure (r :: rest)

/-- `sum = if ind.value().is_zero_vartime() { sum } else { *a.value() }` (mod.rs:753). -/
def selStep (sum y : ZMod p) (a : QCell p) : M p (ZMod p) :=
  if y = 0 then pure sum else unwrap a.val?

/-- The closure of `select_by_indicator` (mod.rs:751-756). -/
def selBody (sum : ZMod p) : List (QCell p × AV p) → M p (List (QCell p))
  | [] => pure []
  | (a, ind) :: l => do
    let y ← unwrap ind.val?
    let sum' ← selStep sum y a
    let rest ← selBody sum' l
    pure (a :: .existing ind :: .witness sum' :: rest)

/-- `select_by_indicator` (mod.rs:736-758). -/
def selectByIndicator (a : List (QCell p)) (ind : List (AV p)) : M p (AV p) := do
  let cells ← selBody 0 (a.zip ind)
  assignRegionLast (.constant 0 :: cells) (offs3 a.length)

/-- `select_from_idx` (mod.rs:766-781). -/
def selectFromIdx (cells : List (QCell p)) (idx : QCell p) : M p (AV p) := do
  let ind ← idxToIndicator idx cells.length
  selectByIndicator cells ind

/-- `array2d.iter().map(|array_i| array_i[j])` (mod.rs:805): panics when some row is too short. -/
def column (array2d : List (List (AV p))) (j : ℕ) : M p (List (QCell p)) :=
  match array2d with
  | [] => pure []
  | r :: rs => do
    let x ← unwrap r[j]?
    let xs ← column rs j
    pure (.existing x :: xs)

/-- Loop of `select_array_by_indicator` (mod.rs:801-810). -/
def selectArrayLoop (array2d : List (List (AV p))) (ind : List (AV p)) : List ℕ → M p (List (AV p))
  | [] => pure []
  | j :: js => do
    let col ← column array2d j
    let r ← selectByIndicator col ind
    let rest ← selectArrayLoop array2d ind js
    pure (r :: rest)

/-- `select_array_by_indicator` (mod.rs:791-811). -/
def selectArrayByIndicator (array2d : List (List (AV p))) (ind : List (AV p)) : M p (List (AV p)) :=
  match array2d with
  | [] => panic
  | r :: rs => selectArrayLoop (r :: rs) ind (List.range r.length)

/-- The `flat_map` closure of `inner_product_simple` (mod.rs:1000-1004). -/
def ipBody (sum : ZMod p) : List (QCell p × QCell p) → M p (List (QCell p))
  | [] => pure []
  | (a, b) :: l => do
    let x ← unwrap a.val?
    let y ← unwrap b.val?
    let rest ← ipBody (sum + x * y) l
    pure (a :: b :: .witness (sum + x * y) :: rest)

/-- `matches!(b.peek(), Some(Constant(c)) if c == &F::ONE)` (mod.rs:989). -/
def startsWithOne : List (QCell p) → Bool
  | .constant c :: _ => decide (c = 1)
  | _ => false

/-- The list of cells built by `inner_product_simple` (mod.rs:990-1005). -/
def ipCells (a b : List (QCell p)) : M p (List (QCell p)) :=
  if startsWithOne b then do
    let a0 ← unwrap a.head?
    let x ← unwrap a0.val?
    let rest ← ipBody x (a.tail.zip b.tail)
    pure (a0 :: rest)
  else do
    let rest ← ipBody 0 (a.zip b)
    pure (.constant 0 :: rest)

/-- The region of `inner_product_simple` (mod.rs:1007-1014). -/
def ipRegion (cells : List (QCell p)) (wgo : Bool) : M p Unit :=
  if wgo then assignRegion cells [] else assignRegion cells (offs3 (cells.length / 3))

/-- `GateChip::inner_product_simple` (mod.rs:975-1016). -/
def innerProductSimple (a b : List (QCell p)) : M p Bool := do
  let cells ← ipCells a b
  let wgo ← getWgo
  ipRegion cells wgo
  pure (startsWithOne b)

/-- `inner_product` (mod.rs:1033-1044). -/
def innerProduct (a b : List (QCell p)) : M p (AV p) := do
  let _ ← innerProductSimple a b
  lastM

/-- `a_last` of `inner_product_left_last` (mod.rs:1069-1077).  `len - 1`, `len - 2` on `usize`: for
`len = 0` the subtraction overflows, modelled as a panic (in a release build the wrapped index fails the
bounds assert of `get`). -/
def ipLastCell (row len : ℕ) (one : Bool) : M p (AV p) :=
  if one then
    if len = 1 then getM (row : ℤ)
    else if len = 0 then panic else getM ((row + 1 + 3 * (len - 2) : ℕ) : ℤ)
  else if len = 0 then panic else getM ((row + 1 + 3 * (len - 1) : ℕ) : ℤ)

/-- `inner_product_left_last` (mod.rs:1056-1079). -/
def innerProductLeftLast (a b : List (QCell p)) : M p (AV p × AV p) := do
  let row ← adviceLen
  let one ← innerProductSimple a b
  let aLast ← ipLastCell row a.length one
  let r ← lastM
  pure (r, aLast)

/-- Row of `a[i]` in the region laid out by `inner_product_simple` (mod.rs:1104-1112). -/
def ipRow (one : Bool) (i : ℕ) : ℕ :=
  if one then (if i = 0 then 0 else 1 + 3 * (i - 1)) else 1 + 3 * i

/-- `inner_product_left` (mod.rs:1091-1117). -/
def innerProductLeft (a b : List (QCell p)) : M p (AV p × List (AV p)) := do
  let row ← adviceLen
  let one ← innerProductSimple a b
  let as ← getsM ((List.range a.length).map (fun i : ℕ => ((row + ipRow one i : ℕ) : ℤ)))
  let r ← lastM
  pure (r, as)

/-- Rows `(row..end).step_by(3)` (mod.rs:1141, 1144). -/
def stepBy3 (lo hi : ℕ) : List ℕ := (List.range ((hi - lo + 2) / 3)).map (fun i => lo + 3 * i)

/-- `inner_product_with_sums` (mod.rs:1128-1146). -/
def innerProductWithSums (a b : List (QCell p)) : M p (List (AV p)) := do
  let row ← adviceLen
  let one ← innerProductSimple a b
  let hi ← adviceLen
  if one then getsM ((stepBy3 row hi).map (fun i : ℕ => (i : ℤ)))
  else getsM (((stepBy3 row hi).drop 1).map (fun i : ℕ => (i : ℤ)))

/-- The `filter_map` of `sum_products_with_coeff_and_var` (mod.rs:1160-1171). -/
def spBody : List (ZMod p × QCell p × QCell p) → M p (List (QCell p × QCell p))
  | [] => pure []
  | (c, va, vb) :: l => do
    if c = 1 then do
      let rest ← spBody l
      pure ((va, vb) :: rest)
    else if c ≠ 0 then do
      let prod ← mul va vb
      let rest ← spBody l
      pure ((.existing prod, .constant c) :: rest)
    else spBody l

/-- `sum_products_with_coeff_and_var` (mod.rs:1152-1174). -/
def sumProductsWithCoeffAndVar (values : List (ZMod p × QCell p × QCell p)) (var : QCell p) :
    M p (AV p) := do
  let l ← spBody values
  innerProduct (var :: l.map Prod.fst) (.constant 1 :: l.map Prod.snd)

/-- `for bit_cell in &bit_cells { assert_bit }` (mod.rs:1273-1275). -/
def assertBits : List (AV p) → M p Unit
  | [] => pure ()
  | x :: xs => do assertBit x; assertBits xs

/-- Little-endian base-`2^b` digits: what `to_u64_limbs(k, b)` returns for the integer `n`
(utils/mod.rs; the word-level loop is modelled and proved equal to this in `Verif/Utils`). -/
def limbsOf (n k b : ℕ) : List ℕ := (List.range k).map (fun i => n / 2 ^ (b * i) % 2 ^ b)

/-- `num_to_bits` (mod.rs:1252-1277).  With `range_bits = 0` the `debug_assert!` fires in debug builds; in
release builds the function returns the single cell holding 0; the model follows the release build. -/
def numToBits (a : AV p) (rangeBits : ℕ) : M p (List (AV p)) := do
  let x ← unwrap a.val?
  let row ← adviceLen
  let pows ← sliceTo (powOfTwo p) rangeBits
  let acc ← innerProduct ((limbsOf x.val rangeBits 1).map (fun b : ℕ => .witness (b : ZMod p)))
    (pows.map .constant)
  constrainEqual a acc
  let b0 ← getM (row : ℤ)
  let bs ← getsM ((List.range (rangeBits - 1)).map (fun i : ℕ => ((row + 1 + 3 * i : ℕ) : ℤ)))
  assertBits (b0 :: bs)
  pure (b0 :: bs)

/-- `bits_to_num` (mod.rs:1283-1291). -/
def bitsToNum (bits : List (AV p)) : M p (AV p) := do
  assertM (decide (bits.length ≤ capacity p))
  let pows ← sliceTo (powOfTwo p) bits.length
  innerProduct (bits.map .existing) (pows.map .constant)

/-- `if i > 0 { acc = self.mul(ctx, acc, acc) }` (mod.rs:1307-1310). -/
def powSquare (first : Bool) (acc : AV p) : M p (AV p) :=
  if first then pure acc else mul (.existing acc) (.existing acc)

/-- Loop of `pow_var` (mod.rs:1306-1314); `first` is `i == 0`. -/
def powVarLoop (a : AV p) : Bool → AV p → List (AV p) → M p (AV p)
  | _, acc, [] => pure acc
  | first, acc, bit :: bits => do
    let acc ← powSquare first acc
    let m ← mul (.existing acc) (.existing a)
    let acc ← select (.existing m) (.existing acc) (.existing bit)
    powVarLoop a false acc bits

/-- `pow_var` (mod.rs:1296-1316). -/
def powVar (a exp : AV p) (maxBits : ℕ) : M p (AV p) := do
  let bits ← numToBits exp maxBits
  let acc ← loadConstant 1
  powVarLoop a true acc bits.reverse

/-- `for coord in coords.iter().skip(1)` (mod.rs:903-906). -/
def lagrangeZ (x : AV p) (z : AV p) : List (AV p × AV p) → M p (AV p)
  | [] => pure z
  | c :: cs => do
    let d ← sub (.existing x) (.existing c.1)
    let z ← mul (.existing z) (.existing d)
    lagrangeZ x z cs

/-- `for j in 0..coords.len() { if i == j continue; .. }` (mod.rs:911-917). -/
def lagrangeDenom (xi : AV p) (i : ℕ) (denom : AV p) : List (ℕ × AV p) → M p (AV p)
  | [] => pure denom
  | (j, xj) :: l => do
    if i = j then lagrangeDenom xi i denom l
    else do
      let d ← sub (.existing xi) (.existing xj)
      let denom ← mul (.existing denom) (.existing d)
      lagrangeDenom xi i denom l

/-- `coords.iter().enumerate()` restricted to the x-coordinates. -/
def enumX (coords : List (AV p × AV p)) : List (ℕ × AV p) :=
  (List.range coords.length).zip (coords.map Prod.fst)

/-- `eval = if let Some(eval) = eval { add } else { quot }` (mod.rs:925-930). -/
def lagrangeAcc (ev : Option (AV p)) (quot : AV p) : M p (AV p) :=
  match ev with
  | some e => add (.existing e) (.existing quot)
  | none => pure quot

/-- `for i in 0..coords.len()` (mod.rs:908-931). -/
def lagrangeEval (coords : List (AV p × AV p)) (x : AV p) :
    List (ℕ × AV p × AV p) → Option (AV p) → M p (Option (AV p))
  | [], ev => pure ev
  | (i, xi, yi) :: l, ev => do
    let d0 ← sub (.existing x) (.existing xi)
    let denom ← lagrangeDenom xi i d0 (enumX coords)
    let isz ← isZero denom
    assertIsConst isz 0
    let quot ← divUnsafe (.existing yi) (.existing denom)
    let ev' ← lagrangeAcc ev quot
    lagrangeEval coords x l (some ev')

/-- `lagrange_and_eval` (mod.rs:895-934). -/
def lagrangeAndEval (coords : List (AV p × AV p)) (x : AV p) : M p (AV p × AV p) :=
  match coords with
  | [] => panic
  | c :: cs => do
    let z0 ← sub (.existing x) (.existing c.1)
    let z ← lagrangeZ x z0 cs
    let ev ← lagrangeEval (c :: cs) x ((List.range (c :: cs).length).zip (c :: cs)) none
    let ev ← unwrap ev
    let out ← mul (.existing ev) (.existing z)
    pure (out, z)

end H2
