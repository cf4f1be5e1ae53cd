import Verif.Utils.Model

/-!
# Model of `halo2-ecc/src/bigint/*.rs`

`OverflowInteger`, `CRTInteger`, `ProperUint`, `ProperCrtUint` and the routines on them.  `BigInt` and `BigUint` values are
`ℤ` and `ℕ`.  `debug_assert!`s are not part of the model (release build); subtractions of `usize` that would wrap are
panics, because the wrapped value is afterwards an out-of-range index or range-check size.  `zip_eq` panics on lists of
different lengths.
-/

set_option autoImplicit false
namespace H2
variable {p : ℕ} [Fact p.Prime]

/-- `OverflowInteger<F>` (bigint/mod.rs:37-50).  `ProperUint<F>` (mod.rs:83-90) is a list of assigned values. -/
structure OvInt (p : ℕ) where
  limbs : List (AV p)
  maxBits : ℕ

/-- `CRTInteger<F>` (bigint/mod.rs:162-180); `ProperCrtUint<F>` (mod.rs:218-225) is the same data. -/
structure CrtInt (p : ℕ) where
  trunc : OvInt p
  native : AV p
  value : ℤ

/-- The data of `FpChip` (fields/fp.rs:48-68) that the bigint routines are given: `limb_bits`, `num_limbs`,
`num_limbs_bits`, `num_limbs_log2_ceil`, `limb_bases`, the modulus, its limbs and its residue, and `lookup_bits` of the
range chip.  `limb_base_big` is always `1 << limb_bits` (fp.rs:94). -/
structure FpChip (p : ℕ) where
  L : ℕ
  n : ℕ
  k : ℕ
  kBits : ℕ
  kLog2 : ℕ
  bases : List (ZMod p)
  modulus : ℕ
  modLimbs : List (ZMod p)
  modNative : ZMod p

/-- `limb_bases[1]`. -/
def FpChip.base1 (c : FpChip p) : M p (ZMod p) := unwrap c.bases[1]?

/-- Checked `usize` subtraction. -/
def subU (a b : ℕ) : M p ℕ := if b ≤ a then pure (a - b) else panic

/-- `a.into_iter().zip_eq(b).map(|(a, b)| f(ctx, a, b)).collect()`. -/
def zipEqM (f : AV p → AV p → M p (AV p)) : List (AV p) → List (AV p) → M p (List (AV p))
  | [], [] => pure []
  | a :: as, b :: bs => do
    let r ← f a b
    let rs ← zipEqM f as bs
    pure (r :: rs)
  | _, _ => panic

/-- `a.into_iter().map(|a| f(ctx, a)).collect()`. -/
def mapAM (f : AV p → M p (AV p)) : List (AV p) → M p (List (AV p))
  | [] => pure []
  | a :: as => do
    let r ← f a
    let rs ← mapAM f as
    pure (r :: rs)

/-- `add_no_carry::assign` (add_no_carry.rs:8-22). -/
def addNoCarry (a b : OvInt p) : M p (OvInt p) := do
  let ls ← zipEqM (fun x y => add (.existing x) (.existing y)) a.limbs b.limbs
  pure ⟨ls, max a.maxBits b.maxBits + 1⟩

/-- `add_no_carry::crt` (add_no_carry.rs:27-37). -/
def addNoCarryCrt (a b : CrtInt p) : M p (CrtInt p) := do
  let t ← addNoCarry a.trunc b.trunc
  let v ← add (.existing a.native) (.existing b.native)
  pure ⟨t, v, a.value + b.value⟩

/-- `sub_no_carry::assign` (sub_no_carry.rs:8-22). -/
def subNoCarry (a b : OvInt p) : M p (OvInt p) := do
  let ls ← zipEqM (fun x y => sub (.existing x) (.existing y)) a.limbs b.limbs
  pure ⟨ls, max a.maxBits b.maxBits + 1⟩

/-- `sub_no_carry::crt` (sub_no_carry.rs:24-34). -/
def subNoCarryCrt (a b : CrtInt p) : M p (CrtInt p) := do
  let t ← subNoCarry a.trunc b.trunc
  let v ← sub (.existing a.native) (.existing b.native)
  pure ⟨t, v, a.value - b.value⟩

/-- `negative::assign` (negative.rs:4-11). -/
def negInt (a : OvInt p) : M p (OvInt p) := do
  let ls ← mapAM (fun x => neg (.existing x)) a.limbs
  pure ⟨ls, a.maxBits⟩

/-- `scalar_mul_no_carry::assign` (scalar_mul_no_carry.rs:9-18). -/
def scalarMulNoCarry (a : OvInt p) (cf : ZMod p) (cl : ℕ) : M p (OvInt p) := do
  let ls ← mapAM (fun x => mul (.existing x) (.constant cf)) a.limbs
  pure ⟨ls, a.maxBits + cl⟩

/-- `c: i64` to `(c_f, c_abs)` (scalar_mul_no_carry.rs:26-32): `-c` overflows for `i64::MIN`, a panic (in a release
build `u64::try_from` of the wrapped value fails). -/
def i64ToFe (c : ℤ) : M p (ZMod p × ℕ) := do
  assertM (decide (-2 ^ 63 < c ∧ c < 2 ^ 63))
  pure (if 0 ≤ c then ((c.natAbs : ℕ) : ZMod p) else -((c.natAbs : ℕ) : ZMod p), c.natAbs)

/-- `scalar_mul_no_carry::crt` (scalar_mul_no_carry.rs:20-39). -/
def scalarMulNoCarryCrt (a : CrtInt p) (c : ℤ) : M p (CrtInt p) := do
  let (cf, ca) ← i64ToFe c
  let cl ← unwrap (Utils.log2Ceil ca)
  let t ← scalarMulNoCarry a.trunc cf cl
  let v ← mul (.existing a.native) (.constant cf)
  pure ⟨t, v, a.value * c⟩

/-- `scalar_mul_and_add_no_carry::assign` (scalar_mul_and_add_no_carry.rs:18-34). -/
def scalarMulAddNoCarry (a b : OvInt p) (cf : ZMod p) (cl : ℕ) : M p (OvInt p) := do
  let ls ← zipEqM (fun x y => mulAdd (.existing x) (.constant cf) (.existing y)) a.limbs b.limbs
  pure ⟨ls, max (a.maxBits + cl) b.maxBits + 1⟩

/-- `scalar_mul_and_add_no_carry::crt` (scalar_mul_and_add_no_carry.rs:37-58). -/
def scalarMulAddNoCarryCrt (a b : CrtInt p) (c : ℤ) : M p (CrtInt p) := do
  let (cf, ca) ← i64ToFe c
  let cl ← unwrap (Utils.log2Ceil ca)
  let t ← scalarMulAddNoCarry a.trunc b.trunc cf cl
  let v ← mulAdd (.existing a.native) (.constant cf) (.existing b.native)
  pure ⟨t, v, a.value * c + b.value⟩

/-- The loop of `mul_no_carry::truncate` (mul_no_carry.rs:25-33) over the indices `is`. -/
def mulLoop (a b : List (AV p)) : List ℕ → M p (List (AV p))
  | [] => pure []
  | i :: is => do
    let r ← innerProduct ((a.take (i + 1)).map .existing) ((b.take (i + 1)).reverse.map .existing)
    let rs ← mulLoop a b is
    pure (r :: rs)

/-- `mul_no_carry::truncate` (mul_no_carry.rs:9-36). -/
def mulNoCarry (a b : OvInt p) (kLog2 : ℕ) : M p (OvInt p) := do
  assertM (decide (a.limbs.length = b.limbs.length))
  let ls ← mulLoop a.limbs b.limbs (List.range a.limbs.length)
  pure ⟨ls, kLog2 + a.maxBits + b.maxBits⟩

/-- `mul_no_carry::crt` (mul_no_carry.rs:38-49). -/
def mulNoCarryCrt (a b : CrtInt p) (kLog2 : ℕ) : M p (CrtInt p) := do
  let t ← mulNoCarry a.trunc b.trunc kLog2
  let v ← mul (.existing a.native) (.existing b.native)
  pure ⟨t, v, a.value * b.value⟩

/-- `select::assign` (select.rs:9-24). -/
def selectInt (a b : OvInt p) (sel : AV p) : M p (OvInt p) := do
  let ls ← zipEqM (fun x y => select (.existing x) (.existing y) (.existing sel)) a.limbs b.limbs
  pure ⟨ls, max a.maxBits b.maxBits⟩

/-- `select::crt` (select.rs:26-50). -/
def selectCrt (a b : CrtInt p) (sel : AV p) : M p (CrtInt p) := do
  let t ← selectInt a.trunc b.trunc sel
  let v ← select (.existing a.native) (.existing b.native) (.existing sel)
  let sv ← unwrap sel.val?
  pure ⟨t, v, if sv = 0 then b.value else a.value⟩

/-- `a.iter().map(|a| a.limbs[idx])`. -/
def limbCol (as : List (OvInt p)) (i : ℕ) : M p (List (QCell p)) := column (as.map OvInt.limbs) i

/-- The loop `(0..k).map(..)` of `select_by_indicator` (select_by_indicator.rs:15-20, 38-43). -/
def selIndLoop (as : List (OvInt p)) (ind : List (AV p)) : List ℕ → M p (List (AV p))
  | [] => pure []
  | i :: is => do
    let col ← limbCol as i
    let r ← selectByIndicator col ind
    let rs ← selIndLoop as ind is
    pure (r :: rs)

/-- `a.iter().fold(0, |acc, x| max(acc, x.max_limb_bits))`. -/
def maxBitsOf (as : List (OvInt p)) : ℕ := as.foldl (fun acc x => max acc x.maxBits) 0

/-- `select_by_indicator::assign` (select_by_indicator.rs:8-25). -/
def selIndInt (as : List (OvInt p)) (ind : List (AV p)) : M p (OvInt p) :=
  match as with
  | [] => panic
  | a0 :: _ => do
    let ls ← selIndLoop as ind (List.range a0.limbs.length)
    pure ⟨ls, maxBitsOf as⟩

/-- `OverflowInteger::evaluate_native` (bigint/mod.rs:65-74). -/
def evalNative (limbs : List (AV p)) (bases : List (ZMod p)) : M p (AV p) :=
  innerProduct (limbs.map .existing) (bases.map .constant)

/-- The fold for `out_val` (select_by_indicator.rs:58-64). -/
def selIndVal : ℤ → List (CrtInt p × AV p) → M p ℤ
  | acc, [] => pure acc
  | acc, (x, y) :: l => do
    let v ← unwrap y.val?
    selIndVal (if v = 0 then acc else x.value) l

/-- `out_native` of `select_by_indicator::crt` (select_by_indicator.rs:47-57). -/
def selIndNative (as : List (CrtInt p)) (ind : List (AV p)) (ls : List (AV p)) (k : ℕ) (bases : List (ZMod p)) :
    M p (AV p) :=
  if k < as.length then do
    let bs ← sliceTo bases k
    evalNative ls bs
  else selectByIndicator (as.map fun a => .existing a.native) ind

/-- `select_by_indicator::crt` (select_by_indicator.rs:28-68). -/
def selIndCrt (as : List (CrtInt p)) (ind : List (AV p)) (bases : List (ZMod p)) : M p (CrtInt p) := do
  assertM (decide (as.length = ind.length))
  let t ← selIndInt (as.map CrtInt.trunc) ind
  let v ← selIndNative as ind t.limbs t.limbs.length bases
  let x ← selIndVal 0 (as.zip ind)
  pure ⟨t, v, x⟩

/-- `ProperUint::into_crt` (bigint/mod.rs:99-113). -/
def intoCrt (limbs : List (AV p)) (value : ℕ) (bases : List (ZMod p)) (n : ℕ) : M p (CrtInt p) := do
  let v ← evalNative limbs bases
  pure ⟨⟨limbs, n⟩, v, (value : ℤ)⟩

/-- `FixedCRTInteger::from_native(value, k, n).assign(ctx, n, native_modulus)` (bigint/mod.rs:122-145, 284-306). -/
def assignFixed (value k n : ℕ) : M p (CrtInt p) := do
  let ls ← unwrap (Utils.decomposeBiguint p false value k n)
  let limbs ← loadConstants ls
  let nv ← unwrap (Utils.biguintToFe p (value % Utils.modulus p))
  let v ← loadConstant nv
  pure ⟨⟨limbs, n⟩, v, (value : ℤ)⟩

/-- The carries of `check_carry_to_zero::truncate` (check_carry_to_zero.rs:41-52); BigInt `/` rounds towards zero. -/
def carries (base : ℤ) : ℤ → List (AV p) → M p (List ℤ)
  | _, [] => pure []
  | prev, a :: as => do
    let v ← unwrap a.val?
    let c := (Utils.feToBigint v + prev).tdiv base
    let r ← carries base c as
    pure (c :: r)

/-- The constraining loop of `check_carry_to_zero::truncate` (check_carry_to_zero.rs:67-85). -/
def carryLoop (L rb : ℕ) (base shift : ZMod p) : QCell p → List (AV p × ℤ) → M p Unit
  | _, [] => pure ()
  | prev, (a, c) :: l => do
    let d ← unwrap (Utils.bigintToFe p (-c))
    assignRegion [.existing a, .witness d, .constant base, prev] [0]
    let nc ← getM (-3)
    let sh ← add (.existing nc) (.constant shift)
    rangeCheck L sh (rb + 1)
    carryLoop L rb base shift (.existing nc) l

/-- `range_bits` rounded up (check_carry_to_zero.rs:54-58). -/
def carryBits (L m n : ℕ) : ℕ := ((m - n + 1 + L) / L) * L - 1

/-- `check_carry_to_zero::truncate` (check_carry_to_zero.rs:28-86). -/
def checkCarryToZero (L : ℕ) (a : OvInt p) (n : ℕ) (base : ZMod p) : M p Unit := do
  let cs ← carries (2 ^ n) 0 a.limbs
  let _ ← subU a.maxBits n
  let shift ← pow2At (carryBits L a.maxBits n)
  carryLoop L (carryBits L a.maxBits n) base shift (.constant 0) (a.limbs.zip cs)

/-- The main loop of `carry_mod::crt` (carry_mod.rs:105-143): `qs` is `quot_assigned`; returns the quotient, output and
check cells. -/
def carryModLoop (modLimbs : List (ZMod p)) : List (AV p × ZMod p × ZMod p) → List (AV p) →
    M p (List (AV p) × List (AV p) × List (AV p))
  | [], qs => pure (qs, [], [])
  | (a, q, o) :: l, qs => do
    let ms ← sliceTo modLimbs (qs.length + 1)
    let (prod, qc) ← innerProductLeftLast (qs.map .existing ++ [.witness q]) (ms.reverse.map .constant)
    let pv ← unwrap prod.val?
    let av ← unwrap a.val?
    assignRegion [.constant (-1), .existing a, .witness (pv - av), .constant 1, .witness o, .witness (pv - av + o)] [-1, 2]
    let check ← lastM
    let oc ← getM (-2)
    let (qs', os, cs) ← carryModLoop modLimbs l (qs ++ [qc])
    pure (qs', oc :: os, check :: cs)

/-- `for (i, cell) in cells.enumerate() { range_check(cell, if i == k - 1 { last } else { n }) }` (carry_mod.rs:148-151). -/
def rangeChecksLast (L n last : ℕ) : List (AV p) → M p Unit
  | [] => pure ()
  | [a] => rangeCheck L a last
  | a :: b :: as => do
    rangeCheck L a n
    rangeChecksLast L n last (b :: as)

/-- `add(quot_cell, base); range_check(bits + 1)` (carry_mod.rs:160-161). -/
def quotCheck (L bits : ℕ) (base : ZMod p) (a : AV p) : M p Unit := do
  let sh ← add (.existing a) (.constant base)
  rangeCheck L sh (bits + 1)

/-- The range checks of the quotient (carry_mod.rs:154-162). -/
def quotChecks (L n last : ℕ) (base : List (ZMod p)) : List (AV p) → M p Unit
  | [] => pure ()
  | [a] => do
    let b ← pow2At last
    quotCheck L last b a
  | a :: b :: as => do
    let b1 ← unwrap base[1]?
    quotCheck L n b1 a
    quotChecks L n last base (b :: as)

/-- `quot_max_bits` (carry_mod.rs:54) and `quot_last_limb_bits` (carry_mod.rs:59). -/
def quotLast (p n k mbits : ℕ) : ℕ := (n * k - 1 + numBits p - 1 - mbits) - n * (k - 1)

/-- `carry_mod::crt` (carry_mod.rs:30-192). -/
def carryModCrt (c : FpChip p) (a : CrtInt p) : M p (CrtInt p) := do
  let k := a.trunc.limbs.length
  let mbits := Nat.size c.modulus
  assertM (decide (1 ≤ k ∧ 1 ≤ c.n * k ∧ mbits ≤ c.n * k - 1 + numBits p - 1))
  let _ ← subU (c.n * k - 1 + numBits p - 1 - mbits) (c.n * (k - 1))
  let _ ← subU mbits (c.n * (k - 1))
  assertM (decide (c.modulus ≠ 0))
  let quot := a.value / (c.modulus : ℤ)
  let out := a.value % (c.modulus : ℤ)
  let ov ← unwrap (Utils.decomposeBigint p false out k c.n)
  let qv ← unwrap (Utils.decomposeBigint p false quot k c.n)
  assertM (decide (c.modLimbs.length = k))
  let (qs, os, cs) ← carryModLoop c.modLimbs (a.trunc.limbs.zip (qv.zip ov)) []
  rangeChecksLast c.L c.n (mbits - c.n * (k - 1)) os
  quotChecks c.L c.n (quotLast p c.n k mbits) c.bases qs
  let b1 ← c.base1
  checkCarryToZero c.L ⟨cs, max (max c.n a.trunc.maxBits + 1) (2 * c.n + c.kBits)⟩ c.n b1
  let qn ← evalNative qs c.bases
  let on ← evalNative os c.bases
  assignRegion [.constant c.modNative, .existing qn, .existing a.native] [-1]
  pure ⟨⟨os, c.n⟩, on, out⟩

/-- The main loop of `check_carry_mod_to_zero::crt` (check_carry_mod_to_zero.rs:72-90). -/
def carryZeroLoop (modLimbs : List (ZMod p)) : List (AV p × ZMod p) → List (AV p) → M p (List (AV p) × List (AV p))
  | [], qs => pure (qs, [])
  | (a, q) :: l, qs => do
    let ms ← sliceTo modLimbs (qs.length + 1)
    let (prod, qc) ← innerProductLeftLast (qs.map .existing ++ [.witness q]) (ms.reverse.map .constant)
    let pv ← unwrap prod.val?
    let av ← unwrap a.val?
    let check ← assignRegionLast [.constant (-1), .existing a, .witness (pv - av)] [-1]
    let (qs', cs) ← carryZeroLoop modLimbs l (qs ++ [qc])
    pure (qs', check :: cs)

/-- `check_carry_mod_to_zero::crt` (check_carry_mod_to_zero.rs:15-125). -/
def checkCarryModToZeroCrt (c : FpChip p) (a : CrtInt p) : M p Unit := do
  let k := a.trunc.limbs.length
  let mbits := Nat.size c.modulus
  assertM (decide (1 ≤ k ∧ 1 ≤ c.n * k ∧ mbits ≤ c.n * k - 1 + numBits p - 1))
  assertM (decide (c.n * k - 1 + numBits p - 1 - mbits < c.n * k))
  let _ ← subU (c.n * k - 1 + numBits p - 1 - mbits) (c.n * (k - 1))
  assertM (decide (c.modulus ≠ 0))
  let quot := a.value / (c.modulus : ℤ)
  let qv ← unwrap (Utils.decomposeBigint p false quot k c.n)
  let (qs, cs) ← carryZeroLoop c.modLimbs (a.trunc.limbs.zip qv) []
  quotChecks c.L c.n (quotLast p c.n k mbits) c.bases qs
  let b1 ← c.base1
  checkCarryToZero c.L ⟨cs, max a.trunc.maxBits (2 * c.n + c.kBits)⟩ c.n b1
  let qn ← evalNative qs c.bases
  assignRegion [.constant 0, .constant c.modNative, .existing qn, .existing a.native] [0]

/-- `(bottom, lt)` of `sub::assign` (sub.rs:29-39). -/
def subLt (L n : ℕ) (a b : AV p) : Option (AV p) → M p (AV p × AV p)
  | none => do
    let lt ← isLessThan L (.existing a) (.existing b) n
    pure (b, lt)
  | some bw => do
    let bb ← add (.existing b) (.existing bw)
    let lt ← isLessThan L (.existing a) (.existing bb) (n + 1)
    pure (bb, lt)

/-- One limb of `sub::assign` (sub.rs:28-57): the output limb and the borrow. -/
def subStep (L n : ℕ) (base : ZMod p) (a b : AV p) (bw : Option (AV p)) : M p (AV p × AV p) := do
  let (bottom, lt) ← subLt L n a b bw
  let lv ← unwrap lt.val?
  let av ← unwrap a.val?
  let bv ← unwrap bottom.val?
  let r ← assignRegionLast [.existing a, .existing lt, .constant base, .witness (base * lv + av), .constant (-1),
    .existing bottom, .witness (base * lv + av - bv)] [0, 3]
  pure (r, lt)

/-- The loop of `sub::assign` (sub.rs:27-60). -/
def subLoop (L n : ℕ) (base : ZMod p) : List (AV p) → List (AV p) → Option (AV p) → M p (List (AV p) × Option (AV p))
  | [], [], bw => pure ([], bw)
  | a :: as, b :: bs, bw => do
    let (r, lt) ← subStep L n base a b bw
    let (rs, bw) ← subLoop L n base as bs (some lt)
    pure (r :: rs, bw)
  | _, _, _ => panic

/-- `sub::assign` (sub.rs:13-62): the difference and the final borrow. -/
def subInt (L n : ℕ) (base : ZMod p) (a b : List (AV p)) : M p (OvInt p × AV p) := do
  let (ls, bw) ← subLoop L n base a b none
  let u ← unwrap bw
  pure (⟨ls, n⟩, u)

/-- `sub::crt` (sub.rs:67-79). -/
def subCrt (L n : ℕ) (base : ZMod p) (a b : CrtInt p) : M p (CrtInt p × AV p) := do
  let v ← sub (.existing a.native) (.existing b.native)
  let (t, u) ← subInt L n base a.trunc.limbs b.trunc.limbs
  pure (⟨t, v, a.value - b.value⟩, u)

/-- `big_less_than::assign` (big_less_than.rs:6-17). -/
def bigLessThan (L n : ℕ) (base : ZMod p) (a b : List (AV p)) : M p (AV p) := do
  let (_, u) ← subInt L n base a b
  pure u

/-- `big_is_zero::positive` (big_is_zero.rs:8-20).  `ilog2` is `Nat.log2`. -/
def bigIsZeroPositive (a : OvInt p) : M p (AV p) := do
  assertM (decide (a.limbs.length ≠ 0))
  assertM (decide (a.maxBits + Nat.log2 a.limbs.length < capacity p))
  let s ← sum (a.limbs.map .existing)
  isZero s

/-- The loop of `big_is_zero::assign` (big_is_zero.rs:35-38). -/
def bigIsZeroLoop (partl : AV p) : List (AV p) → M p (AV p)
  | [] => pure partl
  | a :: as => do
    let z ← isZero a
    let q ← and (.existing z) (.existing partl)
    bigIsZeroLoop q as

/-- `big_is_zero::assign` (big_is_zero.rs:28-40), `big_is_zero::crt` (47-53). -/
def bigIsZero : List (AV p) → M p (AV p)
  | [] => panic
  | a :: as => do
    let z ← isZero a
    bigIsZeroLoop z as

/-- The loop of `big_is_equal::assign` (big_is_equal.rs:24-27). -/
def bigIsEqualLoop (partl : AV p) : List (AV p) → List (AV p) → M p (AV p)
  | [], [] => pure partl
  | a :: as, b :: bs => do
    let z ← isEqual (.existing a) (.existing b)
    let q ← and (.existing z) (.existing partl)
    bigIsEqualLoop q as bs
  | _, _ => panic

/-- `big_is_equal::assign` (big_is_equal.rs:11-29). -/
def bigIsEqual : List (AV p) → List (AV p) → M p (AV p)
  | a :: as, b :: bs => do
    let z ← isEqual (.existing a) (.existing b)
    bigIsEqualLoop z as bs
  | _, _ => panic

/-- `big_is_even::positive` (big_is_even.rs:10-22). -/
def bigIsEvenPositive (L n : ℕ) (a : OvInt p) : M p (AV p) :=
  match a.limbs with
  | [] => panic
  | x :: _ => do
    let b ← getLastBit L x n
    not (.existing b)

end H2
