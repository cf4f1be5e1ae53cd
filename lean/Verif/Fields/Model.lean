import Verif.BigInt.Model

/-!
# Model of `halo2-ecc/src/fields/mod.rs` (the trait `FieldChip` and its default methods) and `fields/fp.rs` (`FpChip`)

`Reduced<P, Fp>` (fp.rs:29-30) is a wrapper of `P` without data; reduced points are modelled by the wrapped point.
`impl Into<..>` conversions are `ofP` (a proper point used as an unsafe point) or the identity.
-/

set_option autoImplicit false
namespace H2
variable {p : ℕ} [Fact p.Prime]

/-- The trait `FieldChip` (fields/mod.rs:26-176) together with `Selectable` on field points (mod.rs:273-282): the required
methods.  `U`, `P`, `V` are `UnsafeFieldPoint`, `FieldPoint` and `FieldType`; of the arithmetic on `FieldType` only what the
default methods use. -/
structure FieldOps (p : ℕ) where
  U : Type
  P : Type
  V : Type
  ofP : P → U
  /-- `a * b.invert().unwrap_or_default()` -/
  vdiv : V → V → V
  vneg : V → V
  /-- `FieldType::ZERO` -/
  vzero : V
  getAssignedValue : U → M p V
  loadPrivate : V → M p P
  loadConstant : V → M p P
  addNoCarry : U → U → M p U
  addConstantNoCarry : U → V → M p U
  subNoCarry : U → U → M p U
  negate : P → M p P
  scalarMulNoCarry : U → ℤ → M p U
  scalarMulAddNoCarry : U → U → ℤ → M p U
  mulNoCarry : U → U → M p U
  checkCarryModToZero : U → M p Unit
  carryMod : U → M p P
  rangeCheck : P → ℕ → M p Unit
  enforceLessThan : P → M p P
  isSoftZero : P → M p (AV p)
  isSoftNonzero : P → M p (AV p)
  isZero : P → M p (AV p)
  isEqualUnenforced : P → P → M p (AV p)
  assertEqual : P → P → M p Unit
  select : P → P → AV p → M p P
  selectByIndicator : List P → List (AV p) → M p P

namespace FieldOps
variable (F : FieldOps p)

/-- `load_private_reduced` (fields/mod.rs:65-72). -/
def loadPrivateReduced (v : F.V) : M p F.P := do
  let fe ← F.loadPrivate v
  F.enforceLessThan fe

/-- `is_equal` (fields/mod.rs:176-186). -/
def isEqual (a b : F.P) : M p (AV p) := do
  let a ← F.enforceLessThan a
  let b ← F.enforceLessThan b
  F.isEqualUnenforced a b

/-- `mul` (fields/mod.rs:189-197). -/
def mul (a b : F.U) : M p F.P := do
  let m ← F.mulNoCarry a b
  F.carryMod m

/-- `divide_unsafe` (fields/mod.rs:218-239). -/
def divideUnsafe (a b : F.U) : M p F.P := do
  let av ← F.getAssignedValue a
  let bv ← F.getAssignedValue b
  let quot ← F.loadPrivate (F.vdiv av bv)
  let qb ← F.mulNoCarry (F.ofP quot) b
  let c ← F.subNoCarry qb a
  F.checkCarryModToZero c
  pure quot

/-- `divide` (fields/mod.rs:200-211). -/
def divide (a b : F.P) : M p F.P := do
  let z ← F.isZero b
  assertIsConst z 0
  F.divideUnsafe (F.ofP a) (F.ofP b)

/-- `neg_divide_unsafe` (fields/mod.rs:257-278). -/
def negDivideUnsafe (a b : F.U) : M p F.P := do
  let av ← F.getAssignedValue a
  let bv ← F.getAssignedValue b
  let quot ← F.loadPrivate (F.vdiv (F.vneg av) bv)
  let qb ← F.mulNoCarry (F.ofP quot) b
  let c ← F.addNoCarry qb a
  F.checkCarryModToZero c
  pure quot

/-- `neg_divide` (fields/mod.rs:242-253). -/
def negDivide (a b : F.P) : M p F.P := do
  let z ← F.isZero b
  assertIsConst z 0
  F.negDivideUnsafe (F.ofP a) (F.ofP b)

end FieldOps

/-! ### `FpChip` -/

/-- The loop building `limb_bases` (fp.rs:82-86), run `k` more times; `last` is the last base. -/
def limbBasesLoop (base : ZMod p) : ℕ → ZMod p → List (ZMod p)
  | 0, _ => []
  | k + 1, last => base * last :: limbBasesLoop base k (base * last)

/-- `FpChip::new` (fp.rs:71-103) for the modulus `m` of `Fp`, with `lookup_bits` `L` of the range chip. -/
def FpChip.new (L m n k : ℕ) : Option (FpChip p) := if n = 0 ∨ k = 0 ∨ ¬ n ≤ capacity p then none else do
  let mp := Utils.modulus m
  let limbs ← Utils.decomposeBiguint p false mp k n
  let native ← Utils.biguintToFe p (mp % Utils.modulus p)
  let base ← Utils.biguintToFe p (2 ^ n)
  let kl ← Utils.log2Ceil k
  pure { L := L, n := n, k := k, kBits := Utils.bitLength k, kLog2 := kl, bases := 1 :: limbBasesLoop base (k - 1) 1,
         modulus := mp, modLimbs := limbs, modNative := native }

namespace FpChip
variable (c : FpChip p)

/-- The loop of `enforce_less_than_p` (fp.rs:108-122); `zip` stops at the shorter list. -/
def enforceLoop (L n : ℕ) : List (ZMod p × AV p) → Option (AV p) → M p (Option (AV p))
  | [], bw => pure bw
  | (pl, a) :: l, none => do
    let lt ← isLessThan L (.existing a) (.constant pl) n
    enforceLoop L n l (some lt)
  | (pl, a) :: l, some bw => do
    let pb ← add (.constant pl) (.existing bw)
    let lt ← isLessThan L (.existing a) (.existing pb) n
    enforceLoop L n l (some lt)

/-- `enforce_less_than_p` (fp.rs:106-125). -/
def enforceLessThanP (a : CrtInt p) : M p Unit := do
  let bw ← enforceLoop c.L c.n (c.modLimbs.zip a.trunc.limbs) none
  let b ← unwrap bw
  assertIsConst b 1

/-- `load_constant_uint` (fp.rs:147-153). -/
def loadConstantUint (a : ℕ) : M p (CrtInt p) := assignFixed a c.k c.n

/-- `is_less_than_p` (fp.rs:129-145). -/
def isLessThanP (a : CrtInt p) : M p (AV p) := do
  let pc ← c.loadConstantUint c.modulus
  let b1 ← c.base1
  let (_, u) ← subCrt c.L c.n b1 a pc
  let z ← isZero u
  not (.existing z)

/-- `is_even` (fp.rs:158-167). -/
def isEven (a : CrtInt p) : M p (AV p) := do
  c.enforceLessThanP a
  bigIsEvenPositive c.L c.n a.trunc

/-- `get_assigned_value` (fp.rs:199-201); `BigInt`'s `%` rounds towards zero. -/
def getAssignedValue (x : CrtInt p) : M p (ZMod c.modulus) :=
  unwrap (Utils.bigintToFe c.modulus (x.value.tmod (c.modulus : ℤ)))

/-- The loop of `range_check` (fp.rs:350-354). -/
def rangeCheckLoop (L n : ℕ) : List (AV p) → ℕ → M p Unit
  | [], _ => pure ()
  | a :: as, rem => do
    H2.rangeCheck L a (min n rem)
    rangeCheckLoop L n as (rem - min n rem)

/-- `range_check` (fp.rs:337-355). -/
def rangeCheck (a : CrtInt p) (maxBits : ℕ) : M p Unit := rangeCheckLoop c.L c.n a.trunc.limbs maxBits

/-- `load_private` (fp.rs:203-213); `PRIME_FIELD_NUM_BITS` is the bit length of the modulus. -/
def loadPrivate (v : ZMod c.modulus) : M p (CrtInt p) := do
  let a := Utils.feToBiguint v
  let ls ← unwrap (Utils.decomposeBiguint p false a c.k c.n)
  let limbs ← assignWitnesses ls
  let r ← intoCrt limbs a c.bases c.n
  c.rangeCheck r (Nat.size c.modulus)
  pure r

/-- `load_constant` (fp.rs:215-217). -/
def loadConstant (v : ZMod c.modulus) : M p (CrtInt p) := c.loadConstantUint (Utils.feToBiguint v)

/-- The loop of `add_constant_no_carry` (fp.rs:240-243); `zip` stops at the shorter list. -/
def addConstLoop : List (AV p × ZMod p) → M p (List (AV p))
  | [] => pure []
  | (a, x) :: l => do
    let r ← add (.existing a) (.constant x)
    let rs ← addConstLoop l
    pure (r :: rs)

/-- `add_constant_no_carry` (fp.rs:229-250). -/
def addConstantNoCarry (a : CrtInt p) (v : ZMod c.modulus) : M p (CrtInt p) := do
  let x := Utils.feToBiguint v
  let ls ← unwrap (Utils.decomposeBiguint p false x c.k c.n)
  let nv ← unwrap (Utils.biguintToFe p (x % Utils.modulus p))
  let limbs ← addConstLoop (a.trunc.limbs.zip ls)
  let native ← add (.existing a.native) (.constant nv)
  pure ⟨⟨limbs, max a.trunc.maxBits c.n + 1⟩, native, a.value + (x : ℤ)⟩

/-- `negate` (fp.rs:264-275). -/
def negate (a : CrtInt p) : M p (CrtInt p) := do
  let pc ← c.loadConstantUint c.modulus
  let b1 ← c.base1
  let (o, u) ← subCrt c.L c.n b1 pc a
  assertIsConst u 0
  let z ← bigIsZeroPositive a.trunc
  selectCrt a o z

/-- `is_soft_nonzero` (fp.rs:380-399). -/
def isSoftNonzero (a : CrtInt p) : M p (AV p) := do
  let z ← bigIsZeroPositive a.trunc
  let nz ← not (.existing z)
  let pc ← c.loadConstantUint c.modulus
  let b1 ← c.base1
  let (_, u) ← subCrt c.L c.n b1 a pc
  let uz ← isZero u
  let nu ← not (.existing uz)
  and (.existing nz) (.existing nu)

/-- `is_zero` (fp.rs:402-407). -/
def isZero (a : CrtInt p) : M p (AV p) := do
  c.enforceLessThanP a
  bigIsZeroPositive a.trunc

/-- The loop of `assert_equal` (fp.rs:430-432); `zip` stops at the shorter list. -/
def eqLoop : List (AV p × AV p) → M p Unit
  | [] => pure ()
  | (a, b) :: l => do
    constrainEqual a b
    eqLoop l

/-- `assert_equal` (fp.rs:421-435). -/
def assertEqual (a b : CrtInt p) : M p Unit := do
  eqLoop (a.trunc.limbs.zip b.trunc.limbs)
  c.enforceLessThanP a
  c.enforceLessThanP b

/-- `impl FieldChip for FpChip` (fp.rs:181-436) and `Selectable<F, ProperCrtUint<F>>` (461-483). -/
def ops : FieldOps p where
  U := CrtInt p
  P := CrtInt p
  V := ZMod c.modulus
  ofP := fun a => a
  vdiv := fun a b => a * b⁻¹
  vneg := fun a => -a
  vzero := (0 : ZMod c.modulus)
  getAssignedValue := c.getAssignedValue
  loadPrivate := c.loadPrivate
  loadConstant := c.loadConstant
  addNoCarry := addNoCarryCrt
  addConstantNoCarry := c.addConstantNoCarry
  subNoCarry := subNoCarryCrt
  negate := c.negate
  scalarMulNoCarry := scalarMulNoCarryCrt
  scalarMulAddNoCarry := scalarMulAddNoCarryCrt
  mulNoCarry := fun a b => mulNoCarryCrt a b c.kLog2
  checkCarryModToZero := checkCarryModToZeroCrt c
  carryMod := carryModCrt c
  rangeCheck := c.rangeCheck
  enforceLessThan := fun a => do
    c.enforceLessThanP a
    pure a
  isSoftZero := fun a => bigIsZeroPositive a.trunc
  isSoftNonzero := c.isSoftNonzero
  isZero := c.isZero
  isEqualUnenforced := fun a b => bigIsEqual a.trunc.limbs b.trunc.limbs
  assertEqual := c.assertEqual
  select := selectCrt
  selectByIndicator := fun as ind => selIndCrt as ind c.bases

end FpChip
end H2
