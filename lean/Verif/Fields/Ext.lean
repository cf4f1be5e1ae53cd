import Verif.Fields.Model

/-!
# Model of `halo2-ecc/src/fields/vector.rs`, `fp2.rs`, `fp12.rs` and `native_fp.rs`

`FieldVector<T>` is a list.  The chips are generic over the base field chip (`FieldOps`); `FieldExtConstructor` and the native
arithmetic of the extension field (the curve crate's `Fq2`, `Fq12`) are the parameter `ExtField`.
-/

set_option autoImplicit false
namespace H2
variable {p : ℕ} [Fact p.Prime]

/-- `a.into_iter().map(|a| f(ctx, a)).collect()`. -/
def mapList {α β : Type} (f : α → M p β) : List α → M p (List β)
  | [] => pure []
  | a :: as => do
    let r ← f a
    let rs ← mapList f as
    pure (r :: rs)

/-- `a.into_iter().zip_eq(b).map(|(a, b)| f(ctx, a, b)).collect()`. -/
def zipEqList {α β γ : Type} (f : α → β → M p γ) : List α → List β → M p (List γ)
  | [], [] => pure []
  | a :: as, b :: bs => do
    let r ← f a b
    let rs ← zipEqList f as bs
    pure (r :: rs)
  | _, _ => panic

/-- `for a in as { f(ctx, a) }`. -/
def forList {α : Type} (f : α → M p Unit) : List α → M p Unit
  | [] => pure ()
  | a :: as => do
    f a
    forList f as

/-- `for (a, b) in as.into_iter().zip(bs) { f(ctx, a, b) }`: stops at the shorter list. -/
def forZip {α β : Type} (f : α → β → M p Unit) : List α → List β → M p Unit
  | a :: as, b :: bs => do
    f a b
    forZip f as bs
  | _, _ => pure ()

/-- The loops with `prev: Option` of `is_soft_zero`, `is_soft_nonzero`, `is_zero` (vector.rs:268-328), with the gate `g`
(`and` or `or`), after the first round. -/
def foldGate {α : Type} (f : α → M p (AV p)) (g : QCell p → QCell p → M p (AV p)) (prev : AV p) : List α → M p (AV p)
  | [] => pure prev
  | a :: as => do
    let c ← f a
    let q ← g (.existing c) (.existing prev)
    foldGate f g q as

/-- The same loops from the start; `prev.unwrap()` panics on the empty vector. -/
def foldGate1 {α : Type} (f : α → M p (AV p)) (g : QCell p → QCell p → M p (AV p)) : List α → M p (AV p)
  | [] => panic
  | a :: as => do
    let c ← f a
    foldGate f g c as

/-- The loop of `is_equal_unenforced` (vector.rs:330-346) after the first round. -/
def foldEq {α : Type} (f : α → α → M p (AV p)) (prev : AV p) : List α → List α → M p (AV p)
  | [], [] => pure prev
  | a :: as, b :: bs => do
    let c ← f a b
    let q ← and (.existing c) (.existing prev)
    foldEq f q as bs
  | _, _ => panic

/-- The loop of `is_equal_unenforced` (vector.rs:330-346). -/
def foldEq1 {α : Type} (f : α → α → M p (AV p)) : List α → List α → M p (AV p)
  | a :: as, b :: bs => do
    let c ← f a b
    foldEq f c as bs
  | _, _ => panic

/-- The native extension field: `FieldExtConstructor` (fields/mod.rs:303-307) and the arithmetic which `FieldOps` needs. -/
structure ExtField (F : FieldOps p) where
  V : Type
  new : List F.V → V
  coeffs : V → List F.V
  vdiv : V → V → V
  vneg : V → V
  vzero : V

variable (F : FieldOps p)

/-- `FieldVectorChip::fp_mul_no_carry` (vector.rs:86-100). -/
def fpMulNoCarry (a : List F.U) (x : F.U) : M p (List F.U) := mapList (fun a => F.mulNoCarry a x) a

/-- `FieldVectorChip::select` (vector.rs:102-117). -/
def vecSelect (a b : List F.P) (sel : AV p) : M p (List F.P) := zipEqList (fun a b => F.select a b sel) a b

/-- The methods of `FieldChip` which the extension chips take from `FieldVectorChip` (vector.rs:119-359, the macro
`impl_field_ext_chip_common` 362-505), given the two methods that depend on the extension.  The vector chips have no
`Selectable` implementation; `select` is `FieldVectorChip::select`, `select_by_indicator` does not exist. -/
def vecOps (E : ExtField F) (getAssignedValue : List F.U → M p E.V) (mulNoCarry : List F.U → List F.U → M p (List F.U)) :
    FieldOps p where
  U := List F.U
  P := List F.P
  V := E.V
  ofP := fun a => a.map F.ofP
  vdiv := E.vdiv
  vneg := E.vneg
  vzero := E.vzero
  getAssignedValue := getAssignedValue
  loadPrivate := fun v => mapList F.loadPrivate (E.coeffs v)
  loadConstant := fun v => mapList F.loadConstant (E.coeffs v)
  addNoCarry := zipEqList F.addNoCarry
  addConstantNoCarry := fun a v => zipEqList F.addConstantNoCarry a (E.coeffs v)
  subNoCarry := zipEqList F.subNoCarry
  negate := mapList F.negate
  scalarMulNoCarry := fun a c => mapList (fun a => F.scalarMulNoCarry a c) a
  scalarMulAddNoCarry := fun a b c => zipEqList (fun a b => F.scalarMulAddNoCarry a b c) a b
  mulNoCarry := mulNoCarry
  checkCarryModToZero := forList F.checkCarryModToZero
  carryMod := mapList F.carryMod
  rangeCheck := fun a maxBits => forList (fun a => F.rangeCheck a maxBits) a
  enforceLessThan := mapList F.enforceLessThan
  isSoftZero := foldGate1 F.isSoftZero and
  isSoftNonzero := foldGate1 F.isSoftNonzero or
  isZero := foldGate1 F.isZero and
  isEqualUnenforced := foldEq1 F.isEqualUnenforced
  assertEqual := forZip F.assertEqual
  select := vecSelect F
  selectByIndicator := fun _ _ => panic

/-! ### `Fp2Chip` -/

/-- `Fp2Chip::mul_no_carry` (fp2.rs:90-116). -/
def fp2MulNoCarry (a b : List F.U) : M p (List F.U) :=
  match a, b with
  | [a0, a1], [b0, b1] => do
    let c00 ← F.mulNoCarry a0 b0
    let c01 ← F.mulNoCarry a0 b1
    let c10 ← F.mulNoCarry a1 b0
    let c11 ← F.mulNoCarry a1 b1
    let re ← F.subNoCarry c00 c11
    let im ← F.addNoCarry c01 c10
    pure [re, im]
  | _, _ => panic

/-- `Fp2Chip::get_assigned_value` (fp2.rs:83-88), `Fp12Chip::get_assigned_value` (fp12.rs:135-139) for degree `d`. -/
def extGetAssignedValue (E : ExtField F) (d : ℕ) (x : List F.U) : M p E.V := do
  assertM (x.length == d)
  let cs ← mapList F.getAssignedValue x
  pure (E.new cs)

/-- `Fp2Chip` as a `FieldChip` (fp2.rs:66-120).  The constructor's assertion (fp2.rs:31-35) that the base field's modulus is 3
modulo 4 is about native constants. -/
def fp2Ops (E : ExtField F) : FieldOps p := vecOps F E (extGetAssignedValue F E 2) (fp2MulNoCarry F)

/-- `Fp2Chip::conjugate` (fp2.rs:43-53). -/
def fp2Conjugate (a : List F.P) : M p (List F.P) :=
  match a with
  | [a0, a1] => do
    let n ← F.negate a1
    pure [a0, n]
  | _ => panic

/-- `Fp2Chip::neg_conjugate` (fp2.rs:55-66). -/
def fp2NegConjugate (a : List F.P) : M p (List F.P) :=
  match a with
  | [a0, a1] => do
    let n ← F.negate a0
    pure [n, a1]
  | _ => panic

/-! ### `Fp12Chip` -/

/-- `mul_no_carry_w6` (fp12.rs:104-116). -/
def mulNoCarryW6 (xi : ℤ) (a : List F.U) : M p (List F.U) :=
  match a with
  | [a0, a1] => do
    let x ← F.scalarMulNoCarry a0 xi
    let r0 ← F.subNoCarry x a1
    let r1 ← F.scalarMulAddNoCarry a1 a0 xi
    pure [r0, r1]
  | _ => panic

/-- One of the accumulators of `Fp12Chip::mul_no_carry`: `if i + j < v.len() { v[i + j] = v[i + j] + c } else { v.push(c) }`
(fp12.rs:167-177). -/
def accAdd (v : List F.U) (k : ℕ) (c : F.U) : M p (List F.U) :=
  match v[k]? with
  | some x => do
    let y ← F.addNoCarry x c
    pure (v.set k y)
  | none => pure (v ++ [c])

/-- The accumulators `a0b0_coeffs`, `a0b1_coeffs`, `a1b0_coeffs`, `a1b1_coeffs` (fp12.rs:157-160). -/
structure Acc4 (α : Type) where
  c00 : List α
  c01 : List α
  c10 : List α
  c11 : List α

/-- The body of the double loop of `Fp12Chip::mul_no_carry` (fp12.rs:163-178) for the coefficients `a[i]`, `a[i + 6]`, `b[j]`,
`b[j + 6]` and `k = i + j`. -/
def fp12Step (acc : Acc4 F.U) (a0 a1 b0 b1 : F.U) (k : ℕ) : M p (Acc4 F.U) := do
  let x00 ← F.mulNoCarry a0 b0
  let x01 ← F.mulNoCarry a0 b1
  let x10 ← F.mulNoCarry a1 b0
  let x11 ← F.mulNoCarry a1 b1
  let c00 ← accAdd F acc.c00 k x00
  let c01 ← accAdd F acc.c01 k x01
  let c10 ← accAdd F acc.c10 k x10
  let c11 ← accAdd F acc.c11 k x11
  pure ⟨c00, c01, c10, c11⟩

/-- The inner loop (fp12.rs:162-179) over `b[j]`, `b[j + 6]`. -/
def fp12Inner (a0 a1 : F.U) (k : ℕ) (acc : Acc4 F.U) : List F.U → List F.U → M p (Acc4 F.U)
  | b0 :: bs0, b1 :: bs1 => do
    let acc ← fp12Step F acc a0 a1 b0 b1 k
    fp12Inner a0 a1 (k + 1) acc bs0 bs1
  | _, _ => pure acc

/-- The outer loop (fp12.rs:161-180) over `a[i]`, `a[i + 6]`. -/
def fp12Outer (bs0 bs1 : List F.U) (k : ℕ) (acc : Acc4 F.U) : List F.U → List F.U → M p (Acc4 F.U)
  | a0 :: as0, a1 :: as1 => do
    let acc ← fp12Inner F a0 a1 k acc bs0 bs1
    fp12Outer bs0 bs1 (k + 1) acc as0 as1
  | _, _ => pure acc

/-- The loop computing `a0b0_minus_a1b1` and `a0b1_plus_a1b0` (fp12.rs:182-190). -/
def fp12Combine : List F.U → List F.U → List F.U → List F.U → M p (List F.U × List F.U)
  | x00 :: c00, x01 :: c01, x10 :: c10, x11 :: c11 => do
    let d ← F.subNoCarry x00 x11
    let e ← F.addNoCarry x01 x10
    let (ds, es) ← fp12Combine c00 c01 c10 c11
    pure (d :: ds, e :: es)
  | _, _, _, _ => pure ([], [])

/-- The first output loop (fp12.rs:195-208) over the entries `i` and, where they exist, `i + 6`. -/
def fp12Out0 (xi : ℤ) : List F.U → List F.U → List F.U → M p (List F.U)
  | lo :: los, hi :: his, ei :: eis => do
    let c ← F.scalarMulAddNoCarry hi lo xi
    let c ← F.subNoCarry c ei
    let cs ← fp12Out0 xi los his eis
    pure (c :: cs)
  | los, _, _ => pure los

/-- The second output loop (fp12.rs:209-219). -/
def fp12Out1 (xi : ℤ) : List F.U → List F.U → List F.U → M p (List F.U)
  | lo :: los, hi :: his, ei :: eis => do
    let c ← F.addNoCarry lo hi
    let c ← F.scalarMulAddNoCarry ei c xi
    let cs ← fp12Out1 xi los his eis
    pure (c :: cs)
  | los, _, _ => pure los

/-- `Fp12Chip::mul_no_carry` (fp12.rs:142-222). -/
def fp12MulNoCarry (xi : ℤ) (a b : List F.U) : M p (List F.U) := do
  assertM (a.length == 12)
  assertM (b.length == 12)
  let acc ← fp12Outer F (b.take 6) (b.drop 6) 0 ⟨[], [], [], []⟩ (a.take 6) (a.drop 6)
  let (ds, es) ← fp12Combine F acc.c00 acc.c01 acc.c10 acc.c11
  let r0 ← fp12Out0 F xi (ds.take 6) (ds.drop 6) (es.drop 6)
  let r1 ← fp12Out1 F xi (es.take 6) (ds.drop 6) (es.drop 6)
  pure (r0 ++ r1)

/-- `Fp12Chip` as a `FieldChip` (fp12.rs:120-225). -/
def fp12Ops (E : ExtField F) (xi : ℤ) : FieldOps p := vecOps F E (extGetAssignedValue F E 12) (fp12MulNoCarry F xi)

/-- The first loop of `fp2_mul_no_carry` (fp12.rs:64-69) over `fp12_pt[i]`, `fp12_pt[i + 6]`. -/
def fp2MulLoop0 (x y : F.U) : List F.U → List F.U → M p (List F.U)
  | a :: as, b :: bs => do
    let c1 ← F.mulNoCarry a x
    let c2 ← F.mulNoCarry b y
    let c ← F.subNoCarry c1 c2
    let cs ← fp2MulLoop0 x y as bs
    pure (c :: cs)
  | _, _ => pure []

/-- The second loop of `fp2_mul_no_carry` (fp12.rs:70-75). -/
def fp2MulLoop1 (x y : F.U) : List F.U → List F.U → M p (List F.U)
  | a :: as, b :: bs => do
    let c1 ← F.mulNoCarry b x
    let c2 ← F.mulNoCarry a y
    let c ← F.addNoCarry c1 c2
    let cs ← fp2MulLoop1 x y as bs
    pure (c :: cs)
  | _, _ => pure []

/-- `Fp12Chip::fp2_mul_no_carry` (fp12.rs:50-77). -/
def fp12Fp2MulNoCarry (a b : List F.U) : M p (List F.U) :=
  match b with
  | [x, y] => do
    assertM (a.length == 12)
    let r0 ← fp2MulLoop0 F x y (a.take 6) (a.drop 6)
    let r1 ← fp2MulLoop1 F x y (a.take 6) (a.drop 6)
    pure (r0 ++ r1)
  | _ => panic

/-- The loop of `Fp12Chip::conjugate` (fp12.rs:88-93); `even` says whether the index of the first element is even. -/
def conjLoop : Bool → List F.P → M p (List F.P)
  | _, [] => pure []
  | true, c :: cs => do
    let rs ← conjLoop false cs
    pure (c :: rs)
  | false, c :: cs => do
    let n ← F.negate c
    let rs ← conjLoop true cs
    pure (n :: rs)

/-- `Fp12Chip::conjugate` (fp12.rs:80-95). -/
def fp12Conjugate (a : List F.P) : M p (List F.P) := do
  assertM (a.length == 12)
  conjLoop F true a

/-! ### `NativeFieldChip` -/

/-- `NativeFieldChip::scalar_mul_no_carry` and `scalar_mul_and_add_no_carry` convert the scalar as the big integer routines do
(native_fp.rs:88-94, 106-112). -/
def nativeScalarMul (a : AV p) (c : ℤ) : M p (AV p) := do
  let (cf, _) ← i64ToFe c
  mul (.existing a) (.constant cf)

/-- `scalar_mul_and_add_no_carry` (native_fp.rs:99-115). -/
def nativeScalarMulAdd (a b : AV p) (c : ℤ) : M p (AV p) := do
  let (cf, _) ← i64ToFe c
  mulAdd (.existing a) (.constant cf) (.existing b)

/-- `is_soft_nonzero` (native_fp.rs:162-170): the result of `is_soft_zero` goes through `neg`, not `not`. -/
def nativeIsSoftNonzero (a : AV p) : M p (AV p) := do
  let z ← isZero a
  neg (.existing z)

/-- `NativeFieldChip` (native_fp.rs:26-224) with `lookup_bits` `L` of the range chip. -/
def nativeOps (p : ℕ) [Fact p.Prime] (L : ℕ) : FieldOps p where
  U := AV p
  P := AV p
  V := ZMod p
  ofP := fun a => a
  vdiv := fun a b => a * b⁻¹
  vneg := fun a => -a
  vzero := (0 : ZMod p)
  getAssignedValue := fun a => unwrap a.val?
  loadPrivate := loadWitness
  loadConstant := loadConstant
  addNoCarry := fun a b => add (.existing a) (.existing b)
  addConstantNoCarry := fun a c => add (.existing a) (.constant c)
  subNoCarry := fun a b => sub (.existing a) (.existing b)
  negate := fun a => neg (.existing a)
  scalarMulNoCarry := nativeScalarMul
  scalarMulAddNoCarry := nativeScalarMulAdd
  mulNoCarry := fun a b => mul (.existing a) (.existing b)
  checkCarryModToZero := fun a => assertIsConst a 0
  carryMod := fun a => pure a
  rangeCheck := fun a maxBits => if maxBits < numBits p then rangeCheck L a maxBits else pure ()
  enforceLessThan := fun a => pure a
  isSoftZero := isZero
  isSoftNonzero := nativeIsSoftNonzero
  isZero := isZero
  isEqualUnenforced := fun a b => isEqual (.existing a) (.existing b)
  assertEqual := constrainEqual
  select := fun a b sel => select (.existing a) (.existing b) (.existing sel)
  selectByIndicator := fun as ind => selectByIndicator (as.map .existing) ind

end H2
