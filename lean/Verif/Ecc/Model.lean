import Verif.Fields.Model
import Verif.Poseidon.Model

/-!
# Model of `halo2-ecc/src/ecc/mod.rs`

Generic over the field chip (`FieldOps`).  A `StrictEcPoint` (mod.rs:60-72) has the same data as an `EcPoint` (reduced points
are modelled by the wrapped point); `ComparableEcPoint` (mod.rs:90-95) remembers which of the two it is.  Random witnesses drawn
from an RNG (`ChaCha20Rng::from_entropy`) are parameters of the model.  The curve `C` enters through the constant `C::b()`.
-/

set_option autoImplicit false
namespace H2
variable {p : ℕ} [Fact p.Prime]

/-- `EcPoint` (mod.rs:26-31), also `StrictEcPoint` (mod.rs:60-65). -/
structure EcPt (F : FieldOps p) where
  x : F.P
  y : F.P

/-- `ComparableEcPoint` (mod.rs:90-95). -/
inductive CmpPt (F : FieldOps p) where
  | strict (pt : EcPt F)
  | nonStrict (pt : EcPt F)

/-- `From<ComparableEcPoint> for EcPoint` (mod.rs:125-134). -/
def CmpPt.pt {F : FieldOps p} : CmpPt F → EcPt F
  | .strict pt => pt
  | .nonStrict pt => pt

variable (F : FieldOps p)

/-- The `match` computing a reduced first coordinate (mod.rs:194-197, 353-356). -/
def reducedX : CmpPt F → M p F.P
  | .strict pt => pure pt.x
  | .nonStrict pt => F.enforceLessThan pt.x

/-- `check_points_are_unequal` (mod.rs:182-203); the conversions it returns are `CmpPt.pt`. -/
def checkPointsAreUnequal (P Q : CmpPt F) (doCheck : Bool) : M p Unit :=
  if doCheck then do
    let x1 ← reducedX F P
    let x2 ← reducedX F Q
    let e ← F.isEqualUnenforced x1 x2
    assertIsConst e 0
  else pure ()

/-- The end of `ec_add_unequal` and `ec_sub_unequal` (mod.rs:166-177, 234-245): from the slope `lambda`, the third point. -/
def chordEnd (P Q : EcPt F) (lambda : F.P) : M p (EcPt F) := do
  let lambdaSq ← F.mulNoCarry (F.ofP lambda) (F.ofP lambda)
  let m1 ← F.subNoCarry lambdaSq (F.ofP P.x)
  let x3nc ← F.subNoCarry m1 (F.ofP Q.x)
  let x3 ← F.carryMod x3nc
  let dx13 ← F.subNoCarry (F.ofP P.x) (F.ofP x3)
  let m2 ← F.mulNoCarry (F.ofP lambda) dx13
  let y3nc ← F.subNoCarry m2 (F.ofP P.y)
  let y3 ← F.carryMod y3nc
  pure ⟨x3, y3⟩

/-- `ec_add_unequal` (mod.rs:152-178). -/
def ecAddUnequal (P Q : CmpPt F) (isStrict : Bool) : M p (EcPt F) := do
  checkPointsAreUnequal F P Q isStrict
  let dx ← F.subNoCarry (F.ofP Q.pt.x) (F.ofP P.pt.x)
  let dy ← F.subNoCarry (F.ofP Q.pt.y) (F.ofP P.pt.y)
  let lambda ← F.divideUnsafe dy dx
  chordEnd F P.pt Q.pt lambda

/-- `ec_sub_unequal` (mod.rs:220-246). -/
def ecSubUnequal (P Q : CmpPt F) (isStrict : Bool) : M p (EcPt F) := do
  checkPointsAreUnequal F P Q isStrict
  let dx ← F.subNoCarry (F.ofP Q.pt.x) (F.ofP P.pt.x)
  let sy ← F.addNoCarry (F.ofP Q.pt.y) (F.ofP P.pt.y)
  let lambda ← F.negDivideUnsafe sy dx
  chordEnd F P.pt Q.pt lambda

/-- `ec_select` (mod.rs:402-415). -/
def ecSelect (P Q : EcPt F) (sel : AV p) : M p (EcPt F) := do
  let rx ← F.select P.x Q.x sel
  let ry ← F.select P.y Q.y sel
  pure ⟨rx, ry⟩

/-- `ec_sub_strict` (mod.rs:253-287); `rand` is the random pair of field elements (mod.rs:277-278). -/
def ecSubStrict (rand : F.V × F.V) (P Q : EcPt F) : M p (EcPt F) := do
  let xEq ← F.isEqual P.x Q.x
  let yEq ← F.isEqual P.y Q.y
  let isId ← and (.existing xEq) (.existing yEq)
  constrainEqual xEq isId
  let rx ← F.loadPrivate rand.1
  let ry ← F.loadPrivate rand.2
  let P' ← ecSelect F ⟨rx, ry⟩ P isId
  let out ← ecSubUnequal F (.nonStrict P') (.nonStrict Q) false
  let zero ← F.loadConstant F.vzero
  ecSelect F ⟨zero, zero⟩ out isId

/-- `ec_double` (mod.rs:305-328). -/
def ecDouble (P : EcPt F) : M p (EcPt F) := do
  let twoY ← F.scalarMulNoCarry (F.ofP P.y) 2
  let threeX ← F.scalarMulNoCarry (F.ofP P.x) 3
  let threeXSq ← F.mulNoCarry threeX (F.ofP P.x)
  let lambda ← F.divideUnsafe threeXSq twoY
  let lambdaSq ← F.mulNoCarry (F.ofP lambda) (F.ofP lambda)
  let twoX ← F.scalarMulNoCarry (F.ofP P.x) 2
  let x3nc ← F.subNoCarry lambdaSq twoX
  let x3 ← F.carryMod x3nc
  let dx ← F.subNoCarry (F.ofP P.x) (F.ofP x3)
  let lambdaDx ← F.mulNoCarry (F.ofP lambda) dx
  let y3nc ← F.subNoCarry lambdaDx (F.ofP P.y)
  let y3 ← F.carryMod y3nc
  pure ⟨x3, y3⟩

/-- The two `if is_strict` blocks of `ec_double_and_add_unequal` share `x_0` (mod.rs:350-361, 375-381): the first block. -/
def daCheck1 (P Q : CmpPt F) (isStrict : Bool) : M p (Option F.P) :=
  if isStrict then do
    let x0 ← reducedX F P
    let x1 ← reducedX F Q
    let e ← F.isEqualUnenforced x0 x1
    assertIsConst e 0
    pure (some x0)
  else pure none

/-- The second `if is_strict` block of `ec_double_and_add_unequal` (mod.rs:375-381). -/
def daCheck2 (x0 : Option F.P) (x2 : F.P) (isStrict : Bool) : M p Unit :=
  if isStrict then do
    let x2 ← F.enforceLessThan x2
    let x0 ← unwrap x0
    let e ← F.isEqualUnenforced x0 x2
    assertIsConst e 0
  else pure ()

/-- `ec_double_and_add_unequal` (mod.rs:342-400). -/
def ecDoubleAndAddUnequal (P Q : CmpPt F) (isStrict : Bool) : M p (EcPt F) := do
  let x0 ← daCheck1 F P Q isStrict
  let dx ← F.subNoCarry (F.ofP Q.pt.x) (F.ofP P.pt.x)
  let dy ← F.subNoCarry (F.ofP Q.pt.y) (F.ofP P.pt.y)
  let lambda0 ← F.divideUnsafe dy dx
  let lambda0Sq ← F.mulNoCarry (F.ofP lambda0) (F.ofP lambda0)
  let m1 ← F.subNoCarry lambda0Sq (F.ofP P.pt.x)
  let x2nc ← F.subNoCarry m1 (F.ofP Q.pt.x)
  let x2 ← F.carryMod x2nc
  daCheck2 F x0 x2 isStrict
  let twoY0 ← F.scalarMulNoCarry (F.ofP P.pt.y) 2
  let x20 ← F.subNoCarry (F.ofP x2) (F.ofP P.pt.x)
  let d ← F.divideUnsafe twoY0 x20
  let lambda1 ← F.addNoCarry (F.ofP lambda0) (F.ofP d)
  let lambda1Sq ← F.mulNoCarry lambda1 lambda1
  let m2 ← F.subNoCarry lambda1Sq (F.ofP P.pt.x)
  let xrnc ← F.subNoCarry m2 (F.ofP x2)
  let xr ← F.carryMod xrnc
  let xr0 ← F.subNoCarry (F.ofP xr) (F.ofP P.pt.x)
  let m3 ← F.mulNoCarry lambda1 xr0
  let yrnc ← F.subNoCarry m3 (F.ofP P.pt.y)
  let yr ← F.carryMod yrnc
  pure ⟨xr, yr⟩

/-- `ec_select_by_indicator` (mod.rs:419-441). -/
def ecSelectByIndicator (points : List (EcPt F)) (coeffs : List (AV p)) : M p (EcPt F) := do
  let rx ← F.selectByIndicator (points.map (·.x)) coeffs
  let ry ← F.selectByIndicator (points.map (·.y)) coeffs
  pure ⟨rx, ry⟩

/-- `ec_select_from_bits` (mod.rs:444-458) and, the data being the same, `strict_ec_select_from_bits` (mod.rs:461-477). -/
def ecSelectFromBits (points : List (EcPt F)) (sel : List (AV p)) : M p (EcPt F) := do
  assertM (2 ^ sel.length == points.length)
  let coeffs ← bitsToIndicator sel
  ecSelectByIndicator F points coeffs

/-- The left and right side and their difference, shared by `check_is_on_curve` (mod.rs:594-600) and
`is_on_curve_or_infinity` (mod.rs:917-922). -/
def curveDiff (b : F.V) (P : EcPt F) : M p F.U := do
  let lhs ← F.mulNoCarry (F.ofP P.y) (F.ofP P.y)
  let rhs ← F.mul (F.ofP P.x) (F.ofP P.x)
  let rhs ← F.mulNoCarry (F.ofP rhs) (F.ofP P.x)
  let rhs ← F.addConstantNoCarry rhs b
  F.subNoCarry lhs rhs

/-- `check_is_on_curve` (mod.rs:588-602). -/
def checkIsOnCurve (b : F.V) (P : EcPt F) : M p Unit := do
  let diff ← curveDiff F b P
  F.checkCarryModToZero diff

/-- `EccChip::load_private_unchecked` (mod.rs:845-854). -/
def loadPrivateUnchecked (v : F.V × F.V) : M p (EcPt F) := do
  let x ← F.loadPrivate v.1
  let y ← F.loadPrivate v.2
  pure ⟨x, y⟩

/-- `load_random_point` (mod.rs:604-620), where `v` are the coordinates of the random point; `EccChip::load_private`
(mod.rs:831-842) does the same with given coordinates. -/
def loadPoint (b : F.V) (v : F.V × F.V) : M p (EcPt F) := do
  let pt ← loadPrivateUnchecked F v
  checkIsOnCurve F b pt
  pure pt

/-- `into_strict_point` (mod.rs:622-633). -/
def intoStrictPoint (pt : EcPt F) : M p (EcPt F) := do
  let x ← F.enforceLessThan pt.x
  pure ⟨x, pt.y⟩

/-- `EccChip::is_on_curve_or_infinity` (mod.rs:908-931). -/
def isOnCurveOrInfinity (b : F.V) (P : EcPt F) : M p (AV p) := do
  let diff ← curveDiff F b P
  let diff ← F.carryMod diff
  let isOn ← F.isZero diff
  let xz ← F.isZero P.x
  let yz ← F.isZero P.y
  orAnd (.existing isOn) (.existing xz) (.existing yz)

/-- `EccChip::assign_point` (mod.rs:858-868), `v` being the coordinates of the point (`(0, 0)` for the identity). -/
def assignPoint (b : F.V) (v : F.V × F.V) : M p (EcPt F) := do
  let pt ← loadPrivateUnchecked F v
  let on ← isOnCurveOrInfinity F b pt
  assertIsConst on 1
  pure pt

/-- `EccChip::assign_constant_point` (mod.rs:883-892). -/
def assignConstantPoint (v : F.V × F.V) : M p (EcPt F) := do
  let x ← F.loadConstant v.1
  let y ← F.loadConstant v.2
  pure ⟨x, y⟩

/-- `EccChip::negate` (mod.rs:933-940). -/
def ecNegate (P : EcPt F) : M p (EcPt F) := do
  let y ← F.negate P.y
  pure ⟨P.x, y⟩

/-- `EccChip::is_equal` (mod.rs:974-984). -/
def ecIsEqual (P Q : EcPt F) : M p (AV p) := do
  let xe ← F.isEqual P.x Q.x
  let ye ← F.isEqual P.y Q.y
  and (.existing xe) (.existing ye)

/-- `EccChip::assert_equal` (mod.rs:986-994). -/
def ecAssertEqual (P Q : EcPt F) : M p Unit := do
  F.assertEqual P.x Q.x
  F.assertEqual P.y Q.y

/-- The loop of `EccChip::sum` (mod.rs:1008-1011). -/
def ecSumLoop (acc : EcPt F) : List (EcPt F) → M p (EcPt F)
  | [] => pure acc
  | P :: Ps => do
    let a ← ecAddUnequal F (.strict acc) (.nonStrict P) true
    let acc ← intoStrictPoint F a
    ecSumLoop acc Ps

/-- `EccChip::sum` (mod.rs:997-1013). -/
def ecSum (b : F.V) (rand : F.V × F.V) (points : List (EcPt F)) : M p (EcPt F) := do
  let r ← loadPoint F b rand
  let r ← intoStrictPoint F r
  let acc ← ecSumLoop F r points
  ecSubUnequal F (.strict acc) (.strict r) true

/-! ### `multi_scalar_multiply` -/

/-- `flat_map(|chunk| num_to_bits(ctx, chunk, max_bits))` (mod.rs:680-681, fixed_base.rs:84-87). -/
def chunkBits (maxBits : ℕ) : List (AV p) → M p (List (AV p))
  | [] => pure []
  | a :: as => do
    let bs ← numToBits a maxBits
    let rest ← chunkBits maxBits as
    pure (bs ++ rest)

/-- `rounded_bits` (mod.rs:675-685): the bits of all scalars, each followed by `pad` zero cells. -/
def msmBits (maxBits pad : ℕ) (zero : AV p) : List (List (AV p)) → M p (List (AV p))
  | [] => pure []
  | s :: ss => do
    let bs ← chunkBits maxBits s
    let rest ← msmBits maxBits pad zero ss
    pure (bs ++ List.replicate pad zero ++ rest)

/-- `n` successive doublings of `P`, all of them: `[2 P, 4 P, ...]` (mod.rs:693-696). -/
def doublings (P : EcPt F) : ℕ → M p (List (EcPt F))
  | 0 => pure []
  | n + 1 => do
    let d ← ecDouble F P
    let rest ← doublings d n
    pure (d :: rest)

/-- `n` successive doublings of `P`, the last one (mod.rs:743-745). -/
def doubleN (P : EcPt F) : ℕ → M p (EcPt F)
  | 0 => pure P
  | n + 1 => do
    let d ← ecDouble F P
    doubleN d n

/-- The inner loop filling `cached_points` (mod.rs:720-729); returns what it pushes. -/
def cacheRow (isInf : AV p) (point : EcPt F) (prev : EcPt F) : ℕ → M p (List (EcPt F))
  | 0 => pure []
  | n + 1 => do
    let a ← ecAddUnequal F (.strict prev) (.strict point) true
    let a ← ecSelect F prev a isInf
    let a ← intoStrictPoint F a
    let rest ← cacheRow isInf point a n
    pure (a :: rest)

/-- The loop filling `cached_points` (mod.rs:702-730), from index `idx` on. -/
def cacheLoop (rands : List (EcPt F)) (windowBits : ℕ) (idx : ℕ) : List (EcPt F) → M p (List (EcPt F))
  | [] => pure []
  | P :: Ps => do
    let isInf ← F.isZero P.y
    let r0 ← unwrap rands[idx]?
    let r1 ← unwrap rands[idx + windowBits]?
    let neg ← ecSubUnequal F (.nonStrict r0) (.nonStrict r1) true
    let point ← intoStrictPoint F P
    let neg ← intoStrictPoint F neg
    let row ← cacheRow F isInf point neg (2 ^ windowBits - 1)
    let rest ← cacheLoop rands windowBits (idx + 1) Ps
    pure (neg :: row ++ rest)

/-- `&l[a..b]` on a slice. -/
def sliceM {α : Type} (l : List α) (a b : ℕ) : M p (List α) :=
  if a ≤ b ∧ b ≤ l.length then pure ((l.drop a).take (b - a)) else panic

/-- The inner loop over the points (mod.rs:746-760) for the window at bits `lo..hi`. -/
def msmAddLoop (lo hi : ℕ) (curr : EcPt F) : List (List (EcPt F) × List (AV p)) → M p (EcPt F)
  | [] => pure curr
  | (cached, bits) :: rest => do
    let sel ← sliceM bits lo hi
    let add ← ecSelectFromBits F cached sel
    let curr ← ecAddUnequal F (.nonStrict curr) (.nonStrict add) true
    msmAddLoop lo hi curr rest

/-- The loop over the windows (mod.rs:742-761): `n` more windows, of which the first ends at bit `windowBits * n` (the window
with index `idx` is `rounded_bitlen - window_bits * (idx + 1) .. rounded_bitlen - window_bits * idx` and `rounded_bitlen` is
`num_windows * window_bits`). -/
def msmLoop (windowBits : ℕ) (rows : List (List (EcPt F) × List (AV p))) (curr : EcPt F) : ℕ → M p (EcPt F)
  | 0 => pure curr
  | n + 1 => do
    let d ← doubleN F curr windowBits
    let curr ← msmAddLoop F (windowBits * n) (windowBits * (n + 1)) d rows
    msmLoop windowBits rows curr n

/-- Random choices of `multi_scalar_multiply`: the base point, the pair in `ec_sub_strict`. -/
structure MsmRand where
  base : F.V × F.V
  pair : F.V × F.V

/-- `multi_scalar_multiply` (mod.rs:650-763).  `window_bits = 0` panics (division by zero, mod.rs:671). -/
def multiScalarMultiply (b : F.V) (rand : MsmRand F) (P : List (EcPt F)) (scalars : List (List (AV p)))
    (maxBits windowBits : ℕ) : M p (EcPt F) := do
  let k := P.length
  assertM (k == scalars.length)
  assertM (k != 0)
  let s0 ← unwrap scalars[0]?
  assertM (s0.length != 0)
  assertM (maxBits ≤ numBits p)
  assertM (windowBits != 0)
  let totalBits := maxBits * s0.length
  let numWindows := (totalBits + windowBits - 1) / windowBits
  let roundedBitlen := numWindows * windowBits
  let zero ← loadZero
  let bits ← msmBits maxBits (roundedBitlen - totalBits) zero scalars
  let base ← loadPoint F b rand.base
  let ds ← doublings F base (k + windowBits - 1)
  let rands := base :: ds
  let cached ← cacheLoop F rands windowBits 0 P
  let rk ← unwrap rands[k]?
  let r0 ← unwrap rands[0]?
  let start ← ecSubUnequal F (.nonStrict rk) (.nonStrict r0) true
  let curr ← msmLoop F windowBits ((chunksOf (2 ^ windowBits) cached).zip (chunksOf roundedBitlen bits)) start numWindows
  ecSubStrict F rand.pair curr start

/-- `scalar_multiply` (mod.rs:489-511). -/
def scalarMultiply (b : F.V) (rand : MsmRand F) (P : EcPt F) (scalar : List (AV p)) (maxBits windowBits : ℕ) :
    M p (EcPt F) := do
  assertM (scalar.length != 0)
  assertM (maxBits ≤ numBits p)
  assertM (windowBits != 0)
  multiScalarMultiply F b rand [P] [scalar] maxBits windowBits

end H2
