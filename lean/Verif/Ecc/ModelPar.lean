import Verif.Ecc.Model
import Verif.Threads.Pool

/-!
# Model of `halo2-ecc/src/ecc/fixed_base.rs`, `halo2-ecc/src/ecc/pippenger.rs` and of the MSM methods of `EccChip`

`CurveAffineExt` (native curve arithmetic in the curve crates, used to precompute the multiples of a fixed point) is a parameter.
`rayon`'s parallel iterators preserve the order of their items, they are modelled by lists.
-/

set_option autoImplicit false
namespace H2
variable {p : ℕ} [Fact p.Prime] (F : FieldOps p)

/-- What `fixed_base.rs` uses of the native curve type `C`: the group (`C::Curve`), `is_identity`, `+=`, and
`batch_normalize` followed by `into_coordinates` (`(0, 0)` for the identity). -/
structure NativeCurve where
  G : Type
  isIdentity : G → Bool
  add : G → G → G
  coords : G → F.V × F.V

variable {F} in
/-- The closure's loop `(1..n).map(..)` (fixed_base.rs:57-61): `n` more steps; the pushed points and the final `curr`. -/
def fbSteps (C : NativeCurve F) (inc curr : C.G) : ℕ → List C.G × C.G
  | 0 => ([], curr)
  | n + 1 =>
    let r := fbSteps C inc (C.add curr inc) n
    (curr :: r.1, r.2)

variable {F} in
/-- `cached_points_jacobian` (fixed_base.rs:51-66, 145-161): from window `i` with increment `inc` on, `n` more windows. -/
def fbCache (C : NativeCurve F) (windowBits totalBits : ℕ) (inc : C.G) (i : ℕ) : ℕ → List C.G
  | 0 => []
  | n + 1 =>
    let r := fbSteps C inc inc (2 ^ min windowBits (totalBits - i * windowBits) - 1)
    (inc :: r.1) ++ fbCache C windowBits totalBits r.2 (i + 1) n

/-- Loading the cached points as constants (fixed_base.rs:73-80, 180-183). -/
def fbLoad : List (F.V × F.V) → M p (List (EcPt F))
  | [] => pure []
  | v :: vs => do
    let P ← assignConstantPoint F v
    let Ps ← fbLoad vs
    pure (P :: Ps)

/-- The loop over the windows (fixed_base.rs:91-100, 195-206). -/
def fbLoop (curr : EcPt F) : List (List (EcPt F) × List (AV p)) → M p (EcPt F)
  | [] => pure curr
  | (cached, bits) :: rest => do
    let bitSum ← sum (bits.map .existing)
    let isZeroWindow ← isZero bitSum
    let add ← ecSelectFromBits F cached bits
    let sum ← ecAddUnequal F (.nonStrict curr) (.nonStrict add) true
    let curr ← ecSelect F curr sum isZeroWindow
    fbLoop curr rest

/-- `fixed_base::scalar_multiply` (fixed_base.rs:23-102), also `EccChip::fixed_base_scalar_mult` (mod.rs:1109-1129).
`window_bits = 0` panics (division by zero, fixed_base.rs:44). -/
def fixedScalarMultiply (C : NativeCurve F) (b : F.V) (rand : MsmRand F) (point : C.G) (scalar : List (AV p))
    (maxBits windowBits : ℕ) : M p (EcPt F) :=
  if C.isIdentity point then do
    let zero ← F.loadConstant F.vzero
    pure ⟨zero, zero⟩
  else do
    assertM (scalar.length != 0)
    assertM (maxBits ≤ numBits p)
    assertM (windowBits != 0)
    let totalBits := maxBits * scalar.length
    let numWindows := (totalBits + windowBits - 1) / windowBits
    let cached ← fbLoad F ((fbCache C windowBits totalBits point 0 numWindows).map C.coords)
    let bits ← chunkBits maxBits scalar
    let anyPoint ← loadPoint F b rand.base
    let curr ← fbLoop F anyPoint ((chunksOf (2 ^ windowBits) cached).reverse.zip (chunksOf windowBits bits).reverse)
    ecSubStrict F rand.pair curr anyPoint

/-- The task of one thread of `msm_par` (fixed_base.rs:179-208). -/
def fbTask (anyPoint : EcPt F) (scalarLen maxBits windowBits : ℕ) (x : List (F.V × F.V) × List (AV p)) : M p (EcPt F) := do
  let cached ← fbLoad F x.1
  assertM (x.2.length == scalarLen)
  let bits ← chunkBits maxBits x.2
  fbLoop F anyPoint ((chunksOf (2 ^ windowBits) cached).reverse.zip (chunksOf windowBits bits).reverse)

/-- The accumulation of `msm_par` (fixed_base.rs:213-217). -/
def fbAccLoop (anyPoint : EcPt F) (acc : EcPt F) : List (EcPt F) → M p (EcPt F)
  | [] => pure acc
  | P :: Ps => do
    let newAcc ← ecAddUnequal F (.nonStrict acc) (.nonStrict P) true
    let acc ← ecSubUnequal F (.nonStrict newAcc) (.nonStrict anyPoint) true
    fbAccLoop anyPoint acc Ps

/-- The end of `msm_par` (fixed_base.rs:210-218). -/
def fbEnd (b : F.V) (base : F.V × F.V) (pair : F.V × F.V) (anyPoint : EcPt F) (mults : List (EcPt F)) : M p (EcPt F) := do
  let anyPoint2 ← loadPoint F b base
  let acc ← fbAccLoop F anyPoint anyPoint2 mults
  ecSubStrict F pair acc anyPoint2

/-- Random choices of `fixed_base::msm_par`: two points, and the pair in `ec_sub_strict`. -/
structure FbRand where
  base : F.V × F.V
  base2 : F.V × F.V
  pair : F.V × F.V

/-- `fixed_base::msm_par` (fixed_base.rs:114-219), also `EccChip::fixed_base_msm_custom` (mod.rs:1151-1168) and, with
`window_bits = 4`, `fixed_base_msm` (mod.rs:1132-1144), which only add the assertion repeated at fixed_base.rs:131.  `window_bits = 0`
panics (division by zero, fixed_base.rs:135); `chunks(0)` panics. -/
def fixedMsmPar (C : NativeCurve F) (b : F.V) (rand : FbRand F) (points : List C.G) (scalars : List (List (AV p)))
    (maxBits windowBits : ℕ) : PM p (EcPt F) :=
  if points.length = 0 then onMain (assignConstantPoint F (F.vzero, F.vzero))
  else do
    assertP (maxBits ≤ numBits p)
    assertP (points.length == scalars.length)
    let s0 ← unwrapP scalars[0]?
    assertP (windowBits != 0)
    let totalBits := maxBits * s0.length
    let numWindows := (totalBits + windowBits - 1) / windowBits
    let cached := points.flatMap fun pt => (fbCache C windowBits totalBits pt 0 numWindows).map C.coords
    let anyPoint ← onMain (loadPoint F b rand.base)
    assertP (cached.length / points.length != 0)
    let chunks := chunksOf (cached.length / points.length) cached
    assertP (chunks.length == scalars.length)
    let mults ← parallelize (chunks.zip scalars) (fbTask F anyPoint s0.length maxBits windowBits)
    onMain (fbEnd F b rand.base2 rand.pair anyPoint mults)

/-! ### Pippenger -/

/-- `for (bit, bool_bit) in bits.zip(bool_chunk.iter_mut()) { bool_bit.push(bit) }` (pippenger.rs:248-250). -/
def pushBits : List (AV p) → List (List (AV p)) → List (List (AV p))
  | bit :: bits, row :: rows => (row ++ [bit]) :: pushBits bits rows
  | _, rows => rows

/-- The inner loop (pippenger.rs:244-251) over the chunks of one scalar and the blocks of `maxBits` rows of `bool_scalars`. -/
def boolChunkLoop (maxBits : ℕ) : List (AV p) → List (List (AV p)) → M p (List (List (AV p)))
  | [], rows => pure rows
  | a :: as, rows =>
    if rows.length = 0 then pure rows
    else do
      let bits ← numToBits a maxBits
      let rest ← boolChunkLoop maxBits as (rows.drop maxBits)
      pure (pushBits bits (rows.take maxBits) ++ rest)

/-- The loop over the scalars (pippenger.rs:243-252). -/
def boolLoop (maxBits : ℕ) : List (List (AV p)) → List (List (AV p)) → M p (List (List (AV p)))
  | [], rows => pure rows
  | s :: ss, rows => do
    let rows ← boolChunkLoop maxBits s rows
    boolLoop maxBits ss rows

/-- The start of `multi_exp_par` on the main context (pippenger.rs:238-265).  `chunks_mut(0)` panics. -/
def pipStart (b : F.V) (base : F.V × F.V) (scalars : List (List (AV p))) (scalarBits maxBits numRounds : ℕ) :
    M p (List (List (AV p)) × List (EcPt F)) := do
  assertM (maxBits != 0)
  let bools ← boolLoop maxBits scalars (List.replicate scalarBits [])
  let anyBase ← loadPoint F b base
  let ds ← doublings F anyBase (numRounds - 1)
  pure (bools, anyBase :: ds)

/-- The loop `for j in 0..(1 << i)` (pippenger.rs:284-290) over the first `1 << i` points of the bucket: what it pushes. -/
def bucketRow (isInf : AV p) (point : EcPt F) : List (EcPt F) → M p (List (EcPt F))
  | [] => pure []
  | B :: Bs => do
    let a ← ecAddUnequal F (.strict B) (.strict point) true
    let a ← ecSelect F B a isInf
    let a ← intoStrictPoint F a
    let rest ← bucketRow isInf point Bs
    pure (a :: rest)

/-- The loop filling the bucket (pippenger.rs:278-291), from point number `i` on. -/
def bucketLoop (i : ℕ) (bucket : List (EcPt F)) : List (EcPt F) → M p (List (EcPt F))
  | [] => pure bucket
  | P :: Ps => do
    let isInf ← F.isZero P.y
    let point ← intoStrictPoint F P
    let row ← bucketRow F isInf point (bucket.take (2 ^ i))
    bucketLoop (i + 1) (bucket ++ row) Ps

/-- The selections (pippenger.rs:292-302). -/
def pipSelect (lo hi : ℕ) (bucket : List (EcPt F)) : List (List (AV p)) → M p (List (EcPt F))
  | [] => pure []
  | bits :: rest => do
    let sel ← sliceM bits lo hi
    let P ← ecSelectFromBits F bucket sel
    let Ps ← pipSelect lo hi bucket rest
    pure (P :: Ps)

/-- The first parallel task (pippenger.rs:272-303). -/
def pipTask (c : ℕ) (bools : List (List (AV p))) (x : (List (EcPt F) × EcPt F) × ℕ) : M p (List (EcPt F)) := do
  let anyPoint ← intoStrictPoint F x.1.2
  let bucket ← bucketLoop F 0 [anyPoint] x.1.1
  pipSelect F (x.2 * c) (x.2 * c + x.1.1.length) bucket bools

/-- The loop of the second parallel task (pippenger.rs:309-312). -/
def pipAggLoop (i : ℕ) (acc : EcPt F) : List (List (EcPt F)) → M p (EcPt F)
  | [] => pure acc
  | mp :: rest => do
    let P ← unwrap mp[i]?
    let a ← ecAddUnequal F (.strict acc) (.strict P) true
    let acc ← intoStrictPoint F a
    pipAggLoop i acc rest

/-- The second parallel task (pippenger.rs:307-314). -/
def pipAgg (mps : List (List (EcPt F))) (i : ℕ) : M p (EcPt F) := do
  let m0 ← unwrap mps[0]?
  let acc ← unwrap m0[i]?
  pipAggLoop F i acc mps.tail

/-- The loop over `agg` in reverse (pippenger.rs:328-333). -/
def pipSumLoop (sum : CmpPt F) (anySum : EcPt F) : List (EcPt F) → M p (EcPt F × EcPt F)
  | [] => pure (sum.pt, anySum)
  | g :: gs => do
    let anySum ← ecDouble F anySum
    let d ← ecDouble F sum.pt
    let sum ← ecAddUnequal F (.nonStrict d) (.strict g) true
    pipSumLoop (.nonStrict sum) anySum gs

/-- The end of `multi_exp_par` (pippenger.rs:316-338). -/
def pipEnd (pair : F.V × F.V) (anyPoints agg : List (EcPt F)) : M p (EcPt F) := do
  let l ← unwrap anyPoints.getLast?
  let a0 ← unwrap anyPoints[0]?
  let d ← ecDouble F l
  let anyPoint ← ecSubUnequal F (.nonStrict d) (.nonStrict a0) true
  let top ← unwrap agg.getLast?
  let r ← pipSumLoop F (.strict top) anyPoint agg.dropLast.reverse
  let anySum ← ecDouble F r.2
  let anySum ← ecSubUnequal F (.nonStrict anySum) (.nonStrict anyPoint) true
  ecSubStrict F pair r.1 anySum

/-- `pippenger::multi_exp_par` (pippenger.rs:219-339). -/
def multiExpPar (b : F.V) (rand : MsmRand F) (points : List (EcPt F)) (scalars : List (List (AV p))) (maxBits c : ℕ) :
    PM p (EcPt F) := do
  assertP (points.length == scalars.length)
  let s0 ← unwrapP scalars[0]?
  let scalarBits := maxBits * s0.length
  assertP (c != 0)
  let numRounds := (points.length + c - 1) / c
  let r ← onMain (pipStart F b rand.base scalars scalarBits maxBits numRounds)
  let mps ← parallelize (((chunksOf c points).zip r.2).zipIdx) (pipTask F c r.1)
  let agg ← parallelize (List.range scalarBits) (pipAgg F mps)
  onMain (pipEnd F rand.pair r.2 agg)

/-- `EccChip::variable_base_msm_custom` (mod.rs:1061-1103); `variable_base_msm` (mod.rs:1045-1058) is `windowBits = 4`. -/
def variableBaseMsm (b : F.V) (rand : MsmRand F) (points : List (EcPt F)) (scalars : List (List (AV p)))
    (maxBits windowBits : ℕ) : PM p (EcPt F) :=
  if points.length ≤ 25 then onMain (multiScalarMultiply F b rand points scalars maxBits windowBits)
  else multiExpPar F b rand points scalars maxBits windowBits

end H2
