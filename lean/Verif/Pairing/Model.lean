import Verif.Fields.Ext
import Verif.Ecc.Model
import Verif.Ecc.Naf

/-!
# Model of `halo2-ecc/src/bn254/final_exp.rs`, `pairing.rs` and `bls_signature.rs`

`FqPoint<F>` is a list of points of the base chip.  Native constants of the curve crate (`FROBENIUS_COEFF_FQ12_C1`, the ones of
`Fq12`) are fields of `PairCfg`.  Rust clones, references and `impl Into<..>` conversions are not modelled (except `ofP`).
-/

set_option autoImplicit false
namespace H2
variable {p : ℕ} [Fact p.Prime]

/-- The chips and native constants of `bn254/mod.rs:10-14`: the base field chip and the native extension fields; `frob k i` is
`FROBENIUS_COEFF_FQ12_C1[k].pow_vartime([i])` (final_exp.rs:42), `one12` is `Fq12::one()`. -/
structure PairCfg (p : ℕ) [Fact p.Prime] where
  c : FpChip p
  E2 : ExtField c.ops
  E12 : ExtField c.ops
  frob : ℕ → ℕ → E2.V
  one12 : E12.V

namespace PairCfg
variable (C : PairCfg p)

/-- `FpChip<F>` (bn254/mod.rs:10). -/
abbrev F : FieldOps p := C.c.ops
/-- `Fp2Chip<F>` (bn254/mod.rs:13). -/
abbrev F2 : FieldOps p := fp2Ops C.c.ops C.E2
/-- `Fp12Chip<F>`, `XI_0 = 9` (bn254/mod.rs:14). -/
abbrev F12 : FieldOps p := fp12Ops C.c.ops C.E12 9
/-! ### `final_exp.rs` -/

/-- `FieldVector(vec![a[i].clone(), a[i + 6].clone()])` for `i` in `0..6`, after `assert_eq!(a.0.len(), 12)` (final_exp.rs:31,
46; pairing.rs:105-110). -/
def slices {α : Type} (a : List α) : M p (List (List α)) := do
  assertM (a.length == 12)
  pure (List.zipWith (fun x y => [x, y]) (a.take 6) (a.drop 6))

/-- `out.iter().map(|x| x[0].clone()).chain(out.iter().map(|x| x[1].clone()))` (final_exp.rs:61-65, pairing.rs:150-156; the
iterators of final_exp.rs:187-205). -/
def join {α : Type} (o : List (List α)) : M p (List α) := do
  let xs ← mapList (fun x : List α => unwrap x[0]?) o
  let ys ← mapList (fun x : List α => unwrap x[1]?) o
  pure (xs ++ ys)

/-- Comparison of native values. -/
def coeffIs {m : ℕ} (x v : ZMod m) : Bool := decide (x = v)

/-- The body of the loop of `frobenius_map` (final_exp.rs:41-59).  The comparisons of native values are on the coefficients. -/
def frobCoeff (pow i : ℕ) (a : List (CrtInt p)) : M p (List (CrtInt p)) := do
  let a ← if pow % 2 ≠ 0 then fp2Conjugate C.F a else pure a
  match C.E2.coeffs (C.frob pow i) with
  | [c0, c1] =>
    if coeffIs (m := C.c.modulus) c0 1 && coeffIs (m := C.c.modulus) c1 0 then pure a
    else if coeffIs (m := C.c.modulus) c1 0 then do
      let f ← C.F.loadConstant c0
      let nc ← fpMulNoCarry C.F a f
      C.F2.carryMod nc
    else do
      let f ← C.F2.loadConstant (C.frob pow i)
      C.F2.mul a f
  | _ => panic

/-- The loop of `frobenius_map` (final_exp.rs:41-59), from index `i`. -/
def frobLoop (pow : ℕ) : ℕ → List (List (CrtInt p)) → M p (List (List (CrtInt p)))
  | _, [] => pure []
  | i, a :: as => do
    let r ← C.frobCoeff pow i a
    let rs ← frobLoop pow (i + 1) as
    pure (r :: rs)

/-- `frobenius_map` (final_exp.rs:23-68).  The assertions on the modulus of `Fq` are about native constants. -/
def frobeniusMap (a : List (CrtInt p)) (power : ℕ) : M p (List (CrtInt p)) := do
  let sl ← slices a
  let out ← C.frobLoop (power % 12) 0 sl
  join out

/-- The loop of `pow` (final_exp.rs:83-101). -/
def powLoop (a : List (CrtInt p)) : List ℤ → Bool → List (CrtInt p) → M p (List (CrtInt p))
  | [], _, res => pure res
  | z :: zs, started, res => do
    let res ← if started then C.F12.mul res res else pure res
    if z ≠ 0 then do
      assertM (z == 1 || z == -1)
      if started then do
        let res ← if z = 1 then C.F12.mul res a else C.F12.divideUnsafe res a
        powLoop a zs true res
      else do
        assertM (z == 1)
        powLoop a zs true res
    else powLoop a zs started res

/-- `pow` (final_exp.rs:73-103). -/
def pow (a : List (CrtInt p)) (exp : List ℕ) : M p (List (CrtInt p)) := do
  let naf ← unwrap (Naf.getNaf exp)
  C.powLoop a naf.reverse false a

/-- `[g2, g3, g4, g5]`: the values of `cyclotomic_compress`; a Rust `Vec` of length 4. -/
structure Comp (α : Type) where
  g2 : List α
  g3 : List α
  g4 : List α
  g5 : List α

/-- `FieldVector(vec![a[i].clone(), a[i + 6].clone()])` (final_exp.rs:117-120). -/
def slice {α : Type} (a : List α) (i : ℕ) : M p (List α) := do
  let x ← unwrap a[i]?
  let y ← unwrap a[i + 6]?
  pure [x, y]

/-- `cyclotomic_compress` (final_exp.rs:115-122). -/
def cycCompress (a : List (CrtInt p)) : M p (Comp (CrtInt p)) := do
  let g2 ← slice a 1
  let g3 ← slice a 4
  let g4 ← slice a 2
  let g5 ← slice a 5
  pure ⟨g2, g3, g4, g5⟩

/-- `g0[0].truncation.limbs[0] + 1`, `g0[0].native + 1`, `max_limb_bits += 1`, `value += 1` (final_exp.rs:177-181). -/
def crtAddOne (a : CrtInt p) : M p (CrtInt p) :=
  match a.trunc.limbs with
  | l0 :: ls => do
    let l ← add (.existing l0) (.constant 1)
    let nat ← add (.existing a.native) (.constant 1)
    pure ⟨⟨l :: ls, a.trunc.maxBits + 1⟩, nat, a.value + 1⟩
  | [] => panic

/-- `g0 + 1` on the first coefficient (final_exp.rs:177-181). -/
def addOne (a : List (CrtInt p)) : M p (List (CrtInt p)) :=
  match a with
  | a0 :: as => do
    let r ← crtAddOne a0
    pure (r :: as)
  | [] => panic

/-- `cyclotomic_decompress` (final_exp.rs:136-207).  `fp2_chip.0.select` on unreduced points is `select::crt` (fp.rs:438-450). -/
def cycDecompress (g : Comp (CrtInt p)) : M p (List (CrtInt p)) := do
  let g5sq ← C.F2.mulNoCarry g.g5 g.g5
  let g5sqc ← mulNoCarryW6 C.F 9 g5sq
  let g4sq ← C.F2.mulNoCarry g.g4 g.g4
  let g4sq3 ← C.F2.scalarMulNoCarry g4sq 3
  let g32 ← C.F2.scalarMulNoCarry g.g3 2
  let num ← C.F2.addNoCarry g5sqc g4sq3
  let num ← C.F2.subNoCarry num g32
  let g24 ← C.F2.scalarMulNoCarry g.g2 4
  let g11 ← C.F2.divideUnsafe num g24
  let g4g5 ← C.F2.mulNoCarry g.g4 g.g5
  let num2 ← C.F2.scalarMulNoCarry g4g5 2
  let g10 ← C.F2.divideUnsafe num2 g.g3
  let z ← C.F2.isZero g.g2
  let g1 ← vecSelect C.F g10 g11 z
  let g1sq ← C.F2.mulNoCarry g1 g1
  let g1sq2 ← C.F2.scalarMulNoCarry g1sq 2
  let g2g5 ← C.F2.mulNoCarry g.g2 g.g5
  let g3g4 ← C.F2.mulNoCarry g.g3 g.g4
  let g3g43 ← C.F2.scalarMulNoCarry g3g4 3
  let temp ← C.F2.addNoCarry g1sq2 g2g5
  let temp ← vecSelect C.F g1sq2 temp z
  let temp ← C.F2.subNoCarry temp g3g43
  let g0 ← mulNoCarryW6 C.F 9 temp
  let g0 ← addOne g0
  let g0 ← C.F2.carryMod g0
  join [g0, g.g2, g.g4, g1, g.g3, g.g5]

/-- `cyclotomic_square` (final_exp.rs:221-268). -/
def cycSquare (g : Comp (CrtInt p)) : M p (Comp (CrtInt p)) := do
  let g2g3 ← C.F2.addNoCarry g.g2 g.g3
  let cg3 ← mulNoCarryW6 C.F 9 g.g3
  let g2cg3 ← C.F2.addNoCarry g.g2 cg3
  let a23 ← C.F2.mulNoCarry g2g3 g2cg3
  let g4g5 ← C.F2.addNoCarry g.g4 g.g5
  let cg5 ← mulNoCarryW6 C.F 9 g.g5
  let g4cg5 ← C.F2.addNoCarry g.g4 cg5
  let a45 ← C.F2.mulNoCarry g4g5 g4cg5
  let b23 ← C.F2.mulNoCarry g.g2 g.g3
  let b45 ← C.F2.mulNoCarry g.g4 g.g5
  let b45c ← mulNoCarryW6 C.F 9 b45
  let temp ← C.F2.scalarMulAddNoCarry b45c g.g2 3
  let h2 ← C.F2.scalarMulNoCarry temp 2
  let temp ← C.F2.addNoCarry b45c b45
  let temp ← C.F2.subNoCarry a45 temp
  let temp ← C.F2.scalarMulNoCarry temp 3
  let h3 ← C.F2.scalarMulAddNoCarry g.g3 temp (-2)
  let temp ← mulNoCarryW6 C.F 10 b23
  let temp ← C.F2.subNoCarry a23 temp
  let temp ← C.F2.scalarMulNoCarry temp 3
  let h4 ← C.F2.scalarMulAddNoCarry g.g4 temp (-2)
  let temp ← C.F2.scalarMulAddNoCarry b23 g.g5 3
  let h5 ← C.F2.scalarMulNoCarry temp 2
  let h2 ← C.F2.carryMod h2
  let h3 ← C.F2.carryMod h3
  let h4 ← C.F2.carryMod h4
  let h5 ← C.F2.carryMod h5
  pure ⟨h2, h3, h4, h5⟩

/-- The loop of `cyclotomic_pow` (final_exp.rs:279-301): the compressed value and `out`. -/
def cycPowLoop (a : List (CrtInt p)) : List ℤ → Bool → Comp (CrtInt p) → Option (List (CrtInt p)) →
    M p (Comp (CrtInt p) × Option (List (CrtInt p)))
  | [], _, comp, out => pure (comp, out)
  | z :: zs, started, comp, out => do
    let comp ← if started then C.cycSquare comp else pure comp
    if z ≠ 0 then do
      assertM (z == 1 || z == -1)
      if started then do
        let res ← C.cycDecompress comp
        let res ← if z = 1 then C.F12.mul res a else C.F12.divideUnsafe res a
        let comp ← cycCompress res
        cycPowLoop a zs true comp (some res)
      else do
        assertM (z == 1)
        cycPowLoop a zs true comp out
    else cycPowLoop a zs started comp out

/-- `cyclotomic_pow` (final_exp.rs:273-306). -/
def cycPow (a : List (CrtInt p)) (exp : List ℕ) : M p (List (CrtInt p)) := do
  let comp ← cycCompress a
  let naf ← unwrap (Naf.getNaf exp)
  let (comp, out) ← C.cycPowLoop a naf.reverse false comp none
  let d0 ← unwrap naf[0]?
  let out ← if d0 = 0 then do
      let r ← C.cycDecompress comp
      pure (some r)
    else pure out
  pure (out.getD a)

/-- `BN_X` (the curve crate's constant, used in final_exp.rs:331, 336, 345). -/
def bnXWord : ℕ := 4965661367192848881

/-- `hard_part_BN` (final_exp.rs:310-375). -/
def hardPart (m : List (CrtInt p)) : M p (List (CrtInt p)) := do
  let mp ← C.frobeniusMap m 1
  let mp2 ← C.frobeniusMap m 2
  let mp3 ← C.frobeniusMap m 3
  let mp2mp3 ← C.F12.mul mp2 mp3
  let y0 ← C.F12.mul mp mp2mp3
  let y1 ← fp12Conjugate C.F m
  let mx ← C.cycPow m [bnXWord]
  let mxp ← C.frobeniusMap mx 1
  let mx2 ← C.cycPow mx [bnXWord]
  let mx2p ← C.frobeniusMap mx2 1
  let y2 ← C.frobeniusMap mx2 2
  let y5 ← fp12Conjugate C.F mx2
  let mx3 ← C.cycPow mx2 [bnXWord]
  let mx3p ← C.frobeniusMap mx3 1
  let y3 ← fp12Conjugate C.F mxp
  let mxmx2p ← C.F12.mul mx mx2p
  let y4 ← fp12Conjugate C.F mxmx2p
  let mx3mx3p ← C.F12.mul mx3 mx3p
  let y6 ← fp12Conjugate C.F mx3mx3p
  let t0 ← C.F12.mul y6 y6
  let t0 ← C.F12.mul t0 y4
  let t0 ← C.F12.mul t0 y5
  let t1 ← C.F12.mul y3 y5
  let t1 ← C.F12.mul t1 t0
  let t0 ← C.F12.mul t0 y2
  let t1 ← C.F12.mul t1 t1
  let t1 ← C.F12.mul t1 t0
  let t1 ← C.F12.mul t1 t1
  let t0 ← C.F12.mul t1 y1
  let t1 ← C.F12.mul t1 y0
  let t0 ← C.F12.mul t0 t0
  C.F12.mul t0 t1

/-- `easy_part` (final_exp.rs:380-390). -/
def easyPart (a : List (CrtInt p)) : M p (List (CrtInt p)) := do
  let f1 ← fp12Conjugate C.F a
  let f2 ← C.F12.divideUnsafe f1 a
  let f3 ← C.frobeniusMap f2 2
  C.F12.mul f3 f2

/-- `final_exp` (final_exp.rs:393-401), also `PairingChip::final_exp` (pairing.rs:500-503). -/
def finalExp (a : List (CrtInt p)) : M p (List (CrtInt p)) := do
  let f0 ← C.easyPart a
  C.hardPart f0

/-! ### `pairing.rs` -/

/-- `fp2_chip.carry_mod` on the entries which are there (pairing.rs:50-53, 91-94). -/
def carryOpt : List (Option (List (CrtInt p))) → M p (List (Option (List (CrtInt p))))
  | [] => pure []
  | none :: l => do
    let rs ← carryOpt l
    pure (none :: rs)
  | some x :: l => do
    let r ← C.F2.carryMod x
    let rs ← carryOpt l
    pure (some r :: rs)

/-- `sparse_line_function_unequal` (pairing.rs:25-54). -/
def lineUnequal (Q0 Q1 : EcPt C.F2) (P : EcPt C.F) : M p (List (Option (List (CrtInt p)))) := do
  assertM (Q0.x.length == 2)
  assertM (Q0.y.length == 2)
  assertM (Q1.x.length == 2)
  assertM (Q1.y.length == 2)
  let dy ← C.F2.subNoCarry Q0.y Q1.y
  let dx ← C.F2.subNoCarry Q1.x Q0.x
  let x1y2 ← C.F2.mulNoCarry Q0.x Q1.y
  let x2y1 ← C.F2.mulNoCarry Q1.x Q0.y
  let out3 ← fpMulNoCarry C.F dy P.x
  let out2 ← fpMulNoCarry C.F dx P.y
  let out5 ← C.F2.subNoCarry x1y2 x2y1
  C.carryOpt [none, none, some out2, some out3, none, some out5]

/-- `sparse_line_function_equal` (pairing.rs:64-95). -/
def lineEqual (Q : EcPt C.F2) (P : EcPt C.F) : M p (List (Option (List (CrtInt p)))) := do
  assertM (Q.x.length == 2)
  assertM (Q.y.length == 2)
  let xsq ← C.F2.mul Q.x Q.x
  let xcu ← C.F2.mulNoCarry xsq Q.x
  let xcu3 ← C.F2.scalarMulNoCarry xcu 3
  let ysq ← C.F2.mulNoCarry Q.y Q.y
  let ysq2 ← C.F2.scalarMulNoCarry ysq 2
  let left ← C.F2.subNoCarry xcu3 ysq2
  let out0 ← mulNoCarryW6 C.F 9 left
  let xsqP ← fpMulNoCarry C.F xsq P.x
  let out4 ← C.F2.scalarMulNoCarry xsqP (-3)
  let yP ← fpMulNoCarry C.F Q.y P.y
  let out3 ← C.F2.scalarMulNoCarry yP 2
  C.carryOpt [some out0, none, none, some out3, some out4, none]

/-- The `match` in the double loop of `sparse_fp12_multiply` (pairing.rs:115-127). -/
def sparseCell (acc : Option (List (CrtInt p))) (a : List (CrtInt p)) (b : Option (List (CrtInt p))) :
    M p (Option (List (CrtInt p))) :=
  match acc, b with
  | acc, none => pure acc
  | none, some b => do
    let ab ← C.F2.mulNoCarry a b
    pure (some ab)
  | some acc, some b => do
    let bc ← C.F2.mulNoCarry a b
    let out ← C.F2.addNoCarry acc bc
    pure (some out)

/-- The inner loop (pairing.rs:114-128) over `b_fp2_coeffs[j]`, `k = i + j`. -/
def sparseInner (a : List (CrtInt p)) : ℕ → List (Option (List (CrtInt p))) → List (Option (List (CrtInt p))) →
    M p (List (Option (List (CrtInt p))))
  | _, prod, [] => pure prod
  | k, prod, b :: bs => do
    let x ← unwrap prod[k]?
    let y ← C.sparseCell x a b
    sparseInner a (k + 1) (prod.set k y) bs

/-- The outer loop (pairing.rs:113-129) over `a_fp2_coeffs[i]`. -/
def sparseOuter (bs : List (Option (List (CrtInt p)))) : ℕ → List (Option (List (CrtInt p))) → List (List (CrtInt p)) →
    M p (List (Option (List (CrtInt p))))
  | _, prod, [] => pure prod
  | i, prod, a :: as => do
    let prod ← C.sparseInner a i prod bs
    sparseOuter bs (i + 1) prod as

/-- `prod_nocarry` (pairing.rs:134-147) for index `i`. -/
def sparseFold (prod : List (Option (List (CrtInt p)))) (i : ℕ) : M p (List (CrtInt p)) :=
  if i ≠ 5 then do
    let hi ← unwrap prod[i + 6]?
    let w6 ← match hi with
      | none => pure none
      | some a => do
        let r ← mulNoCarryW6 C.F 9 a
        pure (some r)
    let lo ← unwrap prod[i]?
    match lo, w6 with
    | none, b => unwrap b
    | some a, none => pure a
    | some a, some b => C.F2.addNoCarry a b
  else do
    let x ← unwrap prod[i]?
    unwrap x

/-- The output loop (pairing.rs:131-149) for the given indices. -/
def sparseOut (prod : List (Option (List (CrtInt p)))) : List ℕ → M p (List (List (CrtInt p)))
  | [] => pure []
  | i :: is => do
    let nc ← C.sparseFold prod i
    let r ← C.F2.carryMod nc
    let rs ← sparseOut prod is
    pure (r :: rs)

/-- `sparse_fp12_multiply` (pairing.rs:99-158). -/
def sparseMultiply (a : List (CrtInt p)) (b : List (Option (List (CrtInt p)))) : M p (List (CrtInt p)) := do
  assertM (a.length == 12)
  assertM (b.length == 6)
  let sl ← slices a
  let prod ← C.sparseOuter b 0 (List.replicate 11 none) sl
  let out ← C.sparseOut prod [0, 1, 2, 3, 4, 5]
  join out

/-- `fp12_multiply_with_line_unequal` (pairing.rs:166-175). -/
def mulLineUnequal (g : List (CrtInt p)) (Q0 Q1 : EcPt C.F2) (P : EcPt C.F) : M p (List (CrtInt p)) := do
  let line ← C.lineUnequal Q0 Q1 P
  C.sparseMultiply g line

/-- `fp12_multiply_with_line_equal` (pairing.rs:183-192). -/
def mulLineEqual (g : List (CrtInt p)) (Q : EcPt C.F2) (P : EcPt C.F) : M p (List (CrtInt p)) := do
  let line ← C.lineEqual Q P
  C.sparseMultiply g line

/-- The loops filling `f_coeffs` (pairing.rs:237-250, 321-335): `None` becomes zero. -/
def fillZero (i : ℕ) (zero : CrtInt p) : List (Option (List (CrtInt p))) → M p (List (CrtInt p))
  | [] => pure []
  | none :: l => do
    let rs ← fillZero i zero l
    pure (zero :: rs)
  | some x :: l => do
    let r ← unwrap x[i]?
    let rs ← fillZero i zero l
    pure (r :: rs)

/-- The first line function as a point of `Fq12` (pairing.rs:230-252, 315-337). -/
def firstLine (Q : EcPt C.F2) (P : EcPt C.F) : M p (List (CrtInt p)) := do
  let sp ← C.lineEqual Q P
  assertM (sp.length == 6)
  let zero ← C.F.loadConstant (0 : ZMod C.c.modulus)
  let xs ← fillZero 0 zero sp
  let ys ← fillZero 1 zero sp
  pure (xs ++ ys)

/-- `twisted_frobenius` (pairing.rs:401-419). -/
def twistedFrob (Q : EcPt C.F2) (c2 c3 : List (CrtInt p)) : M p (EcPt C.F2) := do
  assertM (c2.length == 2)
  assertM (c3.length == 2)
  let fx ← fp2Conjugate C.F Q.x
  let fy ← fp2Conjugate C.F Q.y
  let ox ← C.F2.mul c2 fx
  let oy ← C.F2.mul c3 fy
  pure ⟨ox, oy⟩

/-- `neg_twisted_frobenius` (pairing.rs:427-445). -/
def negTwistedFrob (Q : EcPt C.F2) (c2 c3 : List (CrtInt p)) : M p (EcPt C.F2) := do
  assertM (c2.length == 2)
  assertM (c3.length == 2)
  let fx ← fp2Conjugate C.F Q.x
  let fy ← fp2NegConjugate C.F Q.y
  let ox ← C.F2.mul c2 fx
  let oy ← C.F2.mul c3 fy
  pure ⟨ox, oy⟩

/-- The loop of `miller_loop_BN` (pairing.rs:255-279): the digits below the leading one, most significant first; `first` says
that this is the first round (`i == last_index - 1`). -/
def millerRounds (Q negQ : EcPt C.F2) (P : EcPt C.F) : List ℤ → Bool → List (CrtInt p) → EcPt C.F2 →
    M p (List (CrtInt p) × EcPt C.F2)
  | [], _, f, R => pure (f, R)
  | d :: ds, first, f, R => do
    let f ← if first then pure f else do
      let fsq ← C.F12.mul f f
      C.mulLineEqual fsq R P
    let R ← ecDouble C.F2 R
    assertM (decide (d ≤ 1) && decide (-1 ≤ d))
    if d ≠ 0 then do
      let sQ := if d = 1 then Q else negQ
      let f ← C.mulLineUnequal f R sQ P
      let R ← ecAddUnequal C.F2 (.nonStrict R) (.nonStrict sQ) false
      millerRounds Q negQ P ds false f R
    else millerRounds Q negQ P ds false f R

/-- The end of `miller_loop_BN` (pairing.rs:281-293).  `frob 1 2`, `frob 1 3` are `FROBENIUS_COEFF_FQ12_C1[1]` squared and cubed. -/
def millerEnd (Q : EcPt C.F2) (P : EcPt C.F) (c2 c3 : List (CrtInt p)) (f : List (CrtInt p)) (R : EcPt C.F2) :
    M p (List (CrtInt p)) := do
  let Q1 ← C.twistedFrob Q c2 c3
  let nQ2 ← C.negTwistedFrob Q1 c2 c3
  let f ← C.mulLineUnequal f R Q1 P
  let R ← ecAddUnequal C.F2 (.nonStrict R) (.nonStrict Q1) false
  C.mulLineUnequal f R nQ2 P

/-- `miller_loop_BN` (pairing.rs:212-294).  The digits from the most significant nonzero one on; with fewer than two of them the
indices underflow. -/
def millerLoop (Q : EcPt C.F2) (P : EcPt C.F) (enc : List ℤ) : M p (List (CrtInt p)) :=
  match enc.reverse.dropWhile (fun d => d == 0) with
  | d :: d' :: ds => do
    let negQ ← ecNegate C.F2 Q
    assertM (d == 1 || d == -1)
    let R := if d = 1 then Q else negQ
    let f ← C.firstLine R P
    let (f, R) ← C.millerRounds Q negQ P (d' :: ds) true f R
    let c2 ← C.F2.loadConstant (C.frob 1 2)
    let c3 ← C.F2.loadConstant (C.frob 1 3)
    C.millerEnd Q P c2 c3 f R
  | _ => panic

/-- `for (r, &(a, _)) in r.iter().zip(pairs.iter())` (pairing.rs:345-347), and the loop 338-340. -/
def multiDouble : List (CrtInt p) → List (EcPt C.F2 × EcPt C.F) → M p (List (CrtInt p))
  | f, [] => pure f
  | f, (R, P) :: l => do
    let f ← C.mulLineEqual f R P
    multiDouble f l

/-- The loop of pairing.rs:355-365: over the triples `r`, `neg_b`, `(a, b)`; the new `r`s. -/
def multiAdd (d : ℤ) : List (CrtInt p) → List (EcPt C.F2 × EcPt C.F2 × EcPt C.F × EcPt C.F2) →
    M p (List (CrtInt p) × List (EcPt C.F2))
  | f, [] => pure (f, [])
  | f, (R, nb, a, b) :: l => do
    let sb := if d = 1 then b else nb
    let f ← C.mulLineUnequal f R sb a
    let R ← ecAddUnequal C.F2 (.nonStrict R) (.nonStrict sb) false
    let (f, rs) ← multiAdd d f l
    pure (f, R :: rs)

/-- The loop of `multi_miller_loop_BN` (pairing.rs:342-371). -/
def multiRounds (pairs : List (EcPt C.F × EcPt C.F2)) (negB : List (EcPt C.F2)) : List ℤ → Bool → List (CrtInt p) →
    List (EcPt C.F2) → M p (List (CrtInt p) × List (EcPt C.F2))
  | [], _, f, rs => pure (f, rs)
  | d :: ds, first, f, rs => do
    let f ← if first then pure f else do
      let f ← C.F12.mul f f
      C.multiDouble f (List.zip rs (pairs.map Prod.fst))
    let rs ← mapList (ecDouble C.F2) rs
    assertM (decide (d ≤ 1) && decide (-1 ≤ d))
    if d ≠ 0 then do
      let (f, rs) ← C.multiAdd d f (List.zip rs (List.zip negB pairs))
      multiRounds pairs negB ds false f rs
    else multiRounds pairs negB ds false f rs

/-- The last loop of `multi_miller_loop_BN` (pairing.rs:380-387). -/
def multiEnd (c2 c3 : List (CrtInt p)) : List (CrtInt p) → List (EcPt C.F2 × EcPt C.F × EcPt C.F2) → M p (List (CrtInt p))
  | f, [] => pure f
  | f, (R, a, b) :: l => do
    let f ← C.millerEnd b a c2 c3 f R
    multiEnd c2 c3 f l

/-- `multi_miller_loop_BN` (pairing.rs:298-392); `pairs[0]` panics if there are no pairs. -/
def multiMillerLoop (pairs : List (EcPt C.F × EcPt C.F2)) (enc : List ℤ) : M p (List (CrtInt p)) :=
  match enc.reverse.dropWhile (fun d => d == 0), pairs with
  | d :: d' :: ds, (a0, b0) :: rest => do
    assertM (d == 1)
    let negB ← mapList (fun pr : EcPt C.F × EcPt C.F2 => ecNegate C.F2 pr.2) ((a0, b0) :: rest)
    let f ← C.firstLine b0 a0
    let f ← C.multiDouble f (rest.map fun pr : EcPt C.F × EcPt C.F2 => (pr.2, pr.1))
    let (f, rs) ← C.multiRounds ((a0, b0) :: rest) negB (d' :: ds) true f (((a0, b0) :: rest).map Prod.snd)
    let c2 ← C.F2.loadConstant (C.frob 1 2)
    let c3 ← C.F2.loadConstant (C.frob 1 3)
    C.multiEnd c2 c3 f (List.zip rs ((a0, b0) :: rest))
  | _, _ => panic

/-- `SIX_U_PLUS_2_NAF` (the curve crate's constant, used in pairing.rs:481, 496). -/
def sixUPlus2Naf : List ℤ :=
  [0, 0, 0, 1, 0, 1, 0, -1, 0, 0, 1, -1, 0, 0, 1, 0, 0, 1, 1, 0, -1, 0, 0, 1, 0, -1, 0, 0, 0, 0, 1, 1, 1, 0, 0, -1, 0, 0, 1,
   0, 0, 0, 0, 0, -1, 0, 0, 1, 1, 0, 0, -1, 0, 0, 0, 1, 1, 0, -1, 0, 0, 1, 0, 1, 1]

/-- `PairingChip::pairing` (pairing.rs:506-516), with `miller_loop` (468-483). -/
def pairing (Q : EcPt C.F2) (P : EcPt C.F) : M p (List (CrtInt p)) := do
  let f0 ← C.millerLoop Q P sixUPlus2Naf
  C.finalExp f0

/-- `PairingChip::pairing_check` (pairing.rs:525-540), with `multi_miller_loop` (485-498). -/
def pairingCheck (Q : EcPt C.F2) (P : EcPt C.F) (T : EcPt C.F2) (S : EcPt C.F) : M p Unit := do
  let nP ← ecNegate C.F P
  let mml ← C.multiMillerLoop [(nP, Q), (S, T)] sixUPlus2Naf
  let fe ← C.finalExp mml
  let one ← C.F12.loadConstant C.one12
  C.F12.assertEqual fe one

/-! ### `bls_signature.rs` -/

/-- The native data of `bls_signature_verify`: curve constants, the random points of the two `sum`s, and the arguments. -/
structure BlsArgs where
  b1 : C.F.V
  b2 : C.F2.V
  rand1 : C.F.V × C.F.V
  rand2 : C.F2.V × C.F2.V
  g1 : C.F.V × C.F.V
  signatures : List (C.F2.V × C.F2.V)
  pubkeys : List (C.F.V × C.F.V)
  msghash : C.F2.V × C.F2.V

/-- `bls_signature_verify` (bls_signature.rs:27-78), with the points it loads (local variables of the function) beside its
result: `(result, g1, H(m), signatures, public keys)`.  `g12_chip.negate` (68) negates the coefficients, whatever their number. -/
def blsRun (x : C.BlsArgs) : M p (AV p × EcPt C.F × EcPt C.F2 × List (EcPt C.F2) × List (EcPt C.F)) := do
  assertM (x.signatures.length == x.pubkeys.length)
  assertM (!x.signatures.isEmpty)
  assertM (!x.pubkeys.isEmpty)
  let g1 ← loadPoint C.F x.b1 x.g1
  let hm ← loadPoint C.F2 x.b2 x.msghash
  let sigs ← mapList (loadPoint C.F2 x.b2) x.signatures
  let sig ← ecSum C.F2 x.b2 x.rand2 sigs
  let pks ← mapList (loadPoint C.F x.b1) x.pubkeys
  let pk ← ecSum C.F x.b1 x.rand1 pks
  let ny ← C.F12.negate sig.y
  let nsig : EcPt C.F2 := ⟨sig.x, ny⟩
  let mp ← C.multiMillerLoop [(g1, nsig), (pk, hm)] sixUPlus2Naf
  let result ← C.finalExp mp
  let one ← C.F12.loadConstant C.one12
  let bit ← C.F12.isEqual result one
  pure (bit, g1, hm, sigs, pks)

/-- `bls_signature_verify` (bls_signature.rs:27-78): only the bit is returned. -/
def blsVerify (x : C.BlsArgs) : M p (AV p) := do
  let r ← C.blsRun x
  pure r.1

end PairCfg
end H2
