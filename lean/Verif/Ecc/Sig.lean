import Verif.Ecc.ModelPar

/-!
# Model of `halo2-ecc/src/ecc/ecdsa.rs` and `halo2-ecc/src/ecc/schnorr_signature.rs`

`c` is the chip of the coordinate field `CF`, `N` the modulus of the scalar field `SF`, `b` and `gen` are `GA::b()` and
`GA::generator()`.
-/

set_option autoImplicit false
namespace H2
variable {p : ℕ} [Fact p.Prime] (c : FpChip p)

/-- The random choices of the verifiers: in `fixed_base::scalar_multiply`, in `scalar_multiply` and in `EccChip::sum`. -/
structure SigRand where
  fixed : MsmRand c.ops
  var : MsmRand c.ops
  sum : c.ops.V × c.ops.V

/-- `ecdsa_verify_no_pubkey_check` (ecdsa.rs:17-105). -/
def ecdsaVerify (N : ℕ) (C : NativeCurve c.ops) (b : c.ops.V) (gen : C.G) (rand : SigRand c) (pubkey : EcPt c.ops)
    (r s msghash : CrtInt p) (varWindowBits fixedWindowBits : ℕ) : M p (AV p) := do
  let cs ← unwrap (FpChip.new (p := p) c.L N c.n c.k)
  let nLimbs ← unwrap (Utils.decomposeBiguint p false cs.modulus cs.k cs.n)
  let n ← loadConstants nLimbs
  let rValid ← cs.isSoftNonzero r
  let sValid ← cs.isSoftNonzero s
  let u1 : CrtInt p ← cs.ops.divideUnsafe msghash s
  let u2 : CrtInt p ← cs.ops.divideUnsafe r s
  let u1Mul ← fixedScalarMultiply c.ops C b rand.fixed gen u1.trunc.limbs c.n fixedWindowBits
  let u2Mul ← scalarMultiply c.ops b rand.var pubkey u2.trunc.limbs c.n varWindowBits
  let xEq ← c.ops.isEqual u1Mul.x u2Mul.x
  let xNeq ← not (.existing xEq)
  let yEq ← c.ops.isEqual u1Mul.y u2Mul.y
  let notNeg ← or (.existing xNeq) (.existing yEq)
  let sum ← ecSum c.ops b rand.sum [u1Mul, u2Mul]
  let x1 : CrtInt p ← cs.ops.enforceLessThan sum.x
  let equalCheck ← bigIsEqual x1.trunc.limbs r.trunc.limbs
  let b1 ← c.base1
  let u1Small ← bigLessThan c.L c.n b1 u1.trunc.limbs n
  let b1 ← c.base1
  let u2Small ← bigLessThan c.L c.n b1 u2.trunc.limbs n
  let res1 ← and (.existing rValid) (.existing sValid)
  let res2 ← and (.existing res1) (.existing u1Small)
  let res3 ← and (.existing res2) (.existing u2Small)
  let res4 ← and (.existing res3) (.existing notNeg)
  and (.existing res4) (.existing equalCheck)

/-- `schnorr_verify_no_pubkey_check` (schnorr_signature.rs:19-84). -/
def schnorrVerify (N : ℕ) (C : NativeCurve c.ops) (b : c.ops.V) (gen : C.G) (rand : SigRand c) (pubkey : EcPt c.ops)
    (r s msgHash : CrtInt p) (varWindowBits fixedWindowBits : ℕ) : M p (AV p) := do
  let cs ← unwrap (FpChip.new (p := p) c.L N c.n c.k)
  let rValid ← c.isLessThanP r
  let sValid ← cs.isSoftNonzero s
  let eValid ← cs.isSoftNonzero msgHash
  let sG ← fixedScalarMultiply c.ops C b rand.fixed gen s.trunc.limbs c.n fixedWindowBits
  let eP ← scalarMultiply c.ops b rand.var pubkey msgHash.trunc.limbs c.n varWindowBits
  let xEq ← c.ops.isEqual sG.x eP.x
  let xNeq ← not (.existing xEq)
  let R ← ecSubUnequal c.ops (.nonStrict sG) (.nonStrict eP) true
  let yEven ← c.isEven R.y
  let Rx : CrtInt p ← cs.ops.enforceLessThan R.x
  let equalCheck ← bigIsEqual Rx.trunc.limbs r.trunc.limbs
  let res1 ← and (.existing rValid) (.existing sValid)
  let res2 ← and (.existing res1) (.existing eValid)
  let res3 ← and (.existing res2) (.existing xNeq)
  let res4 ← and (.existing res3) (.existing yEven)
  and (.existing res4) (.existing equalCheck)

end H2
