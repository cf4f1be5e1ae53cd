import Verif.Kec.WitDigits

/-!
# Parameters for which the witness generation is proved to satisfy the circuit

`Wit k h` is a decidable condition on the parameters (`k`, `rows_per_round = h`): the cells are distinct, the parts of the splits cover the
64 positions, and every lookup, in every row of a round, applies to a pair of cells of the corresponding step, or to cells that are never
assigned.
-/

set_option autoImplicit false
namespace H2.Kec

/-- The cells of a part of `split_uniform`. -/
def UPart.cells : UPart → List Cell
  | .same _ c => [c]
  | .two _ a _ b c => [a, b, c]
/-- The number of bits of the output of a part of `split_uniform`. -/
def UPart.size : UPart → ℕ
  | .same n _ => n
  | .two na _ nb _ _ => na + nb
/-- The cells of the parts that are combined. -/
def UPart.halves : UPart → List Cell
  | .same _ _ => []
  | .two _ a _ b _ => [a, b]

section
variable (k h : ℕ) (L : Layout)

/-- The number of parts of a word in the rho, pi and chi steps. -/
def nParts : ℕ := (targetPartSizes (ps5 k)).length
def w0 (x : ℕ) : List Cell := rpcWord L.rpc1 (nParts k) (x / 5) ((2 * (x % 5) + 3 * (x / 5)) % 5)
def w2 (x : ℕ) : List Cell := rpcWord L.rpc2 (nParts k) (x / 5) (x % 5)

def preCells : List Cell :=
  L.s ++ [L.absorbFrom, L.absorbData, L.absorbResult] ++ L.absorbFat ++ L.absorbRes ++ L.packed ++ L.inputBytes ++ L.paddings
def bodyCells : List Cell :=
  ((List.range 5).flatMap fun i => L.cParts.getD i []) ++ ((List.range 5).flatMap fun i => L.bc.getD i []) ++
  ((List.range 25).flatMap fun x => (L.uparts.getD x []).flatMap UPart.cells) ++
  ((List.range 25).flatMap (w0 k L)) ++ ((List.range 25).flatMap (w2 k L)) ++ L.iotaFat ++ L.iotaRes
def sqCells : List Cell := L.squeezeFrom :: (L.squeezePacked ++ L.squeezeBytes)
/-- All cells that are ever assigned. -/
def allCells : List Cell := preCells L ++ bodyCells k L ++ sqCells L

/-- The pairs of cells that are assigned pairs of a table. -/
def pairs : Tbl → List (Cell × Cell)
  | .norm3 => L.absorbFat.zip L.absorbRes ++ L.iotaFat.zip L.iotaRes
  | .norm6 => (List.range 5).flatMap fun i => (L.cParts.getD i []).zip (L.bc.getD i [])
  | .norm4 => (List.range 25).flatMap fun x => ((L.uparts.getD x []).map UPart.out).zip (w0 k L x)
  | .unpack => L.packed.zip L.inputBytes ++ L.squeezePacked.zip L.squeezeBytes

/-- The parts that are range checked. -/
def halves : List Cell := (List.range 25).flatMap fun x => (L.uparts.getD x []).flatMap UPart.halves

/-- The inputs and outputs of the chi step. -/
def quads : List (Cell × Cell × Cell × Cell) :=
  (List.range 25).flatMap fun x => (List.range (nParts k)).map fun idx =>
    ((rpcWord L.rpc1 (nParts k) (x / 5) (x % 5)).getD idx (0, 0), (rpcWord L.rpc1 (nParts k) ((x / 5 + 1) % 5) (x % 5)).getD idx (0, 0),
      (rpcWord L.rpc1 (nParts k) ((x / 5 + 2) % 5) (x % 5)).getD idx (0, 0), (w2 k L x).getD idx (0, 0))

/-- The number of a cell. -/
def cellNo (c : Cell) : ℕ := c.1 * h + c.2
/-- The cells are in rows below `h` and none occurs twice (`mask` has the cells seen). -/
def maskOk : List Cell → ℕ → Bool
  | [], _ => true
  | c :: l, m => decide (c.2 < h) && !m.testBit (cellNo h c) && maskOk l (m ||| 1 <<< cellNo h c)
/-- The set of cells as a mask. -/
def maskOf : List Cell → ℕ → ℕ
  | [], m => m
  | c :: l, m => maskOf l (m ||| 1 <<< cellNo h c)

/-- One lookup, in row `o` of a round. -/
def lookCheck (all : ℕ) (o : ℕ) : Look → Bool
  | .trans t x y => (pairs k L t).contains ((x, o), (y, o)) || (!all.testBit (cellNo h (x, o)) && !all.testBit (cellNo h (y, o)))
  | .range4 x => (halves L).contains (x, o) || !all.testBit (cellNo h (x, o))
  | .chi x y z w => (quads k L).contains ((x, o), (y, o), (z, o), (w, o)) ||
      (!all.testBit (cellNo h (x, o)) && !all.testBit (cellNo h (y, o)) && !all.testBit (cellNo h (z, o)) && !all.testBit (cellNo h (w, o)))

/-- The parts of a word match the parts of `split_uniform`. -/
def uniOk : List UPart → List (List ℕ) → Bool
  | [], [] => true
  | .same n _ :: us, q :: qs => n == q.length && uniOk us qs
  | .two na _ nb _ _ :: us, qa :: qb :: qs => na == qa.length && nb == qb.length && uniOk us qs
  | _, _ => false

/-- The parts of a rotated word. -/
def rhoOk (x : ℕ) : Bool :=
  let rot := rhoAt (x % 5) (x / 5)
  let parts := wordParts (ps5 k) rot true
  decide (PartsOk (ps5 k) parts) && decide (rotateCount rot (ps5 k) ≤ parts.length) &&
    uniOk (L.uparts.getD x []) (rotParts parts rot (ps5 k)) && (L.uparts.getD x []).map UPart.size == targetPartSizes (ps5 k)

/-- The sizes. -/
def witSizes : Bool :=
  decide (PartsOk (ps3 k) (wordParts (ps3 k) 0 false)) && decide (PartsOk (ps6 k) (wordParts (ps6 k) 1 false)) &&
  decide (PartsOk 8 (wordParts 8 0 false)) && decide (ps3 k ≤ 64) && decide (ps6 k ≤ 64) && decide (ps5 k ≤ 64) && decide (1 ≤ ps5 k) &&
  decide (ps5 k ≤ numBits 4 k) && ((targetPartSizes (ps5 k)).all fun s => decide (s ≤ ps5 k)) && decide (64 ≤ ps5 k * nParts k) &&
  ((List.range (ps5 k * nParts k - 64)).all fun j => decide ((targetPartSizes (ps5 k)).getD ((64 + j) / ps5 k) 0 ≤ (64 + j) % ps5 k))

/-- The lengths of the lists of cells. -/
def witLens : Bool :=
  L.s.length == 25 && L.absorbFat.length == (wordParts (ps3 k) 0 false).length && L.absorbRes.length == (wordParts (ps3 k) 0 false).length &&
  L.packed.length == 8 && (wordParts 8 0 false).length == 8 && L.inputBytes.length == 8 && L.paddings.length == 8 &&
  ((List.range 5).all fun i => (L.cParts.getD i []).length == (wordParts (ps6 k) 1 false).length &&
    (L.bc.getD i []).length == (wordParts (ps6 k) 1 false).length) &&
  L.iotaFat.length == (wordParts (ps3 k) 0 false).length && L.iotaRes.length == (wordParts (ps3 k) 0 false).length &&
  L.squeezePacked.length == 8 && L.squeezeBytes.length == 8

/-- The lookups. -/
def witLooks (all : ℕ) (lk : List Look) : Bool := lk.all fun l => (List.range h).all fun o => lookCheck k h L all o l

end

/-- The parameters for which completeness is proved. -/
def Wit (k h : ℕ) : Prop :=
  1 ≤ h ∧ witSizes k = true ∧ witLens k (layout k h) = true ∧ ((List.range 25).all fun x => rhoOk k (layout k h) x) = true ∧
    maskOk h (allCells k (layout k h)) 0 = true ∧
    witLooks k h (layout k h) (maskOf h (allCells k (layout k h)) 0) (layout k h).looks = true

instance (k h : ℕ) : Decidable (Wit k h) := inferInstanceAs (Decidable (_ ∧ _ ∧ _ ∧ _ ∧ _ ∧ _))

end H2.Kec
