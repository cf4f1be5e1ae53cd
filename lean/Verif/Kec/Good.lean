import Verif.Kec.Digits

/-!
# Parameters for which the Keccak circuit has all the lookups it needs

`Good k h` is a decidable condition on the parameters (`k`, `rows_per_round = h`).
-/

set_option autoImplicit false
namespace H2.Kec

/-- Every pair of cells (input, output) of a table step is in the same row of the round and its pair of columns has a lookup. -/
def transOk (lk : List Look) (h : ℕ) (t : Tbl) (inp out : List Cell) : Bool :=
  inp.length == out.length &&
    (inp.zip out).all fun e => e.1.2 == e.2.2 && decide (e.1.2 < h) && lk.contains (.trans t e.1.1 e.2.1)

/-- All parts but the last have `ps` bits, and none is empty. -/
def sizesOk (ps : ℕ) (sz : List ℕ) : Bool := (sz.dropLast.all fun s => s == ps) && sz.all fun s => decide (1 ≤ s)

/-- The parts of a rotated word: whole parts, except that part `rot / n` is split if `n` does not divide the rotation. -/
def rhoShape (n rot : ℕ) (us : List UPart) : Bool :=
  us.length == 64 / n &&
    (List.range (64 / n)).all fun t => match us[t]? with
      | some (.same n' _) => n' == n && (t != rot / n || rot % n == 0)
      | some (.two na _ nb _ _) => t == rot / n && rot % n != 0 && na == rot % n && nb == n - rot % n
      | none => false

/-- The range checks of the split parts. -/
def rangeOk (lk : List Look) (h : ℕ) (us : List UPart) : Bool :=
  us.all fun u => match u with
    | .same _ _ => true
    | .two _ a _ b _ => decide (a.2 < h) && decide (b.2 < h) && lk.contains (.range4 a.1) && lk.contains (.range4 b.1)

/-- The chi lookups of one row of 5 parts. -/
def chiOk (lk : List Look) (h : ℕ) (inp out : List Cell) : Bool :=
  (List.range 5).all fun i =>
    let x := inp.getD i (0, 0)
    let y := inp.getD ((i + 1) % 5) (0, 0)
    let z := inp.getD ((i + 2) % 5) (0, 0)
    let o := out.getD i (0, 0)
    decide (x.2 < h) && y.2 == x.2 && z.2 == x.2 && o.2 == x.2 && lk.contains (.chi x.1 y.1 z.1 o.1)

/-- The sizes of the parts and of the tables fit together. -/
def sizesGood (k : ℕ) : Bool :=
  let n := ps5 k
  decide (1 ≤ n) && decide (n ≤ 16) && decide (ps3 k ≤ 16) && decide (1 ≤ ps3 k) && decide (1 ≤ ps6 k) && decide (ps6 k ≤ 16) &&
  64 % n == 0 && decide (numBits 4 k ≤ n + 1) && decide (n ≤ numBits 4 k) &&
  sizesOk (ps3 k) (partSizes (ps3 k) 0 false) && (partSizes (ps3 k) 0 false).sum == 64 &&
  partSizes (ps6 k) 1 false == List.replicate (63 / ps6 k) (ps6 k) ++ [1] && 63 % ps6 k == 0 &&
  partSizes 8 0 false == List.replicate 8 8 &&
  targetPartSizes n == List.replicate (64 / n) n

/-- All lookups are there. -/
def lookGood (k h : ℕ) (L : Layout) (lk : List Look) : Bool :=
  let n := ps5 k
  let m := 64 / n
  transOk lk h .norm3 L.absorbFat L.absorbRes && L.absorbFat.length == (partSizes (ps3 k) 0 false).length &&
  transOk lk h .unpack L.packed L.inputBytes && L.packed.length == 8 &&
  ((List.range 5).all fun i => transOk lk h .norm6 (L.cParts.getD i []) (L.bc.getD i []) &&
    (L.cParts.getD i []).length == (partSizes (ps6 k) 1 false).length) &&
  ((List.range 25).all fun x =>
    let us := L.uparts.getD x []
    rhoShape n (rhoAt (x % 5) (x / 5)) us && rangeOk lk h us &&
    transOk lk h .norm4 (us.map UPart.out) (rpcWord L.rpc1 m (x / 5) ((2 * (x % 5) + 3 * (x / 5)) % 5))) &&
  ((List.range (5 * m)).all fun q => chiOk lk h (L.rpc1.getD q []) (L.rpc2.getD q [])) &&
  transOk lk h .norm3 L.iotaFat L.iotaRes && L.iotaFat.length == (partSizes (ps3 k) 0 false).length &&
  transOk lk h .unpack L.squeezePacked L.squeezeBytes && L.squeezePacked.length == 8

/-- The parameters for which soundness is proved. -/
def Good (k h : ℕ) : Prop := 1 ≤ h ∧ sizesGood k = true ∧ lookGood k h (layout k h) (layout k h).looks = true

instance (k h : ℕ) : Decidable (Good k h) := inferInstanceAs (Decidable (_ ∧ _ ∧ _))

end H2.Kec
