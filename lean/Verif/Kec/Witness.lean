import Verif.Kec.Digits

/-!
# The Keccak circuit (`hashes/zkevm/src/keccak/vanilla/witness.rs`): witness generation

Field elements are modelled by natural numbers: every value that occurs is below `8 ^ 65` (a word of 64 digits in base 8, or less), so no
reduction modulo a 254-bit prime ever happens.  The cell manager in value mode makes the same queries, in the same order, as in expression
mode (`Verif.Kec.Layout`), so the cells are those of `layout k h`.
-/

set_option autoImplicit false
namespace H2.Kec

/-- keccak_packed_multi.rs:111-131 `KeccakRegion`: the list of the assignments to cells. -/
abbrev Region := List (Cell × ℕ)

/-- keccak_packed_multi.rs:121-130 `assign`: the last assignment to a cell is its value; cells without assignment are 0. -/
def rget (g : Region) (c : Cell) : ℕ := ((g.reverse.find? fun e => e.1 == c).map (·.2)).getD 0

/-- util.rs:142-153 `unpack` -/
def unpackN (x : ℕ) : List ℕ := (List.range 64).map (dig x)

/-- util.rs:134-139 `pack_part` -/
def packPart (bits : List ℕ) (part : List ℕ) : ℕ := packL (part.map fun i => bits.getD i 0)

/-- keccak_packed_multi.rs:223-251 `split::value`: the parts (number of bits, value). -/
def splitV (ps rot : ℕ) (x : ℕ) : List (ℕ × ℕ) :=
  (wordParts ps rot false).map fun q => (q.length, packPart (unpackN x) q)

/-- keccak_packed_multi.rs:534-561 `transform_to::value` with `do_packing`, one part. -/
def trV (f : ℕ → ℕ) (q : ℕ × ℕ) : ℕ × ℕ := (q.1, packL (((unpackN q.2).take q.1).map f))

/-- util.rs:228-240 `to_bytes::value` of (up to) 8 bits -/
def toByteV : List ℕ → ℕ
  | [] => 0
  | d :: l => d + 2 * toByteV l

/-- keccak_packed_multi.rs:534-561 `transform_to::value` without `do_packing` and with the identity, one part. -/
def trB (q : ℕ × ℕ) : ℕ × ℕ := (q.1, toByteV ((unpackN q.2).take q.1))

/-- The assignment of parts to cells, one by one. -/
def put (cells : List Cell) (vs : List (ℕ × ℕ)) : Region := cells.zip (vs.map (·.2))

/-- keccak_packed_multi.rs:371-426: the loop of `split_uniform::value` over the parts of the word (the branches are those of the expression
mode, which are recorded in the list of `UPart`s): the assignments and the output parts. -/
def uniV (bits : List ℕ) : List UPart → List (List ℕ) → Region × List (ℕ × ℕ)
  | .same _ c :: us, q :: qs =>
    let r := uniV bits us qs
    ((c, packPart bits q) :: r.1, (q.length, packPart bits q) :: r.2)
  | .two _ a _ b c :: us, qa :: qb :: qs =>
    let r := uniV bits us qs
    let va := packPart bits qa
    let vb := packPart bits qb
    let v := va + vb * 8 ^ qa.length
    ((a, va) :: (b, vb) :: (c, v) :: r.1, (qa.length + qb.length, v) :: r.2)
  | _, _ => ([], [])

/-- witness.rs:58: the state `s[i][j]` is number `5 i + j` of a list. -/
def sget (s : List ℕ) (i j : ℕ) : ℕ := s.getD (5 * i + j) 0

section
variable (k : ℕ) (L : Layout)

/-- witness.rs:183-187: the parts of a column sum -/
def cV (s : List ℕ) (i : ℕ) : List (ℕ × ℕ) :=
  splitV (ps6 k) 1 (sget s i 0 + sget s i 1 + sget s i 2 + sget s i 3 + sget s i 4)
/-- witness.rs:191-201: their parities -/
def bcV (s : List ℕ) (i : ℕ) : List (ℕ × ℕ) := (cV k s i).map (trV (· % 2))
/-- witness.rs:205-206: `t` -/
def tV (s : List ℕ) (i : ℕ) : ℕ := decN (bcV k s ((i + 4) % 5)) + decN (rotParts (bcV k s ((i + 1) % 5)) 1 (ps6 k))
/-- witness.rs:203-211: the state after theta (not normalised) -/
def thV (s : List ℕ) : List ℕ := (List.range 25).map fun q => sget s (q / 5) (q % 5) + tV k s (q / 5)

/-- witness.rs:241-253: `split_uniform` of the word `s[x % 5][x / 5]` -/
def uV (th : List ℕ) (x : ℕ) : Region × List (ℕ × ℕ) :=
  let rot := rhoAt (x % 5) (x / 5)
  uniV (unpackN (sget th (x % 5) (x / 5))) (L.uparts.getD x []) (rotParts (wordParts (ps5 k) rot true) rot (ps5 k))
/-- witness.rs:255-261: the parities of its parts -/
def rpV (th : List ℕ) (x : ℕ) : List (ℕ × ℕ) := (uV k L th x).2.map (trV (· % 2))
/-- witness.rs:241-263: `os_parts[i][j]`: the word with `x / 5 = i` and `(2 (x % 5) + 3 (x / 5)) % 5 = j`. -/
def osV (th : List ℕ) (i j : ℕ) : List (ℕ × ℕ) := rpV k L th (5 * i + (3 * j + i) % 5)

/-- witness.rs:274-287: the inputs of the chi lookups of word `(i, j)`. (Rust: `three_packed - two * a + b - c` in the field.) -/
def chiIn (th : List ℕ) (i j : ℕ) : List (ℕ × ℕ) :=
  (List.range (targetPartSizes (ps5 k)).length).map fun idx =>
    (ps5 k, packL (List.replicate (ps5 k) 3) + ((osV k L th ((i + 1) % 5) j).getD idx (0, 0)).2
      - (2 * ((osV k L th i j).getD idx (0, 0)).2 + ((osV k L th ((i + 2) % 5) j).getD idx (0, 0)).2))
/-- witness.rs:288-294: the parts of word `(i, j)` after chi -/
def chiV (th : List ℕ) (i j : ℕ) : List (ℕ × ℕ) := (chiIn k L th i j).map (trV fun d => CHI_BASE.getD d 0)

/-- witness.rs:302-311: the parts of the input of iota -/
def iotaIn (t : ℕ) (th : List ℕ) : List (ℕ × ℕ) :=
  splitV (ps3 k) 0 (decN (chiV k L th 0 0) + packU64 (ROUND_CST.getD t 0))
/-- witness.rs:313-320: their parities -/
def iotaV (t : ℕ) (th : List ℕ) : List (ℕ × ℕ) := (iotaIn k L t th).map (trV (· % 2))

/-- witness.rs:178-321: the state after round `t` -/
def nextV (t : ℕ) (s : List ℕ) : List ℕ :=
  let th := thV k s
  (List.range 25).map fun q => if q = 0 then decN (iotaV k L t th) else decN (chiV k L th (q / 5) (q % 5))

/-- witness.rs:84-89 `AbsorbData` -/
structure AbsorbD where
  (frm data result : ℕ)

/-- witness.rs:110-176: the assignments in every round: state, absorb data, input bytes and padding selectors. -/
def preReg (s : List ℕ) (ab : AbsorbD) (pads : List ℕ) : Region :=
  L.s.zip s ++ [(L.absorbFrom, ab.frm), (L.absorbData, ab.data), (L.absorbResult, ab.result)] ++
  put L.absorbFat (splitV (ps3 k) 0 (ab.frm + ab.data)) ++
  put L.absorbRes ((splitV (ps3 k) 0 (ab.frm + ab.data)).map (trV (· % 2))) ++
  put L.packed (splitV 8 0 ab.data) ++
  put L.inputBytes ((splitV 8 0 ab.data).map trB) ++
  L.paddings.zip pads

/-- witness.rs:178-321: the assignments of the rounds before the last one. -/
def bodyReg (t : ℕ) (s : List ℕ) : Region :=
  let th := thV k s
  let n := (targetPartSizes (ps5 k)).length
  ((List.range 5).flatMap fun i => put (L.cParts.getD i []) (cV k s i)) ++
  ((List.range 5).flatMap fun i => put (L.bc.getD i []) (bcV k s i)) ++
  ((List.range 25).flatMap fun x => (uV k L th x).1) ++
  ((List.range 25).flatMap fun x => put (rpcWord L.rpc1 n (x / 5) ((2 * (x % 5) + 3 * (x / 5)) % 5)) (rpV k L th x)) ++
  ((List.range 25).flatMap fun x => put (rpcWord L.rpc2 n (x / 5) (x % 5)) (chiV k L th (x / 5) (x % 5))) ++
  put L.iotaFat (iotaIn k L t th) ++
  put L.iotaRes (iotaV k L t th)

/-- witness.rs:349-365: the assignments of the squeeze data. -/
def sqReg (w : ℕ) : Region :=
  (L.squeezeFrom, w) :: (put L.squeezePacked (splitV 8 0 w) ++ put L.squeezeBytes ((splitV 8 0 w).map trB))

/-- The state after `t` rounds from the state `s`. -/
def roundsV (s : List ℕ) : ℕ → List ℕ
  | 0 => s
  | t + 1 => nextV k L t (roundsV s t)

end

/-- util.rs:110-118, witness.rs:57, 64-69: the bits of the padded message; the loop pushes zeros until the length plus 1 is a multiple of 1088.
-/
def padBits (m : List Byte) : List ℕ :=
  (m.flatMap fun b => (List.range 8).map fun i => b.toNat / 2 ^ i % 2) ++ [1] ++
    List.replicate ((1088 - (8 * m.length + 2) % 1088) % 1088) 0 ++ [1]
/-- witness.rs:73-74: the number of chunks of 1088 bits -/
def numBlocks (m : List Byte) : ℕ := (padBits m).length / 1088
/-- witness.rs:91: the `w`-th word of chunk `idx` -/
def wordV (m : List Byte) (idx w : ℕ) : ℕ := packL (((padBits m).drop (1088 * idx + 64 * w)).take 64)

section
variable (k : ℕ) (L : Layout) (m : List Byte)

/-- witness.rs:88-95: the state after absorbing chunk `idx` into `s` (util.rs:161-167 `field_xor`) -/
def absorbV (idx : ℕ) (s : List ℕ) : List ℕ :=
  (List.range 25).map fun q =>
    if q / 5 + 5 * (q % 5) < 17 then sget s (q / 5) (q % 5) ^^^ wordV m idx (q / 5 + 5 * (q % 5)) else sget s (q / 5) (q % 5)

/-- The state before chunk `idx`. -/
def blockSt : ℕ → List ℕ
  | 0 => List.replicate 25 0
  | idx + 1 => roundsV k L (absorbV m idx (blockSt idx)) 24

/-- The state at the start of round `t` for chunk `idx`. -/
def stV (idx t : ℕ) : List ℕ := roundsV k L (absorbV m idx (blockSt k L m idx)) t

/-- witness.rs:104-107, 91-94: the absorb data of round `t` -/
def absorbAt (idx t : ℕ) : AbsorbD :=
  if t < 17 then
    let s := blockSt k L m idx
    ⟨sget s (t % 5) (t / 5), wordV m idx t, sget s (t % 5) (t / 5) ^^^ wordV m idx t⟩
  else ⟨0, 0, 0⟩

/-- witness.rs:80: `is_final_block` -/
def finalBlock (idx : ℕ) : Bool := idx == numBlocks m - 1

/-- witness.rs:161-174: the padding selectors of round `t` -/
def padsAt (idx t : ℕ) : List ℕ :=
  if t < 17 then (List.range 8).map fun i => if finalBlock m idx = true ∧ m.length % 136 ≤ t * 8 + i then 1 else 0 else []

/-- witness.rs:99-365: the region of round `t` for chunk `idx`; the squeeze data of word `i` are in round `23 - i`. -/
def roundReg (idx t : ℕ) : Region :=
  let s := stV k L m idx t
  preReg k L s (absorbAt k L m idx t) (padsAt m idx t) ++
    if t < 24 then
      bodyReg k L t s ++ if 20 ≤ t then sqReg L (sget (stV k L m idx 24) (23 - t) 0) else []
    else []

/-- witness.rs:325-331: the bytes of the hash, reversed -/
def hashLe (idx : ℕ) : List ℕ :=
  ((List.range 4).flatMap fun i => (List.range 8).map fun b =>
    toByteV ((unpackN (sget (stV k L m idx 24) i 0)).drop (8 * b) |>.take 8)).reverse
/-- A number from its bytes, little-endian. -/
def leNum : List ℕ → ℕ
  | [] => 0
  | b :: l => b + 256 * leNum l

end

/-- keccak_packed_multi.rs:60-75 `KeccakRow` -/
structure KRow where
  (qEnable qRound qAbsorb qRoundLast qInput qInputLast : Bool)
  roundCst : ℕ
  isFinal : Bool
  /-- the values of the cell manager's columns -/
  cell : ℕ → ℕ
  (hashLo hashHi bytesLeft wordValue : ℕ)

/-- keccak_packed_multi.rs:78-96 `dummy_rows` -/
def dummyRow (i : ℕ) : KRow :=
  { qEnable := i == 0, qRound := false, qAbsorb := i == 0, qRoundLast := false, qInput := false, qInputLast := false, roundCst := 0,
    isFinal := false, cell := fun _ => 0, hashLo := 0, hashHi := 0, bytesLeft := 0, wordValue := 0 }

/-- witness.rs:368-407: row `o` of round `t` for chunk `idx` (the variable `hash` has its value of the last round in all these rows). -/
def keccakRow (k h : ℕ) (m : List Byte) (idx t o : ℕ) : KRow :=
  let L := layout k h
  { qEnable := o == 0
    qRound := o == 0 && decide (t < 24)
    qAbsorb := o == 0 && t == 24
    qRoundLast := o == 0 && t == 24
    qInput := o == 0 && decide (t < 17)
    qInputLast := o == 0 && t == 16
    roundCst := packU64 (ROUND_CST.getD t 0)
    isFinal := finalBlock m idx && t == 24 && o == 0
    cell := fun c => rget (roundReg k L m idx t) (c, o)
    hashLo := if finalBlock m idx then leNum ((hashLe k L m idx).take 16) else 0
    hashHi := if finalBlock m idx then leNum ((hashLe k L m idx).drop 16) else 0
    bytesLeft := m.length - ((if t < 17 then t * 8 + min o 7 else 136) + idx * 136)
    wordValue := if t < 17 ∧ o = 0 then leNum (((m.drop ((idx * 17 + t) * 8)).take 8).map BitVec.toNat) else 0 }

/-- witness.rs:47-417 `keccak`: the rows of one message. -/
def keccakRows (k h : ℕ) (m : List Byte) : List KRow :=
  (List.range (numBlocks m)).flatMap fun idx => (List.range 25).flatMap fun t => (List.range h).map fun o => keccakRow k h m idx t o

/-- witness.rs:36-38: the padding loop (`fuel`: the number of iterations is at most the capacity) -/
def padTo (k h target : ℕ) : ℕ → List KRow → List KRow
  | 0, rows => rows
  | fuel + 1, rows => if rows.length < target then padTo k h target fuel (rows ++ keccakRows k h []) else rows

/-- witness.rs:5-45 `multi_keccak`: the rows, `none` if it panics.  (The second return value, the native digests, is not modelled.) -/
def multiKeccak (k h : ℕ) (ms : List (List Byte)) (capacity : Option ℕ) : Option (List KRow) :=
  let rows := (List.range h).map dummyRow ++ ms.flatMap (keccakRows k h)
  match capacity with
  | none => some rows
  | some c =>
    let target := (1 + c * 25) * h
    let rows := padTo k h target c rows
    if target < rows.length then none else some rows

/-- The advice columns after the assignment of the rows (mod.rs:800-876 `assign`, `set_row`); cells that are not assigned are 0. -/
def advOf {F : Type} [Field F] (rows : List KRow) : Adv F :=
  let at' := fun (f : KRow → ℕ) (r : ℤ) => if 0 ≤ r then ((((rows[r.toNat]?).map f).getD 0 : ℕ) : F) else 0
  { cell := fun c => at' fun x => x.cell c
    isFinal := at' fun x => x.isFinal.toNat
    hashLo := at' KRow.hashLo
    hashHi := at' KRow.hashHi
    bytesLeft := at' KRow.bytesLeft
    wordValue := at' KRow.wordValue }

end H2.Kec
