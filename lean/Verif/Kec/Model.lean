import Verif.Sha.Model
import Verif.Kec.Layout

/-!
# The Keccak circuit (`hashes/zkevm/src/keccak/vanilla`): tables, fixed columns, gates and lookups

As for the SHA-256 circuit (`Verif.Sha.Model`) an `Expression` is modelled by its value: the circuit is satisfied when every polynomial
of every gate vanishes on every row and every lookup expression is in its table on every row.
-/

set_option autoImplicit false
namespace H2.Kec
variable {F : Type} [Field F]
open H2.Sha (sumE andE notE selE fromBytes reqEq reqBool reqZero cond gate ind)

/-! ### `table.rs`: the lookup tables -/

/-- table.rs:33-60, 104-125: the rows of a table: one for every list of `n` digits below `range` (`multi_cartesian_product`); the input
is the digits in base 8, the output the digits' images under `f`.  (Rust computes in `u64`: no overflow for `n ≤ 21`; the order of the
rows does not matter.) -/
def tblRows (f : ℕ → ℕ) (range : ℕ) : ℕ → List (ℕ × ℕ)
  | 0 => [(0, 0)]
  | n + 1 => (List.range range).flatMap fun d => (tblRows f range n).map fun e => (d + 8 * e.1, f d + 8 * e.2)

/-- table.rs:23-62 `load_normalize_table` -/
def normTable (range k : ℕ) : List (ℕ × ℕ) := tblRows (· % 2) range (numBits range k)

/-- param.rs:63 `CHI_BASE_LOOKUP_TABLE` -/
def CHI_BASE : List ℕ := [0, 1, 1, 0, 0]
/-- mod.rs:882-888, table.rs:90-126 `load_lookup_table` for "chi base" -/
def chiTable (k : ℕ) : List (ℕ × ℕ) := tblRows (fun d => CHI_BASE.getD d 0) CHI_BASE.length (ps5 k)

/-- util.rs:121-131 `pack` of a list of digits -/
def packL : List ℕ → ℕ
  | [] => 0
  | d :: l => packL l * 8 + d
/-- util.rs:110-118 `into_bits` of one byte -/
def byteBits (x : ℕ) : List ℕ := (List.range 8).map fun i => x / 2 ^ i % 2
/-- table.rs:65-87 `load_pack_table`, the columns reversed (mod.rs:191, 454): `(packed, unpacked)` -/
def unpackTable : List (ℕ × ℕ) := (List.range 256).map fun x => (packL (byteBits x), x)

/-- mod.rs:878-890 `load_aux_tables` -/
def table (k : ℕ) : Tbl → List (ℕ × ℕ)
  | .norm3 => normTable 3 k
  | .norm4 => normTable 4 k
  | .norm6 => normTable 6 k
  | .unpack => unpackTable

/-! ### Columns -/

/-- The advice columns: the cell manager's columns and the `KeccakTable` (keccak_packed_multi.rs:129-140). -/
structure Adv (F : Type) where
  cell : ℕ → ℤ → F
  isFinal : ℤ → F
  hashLo : ℤ → F
  hashHi : ℤ → F
  bytesLeft : ℤ → F
  wordValue : ℤ → F

/-- The fixed columns in one row. -/
structure Fix (F : Type) where
  (qEnable qFirst qRound qAbsorb qRoundLast qInput qInputLast roundCst : F)

/-- param.rs:30-56 `ROUND_CST` -/
def ROUND_CST : List ℕ := [
  0x0000000000000001, 0x0000000000008082, 0x800000000000808a, 0x8000000080008000, 0x000000000000808b, 0x0000000080000001,
  0x8000000080008081, 0x8000000000008009, 0x000000000000008a, 0x0000000000000088, 0x0000000080008009, 0x000000008000000a,
  0x000000008000808b, 0x800000000000008b, 0x8000000000008089, 0x8000000000008003, 0x8000000000008002, 0x8000000000000080,
  0x000000000000800a, 0x800000008000000a, 0x8000000080008081, 0x8000000000008080, 0x0000000080000001, 0x8000000080008008,
  0x0000000000000000]

/-- util.rs:156-158 `pack_u64` -/
def packU64 (v : ℕ) : ℕ := packL ((List.range 64).map fun i => v / 2 ^ i % 2)

/-- keccak_packed_multi.rs:78-96 `dummy_rows`, mod.rs:822-836 `set_row`: the fixed values in the first `h` rows. -/
def fixDummy (offset : ℕ) : Fix F :=
  { qEnable := ind (offset = 0), qFirst := ind (offset = 0), qRound := 0, qAbsorb := ind (offset = 0), qRoundLast := 0, qInput := 0,
    qInputLast := 0, roundCst := 0 }
/-- witness.rs:352-399, mod.rs:822-836 `set_row`: the fixed values in row `rowIdx` of round `t` of a keccak_f. -/
def fixRound (t rowIdx : ℕ) : Fix F :=
  { qEnable := ind (rowIdx = 0)
    qFirst := 0
    qRound := ind (rowIdx = 0 ∧ t < 24)
    qAbsorb := ind (rowIdx = 0 ∧ t = 24)
    qRoundLast := ind (rowIdx = 0 ∧ t = 24)
    qInput := ind (rowIdx = 0 ∧ t < 17)
    qInputLast := ind (rowIdx = 0 ∧ t = 16)
    roundCst := ((packU64 (ROUND_CST.getD t 0) : ℕ) : F) }
/-- witness.rs:5-45 `multi_keccak`: the fixed values at `offset`: `h` dummy rows, then 25 rounds of `h` rows for every keccak_f. -/
def fixAt (h offset : ℕ) : Fix F :=
  if offset < h then fixDummy offset else fixRound ((offset / h - 1) % 25) (offset % h)
/-- The number of assigned rows of a circuit with `n` keccak_f's. -/
def numRows (h n : ℕ) : ℕ := (1 + n * 25) * h
/-- The fixed columns of a circuit with `n` keccak_f's; cells that are not assigned are 0. -/
def fixedCols (h n : ℕ) (r : ℤ) : Fix F :=
  if 0 ≤ r ∧ r < numRows h n then fixAt h r.toNat else ⟨0, 0, 0, 0, 0, 0, 0, 0⟩

/-! ### Gates (`mod.rs`) -/

/-- keccak_packed_multi.rs:167-172 `decode::expr`: parts are (number of bits, value). -/
def decode (parts : List (ℕ × F)) : F := parts.foldr (fun q acc => acc * 8 ^ q.1 + q.2) 0

/-- keccak_packed_multi.rs:306-349: the constraints of `split_uniform::expr` for combined parts. -/
def upartGate (val : Cell → F) : UPart → List F
  | .same _ _ => []
  | .two na a _ b c => reqEq (val a + val b * 8 ^ na) (val c)

/-- keccak_packed_multi.rs:275-349: the constraints of `split_uniform::expr`. -/
def splitUniGates (val : Cell → F) (us : List UPart) (rot ps : ℕ) (input : F) : List F :=
  us.flatMap (upartGate val) ++
    reqEq (decode (rotPartsRev ((us.flatMap UPart.inputs).map fun q => (q.1, val q.2)) rot ps)) input

section
variable (k h : ℕ) (L : Layout) (fx : ℤ → Fix F) (a : Adv F) (r : ℤ)

/-- The value of a cell for the round that starts in row `r` (cell_manager.rs:18-35 `Cell::new`). -/
def Adv.val (c : Cell) : F := a.cell c.1 (r + c.2)
/-- The parts of a word: their sizes and values. -/
def partsOf (sizes : List ℕ) (cells : List Cell) : List (ℕ × F) := sizes.zip (cells.map (a.val r))
/-- The state word `s[i][j]`; `pre_s` in mod.rs -/
def sAt (i j : ℕ) : F := a.val r (L.s.getD (5 * i + j) (0, 0))
/-- mod.rs:117-120: `start_new_hash` -/
def startNew : F := (fx r).qFirst + a.isFinal r

/-- mod.rs:240-246: `t` in the theta step -/
def thetaT (i : ℕ) : F :=
  let sz := partSizes (ps6 k) 1 false
  decode (partsOf a r sz (L.bc.getD ((i + 4) % 5) [])) +
    decode (rotParts (partsOf a r sz (L.bc.getD ((i + 1) % 5) [])) 1 (ps6 k))
/-- mod.rs:384-398: the state word after chi -/
def chiOut (i j : ℕ) : F :=
  let n := (targetPartSizes (ps5 k)).length
  decode ((rpcWord L.rpc2 n i j).map fun c => (ps5 k, a.val r c))
/-- mod.rs:400-423: the state word after the round -/
def roundOut (i j : ℕ) : F :=
  if i = 0 ∧ j = 0 then decode (partsOf a r (partSizes (ps3 k) 0 false) L.iotaRes) else chiOut k L a r i j

/-- mod.rs:152-463 "round": the constraints of `cb` -/
def gRound : List F :=
  let sz3 := partSizes (ps3 k) 0 false
  let sz6 := partSizes (ps6 k) 1 false
  let sz8 := partSizes 8 0 false
  gate (fx r).qRound
    (reqEq (decode (partsOf a r sz3 L.absorbFat)) (a.val r L.absorbFrom + a.val r L.absorbData) ++
     reqEq (decode (partsOf a r sz3 L.absorbRes)) (a.val r L.absorbResult) ++
     reqEq (decode (partsOf a r sz8 L.packed)) (a.val r L.absorbData) ++
     ((List.range 5).flatMap fun i =>
       reqEq (decode (partsOf a r sz6 (L.cParts.getD i [])))
         (sAt L a r i 0 + sAt L a r i 1 + sAt L a r i 2 + sAt L a r i 3 + sAt L a r i 4)) ++
     ((List.range 25).flatMap fun x =>
       splitUniGates (a.val r) (L.uparts.getD x []) (rhoAt (x % 5) (x / 5)) (ps5 k) (sAt L a r (x % 5) (x / 5) + thetaT k L a r (x % 5))) ++
     reqEq (decode (partsOf a r sz3 L.iotaFat)) (chiOut k L a r 0 0 + (fx r).roundCst) ++
     ((List.range 5).flatMap fun i => (List.range 5).flatMap fun j => reqEq (roundOut k L a r i j) (sAt L a (r + h) i j)) ++
     reqEq (decode (partsOf a r sz8 L.squeezePacked)) (a.val r L.squeezeFrom))

/-- mod.rs:466-501 "absorb": one position; `a_slice = i + 5 j` for the absorb positions (util.rs:97-107). -/
def gAbsorbAt (i j : ℕ) : List F :=
  let cont := notE (startNew fx a r)
  if i + j * 5 < 17 then
    let r' := r + ((i + j * 5 : ℕ) + 1) * h
    cond cont (reqEq (a.val r' L.absorbFrom) (sAt L a r i j)) ++
      reqEq (selE cont (a.val r' L.absorbResult) (a.val r' L.absorbData)) (sAt L a (r + h) i j)
  else reqEq (sAt L a r i j * cont) (sAt L a (r + h) i j)
/-- mod.rs:466-501 "absorb" -/
def gAbsorb : List F :=
  gate (fx r).qAbsorb ((List.range 5).flatMap fun j => (List.range 5).flatMap fun i => gAbsorbAt h L fx a r i j)

/-- mod.rs:503-511: `hash_bytes` -/
def hashBytes : List F :=
  (List.range 4).flatMap fun i => L.squeezeBytes.map fun c => a.val (r - ((i : ℕ) + 1) * h) c
/-- mod.rs:514-539 "squeeze" (word.rs:283-293 `to_word`: two chunks of 16 bytes, little-endian) -/
def gSqueeze : List F :=
  let start := startNew fx a r
  let le := (hashBytes h L a r).reverse
  gate (fx r).qRoundLast
    (((List.range 4).flatMap fun idx => cond start (reqEq (sAt L a r idx 0) (a.val (r - ((idx : ℕ) + 1) * h) L.squeezeFrom))) ++
     cond start (reqEq (fromBytes (le.take 16)) (a.hashLo r) ++ reqEq (fromBytes (le.drop 16)) (a.hashHi r)))

/-- mod.rs:542-546 "input checks" -/
def gInput : List F := gate (fx r).qEnable (reqBool (a.isFinal r))
/-- mod.rs:549-556 "first row" -/
def gFirst : List F := gate (fx r).qFirst (reqZero (a.isFinal r))

/-- The padding selectors and the input bytes of the round. -/
def padAt (i : ℕ) : F := a.val r (L.paddings.getD i (0, 0))
def byteAt (i : ℕ) : F := a.val r (L.inputBytes.getD i (0, 0))

/-- mod.rs:592-608 "word_value" (`zip_eq` of the 8 bytes and the 8 selectors) -/
def gWordValue : List F :=
  let masked := (List.range 8).map fun i => byteAt L a r i * notE (padAt L a r i)
  gate (fx r).qInput (reqEq (fromBytes masked) (a.wordValue r))

/-- mod.rs:609-655 "bytes_left" -/
def gBytesLeft : List F :=
  let bl := a.bytesLeft r
  let next := a.bytesLeft (r + h)
  gate (fx r).qEnable
    (cond (fx r).qFirst (reqZero bl) ++
     cond (a.isFinal r) (reqZero bl) ++
     cond (fx r).qInput (reqEq bl (next + (8 - sumE ((List.range 8).map (padAt L a r))))) ++
     cond (notE ((fx r).qInput + startNew fx a r)) (reqEq bl next))

/-- mod.rs:656-690 "is final" -/
def gFinal : List F :=
  gate 1
    (cond ((fx r).qAbsorb - (fx r).qFirst) (reqEq (a.isFinal r) (padAt L a (r - 8 * h) 7)) ++
     cond (((List.range (h - 1)).map fun (i : ℕ) => (fx (r - ((i : ℕ) + 1))).qEnable).foldl (fun acc e => acc + e) 0) (reqZero (a.isFinal r)))

/-- mod.rs:713-758 "padding": one selector -/
def gPaddingAt (idx : ℕ) : List F :=
  let prev := if idx = 0 then padAt L a (r - h) 7 else padAt L a r (idx - 1)
  let isPadding := padAt L a r idx
  let isFirst := isPadding - prev
  cond (fx r).qInput (reqBool isFirst) ++
  if idx = 7 then
    cond (andE [(fx r).qInput - (fx r).qInputLast, isPadding]) (reqEq (byteAt L a r idx) isFirst) ++
    cond (andE [(fx r).qInputLast, isPadding]) (reqEq (byteAt L a r idx) (isFirst + 128))
  else cond (andE [(fx r).qInput, isPadding]) (reqEq (byteAt L a r idx) isFirst)

/-- mod.rs:692-760 "padding" -/
def gPadding : List F :=
  gate 1
    ((List.range 8).flatMap (fun i => cond (fx r).qEnable (reqBool (padAt L a r i))) ++
     cond (fx r).qAbsorb (reqZero (padAt L a r 7)) ++
     (List.range 8).flatMap (gPaddingAt h L fx a r))

/-- mod.rs:78-790 `KeccakCircuitConfig::new`: all gates in row `r`. -/
def gates : List F :=
  gRound k h L fx a r ++ gAbsorb h L fx a r ++ gSqueeze h L fx a r ++ gInput fx a r ++ gFirst fx a r ++ gWordValue L fx a r ++
  gBytesLeft h L fx a r ++ gFinal h L fx a r ++ gPadding h L fx a r

/-- A lookup in row `r`. -/
def lookOk : Look → Prop
  | .trans t cin cout => ∃ e ∈ table k t, a.cell cin r = (e.1 : F) ∧ a.cell cout r = (e.2 : F)
  | .range4 c => ∃ e ∈ table k .norm4, a.cell c r = (e.1 : F)
  | .chi x y z out => ∃ e ∈ chiTable k,
      ((packL (List.replicate (ps5 k) 3) : ℕ) : F) - 2 * a.cell x r + a.cell y r - a.cell z r = (e.1 : F) ∧ a.cell out r = (e.2 : F)

end

/-- The circuit with parameters `k`, `rows_per_round = h` and `n` keccak_f's is satisfied by the advice `a`: in every assigned row every
polynomial of every gate vanishes and every lookup holds.  (In the proof system the rows wrap around, and the gates and lookups are
also enforced in the unassigned rows; for the gates see `C61_keccak_unassigned`, for the lookups `C62`.) -/
def KecSat (k h n : ℕ) (a : Adv F) : Prop :=
  ∀ r : ℕ, r < numRows h n →
    (∀ c ∈ gates k h (layout k h) (fixedCols h n) a r, c = 0) ∧ ∀ l ∈ (layout k h).looks, lookOk k a r l

end H2.Kec
