import Mathlib.Data.List.Basic

/-!
# The Keccak circuit (`hashes/zkevm/src/keccak/vanilla`): parts, cells, columns and lookups

Everything here depends only on the circuit parameters `k` (2^k rows) and `rows_per_round`, not on the field or a witness.
A cell of the cell manager is a column and a rotation (the row inside the round).
-/

set_option autoImplicit false
namespace H2.Kec

/-- A cell: column index and rotation. -/
abbrev Cell := ℕ × ℕ

/-! ### `table.rs`, `keccak_packed_multi.rs`, `util.rs`: sizes of parts -/

/-- table.rs:13-20, the loop of `get_num_bits_per_lookup` (the fuel `k` suffices for `range ≥ 2`). -/
def numBitsLoop (range k : ℕ) : ℕ → ℕ → ℕ
  | 0, n => n
  | f + 1, n => if range ^ (n + 1) + 31 ≤ 2 ^ k then numBitsLoop range k f (n + 1) else n
/-- table.rs:13-20 `get_num_bits_per_lookup` -/
def numBits (range k : ℕ) : ℕ := numBitsLoop range k k 1

/-- keccak_packed_multi.rs:14-16 `get_num_bits_per_absorb_lookup` -/
def ps3 (k : ℕ) : ℕ := numBits 3 k
/-- keccak_packed_multi.rs:18-20 `get_num_bits_per_theta_c_lookup` -/
def ps6 (k : ℕ) : ℕ := numBits 6 k
/-- keccak_packed_multi.rs:22-28 `get_num_bits_per_rho_pi_lookup`, `get_num_bits_per_base_chi_lookup`:
`CHI_BASE_LOOKUP_RANGE.max(RHO_PI_LOOKUP_RANGE) = 5` -/
def ps5 (k : ℕ) : ℕ := numBits 5 k

/-- util.rs:175-183 `target_part_sizes` -/
def targetPartSizes (ps : ℕ) : List ℕ :=
  List.replicate (64 / ps) ps ++ if 64 % ps > 0 then [64 % ps] else []

/-- util.rs:186-188 `get_rotate_count` -/
def rotateCount (count ps : ℕ) : ℕ := (count + ps - 1) / ps

/-- `slice::rotate_right` -/
def rotR {α : Type} (l : List α) (c : ℕ) : List α := l.drop (l.length - c) ++ l.take (l.length - c)
/-- `slice::rotate_left` -/
def rotL {α : Type} (l : List α) (c : ℕ) : List α := l.drop c ++ l.take c

/-- util.rs:83-87 `rotate` -/
def rotParts {α : Type} (parts : List α) (count ps : ℕ) : List α := rotR parts (rotateCount count ps)
/-- util.rs:90-94 `rotate_rev` -/
def rotPartsRev {α : Type} (parts : List α) (count ps : ℕ) : List α := rotL parts (rotateCount count ps)

/-- util.rs:31-51: the target sizes of `WordParts::new` when `normalize` is false. -/
def plainSizes (ps rot : ℕ) : List ℕ :=
  List.replicate (rot / ps) ps ++ (if rot % ps > 0 then [rot % ps] else []) ++
    List.replicate ((64 - rot) / ps) ps ++ if (64 - rot) % ps > 0 then [(64 - rot) % ps] else []

/-- util.rs:55-67: the two inner loops of `WordParts::new` for one target size: `n` bits are still to be consumed, `cur` are the bits
of the current part; a part is closed early when the next bit is bit 0. Returns the parts and the remaining bits. -/
def splitOne : ℕ → List ℕ → List ℕ → List (List ℕ) × List ℕ
  | 0, bits, cur => ([cur], bits)
  | _ + 1, [], cur => ([cur], [])
  | n + 1, b :: bits, cur =>
    if cur ≠ [] ∧ b = 0 then
      let r := splitOne n bits [b]
      (cur :: r.1, r.2)
    else splitOne n bits (cur ++ [b])

/-- util.rs:53-68: the outer loop of `WordParts::new`. -/
def splitAll : List ℕ → List ℕ → List (List ℕ)
  | [], _ => []
  | t :: ts, bits => let r := splitOne t bits []; r.1 ++ splitAll ts r.2

/-- util.rs:21-76 `WordParts::new` (each part is the list of its bit positions; `rot_idx` is the index of the part that starts with bit 0).
-/
def wordParts (ps rot : ℕ) (normalize : Bool) : List (List ℕ) :=
  let bits := rotR (List.range 64) rot
  let sizes := if normalize then targetPartSizes ps else plainSizes ps rot
  let parts := splitAll sizes bits
  rotL parts (parts.findIdx fun q => q.head? == some 0)

/-- The numbers of bits of the parts. -/
def partSizes (ps rot : ℕ) (normalize : Bool) : List ℕ := (wordParts ps rot normalize).map List.length

/-! ### `cell_manager.rs` -/

/-- cell_manager.rs:88-96 `CellManager` (the columns themselves and the statistics are left out: column `c` is column number `c`). -/
structure CM where
  height : ℕ
  width : ℕ
  current : ℕ
  rows : List ℕ

/-- The cell manager as a state monad. -/
abbrev LM := StateM CM

/-- cell_manager.rs:100-109 `new` -/
def CM.new (h : ℕ) : CM := ⟨h, 0, 0, List.replicate h 0⟩

/-- cell_manager.rs:116-126, 161-167 `query_cell_at_row`, `query_cell_value_at_row` -/
def queryAtRow (row : ℕ) : LM Cell := fun cm =>
  let col := cm.rows.getD row 0
  ((col, row), { cm with rows := cm.rows.set row (col + 1), width := max cm.width (col + 1), current := (row + 1) % cm.height })

/-- cell_manager.rs:111-114, 156-159, 173-180 `query_cell`, `query_cell_value`, `get_position` -/
def query : LM Cell := fun cm => queryAtRow cm.current cm

/-- cell_manager.rs:186-195 `start_region` (the current row is kept) -/
def startRegion : LM ℕ := fun cm => (cm.width, { cm with rows := List.replicate cm.height cm.width })

/-- `n` consecutive calls of `query_cell`. -/
def queryN : ℕ → LM (List Cell)
  | 0 => pure []
  | n + 1 => do
    let c ← query
    let cs ← queryN n
    pure (c :: cs)

/-- `query_cell_at_row` for a list of rows. -/
def queryRows : List ℕ → LM (List Cell)
  | [] => pure []
  | r :: rs => do
    let c ← queryAtRow r
    let cs ← queryRows rs
    pure (c :: cs)

/-- keccak_packed_multi.rs:449-458: the output cells of `transform::expr` with `uniform_lookup`: in the rows of the inputs. -/
def transformCells (inp : List Cell) : LM (List Cell) := queryRows (inp.map (·.2))

/-- keccak_packed_multi.rs:286-339: a part of `split_uniform`: a full part, or two parts combined in the output cell. -/
inductive UPart where
  | same (n : ℕ) (c : Cell)
  | two (na : ℕ) (a : Cell) (nb : ℕ) (b : Cell) (c : Cell)

/-- keccak_packed_multi.rs:290-341: the loop of `split_uniform::expr` over the sizes of the word's parts. -/
def uniLoop : List ℕ → List ℕ → List Cell → LM (List UPart)
  | s :: ss, t :: ts, c :: cs =>
    if s = t then do
      let r ← uniLoop ss ts cs
      pure (.same t c :: r)
    else match ss with
      | [] => pure []
      | s' :: ss => do
        let a ← query
        let b ← query
        let r ← uniLoop ss ts cs
        pure (.two s a s' b c :: r)
  | _, _, _ => pure []

/-- The input parts of a `UPart` (number of bits and cell). -/
def UPart.inputs : UPart → List (ℕ × Cell)
  | .same n c => [(n, c)]
  | .two na a nb b _ => [(na, a), (nb, b)]
/-- The output cell of a `UPart`. -/
def UPart.out : UPart → Cell
  | .same _ c => c
  | .two _ _ _ _ c => c

/-- keccak_packed_multi.rs:275-349 `split_uniform::expr`: the cells. -/
def splitUniform (out : List Cell) (rot ps : ℕ) : LM (List UPart) :=
  uniLoop (rotParts (partSizes ps rot true) rot ps) (targetPartSizes ps) out

/-- param.rs:23-29 `RHO_MATRIX` -/
def RHO_MATRIX : List (List ℕ) := [
  [0, 36, 3, 41, 18],
  [1, 44, 10, 45, 2],
  [62, 6, 43, 15, 61],
  [28, 55, 25, 21, 56],
  [27, 20, 39, 8, 14]]

/-- `RHO_MATRIX[i][j]` -/
def rhoAt (i j : ℕ) : ℕ := (RHO_MATRIX.getD i []).getD j 0

/-! ### `mod.rs`: the cells of `KeccakCircuitConfig::new` -/

/-- The cells queried by `KeccakCircuitConfig::new`. -/
structure Layout where
  /-- mod.rs:122-128: `s[i][j]` is number `5 i + j` -/
  s : List Cell
  (absorbFrom absorbData absorbResult : Cell)
  (absorbFat absorbRes : List Cell)
  (packed inputBytes paddings : List Cell)
  (cParts bc : List (List Cell))
  /-- mod.rs:290-306: `rho_pi_chi_cells[p][i][j][idx]` is cell `i` of row number `j * num_word_parts + idx` -/
  (rpc0 rpc1 rpc2 : List (List Cell))
  (start0 start1 start2 : ℕ)
  (numColumns piStart piEnd : ℕ)
  /-- mod.rs:310-323: the parts of word `s[i][j]` are number `5 j + i` -/
  uparts : List (List UPart)
  (iotaFat iotaRes : List Cell)
  squeezeFrom : Cell
  (squeezePacked squeezeBytes : List Cell)

/-- mod.rs:291-305: one of the three regions of `rho_pi_chi_cells`: `q` rows of 5 cells are still to be queried, the next one in row `row`.
-/
def rpcLoop (h : ℕ) : ℕ → ℕ → LM (List (List Cell))
  | 0, _ => pure []
  | q + 1, row => do
    let cs ← queryRows (List.replicate 5 row)
    let r ← rpcLoop h q ((row + 1) % h)
    pure (cs :: r)

/-- `m` applied to every element, in order. -/
def mapL {α β : Type} (f : α → LM β) : List α → LM (List β)
  | [] => pure []
  | a :: l => do
    let b ← f a
    let bs ← mapL f l
    pure (b :: bs)

/-- `rho_pi_chi_cells[p][i][j]` -/
def rpcWord (rpc : List (List Cell)) (n i j : ℕ) : List Cell :=
  (List.range n).map fun idx => (rpc.getD (j * n + idx) []).getD i (0, 0)

/-- mod.rs:80-457: the cells, in the order in which `KeccakCircuitConfig::new` queries them. -/
def layoutM (k h : ℕ) : LM Layout := do
  let s ← queryN 25
  let absorbFrom ← query
  let absorbData ← query
  let absorbResult ← query
  let _ ← startRegion
  let absorbFat ← queryN (partSizes (ps3 k) 0 false).length
  let _ ← startRegion
  let absorbRes ← transformCells absorbFat
  let _ ← startRegion
  let packed ← queryN (partSizes 8 0 false).length
  let _ ← startRegion
  let inputBytes ← transformCells packed
  let _ ← startRegion
  let paddings ← queryN inputBytes.length
  let _ ← startRegion
  let cParts ← mapL (fun _ => queryN (partSizes (ps6 k) 1 false).length) (List.range 5)
  let _ ← startRegion
  let bc ← mapL transformCells cParts
  let _ ← startRegion
  let n := (targetPartSizes (ps5 k)).length
  let start0 ← startRegion
  let rpc0 ← rpcLoop h (5 * n) 0
  let start1 ← startRegion
  let rpc1 ← rpcLoop h (5 * n) 0
  let start2 ← startRegion
  let rpc2 ← rpcLoop h (5 * n) 0
  let piStart ← startRegion
  let uparts ← mapL (fun x : ℕ => splitUniform (rpcWord rpc0 n (x / 5) ((2 * (x % 5) + 3 * (x / 5)) % 5)) (rhoAt (x % 5) (x / 5)) (ps5 k))
    (List.range 25)
  let piEnd ← startRegion
  let _ ← startRegion
  let iotaFat ← queryN (partSizes (ps3 k) 0 false).length
  let _ ← startRegion
  let iotaRes ← transformCells iotaFat
  let _ ← startRegion
  let squeezeFrom ← query
  let _ ← startRegion
  let squeezePacked ← queryN (partSizes 8 0 false).length
  let _ ← startRegion
  let squeezeBytes ← transformCells squeezePacked
  pure { s, absorbFrom, absorbData, absorbResult, absorbFat, absorbRes, packed, inputBytes, paddings, cParts, bc, rpc0, rpc1, rpc2,
         start0, start1, start2,
         numColumns := ((List.range (5 * n)).filter fun q => q % h == 0).length,
         piStart, piEnd, uparts, iotaFat, iotaRes, squeezeFrom, squeezePacked, squeezeBytes }

/-- The layout for the parameters `k`, `rows_per_round`. -/
def layout (k h : ℕ) : Layout := (layoutM k h (CM.new h)).1

/-! ### The lookups -/

/-- The tables (mod.rs:97-101); `unpack` is `pack_table` with its columns reversed (mod.rs:191, 454). -/
inductive Tbl where
  | norm3 | norm4 | norm6 | unpack
  deriving DecidableEq

/-- A lookup argument of the circuit (all at rotation 0, on every row). -/
inductive Look where
  /-- columns `cin`, `cout` in the two columns of a table -/
  | trans (t : Tbl) (cin cout : ℕ)
  /-- mod.rs:342-346: a column in the first column of `normalize_4` -/
  | range4 (c : ℕ)
  /-- mod.rs:359-378: `3…3 - 2 a + b - c` and `out` in the chi table -/
  | chi (a b c out : ℕ)
  deriving DecidableEq

/-- keccak_packed_multi.rs:503-531 `transform_to::expr` with `uniform_lookup`: a lookup for every input part of rotation 0. -/
def transLooks (t : Tbl) (inp out : List Cell) : List Look :=
  ((inp.zip out).filter fun e => e.1.2 == 0).map fun e => .trans t e.1.1 e.2.1

/-- mod.rs:80-457: the lookups of the circuit. -/
def Layout.looks (L : Layout) : List Look :=
  transLooks .norm3 L.absorbFat L.absorbRes ++
  transLooks .unpack L.packed L.inputBytes ++
  ((L.cParts.zip L.bc).flatMap fun e => transLooks .norm6 e.1 e.2) ++
  ((List.range 25).flatMap fun x =>
    let us := L.uparts.getD x []
    let J := (2 * (x % 5) + 3 * (x / 5)) % 5
    transLooks .norm4 (us.map UPart.out) (rpcWord L.rpc1 (L.rpc1.length / 5) (x / 5) J)) ++
  ((List.range (L.piEnd - L.piStart)).map fun c => .range4 (L.piStart + c)) ++
  ((List.range L.numColumns).flatMap fun idx => (List.range 5).map fun i =>
    .chi (L.start1 + idx * 5 + i) (L.start1 + idx * 5 + (i + 1) % 5) (L.start1 + idx * 5 + (i + 2) % 5) (L.start2 + idx * 5 + i)) ++
  transLooks .norm3 L.iotaFat L.iotaRes ++
  transLooks .unpack L.squeezePacked L.squeezeBytes

end H2.Kec
