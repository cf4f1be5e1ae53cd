import Verif.Sha.Bits

/-!
# SHA-256 witness generation (`hashes/zkevm/src/sha256/vanilla/witness.rs`)

`u64` is `BitVec 64` (Rust's overflow check on `+` never fires here: all sums are of at most 7 values below 2^32).
-/

set_option autoImplicit false
namespace H2.Sha
abbrev U64 := BitVec 64

/-- util.rs:91-99 `into_be_bits` -/
def intoBeBits (l : List Byte) : List Bool := l.flatMap fun (b : Byte) => (List.range 8).map fun idx => (b >>> (7 - idx)).getLsbD 0
/-- util.rs:35-41 `decode::value` -/
def decodeV (bits : List Bool) : U64 :=
  (bits.reverse.zipIdx).foldl (fun acc bi => acc + ((BitVec.ofBool bi.1).setWidth 64 <<< bi.2)) 0
/-- util.rs:54-56 `rotate::value` -/
def rotV (x : U64) (c : ℕ) : U64 := ((x.setWidth 32).rotateRight c).setWidth 64
/-- util.rs:71-73 `shift::value` -/
def shrV (x : U64) (c : ℕ) : U64 := ((x.setWidth 32) >>> c).setWidth 64
/-- `u64::to_be_bytes` -/
def toBe64 (x : U64) : List Byte := (List.range 8).map fun i => (x >>> (8 * (7 - i))).setWidth 8

/-- witness.rs:19-34 `VirtualShaRow` -/
structure VRow where
  w : List Bool
  a : List Bool
  e : List Bool
  isPaddings : List Bool
  isFinal : Bool
  length : ℕ
  wordValue : ℕ
  hashLimb : ℕ

/-- witness.rs:264-269: the closure `word_to_bits` -/
def wordToBits (x : U64) (n : ℕ) : List Bool := (intoBeBits (toBe64 x)).drop (64 - n)

/-- witness.rs:270-278: `word_value` of an input row: the bytes that are not padding, little-endian. -/
def wordValueOf (w : U64) (pads : List Bool) : ℕ :=
  (List.range 4).foldl (fun acc k => acc + (if pads.getD k false then 0 else (byteW (w.setWidth 32) k).toNat) * 256 ^ k) 0

/-- witness.rs:256-291: the closure `add_row` -/
def mkRow (w a e : U64) (isFinal : Bool) (length : ℕ) (pads : List Bool) (limb : ℕ) (isInput : Bool) : VRow :=
  { w := wordToBits w 34
    a := wordToBits a 35
    e := wordToBits e 35
    isFinal := isFinal
    length := length
    isPaddings := pads
    wordValue := if isInput then wordValueOf w pads else 0
    hashLimb := limb }

/-- witness.rs:231-233: `while (bits.len() + 64) % 512 != 0 { bits.push(0) }`; it ends after at most 511 steps. -/
def padLoop : ℕ → List Bool → List Bool
  | 0, bits => bits
  | fuel + 1, bits => if (bits.length + 64) % 512 ≠ 0 then padLoop fuel (bits ++ [false]) else bits

/-- witness.rs:222-236: the padded message. -/
def paddedBits (input : List Byte) : List Bool :=
  let bits := intoBeBits input
  let lengthBits := intoBeBits (toBe64 (BitVec.ofNat 64 bits.length))
  padLoop 512 (bits ++ [true]) ++ lengthBits

/-- The variables of the loop over the rounds (witness.rs:296-318). -/
structure RSt where
  (a b c d e f g h : U64)
  length : ℕ
  inPadding : Bool
  ws : List U64
  rows : List VRow

/-- witness.rs:320-330: the padding selectors of one row. -/
def padRow (total length : ℕ) : List Bool × ℕ :=
  (List.range 4).foldl (fun (acc : List Bool × ℕ) _ =>
    if acc.2 = total then (acc.1 ++ [true], acc.2) else (acc.1 ++ [false], acc.2 + 1)) ([], length)

/-- `value & 0xFFFFFFFF` -/
def mask32 (x : U64) : U64 := x &&& 0xFFFFFFFF

/-- witness.rs:334-347: `w_ext` -/
def wExtV (chunk : List Bool) (round : ℕ) (ws : List U64) : U64 :=
  if round < 16 then decodeV ((chunk.drop (round * 32)).take 32)
  else
    let getW := fun offset => mask32 (ws.getD (ws.length - offset) 0)
    let s0 := rotV (getW 15) 7 ^^^ rotV (getW 15) 18 ^^^ shrV (getW 15) 3
    let s1 := rotV (getW 2) 17 ^^^ rotV (getW 2) 19 ^^^ shrV (getW 2) 10
    getW 16 + s0 + getW 7 + s1

/-- witness.rs:316-391: one round. -/
def genRound (total : ℕ) (chunk : List Bool) (s : RSt) (round : ℕ) : RSt :=
  let pl := if round < 16 then padRow total s.length else (List.replicate 4 false, s.length)
  let inPadding := if round < 16 then pl.1.getD 3 false else s.inPadding
  let wExt := wExtV chunk round s.ws
  let w := mask32 wExt
  let s1 := rotV s.e 6 ^^^ rotV s.e 11 ^^^ rotV s.e 25
  let ch := (s.e &&& s.f) ^^^ (~~~s.e &&& s.g)
  let temp1 := s.h + s1 + ch + BitVec.ofNat 64 (ROUND_CST.getD round 0) + w
  let s0 := rotV s.a 2 ^^^ rotV s.a 13 ^^^ rotV s.a 22
  let maj := (s.a &&& s.b) ^^^ (s.a &&& s.c) ^^^ (s.b &&& s.c)
  let temp2 := s0 + maj
  let e := s.d + temp1
  let a := temp1 + temp2
  { a := mask32 a, b := s.a, c := s.b, d := s.c, e := mask32 e, f := s.e, g := s.f, h := s.g
    length := pl.2
    inPadding := inPadding
    ws := s.ws ++ [w]
    rows := s.rows ++ [mkRow wExt a e false (if round < 16 then pl.2 else 0) pl.1 0 (round < 16)] }

/-- The variables of the loop over the blocks (witness.rs:238-246). -/
structure BSt where
  hs : List U64
  length : ℕ
  inPadding : Bool
  rows : List VRow

/-- witness.rs:375-392: `hash_hi`, `hash_lo` -/
def hashLimbs (isFinalBlock : Bool) (hs : List U64) : ℕ × ℕ :=
  let g := fun i => (hs.getD i 0).setWidth 32
  if isFinalBlock then ((g 0 ++ g 1 ++ g 2 ++ g 3).toNat, (g 4 ++ g 5 ++ g 6 ++ g 7).toNat) else (0, 0)

/-- witness.rs:251-416: one block. -/
def genBlock (total numChunks : ℕ) (s : BSt) (ic : List Bool × ℕ) : BSt :=
  let chunk := ic.1
  let idx := ic.2
  let isFinalBlock := idx == numChunks - 1
  let g := fun i => s.hs.getD i 0
  let startRow := fun a e => mkRow 0 a e (idx == 0) s.length [false, false, false, s.inPadding] 0 false
  let rows := s.rows ++ [startRow (g 3) (g 7), startRow (g 2) (g 6), startRow (g 1) (g 5), startRow (g 0) (g 4)]
  let r := (List.range 64).foldl (genRound total chunk)
    ⟨g 0, g 1, g 2, g 3, g 4, g 5, g 6, g 7, s.length, s.inPadding, [], rows⟩
  let hs := [g 0 + r.a, g 1 + r.b, g 2 + r.c, g 3 + r.d, g 4 + r.e, g 5 + r.f, g 6 + r.g, g 7 + r.h]
  let limbs := hashLimbs isFinalBlock hs
  let h := fun i => hs.getD i 0
  let endRow := fun a e limb => mkRow 0 a e false 0 (List.replicate 4 false) limb false
  { hs := hs.map mask32
    length := r.length
    inPadding := r.inPadding
    rows := r.rows ++ [endRow (h 3) (h 7) 0, endRow (h 2) (h 6) 0, endRow (h 1) (h 5) limbs.1,
      mkRow 0 (h 0) (h 4) isFinalBlock r.length [false, false, false, r.inPadding] limbs.2 false] }

/-- `slice::chunks` into pieces of `k` (here the length is always a multiple of `k`). -/
def chunksOf {α : Type} (k : ℕ) : ℕ → List α → List (List α)
  | 0, _ => []
  | m + 1, l => l.take k :: chunksOf k m (l.drop k)

/-- witness.rs:218-419 `generate_witnesses_sha256`: the rows it appends. -/
def genSha256 (input : List Byte) : List VRow :=
  let bits := paddedBits input
  let chunks := chunksOf 512 (bits.length / 512) bits
  ((chunks.zipIdx).foldl (genBlock input.length chunks.length) ⟨HINIT.map (BitVec.ofNat 64), 0, false, []⟩).rows

/-- witness.rs:428-458 `generate_witnesses_multi_sha256`: the inputs one after the other, then empty inputs up to the capacity;
`none` is the panic "Over Capacity". (The map over the inputs is parallel but order preserving.) -/
def genMulti (inputs : List (List Byte)) (capacity : Option ℕ) : Option (List VRow) :=
  let rows := inputs.flatMap genSha256
  match capacity with
  | none => some rows
  | some c =>
    let rows := rows ++ (List.replicate (c - rows.length / 72) ()).flatMap fun _ => genSha256 []
    if rows.length > c * 72 then none else some rows

/-- witness.rs:192-214 `set_row`: the advice values of row `offset`. -/
def setRow {F : Type} [Field F] (offset : ℕ) (r : VRow) : Row F :=
  let round := offset % 72
  { w := fun i => b2f (r.w.getD i false)
    a := fun i => b2f (r.a.getD i false)
    e := fun i => b2f (r.e.getD i false)
    pad := fun i => b2f (r.isPaddings.getD i false)
    isFinal := b2f r.isFinal
    io := if 4 ≤ round ∧ round < 20 then (r.wordValue : F) else if 70 ≤ round then (r.hashLimb : F) else 0
    length := (r.length : F) }

/-- The advice columns: the rows from offset 0; the other cells hold anything (blinding). -/
def advOf {F : Type} [Field F] (rows : List VRow) (blind : ℤ → Row F) (r : ℤ) : Row F :=
  if 0 ≤ r then (match rows[r.toNat]? with
    | some v => setRow r.toNat v
    | none => blind r) else blind r

end H2.Sha
