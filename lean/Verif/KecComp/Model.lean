import Verif.KecComp.Spec
import Verif.Poseidon.Model
import Verif.Kec.SoundOut

/-!
# Model of the Keccak component (`hashes/zkevm/src/keccak/component`)

`POSEIDON_T = 3`, `POSEIDON_RATE = 2` (param.rs:8-9).  The native sponge (`snark_verifier`'s, an external crate) is `spongeHash`.  The
caches of `dummy_circuit_output` and `get_poseidon_spec` (`RwLock<TypeMap>`) only hold a value of a pure function and are not modelled.
-/

set_option autoImplicit false
set_option linter.unusedSectionVars false
namespace H2.KC
open H2.Kec
variable {p : ℕ} [Fact p.Prime]

/-! ### encode.rs: parameters -/

/-- encode.rs:149-153 `num_word_per_witness` -/
def wpw (p : ℕ) : ℕ := capacity p / 64
/-- encode.rs:155-164 `num_witness_per_keccak_f` -/
def witPerF (p : ℕ) : ℕ := 17 / wpw p + 1
/-- encode.rs:166-173 `num_poseidon_absorb_per_keccak_f` -/
def absorbsPerF (p : ℕ) : ℕ := (witPerF p - 1) / 2 + 1

/-- The loops of encode.rs:181-184, 193-196. -/
def multLoop (base : ZMod p) : ℕ → ZMod p → List (ZMod p)
  | 0, _ => []
  | n + 1, m => m * base :: multLoop base n (m * base)
/-- encode.rs:175-186 `get_words_to_witness_multipliers` (`base = 2^64`, `n = num_word_per_witness`), encode.rs:188-198
`get_bytes_to_words_multipliers` (`base = 256`, `n = 8`). -/
def multipliers (base : ZMod p) (n : ℕ) : List (ZMod p) := 1 :: multLoop base (n - 1) 1

/-- `let mut buffer = [z; n]; buffer[..l.len()].copy_from_slice(l)` -/
def padTo {α : Type} (n : ℕ) (z : α) (l : List α) : List α := l ++ List.replicate (n - l.length) z

/-! ### encode.rs: native code -/

/-- `u128::from_le_bytes` of a chunk of at most 8 bytes, zero-padded (encode.rs:50-54). -/
def leBytes (c : List Byte) : ℕ := c.foldr (fun b a => b.toNat + 256 * a) 0

/-- encode.rs:41-87 `pack_native_input`; `none`: `chunks(0)` panics. -/
def packNative (bytes : List Byte) : Option (List (List (ZMod p))) :=
  let words := (chunksOf 8 bytes).map leBytes
  let words := if bytes.length % 136 = 0 then words ++ List.replicate 17 0 else words
  let perF := (chunksOf 17 words).zipIdx.map fun e => (if e.2 = 0 then bytes.length else 0) :: padTo 17 0 e.1
  if wpw p = 0 then none
  else some (perF.map fun chunk => (chunksOf (wpw p) chunk).map fun c =>
    (c.zip (multipliers (2 ^ 64 : ZMod p) (wpw p))).foldl (fun acc e => acc + ((e.1 : ℕ) : ZMod p) * e.2) 0)

/-- encode.rs:25-38 `encode_native_input` -/
def encodeNative (f : List (ZMod p) → List (ZMod p)) (bytes : List Byte) : Option (ZMod p) :=
  (packNative bytes).map fun ws => spongeHash f 2 (ws.flatMap fun w => (chunksOf 2 w).flatMap (padTo 2 0))

/-! ### encode.rs: circuit -/

/-- encode.rs:216-223: the inner products of chunks of bytes with the first multipliers. -/
def ipBytes (ms : List (ZMod p)) : List (List (AV p)) → M p (List (AV p))
  | [] => pure []
  | c :: cs => do
    let ms' ← sliceTo ms c.length
    let r ← innerProduct (c.map .existing) (ms'.map .constant)
    let rs ← ipBytes ms cs
    pure (r :: rs)

/-- encode.rs:239-244: the inner products of chunks of words with the multipliers. -/
def ipWords (ms : List (ZMod p)) : List (List (AV p)) → M p (List (AV p))
  | [] => pure []
  | c :: cs => do
    let r ← innerProduct (c.map .existing) (ms.map .constant)
    let rs ← ipWords ms cs
    pure (r :: rs)

/-- encode.rs:236-246: `witnesses_per_f`. -/
def ipBlocks (ms : List (ZMod p)) (W : ℕ) : List (List (AV p)) → M p (List (List (AV p)))
  | [] => pure []
  | b :: bs => do
    let r ← ipWords ms (chunksOf W b)
    let rs ← ipBlocks ms W bs
    pure (r :: rs)

/-- encode.rs:200-261 `format_input` -/
def formatInput (bytes : List (AV p)) (len : AV p) : M p (List (List (List (AV p)))) := do
  let z ← loadZero
  let words ← ipBytes (multipliers (256 : ZMod p) 8) (chunksOf 8 (bytes ++ [z]))
  let perF := (chunksOf 17 words).zipIdx.map fun e => (if e.2 = 0 then len else z) :: padTo 17 z e.1
  assertM (decide (wpw p ≠ 0))
  let wits ← ipBlocks (multipliers (2 ^ 64 : ZMod p) (wpw p)) (wpw p) perF
  pure (wits.map fun ws => (chunksOf 2 ws).map (padTo 2 z))

/-- encode.rs:90-123 `encode_var_len_bytes_vec` -/
def encodeVarLen (L : ℕ) (h : Hasher p) (v : VarLenBytes p) : M p (AV p) := do
  let (nf, _) ← divMod L (.existing v.len) 136 (Nat.size v.bytes.length)
  let ind ← idxToIndicator (.existing nf) (numF v.bytes.length)
  let b ← v.ensure0
  let chunks ← formatInput b.bytes b.len
  let ins := (chunks.zip ind).map fun e => (⟨e.1, e.2⟩ : ChunkInput p)
  let outs ← h.hashChunks 2 ins
  selectByIndicator (outs.map fun o => .existing o.1) ind

/-- encode.rs:126-142 `encode_fix_len_bytes_vec` -/
def encodeFixLen (h : Hasher p) (bytes : List (AV p)) : M p (AV p) := do
  let len ← loadConstant ((bytes.length : ℕ) : ZMod p)
  let chunks ← formatInput bytes len
  h.hashFixLen 2 (chunks.flatMap List.flatten)

/-! ### circuit/shard.rs -/

/-- The inner loop of shard.rs:448-453. -/
def ipResized (ms : List (ZMod p)) (W : ℕ) (z : AV p) : List (List (AV p)) → M p (List (AV p))
  | [] => pure []
  | c :: cs => do
    let r ← innerProduct ((padTo W z c).map .existing) (ms.map .constant)
    let rs ← ipResized ms W z cs
    pure (r :: rs)

/-- The loop of shard.rs:435-463. -/
def packLoop (one zero : AV p) : AV p → List (LoadedF (AV p)) → M p (List (ChunkInput p))
  | _, [] => pure []
  | lastIsFinal, f :: fs => do
    let len ← mul (.existing f.bytesLeft) (.existing lastIsFinal)
    let d ← ipResized (multipliers (2 ^ 64 : ZMod p) (wpw p)) (wpw p) zero (chunksOf (wpw p) (len :: f.words))
    -- `resize`: truncates or fills
    let d := (padTo (2 * absorbsPerF p) zero d).take (2 * absorbsPerF p)
    let rs ← packLoop one zero f.isFinal fs
    pure (⟨chunksOf 2 d, f.isFinal⟩ :: rs)

/-- shard.rs:410-465 `pack_inputs_from_keccak_fs` -/
def packInputs (fs : List (LoadedF (AV p))) : M p (List (ChunkInput p)) := do
  let one ← loadConstant (1 : ZMod p)
  let zero ← loadZero
  assertM (decide (wpw p ≠ 0))
  packLoop one zero one fs

/-- shard.rs:467-478 `encode_inputs_from_keccak_fs` -/
def encodeInputs (h : Hasher p) (fs : List (LoadedF (AV p))) : M p (List (AV p × AV p)) := do
  let c ← packInputs fs
  h.hashChunks 2 c

/-- The loop of shard.rs:350-362. -/
def outputLoop (dk dlo dhi : AV p) : List ((AV p × AV p) × LoadedF (AV p)) → M p (List (Row (AV p)))
  | [] => pure []
  | e :: es => do
    let k ← select (.existing e.1.1) (.existing dk) (.existing e.2.isFinal)
    let lo ← select (.existing e.2.hashLo) (.existing dlo) (.existing e.2.isFinal)
    let hi ← select (.existing e.2.hashHi) (.existing dhi) (.existing e.2.isFinal)
    let rs ← outputLoop dk dlo dhi es
    pure (⟨k, lo, hi⟩ :: rs)

/-- shard.rs:332-363 `generate_circuit_final_outputs`; `dummy` is the value of `dummy_circuit_output`. -/
def finalOutputs (dummy : Row (ZMod p)) (keys : List (AV p × AV p)) (fs : List (LoadedF (AV p))) : M p (List (Row (AV p))) := do
  let dk ← loadConstant dummy.key
  let dlo ← loadConstant dummy.lo
  let dhi ← loadConstant dummy.hi
  -- `zip_eq`
  assertM (decide (keys.length = fs.length))
  outputLoop dk dlo dhi (keys.zip fs)

/-- shard.rs:378-381, output.rs:90-98: the rows in one list. -/
def flatRows {α : Type} (rs : List (Row α)) : List α := rs.flatMap fun r => [r.key, r.lo, r.hi]

/-- shard.rs:311-330 `generate_base_circuit_witnesses`, after `initialize_consts`. -/
def baseOutputs (dummy : Row (ZMod p)) (h : Hasher p) (fs : List (LoadedF (AV p))) : M p (List (Row (AV p))) := do
  let keys ← encodeInputs h fs
  finalOutputs dummy keys fs

/-- shard.rs:365-401 `publish_outputs`: the instance columns. -/
def publishOutputs (h : Hasher p) (capacity : ℕ) (raw : Bool) (outs : List (Row (AV p))) : M p (List (List (AV p))) := do
  assertM (decide (outs.length = capacity))
  if raw then pure [outs.map (·.key), outs.map (·.lo), outs.map (·.hi)]
  else do
    let c ← h.hashFixLen 2 (flatRows outs)
    pure [[c]]

/-- shard.rs:87-119 `KeccakComponentShardCircuitParams::new`: `rows_per_round`; `none`: an assertion fails. -/
def shardRowsPerRound (k unusable capacity : ℕ) : Option ℕ :=
  if 2 ^ k > unusable then
    let h := (2 ^ k - unusable) / (capacity * 25 + 1 + 17)
    if h > 0 then some h else none
  else none

/-! ### output.rs -/

/-- output.rs:78-86 `dummy_circuit_output_impl` -/
def dummyOutput (f : List (ZMod p) → List (ZMod p)) : Option (Row (ZMod p)) :=
  if 128 ≤ capacity p then
    (encodeNative f []).map fun k => ⟨k, ((beNat ((keccak256 []).drop 16) : ℕ) : ZMod p), ((beNat ((keccak256 []).take 16) : ℕ) : ZMod p)⟩
  else none

/-- output.rs:38-53 `input_to_circuit_outputs` -/
def inputToOutputs (f : List (ZMod p) → List (ZMod p)) (bytes : List Byte) : Option (List (Row (ZMod p))) :=
  if 128 ≤ capacity p then do
    let d ← dummyOutput f
    let k ← encodeNative f bytes
    pure (List.replicate (numF bytes.length - 1) d ++
      [⟨k, ((beNat ((keccak256 bytes).drop 16) : ℕ) : ZMod p), ((beNat ((keccak256 bytes).take 16) : ℕ) : ZMod p)⟩])
  else none

/-- output.rs:23-33 `multi_inputs_to_circuit_outputs`. (The map over the inputs is parallel but order preserving.) -/
def multiOutputs (f : List (ZMod p) → List (ZMod p)) (inputs : List (List Byte)) (cap : ℕ) : Option (List (Row (ZMod p))) :=
  if 128 ≤ capacity p then do
    let outs ← inputs.mapM (inputToOutputs f)
    let outs := outs.flatten
    if outs.length ≤ cap then do
      let d ← dummyOutput f
      pure (outs ++ List.replicate (cap - outs.length) d)
    else none
  else none

/-- output.rs:89-98 `calculate_circuit_outputs_commit` -/
def outputsCommit (f : List (ZMod p) → List (ZMod p)) (outs : List (Row (ZMod p))) : ZMod p := spongeHash f 2 (flatRows outs)

/-! ### ingestion.rs -/

/-- ingestion.rs:8-18 `KeccakIngestionFormat` -/
structure Ingestion where
  bytes : List Byte
  byteLen : ℕ
  isFinal : Bool
  lo : ℕ
  hi : ℕ
deriving DecidableEq

/-- ingestion.rs:26-36 `KeccakIngestionFormat::new` -/
def Ingestion.new (bytes : List Byte) (byteLen : ℕ) (isFinal : Bool) (hash : List Byte) : Ingestion :=
  ⟨bytes, byteLen, isFinal, beNat (hash.drop 16), beNat (hash.take 16)⟩
/-- ingestion.rs:20-24 `default` -/
def Ingestion.dflt : Ingestion := Ingestion.new (List.replicate 136 0) 0 true (keccak256 [])

/-- ingestion.rs:56-77: the chunks of one request.  `hash`: the given hash, 32 bytes. -/
def ingestOne (input : List Byte) (hash : Option (List Byte)) : List Ingestion :=
  let hash := hash.getD (keccak256 input)
  let chunks := (chunksOf 136 input).zipIdx.map fun e =>
    Ingestion.new (padTo 136 0 e.1) (if e.2 = 0 then input.length else 0) false (List.replicate 32 0)
  let chunks := if input.length % 136 = 0 then chunks ++ [Ingestion.dflt] else chunks
  match chunks.getLast? with
  | some l => chunks.dropLast ++ [{ l with isFinal := true, hi := beNat (hash.take 16), lo := beNat (hash.drop 16) }]
  | none => chunks

/-- ingestion.rs:47-83 `format_requests_for_ingestion`; the last line is `resize_with`. -/
def ingest (requests : List (List Byte × Option (List Byte))) (cap : ℕ) : List Ingestion × ℕ :=
  let ing := requests.flatMap fun r => ingestOne r.1 r.2
  ((padTo cap Ingestion.dflt ing).take cap, ing.length)

end H2.KC
