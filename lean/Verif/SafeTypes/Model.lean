import Verif.Range.Model

/-!
# Model of `halo2-base/src/safe_types/{mod,bytes,primitives}.rs`

`SafeBool`, `SafeByte` (primitives.rs:12, 20) are newtypes of `AssignedValue`, modelled as `AV`.
`SafeType<BYTES_PER_ELE, TOTAL_BITS>` (mod.rs:42-45) is the list of its cells.  Const generics are ordinary
arguments.  `L` is `lookup_bits` of the range chip.
-/

set_option autoImplicit false
namespace H2
variable {p : ℕ} [Fact p.Prime]

/-- `VarLenBytes` / `VarLenBytesVec` (bytes.rs:21-28, 77-84). -/
structure VarLenBytes (p : ℕ) where
  bytes : List (AV p)
  len : AV p

/-- `SafeType::VALUE_LENGTH` (mod.rs:55-56); a zero `BYTES_PER_ELE` is a compile-time division by zero. -/
def valueLength (B T : ℕ) : ℕ := ceilDiv T (B * 8)

/-- `SafeType::bits_per_ele` (mod.rs:59-61). -/
def bitsPerEle (B T : ℕ) : ℕ := min T (B * 8)

/-- `SafeType::new` (mod.rs:64-67). -/
def safeTypeNew (B T : ℕ) (raw : List (AV p)) : M p (List (AV p)) := do
  assertM (decide (raw.length = valueLength B T))
  pure raw

/-- `assert_bool` (mod.rs:174-177). -/
def assertBool (a : AV p) : M p (AV p) := do
  assertBit a
  pure a

/-- `load_bool` (mod.rs:180-183). -/
def loadBool (b : Bool) : M p (AV p) := do
  let a ← loadWitness (if b then 1 else 0)
  assertBool a

/-- `assert_byte` (mod.rs:192-195). -/
def assertByte (L : ℕ) (a : AV p) : M p (AV p) := do
  rangeCheck L a 8
  pure a

/-- `load_byte` (mod.rs:198-201), `b < 256`. -/
def loadByte (L : ℕ) (b : ℕ) : M p (AV p) := do
  let a ← loadWitness (b : ZMod p)
  assertByte L a

/-- `inputs.map(|input| self.assert_byte(ctx, input))` (mod.rs:267, 290, 307, 322). -/
def assertByteList (L : ℕ) : List (AV p) → M p (List (AV p))
  | [] => pure []
  | a :: as => do
    let b ← assertByte L a
    let bs ← assertByteList L as
    pure (b :: bs)

/-- `VarLenBytesVec::new` (bytes.rs:88-96); `VarLenBytes::new` (bytes.rs:32-38) is the case where the second assert
holds by typing.  `len.value().le(..)` compares canonical integers. -/
def varLenNew (bytes : List (AV p)) (len : AV p) (maxLen : ℕ) : M p (VarLenBytes p) := do
  let x ← unwrap len.val?
  assertM (decide (x.val ≤ ((maxLen : ℕ) : ZMod p).val))
  assertM (decide (bytes.length = maxLen))
  pure ⟨bytes, len⟩

/-- `FixLenBytesVec::new` (bytes.rs:156-159); `FixLenBytes::new` (bytes.rs:130-132) has the length in its type. -/
def fixLenNew (bytes : List (AV p)) (len : ℕ) : M p (List (AV p)) := do
  assertM (decide (bytes.length = len))
  pure bytes

/-- `raw_to_var_len_bytes_vec` (mod.rs:279-293) and `raw_to_var_len_bytes` (mod.rs:259-268, where
`inputs.len() = MAX_LEN` by typing). -/
def rawToVarLenBytes (L : ℕ) (inputs : List (AV p)) (len : AV p) (maxLen : ℕ) : M p (VarLenBytes p) := do
  checkLessThanSafe L len (maxLen + 1)
  let bs ← assertByteList L inputs
  varLenNew bs len maxLen

/-- `raw_to_fix_len_bytes_vec` (mod.rs:314-325), `raw_to_fix_len_bytes` (mod.rs:302-308). -/
def rawToFixLenBytes (L : ℕ) (inputs : List (AV p)) (len : ℕ) : M p (List (AV p)) := do
  let bs ← assertByteList L inputs
  fixLenNew bs len

/-- `add_bytes_constraints` (mod.rs:328-340). -/
def addBytesConstraints (L : ℕ) : List (AV p) → ℕ → M p Unit
  | [], _ => pure ()
  | a :: as, bitsLeft => do
    let n := min bitsLeft 8
    rangeCheck L a n
    addBytesConstraints L as (bitsLeft - n)

/-- `inputs.chunks(n)` with fuel (the number of elements left). -/
def chunksAux {α : Type} (n : ℕ) : ℕ → List α → List (List α)
  | 0, _ => []
  | _ + 1, [] => []
  | f + 1, a :: l => (a :: l).take n :: chunksAux n f ((a :: l).drop n)

/-- `inputs.chunks(n)` (mod.rs:156); `n = 0` panics in Rust (excluded by the caller). -/
def chunksOf {α : Type} (n : ℕ) (l : List α) : List (List α) := chunksAux n l.length l

/-- `.map(|chunk| gate.inner_product(ctx, chunk.to_vec(), byte_base[..chunk.len()].to_vec()))` (mod.rs:155-164). -/
def packChunks (base : List (QCell p)) : List (List (AV p)) → M p (List (AV p))
  | [] => pure []
  | c :: cs => do
    let b ← sliceTo base c.length
    let r ← innerProduct (c.map .existing) b
    let rs ← packChunks base cs
    pure (r :: rs)

/-- `byte_base` (mod.rs:152-154): note `Witness`, not `Constant`. -/
def byteBase : List ℕ → M p (List (QCell p))
  | [] => pure []
  | i :: is => do
    let x ← pow2At (i * 8)
    let r ← byteBase is
    pure (.witness x :: r)

/-- The part of `raw_bytes_to` after the early return (mod.rs:152-165). -/
def packBytes (B T : ℕ) (base : List (QCell p)) (inputs : List (AV p)) : M p (List (AV p)) := do
  let v ← packChunks base (chunksOf B inputs)
  safeTypeNew B T v

/-- `raw_bytes_to::<BYTES_PER_ELE, TOTAL_BITS>` (mod.rs:134-166). -/
def rawBytesTo (L B T : ℕ) (inputs : List (AV p)) : M p (List (AV p)) := do
  assertM (decide (B ≠ 0))
  assertM (decide (inputs.length * 8 = max T 8))
  addBytesConstraints L inputs T
  if T = 1 ∨ bitsPerEle B T = 8 then safeTypeNew B T inputs
  else do
    let base ← byteBase (List.range B)
    packBytes B T base inputs

/-- `TryFrom<Vec<SafeByte>> for SafeType<1, TOTAL_BITS>` (mod.rs:83-94): `none` = `Err`. -/
def safeTypeTryFrom (T : ℕ) (bytes : List (AV p)) : Option (List (AV p)) :=
  if bytes.length * 8 ≠ T then none
  else if bytes.length = valueLength 1 T then some bytes else none

/-- `if j >= (1 << i) { Existing(padded[j - (1 << i)]) } else { Constant(F::ZERO) }` (bytes.rs:220). -/
def padShift (cur : List (AV p)) (k j : ℕ) : M p (QCell p) :=
  if 2 ^ k ≤ j then do
    let a ← unwrap cur[j - 2 ^ k]?
    pure (.existing a)
  else pure (.constant 0)

/-- One stage of the barrel shifter (bytes.rs:218-226): `(j, noshift)` pairs, `cur` is the array before the stage.
The code first collects all of `shifted`, then calls `select`; the first part has no effect on the context. -/
def padStage (cur : List (AV p)) (k : ℕ) (bit : AV p) : List (ℕ × AV p) → M p (List (AV p))
  | [] => pure []
  | (j, noshift) :: l => do
    let shifted ← padShift cur k j
    let r ← select shifted (.existing noshift) (.existing bit)
    let rs ← padStage cur k bit l
    pure (r :: rs)

/-- The loop over `shift_bits` (bytes.rs:218-227). -/
def padLoop : ℕ → List (AV p) → List (AV p) → M p (List (AV p))
  | _, [], cur => pure cur
  | k, bit :: bits, cur => do
    let cur ← padStage cur k bit ((List.range cur.length).zip cur)
    padLoop (k + 1) bits cur

/-- `padded.resize(out_len, padded[0])` (bytes.rs:213-214); `padded[0]` panics when the array is empty. -/
def padResize (arr : List (AV p)) (outLen : ℕ) : M p (List (AV p)) := do
  let a0 ← unwrap arr[0]?
  pure (arr.take outLen ++ List.replicate (outLen - arr.length) a0)

/-- `left_pad_var_array_to_fixed` (bytes.rs:203-229).  The `debug_assert!`s are hypotheses of the theorems. -/
def leftPad (arr : List (AV p)) (len : AV p) (outLen : ℕ) : M p (List (AV p)) := do
  let padded ← padResize arr outLen
  let shift ← sub (.constant (outLen : ZMod p)) (.existing len)
  let bits ← numToBits shift (Nat.size outLen)
  padLoop 0 bits padded

/-- `VarLenBytes::left_pad_to_fixed` (bytes.rs:55-64), `VarLenBytesVec::left_pad_to_fixed` (bytes.rs:104-111). -/
def VarLenBytes.leftPadToFixed (v : VarLenBytes p) : M p (List (AV p)) := do
  let r ← leftPad v.bytes v.len v.bytes.length
  fixLenNew r v.bytes.length

/-- `bytes.iter().zip(mask.iter()).map(|(byte, mask)| gate.mul(ctx, byte.0, *mask))` (bytes.rs:241-245). -/
def maskBytes : List (AV p × AV p) → M p (List (AV p))
  | [] => pure []
  | (b, m) :: l => do
    let r ← mul (.existing b) (.existing m)
    let rs ← maskBytes l
    pure (r :: rs)

/-- `ensure_0_padding` (bytes.rs:231-246). -/
def ensure0Padding (bytes : List (AV p)) (len : AV p) : M p (List (AV p)) := do
  let idx ← dec (.existing len)
  let ind ← idxToIndicator (.existing idx) bytes.length
  let mask ← partialSums (ind.reverse.map .existing)
  maskBytes (bytes.zip mask.reverse)

/-- `VarLenBytes::ensure_0_padding` (bytes.rs:67-70), `VarLenBytesVec::ensure_0_padding` (bytes.rs:114-117). -/
def VarLenBytes.ensure0 (v : VarLenBytes p) : M p (VarLenBytes p) := do
  let b ← ensure0Padding v.bytes v.len
  varLenNew b v.len v.bytes.length

end H2
