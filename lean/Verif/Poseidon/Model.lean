import Verif.SafeTypes.Model

/-!
# Model of `halo2-base/src/poseidon/hasher/{state,mod}.rs` and `poseidon/mod.rs` (circuit side)

Arrays `[F; T]`, `[AssignedValue<F>; T]` are lists; their static length `T` is a hypothesis of the theorems (`WFSpec`,
`s.length = T`).  The spec's generation (`spec.rs`, `mds.rs`) is modelled in `Verif/Poseidon/Spec.lean`.
-/

set_option autoImplicit false
namespace H2
variable {p : ℕ} [Fact p.Prime]

/-- `SparseMDSMatrix` (mds.rs:27-36). -/
structure SparseMDS (p : ℕ) where
  row : List (ZMod p)
  colHat : List (ZMod p)

/-- `OptimizedPoseidonSpec` (spec.rs:54-66) with `MDSMatrices` (mds.rs:12-23) and `OptimizedConstants` (spec.rs:71-82)
inlined. -/
structure PSpec (p : ℕ) where
  rF : ℕ
  mds : List (List (ZMod p))
  preSparse : List (List (ZMod p))
  sparse : List (SparseMDS p)
  start : List (List (ZMod p))
  part : List (ZMod p)
  fin : List (List (ZMod p))

/-- `PoseidonState::default` (state.rs:20-27), width `T`; `default_state[0]` panics for `T = 0`. -/
def pDefault (T : ℕ) : M p (List (AV p)) := do
  assertM (decide (T ≠ 0))
  loadConstants ((2 ^ 64 : ZMod p) :: List.replicate (T - 1) 0)

/-- `x_power5_with_constant` (state.rs:95-104). -/
def pow5c (x : AV p) (c : ZMod p) : M p (AV p) := do
  let x2 ← mul (.existing x) (.existing x)
  let x4 ← mul (.existing x2) (.existing x2)
  mulAdd (.existing x) (.existing x4) (.constant c)

/-- `sbox_full` (state.rs:106-115). -/
def sboxFull : List (AV p) → List (ZMod p) → M p (List (AV p))
  | x :: xs, c :: cs => do
    let y ← pow5c x c
    let ys ← sboxFull xs cs
    pure (y :: ys)
  | xs, _ => pure xs

/-- `sbox_part` (state.rs:117-120). -/
def sboxPart (s : List (AV p)) (c : ZMod p) : M p (List (AV p)) :=
  match s with
  | [] => panic
  | x :: xs => do
    let y ← pow5c x c
    pure (y :: xs)

/-- Last loop of `absorb_with_pre_constants` (state.rs:152-159); `first` is `i == 0`. -/
def absorbRest : Bool → List (AV p) → List (ZMod p) → M p (List (AV p))
  | first, x :: xs, c :: cs => do
    let y ← add (.existing x) (.constant (if first then 1 + c else c))
    let ys ← absorbRest false xs cs
    pure (y :: ys)
  | _, xs, _ => pure xs

/-- The two loops of `absorb_with_pre_constants` over `s[1..]` (state.rs:144-159). -/
def absorbTail : List (AV p) → List (ZMod p) → List (AV p) → M p (List (AV p))
  | x :: xs, c :: cs, i :: is => do
    let y ← sum [.existing x, .existing i, .constant c]
    let ys ← absorbTail xs cs is
    pure (y :: ys)
  | xs, cs, _ => absorbRest true xs cs

/-- `absorb_with_pre_constants` (state.rs:122-160). -/
def absorb (s inputs : List (AV p)) (pre : List (ZMod p)) : M p (List (AV p)) := do
  assertM (decide (inputs.length < s.length))
  match s, pre with
  | x :: xs, c :: cs => do
    let y ← add (.existing x) (.constant c)
    let ys ← absorbTail xs cs inputs
    pure (y :: ys)
  | _, _ => panic

/-- `for (i, pre_const) in pre_constants.iter().enumerate() { self.s[i] = gate.add(..) }` (state.rs:183-185). -/
def addConsts : List (AV p) → List (ZMod p) → M p (List (AV p))
  | x :: xs, c :: cs => do
    let y ← add (.existing x) (.constant c)
    let ys ← addConsts xs cs
    pure (y :: ys)
  | xs, _ => pure xs

/-- The loop `for i in 0..RATE` of state.rs:200-207, on `s[i + 1..]`, with `(padded_inputs[i], len_indicator[i])`.
`i + 2 < T` is "the list has a second element". -/
def absorbVarLoop : List (AV p) → List (AV p × AV p) → M p (List (AV p))
  | xs, [] => pure xs
  | [], _ :: _ => panic
  | [x], (pd, _) :: l => do
    let x' ← add (.existing x) (.existing pd)
    let r ← absorbVarLoop [] l
    pure (x' :: r)
  | x :: y :: ys, (pd, ind) :: l => do
    let x' ← add (.existing x) (.existing pd)
    let y' ← add (.existing y) (.existing ind)
    let r ← absorbVarLoop (y' :: ys) l
    pure (x' :: r)

/-- The end of `absorb_var_len_with_pre_constants`, `s[1] += !inputs_mask[0]` (state.rs:209-210). -/
def absorbVarEnd (s : List (AV p)) (mask : List (AV p)) : M p (List (AV p)) := do
  let m0 ← unwrap mask[0]?
  let e ← not (.existing m0)
  match s with
  | x0 :: x1 :: xs => do
    let y ← add (.existing x1) (.existing e)
    pure (x0 :: y :: xs)
  | _ => panic

/-- `absorb_var_len_with_pre_constants` (state.rs:165-211). -/
def absorbVar (R : ℕ) (s inputs : List (AV p)) (len : AV p) (pre : List (ZMod p)) : M p (List (AV p)) := do
  let s ← addConsts s pre
  let idx ← dec (.existing len)
  let ind ← idxToIndicator (.existing idx) R
  let mask ← partialSums (ind.reverse.map .existing)
  let mask := mask.reverse
  let padded ← maskBytes (inputs.zip mask)
  match s with
  | [] => panic
  | x0 :: xs => do
    let ys ← absorbVarLoop xs (padded.zip ind)
    absorbVarEnd (x0 :: ys) mask

/-- `mds.iter().map(|row| gate.inner_product(ctx, s, row.map(Constant)))` (state.rs:213-227). -/
def applyMds (s : List (AV p)) : List (List (ZMod p)) → M p (List (AV p))
  | [] => pure []
  | row :: rows => do
    let y ← innerProduct (s.map .existing) (row.map .constant)
    let ys ← applyMds s rows
    pure (y :: ys)

/-- `mds.col_hat.iter().zip(s.iter().skip(1)).map(..)` (state.rs:240-245). -/
def sparseTail (s0 : AV p) : List (ZMod p) → List (AV p) → M p (List (AV p))
  | c :: cs, x :: xs => do
    let y ← mulAdd (.existing s0) (.constant c) (.existing x)
    let ys ← sparseTail s0 cs xs
    pure (y :: ys)
  | _, _ => pure []

/-- `apply_sparse_mds` (state.rs:229-250). -/
def applySparse (s : List (AV p)) (m : SparseMDS p) : M p (List (AV p)) := do
  let y ← innerProduct (s.map .existing) (m.row.map .constant)
  let s0 ← unwrap s[0]?
  let ys ← sparseTail s0 m.colHat s.tail
  pure (y :: ys)

/-- A run of full rounds `sbox_full(constants); apply_mds(mds)` (state.rs:59-62, 76-79). -/
def fullRounds (mds : List (List (ZMod p))) : List (List (ZMod p)) → List (AV p) → M p (List (AV p))
  | [], s => pure s
  | c :: cs, s => do
    let s ← sboxFull s c
    let s ← applyMds s mds
    fullRounds mds cs s

/-- The partial rounds (state.rs:67-71). -/
def partRounds : List (ZMod p × SparseMDS p) → List (AV p) → M p (List (AV p))
  | [], s => pure s
  | (c, m) :: l, s => do
    let s ← sboxPart s c
    let s ← applySparse s m
    partRounds l s

/-- `core::array::from_fn(|i| if i < inputs.len() { inputs[i] } else { ctx.load_zero() })` (state.rs:50-53): the first
`R` inputs, filled up with zero cells. -/
def padInputs : ℕ → List (AV p) → M p (List (AV p))
  | 0, _ => pure []
  | R + 1, a :: as => do
    let r ← padInputs R as
    pure (a :: r)
  | R + 1, [] => do
    let z ← loadZero
    let r ← padInputs R []
    pure (z :: r)

/-- The rounds of `permutation` after absorbing (state.rs:59-81). -/
def permRounds (sp : PSpec p) (s : List (AV p)) : M p (List (AV p)) := do
  let s ← fullRounds sp.mds ((sp.start.drop 1).take (sp.rF / 2 - 1)) s
  let last ← unwrap sp.start.getLast?
  let s ← sboxFull s last
  let s ← applyMds s sp.preSparse
  let s ← partRounds (sp.part.zip sp.sparse) s
  let s ← fullRounds sp.mds sp.fin s
  let s ← sboxFull s (List.replicate s.length 0)
  applyMds s sp.mds

/-- `permutation` (state.rs:35-81).  `r_f - 1` underflows for `r_f < 2`: a panic in debug builds. -/
def permutation (sp : PSpec p) (R : ℕ) (s inputs : List (AV p)) (len : Option (AV p)) : M p (List (AV p)) := do
  let c0 ← unwrap sp.start[0]?
  let s ← match len with
    | some len => do
      let padded ← padInputs R inputs
      absorbVar R s padded len c0
    | none => absorb s inputs c0
  assertM (decide (1 ≤ sp.rF / 2))
  permRounds sp s

/-- `PoseidonState::select` (state.rs:84-93). -/
def stateSelect (sel : AV p) : List (AV p) → List (AV p) → M p (List (AV p))
  | x :: xs, t :: ts => do
    let y ← select (.existing t) (.existing x) (.existing sel)
    let ys ← stateSelect sel xs ts
    pure (y :: ys)
  | xs, _ => pure xs

/-- `for chunk in input_elements.chunks(RATE) { state.permutation(ctx, gate, chunk, None, spec) }` (mod.rs:351-353). -/
def absorbChunks (sp : PSpec p) (R : ℕ) : List (List (AV p)) → List (AV p) → M p (List (AV p))
  | [], s => pure s
  | c :: cs, s => do
    let s ← permutation sp R s c none
    absorbChunks sp R cs s

/-- The last permutation of `fix_len_array_squeeze`, if the input is a whole number of blocks (mod.rs:354-356). -/
def squeezeEnd (sp : PSpec p) (R n : ℕ) (s : List (AV p)) : M p (List (AV p)) :=
  if n % R = 0 then permutation sp R s [] none else pure s

/-- `fix_len_array_squeeze` (mod.rs:341-359): the new state and `s[1]`. `len % RATE`, `chunks(RATE)` panic for
`RATE = 0`. -/
def fixLenSqueeze (sp : PSpec p) (R : ℕ) (inputs s : List (AV p)) : M p (List (AV p) × AV p) := do
  assertM (decide (R ≠ 0))
  let s ← absorbChunks sp R (chunksOf R inputs) s
  let s ← squeezeEnd sp R inputs.length s
  let r ← unwrap s[1]?
  pure (s, r)

/-- `PoseidonHasher` after `initialize_consts` (mod.rs:26-52, 126-133): spec, initial state and hash of the empty
input. -/
structure Hasher (p : ℕ) where
  spec : PSpec p
  initState : List (AV p)
  emptyHash : AV p

/-- `PoseidonHasher::new` + `initialize_consts` (mod.rs:42-52, 126-133); `PoseidonChip::new` (poseidon/mod.rs:19-30). -/
def Hasher.init (sp : PSpec p) (T R : ℕ) : M p (Hasher p) := do
  let s ← pDefault T
  let (_, h) ← fixLenSqueeze sp R [] s
  pure ⟨sp, s, h⟩

/-- `hash_fix_len_array` (mod.rs:215-227), `hash_fix_len_bytes` (poseidon/mod.rs:99-113). -/
def Hasher.hashFixLen (h : Hasher p) (R : ℕ) (inputs : List (AV p)) : M p (AV p) := do
  let (_, r) ← fixLenSqueeze h.spec R inputs h.initState
  pure r

/-- One iteration of the loop of `hash_var_len_array` (mod.rs:172-190): `i` is the chunk index; returns
`(state, result_state)`. -/
def varLenStep (sp : PSpec p) (R : ℕ) (numPerm lenLast : AV p) (i : ℕ) (chunk st res : List (AV p)) :
    M p (List (AV p) × List (AV p)) := do
  let isLast ← isEqual (.existing numPerm) (.constant ((i + 1 : ℕ) : ZMod p))
  let lenChunk ← select (.existing lenLast) (.constant ((R : ℕ) : ZMod p)) (.existing isLast)
  let st ← permutation sp R st chunk (some lenChunk)
  let res ← stateSelect isLast res st
  pure (st, res)

/-- The loop of `hash_var_len_array` (mod.rs:172-190). -/
def varLenLoop (sp : PSpec p) (R : ℕ) (numPerm lenLast : AV p) :
    ℕ → List (List (AV p)) → List (AV p) → List (AV p) → M p (List (AV p) × List (AV p))
  | _, [], st, res => pure (st, res)
  | i, c :: cs, st, res => do
    let (st, res) ← varLenStep sp R numPerm lenLast i c st res
    varLenLoop sp R numPerm lenLast (i + 1) cs st res

/-- The extra permutation when `max_len % RATE == 0` (mod.rs:191-205). -/
def varLenExtra (sp : PSpec p) (R : ℕ) (numPerm : AV p) (maxLen : ℕ) (st res : List (AV p)) : M p (List (AV p)) :=
  if maxLen % R = 0 then do
    let isLast ← isEqual (.existing numPerm) (.constant ((maxLen / R + 1 : ℕ) : ZMod p))
    let lenChunk ← loadZero
    let st ← permutation sp R st [] (some lenChunk)
    stateSelect isLast res st
  else pure res

/-- `hash_var_len_array` (mod.rs:145-208), `hash_var_len_bytes(_vec)` (poseidon/mod.rs:66-97). -/
def Hasher.hashVarLen (L : ℕ) (h : Hasher p) (R : ℕ) (inputs : List (AV p)) (len : AV p) : M p (AV p) :=
  if inputs.length = 0 then pure h.emptyHash
  else do
    let numBits := Nat.size inputs.length
    let (np, lenLast) ← divMod L (.existing len) R numBits
    let np ← inc (.existing np)
    let (st, res) ← varLenLoop h.spec R np lenLast 0 (chunksOf R inputs) h.initState h.initState
    let res ← varLenExtra h.spec R np inputs.length st res
    unwrap res[1]?

/-- `PoseidonCompactInput` (mod.rs:55-68). -/
structure CompactInput (p : ℕ) where
  inputs : List (AV p)
  isFinal : AV p
  len : AV p

/-- `PoseidonCompactInput::add_validation_constraints` (mod.rs:81-94). -/
def CompactInput.validate (L R : ℕ) (c : CompactInput p) : M p Unit := do
  let _ ← isLessThanSafe L c.len (R + 1)
  let full ← isEqual (.existing c.len) (.constant ((R : ℕ) : ZMod p))
  let inv ← or (.existing c.isFinal) (.existing full)
  assertIsConst inv 0

/-- The loop of `hash_compact_input` (mod.rs:241-262). -/
def compactLoop (h : Hasher p) (R : ℕ) : List (CompactInput p) → List (AV p) → M p (List (AV p × AV p))
  | [], _ => pure []
  | c :: cs, st => do
    let full ← isEqual (.existing c.len) (.constant ((R : ℕ) : ZMod p))
    let st ← permutation h.spec R st c.inputs (some c.len)
    let st2 ← permutation h.spec R st [] none
    let h2 ← unwrap st2[1]?
    let h1 ← unwrap st[1]?
    let hash ← select (.existing h2) (.existing h1) (.existing full)
    let st ← stateSelect c.isFinal st h.initState
    let r ← compactLoop h R cs st
    pure ((hash, c.isFinal) :: r)

/-- `hash_compact_input` (mod.rs:230-263): the `(hash, is_final)` outputs. -/
def Hasher.hashCompact (h : Hasher p) (R : ℕ) (cs : List (CompactInput p)) : M p (List (AV p × AV p)) :=
  compactLoop h R cs h.initState

/-- `PoseidonCompactChunkInput` (mod.rs:98-107). -/
structure ChunkInput (p : ℕ) where
  inputs : List (List (AV p))
  isFinal : AV p

/-- The loop of `hash_compact_chunk_inputs` (mod.rs:278-291). -/
def chunkLoop (h : Hasher p) (R : ℕ) (zero : AV p) : List (ChunkInput p) → List (AV p) → M p (List (AV p × AV p))
  | [], _ => pure []
  | c :: cs, st => do
    let st ← absorbChunks h.spec R c.inputs st
    let out ← permutation h.spec R st [] none
    let o1 ← unwrap out[1]?
    let hash ← select (.existing o1) (.existing zero) (.existing c.isFinal)
    let st ← stateSelect c.isFinal st h.initState
    let r ← chunkLoop h R zero cs st
    pure ((hash, c.isFinal) :: r)

/-- `hash_compact_chunk_inputs` (mod.rs:266-293). -/
def Hasher.hashChunks (h : Hasher p) (R : ℕ) (cs : List (ChunkInput p)) : M p (List (AV p × AV p)) := do
  let zero ← loadZero
  chunkLoop h R zero cs h.initState

/-- `PoseidonSponge` (mod.rs:297-302); `init_state` is only used by `clear`. -/
structure Sponge (p : ℕ) where
  initState : List (AV p)
  state : List (AV p)
  spec : PSpec p
  absorbing : List (AV p)

/-- `PoseidonSponge::from_spec` (mod.rs:321-324), `new` (mod.rs:306-318). -/
def Sponge.fromSpec (sp : PSpec p) (T : ℕ) : M p (Sponge p) := do
  let s ← pDefault T
  pure ⟨s, s, sp, []⟩

/-- `PoseidonSponge::clear` (mod.rs:327-330). -/
def Sponge.clear (g : Sponge p) : Sponge p := { g with state := g.initState, absorbing := [] }

/-- `PoseidonSponge::update` (mod.rs:333-335). -/
def Sponge.update (g : Sponge p) (els : List (AV p)) : Sponge p := { g with absorbing := g.absorbing ++ els }

/-- `PoseidonSponge::squeeze` (mod.rs:339-347). -/
def Sponge.squeeze (g : Sponge p) (R : ℕ) : M p (Sponge p × AV p) := do
  let (s, r) ← fixLenSqueeze g.spec R g.absorbing g.state
  pure ({ g with state := s, absorbing := [] }, r)

end H2
