# Formal model of axiom-crypto/halo2-lib in Lean 4

## 1. What is modelled, and how

The library is a *circuit builder*: Rust routines push advice cells, selectors, copy/constant
equalities and lookups into a `Context`; a proof system later checks that **some** assignment of field
elements to the cells satisfies all of them.  The model has three layers.

1. **Builder model** (`Verif/Core`, `Verif/Gate`, `Verif/Range`, ...).  Each Rust routine is a Lean
   function in the monad `M p α = StateT (Ctx p) Option α`; `none` is a panic; `Ctx` has the fields of
   `Context` plus the part of the shared copy manager and lookup manager it writes to.
   The field is `ZMod p`, `p` any prime (a typeclass assumption, not an axiom).
2. **Constraint semantics** (`Verif/Core/Sat.lean`, small and separate from the model): `Sat tbl s w`
   says that the assignment `w : Cell → ZMod p` satisfies every constraint recorded in `s`: every enabled
   selector's vertical gate `a + b*c = d`, every copy constraint, every constant constraint, every lookup.
   `w` is *arbitrary* - it is the malicious prover.
3. **Properties** (`Verif/Props/*.lean`): soundness = for every state, run and `w` with `Sat`, the cells
   returned hold the advertised value; completeness = from a well-formed state whose honest
   assignment satisfies everything, the routine does not panic, and the honest assignment still satisfies
   everything; layout/scheduling properties are about further state machines (threads -> columns).

Proof method: a Hoare-style logic for both directions (`Core/Logic.lean`), with a rule for region
assignment, for bind and for loops (induction over the list), so every theorem is for all lengths, all
fields and all assignments.

## 2. Trusted base
* Lean's kernel; axioms: at most `propext`, `Classical.choice`, `Quot.sound` (what Mathlib uses). No
  axioms of our own, no `native_decide`/`bv_decide`.
* The reading of the Rust code: each Lean definition cites the file and lines it models.
* `Sat` as the meaning of a halo2 circuit: halo2_proofs (the PLONK prover/verifier), its
  permutation argument, lookup argument and field arithmetic are *not* modelled.

* In the ECC model: witnesses drawn from an RNG are parameters (theorems hold for every choice, as for any other witness);
  the native curve arithmetic used to precompute tables of constants is a parameter (`NativeCurve`) with the hypothesis that it
  is the group law (`NativeLaws`); rayon's indexed parallel iterators preserve order, so a parallel map over the thread pool is the
  sequential composition of the tasks on fresh contexts (`Threads/Pool`).

* Pairing (`Pairing/*`): the native constants of the curve crate are fields of the configuration `bnCfg`: `FROBENIUS_COEFF_FQ12_C1[k]^i` is
  *defined* as the power `xi^(i (q^k - 1)/6)` (the crate's table is not checked against it), `SIX_U_PLUS_2_NAF` and `BN_X` are copied
  literals (that they are `6x+2` and the parameter of the curve is proved: `ateDigits_value`, `bn_params`).  The chips are fixed to three
  88-bit limbs over the BN254 scalar field with 16-bit lookups.  The specification `Pairing/Spec.lean` (chords, tangents, digits,
  Frobenius, exponent) is the optimal Ate pairing as a formula; that it is bilinear is not proved.  That it is not degenerate is proved at
  the generators (`C64_generators`: the pairing of the two generators is not `1`, by kernel evaluation in `Pairing/Generator`).

* Keccak component: the copy constraints between the cells of the Keccak circuit and the virtual cells of the base circuit are the
  hypothesis `Loaded` of the C54 theorems; C84 discharges it for the shard circuit synthesized around them (caches and pinning files are not modelled).

## 3. Properties: plan
See `properties.jsonl` (statements) and `MANIFEST.json` (status).

| ids | what is modelled | how proved |
|---|---|---|
| C01, C02 | all of `Context` (lib.rs) | region lemma: exact description of the state after `assign_region` |
| C03 | same routines run in both modes | relational (simulation) logic over `M` |
| C04-C09, C12-C15 | all of `GateInstructions`/`GateChip` | soundness/completeness logic, induction over lists, field algebra |
| C10, C11 | `num_to_bits`, `bits_to_num` | uniqueness of binary expansions below p |
| C16-C25 | all of `RangeChip` | limb expansions + lookup semantics; wrap-around arithmetic in `ZMod p` |
| C26-C28 | utils with 64/128-bit words as bounded naturals with explicit overflow checks | loop invariants |
| C29-C31 | `assign_with_constraints`, `assign_witnesses` | loop invariant over (threads, row, column) |
| C32-C34 | copy manager, lookup manager | permutation/sortedness arguments over lists |
| C56 | same relational logic, two different witness values | no control flow or structure depends on values |
| C57 | column capacity: constants, copies, lookups, instance | existence of every intermediate `some`; with external cells: `C57_synthesize_succeeds_ext` |
| C35-C38 | safe_types | on top of Range/Gate theorems |
| C39-C41, C58 | Poseidon state, spec (`OptimizedPoseidonSpec::new` from given constants and MDS; Grain generation is external), hasher, sponge | circuit = optimised permutation = textbook permutation (matrix algebra, Cramer, Gaussian elimination proved) |
| C42-C46 | every file of `halo2-ecc/src/bigint` except `FixedOverflowInteger::select_by_indicator` | CRT argument over the integers: equality mod p, mod 2^(nk) and a size bound give equality in Z |
| C47 | `fields/mod.rs` (the `FieldChip` trait as the record `FieldOps`, its default methods), `fields/fp.rs` | `FieldLaws` (one soundness law per trait method) instantiated by `FpChip`; sizes discharged for 88x3 limbs on BN254 |
| C59 | same | completeness logic: the honest run exists and satisfies its own constraints |
| C48 | `fields/vector.rs`, `fp2.rs`, `fp12.rs`, `native_fp.rs` | coordinates over `FieldLaws`; extension arithmetic by `ring` |
| C49-C51 | `ecc/mod.rs`, `ecc/fixed_base.rs`, `ecc/pippenger.rs` over any `FieldOps` (`Ecc/Model`, `Ecc/ModelPar`, `Threads/Pool`) | Mathlib's `WeierstrassCurve.Affine` group law as the specification; `FieldLaws` for the coordinates; window/bucket invariants |
| C52 | `ecc/ecdsa.rs`, `ecc/schnorr_signature.rs` (`Ecc/Sig`) | C47 + C50; order of the secp256k1 and BN254 generators by a kernel-checked double-and-add certificate (`Ecc/Order`) |
| C60 | `get_naf` (native) (`Ecc/Naf`) | induction over bits and limbs |
| C61 | `Kec/*`: cell manager, word parts and cell layout (`Kec/Layout.lean`, a function of `k` and `rows_per_round`), lookup tables, fixed columns, all gates and lookups of `keccak/vanilla` (`Kec/Model.lean`); FIPS 202 permutation and Keccak-256 padding as a separate spec (`Kec/Spec.lean`) with test vectors | the layout condition `Good k h` is decided by the kernel; digits in base 8 and tables -> theta, rho, pi, chi, iota -> rounds -> runs; findings by explicit modification of a satisfying assignment |
| C53 | keccak component: `encode.rs` natively and in circuit (`KecComp/`) | values of the packed cells by list induction; `keyElems_inj` |
| C54 | keccak component: `shard.rs` base circuit, `output.rs`, `ingestion.rs` | induction over keccak_f's, composed with C61 |
| C62 | `Kec/Witness.lean`: `multi_keccak`, `keccak`, the value-level part/transform/chi computations and `KeccakRow`s over the layout of C61 | the decidable layout condition `Wit k h` (cells distinct, lookups on the right cells) and `witRot k` (part order); round by round gates, then rows; composed with C61 findings and the C54 base circuit |
| C63 | `Pairing/Model.lean`: all of `bn254/final_exp.rs`; `Fq2`, `Fq12` as fields (`Fields/ConcreteExt.lean`), Frobenius and cyclotomic subgroup (`Pairing/Math.lean`) | triples for the no-carry formulas with the size bookkeeping decided by the kernel; Karabina compression identities from `X^(q^4-q^2+1)=1`; the addition chain of the hard part modulo the group order |
| C64 | `bn254/pairing.rs`; separate specification `Pairing/Spec.lean` | invariant of the Miller loop: the accumulator is the Miller value and `R = n Q` with `n < r`, so the strict additions apply; `pairing_check` by negation laws of the specification; the `G2` generator meets the hypotheses (`Pairing/OrderG2.lean`, certificate checked by the kernel) |
| C65 | `bn254/bls_signature.rs` (`blsRun` exposes the points which the Rust function keeps local) | composition of C49 (loading, sums), C64, C63 |
| C66 | completeness triples `Cmp` (`Core`, `Gate/Complete*`): run succeeds, honest assignment satisfies the new constraints; `FpChip` in `Fields/Complete*.lean` | each big-integer check from its own completeness lemma (C59), value computed by the witness = canonical representative |
| C67 | `Ecc/Complete.lean` over any field chip with the completeness laws `FieldCmp` | composition of C66; chord/tangent divisors are nonzero for the stated points |
| C68 | `Ecc/CompleteMsm.lean`, `Ecc/MsmCount.lean`, `Ecc/CompleteFixed.lean` | loop invariants with explicit group elements; every failure is an equation `c A = D` in the random point `A`, `n` not dividing `c`, so the number of bad points is at most the number of equations |
| C69 | `Ecc/Order.lean`, `Ecc/GroupOrder.lean` | kernel-checked order certificate, the bound `2q+1` on the number of points and no two-torsion |
| C70 | `Ecc/CompleteSig.lean` | composition of C66-C68; with C52 (`C52_ecdsa_small_x`) |
| C71 | `Threads/DynLookup.lean` (the two assignment functions of `virtual_region/lookups/basic.rs`, any call sequence, on the physical region) | invariants over the call sequence; spec `DynSat` = equality constraints + fixed columns + lookup argument on usable rows |
| C72 | `BigInt/Rel`, `Fields/Rel`, `Fields/RelExt`, `Ecc/Rel`, `Ecc/RelPar`, `Pairing/Rel`, `Threads/PoolRel` on the models of the chips | relational (two-run) program logic `Rel`/`PRel`; spec in `Props/ModesEcc` (`Modes`: same place / prover view of a field point), `Props/ModesMsm` (pools), `Props/ModesPairing` |
| C73 | `Threads/PoolCmp` (honest runs of pools), `Ecc/CompletePip`, `Ecc/CompletePar`, `Ecc/PipCount` on `Ecc/ModelPar` | completeness logic `PCmp` for pools: a fact about cells moves between contexts (`Mov`), honest values of all threads satisfy all constraints (`PGood.sat`); exceptional random points are counted as solutions of linear equations (`Cov`); spec in `Props/CompleteMsm` |
| C74 | `Fields/CompleteExt`, `Fields/CompleteFp12`, `Fields/CompleteBn`, `Pairing/CompleteRep` on `Fields/Ext` | completeness laws (`FieldCmp`) of a chip over a base chip imply those of the vector chips; the sizes of BN254 with 88-bit limbs are checked by evaluation on the size arithmetic; spec (`Fp2W`, `Fp12W`) in `Props/CompleteExt` |
| C75 | `Pairing/CompleteExp`, `CompleteExp2`, `CompleteSparse`, `CompleteLine`, `CompleteMiller`, `CompletePow`, `CompletePairing` | completeness (`Cmp`) of every function of `final_exp.rs`, `pairing.rs`, `bls_signature.rs` from C74; no exceptional addition occurs in the Miller loop for points of order `r` (the multiples met stay below `r`); the only condition is the one of `cyclotomic_decompress` (`Decompressible`), which is also shown necessary (`C75_decompress_only`) |
| C76 | `Core/Layable` (spec `Layable`), carried through `Core/Rel`, `Gate/Rel`, `Range/Rel`, ..., `Threads/PoolRel` | an extra clause of the relational logic `Rel`: the keygen run keeps its thread layable; gate offsets of every region are checked against its length; `Props/Layable` gives the routines, programs, and C29/C57 without hypotheses on threads |
| C77 | `Threads/Prover` (`synthesizeProver`: the prover's synthesis), spec (`Prog`, `Keygen`, `ProverWrites`, `publicInputs`, `proofAssignment`) in `Props/EndToEnd` and `Threads/Prover` | shape lemmas: keygen runs of the same shape synthesize the same circuit; the queue of lookups is independent of the schedule (distinct tags); the prover writes what a keygen run with its values would write; C30 makes that assignment satisfying; soundness from C76; example circuit with two threads and two column breaks |
| C78 | `Threads/Builder` (state machine: `Builder`, `Op`, `Hist`, `Reachable`), `Threads/BuilderInv` | invariant `BInv` by induction over histories: contexts only grow through the `Context` API (`CtxProg`) and the shared managers hold the merge of what each recorded; circuit equality by sorting; soundness from C29/C30's layout theorem; findings by explicit histories |
| C79 | `Threads/Resynth` (`SameRegion`) | the second run meets an assignment map containing the first one's; induction over the phases of `synthesize` |
| C80 | `Threads/Replay` (`Sim`) | simulation between the cleared and the fresh builder through every building call |
| C81 | `Threads/BuilderRun` (`BRun`: a program on the builder's main context and pool; `Circuit`), `Threads/CtxProg` (every routine of the gate and range chips uses a context only through its methods, generated by the command `cp_auto`) | a run on the builder is a run on its pool of threads (`BRun.sim`) and conversely (`Circuit.run`), then C77; success of key generation from C57's capacity theorems with the columns of `calculate_params` |
| C82 | `Threads/Builder` | induction over histories against a specification that reads the list of calls (`exposed`, `lastK`, `lastBits`) |
| C83 | `Threads/External` (copy manager with the external cell counter), `Threads/Synth` (`synth_complete_ext`) | invariant over histories (numbers below the counter are taken, others free), then `synth_sound`/`synth_complete_ext` with the placed cells as starting map |
| C84 | `KecComp/Circuit` (assigned rows, `transmute_keccak_assigned_to_virtual`, mock loading, the base circuit as one program), `KecComp/Whole`, over `Kec/*`, `Threads/*` | the loaded cells are placed at the cells of the Keccak rows (logic `Ld`), the base circuit's shape does not depend on values (`Rel`), then `synth_sound` with C54 and `proof_sat_ext` with C62; simplification: in the prover the loaded values carry no cells (the code keeps them, nothing in witness-generation-only mode reads them); that key generation succeeds (for every configuration with enough columns) is proved in `Props/ShardKeygen` with the logic `EqOwn` (every equality has a side owned by the thread) |
| C85 | `Zk/Model`: `expression.rs`, `word.rs`, `eth_types.rs` over halo2's `Expression` (`Ex`, evaluation and degree) | induction on bytes with `Nat.ofDigits 256`; the deviations are findings 44-47 |
| C86 | `Zk/Model`: `BaseConstraintBuilder`, calls as an inductive type `Op` with nested blocks; `debug_assert!` as a flag | an invariant `Step` of a call, induction on the calls; `Op.Holds` is the specification |
| C87 | `Props/EcdsaCircuit`: `ecdsa_test` (with a checked public key, an assertion on the result and exposed limbs) over the models of C52/C70 and of the circuit layout (C77) | the relational lemma of the verifier makes it a library circuit; soundness by `C77_accepted_sound` and `ecdsaVerify_sound`, completeness by `C77_proof_accepted` and `ecdsaVerify_cmp`, the exceptional random points counted as in C70; key generation (`Props/EcdsaKeygen`): every equality of the circuit involves one of its cells (`Ecc/EqOwn`, routine by routine), an honest run that completes whatever the other cells hold refers to its own cells only, so C57 applies (`Props/MainKeygen`); a concrete signature shows that there is a key and an accepted proof |
| C88 | `Props/SchnorrCircuit`: `schnorr_signature_test` (with a checked public key, an assertion on the result and exposed limbs) | as C87, with the soundness and completeness of the Schnorr verifier (C52, C70) |
| C89 | `Props/PairingCircuit`: `pairing_test` (with exposed limbs); `Pairing/EqOwn` | as C87, with the soundness and completeness of the pairing (C64, C75) |
| C90 | `Props/FreeQuotient`, `Props/BlsForge`: `divide_unsafe`, `easy_part`, `cyclotomic_decompress`, `final_exp`, `bls_signature_verify` run by a prover with other witnesses | the cheating program is related to the library's (shape independence, C56), so its honest assignment satisfies the library's constraints; converse by the soundness laws of the chips |
| C91 | `Threads/Shared`: heap of managers, builders with addresses, `WOp` = new/clone/deep_clone/set_copy_manager/calls | induction over histories of several builders; a builder with private managers is untouched by calls elsewhere (frame), and a simulation by the one-builder model of C78 (`lineage` is the specification); findings by explicit histories |
| C92 | `Sha/Shift`: fixed and advice columns after any list of calls (`fixedSegs`, `advCalls`) | a chain of calls is `ShaSat` of the sum of the blocks (gates depend on the fixed row and the next `q_squeeze`); a call alone is the circuit shifted, up to `q_first`; forgery from the second block of an honest message |
| C93 | `loadConstantUint`/`assignFixed` on any integer | digits of `x` kept are `x mod 2^(n k)`; uniqueness of digits below `p`; instance by `Completes` |
| C94 | `vecOps` on integers: exact values of the folded predicates | products of bits over `Forall₂`; `zip` against `zip_eq` by induction on the lists; completeness on unreduced coordinates |
| C95 | `Kec/ForgeMsg.lean`: a satisfying assignment with one byte and one word changed | gates depend only on their cells (`Kec/Congr.lean`), lookups only on their columns; the byte is solved for the word; induction over rounds; from scratch by C62; `Kec/Large.lean`: the layout computed with a failing wrap-around simulates the layout at every larger number of rows |
| C55 | `Sha/*`: every gate of the SHA-256 circuit as polynomial values on rows of an arbitrary advice table, the fixed columns, the exposed cells, and `generate_witnesses_multi_sha256`; FIPS 180-4 as a separate spec (`Sha/Spec.lean`) with its test vectors | soundness: bits -> words -> rounds -> blocks -> runs; completeness: closed form of the generated rows |

## 4. Findings (disagreements between the code and its documentation)
Each is a place where the English property one would expect is false of the code.  Those marked (T) are
theorems about the model (a concrete counterexample or an exact characterisation).

1. (T, `C25_*`) `const_right_rotate_internal` (range/mod.rs:648) destructures `div_mod_floor` in the wrong order:
   quotient and remainder are swapped, so the honest prover's witness is rejected for most inputs (e.g. rotate 1
   by 1 of 8 bits).  Soundness (C24) holds.
2. (T, `C18_unsound_*`) `check_less_than_safe` / `check_big_less_than_safe` within the documented bound accept an
   `a ≥ b` exactly when `2^(rb+1) > p + b` (BN254: `lookup_bits` 1, 11, 23 and `rb = 253`).
3. (T, `C20_unsound_bn254`) `div_mod` with `a_num_bits = CAPACITY` accepts a wrong quotient.
4. (T, `C21_unsound_bn254`) `div_mod_var` under its documented assumptions accepts a wrong quotient when
   `2 * b_num_bits > CAPACITY`.
5. `_range_check`'s last-limb check wraps for tiny fields (`2 * lookup_bits > CAPACITY`); the model's `RangeOk.big`
   excludes this, and it is unreachable on BN254 (`rangeOk_bn254`).
6. (T, `C36_packing_unsound`, `C36_uint16_bn254_unsound`) `SafeTypeChip::raw_bytes_to` (safe_types/mod.rs:152-154): the byte
   weights are witnesses, not constants, so a multi-byte element can take any value.
7. (T, `C27_decompose_64_wrong`) `decompose` with `bit_len = 64` (utils/mod.rs:239-245): the u64 path computes
   `1u64 << 64`.
8. (T, `C29_overlap_at_top_unsound`) `assign_with_constraints`: the overlap check (`i + 2 >= ROTATIONS`) misses an
   overlap with distance 1 at offset 1.
9. (T, `C27_decompose_biguint_zero`) `decompose_biguint` with `num_limbs = 0` returns one limb.
10. (T, `C34_dropped_without_columns`) lookups are silently dropped when the config has `lookup_bits` but zero
    lookup-advice columns.
11. (T, `C57_auto_advice_insufficient`, `C57_auto_fixed_insufficient`) the column counts `calculate_params` suggests can
    be too small (break-point duplication and per-column constant rounding).
12. (`C83_schedule_dependent`) `load_external_cell` ids come from a counter shared by all threads, so using it inside
    `parallelize_core` would make ids schedule-dependent.
13. (T, `C58_validator_rejects_valid`, `C58_validator_accepts_invalid`) `PoseidonCompactInput::add_validation_constraints`
    (poseidon/hasher/mod.rs:81-94) is inverted: it asserts that the *valid* condition is 0 (and drops the result of the length
    comparison).  No well-formed row satisfies it and ill-formed ones do.
14. (T, `C40_factorise_panics_iff`, `C40_factorise_finding`) `MDSMatrix::factorise` panics ("matrix is not invertible") on
    matrices that have the factorisation, when an entry of `w_hat` is zero.  (Not for MDS matrices in the first step, whose
    minors are nonzero; later accumulated matrices need not be MDS.)
15. (T, `C42_select_by_indicator_finding`) `select_by_indicator::crt` (bigint/select_by_indicator.rs:54) recomputes the native
    value from the selected limbs, or selects it, depending on `a.len() > k`; for an unreduced `CRTInteger` (native not equal to
    the limbs' residue, as after a negative overflow) the two disagree on what is returned.  All in-tree callers pass consistent
    integers.
16. (no theorem) `check_carry_mod_to_zero::crt` lacks `carry_mod::crt`'s assertion `mod_vec.len() == k`; `check_carry_to_zero`
    asserts nothing that rules out wrap-around of `max_limb_bits + ...` at the native field; the model carries the numeric
    conditions (`CarryOk`) as explicit hypotheses, discharged for 88x3 limbs.
17. (T, `C93_*`) `assignFixed`/`load_constant_uint` silently truncates a value `>= 2^(n*k)`.
18. (T, `C94_is_soft_nonzero`, `C94_assert_equal_zip`) `FieldVectorChip::is_soft_nonzero` (`fields/vector.rs`) ORs the coordinate results, so when one coordinate is a
    reduced nonzero value the other coordinates may be unreduced; `assert_equal` there uses `zip`, not `zip_eq`.
19. (T, `C60_get_naf_carry_out_panics`, `C60_get_naf_max_panics`) `get_naf` panics whenever a digit is carried out of the last
    limb (the sides of `assert_eq!(len, exp.len() + 1)`, ecc/mod.rs:801, are interchanged).  (T, `C60_get_naf_adjacent`) its digits
    are not in non-adjacent form across limbs.
20. (T, `C49_add_unequal_not_strict`) non-strict `ec_add_unequal` on equal points accepts any slope (documented assumption).
21. (in `C52_*`) `ecdsa_verify_no_pubkey_check`: a valid signature can be rejected by the prover when `z/s` or `r/s` has a second
    representative below `2^256`; the theorem needs `n ∤ msghash`, as `EccChip::sum` is otherwise given `(0, 0)`; the
    constraints are unsatisfiable (rather than returning 0) when `u1 G = - u2 Q` or `x1 >= n`.
22. (in `C52_schnorr`) `schnorr_verify_no_pubkey_check` enforces `R.x < n` where BIP 340 has `R.x < p`: for the (negligibly many)
    valid signatures with `n <= R.x < p` the circuit is unsatisfiable.

23. `NativeFieldChip::is_soft_nonzero` (`halo2-ecc/src/fields/native_fp.rs`) negates (`neg`) the bit of `is_zero` instead of taking `not`:
    it is `-1` for zero and `0` for every other element (`C48_native_is_soft_nonzero`, `C48_native_not_softNonzero`), so
    `EccChip`/ECDSA code over the native field that reads it as a bit would treat every nonzero element as zero.

24. SHA-256 circuit: the 64-bit length field is checked only as a 32-bit word (`w == length * 8` in the last input row, and the upper
    word is zero padding), so messages of 2^32 bits or more cannot be hashed (`C55_sha256_sound` derives `8 * length < 2^32`); the witness
    generation does not check this.  For `multi_sha256_shifted` with a nonzero start offset see C92.

25. (T, `C61_keccak_hash_forged`, `C61_keccak_hash_forged_params`; from scratch `C62_hash_forged`) Keccak circuit, missing lookups: `transform_to::expr` with `uniform_lookup`
    (keccak_packed_multi.rs:503-531) creates a lookup only for parts in row 0 of a round and relies on every column of a region having a part
    in row 0; but `CellManager::start_region` (cell_manager.rs:186-195) does not reset `current_row`, so regions start in an arbitrary row
    and a column may have no part in row 0: then it has no lookup.  For (k, rows_per_round) = (12, 5), (14, 25), (18, 977), (20, 50) this is the
    case for a column of the squeezed bytes, and any hash value can be proved for any message.  For (18, 9) the lookups of the absorbed
    words are missing (no theorem).
26. (T, `C61_keccak_bytes_left_forged`; from scratch `C62_length_forged`) Keccak circuit: `is_final` is not constrained to be 0 in the rounds 17-23 of a keccak_f ("is final"
    gate, mod.rs:656-690, only treats the rows that are not the first of a round, and round 24); setting it there resets the `bytes_left`
    countdown.  A message of more than `136 j` bytes can be given the length `136 j`.  `C61_keccak_sound` shows that these are the only other
    lengths.
27. (T, `C61_keccak_split_ambiguous`) Keccak circuit: when the part size does not divide 64 (e.g. `k = 18`) the last part of a word is smaller
    than the table it is looked up in, and the split of a word (rho) is not unique.
28. (T, `C54_table_forged`; from scratch `C62_table_forged`) Keccak component: with finding 26 the published table can hold a false row: the lookup key of a message `m`
    whose length is a positive multiple of 136 bytes with the Keccak-256 hash of `m ++ 0^t`, `1 <= t < 136`.
29. (T, `C54_ingest_truncates`) `format_requests_for_ingestion` uses `resize_with`, which drops chunks above the capacity without an error
    (possibly in the middle of a message); the caller must compare the second result with the capacity.  Chunks that are not final get
    the hash 0, the documentation of `KeccakIngestionFormat` says Keccak-256 of the empty string (`C54_ingest_one`).

30. (T, `C90_decompress_of_one`, `C90_final_exp_not_determined`, `C90_bls_valid_reported_invalid`) `cyclotomic_decompress` of the compression `0` (the compression of `1`) leaves `g1` free (`0/0` in both `divide_unsafe`): the
    output can be any `1 + 2 xi g1^2 + g1 w^3`.  So `final_exp` of an element whose easy part is `1` (e.g. any element of `Fq6`, in particular
    the Miller product of `pairing_check(Q, P, Q, P)`) is not determined by the constraints; C63 needs the hypothesis on intermediate
    values.  `pairing_check` stays sound (C64), but the bit of `bls_signature_verify` can be made 0 by the prover in that case (a valid
    signature under the secret key 1: `C90_bls_valid_reported_invalid_instance`).
31. (T, `C75_decompress_only`) `cyclotomic_decompress` computes both branches with `divide_unsafe`; for `g3 = 0`, `g2 != 0`, `g4 g5 != 0` the unused branch is
    `x / 0` with `x != 0`, so an honest prover cannot satisfy the constraints.
32. (T, `C63_pow`, `C63_cyclotomic_pow`) `pow` and `cyclotomic_pow` with exponent 0 return `a` instead of `1`.
33. (T, `C90_easy_part_of_zero`) `easy_part` of `0` divides with `divide_unsafe` (0/0): the output can be `q^(q^2+1)` for every `q`.
34. (T, `C65_bls_returns`) `bls_signature_verify` loads all points privately and returns only the bit, so a caller cannot bind the message hash,
    the keys or the signatures to anything; no subgroup check is made for `H(m)` or the signatures (`load_private` checks the curve
    equation only).  The comment says that `-H(m)` is used, the code negates the signature.
35. (T, `C52_ecdsa_small_x`) a valid ECDSA signature whose point `z/s G + r/s Q` has its first coordinate in `[n, p)` cannot be proved (nor
    disproved): `enforce_less_than` makes the circuit unsatisfiable.  `s = 0` and hashes divisible by `n` are also unprovable or leave
    `0/0`.

36. (T, `C76_select_dangling`) `select_by_indicator` sizes its region by the shorter of values and indicator but enables a gate for every
    value: with one indicator bit too few it succeeds and leaves a gate enabled on its last cell, which ties the result to whatever three
    cells are assigned next (the honest prover can no longer satisfy the circuit).

37. (T, `C78_unknown_not_passed_on`) `MultiPhaseCoreManager::touch` creates the managers of later phases with the default `use_unknown =
    false`: a keygen builder's phase 1 and 2 contexts would assign known values.
38. (T, `C78_later_phases_dropped`) `BaseCircuitBuilder::synthesize` assigns phase 0 only: gates recorded in phases 1 and 2 disappear from the
    circuit without an error (an unsatisfiable gate of phase 1 leaves an empty circuit), and `break_points()` panics afterwards.
39. (T, `C78_setters_panic`) `set_break_points` with fewer entries than phases and `set_instance_columns` with fewer columns than before panic.
40. (T, `C80_stale_break_points`) `clear` keeps the break points: building and synthesizing a circuit with other break points panics.
41. A second `synthesize` (C79) adds self-copies for external cells that are looked up: harmless, but the regions are not identical.
42. (`C83_mock_not_detected`) "If any mock external cell is loaded, calling `assign_raw` will panic" (copy_constraints.rs:82) is false: a mock cell that is range checked with exactly `lookup_bits` bits is silently identified with a cell of the lookup column.
43. (`C83_clear_reuses`) After `clear` external cell numbers restart at 0, so a handle kept from before aliases the next loaded cell.

44. (`C85_to_scalar`) `U256::to_scalar` returns `Option`, but panics (`from_repr(..).unwrap()`) instead of returning `None` when the number is not below the modulus.
45. (`C85_to_word_four`) `WordLimbs::to_word`/`to_word_n` weigh the limbs with powers of 256 whatever their size: `Word4` (four 64-bit limbs) becomes a wrong word.
46. (`C85_word_eq`) `WordLimbs::eq` is the product of `1 - d_i` over the differences of limbs: 1 for some different words (`d = (2, 2)`), not a bit in general.
47. (`C85_mul_unchecked`) `Word::mul_unchecked` multiplies the low and the high halves separately: `2^128 * 1` is 0.
48. (`C86_nested`) `BaseConstraintBuilder::condition` inside `condition`: a panic in debug; in release the inner condition replaces the outer one and the rest of the outer block is unconditional.
None of 44-48 is reached by the circuits of this repository.

`WFThread` (every enabled gate lies inside its thread's advice column; no enabled gates overlap at the top of a thread) is a
hypothesis of the layout theorems.  The API does not enforce it for raw `assign_region` calls (findings 8 and 36); every other routine
of the library establishes it (C76).
49. (T, `C91_set_copy_manager_drops`) `set_copy_manager`/`use_copy_manager` on a builder that has recorded constraints silently forgets them (equalities, constants, places of external cells).
50. (T, `C91_foreign_range_chip_unchecked`) After `deep_clone` a range chip made by the original queues the lookups of the clone's cells at the original: the clone's circuit is synthesized without the range checks, without a warning.
51. (T, `C91_clone_panics`) `BaseCircuitBuilder: Clone` shares the managers: constraints recorded by one of the two are also constraints of the other.
52. (T, `C92_alone_forged`, `C92_alone_not_determined`, `C92_alone_complete`, `C92_misaligned`) `multi_sha256_shifted` at a nonzero offset with nothing assigned before it: `q_first` is only set at offset 0, so the initial state comes from unconstrained cells: one block exposes the digest of any message of 56 to 64 bytes of the prover's choice next to zero words, and the honest rows are rejected. An offset that is not a multiple of 72 is never satisfied by honest rows; nothing is checked (the doc comment only says the user must supply the offset correctly).
53. (T, `C92_straddle`) With several calls one after the other a run of blocks may begin in the cells of one call and end in those of the next; a caller that reads each call's cells by itself is not sound.
54. (T, `C94_soft_completes`, `C94_instance`) the comment above `FieldChip::is_soft_nonzero` (fields/mod.rs:147-149), that it constrains the integer to be in `[0, p-1]`, belongs to `is_zero`: `is_soft_nonzero` constrains nothing and answers 0 for an unreduced coordinate.
55. (T, `C95_words_forged`, `C95_message_forged`, `C95_any_message`, `C95_params`; in the table of the component `C95_table_forged`) Keccak circuit, the missing lookups of finding 25 for the input bytes: for (14, 25), (18, 977), (20, 50) and many other parameters no input byte is looked up, so the words handed to the caller are not tied to the absorbed words, and any message passes with the hash of any other message of the same length. For k = 14, 18, 20 this holds for EVERY number of rows per round from 123, 111, 101 on, that is for all small capacities (`C95_layout_large`, `C95_free_large`, `C95_words_forged_large`, `C61_hash_forged_large`; from a satisfying assignment: the completeness conditions `Wit` are kernel-checked for (14, 25) and only evaluated, not proved, for the larger ones).

## 5. Not modelled

`halo2-ecc/src/ecc/fixed_base_pippenger.rs` (not compiled: its `mod` is commented out); `utils/testing.rs` and everything under `#[cfg(test)]`, benches,
examples; the synthesis caches and pinning files; the grumpkin re-exports;
serialization; phases 1 and 2 of `BaseCircuitBuilder::synthesize` (threads of phase 0 only are laid out in the model, since only phase 0 is
assigned by `BaseCircuitBuilder`'s own `synthesize`); the halo2 proving system itself (a circuit is satisfied when all gates, lookups, copies and
fixed cells hold on the usable rows).
