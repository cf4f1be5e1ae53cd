{"id": "C01", "title": "Context operations only ever add constraints", "statement": "Every public Context operation (assign_cell, assign_region, assign_region_last, assign_region_smart, assign_witnesses, load_witness, load_constant(s), load_zero, constrain_equal) appends to the advice column without altering earlier cells, and never removes or weakens a selector, copy or constant constraint that was already recorded, so an assignment satisfying the later circuit satisfies the earlier one.", "quantifier": "all context states, all arguments, every sequence of operations", "why_tests_cant": "A sequence of operations of any length from any state; tests fix one sequence.", "anchors": ["halo2-base/src/lib.rs: Context::assign_cell, assign_region, assign_region_smart, load_zero"]}
{"id": "C02", "title": "Existing and Constant inputs are bound, Witness inputs are free", "statement": "When a region is assigned in constraint mode, in every satisfying assignment each new cell built from Existing(a) holds exactly the value of a's cell, each cell built from Constant(c) holds c, and every enabled gate offset o enforces cell[o] + cell[o+1]*cell[o+2] = cell[o+3].", "quantifier": "all context states, all input lists, all (also negative) gate offsets, all satisfying assignments", "why_tests_cant": "An adversarial prover may choose any values for the advice cells; tests only run the honest prover and a few hand-pranked cells.", "anchors": ["halo2-base/src/lib.rs: assign_cell, assign_region", "halo2-base/src/gates/flex_gate/mod.rs: BasicGateConfig::create_gate"]}
{"id": "C03", "title": "Prover mode produces the same witness as keygen mode", "statement": "Running any GateChip/RangeChip routine with witness_gen_only=true pushes exactly the same advice values and returns the same values as with witness_gen_only=false.", "quantifier": "all routines, all inputs, all pairs of states that agree on their advice values", "why_tests_cant": "The two modes take different branches; a divergence on one input makes every honest proof for it invalid. Tests run few inputs.", "anchors": ["halo2-base/src/lib.rs: Context (witness_gen_only)", "halo2-base/src/gates/flex_gate/mod.rs: GateChip::inner_product_simple"]}
{"id": "C04", "title": "Gate arithmetic is sound", "statement": "In every satisfying assignment the cells returned by add, inc, sub, dec, sub_mul, neg, mul, mul_add, mul_not, and, not, or, xor, or_and, select, div_unsafe hold the value of the advertised field expression of the input cells (for or/xor/select/... the boolean meaning when the inputs are boolean; div_unsafe: out*b=a).", "quantifier": "all prime fields, all input cells of every QuantumCell kind, all satisfying assignments", "why_tests_cant": "An adversarial prover may choose any values for the advice cells; tests only run the honest prover and a few hand-pranked cells.", "anchors": ["halo2-base/src/gates/flex_gate/mod.rs: GateInstructions::{add,sub,neg,mul,mul_add,mul_not,or,and,xor,not,or_and,div_unsafe}", "halo2-base/src/gates/flex_gate/mod.rs: GateChip::select"]}
{"id": "C05", "title": "Gate arithmetic is complete", "statement": "For every honest input the same routines do not panic (div_unsafe: when b != 0), and the assignment they write satisfies every constraint they add, and returns the advertised value.", "quantifier": "all prime fields, all input values, all well-formed states", "why_tests_cant": "Completeness must hold for each of ~2^254 values per input; tests sample.", "anchors": ["halo2-base/src/gates/flex_gate/mod.rs: GateInstructions"]}
{"id": "C06", "title": "is_zero / is_equal decide equality", "statement": "In every satisfying assignment is_zero(a) holds 1 if a's cell is 0 and 0 otherwise; is_equal(a,b) holds 1 iff the two cells are equal, else 0.", "quantifier": "all prime fields, all cells, all satisfying assignments, including adversarial choice of the inverse witness", "why_tests_cant": "An adversarial prover may choose any values for the advice cells; tests only run the honest prover and a few hand-pranked cells.", "anchors": ["halo2-base/src/gates/flex_gate/mod.rs: is_zero, is_equal"]}
{"id": "C07", "title": "assert_bit / assert_is_const are exact", "statement": "assert_bit(x) is satisfiable iff x's cell is 0 or 1; assert_is_const(a,c) iff a's cell is c.", "quantifier": "all cells and assignments", "why_tests_cant": "An adversarial prover may choose any values for the advice cells; tests only run the honest prover and a few hand-pranked cells.", "anchors": ["halo2-base/src/gates/flex_gate/mod.rs: assert_bit, assert_is_const"]}
{"id": "C08", "title": "Inner products and sums are sound for every length", "statement": "inner_product, inner_product_left, inner_product_left_last, inner_product_with_sums, sum, partial_sums, sum_products_with_coeff_and_var, accumulated_product return, in every satisfying assignment, exactly the advertised (running) sums, also when b starts with Constant(1).", "quantifier": "all lists of all lengths, both layouts (b[0]=Constant(1) or not), all satisfying assignments", "why_tests_cant": "Unbounded length and two cell layouts; index arithmetic must be right for every length.", "anchors": ["halo2-base/src/gates/flex_gate/mod.rs: inner_product_simple, inner_product*, sum, partial_sums, sum_products_with_coeff_and_var, accumulated_product"]}
{"id": "C09", "title": "Inner products and sums are complete for every length", "statement": "With equal-length honest inputs the same routines do not panic and the values they write satisfy all added constraints.", "quantifier": "all lists of all lengths", "why_tests_cant": "Unbounded length.", "anchors": ["halo2-base/src/gates/flex_gate/mod.rs: inner_product_simple, sum, partial_sums"]}
{"id": "C10", "title": "num_to_bits is the unique binary decomposition", "statement": "In every satisfying assignment num_to_bits(a, n) returns n cells each 0 or 1 whose little-endian value equals a in the field; if 2^n <= p they are the unique bits of a's canonical integer and a < 2^n is enforced.", "quantifier": "all n, all cells, all satisfying assignments", "why_tests_cant": "An adversarial prover may choose any values for the advice cells; tests only run the honest prover and a few hand-pranked cells.", "anchors": ["halo2-base/src/gates/flex_gate/mod.rs: num_to_bits"]}
{"id": "C11", "title": "bits_to_num inverts num_to_bits", "statement": "bits_to_num returns sum bits[i]*2^i; composed with num_to_bits it returns the original value.", "quantifier": "all bit vectors of every length up to CAPACITY", "why_tests_cant": "Unbounded length and adversarial witnesses.", "anchors": ["halo2-base/src/gates/flex_gate/mod.rs: bits_to_num, num_to_bits"]}
{"id": "C12", "title": "bits_to_indicator is one-hot", "statement": "For boolean bits, bits_to_indicator returns 2^k cells; cell i is 1 iff i equals the little-endian number of the bits, otherwise 0.", "quantifier": "all k>0, all bit vectors, all satisfying assignments", "why_tests_cant": "2^k outputs for every k.", "anchors": ["halo2-base/src/gates/flex_gate/mod.rs: bits_to_indicator"]}
{"id": "C13", "title": "idx_to_indicator / select_from_idx", "statement": "idx_to_indicator(idx,len) returns len cells with cell i = 1 iff i = idx (all zero if idx >= len); select_from_idx returns cells[idx] or 0 if out of range. Also when idx is an unassigned Witness (all copies of idx are tied together).", "quantifier": "all len <= p, all idx cells, all lists", "why_tests_cant": "An adversarial prover may choose any values for the advice cells; tests only run the honest prover and a few hand-pranked cells.", "anchors": ["halo2-base/src/gates/flex_gate/mod.rs: idx_to_indicator, select_by_indicator, select_from_idx, select_array_by_indicator"]}
{"id": "C14", "title": "pow_var computes a^exp", "statement": "In every satisfying assignment pow_var(a, exp, max_bits) holds a^e where e is the canonical integer of exp, and exp < 2^max_bits is enforced (2^max_bits <= p).", "quantifier": "all a, exp, max_bits", "why_tests_cant": "An adversarial prover may choose any values for the advice cells; tests only run the honest prover and a few hand-pranked cells.", "anchors": ["halo2-base/src/gates/flex_gate/mod.rs: pow_var"]}
{"id": "C15", "title": "lagrange_and_eval interpolates", "statement": "If constraints hold, x_i are pairwise distinct, none equals x, and the outputs are f(x) for the unique polynomial f of degree < n through the points, and prod (x - x_i).", "quantifier": "all n >= 1, all points, all satisfying assignments", "why_tests_cant": "An adversarial prover may choose any values for the advice cells; tests only run the honest prover and a few hand-pranked cells.", "anchors": ["halo2-base/src/gates/flex_gate/mod.rs: lagrange_and_eval"]}
{"id": "C16", "title": "range_check is exact", "statement": "With table [0,2^lookup_bits), range_check(a, range_bits) is satisfiable iff a's canonical integer is < 2^range_bits, whenever ceil(range_bits/lookup_bits)*lookup_bits <= CAPACITY (soundness: in every satisfying assignment; completeness: the honest witness works).", "quantifier": "all primes, all lookup_bits, all range_bits under the documented bound (single limb, multi limb, remainder 0 / 1 / >1), all assignments", "why_tests_cant": "An adversarial prover may choose any values for the advice cells; tests only run the honest prover and a few hand-pranked cells.", "anchors": ["halo2-base/src/gates/range/mod.rs: _range_check, range_check"]}
{"id": "C17", "title": "check_less_than enforces a<b", "statement": "If a and b are < 2^n (and 2^(n+1) <= p), check_less_than(a,b,n) is satisfiable iff a<b.", "quantifier": "all a,b,n under the bound, all assignments", "why_tests_cant": "An adversarial prover may choose any values for the advice cells; tests only run the honest prover and a few hand-pranked cells.", "anchors": ["halo2-base/src/gates/range/mod.rs: check_less_than"]}
{"id": "C18", "title": "check_less_than_safe / check_big_less_than_safe enforce a<b for any a", "statement": "With rb = ceil(bits(b)/lookup_bits)*lookup_bits: without any prior range check on a, check_(big_)less_than_safe(a,b) forces a<b in every satisfying assignment whenever 2^rb <= p and 2^(rb+1) <= p + b, and it is satisfied by the honest witness for every a<b with rb <= CAPACITY. The second condition is necessary: whenever rb <= CAPACITY but 2^(rb+1) > p + b (e.g. BN254, lookup_bits=11, b=2^242) the a >= b with a = p + b - 2^rb passes.", "quantifier": "all a, all constants b, all lookup sizes, all satisfying assignments", "why_tests_cant": "An adversarial prover may choose any values for the advice cells; tests only run the honest prover and a few hand-pranked cells.", "anchors": ["halo2-base/src/gates/range/mod.rs: check_less_than_safe, check_big_less_than_safe"]}
{"id": "C19", "title": "is_less_than decides a<b", "statement": "is_less_than(a,b,n) returns 1 if a<b else 0 in every satisfying assignment for a,b < 2^n within the documented bound; the _safe variants do so after constraining a's size.", "quantifier": "all a,b,n under the bound; adversarial limb witnesses", "why_tests_cant": "An adversarial prover may choose any values for the advice cells; tests only run the honest prover and a few hand-pranked cells.", "anchors": ["halo2-base/src/gates/range/mod.rs: is_less_than, is_less_than_safe, is_big_less_than_safe"]}
{"id": "C20", "title": "div_mod returns the true quotient and remainder", "statement": "In every satisfying assignment div_mod(a,b,n) returns (a / b, a mod b) of the canonical integers, provided the no-wrap conditions hold (both safe comparisons of C18 are sound, and 2^n + b <= p; one spare bit below CAPACITY suffices); the honest witness is always accepted for a < 2^n. At the documented limit n = CAPACITY soundness fails (BN254, lookup_bits=11, b=8: a wrong quotient is accepted).", "quantifier": "all a < 2^a_num_bits, all b != 0, all satisfying assignments", "why_tests_cant": "An adversarial prover may choose any values for the advice cells; tests only run the honest prover and a few hand-pranked cells.", "anchors": ["halo2-base/src/gates/range/mod.rs: div_mod"]}
{"id": "C21", "title": "div_mod_var returns the true quotient and remainder", "statement": "Same for a divisor b < 2^b_num_bits fixed by the circuit (a constant or an existing cell), provided additionally that b_num_bits*2 stays below the field size; completeness for all a,b != 0 within the bit bounds. Under the documented assumptions alone soundness fails (BN254, lookup_bits=8, 247 bits: 255/256 accepted with quotient (p+255)/256 and remainder 0).", "quantifier": "all a,b, all satisfying assignments", "why_tests_cant": "An adversarial prover may choose any values for the advice cells; tests only run the honest prover and a few hand-pranked cells.", "anchors": ["halo2-base/src/gates/range/mod.rs: div_mod_var"]}
{"id": "C22", "title": "get_last_bit returns the parity", "statement": "For a < 2^limb_bits, get_last_bit returns a mod 2 in every satisfying assignment.", "quantifier": "all a, limb_bits", "why_tests_cant": "An adversarial prover may choose any values for the advice cells; tests only run the honest prover and a few hand-pranked cells.", "anchors": ["halo2-base/src/gates/range/mod.rs: get_last_bit"]}
{"id": "C23", "title": "decompose_le / limbs_to_num are inverse", "statement": "decompose_le returns the unique base-2^limb_bits digits of num, each < 2^limb_bits; limbs_to_num recomposes them.", "quantifier": "all limb sizes and counts with limb_bits*num_limbs <= CAPACITY, all assignments", "why_tests_cant": "An adversarial prover may choose any values for the advice cells; tests only run the honest prover and a few hand-pranked cells.", "anchors": ["halo2-base/src/gates/range/mod.rs: decompose_le, limbs_to_num"]}
{"id": "C24", "title": "const rotations: soundness", "statement": "In every satisfying assignment const_right_rotate<BIT,N>(a) / const_left_rotate return the N-bit rotation of a and a < 2^N is enforced (BIT mod N != 0).", "quantifier": "all BIT, N <= CAPACITY, all a", "why_tests_cant": "An adversarial prover may choose any values for the advice cells; tests only run the honest prover and a few hand-pranked cells.", "anchors": ["halo2-base/src/gates/range/mod.rs: const_right_rotate, const_left_rotate, const_right_rotate_internal"]}
{"id": "C25", "title": "const rotations: exact set of inputs with an accepted honest witness", "statement": "The witness written by const_right_rotate<BIT,N>(a) satisfies the recorded circuit only if (a mod 2^k)*2^k + a / 2^k = a for k = BIT mod N, and does so when moreover the swapped parts fit their ranges; hence the documented completeness (every a < 2^N) is FALSE of the code, e.g. for a = 1, BIT = 1, N = 8.", "quantifier": "all BIT, N, a < 2^N", "why_tests_cant": "The only test file for it (bitwise_rotate.rs) is not compiled (not in tests/mod.rs).", "anchors": ["halo2-base/src/gates/range/mod.rs: const_right_rotate_internal"]}
{"id": "C26", "title": "Limb decomposition of integers is exact", "statement": "decompose_u64_digits_to_limbs returns floor(e/2^(i*bit_len)) mod 2^bit_len for i<number_of_limbs, using only 64-bit wrapping-free operations.", "quantifier": "all digit streams, all 0 < bit_len < 64, all limb counts", "why_tests_cant": "Sliding-window shifts over digit boundaries; 2^(64*k) inputs per size.", "anchors": ["halo2-base/src/utils/mod.rs: decompose_u64_digits_to_limbs"]}
{"id": "C27", "title": "decompose_biguint is exact for 64..127-bit limbs", "statement": "decompose_biguint returns base-2^bit_len digits (truncated), without overflowing u64/u128 shifts.", "quantifier": "all e, all 64 <= bit_len < 128, all limb counts", "why_tests_cant": "Same, with three-digit windows.", "anchors": ["halo2-base/src/utils/mod.rs: decompose_biguint, decompose, decompose_bigint"]}
{"id": "C28", "title": "Integer/field conversions round-trip", "statement": "fe_to_biguint(biguint_to_fe(e)) = e for e<p; bigint_to_fe(fe_to_bigint(x)) = x and fe_to_bigint lands in [-(p-1)/2, (p-1)/2]; compose(decompose(e)) = e; bit_length / log2_ceil are the exact bit size and ceil(log2); get_lower_{32,64,128} are the residue mod 2^n.", "quantifier": "all integers and field elements", "why_tests_cant": "Whole domain.", "anchors": ["halo2-base/src/utils/mod.rs: biguint_to_fe, bigint_to_fe, fe_to_biguint, fe_to_bigint, compose, bit_length, log2_ceil, get_lower_32"]}
{"id": "C29", "title": "Physical layout preserves the virtual circuit (soundness)", "statement": "If a physical assignment satisfies the gates, break-point copies and copy constraints laid out by assign_with_constraints, then reading it through the virtual-to-physical map satisfies every virtual gate of every thread.", "quantifier": "all lists of threads of any length, all max_rows >= 4, any break points, any physical assignment", "why_tests_cant": "Every circuit shape; a gate straddling a column break would silently go unconstrained.", "anchors": ["halo2-base/src/gates/flex_gate/threads/single_phase.rs: assign_with_constraints"]}
{"id": "C30", "title": "Physical layout is complete and consistent with witness assignment", "statement": "assign_witnesses with the break points returned by assign_with_constraints writes the same value in the same physical cell, and the honest virtual assignment satisfies the physical gates and break-point copies.", "quantifier": "all threads, all max_rows, all values", "why_tests_cant": "Keygen and proving use different code paths that must agree on every circuit.", "anchors": ["halo2-base/src/gates/flex_gate/threads/single_phase.rs: assign_with_constraints, assign_witnesses"]}
{"id": "C31", "title": "Break points never overflow a column", "statement": "assign_with_constraints never uses a row >= max_rows, every enabled gate fits in rows < max_rows, and each virtual cell gets exactly one physical cell.", "quantifier": "all thread lists, max_rows >= 4", "why_tests_cant": "All shapes.", "anchors": ["halo2-base/src/gates/flex_gate/threads/single_phase.rs: assign_with_constraints"]}
{"id": "C32", "title": "Copy manager realises every virtual constraint", "statement": "After assign_raw, a physical assignment satisfying the raw equality constraints gives equal values to both sides of every advice equality and the constant value to every constant equality; each distinct constant is assigned exactly one fixed cell and distinct constants get distinct cells.", "quantifier": "all lists of equalities and constants, any number of fixed columns >= 1", "why_tests_cant": "Every list of constraints.", "anchors": ["halo2-base/src/virtual_region/copy_constraints.rs: SharedCopyConstraintManager::assign_raw"]}
{"id": "C33", "title": "Constraint collection does not depend on thread scheduling", "statement": "For any interleaving of pushes by parallel contexts, the sorted constraint lists (hence the circuit) are identical; lookups are grouped by context tag so their order is interleaving-independent; parallelize_core gives context ids and outputs in input order.", "quantifier": "all interleavings of any number of threads", "why_tests_cant": "Thread schedules.", "anchors": ["halo2-base/src/virtual_region/copy_constraints.rs", "halo2-base/src/virtual_region/lookups.rs", "halo2-base/src/gates/flex_gate/threads/parallelize.rs"]}
{"id": "C34", "title": "Every queued lookup cell is looked up", "statement": "LookupAnyManager::assign_raw copies every queued tuple to its own row of a lookup-enabled column set, tied by a copy constraint, so each queued cell's value is in the table.", "quantifier": "all queues, any number >=1 of column sets", "why_tests_cant": "All sizes.", "anchors": ["halo2-base/src/virtual_region/lookups.rs: LookupAnyManager::assign_raw, add_lookup, num_advice_chunks", "halo2-base/src/gates/circuit/builder.rs: assign_lookups_in_phase"]}
{"id": "C35", "title": "Safe types guarantee their ranges", "statement": "assert_bool/assert_byte/load_bool/load_byte and raw_to_{fix,var}_len_bytes(_vec) yield cells in range (bit, byte) and len <= MAX_LEN in every satisfying assignment.", "quantifier": "all inputs, all lengths, all assignments", "why_tests_cant": "An adversarial prover may choose any values for the advice cells; tests only run the honest prover and a few hand-pranked cells.", "anchors": ["halo2-base/src/safe_types/mod.rs: assert_bool, assert_byte, raw_to_var_len_bytes, raw_to_fix_len_bytes"]}
{"id": "C36", "title": "raw_bytes_to: what it does and does not guarantee", "statement": "raw_bytes_to accepts exactly max(TOTAL_BITS,8)/8 inputs, forces input i below 2^min(TOTAL_BITS-8i,8), and returns the inputs themselves when elements are bools or bytes; the honest run packs each chunk to its little-endian value. For multi-byte elements the byte weights are unconstrained witnesses, so a prover can give the packed element any value v while keeping all the bytes (proved as a finding).", "quantifier": "all byte inputs, element sizes, all satisfying assignments; the finding: all honest inputs with nonzero first byte and all v", "why_tests_cant": "An adversarial prover may choose any values for the advice cells; tests only run the honest prover and a few hand-pranked cells.", "anchors": ["halo2-base/src/safe_types/mod.rs: raw_bytes_to, add_bytes_constraints"]}
{"id": "C37", "title": "left_pad_to_fixed shifts exactly", "statement": "left_pad_var_array_to_fixed returns [0; out_len-len] ++ arr[..len] for every len <= arr.len().", "quantifier": "all arrays, all len, all out_len, all satisfying assignments", "why_tests_cant": "An adversarial prover may choose any values for the advice cells; tests only run the honest prover and a few hand-pranked cells.", "anchors": ["halo2-base/src/safe_types/bytes.rs: left_pad_var_array_to_fixed"]}
{"id": "C38", "title": "ensure_0_padding zeroes exactly the tail", "statement": "ensure_0_padding keeps bytes[i] for i<len and gives 0 for i>=len.", "quantifier": "all arrays, all len <= MAX_LEN (including 0)", "why_tests_cant": "An adversarial prover may choose any values for the advice cells; tests only run the honest prover and a few hand-pranked cells.", "anchors": ["halo2-base/src/safe_types/bytes.rs: ensure_0_padding"]}
{"id": "C39", "title": "Poseidon circuit computes the Poseidon permutation", "statement": "In every satisfying assignment the state after the circuit permutation is the native optimized Poseidon permutation of the state before.", "quantifier": "all states, all specs (round constants, MDS), all widths", "why_tests_cant": "An adversarial prover may choose any values for the advice cells; tests only run the honest prover and a few hand-pranked cells.", "anchors": ["halo2-base/src/poseidon/hasher/state.rs", "halo2-base/src/poseidon/hasher/mod.rs"]}
{"id": "C40", "title": "Optimised Poseidon equals textbook Poseidon", "statement": "The optimised permutation (pre-sparse/sparse MDS, transformed constants) equals the plain one for the spec generated by OptimizedPoseidonSpec.", "quantifier": "all states, all invertible MDS, all constants", "why_tests_cant": "Whole field, all parameters.", "anchors": ["halo2-base/src/poseidon/hasher/spec.rs", "halo2-base/src/poseidon/hasher/mds.rs"]}
{"id": "C41", "title": "Poseidon hash of a variable-length array ignores the padding", "statement": "hash_var_len_array depends only on the first len inputs and equals the fixed-length sponge hash of them.", "quantifier": "all arrays, all len <= max_len", "why_tests_cant": "An adversarial prover may choose any values for the advice cells; tests only run the honest prover and a few hand-pranked cells.", "anchors": ["halo2-base/src/poseidon/hasher/mod.rs: hash_var_len_array, hash_fix_len_array"]}
{"id": "C42", "title": "Overflow big-integer linear algebra tracks the represented integer", "statement": "add_no_carry, sub_no_carry, mul_no_carry, scalar_mul_no_carry, scalar_mul_and_add_no_carry, negative, select return limb vectors whose represented integer (and native residue) is the advertised integer expression, with the advertised limb-size bound.", "quantifier": "all limb values, counts and sizes, all satisfying assignments", "why_tests_cant": "An adversarial prover may choose any values for the advice cells; tests only run the honest prover and a few hand-pranked cells.", "anchors": ["halo2-ecc/src/bigint/add_no_carry.rs", "halo2-ecc/src/bigint/sub_no_carry.rs", "halo2-ecc/src/bigint/mul_no_carry.rs", "halo2-ecc/src/bigint/scalar_mul_no_carry.rs", "halo2-ecc/src/bigint/select.rs"]}
{"id": "C43", "title": "check_carry_to_zero proves the integer is zero", "statement": "If the constraints hold then the overflow integer represented by the limbs is 0 modulo 2^(n*k) (exactly as used by the CRT argument).", "quantifier": "all limb vectors within the overflow bound, adversarial carries", "why_tests_cant": "An adversarial prover may choose any values for the advice cells; tests only run the honest prover and a few hand-pranked cells.", "anchors": ["halo2-ecc/src/bigint/check_carry_to_zero.rs"]}
{"id": "C44", "title": "carry_mod returns a proper representative of the same residue", "statement": "carry_mod(a, modulus) returns limbs in [0,2^n) with value congruent to a modulo the wrong-field modulus, via the CRT argument (mod 2^t and mod native p).", "quantifier": "all overflow integers within the documented size bound, all satisfying assignments", "why_tests_cant": "An adversarial prover may choose any values for the advice cells; tests only run the honest prover and a few hand-pranked cells.", "anchors": ["halo2-ecc/src/bigint/carry_mod.rs"]}
{"id": "C45", "title": "check_carry_mod_to_zero proves divisibility", "statement": "If constraints hold then the modulus divides the represented integer.", "quantifier": "same", "why_tests_cant": "An adversarial prover may choose any values for the advice cells; tests only run the honest prover and a few hand-pranked cells.", "anchors": ["halo2-ecc/src/bigint/check_carry_mod_to_zero.rs"]}
{"id": "C46", "title": "Big-integer predicates decide", "statement": "big_is_zero, big_is_equal, big_less_than, big_is_even, sub (with borrow) decide/compute the integer predicate for properly ranged limbs.", "quantifier": "all limb vectors, all limb counts", "why_tests_cant": "An adversarial prover may choose any values for the advice cells; tests only run the honest prover and a few hand-pranked cells.", "anchors": ["halo2-ecc/src/bigint/big_is_zero.rs", "halo2-ecc/src/bigint/big_is_equal.rs", "halo2-ecc/src/bigint/big_less_than.rs", "halo2-ecc/src/bigint/sub.rs", "halo2-ecc/src/bigint/big_is_even.rs"]}
{"id": "C47", "title": "FpChip operations are field operations modulo the wrong-field prime", "statement": "load_private, carry_mod, mul, divide, divide_unsafe, range/canonical checks (enforce_less_than, is_soft_nonzero, is_zero, is_equal) of FpChip mean the advertised operation in Z/mZ.", "quantifier": "all field elements and representatives, all satisfying assignments", "why_tests_cant": "An adversarial prover may choose any values for the advice cells; tests only run the honest prover and a few hand-pranked cells.", "anchors": ["halo2-ecc/src/fields/fp.rs"]}
{"id": "C48", "title": "Extension field chips compute in the extension field", "statement": "Fp2Chip and Fp12Chip mul, divide, divide_unsafe, is_zero, is_equal, assert_equal, negate, select, conjugate, neg_conjugate, mul_no_carry_w6, fp_mul_no_carry and fp2_mul_no_carry return the corresponding element of F[u]/(u^2+1) and of F2[w]/(w^6-XI_0-u) for every satisfying assignment; divide is unsatisfiable when the divisor is zero; a vector represents only one element. NativeFieldChip computes in the circuit's own field (finding: its is_soft_nonzero returns -1 for zero and 0 otherwise). The curve chip over Fp2 (BN254 G2) and over the native field is the group law.", "quantifier": "all elements, all base-field chips satisfying the field laws, concretely BN254 with 3 limbs of 88 bits, all assignments", "why_tests_cant": "An adversarial prover may choose any values for the advice cells; tests only run the honest prover and a few hand-pranked cells.", "anchors": ["halo2-ecc/src/fields/fp2.rs", "halo2-ecc/src/fields/fp12.rs", "halo2-ecc/src/fields/vector.rs", "halo2-ecc/src/fields/native_fp.rs"]}
{"id": "C49", "title": "Elliptic-curve chip operations are the group law", "statement": "For every satisfying assignment, ec_add_unequal / ec_sub_unequal (strict, or finite points with different x), ec_double, ec_double_and_add_unequal, ec_sub_strict, negate, select, select_from_bits, sum return the group-law result on y^2=x^3+b; load_private / assign_point force a curve point (assign_point: or infinity as (0,0)); is_on_curve_or_infinity, is_equal, assert_equal decide; in strict mode equal or opposite inputs are unsatisfiable.", "quantifier": "all curve points, all field chips satisfying the field laws, all assignments", "why_tests_cant": "An adversarial prover may choose any values for the advice cells; tests only run the honest prover and a few hand-pranked cells.", "anchors": ["halo2-ecc/src/ecc/mod.rs: ec_add_unequal, ec_sub_unequal, ec_double, ec_double_and_add_unequal, ec_sub_strict, ec_select, EccChip"]}
{"id": "C50", "title": "Scalar multiplication computes [k]P", "statement": "scalar_multiply and fixed_base::scalar_multiply force the scalar's cells below 2^max_bits and return [k]P (infinity as (0,0)) for every scalar, every window size and every choice of the prover's random points.", "quantifier": "all finite points or infinity (no 2-torsion), all scalars including 0, all window sizes, all assignments", "why_tests_cant": "An adversarial prover may choose any values for the advice cells; tests only run the honest prover and a few hand-pranked cells.", "anchors": ["halo2-ecc/src/ecc/mod.rs: scalar_multiply", "halo2-ecc/src/ecc/fixed_base.rs"]}
{"id": "C51", "title": "Multi-scalar multiplication computes the sum", "statement": "multi_scalar_multiply, variable_base_msm (both algorithms), pippenger::multi_exp_par and fixed_base::msm_par return sum [k_i]P_i for any number of threads.", "quantifier": "all lists of points and scalars, all window sizes, all assignments", "why_tests_cant": "An adversarial prover may choose any values for the advice cells; tests only run the honest prover and a few hand-pranked cells.", "anchors": ["halo2-ecc/src/ecc/pippenger.rs", "halo2-ecc/src/ecc/mod.rs: multi_scalar_multiply", "halo2-ecc/src/ecc/fixed_base.rs: msm_par"]}
{"id": "C52", "title": "Signature verification gadgets decide validity", "statement": "ecdsa_verify_no_pubkey_check: if the result cell is nonzero it is 1 and 0<r,s<n and x([z/s]G+[r/s]Q) = r mod n; for a valid signature the result can only be 0 when z/s or r/s mod n is below 2^bits(n)-n. schnorr_verify_no_pubkey_check: the result is 1 iff r<p, 0<s<n, 0<e<n and sG-eP is finite with even y and x=r, else 0.", "quantifier": "all messages, signatures, keys of order n (ECDSA: hash not divisible by n), all assignments", "why_tests_cant": "An adversarial prover may choose any values for the advice cells; tests only run the honest prover and a few hand-pranked cells.", "anchors": ["halo2-ecc/src/ecc/ecdsa.rs", "halo2-ecc/src/ecc/schnorr_signature.rs"]}
{"id": "C53", "title": "Keccak component lookup keys", "statement": "For every message the three encoders (native encode_native_input, circuit encode_fix_len_bytes_vec, circuit encode_var_len_bytes_vec, the last whatever is in the cells after the length) give the same key: the Poseidon hash of the documented packing (byte length and 17 words per keccak_f, capacity/64 words per element). Messages below 2^64 bytes have different packings, so two messages with the same key are a Poseidon collision. Honest witness generation satisfies the constraints.", "quantifier": "all byte strings of every length, all maximum lengths, all satisfying assignments, all Poseidon parameters", "why_tests_cant": "An adversarial prover may choose any values for the advice cells; tests only run the honest prover and a few hand-pranked cells.", "anchors": ["hashes/zkevm/src/keccak/component/encode.rs"]}
{"id": "C54", "title": "Keccak component shard: the published table is a table of hashes", "statement": "In every satisfying assignment of the shard circuit the output table has one row per keccak_f and is the concatenation of the rows of a list of messages (rows of the empty message for all but the last keccak_f of a message, then key, hash_lo, hash_hi), then rows of the empty message, provided the is_final flags are 0 in the rounds without input; then a row with the key of m holds Keccak-256(m) or exhibits a Poseidon collision. (Finding: this is not enforced and false rows can be made.) The published instances are the table or its commitment; the native outputs are the same rows padded to the capacity, an error exactly above it; the rows of the Keccak circuit fit; ingestion splits requests into the same keccak_f chunks.", "quantifier": "all satisfying assignments, all numbers of keccak_f, all message lists and capacities", "why_tests_cant": "An adversarial prover may choose any values for the advice cells; tests only run the honest prover and a few hand-pranked cells.", "anchors": ["hashes/zkevm/src/keccak/component/circuit/shard.rs", "hashes/zkevm/src/keccak/component/output.rs", "hashes/zkevm/src/keccak/component/ingestion.rs"]}
{"id": "C55", "title": "The SHA-256 circuit hashes", "statement": "In every assignment satisfying the SHA-256 circuit (any number of blocks), every final block ends a run of blocks whose word cells are the bytes of a message, whose length cell is its length and whose output cells are the two 128-bit halves of FIPS 180-4 SHA-256 of it; non-final flags are bits and unused cells are zero. Conversely the generated witness satisfies the circuit for every list of messages below 2^32 bits, fills the capacity exactly with empty messages, and panics exactly when the messages need more blocks than the capacity.", "quantifier": "all satisfying assignments, all numbers of blocks; all lists of messages below 2^32 bits, all capacities", "why_tests_cant": "An adversarial prover may choose any values for the advice cells; tests only run the honest prover and a few hand-pranked cells.", "anchors": ["hashes/zkevm/src/sha256/vanilla/constraints.rs", "hashes/zkevm/src/sha256/vanilla/witness.rs", "hashes/zkevm/src/sha256/vanilla/columns.rs", "hashes/zkevm/src/sha256/vanilla/util.rs"]}
{"id": "C56", "title": "The circuit does not depend on witness values", "statement": "Two runs of any GateChip/RangeChip routine from keygen states of the same shape, on inputs that are the same cells/constants but carry arbitrary different witness values, record the same number of cells, the same selectors, copy constraints, constants and lookups and return the same cells; hence an assignment satisfies one iff it satisfies the other (keygen with dummy witnesses fits the proof).", "quantifier": "all routines, all pairs of witness values, all start states", "why_tests_cant": "Quantifies over pairs of executions.", "anchors": ["halo2-base/src/lib.rs: Context", "halo2-base/src/gates/flex_gate/mod.rs", "halo2-base/src/gates/range/mod.rs"]}
{"id": "C57", "title": "Circuit synthesis does not run out of space", "statement": "With distinct thread tags and gates overlapping at most in their last cell, synthesis never panics once there is one advice column per (max_rows-3) cells, the distinct constants fit in the fixed columns and the lookups fit in the lookup columns; the copy manager succeeds exactly when the constants fit and the cells are assigned; the automatic number of lookup columns suffices (the automatic advice and fixed estimates can be too small).", "quantifier": "all thread lists, all constraint lists, all configurations", "why_tests_cant": "Every circuit size.", "anchors": ["halo2-base/src/gates/flex_gate/threads/single_phase.rs: assign_with_constraints", "halo2-base/src/virtual_region/copy_constraints.rs: assign_raw", "halo2-base/src/gates/flex_gate/threads/multi_phase.rs: calculate_params", "halo2-base/src/gates/circuit/builder.rs: calculate_params"]}
{"id": "C58", "title": "Compact-input hashing groups rows correctly", "statement": "hash_compact_input and hash_compact_chunk_inputs return, for every row, the sponge hash of everything absorbed since the last final row (chunk rows: zero unless final), for well-formed rows; the validator that should enforce well-formedness does the opposite.", "quantifier": "all row lists, all group shapes, all satisfying assignments", "why_tests_cant": "An adversarial prover may choose any values for the advice cells; tests only run the honest prover and a few hand-pranked cells.", "anchors": ["halo2-base/src/poseidon/hasher/mod.rs: hash_compact_input, hash_compact_chunk_inputs, add_validation_constraints"]}
{"id": "C59", "title": "An honest prover can satisfy the big-integer constraints", "statement": "On inputs that carry honest witnesses within the documented sizes, the no-carry operations, carry_mod, check_carry_mod_to_zero, big_is_zero, big_is_equal, big_less_than and sub run without panicking, and the constraints they emit are satisfied by the assignment they compute, which represents the advertised integer.", "quantifier": "all honest inputs within the size bounds", "why_tests_cant": "An adversarial prover may choose any values for the advice cells; tests only run the honest prover and a few hand-pranked cells.", "anchors": ["halo2-ecc/src/bigint/carry_mod.rs", "halo2-ecc/src/bigint/check_carry_mod_to_zero.rs", "halo2-ecc/src/bigint/check_carry_to_zero.rs"]}
{"id": "C60", "title": "get_naf returns signed binary digits of the exponent", "statement": "get_naf(exp) returns 64 digits per limb in {-1,0,1} whose base-2 value is the little-endian u64 limb integer; it returns whenever the top limb is < 2^63; for one limb no two neighbouring digits are nonzero.", "quantifier": "all limb vectors of every length", "why_tests_cant": "Carries run through unboundedly many limbs; only a few exponents are used in tests.", "anchors": ["halo2-ecc/src/ecc/mod.rs: get_naf"]}
{"id": "C61", "title": "The Keccak circuit hashes", "statement": "For circuit parameters (k, rows_per_round) that create all lookups (a decidable condition, checked for several parameters): in every assignment satisfying the gates and lookups of the vanilla Keccak circuit, for any number of keccak_f's, every final keccak_f ends a run of keccak_f's whose word cells are the bytes of a message (zero padded) and whose hash cells are the two 128-bit halves of Keccak-256 of it; the number of keccak_f's is ceil((len+1)/136); the bytes_left cell is the length when no is_final flag is set inside the run. Without that condition it need not be the length; for the other parameters (among them the ones of the repository's tests) any hash value can be proved.", "quantifier": "all satisfying assignments (malicious provers), all numbers of keccak_f's, all message lengths and multi-block messages, all parameters meeting the condition", "why_tests_cant": "An adversarial prover may choose any values for the advice cells; tests only run the honest prover and a few hand-pranked cells.", "anchors": ["hashes/zkevm/src/keccak/vanilla/mod.rs: KeccakCircuitConfig", "hashes/zkevm/src/keccak/vanilla/keccak_packed_multi.rs", "hashes/zkevm/src/keccak/vanilla/cell_manager.rs", "hashes/zkevm/src/keccak/vanilla/table.rs", "hashes/zkevm/src/keccak/component/circuit/shard.rs: transmute_keccak_assigned_to_virtual"]}
{"id": "C62", "title": "The Keccak witness satisfies the Keccak circuit and computes Keccak-256", "statement": "multi_keccak panics exactly when the messages need more keccak_f's than the capacity; otherwise its rows fill the circuit, satisfy every gate and lookup in every row over every field, set the fixed columns to values independent of the messages, and the cells handed to the component are, for every message in order and then empty messages, the words, remaining lengths, flags and halves of Keccak-256. So the component circuit on the honest rows is satisfiable and its table is the native one. (The findings of C61 and C54 become concrete false statements from scratch.)", "quantifier": "all lists of messages, all capacities, all circuit parameters meeting a decidable condition", "why_tests_cant": "All messages of every length and all block counts.", "anchors": ["hashes/zkevm/src/keccak/vanilla/witness.rs: multi_keccak", "hashes/zkevm/src/keccak/vanilla/keccak_packed_multi.rs: keccak, KeccakRow", "hashes/zkevm/src/keccak/component/circuit/shard.rs"]}
{"id": "C63", "title": "The final exponentiation of BN254 is the power (q^12-1)/r", "statement": "For every satisfying assignment: frobenius_map(a,n) is the q^n-th power; pow is exponentiation (exponent 0 returns a); cyclotomic_pow is exponentiation in the cyclotomic subgroup as long as no intermediate power is 1; easy_part is the power (q^6-1)(q^2+1) of nonzero inputs; final_exp returns X^((q^12-1)/r) whenever that is not 1 (or no intermediate value is 1), so its output can represent 1 only if X^((q^12-1)/r)=1, and the output always is range-checked.", "quantifier": "all nonzero elements of Fq12, all satisfying assignments (adversarial prover)", "why_tests_cant": "An adversarial prover may choose any values for the advice cells; tests only run the honest prover and a few hand-pranked cells.", "anchors": ["halo2-ecc/src/bn254/final_exp.rs: frobenius_map, pow, cyclotomic_compress, cyclotomic_decompress, cyclotomic_square, cyclotomic_pow, hard_part_BN, easy_part, final_exp"]}
{"id": "C64", "title": "The pairing chip computes the optimal Ate pairing", "statement": "For Q in the order-r subgroup of G2 and P a finite point of G1: miller_loop and multi_miller_loop return (products of) the Miller values of the optimal Ate pairing given by chords, tangents and the two Frobenius lines; pairing returns e(Q,P) whenever it is not 1, and can represent 1 only if it is 1; pairing_check is satisfiable only if e(Q,P) = e(T,S).", "quantifier": "all points Q, T in the order-r eigenspace, all finite points P, S, all satisfying assignments", "why_tests_cant": "An adversarial prover may choose any values for the advice cells; tests only run the honest prover and a few hand-pranked cells.", "anchors": ["halo2-ecc/src/bn254/pairing.rs: line_func_unequal, line_func_equal, sparse_line_function_unequal, fp12_multiply_with_line_equal, miller_loop_BN, multi_miller_loop_BN, twisted_frobenius, neg_twisted_frobenius, pairing, pairing_check"]}
{"id": "C65", "title": "BLS signature verification decides the pairing equation", "statement": "bls_signature_verify returns a bit; it is 1 only if e(sum of signatures, g1) = e(H(m), sum of public keys), 0 if they differ, and 1 for valid signatures (up to values of small order in the final exponentiation), for the points loaded in the circuit, which are finite points of the curves; it panics for empty or unequal lists. The subgroup membership of H(m) and of the signatures is a hypothesis: the circuit does not check it, nor does it return the loaded points.", "quantifier": "all lists of points of any length, all satisfying assignments", "why_tests_cant": "An adversarial prover may choose any values for the advice cells; tests only run the honest prover and a few hand-pranked cells.", "anchors": ["halo2-ecc/src/bn254/bls_signature.rs: bls_signature_verify"]}
{"id": "C66", "title": "An honest prover can satisfy the wrong-field arithmetic", "statement": "From every honest state, with inputs honestly holding field elements within the documented overflow sizes, FpChip loading, the no-carry operations, carry_mod, check_carry_mod_to_zero, mul, divide (nonzero divisor), neg_divide_unsafe, negate, enforce_less_than (value below the modulus), is_soft_zero, is_soft_nonzero, is_zero, is_equal, assert_equal (equal elements), select, range_check and is_less_than_p run without panicking, emit only constraints satisfied by the assignment they compute, and the results are the canonical values.", "quantifier": "all honest inputs within the size bounds, all start states", "why_tests_cant": "Ranges over the whole wrong field and over all overflow representations.", "anchors": ["halo2-ecc/src/fields/fp.rs", "halo2-ecc/src/fields/mod.rs"]}
{"id": "C67", "title": "An honest prover can satisfy the elliptic-curve operations", "statement": "For honest curve points, add_unequal/sub_unequal (not equal or opposite), double (not of order two), double_and_add_unequal, sub_strict (not opposite unless equal), negate, select, load_private, assign_point, is_on_curve_or_infinity, is_equal, assert_equal and sum (no collision with the random point) run without panicking and their constraints hold for the computed assignment, with the group-law result.", "quantifier": "all honest points, all start states", "why_tests_cant": "Ranges over all points of the curve.", "anchors": ["halo2-ecc/src/ecc/mod.rs"]}
{"id": "C68", "title": "Scalar multiplication succeeds for all but a few random points", "statement": "For all points (infinity included), all scalars, all window sizes and every random pair, multi_scalar_multiply, scalar_multiply and fixed_base::scalar_multiply on a curve of prime order do not panic, and the assignment computed satisfies all constraints with the right result, for every random base point except at most an explicit number (232 of about 2^256 for secp256k1 with 4-bit windows).", "quantifier": "all points, scalars, window sizes, all but finitely many explicit random points", "why_tests_cant": "Failure points depend on secret random values; there are 2^256.", "anchors": ["halo2-ecc/src/ecc/mod.rs: multi_scalar_multiply, scalar_multiply", "halo2-ecc/src/ecc/fixed_base.rs"]}
{"id": "C69", "title": "The supported curves have the prime order used as scalar modulus", "statement": "secp256k1 has exactly n points with n the scalar modulus, BN254 G1 exactly r points, both prime; hence every point, e.g. every public key, has that order and the order hypotheses of the other theorems hold for all curve points.", "quantifier": "all points of the curves", "why_tests_cant": "The group has 2^256 elements.", "anchors": ["halo2-base/src/utils/mod.rs (secp256k1, bn256 re-exports)", "halo2-ecc/src/ecc/mod.rs"]}
{"id": "C70", "title": "Signature verification succeeds on honest input for all but a few random points", "statement": "For every public key, r, s and hash with 0<s<n, n not dividing r and z, and [z/s]G+[r/s]Q finite with x<n, and all random points except explicit numbers of each (135, 232, 5 for secp256k1), ecdsa_verify_no_pubkey_check does not panic, its constraints are satisfied by the computed assignment and the result cell is the validity of the signature; similarly schnorr_verify_no_pubkey_check.", "quantifier": "all keys, signatures and messages, all but few random points", "why_tests_cant": "Whole key and signature space, random internal points.", "anchors": ["halo2-ecc/src/ecc/ecdsa.rs", "halo2-ecc/src/ecc/schnorr_signature.rs"]}
{"id": "C71", "title": "A dynamic lookup admits exactly the keys that are rows of the assigned table", "statement": "For every sequence of calls of assign_virtual_table_to_raw_from_offset and assign_virtual_to_lookup_to_raw_from_offset of a BasicDynLookupConfig, any order, offsets, number of column sets and key width: in every assignment satisfying the circuit each key handed over equals a row handed over as table (never the disabled row nor a blinding row); conversely when each key is a row, the honest physical assignment satisfies the circuit, unused lookup rows included. Calls succeed when table plus its disabled row and the keys fit, and a table that does not fit panics.", "quantifier": "all call sequences, offsets, widths, column counts, all assignments of the circuit", "why_tests_cant": "The adversary chooses every advice cell, including the table columns on unassigned rows; tests only prove the honest assignment of one table.", "anchors": ["/repo/halo2-base/src/virtual_region/lookups/basic.rs: BasicDynLookupConfig::{new, assign_virtual_to_lookup_to_raw_from_offset, assign_virtual_table_to_raw_from_offset, assign_virtual_to_lookup_to_raw}", "/repo/halo2-base/src/virtual_region/copy_constraints.rs: CopyConstraintManager"]}
{"id": "C72", "title": "Field, curve, signature, multi-scalar and pairing circuits do not depend on the witness, and prover mode computes the same witness", "statement": "For the native field chip, FpChip, Fp2Chip, Fp12Chip, the curve chip over any of them (addition, subtraction, doubling, selection, loading, sums, scalar multiplication, fixed base multiplication), the parallel multi-scalar multiplications (fixed_base_msm, variable_base_msm with both strategies), ECDSA and Schnorr verification, the final exponentiation, Miller loops, pairing and BLS verification: two successful keygen runs whose inputs sit in the same cells record exactly the same gates, copy constraints, constants and lookups in every context, whatever the values and whatever random points the prover draws; and whenever the keygen run succeeds, the prover-mode (witness generation only) run succeeds, produces the same witness cells and values, and records no constraint.", "quantifier": "all witness values, random points, window sizes, list lengths, limb parameters, both modes", "why_tests_cant": "A verifying key is produced once from dummy inputs and then used with every proof; tests compare a few inputs, whereas one value-dependent branch would make some proofs fail or a constraint vanish.", "anchors": ["/repo/halo2-ecc/src/bigint/*.rs", "/repo/halo2-ecc/src/fields/fp.rs: FpChip", "/repo/halo2-ecc/src/fields/fp2.rs: Fp2Chip", "/repo/halo2-ecc/src/fields/fp12.rs: Fp12Chip", "/repo/halo2-ecc/src/ecc/mod.rs: EccChip", "/repo/halo2-ecc/src/ecc/fixed_base.rs", "/repo/halo2-ecc/src/ecc/pippenger.rs", "/repo/halo2-ecc/src/ecc/ecdsa.rs", "/repo/halo2-ecc/src/ecc/schnorr_signature.rs", "/repo/halo2-ecc/src/bn254/*.rs", "/repo/halo2-base/src/lib.rs: Context"]}
{"id": "C73", "title": "Multi-threaded multi-scalar multiplication succeeds for all but a few random points", "statement": "For all lists of points (infinity included for variable base), all scalars of equal length, all window/clump sizes, and every starting pool of contexts: pippenger multi_exp_par, variable_base_msm (both strategies, any number of points) and fixed_base msm_par do not panic, the values computed by all threads together satisfy all constraints of all threads, and the result represents the sum of the scalar multiples, for every random base point except at most an explicit number (for fixed base: pairs of random points, at most n times an explicit number of the n^2 pairs).", "quantifier": "all lists of points and scalars, all pools, all but explicitly many random points", "why_tests_cant": "Failure points depend on random values and on all inputs; the algorithm runs on several threads whose values must be consistent.", "anchors": ["halo2-ecc/src/ecc/pippenger.rs: multi_exp_par, decompose", "halo2-ecc/src/ecc/fixed_base.rs: msm_par", "halo2-ecc/src/ecc/mod.rs: variable_base_msm_custom", "halo2-base/src/gates/flex_gate/threads/parallelize.rs: parallelize_core"]}
{"id": "C74", "title": "Extension field chips never reject an honest prover", "statement": "For the quadratic and the degree-12 extension field chips of BN254 (three limbs of 88 bits): for all elements, loading, multiplying, negating, conjugating, selecting, the zero/equality predicates, enforce_less_than, equality assertions of equal elements and division by any non-zero element (divide_unsafe also 0/0) do not panic, give an assignment satisfying every constraint, and a result holding the canonical representative of the right element; adding, subtracting, doubling and loading points of the twist complete for all points which are not in the documented exceptional positions.", "quantifier": "all elements of both extension fields, all points of the twist, all states of the context", "why_tests_cant": "The witnesses are computed by an independent big-integer path for each coordinate; that no size bound or carry check rejects them must hold for all values.", "anchors": ["halo2-ecc/src/fields/fp2.rs: Fp2Chip", "halo2-ecc/src/fields/fp12.rs: Fp12Chip", "halo2-ecc/src/fields/vector.rs: FieldVectorChip", "halo2-ecc/src/ecc/mod.rs: EccChip"]}
{"id": "C75", "title": "An honest prover can satisfy the pairing, pairing check and BLS circuits", "statement": "For BN254 with three limbs of 88 bits: frobenius_map and easy_part complete (no panic, every constraint satisfied by the computed assignment, right result) for all (nonzero) elements; pow for all nonzero elements and exponents with top word below 2^63; miller_loop and multi_miller_loop for all points of the order-r eigenspace and all finite points of the curve; cyclotomic_pow, final_exp, pairing, pairing_check (of equal pairings) and bls_signature_verify (with the right bit) complete whenever the powers which cyclotomic_decompress is applied to (69 explicit powers of the easy part) avoid an explicit exceptional set, on which the circuit is unsatisfiable for everybody. pairing_check of a pair against itself always completes.", "quantifier": "all elements, points and exponents, all lists of pairs, all honest start states", "why_tests_cant": "The witness is computed by a long chain of wrong-field operations; that no size bound, division or exceptional case rejects an honest value must hold for all values.", "anchors": ["halo2-ecc/src/bn254/final_exp.rs", "halo2-ecc/src/bn254/pairing.rs", "halo2-ecc/src/bn254/bls_signature.rs"]}
{"id": "C76", "title": "Circuits built with the library can always be laid out soundly", "statement": "Every routine of the gate and range chips, the safe types, Poseidon, the field and curve chips, signatures, pairing, BLS and the parallel multi-scalar multiplications, and every program composed of them (in sequence, or as parallel tasks with a context each), leaves each thread with a selector per cell, every enabled gate inside its thread and no two gates sharing more than an end cell. Hence for the circuit of any such program no column break can separate a gate from its cells: every assignment satisfying the physical circuit satisfies all that each thread recorded, and the layout succeeds with the computed number of columns. select_by_indicator needs as many values as indicator bits; with one bit too few it succeeds and leaves a gate dangling over the next cells.", "quantifier": "all programs over the library routines, all inputs, all start states, all schedules of merging, all column sizes", "why_tests_cant": "A gate placed one cell off passes unit tests unless a column break falls on it.", "anchors": ["halo2-base/src/lib.rs (Context::assign_region, assign_region_smart)", "halo2-base/src/gates/flex_gate/threads/single_phase.rs (assign_with_constraints)", "halo2-base/src/gates/flex_gate/mod.rs", "halo2-base/src/gates/range/mod.rs", "halo2-ecc/src/"]}
{"id": "C77", "title": "From key generation to an accepted proof", "statement": "Take a circuit program made of library routines (on the main context and on parallel threads) and synthesize it at key generation with any dummy input. Completeness: for every input on which the computation succeeds with public outputs out, the prover's witness-only run does not panic; its synthesis, with the break points recorded at key generation and whatever order its threads queued their lookups in, succeeds, writes exactly the cells written at key generation, and the resulting assignment (written values, zero elsewhere, fixed columns of the key, public inputs out) satisfies the circuit of the key. Soundness: the public inputs of every assignment satisfying the circuit of the key obey the relation implied by the program's constraints.", "quantifier": "all programs over the library routines, all dummy and real inputs, all thread schedules in key generation and in the prover, all configurations with at least 4 rows for which key generation succeeds, all assignments", "why_tests_cant": "Key generation and proving run different code (with/without constraints, with/without break points) on different inputs and thread schedules; that they agree cell by cell must hold for all of them.", "anchors": ["halo2-base/src/gates/circuit/mod.rs: synthesize", "halo2-base/src/gates/circuit/builder.rs: assign_lookups_in_phase, assign_instances", "halo2-base/src/gates/flex_gate/threads/single_phase.rs: assign_raw, assign_with_constraints, assign_witnesses", "halo2-base/src/virtual_region/lookups.rs: assign_raw", "halo2-base/src/virtual_region/copy_constraints.rs"]}
{"id": "C78", "title": "A circuit builder loses no constraint, whatever its history", "statement": "After any sequence of calls of BaseCircuitBuilder (new / from_stage / unknown, use_params, set_instance_columns, set_k, set_lookup_bits, main(phase), parallel tasks of any phase merged in any order, exposing public values, break points, clear, calculate_params, synthesize): all contexts have pairwise different tags and know their phase and index; the copy and constant constraints held by the shared managers are, up to order, exactly those recorded by the contexts; the lookups queued for each phase are exactly those of its contexts; so two builders with the same contexts give the same circuit, and every assignment satisfying a synthesized circuit satisfies everything recorded by phase 0 and the copies of all phases, with the public values in the instance columns. Findings: unknown mode is not passed on to later phases; gates of phases 1 and 2 are silently dropped by synthesize (break_points() then panics); setting fewer break points than phases or fewer instance columns panics.", "quantifier": "all histories of calls, all tasks, all merge orders, all configurations, all assignments", "why_tests_cant": "The state shared between contexts depends on the whole history of calls and on the scheduling of threads.", "anchors": ["halo2-base/src/gates/circuit/builder.rs: BaseCircuitBuilder", "halo2-base/src/gates/flex_gate/threads/multi_phase.rs: MultiPhaseCoreManager", "halo2-base/src/gates/flex_gate/threads/single_phase.rs: SinglePhaseCoreManager", "halo2-base/src/gates/flex_gate/threads/parallelize.rs: parallelize_core", "halo2-base/src/virtual_region/copy_constraints.rs: CopyConstraintManager", "halo2-base/src/virtual_region/lookups.rs: LookupAnyManager", "halo2-base/src/gates/circuit/mod.rs: CircuitBuilderStage, Circuit::synthesize"]}
{"id": "C79", "title": "Synthesizing again gives the same circuit", "statement": "If synthesize of a builder succeeds, a second synthesize of the same builder (halo2 runs it several times) succeeds, leaves the builder unchanged and gives the same gates, selectors, fixed cells, written values and instances, and copy constraints that differ only by copies of a cell to itself: the satisfying assignments are the same. It is literally the same circuit when no looked-up cell is external.", "quantifier": "all builder states, all configurations, all assignments", "why_tests_cant": "The first run changes the builder (assigned cells, break points, sorted constraints); that the second run is unaffected must hold for all states.", "anchors": ["halo2-base/src/gates/circuit/builder.rs: BaseCircuitBuilder", "halo2-base/src/gates/flex_gate/threads/multi_phase.rs: MultiPhaseCoreManager", "halo2-base/src/gates/flex_gate/threads/single_phase.rs: SinglePhaseCoreManager", "halo2-base/src/gates/flex_gate/threads/parallelize.rs: parallelize_core", "halo2-base/src/virtual_region/copy_constraints.rs: CopyConstraintManager", "halo2-base/src/virtual_region/lookups.rs: LookupAnyManager", "halo2-base/src/gates/circuit/mod.rs: CircuitBuilderStage, Circuit::synthesize"]}
{"id": "C80", "title": "clear makes a builder new, except for its break points", "statement": "After clear, any sequence of building calls gives the same contexts, constraints, lookups and public values as on a new builder with the same settings, and the same circuit provided the builder has no break points or those of the new circuit. Finding: clear keeps the old break points, so synthesizing a circuit with other break points panics where a new builder succeeds.", "quantifier": "all builder states reachable, all sequences of building calls", "why_tests_cant": "Depends on all state left behind by an arbitrary earlier history.", "anchors": ["halo2-base/src/gates/circuit/builder.rs: BaseCircuitBuilder", "halo2-base/src/gates/flex_gate/threads/multi_phase.rs: MultiPhaseCoreManager", "halo2-base/src/gates/flex_gate/threads/single_phase.rs: SinglePhaseCoreManager", "halo2-base/src/gates/flex_gate/threads/parallelize.rs: parallelize_core", "halo2-base/src/virtual_region/copy_constraints.rs: CopyConstraintManager", "halo2-base/src/virtual_region/lookups.rs: LookupAnyManager", "halo2-base/src/gates/circuit/mod.rs: CircuitBuilderStage, Circuit::synthesize"]}
{"id": "C81", "title": "Key generation and proving with BaseCircuitBuilder agree", "statement": "With the builder itself: a key generated on BaseCircuitBuilder::from_stage(Keygen or Mock), with any parameters or those of calculate_params and any schedule; then for every input on which the program's computation succeeds, BaseCircuitBuilder::prover with the key's parameters and break points can run the program and synthesize, and whenever it does, for whatever schedule, it writes exactly the cells of the key and its assignment satisfies the key's circuit with the computed public outputs; every satisfying assignment's public inputs obey what the program's constraints imply; and key generation with calculate_params succeeds whenever the honest computation does and the computed columns suffice.", "quantifier": "all programs over the Context API that respect the library's discipline, all inputs, schedules, parameters, key-generation inputs and satisfying assignments", "why_tests_cant": "The verifying key is fixed once and must work for every later input; quantifies over programs, inputs and thread schedules.", "anchors": ["halo2-base/src/gates/circuit/builder.rs: BaseCircuitBuilder", "halo2-base/src/gates/flex_gate/threads/multi_phase.rs: MultiPhaseCoreManager", "halo2-base/src/gates/flex_gate/threads/single_phase.rs: SinglePhaseCoreManager", "halo2-base/src/gates/flex_gate/threads/parallelize.rs: parallelize_core", "halo2-base/src/virtual_region/copy_constraints.rs: CopyConstraintManager", "halo2-base/src/virtual_region/lookups.rs: LookupAnyManager", "halo2-base/src/gates/circuit/mod.rs: CircuitBuilderStage, Circuit::synthesize"]}
{"id": "C82", "title": "What a history of builder calls leaves in the builder", "statement": "After every history of calls on a new builder: public column k holds exactly the values exposed in it since the last clear, in order; k and lookup_bits are those set last, no other call touches them; break points read back are those set, and setting them disturbs nothing else; calculate_params gives for each phase the least number of gate and lookup columns with room for all cells and lookups of the phase, and the least number of fixed columns for the distinct constants; a witness-generation-only builder never holds a copy constraint.", "quantifier": "all histories of calls (all interleavings of building, setters, clear, synthesize), all programs run in the contexts", "why_tests_cant": "A property of all call sequences, not of one.", "anchors": ["halo2-base/src/gates/circuit/builder.rs: BaseCircuitBuilder", "halo2-base/src/gates/flex_gate/threads/multi_phase.rs: MultiPhaseCoreManager", "halo2-base/src/gates/flex_gate/threads/single_phase.rs: SinglePhaseCoreManager", "halo2-base/src/gates/flex_gate/threads/parallelize.rs: parallelize_core", "halo2-base/src/virtual_region/copy_constraints.rs: CopyConstraintManager", "halo2-base/src/virtual_region/lookups.rs: LookupAnyManager", "halo2-base/src/gates/circuit/mod.rs: CircuitBuilderStage, Circuit::synthesize"]}
{"id": "C83", "title": "Cells of other chips are used as virtual cells without being lost or confused", "statement": "After any history of calls on the copy manager: the virtual cells handed out by load_external_assigned / load_external_cell are pairwise different and different from all cells of virtual regions, carry the value of the raw cell, and each is at the place of its raw cell when the circuit is synthesized: every assignment satisfying the physical circuit satisfies all virtual constraints with these cells read as the raw cells, and conversely an honest virtual assignment that agrees with the other chip extends to a satisfying one that leaves the other chip's cells alone. A mock cell that is constrained or exposed and not looked up makes synthesis panic. Findings: a mock that is only looked up is not detected; numbers restart after clear; the numbering depends on the schedule of the threads.", "quantifier": "all histories of loads, mocks, constraints, placements and assignments; all satisfying assignments", "why_tests_cant": "Ranges over all call histories and adversarial witnesses.", "anchors": ["halo2-base/src/virtual_region/copy_constraints.rs: load_external_assigned, load_external_cell, mock_external_assigned, clear, assign_raw", "halo2-base/src/utils/halo2.rs: constrain_virtual_equals_external"]}
{"id": "C84", "title": "The Keccak component shard circuit proves exactly the native outputs, end to end", "statement": "Take any key of KeccakComponentShardCircuit (any capacity, rows per round, layout, publishing mode and key-generation messages). Soundness: in every assignment satisfying the Keccak circuit and the base circuit and agreeing on the shared cells, the public instances are those of a table of capacity rows that consists of the rows (key, hash_lo, hash_hi) of a list of messages, one after the other, then rows of the empty message (the length in a key can be a smaller multiple of 136 only if is_final is abused in rounds without input, see C54). Completeness: for all messages within the capacity CircuitExt::instances is defined, the prover does not panic, writes exactly the cells of key generation, and the assignment of the proof satisfies the circuit of the key with the native instances. The simulation run of calculate_base_circuit_params has exactly the cells and constraints of every key generation.", "quantifier": "all parameters with a valid Keccak layout, all message lists, all satisfying assignments of the composed circuit", "why_tests_cant": "Composes two circuits over unbounded messages and adversarial witnesses; an honest MockProver run sees one message list.", "anchors": ["hashes/zkevm/src/keccak/component/circuit/shard.rs: synthesize, generate_base_circuit_witnesses, publish_outputs, instances, calculate_base_circuit_params, transmute_keccak_assigned_to_virtual, mock_load_keccak_assigned_rows", "hashes/zkevm/src/keccak/vanilla/mod.rs: assign, set_row"]}
{"id": "C85", "title": "The zkevm crate's expressions, words and Ethereum types mean what they say", "statement": "For every list of bytes, of any length, from_bytes::value is the little-endian number in the field and from_bytes::expr evaluates to the same; and/or/not/xor/select/sum expressions are the Boolean operations (and the count) on bits and agree with their value versions on all values; every conversion to Word (U256, H256, H160, u64, u8, bool) gives the low 128 bits and the rest, so that different numbers give different words; conversions between U256, bytes, hashes and addresses are inverse to each other; to_word of 32 byte limbs is the word of the number. Deviations, each proved: to_scalar panics on numbers not below the modulus; to_word of four limbs is wrong for limbs larger than bytes; WordLimbs::eq is 1 for some different words; mul_unchecked multiplies by halves.", "quantifier": "every byte list, 256-bit number, expression, assignment of the variables and field", "why_tests_cant": "256-bit values and lists of any length", "anchors": ["hashes/zkevm/src/util/expression.rs: from_bytes, and, or, not, xor, select, sum", "hashes/zkevm/src/util/word.rs: Word, WordLimbs", "hashes/zkevm/src/util/eth_types.rs: ToBigEndian, ToLittleEndian, ToScalar, ToAddress, ToWord"]}
{"id": "C86", "title": "The constraint builder requires exactly what was asked, within the degree limit", "statement": "For every sequence of require_zero/require_equal/require_equal_word/require_boolean calls, some inside condition blocks that are not nested, in debug and release: the polynomials returned by gate(selector) all vanish exactly when the selector is zero or every requirement holds (those in a block only where its condition is non-zero); none has a degree above the limit, and building panics exactly when one would. Nested conditions: panic in debug; in release the inner condition replaces the outer and what follows is unconditional (proved deviation).", "quantifier": "every sequence of calls, expressions, degree limit, selector and values of the variables", "why_tests_cant": "the calls, the expressions and the values are unbounded", "anchors": ["hashes/zkevm/src/util/constraint_builder.rs: BaseConstraintBuilder"]}
{"id": "C87", "title": "A circuit verifying a secp256k1 ECDSA signature accepts exactly valid signatures, end to end", "statement": "Take the circuit that loads a public key (checked to be on the curve), a signature (r, s) and a message hash z with three limbs of 88 bits over BN254, runs ecdsa_verify_no_pubkey_check with windows of 4 bits, asserts that the result is 1 and exposes the limbs. For every key made by key generation from any input: every assignment of the physical columns that satisfies the gates, copy constraints and lookups has as public inputs the limbs of a point Q of secp256k1 and of numbers r, s, z such that (r, s) is a valid ECDSA signature of z under Q (r and s in 1..N-1, z/s G + r/s Q finite with first coordinate congruent to r), unless z is a multiple of the group order. For every valid signature of a nonzero hash whose verification point has first coordinate below the group order, and all but at most 135, 232 and 5 values of the three random points, the prover does not panic and what it writes satisfies the circuit with exactly those public inputs. Key generation itself succeeds from every such honest input on every configuration with enough columns (the numbers of cells, constants and lookups depend only on the circuit).", "quantifier": "every key-generation input, circuit layout, public key, signature, hash, choice of random points and satisfying assignment", "why_tests_cant": "ranges over all signatures and adversarial assignments of a circuit with hundreds of thousands of cells; a MockProver run checks one honest witness", "anchors": ["halo2-ecc/src/ecc/ecdsa.rs: ecdsa_verify_no_pubkey_check", "halo2-ecc/src/ecc/mod.rs: EccChip::load_private", "halo2-ecc/src/secp256k1/tests/ecdsa.rs: ecdsa_test", "halo2-base/src/gates/circuit/builder.rs: synthesize"]}
{"id": "C88", "title": "A circuit verifying a secp256k1 Schnorr signature accepts exactly valid signatures, end to end", "statement": "Take the circuit that loads a public key (checked to be on the curve), a signature (r, s) and a challenge e with three limbs of 88 bits over BN254, runs schnorr_verify_no_pubkey_check with windows of 4 bits, asserts that the result is 1 and exposes the limbs. For every key made by key generation from any input: every assignment of the physical columns that satisfies the gates, copy constraints and lookups has as public inputs the limbs of a point Q of secp256k1 and of numbers r below the base field modulus and s, e in 1..N-1 such that s G - e Q is finite with first coordinate r and an even second coordinate. For every such signature with r below the group order and s G different from -e Q, and all but at most 135 and 232 values of the random points, the prover does not panic and what it writes satisfies the circuit with exactly those public inputs; key generation succeeds from every such honest input on every configuration with enough columns.", "quantifier": "every key-generation input, circuit layout, public key, signature, challenge, choice of random points and satisfying assignment", "why_tests_cant": "ranges over all signatures and adversarial assignments of a circuit with hundreds of thousands of cells; a MockProver run checks one honest witness", "anchors": ["halo2-ecc/src/ecc/schnorr_signature.rs: schnorr_verify_no_pubkey_check", "halo2-ecc/src/ecc/mod.rs: EccChip::load_private", "halo2-ecc/src/secp256k1/tests/schnorr_signature.rs: schnorr_signature_test", "halo2-base/src/gates/circuit/builder.rs: synthesize"]}
{"id": "C89", "title": "A circuit computing a BN254 pairing proves exactly the pairing, end to end", "statement": "Take the circuit that loads a point P of the curve and a point Q of the twist with three limbs of 88 bits, computes pairing(Q, P) and exposes the limbs of the points and of the twelve coefficients of the result. For every key made by key generation from any input: every assignment of the physical columns that satisfies the gates, copy constraints and lookups has as public inputs the limbs of a point C of BN254, of a point A of its twist and of an element of Fq12 that, if A has order r and e(A, C) is not 1, is the optimal Ate pairing e(A, C) (and if it is 1, so is e(A, C)); conversely for all honest C and A (with the decompression condition of C75) the prover's run does not panic and its physical assignment satisfies the circuit with the limbs of e(A, C); and key generation from any honest input succeeds with one number of cells, constants and lookups.", "quantifier": "all keys, configurations, assignments and honest inputs", "why_tests_cant": "All assignments of a circuit with millions of cells, all points.", "anchors": ["halo2-ecc/src/bn254/tests/pairing.rs: pairing_test", "halo2-ecc/src/bn254/pairing.rs", "halo2-base/src/gates/circuit/builder.rs"]}
{"id": "C90", "title": "divide_unsafe accepts exactly the quotients with q*b = a; where that leaves the result free", "statement": "For the chips of Fq, Fq2 and Fq12 over BN254: a circuit that computes divide_unsafe(a, b) can be satisfied with the result q exactly if q*b = a: with the one quotient if b is not zero, and with every field element if a and b are both zero (unlike divide, which asserts that b is not zero). Consequently easy_part of 0 can be satisfied with the result q^(q^2+1) for every q of Fq12, and cyclotomic_decompress of the compression of 1 with 1 + 2*xi*G^2 + G*w^3 for every G of Fq2 although the honest result is 1; a circuit of final_exp of an X (not zero) whose easy part is 1 can be satisfied with the honest result 1 and with another one, and a circuit of bls_signature_verify of a valid signature for which the product of the Miller values has easy part 1 (as with the secret key 1) with the bit 1 and with the bit 0.", "quantifier": "every dividend, divisor and quotient, every G and X, and every list of signatures and keys", "why_tests_cant": "ranges over assignments that no honest prover computes; MockProver only checks the honest witness", "anchors": ["halo2-ecc/src/fields/mod.rs: FieldChip::divide_unsafe", "halo2-ecc/src/bn254/final_exp.rs: easy_part", "halo2-ecc/src/bn254/final_exp.rs: cyclotomic_decompress"]}
{"id": "C91", "title": "Builders are independent unless they share managers", "statement": "deep_clone makes a builder that builds the same circuit as its original and afterwards depends only on the calls made on itself: in every program that creates builders with new and deep_clone and calls each with its own range chip, each builder is in the state to which its own calls lead alone (beginning with those made on its original before it was cloned), however the calls on the builders are interleaved. Sharing breaks this, and constraints get lost or misplaced: clone shares the copy and lookup managers (a constraint recorded by one makes synthesize of the other panic), set_copy_manager forgets the constraints recorded before, and a range chip of the original used with a context of its deep clone queues its lookups at the original, so the clone's circuit does not check the range.", "quantifier": "every history of calls on any number of builders, and every program given to them", "why_tests_cant": "ranges over all interleaved histories of several builders", "anchors": ["halo2-base/src/gates/circuit/builder.rs: BaseCircuitBuilder::deep_clone, set_copy_manager, range_chip", "halo2-base/src/gates/flex_gate/threads/multi_phase.rs: set_copy_manager", "halo2-base/src/virtual_region/lookups.rs: LookupAnyManager::deep_clone"]}
{"id": "C92", "title": "SHA-256 calls at an offset", "statement": "The SHA-256 circuit may be filled by several calls multi_sha256_shifted(region, bytes, capacity, start_offset). If the calls are laid out one after the other from offset 0 (each starting where the previous one ended) then the region is the circuit of all their blocks: honest rows satisfy it, each call's cells expose lengths and digests of its inputs, and in every satisfying assignment each final block among the cells of any call ends a run of blocks - in order of offset, possibly begun in the cells of an earlier call - that hashes a message with the exposed words, length and digest. A call at a later multiple of 72 with nothing assigned before it is sound if the is_final cell of the row before is 1; otherwise it is not: one block can expose is_final = 1, a length, 16 zero words, and the digest of any message of 56 to 64 bytes, while the honest rows are rejected unless that cell is 1. At an offset that is not a multiple of 72 the honest rows never satisfy the circuit.", "quantifier": "every sequence of calls, inputs, capacities and offsets; every satisfying assignment; every message of 56 to 64 bytes for the forgery", "why_tests_cant": "The crate's test makes one call at offset 0; an unconstrained initial chaining state accepts all honest witnesses one would put there, so no test that only checks honest witnesses can see it.", "anchors": ["hashes/zkevm/src/sha256/vanilla/witness.rs: Sha256CircuitConfig::multi_sha256_shifted, set_row", "hashes/zkevm/src/sha256/vanilla/constraints.rs: Sha256CircuitConfig::new"]}
{"id": "C93", "title": "Constants larger than the limbs", "statement": "FpChip::load_constant_uint(x) never fails, whatever the integer x: it returns the low limbs of x - the digits of x mod 2^(n k) - next to a native cell holding x. The result is the proper CRT integer of x exactly if x < 2^(n k), and a proper CRT integer of anything at all exactly if the part cut off vanishes modulo the native field; for x = 2^264 with three 88-bit limbs it is not one, and is_zero answers 1 for every multiple of 2^(n k) although such a number is not zero modulo the chip's modulus.", "quantifier": "every integer x, limb layout, modulus and satisfying assignment", "why_tests_cant": "A test loads constants of the field; no sampled constant says what happens to those that do not fit.", "anchors": ["halo2-ecc/src/fields/fp.rs: FpChip::load_constant_uint, is_zero", "halo2-ecc/src/bigint/mod.rs: FixedOverflowInteger::from_native, FixedCRTInteger::from_native, assign"]}
{"id": "C94", "title": "Predicates of the vector chip on representatives", "statement": "On a vector of proper CRT integers (the coordinates of an extension field element, possibly unreduced) is_soft_zero answers whether every coordinate is the integer 0; is_soft_nonzero whether some coordinate is nonzero and below the modulus, saying nothing of the others and never failing on unreduced ones; is_zero makes every coordinate reduced and answers whether all are 0; assert_equal on vectors of one length makes the integers equal and reduced. On vectors of different lengths assert_equal only compares the common part, whereas is_equal_unenforced, additions, subtractions and select panic. On the empty vector the predicates panic and assert_equal accepts.", "quantifier": "every vector length, every integer in the coordinates, every satisfying assignment", "why_tests_cant": "A test feeds reduced coordinates of equal length; the statement is about all representatives and lengths.", "anchors": ["halo2-ecc/src/fields/vector.rs: FieldVectorChip::is_soft_zero, is_soft_nonzero, is_zero, is_equal_unenforced, assert_equal, add_no_carry, sub_no_carry, select", "halo2-ecc/src/fields/mod.rs: FieldChip::is_soft_nonzero", "halo2-ecc/src/fields/fp.rs: FpChip::is_soft_nonzero, assert_equal"]}
{"id": "C95", "title": "The exposed message words of the Keccak circuit are not always tied to what is hashed", "statement": "Finding: for parameters whose input bytes have no lookup (among them those of the repository's tests: k = 14 with 25 rows per round, k = 18 with 977) the circuit does not tie the words, lengths and hash handed to the caller together: from any satisfying assignment every word without padding in byte x can be replaced by any field element with everything else unchanged, so for any two messages of the same length some satisfying assignment hands over the words of one with the Keccak-256 hash of the other.", "quantifier": "every message pair of equal length, every parameters with the (kernel-decided) missing lookups, every satisfying assignment, every field of odd characteristic", "why_tests_cant": "Honest runs satisfy the circuit; the missing constraint shows only on assignments no witness generator produces.", "anchors": ["hashes/zkevm/src/keccak/vanilla/mod.rs: KeccakCircuitConfig::new (squeeze unpack of the input bytes, word_value)", "hashes/zkevm/src/keccak/vanilla/keccak_packed_multi.rs: transform_to::expr", "hashes/zkevm/src/keccak/vanilla/cell_manager.rs: CellManager::start_region"]}
