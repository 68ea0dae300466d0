{"id": "C01", "title": "Universal Merkle tree is a finite map", "statement": "After any sequence of update / remove / update_with calls on in-range indices, looking up an index returns exactly the value most recently written to it (or absence if it was never written or was removed last); an operation on one index never changes what is observed at another, and each update reports the previous value.", "quantifier": "every arity >= 2, every height, every hash function, every finite sequence of operations, every index below capacity", "why_tests_cant": "The number of histories and tree shapes is unbounded; sub-tree collapsing on removal only misbehaves in particular interleavings that a sampled test need not hit.", "anchors": ["merkle_tree/src/universal_merkle_tree.rs: update_with, universal_lookup", "merkle_tree/src/internal.rs: update_with_internal, lookup_internal", "merkle_tree/src/lib.rs: UniversalMerkleTreeScheme"]}
{"id": "C02", "title": "num_leaves counts the present keys", "statement": "In a universal Merkle tree the reported number of leaves equals the number of indices at which a value is currently present, after any history of operations.", "quantifier": "every history of updates, removals and conditional updates on in-range indices", "why_tests_cant": "Counter drift appears only after particular orders of insert / overwrite / remove; every history must be considered.", "anchors": ["merkle_tree/src/universal_merkle_tree.rs: update_with, from_kv_set", "merkle_tree/src/internal.rs: update_with_internal"]}
{"id": "C03", "title": "Commitment is history independent", "statement": "Two universal Merkle trees of the same height whose present (index, value) pairs agree have equal commitments, no matter which operations, in which order, produced them; in particular building from a key-value set gives the same commitment for every enumeration order of the same set, and inserting then removing a key restores the commitment.", "quantifier": "every pair of histories with equal final contents", "why_tests_cant": "Quantifies over pairs of unbounded histories.", "anchors": ["merkle_tree/src/internal.rs: update_with_internal, digest_branch", "merkle_tree/src/universal_merkle_tree.rs: from_kv_set"]}
{"id": "C04", "title": "Membership proofs verify", "statement": "Whenever lookup of an index succeeds with (value, proof), verifying that proof with that index and value against the tree's current commitment succeeds.", "quantifier": "every tree reachable by any history (including forgotten parts), every index below capacity, every hash function", "why_tests_cant": "Sampling trees and indices cannot cover every shape, arity and sparse pattern.", "anchors": ["merkle_tree/src/internal.rs: lookup_internal, verify_merkle_proof", "merkle_tree/src/macros.rs: impl_merkle_tree_scheme (lookup, verify)"]}
{"id": "C05", "title": "Membership proofs are binding", "statement": "If two membership proofs of the same length are both accepted for the same commitment and index but with different values, then a collision of the node hash or of the leaf hash can be read off the two proofs; with a collision free hash a commitment and index admit at most one value.", "quantifier": "every commitment, every index, every pair of (adversarial) proofs of equal length", "why_tests_cant": "Soundness ranges over all adversarial proofs; a test only tries a few tampered ones.", "anchors": ["merkle_tree/src/internal.rs: verify_merkle_proof", "merkle_tree/src/hasher.rs: HasherDigestAlgorithm", "merkle_tree/src/prelude.rs: RescueHash"]}
{"id": "C06", "title": "Non-membership proofs verify", "statement": "For a universal tree with no forgotten parts, looking up an absent in-range index yields a non-membership proof that is accepted against the current commitment for this index.", "quantifier": "every reachable tree, every absent index", "why_tests_cant": "Empty subtrees can occur at any level of any shape; each produces differently shaped proofs.", "anchors": ["merkle_tree/src/universal_merkle_tree.rs: universal_lookup, non_membership_verify", "merkle_tree/src/internal.rs: lookup_internal, verify_merkle_proof"]}
{"id": "C07", "title": "No index is both present and absent", "statement": "For a given commitment, no index can have an accepted membership proof and an accepted non-membership proof at the same time (unless the hash function is broken).", "quantifier": "every commitment, index and every pair of adversarial proofs", "why_tests_cant": "Soundness over adversarial proofs, including proofs whose length differs from the tree height.", "anchors": ["merkle_tree/src/universal_merkle_tree.rs: non_membership_verify", "merkle_tree/src/internal.rs: verify_merkle_proof"]}
{"id": "C08", "title": "Indices outside the tree never alias indices inside it", "statement": "Looking up, updating or verifying an index at or above the tree's capacity never reads, changes or certifies a leaf belonging to a different in-range index.", "quantifier": "every tree, every index of the index type", "why_tests_cant": "The set of out-of-range indices is unbounded, and whether they alias depends on index arithmetic for every arity and height.", "anchors": ["merkle_tree/src/macros.rs: impl_to_traversal_path_primitives", "merkle_tree/src/internal.rs: lookup_internal, update_with_internal, verify_merkle_proof"]}
{"id": "C09", "title": "Append-only tree stores elements in push order", "statement": "After building an append-only tree from a list and then pushing / extending with further elements, index i holds the i-th element of the concatenation, the leaf count is its length, and the commitment does not depend on how the elements were split between from_elems, push and extend.", "quantifier": "every element sequence within capacity and every way of splitting it", "why_tests_cant": "Chunk boundaries relative to subtree boundaries give unboundedly many cases.", "anchors": ["merkle_tree/src/append_only.rs: from_elems, push, extend", "merkle_tree/src/internal.rs: build_tree_internal, extend_internal"]}
{"id": "C10", "title": "Capacity is enforced", "statement": "Building or extending an append-only tree never stores more than arity^height elements: exceeding input reports an error, and the tree that remains holds exactly the elements that were accepted, all still provable.", "quantifier": "every arity, height, element count", "why_tests_cant": "The boundary case must be shown for every arity/height pair and every starting fill.", "anchors": ["merkle_tree/src/append_only.rs: from_elems, extend, push", "merkle_tree/src/internal.rs: build_tree_internal, extend_internal", "merkle_tree/src/macros.rs: capacity"]}
{"id": "C11", "title": "Lightweight tree commits like the full tree", "statement": "A lightweight append-only tree has, after any sequence of construction and appends, the same commitment and leaf count as the full append-only tree given the same elements, and its most recent leaf can be looked up with a verifying proof.", "quantifier": "every element sequence and every way of splitting it into pushes and extends", "why_tests_cant": "The pruned structure depends on the position of the frontier; all frontiers must be covered.", "anchors": ["merkle_tree/src/light_weight.rs", "merkle_tree/src/internal.rs: build_light_weight_tree_internal, extend_and_forget_internal"]}
{"id": "C12", "title": "Forgetting a leaf is safe", "statement": "Forgetting an index never changes the commitment or the leaf count, returns the value with a proof that verifies, makes a later lookup of it report that it is not in memory, and leaves every other stored index's lookup unchanged.", "quantifier": "every tree, every index, every subset of already forgotten leaves", "why_tests_cant": "Pruning of sub-trees whose children are all forgotten depends on the whole set of previously forgotten leaves.", "anchors": ["merkle_tree/src/internal.rs: forget_internal", "merkle_tree/src/macros.rs: impl_forgetable_merkle_tree_scheme"]}
{"id": "C13", "title": "Remembering is sound and undoes forgetting", "statement": "remember, given a proof as long as the tree is high, succeeds exactly when the proof verifies against the commitment; it never changes the commitment or other observable leaves; after remembering a forgotten leaf with the proof returned by forget, the index can be looked up again with that value.", "quantifier": "every tree, every set of forgotten leaves, every supplied value and proof", "why_tests_cant": "Adversarial proofs and arbitrary partial-forget states cannot be enumerated.", "anchors": ["merkle_tree/src/internal.rs: remember_internal", "merkle_tree/src/macros.rs: impl_forgetable_merkle_tree_scheme"]}
{"id": "C14", "title": "Forgetting an absent index yields a usable non-membership proof", "statement": "In a universal tree the non-membership proof returned when an absent index is forgotten is accepted by the non-membership verifier against the same commitment, exactly like the one returned by lookup, and remembering it again succeeds without changing the commitment.", "quantifier": "every tree and absent index", "why_tests_cant": "Depends on which level the empty subtree sits at, for every shape.", "anchors": ["merkle_tree/src/universal_merkle_tree.rs: universal_forget, non_membership_remember", "merkle_tree/src/internal.rs: forget_internal, remember_internal"]}
{"id": "C15", "title": "Range proofs verify", "statement": "For an append-only tree, looking up a contiguous range of stored indices returns exactly the elements in index order and a proof that is accepted by the range verifier for these elements and this commitment.", "quantifier": "every tree, every non-empty range within the stored leaves, every arity", "why_tests_cant": "All pairs (start, end) relative to all node boundaries.", "anchors": ["merkle_tree/src/internal.rs: range_lookup_internal, verify_merkle_range_proof", "merkle_tree/src/macros.rs: impl_range_proof_merkle_tree_scheme"]}
{"id": "C16", "title": "Range proofs are binding", "statement": "If a range verifier accepts two different element lists for the same index range, same proof shape and same commitment, a hash collision can be exhibited.", "quantifier": "every commitment and every pair of adversarial range proofs of equal shape", "why_tests_cant": "Soundness against adversarial input.", "anchors": ["merkle_tree/src/internal.rs: verify_merkle_range_proof"]}
{"id": "C17", "title": "Iteration lists the leaves in index order, and bulk proofs verify", "statement": "Iterating a tree yields every remembered leaf exactly once in increasing index order with its value, and each proof produced by the bulk proof collection verifies.", "quantifier": "every reachable tree", "why_tests_cant": "All shapes and fill patterns.", "anchors": ["merkle_tree/src/internal.rs: MerkleTreeIter, collect_all_with_proofs"]}
{"id": "C18", "title": "Arithmetic gadgets are sound and complete", "statement": "For each basic arithmetic gadget (constant, add, add/mul by constant, sub, mul, linear combination, mul-add, quadratic polynomial, sum, fifth power, power 11, boolean and equality enforcement), an assignment satisfies the emitted gates if and only if the output wire equals the documented function of the input wires, and the witness the builder computes satisfies them.", "quantifier": "every prime field, every assignment to the variables (also adversarial), every list length for the variadic gadgets", "why_tests_cant": "Soundness ranges over all assignments, not only the honest ones that tests construct.", "anchors": ["relation/src/gadgets/arithmetic.rs", "relation/src/gates/arithmetic.rs", "relation/src/constraint_system.rs: check_gate, insert_gate"]}
{"id": "C19", "title": "Logic gadgets compute boolean logic", "statement": "For boolean inputs the logic gadgets (and, or, or over a list, and over a list, not, enforced true/or, conditional selection, zero test, equality test) force their outputs to the documented truth value for every satisfying assignment and are always satisfiable.", "quantifier": "every field, every assignment, every list length", "why_tests_cant": "All assignments including adversarial helper values (for example a wrong inverse hint).", "anchors": ["relation/src/gadgets/logic.rs", "relation/src/gates/logic.rs"]}
{"id": "C20", "title": "Range checks and bit decomposition are exact", "statement": "Enforcing that a variable is in range of l bits is satisfiable exactly when its canonical integer value is below 2^l, and unpacking into l bits forces the returned boolean variables to be the little-endian bits of the canonical value.", "quantifier": "every prime field, every bit length, every assignment", "why_tests_cant": "Wrap-around modulo the field order only shows for adversarial assignments near the modulus.", "anchors": ["relation/src/gadgets/range.rs: unpack, enforce_in_range, is_in_range, decomposition_gate, range_gate_internal"]}
{"id": "C21", "title": "Comparison gadgets compare integers", "statement": "The less-than / greater-than gadgets (enforced and boolean-returning, and against constants) agree with the comparison of the canonical integer representatives of the field elements, for every pair of field elements.", "quantifier": "every odd prime field, every pair of elements, every assignment", "why_tests_cant": "Field-size input space; errors concentrate at (p-1)/2 boundaries.", "anchors": ["relation/src/gadgets/cmp.rs"]}
{"id": "C22", "title": "Truncation gadget returns the low bits", "statement": "In every satisfying assignment the output of the truncation gadget equals the low-order bits of the canonical integer value of its input.", "quantifier": "every assignment, every truncation length", "why_tests_cant": "A wrong output can only be found with an adversarial witness that wraps the modulus.", "anchors": ["relation/src/gadgets/ultraplonk/non_native_gates.rs: truncate, truncate_gate"]}
{"id": "C23", "title": "Copy constraints are exactly variable equality", "statement": "The wire permutation derived from a finalized circuit links two wire slots if and only if they carry the same variable; hence a table of wire values is invariant under it if and only if all slots of one variable carry one value.", "quantifier": "every circuit (any number of gates and variables)", "why_tests_cant": "All wiring patterns.", "anchors": ["relation/src/constraint_system.rs: compute_wire_permutation, compute_extended_permutation"]}
{"id": "C24", "title": "Permutation grand product", "statement": "For a table of wire values satisfying the copy constraints the accumulated product polynomial closes up (returns to one after the last row) for all challenges with non-vanishing denominators; conversely if the product identity holds for all challenges (as polynomial identity) then the table satisfies the copy constraints.", "quantifier": "every circuit, every wire table, every challenge pair", "why_tests_cant": "Universally quantified over fields, tables and challenges.", "anchors": ["relation/src/constraint_system.rs: compute_prod_permutation_polynomial"]}
{"id": "C25", "title": "Finalization preserves meaning", "statement": "Finalizing a circuit for arithmetization (moving public-input gates first, lookup gates last, padding) neither changes which assignments satisfy the gates nor the public input sequence, puts the i-th public input on row i, and keeps every lookup gate inside the rows checked by the lookup argument.", "quantifier": "every circuit and every order in which gates were added", "why_tests_cant": "The interaction of swaps depends on all interleavings of gate kinds.", "anchors": ["relation/src/constraint_system.rs: rearrange_gates, pad, finalize_for_arithmetization"]}
{"id": "C26", "title": "Lookup argument sorted vector", "statement": "When every looked-up value occurs in the table, the constructed sorted vector is a merge of table and looked-up values whose lookup grand product closes up; when some looked-up value is not in the table construction fails.", "quantifier": "every table, every list of looked-up values", "why_tests_cant": "All multisets of looked-up values.", "anchors": ["relation/src/constraint_system.rs: compute_lookup_sorted_vec_polynomials, compute_lookup_prod_polynomial"]}
{"id": "C27", "title": "Merging circuits is conjunction", "statement": "Merging two finalized mergeable circuits gives a circuit whose gates are satisfied exactly when both circuits' gates are satisfied, with the concatenated public inputs.", "quantifier": "every pair of mergeable circuits with equal size and number of inputs, every assignment", "why_tests_cant": "All pairs of circuits.", "anchors": ["relation/src/constraint_system.rs: merge, finalize_for_mergeable_circuit"]}
{"id": "C28", "title": "Emulated multiplication is sound", "statement": "In every satisfying assignment the emulated (non-native) multiplication gate forces the integer value of the output to be congruent to the product of the inputs modulo the emulated field order; honest witnesses always satisfy it.", "quantifier": "every assignment of limbs and hints", "why_tests_cant": "Only an adversarial quotient hint outside the honest range exposes a gap.", "anchors": ["relation/src/gadgets/emulated.rs: emulated_mul_gate, emulated_mul_constant_gate"]}
{"id": "C29", "title": "Emulated addition is sound and complete", "statement": "In every satisfying assignment the emulated addition gate forces output = sum modulo the emulated order, and for every pair of emulated elements the honest witness satisfies the gate.", "quantifier": "every pair of emulated elements, every assignment", "why_tests_cant": "Carry propagation failures occur for sparse sets of limb values that random tests miss.", "anchors": ["relation/src/gadgets/emulated.rs: emulated_add_gate, emulated_add_constant_gate"]}
{"id": "C30", "title": "Two-limb modular multiplication is sound and complete", "statement": "With parameters meeting the documented size bounds, every satisfying assignment of the modular multiplication gadget has output congruent to the product modulo the given modulus, and honest witnesses satisfy it; modular addition and negation likewise.", "quantifier": "every limb size, modulus, inputs, every assignment of hints", "why_tests_cant": "Soundness depends on no wrap around modulo the native order for any hint assignment.", "anchors": ["relation/src/gadgets/ultraplonk/mod_arith.rs: mod_mul, mod_add, mod_negate"]}
{"id": "C31", "title": "Edwards addition gadget adds points", "statement": "For points on a complete twisted Edwards curve, the addition gadget's gates force the output to be the group sum, are satisfiable, and the result is on the curve; the on-curve gadget accepts exactly curve points.", "quantifier": "every pair of curve points, every assignment", "why_tests_cant": "All point pairs incl. doubling, inverse and neutral cases and adversarial outputs.", "anchors": ["relation/src/gadgets/ecc/mod.rs: ecc_add_gate, ecc_add, enforce_on_curve", "relation/src/gates/ecc.rs"]}
{"id": "C32", "title": "Point selection and equality gadgets", "statement": "Binary and quaternary point selection force the output to be the point indexed by the selector bits; the point equality / neutrality gadgets return true exactly on equal / neutral points.", "quantifier": "every selector bits, points, assignments", "why_tests_cant": "All assignments.", "anchors": ["relation/src/gadgets/ecc/mod.rs: quaternary_point_select, binary_point_vars_select, is_neutral_point, is_point_equal"]}
{"id": "C33", "title": "Scalar multiplication gadgets", "statement": "Fixed-base and variable-base (double-and-add) scalar multiplication gadgets force the output to be the canonical integer value of the scalar wire (resp. the bits) times the base point.", "quantifier": "every scalar, base point, assignment and bit length", "why_tests_cant": "Induction over the number of windows / bits; not enumerable.", "anchors": ["relation/src/gadgets/ecc/mod.rs: fixed_base_scalar_mul, variable_base_binary_scalar_mul"]}
{"id": "C34", "title": "Multi-scalar multiplication decomposes scalars uniquely", "statement": "In the Pippenger style gadget the decomposition of a scalar into windows has, for every satisfying assignment, an integer value congruent to the scalar modulo the group order, so that the result is the documented multi-scalar product.", "quantifier": "every scalar, every window assignment", "why_tests_cant": "Aliases modulo the native field order only appear for adversarial windows.", "anchors": ["relation/src/gadgets/ecc/msm.rs: decompose_scalar_var, msm_pippenger"]}
{"id": "C35", "title": "GLV scalar decomposition is sound", "statement": "Every satisfying assignment of the endomorphism scalar decomposition gadget has k1 - lambda*k2 (with the sign bit) congruent to the scalar modulo the group order.", "quantifier": "every scalar and every hint assignment", "why_tests_cant": "Needs adversarial hints.", "anchors": ["relation/src/gadgets/ecc/glv.rs: scalar_decomposition_gate"]}
{"id": "C36", "title": "Emulated short Weierstrass addition is the group law", "statement": "In every satisfying assignment of the emulated short Weierstrass addition gate the third point is the group sum of the first two, and for every two points an honest witness satisfies the gate, including inverse points and the point at infinity.", "quantifier": "every pair of points and assignment", "why_tests_cant": "Case analysis over special points with adversarial outputs.", "anchors": ["relation/src/gadgets/ecc/emulated/short_weierstrass.rs: emulated_sw_ecc_add_gate"]}
{"id": "C37", "title": "Merkle membership circuit agrees with the native verifier", "statement": "For arity-3 Rescue Merkle trees, the in-circuit membership (and non-membership) root computation equals the native proof folding for the same siblings and position bits, and the circuit accepts exactly the proofs the native verifier accepts.", "quantifier": "every depth, every proof, every assignment of sibling and flag variables", "why_tests_cant": "Depth is unbounded and assignments adversarial.", "anchors": ["merkle_tree/src/gadgets/mod.rs", "merkle_tree/src/gadgets/universal_merkle_tree.rs"]}
{"id": "C38", "title": "Rescue permutation is a bijection and the circuit computes it", "statement": "The Rescue permutation and PRP are bijections of the state space for every key, and the circuit gadget forces its output to be the native output.", "quantifier": "every state, key, assignment", "why_tests_cant": "State space is astronomically large.", "anchors": ["rescue/src/lib.rs: prp_with_round_keys, key_schedule", "rescue/src/gadgets/native.rs"]}
{"id": "C39", "title": "Poseidon2 permutation is a bijection", "statement": "The Poseidon2 permutation is a bijection of the state space for every supported width, with the round constants and matrices in use.", "quantifier": "every state", "why_tests_cant": "State space is astronomically large.", "anchors": ["poseidon2/src/lib.rs: permute_mut", "poseidon2/src/external.rs", "poseidon2/src/internal.rs"]}
{"id": "C40", "title": "Sponge padding is injective and output is prefix-stable", "statement": "Variable-length hashing pads injectively: two different messages are never absorbed as the same block sequence; asking for more outputs extends, never changes, the earlier outputs.", "quantifier": "every pair of messages of any length; every number of outputs", "why_tests_cant": "Unbounded message lengths.", "anchors": ["rescue/src/crhf.rs", "rescue/src/sponge.rs", "poseidon2/src/crhf.rs", "poseidon2/src/sponge.rs"]}
{"id": "C41", "title": "Commitments open", "statement": "A commitment created from a message and blinding factor verifies with the same opening; two different openings of equal length accepted for one commitment give a hash collision.", "quantifier": "every message length, blinding factor, opening", "why_tests_cant": "All openings, adversarial ones included.", "anchors": ["rescue/src/commitment.rs", "commitment/src/lib.rs"]}
{"id": "C42", "title": "Reed-Solomon decoding inverts encoding", "statement": "Decoding any data_size shares with distinct positions of an encoded message returns the message, regardless of which shares and in which order.", "quantifier": "every field, every message, every selection and order of shares", "why_tests_cant": "Combinatorially many share subsets and all fields.", "anchors": ["utilities/src/reed_solomon_code.rs: reed_solomon_erasure_encode, reed_solomon_erasure_decode"]}
{"id": "C43", "title": "Reed-Solomon decoder rejects malformed input", "statement": "The decoder fails with an error (never a wrong message or a panic) when given too few shares or two shares at the same position among those used.", "quantifier": "every share list", "why_tests_cant": "All malformed inputs.", "anchors": ["utilities/src/reed_solomon_code.rs"]}
{"id": "C44", "title": "Bytes to field elements round trip", "statement": "Converting a byte string to field elements and back returns the same byte string; the conversion is therefore injective.", "quantifier": "every byte string of every length, every prime field accepted by the compile time checks", "why_tests_cant": "All lengths and all byte contents.", "anchors": ["utilities/src/conversion.rs: bytes_to_field_elements, bytes_from_field_elements"]}
{"id": "C45", "title": "Field conversions preserve integer values", "statement": "Embedding a scalar into the base field and back is the identity; masked conversion returns the documented low bits; the switching conversion fails whenever the value does not fit instead of silently reducing it.", "quantifier": "every element, every pair of fields", "why_tests_cant": "Field-size input space.", "anchors": ["utilities/src/conversion.rs: fr_to_fq, fq_to_fr, fq_to_fr_with_mask, field_switching"]}
{"id": "C46", "title": "KZG opening completeness", "statement": "For every polynomial within the supported degree and every point, an honest opening proof verifies with the true evaluation, and with no other value.", "quantifier": "every polynomial, point, trapdoor, bilinear group", "why_tests_cant": "All polynomials and points.", "anchors": ["pcs/src/univariate_kzg/mod.rs: commit, open, verify", "pcs/src/univariate_kzg/srs.rs"]}
{"id": "C47", "title": "KZG commit rejects polynomials above the supported degree", "statement": "Committing to a polynomial with more coefficients than the prover parameters support reports an error; it never returns a commitment to a different polynomial.", "quantifier": "every polynomial and parameter size", "why_tests_cant": "The boundary degree has to be covered for all sizes.", "anchors": ["pcs/src/univariate_kzg/mod.rs: commit, skip_leading_zeros_and_convert_to_bigints"]}
{"id": "C48", "title": "KZG batch verification", "statement": "Batch verification accepts every list of honest openings whatever the randomizers, its equation is the randomized sum of the individual equations, and it never accepts when the lists have different lengths or an individual claim is unchecked.", "quantifier": "every number of openings, randomizers and (adversarial) lists of any lengths", "why_tests_cant": "Lengths and randomness are unbounded.", "anchors": ["pcs/src/univariate_kzg/mod.rs: batch_verify, batch_open"]}
{"id": "C49", "title": "KZG multi-point opening", "statement": "A single proof for several distinct points of one polynomial verifies with the true evaluations.", "quantifier": "every polynomial, every list of distinct points within the verifier parameters", "why_tests_cant": "All polynomials/points.", "anchors": ["pcs/src/univariate_kzg/mod.rs: multi_point_open, multi_point_verify, lagrange_poly"]}
{"id": "C50", "title": "FK23 multi-opening equals individual openings", "statement": "The amortized opening of a polynomial at many points returns exactly the proofs and evaluations that opening each point individually returns.", "quantifier": "every polynomial, every list of points, every SRS", "why_tests_cant": "All degrees and padding cases.", "anchors": ["pcs/src/univariate_kzg/mod.rs: multi_open, compute_h_poly_in_fk23, compute_h_poly_parallel", "pcs/src/toeplitz.rs", "pcs/src/poly.rs"]}
{"id": "C51", "title": "Multilinear KZG opening completeness", "statement": "For every multilinear polynomial with at most the supported number of variables and every point the honest opening verifies with the true evaluation.", "quantifier": "every number of variables, polynomial, point, trapdoor", "why_tests_cant": "All sizes and values.", "anchors": ["pcs/src/multilinear_kzg/mod.rs: commit, open_internal, verify_internal", "pcs/src/multilinear_kzg/srs.rs"]}
{"id": "C52", "title": "Multilinear batch opening completeness", "statement": "Batch-committing, batch-opening and batch-verifying any list of multilinear polynomials at given points with parameters large enough succeeds and the reported values are the evaluations.", "quantifier": "every list of polynomials and points", "why_tests_cant": "Depends on degrees of composed polynomials for every number of variables and points.", "anchors": ["pcs/src/multilinear_kzg/batching.rs", "pcs/src/multilinear_kzg/util.rs: compute_w_circ_l, build_l, merge_polynomials", "pcs/src/multilinear_kzg/mod.rs: batch_commit"]}
{"id": "C53", "title": "Schnorr signatures verify", "statement": "Signatures made with any non-zero signing key verify under the matching verification key for every message, also after randomizing the key pair; a signature that verifies is unique in its response for given nonce point.", "quantifier": "every key, message, domain separator, randomizer, hash function", "why_tests_cant": "All keys and messages.", "anchors": ["signature/src/schnorr.rs: KeyPair::sign, VerKey::verify, randomize_with"]}
{"id": "C54", "title": "Schnorr verification circuit agrees with the native verifier", "statement": "The in-circuit signature check accepts exactly the (key, message, signature) triples that the native verifier accepts.", "quantifier": "every key, message, signature", "why_tests_cant": "Special keys (small order) and adversarial values.", "anchors": ["signature/src/gadgets/schnorr.rs", "signature/src/schnorr.rs: VerKey::verify"]}
{"id": "C55", "title": "BLS signatures, aggregation and multi-signatures verify", "statement": "Honest BLS signatures verify; aggregating signatures in any order gives a signature that aggregate verification accepts for the corresponding keys and messages; multi-signature verification accepts the aggregate of signatures on one message; length mismatches are rejected.", "quantifier": "every number of signers, keys, messages, orders", "why_tests_cant": "Unbounded numbers of signers.", "anchors": ["signature/src/bls_over_bn254.rs: sign, verify, aggregate, aggregate_verify, multi_sig_verify"]}
{"id": "C56", "title": "ElGamal decryption inverts encryption", "statement": "Decrypting a ciphertext made with the matching encryption key returns the message of any length; flattening and parsing a ciphertext round trips.", "quantifier": "every key pair, randomness, message length", "why_tests_cant": "Unbounded message lengths.", "anchors": ["elgamal/src/lib.rs"]}
{"id": "C57", "title": "Lagrange coefficients and public input polynomial", "statement": "The Lagrange coefficient helpers return the evaluations of the Lagrange basis polynomials of the domain at every point, in the domain or not; the verifier's public input evaluation equals the evaluation of the polynomial the prover commits to, also for merged circuits.", "quantifier": "every domain size, range, evaluation point, public input", "why_tests_cant": "All points including domain points.", "anchors": ["plonk/src/lagrange.rs", "plonk/src/proof_system/verifier.rs: evaluate_pi_poly", "relation/src/constraint_system.rs: compute_pub_input_polynomial"]}
{"id": "C58", "title": "Batched instances are combined with separate powers of the challenge", "statement": "When several instances are proved together, the combined constraint vanishes as a polynomial in the combination challenge only if every constraint of every instance vanishes.", "quantifier": "every number and mix of instance types", "why_tests_cant": "All mixes of instance types.", "anchors": ["plonk/src/proof_system/verifier.rs: prepare_pcs_info", "plonk/src/proof_system/prover.rs"]}
{"id": "C59", "title": "The PLONK verifier equation is the constraint identity", "statement": "If the prover's claimed evaluations are the evaluations of the committed polynomials then the verifier's aggregated opening equation is, term by term, the statement that the gate, permutation and lookup constraints are divisible by the vanishing polynomial at the evaluation point.", "quantifier": "every circuit, witness, challenge", "why_tests_cant": "All polynomials and challenges.", "anchors": ["plonk/src/proof_system/verifier.rs: compute_lin_poly_constant_term, linearization_scalars_and_bases, aggregate_evaluations", "plonk/src/proof_system/prover.rs"]}
{"id": "C60", "title": "Hash to curve lands on the curve", "statement": "The try-and-increment hash always returns a point satisfying the curve equation with the canonical (smaller) square root, deterministically.", "quantifier": "every message, every hash function whose iteration reaches a quadratic residue", "why_tests_cant": "All digests.", "anchors": ["signature/src/bls_over_bn254.rs: hash_to_curve"]}
{"id": "C61", "title": "The circuit does not depend on the witness", "statement": "Two executions of the same circuit-building program that use the same public structure but different secret values produce the same variables, gates, selectors, wires, public-input positions, range-checked variables and lookup tables; so the preprocessed keys are the same.", "quantifier": "every program over the gadget API, every pair of secret assignments, TurboPlonk and UltraPlonk", "why_tests_cant": "Relates pairs of executions over all witness values; witness-dependent branches in a gadget only show for particular pairs.", "anchors": ["relation/src/constraint_system.rs", "relation/src/gadgets/arithmetic.rs", "relation/src/gadgets/logic.rs", "relation/src/gadgets/cmp.rs", "relation/src/gadgets/range.rs"]}
{"id": "C62", "title": "Public inputs pin down the variables made public", "statement": "Making a variable public appends exactly one public input; an assignment satisfies the extended circuit with public inputs (pi, x) iff it satisfies the old one with pi and gives the variable the value x; create_public_boolean_variable yields a variable that is 0 or 1.", "quantifier": "every circuit, variable, public input vector and assignment", "why_tests_cant": "All assignments, including adversarial ones.", "anchors": ["relation/src/constraint_system.rs: set_variable_public, create_public_variable, public_input, check_circuit_satisfiability"]}
{"id": "C63", "title": "Key-value lookups mean table membership", "statement": "After create_table_and_lookup_variables the circuit is satisfied exactly by the assignments satisfying the earlier circuit in which each lookup triple is an (index, value, value) entry of that very table; entries of other tables and dummy rows never help, and earlier lookups are unaffected.", "quantifier": "every circuit with any number of tables, all table and lookup sizes, every assignment", "why_tests_cant": "Cross-table confusion depends on the combination of several tables and all assignments.", "anchors": ["relation/src/gadgets/ultraplonk/lookup_table.rs: create_table_and_lookup_variables", "relation/src/constraint_system.rs: check_circuit_satisfiability"]}
{"id": "C64", "title": "KZG evaluation binding", "statement": "Two accepting openings of one commitment at one point with different values yield the inverse of (trapdoor - point) times the generator, i.e. a solution of the strong Diffie-Hellman problem.", "quantifier": "every commitment, point, pair of values and (adversarial) proofs, every trapdoor", "why_tests_cant": "Quantifies over adversarial proofs.", "anchors": ["pcs/src/univariate_kzg/mod.rs: verify"]}
{"id": "C65", "title": "Context strings separate signatures", "statement": "A signature made for one (message, context string) pair is not accepted for another pair unless the hash collides.", "quantifier": "every key, message, context string, signature; Schnorr and BLS", "why_tests_cant": "Quantifies over all pairs of byte strings; confusion needs particular splits or leading zeros.", "anchors": ["signature/src/schnorr.rs: sign, challenge", "signature/src/bls_over_bn254.rs: sign, verify_internal"]}
{"id": "C66", "title": "Schnorr verification keys are checked", "statement": "The Schnorr verifier only accepts under keys of the prime order subgroup.", "quantifier": "every curve with cofactor, every key, signature", "why_tests_cant": "Keys outside the subgroup are never generated by the honest code.", "anchors": ["signature/src/schnorr.rs: VerKey::verify"]}
{"id": "C67", "title": "The BLS VRF is complete and unique", "statement": "The evaluation of the key owner verifies and gives the evaluated output; for every public key and input any two accepted proofs give the same output; an output is returned exactly for accepted proofs.", "quantifier": "every key, input, (adversarial) proof, hash function", "why_tests_cant": "Uniqueness quantifies over adversarial proofs.", "anchors": ["vrf/src/blsvrf.rs: prove, proof_to_hash, verify", "vrf/src/lib.rs: evaluate", "signature/src/bls_over_bls12381.rs: sign, verify"]}
{"id": "C68", "title": "BLS12-381 keys and signatures serialize faithfully", "statement": "Deserializing what was serialized returns the value and consumes exactly the written bytes, in both compression modes; serialized_size is the number of bytes written.", "quantifier": "every value, both modes, any following bytes", "why_tests_cant": "All values and both modes; the size function is only used by callers.", "anchors": ["signature/src/bls_over_bls12381.rs: serialize_with_mode, serialized_size, deserialize_with_mode"]}
{"id": "C69", "title": "Rescue hash, PRF and commitment gadgets compute the native functions", "statement": "For every satisfying assignment the output variables of the sponge, PRF and commitment gadgets hold the native results for the input variables; the circuit is satisfiable for every input; gadget and native function fail on the same inputs.", "quantifier": "every input length, number of outputs, (adversarial) assignment; every shipped parameter set", "why_tests_cant": "Soundness quantifies over adversarial assignments; tests only use honest witnesses.", "anchors": ["rescue/src/gadgets/native.rs", "rescue/src/gadgets/prf.rs", "rescue/src/gadgets/commitment.rs"]}
{"id": "C70", "title": "The Rescue PRF absorbs its whole input under the key", "statement": "The PRF is total, its output for a non-empty input depends on the key through the permutation, and inputs of different content are absorbed differently.", "quantifier": "every seed, input length, output length", "why_tests_cant": "All inputs and lengths; the failing inputs are corner cases.", "anchors": ["rescue/src/prf.rs: full_state_keyed_sponge_with_zero_padding, evaluate"]}
{"id": "C71", "title": "Emulated selection, equality and zero test are exact", "statement": "In every satisfying assignment with limbs in range, the selected emulated variable has the value of the chosen one, the equality test is 1 exactly if the values are equal and 0 otherwise, the zero test likewise, the equality constraint holds exactly for equal values; constants are forced to their value and new variables to limbs in range.", "quantifier": "every assignment of limbs and hints, every number and size of limbs", "why_tests_cant": "Soundness quantifies over adversarial assignments and hints; values are represented limb by limb.", "anchors": ["relation/src/gadgets/emulated.rs: conditional_select_emulated, enforce_emulated_var_equal, is_emulated_var_equal, is_emulated_var_zero, create_constant_emulated_variable, create_emulated_variable"]}
{"id": "C72", "title": "An accepted batch proof has the shape of its keys", "statement": "The verifier rejects every proof in which the number of wire commitments, of claimed wire and permutation evaluations, or of evaluation entries differs from what the verifying keys prescribe, so that each claimed evaluation is checked against the commitment it stands for.", "quantifier": "every batch of keys, every proof with lists of any length", "why_tests_cant": "Lists in proof structs have free length; a forged proof needs a shift of the pairing between commitments and evaluations that no honest prover produces.", "anchors": ["plonk/src/proof_system/verifier.rs: prepare_pcs_info, compute_quotient_poly_eval, linearization_scalars_and_bases, aggregate_evaluations"]}
{"id": "C73", "title": "A proof for an unsatisfied circuit is rejected, from circuit to verifier", "statement": "Preprocessing a finalized circuit yields the commitments to its selectors, permutation and tables; with these keys, a prover committing to polynomials for a batch in which some circuit is not satisfied by the values on its wires (with the given public inputs) is rejected by the verifier except for an explicitly bounded number of values of each challenge in turn and of the secret of the reference string.", "quantifier": "every buildable circuit and batch of one kind, every adversary choosing polynomials round by round, every challenge outside the counted sets", "why_tests_cant": "Quantifies over adversarial polynomials and circuits; the argument crosses finalization, permutation, lookup, quotient, opening and batching.", "anchors": ["plonk/src/proof_system/snark.rs: preprocess, verify_batch_proof", "plonk/src/proof_system/verifier.rs: prepare_pcs_info", "relation/src/constraint_system.rs: compute_selector_polynomials, compute_extended_permutation_polynomials, compute_range_table_polynomial"]}
{"id": "C74", "title": "Proofs of satisfied circuits are accepted, from circuit to verifier", "statement": "For every batch of circuits of one kind that are satisfied by their witness, the prover run on their proving keys returns a proof, except for exceptional randomness or challenges, and the verifier accepts every proof it returns, for all masks and all challenges derived from the transcript.", "quantifier": "every buildable circuit and batch, every randomness of the prover, every function deriving challenges", "why_tests_cant": "Tests run a few circuits with one seed; degrees, masks and the split of the quotient can fail on special sizes or values.", "anchors": ["plonk/src/proof_system/snark.rs: batch_prove, batch_prove_internal, verify_batch_proof", "plonk/src/proof_system/prover.rs: run_1st_round, run_1_5_round, run_2nd_round, run_2_5_round, run_3rd_round, compute_evaluations, compute_non_quotient_component_for_lin_poly, compute_opening_proofs", "plonk/src/proof_system/verifier.rs: compute_challenges"]}
{"id": "C75", "title": "Emulated twisted Edwards addition is the group law", "statement": "In every satisfying assignment of the emulated twisted Edwards addition gate the third point is the sum of the first two on the curve -x^2+y^2=1+d x^2 y^2, for every two points of the curve the sum is accepted, and emulated_te_ecc_add succeeds with it in a satisfied circuit.", "quantifier": "every emulation configuration, coefficient, pair of points and assignment", "why_tests_cant": "Adversarial limbs and quotients, non-canonical coordinates and points with vanishing denominators are outside what random tests hit.", "anchors": ["relation/src/gadgets/ecc/emulated/twisted_edwards.rs: emulated_te_ecc_add_gate", "relation/src/gadgets/ecc/emulated/twisted_edwards.rs: emulated_te_ecc_add"]}
{"id": "C76", "title": "Emulated point constants, selection and equality are exact", "statement": "In every satisfying assignment with limbs in range, the selected point variable over an emulated field has the value of the chosen one, the equality test is 1 exactly if both coordinates (and for short Weierstrass points the infinity mark) agree and 0 otherwise, the equality constraint holds exactly for equal points, and constant points are forced to their value.", "quantifier": "every emulation configuration, pair of points and assignment", "why_tests_cant": "A comparison that forgets one part of the representation, or a selection that mixes two points, only shows on assignments no honest prover makes.", "anchors": ["relation/src/gadgets/ecc/emulated/short_weierstrass.rs: binary_emulated_sw_point_vars_select, enforce_emulated_sw_point_equal, is_emulated_sw_point_equal, create_constant_emulated_sw_point_variable", "relation/src/gadgets/ecc/emulated/twisted_edwards.rs: binary_emulated_te_point_vars_select, enforce_emulated_te_point_equal, is_emulated_te_point_equal, create_constant_emulated_te_point_variable"]}
{"id": "C77", "title": "Conversion from short Weierstrass to twisted Edwards form is an injective homomorphism", "statement": "For every point of the short Weierstrass curve of BLS12-377 the conversion returns, without panic, a point of the twisted Edwards curve; infinity becomes (0,1), inverses become inverses, sums become sums under the Edwards addition formulas (whose denominators do not vanish), and no two points become equal.", "quantifier": "every point and pair of points of the curve, every field with conversion constants", "why_tests_cant": "The tests convert the generator, infinity and one random point of the subgroup and only check the curve equation; points of order 2 and 4, the homomorphism and the placeholder constants are not touched.", "anchors": ["relation/src/gadgets/ecc/conversion.rs: From<SWAffine<P>> for TEPoint<F>", "relation/src/gadgets/ecc/conversion.rs: SWToTEConParam", "relation/src/gadgets/ecc/mod.rs: TEPoint::inverse"]}
{"id": "C78", "title": "Proofs do not reveal the witness", "statement": "For two satisfied batches with the same proving keys and public inputs, the proofs returned by the prover cannot be told apart: every set of proofs is reached from the same number of choices of the prover's randomness for both batches, up to the choices for which the prover fails or the challenges are exceptional.", "quantifier": "every two batches of witnesses for the same keys and inputs, every proof, all randomness of the prover, every function deriving challenges", "why_tests_cant": "A statement about all randomness and pairs of witnesses; no run of the prover shows a missing mask coefficient.", "anchors": ["plonk/src/proof_system/prover.rs: mask_polynomial, run_1st_round, run_2nd_round, split_quotient_polynomial, compute_evaluations, compute_plookup_evaluations, plookup_shifted_open_polys_ref", "plonk/src/proof_system/snark.rs: batch_prove_internal"]}
{"id": "C79", "title": "The ElGamal encryption circuit computes the native encryption", "statement": "Every satisfying assignment of elgamal_encrypt holds the ciphertext that the native encrypt computes from the key, the data and the randomness held by the variables; hence the owner of the key decrypts it to exactly the data of the circuit. For every randomness in range the honest builder succeeds.", "quantifier": "every satisfying assignment, every key, data of every length and randomness, every curve and Rescue parameters", "why_tests_cant": "The tests compare one honest witness with the native ciphertext; assignments of a dishonest prover, who may use two different representatives of the randomness, are never tried.", "anchors": ["elgamal/src/gadgets.rs: elgamal_encrypt, apply_counter_mode_stream, apply_counter_mode_stream_no_padding, create_enc_key_variable, create_ciphertext_variable", "relation/src/gadgets/ecc/mod.rs: variable_base_scalar_mul, fixed_base_scalar_mul", "elgamal/src/lib.rs: deterministic_encrypt, decrypt"]}
{"id": "C80", "title": "The verifier circuit computes the scalars of the native verifier", "statement": "In every satisfying assignment of the PLONK verifier circuit, the variables for the vanishing polynomial, the first Lagrange coefficient, the public input polynomial and the constant term of the linearization polynomial hold what the native verifier computes from the challenges, evaluations and public inputs held by the variables; honest values are accepted.", "quantifier": "every satisfying assignment, every batch of proofs, all challenges, every domain and list of public inputs", "why_tests_cant": "The tests compare honest witnesses with native values; limbs chosen by a dishonest prover, in particular for sums whose limbs are not range checked, are never tried.", "anchors": ["plonk/src/circuit/plonk_verifier/poly.rs: evaluate_poly_helper, evaluate_pi_poly_circuit, compute_lin_poly_constant_term_circuit", "plonk/src/proof_system/verifier.rs: compute_lin_poly_constant_term, evaluate_pi_poly", "relation/src/gadgets/ultraplonk/mod_arith.rs: mod_add, mod_mul"]}
{"id": "C81", "title": "The verifier circuit derives the challenges of the native Rescue transcript", "statement": "In every satisfying assignment of the PLONK verifier circuit, the challenge variables hold the challenges that the native verifier computes with the Rescue transcript from the keys, public inputs, proof and extra message the variables hold; for honest values the circuit is built and satisfied with exactly these challenges.", "quantifier": "every satisfying assignment, all keys, public inputs, proofs and messages, every Rescue permutation and range of the lookups", "why_tests_cant": "The tests compare one honest run with the native transcript. A dishonest prover may truncate another representative of the hash, leave out range checks that depend on the bit length of the lookups, or replace a message that no constraint mentions.", "anchors": ["plonk/src/circuit/transcript.rs: RescueTranscriptVar", "plonk/src/circuit/plonk_verifier/gadgets.rs: compute_challenges_vars", "plonk/src/transcript/rescue.rs: RescueTranscript", "plonk/src/proof_system/verifier.rs: compute_challenges"]}
{"id": "C82", "title": "The transcripts bind the challenges to keys, inputs and proof", "statement": "If two runs of compute_challenges end with the same state of the transcript (for merlin: the same operations on it), then message, verification keys, public inputs and proof are the same, or the two runs hash two different strings to the same value. This holds for the standard (merlin), the Solidity (Keccak) and the Rescue transcript.", "quantifier": "all pairs of messages, lists of keys, public inputs and batch proofs, every hash function and serialization of points", "why_tests_cant": "That no two different inputs are absorbed as the same bytes is a statement about all pairs; a test sees only the inputs it runs, and a missing or ambiguous field changes no honest run.", "anchors": ["plonk/src/transcript/mod.rs: PlonkTranscript::append_vk_and_pub_input, append_commitments, append_proof_evaluations, append_plookup_evaluations", "plonk/src/transcript/standard.rs: StandardTranscript", "plonk/src/transcript/solidity.rs: SolidityTranscript", "plonk/src/transcript/rescue.rs: RescueTranscript", "plonk/src/proof_system/verifier.rs: compute_challenges"]}
{"id": "C83", "title": "The verifier circuit computes the points of the native verifier", "statement": "In every satisfying assignment of partial_verify_circuit the two points returned are the ones that partial_verify computes natively (with the Rescue transcript) from the keys, the shared public inputs, the batch proof and the blinding factor the variables hold; for honest values the circuit is built and satisfied. The keys returned by aggregate_verify_keys in the circuit are those of the native aggregate_verify_keys.", "quantifier": "every satisfying assignment, every list of merged keys, public inputs, proofs and blinding factor, every curve and lookup range meeting the stated sizes", "why_tests_cant": "The tests compare the native and the circuit result for honest witnesses; a dishonest prover chooses limbs, windows of scalars and representatives freely.", "anchors": ["plonk/src/circuit/plonk_verifier/mod.rs: partial_verify_circuit, VerifyingKeyVar::merge, aggregate_verify_keys", "plonk/src/circuit/plonk_verifier/gadgets.rs: aggregate_poly_commitments_circuit, aggregate_evaluations_circuit, prepare_pcs_info_var, compute_alpha_basis", "plonk/src/circuit/plonk_verifier/poly.rs: linearization_scalars_and_bases_circuit", "plonk/src/proof_system/batch_arg.rs: partial_verify, aggregate_verify_keys", "plonk/src/proof_system/structs.rs: VerifyingKey::merge"]}
{"id": "C84", "title": "The batch argument proves both circuits of every pair", "statement": "For instances of type A and B set up by setup_instance and sharing their public inputs: if batch_prove returns a proof for satisfied circuits then aggregate_verify_keys succeeds and decide accepts the points of partial_verify, for every blinding factor. A prover whose committed wires do not carry, for some pair, assignments satisfying both circuits with the shared public inputs is rejected except for few values of each challenge. partial_verify followed by decide agrees with verify_batch_proof on the doubled public inputs.", "quantifier": "all pairs of buildable circuits with public inputs, all batches, prover randomness, challenges, blinding factors, reference strings and polynomials of a dishonest prover", "why_tests_cant": "The test runs the batch argument on small honest circuits with one shared input. That sums of two keys are the key of the merged circuit, and that no cheating prover passes, concerns all circuits and all provers.", "anchors": ["plonk/src/proof_system/batch_arg.rs: setup_instance, batch_prove, partial_verify, aggregate_verify_keys, decide", "plonk/src/proof_system/structs.rs: ProvingKey::merge, VerifyingKey::merge", "relation/src/constraint_system.rs: finalize_for_mergeable_circuit, merge", "plonk/src/proof_system/snark.rs: preprocess, batch_prove, verify_batch_proof"]}
{"id": "C85", "title": "Rescue over another field computes the native Rescue", "statement": "For every hash field with exponent 11 and every native field large enough, in every satisfying assignment of the gadgets of non_native.rs whose input limbs are in range, the result of rescue_permutation, of both sponges, of both full state keyed sponges and of prp stands for what the native function computes on the values of the inputs; for honest values the circuit is built and satisfied and stores that result.", "quantifier": "every satisfying assignment, every input state, key and data list, every constants with invertible MDS matrix and inverse exponents, every pair of fields and lookup range meeting the stated sizes", "why_tests_cant": "The tests compare with the native function on a few honest witnesses and change single entries of the witness. A dishonest prover chooses quotients, carries and limbs of all intermediate values at once.", "anchors": ["rescue/src/gadgets/non_native.rs: rescue_permutation, prp, rescue_sponge_with_padding, rescue_sponge_no_padding, rescue_full_state_keyed_sponge_with_zero_padding, rescue_full_state_keyed_sponge_no_padding, create_rescue_state_variable, key_schedule, prp_with_round_keys", "relation/src/gadgets/ultraplonk/non_native_gates.rs: non_native_power_11_gen, non_native_power_11_gate, non_native_linear_gen", "relation/src/gadgets/ultraplonk/mod_arith.rs"]}
{"id": "C86", "title": "The shipped tree hashes make accepted proofs agree with lookups", "statement": "For trees with RescueHash, FixedLenPoseidon2Hash (input length at least arity + 1 and 3), Sha3Digest, Keccak256Digest or HasherDigestAlgorithm: a membership proof accepted against the commitment of a tree is for the value that lookup returns, and an accepted non-membership proof of the tree's height is for an index lookup finds nothing at, or the part is not in memory, or two different inputs among those hashed for the tree and by the verifier have the same hash, or one of them hashes to the value of empty nodes. The tree hash for Interval of examples.rs refuses every leaf.", "quantifier": "every tree reached by new, updates, removals and forgetting (every history, every list of elements), every index in range, value and proof, every permutation and byte hash, every arity from 2", "why_tests_cant": "That leaves and inner nodes of different trees never share a hash input is a statement about all pairs of trees and proofs; the test of the extension attack tries one forged proof for one hash.", "anchors": ["merkle_tree/src/prelude.rs: RescueHash, FixedLenPoseidon2Hash, impl_mt_hash_256", "merkle_tree/src/hasher.rs: HasherDigestAlgorithm", "merkle_tree/src/examples.rs: Interval, IntervalMerkleTree", "merkle_tree/src/internal.rs: MerkleTreeProof::verify_membership_proof, verify_non_membership_proof"]}
{"id": "C87", "title": "Proofs survive the conversion to base field elements and back", "statement": "A TurboPlonk proof is converted to 36 base field elements, and the conversion back gives the same proof; every accepted list gives a TurboPlonk proof whose fields are the list. The conversion of verification keys to base field elements is injective. Malformed lists are reported as errors.", "quantifier": "every TurboPlonk proof and key, every list of base field elements, every curve with scalar field not larger than the base field", "why_tests_cant": "The test converts one honest proof back and forth. Identities among the commitments, lists that are not reduced, lists with points off the curve and pairs of keys with equal fields do not occur in it.", "anchors": ["plonk/src/proof_system/structs.rs: TryFrom<Vec<BaseField>> for Proof, From<Proof> for Vec<BaseField>, TryFrom<Vec<F>> for ProofEvaluations, From<ProofEvaluations> for Vec<F>, From<VerifyingKey> for Vec<BaseField>, group1_to_fields, group2_to_fields", "utilities/src/conversion.rs: fr_to_fq, fq_to_fr"]}
{"id": "C88", "title": "Keys and proofs stored in the verifier circuit are the ones given", "statement": "VerifyingKeyVar::new and BatchProof::create_variables store the coordinates of all commitments and the limbs of all evaluations, keep a satisfied circuit satisfied, and give the same gates and variables for all keys and proofs of one shape. On what they store, partial_verify_circuit is satisfied and returns the points of the native verifier. In every satisfying assignment the stored variables hold commitments and reduced evaluations of a key and a proof of that shape, and the points returned are those of the native verifier for them.", "quantifier": "every list of keys, public inputs and batch proof, every circuit with lookups, every satisfying assignment", "why_tests_cant": "The variable independence test compares two runs, and the other tests look at honest witnesses. That the gates never depend on the values, and which other values satisfy them, concerns all keys, proofs and assignments.", "anchors": ["plonk/src/circuit/plonk_verifier/mod.rs: VerifyingKeyVar::new, VerifyingKeyVar::to_vec, partial_verify_circuit", "plonk/src/proof_system/structs.rs: ProofEvaluations::create_variables, BatchProof::create_variables", "relation/src/gadgets/ecc/mod.rs: create_point_variable", "relation/src/gadgets/ultraplonk/mod_arith.rs: FpElemVar::new_from_field_element"]}
{"id": "C89", "title": "No algebraic prover cheats in a multilinear batch opening", "statement": "The challenge of a batch is always drawn, from a transcript that determines the commitment, the points and the commitment to q, and a transcript refuses challenges exactly before its first message. The polynomials behind the commitment and behind the commitment to q fix a non-zero polynomial of bounded degree such that, whatever the prover sends after the challenge, an accepted batch proof reports for every point the value of the committed polynomial there, unless the challenge is a root of that polynomial or the secrets of the reference strings are a root of a non-zero polynomial the prover has written down.", "quantifier": "every list of points, polynomials, challenge function, reference strings, and prover whose group elements are polynomials in the secrets; every sequence of calls of the transcript", "why_tests_cant": "Tests change a value of an honest proof. That no choice of commitments and openings passes is a statement about all provers; that the transcript absorbs everything the polynomial depends on is needed for it.", "anchors": ["pcs/src/transcript.rs: IOPTranscript", "pcs/src/multilinear_kzg/batching.rs: batch_open_internal, batch_verify_internal", "pcs/src/multilinear_kzg/mod.rs: verify_internal"]}
{"id": "C90", "title": "A key pair opens exactly what was encrypted to it", "statement": "Decryption with a key pair undoes encryption to its public key, and a ciphertext opens to a message under associated data only if it is the encryption of that message and data to the public key of the pair, up to collisions of tags and derived keys. This holds for every pair of the type, including KeyPair::default(); equal pairs decrypt alike. Serialized pairs and ciphertexts are read back exactly, through canonical serialization and serde, and malformed input is refused with an error.", "quantifier": "every key pair, ephemeral key, nonce, message and associated data, every Diffie-Hellman function whose values agree, every cipher that opens exactly what it makes, every byte string", "why_tests_cant": "The tests encrypt one message and change one byte. That nothing else opens is about all ciphertexts and keys, and inputs no serializer wrote are not tried.", "anchors": ["aead/src/lib.rs: EncKey::encrypt, KeyPair::generate, KeyPair::default, KeyPair::eq, KeyPair::decrypt, Nonce::serialize, Nonce::deserialize, mod canonical_serde"]}
{"id": "C91", "title": "Circuits made with gadgets reach the verifier: the proof of exponent", "statement": "Every gadget, with or without lookup tables, turns a circuit that can be built into one that can be built with the same public inputs, and circuits that differ only in the stored witness have the same keys; proofs made after a gadget that worked are accepted, and a prover whose wires carry no values in the relation of the gadget is rejected except for few values of each challenge. For the example circuit: it is made exactly if X is x times the generator; whatever exponent and point it was made with, its satisfying assignments are exactly those whose exponent has no more bits than the group order and whose public inputs are the coordinates of that multiple of the generator, so the exponent is determined modulo the order of the generator; every proof the prover returns is accepted under the key made from any (dummy) exponent and point; and a prover whose committed wires carry no exponent of the public point is rejected except for few values of each challenge.", "quantifier": "all exponents, points, twisted Edwards curves over fields not smaller than their scalar field, satisfying assignments, keys, prover randomness and challenges, all polynomials of a dishonest prover; all gadgets with a specification and all buildable circuits", "why_tests_cant": "The example runs one honest exponent with the key of the same circuit. Keys from dummy data, all exponents of a public point, and provers that do not follow the protocol are never run; nor is the composition of the circuit with the proof system for all inputs.", "anchors": ["plonk/examples/proof_of_exp.rs: proof_of_exponent_circuit, main", "relation/src/gadgets/ecc/mod.rs: create_public_point_variable, variable_base_scalar_mul, enforce_point_equal", "relation/src/constraint_system.rs: finalize_for_arithmetization", "plonk/src/proof_system/snark.rs: preprocess, prove, verify"]}
{"id": "C92", "title": "Several single proofs are verified together exactly if each is", "statement": "Proving and verifying one circuit is proving and verifying the batch with that instance, and nothing of the batch proof is lost. Verifying a list of single proofs together, each with its own key, public input and message, reports an error exactly if the lists differ in length, are empty, or one of the proofs leads to an error; it accepts proofs that are accepted one by one, and, except for fewer values of the combination challenge than there are proofs, it accepts only those. The exceptional values do not depend on how the challenge is drawn from the last challenges of the proofs.", "quantifier": "every list of keys, public inputs, messages and proofs, every pairing, every transcript and combination challenge, every randomness of the prover", "why_tests_cant": "Keys of different reference strings, forged proofs and all challenges are outside of any finite test.", "anchors": ["plonk/src/proof_system/snark.rs: prove, verify, batch_verify", "plonk/src/proof_system/verifier.rs: batch_verify_opening_proofs"]}
{"id": "C93", "title": "Serialized Merkle trees and proofs mean one tree or proof, and are safe to use", "statement": "A tree, forgotten parts included, is read back from its serialized value, different trees have different values, and a value read as a tree is the serialized value of that tree. Proofs and range proofs are read back from their bytes whatever follows, bytes read as a proof are the bytes of that proof, and no proof's bytes begin another's. A deserialized tree behaves like one made by the library: lookups return proofs that its commitment accepts and do not panic.", "quantifier": "every tree, proof and range proof, every arity, every hash, every faithful serialization of elements, positions and node values, every serialized value and byte string", "why_tests_cant": "The tests serialize one tree and read it back. Values no serializer wrote, with bytes too many, wrong node values or a wrong height, are not tried, and injectivity is about all pairs.", "anchors": ["utilities/src/serialize.rs: canonical::serialize, canonical::deserialize", "merkle_tree/src/internal.rs: MerkleNode, MerkleTreeProof, MerkleTreeRangeProof", "merkle_tree/src/macros.rs: impl_merkle_tree_scheme!", "merkle_tree/src/hasher.rs: HasherNode", "merkle_tree/src/prelude.rs: impl_mt_hash_256!"]}
{"id": "C94", "title": "Serialized Plonk proofs and keys mean one proof or key, and malformed proofs are refused", "statement": "Proofs, batch proofs, verifying keys and proving keys are read back from their bytes, whatever follows them; bytes that are read are the bytes of the result, unreduced field elements are refused, and no value's bytes begin another's. The verifier answers every proof read from bytes with acceptance, rejection or an error, and never panics.", "quantifier": "every proof and key, with and without lookups, every byte string, every sound encoding of points, every prime field, domain, transcript and pairing", "why_tests_cant": "The tests read back proofs that provers made. Injectivity is about all pairs, and byte strings that no prover wrote, with vectors of other lengths, are not tried.", "anchors": ["plonk/src/proof_system/structs.rs: Proof, BatchProof, PlookupProof, ProofEvaluations, PlookupEvaluations, ProvingKey, VerifyingKey", "pcs/src/univariate_kzg/srs.rs: UnivariateProverParam, UnivariateVerifierParam", "plonk/src/proof_system/verifier.rs: prepare_pcs_info, compute_lin_poly_constant_term", "plonk/src/proof_system/snark.rs: verify, verify_batch_proof"]}
{"id": "C95", "title": "Serialized reference strings, openings, signatures, keys and ciphertexts mean one value, and are safe to use", "statement": "A KZG reference string (univariate or multilinear), prover and verifier parameters, a batch of multilinear openings, a Schnorr signature, an ElGamal key pair or ciphertext is read back from its bytes whatever follows them, and accepted bytes are those of the value read. A value that was read can be used like one that was made: trimming and verifying do not panic, honest openings are accepted, a key pair decrypts what is encrypted to it, an encryption key keeps messages secret, a Schnorr key under which a signature is accepted has a signing key, and no second encoding of a signature is accepted.", "quantifier": "all values, byte strings, keys, messages, points, parameters, sound encodings of curve points", "why_tests_cant": "Tests serialize a few random values and read them back; they cannot rule out a second encoding, and never feed reference strings, pairs or openings that no honest party would write.", "anchors": ["pcs/src/univariate_kzg/srs.rs:18-64", "pcs/src/multilinear_kzg/srs.rs:20-118", "pcs/src/multilinear_kzg/mod.rs:53-72", "pcs/src/multilinear_kzg/batching.rs:190-303", "signature/src/schnorr.rs:178-182", "signature/src/schnorr.rs:258-268", "elgamal/src/lib.rs:49-126"]}
{"id": "C96", "title": "Keys written as tagged text mean one key of one scheme", "statement": "A signing key or key pair of the Schnorr scheme, of the BLS scheme over BN254 and a signing key of the BLS scheme over BLS12-381 can always be written as tagged base 64, and the text is read back as the same key; a text that is accepted is the text of the tagged bytes read. A key of one kind is refused as any other kind. Each key has one text, and the text of a key of one scheme is not read as a key of another scheme. The same for the derived text of verification keys, signatures, Plonk proofs and Merkle proofs: read back, and one text per value.", "quantifier": "all keys, values, tags, byte strings, texts, checksums, sound encodings", "why_tests_cant": "The tests write a few keys and read them back; texts that no key was written as, and keys of the other BLS scheme, are not tried.", "anchors": ["signature/src/constants.rs:9-27", "signature/src/schnorr.rs:133-169", "signature/src/schnorr.rs:366-408", "signature/src/bls_over_bn254.rs:324-360", "signature/src/bls_over_bn254.rs:531-567", "signature/src/bls_over_bls12381.rs:113-153", "signature/src/schnorr.rs:177", "signature/src/schnorr.rs:258", "plonk/src/proof_system/structs.rs:51", "plonk/src/proof_system/structs.rs:224", "merkle_tree/src/internal.rs:85", "merkle_tree/src/internal.rs:189"]}
{"id": "C97", "title": "Dummy keys and proofs stand in for real ones, and convince no one", "statement": "The dummy verifying key for the numbers of a TurboPlonk circuit has the shape and the coset representatives of the key preprocessing makes, and the dummy batch proof has the shape of a proof; so a verifier circuit made from dummies is the circuit made from real keys, inputs and proofs, variable by variable. A dummy key is no trapdoor: proofs verified under it are accepted only if some circuit is satisfied.", "quantifier": "every circuit without lookups, every reference string, batch, public inputs, proof, pairing and transcript", "why_tests_cant": "Nothing in the repository calls the dummies in a test; that two circuits are equal whatever the data is not something a run can show, and the dummy key accepting everything needs all proofs.", "anchors": ["plonk/src/proof_system/structs.rs: BatchProof::dummy, VerifyingKey::dummy, ProofEvaluations::default", "pcs/src/univariate_kzg/srs.rs: UnivariateVerifierParam", "plonk/src/proof_system/verifier.rs: batch_verify_opening_proofs", "plonk/src/proof_system/snark.rs: preprocess, verify_batch_proof"]}
{"id": "C98", "title": "A Schnorr nonce is used for one message only", "statement": "Two Schnorr signatures have the same nonce point only if they were made with the same secret key, for the same message and for context strings that are the same big endian number in the field, or if the hash reduced to a scalar collides on the two exact inputs (context, secret key, message). Two signatures of one key pair with the same nonce point are therefore one and the same signature; if the hash does collide for requests with different challenges, the secret key is the unique solution of a linear equation in public values.", "quantifier": "every secret key, message and context string, every pair of signing requests, every hash function, every group with a base point of prime order", "why_tests_cant": "A nonce that did not depend on the message passes every test that signs and verifies; that nonces differ is a statement on all pairs of requests.", "anchors": ["signature/src/schnorr.rs:340-353 KeyPair::sign", "signature/src/schnorr.rs:489-510 VerKey::challenge", "utilities/src/conversion.rs fq_to_fr, fr_to_fq"]}
