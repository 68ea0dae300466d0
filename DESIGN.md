# Formal model of jellyfish: design

Source: `/repo` (EspressoSystems/jellyfish, pinned commit). Tool: Lean 4.33.0 + Mathlib.
The Rust code is neither built nor executed; the model is a hand translation,
function by function, and every Lean definition cites the Rust file and lines it
mirrors.

## Trusted base

* Lean's kernel, and the axioms `propext`, `Classical.choice`, `Quot.sound`
  (checked with `#print axioms`; no others are used; no `sorry`, `native_decide`,
  `bv_decide`).
* The hand translation from Rust. What is modelled is listed per area below.
* Arkworks (`ark-ff`, `ark-ec`, `ark-poly`) is external. Fields are Mathlib `Field`s
  (`ZMod p` where canonical integer representatives matter), groups are Mathlib
  additive commutative groups / modules, pairings are bilinear maps, FFTs are
  evaluation on the powers of a primitive root of unity.
* Hash functions are parameters. Statements that need collision resistance are
  written as "either equal, or here is a collision".
* Rust panics are explicit error values where a panic is reachable.
* `Arc`, parallel iterators (rayon), serialization derives (except those of Merkle trees and proofs, C93, of Plonk proofs and keys, C94, and of reference strings, openings, signatures and ciphertexts, C95), and cost are not modelled.

## Conventions

* `Verif/<Area>/Model.lean` (or similarly named model files): translation of code.
* `Verif/<Area>/Lemmas*.lean`: helper lemmas.
* `Verif/Props/*.lean`: specification (small, independent of the model) and the
  property theorems `Cxx_…`, each followed by a non-vacuity `example`.
* When the code does not satisfy the English property, the counterexample is a
  theorem `Cxx_…_false` / `Cxx_…_counterexample` about the model with a concrete
  witness, and the strongest true variant is `Cxx_…_partial`.

## Plan per property

| Property | Model | Proof idea |
|---|---|---|
| C01-C03 | trees as an inductive type, operations from `internal.rs`, generic in arity, height, hash | abstraction function tree -> partial map, invariant "canonical" (branch never all-empty), induction on height; canonical trees are determined by their map |
| C04, C06 | `lookup_internal` + `verify_merkle_proof` | induction on height, fold of the path |
| C05, C07, C16 | `verify_merkle_proof`, `verify_merkle_range_proof` | induction from the root, collision extraction. C07: false for proofs of different length, counterexample + partial |
| C08 | traversal path digits | false: `pos` and `pos + capacity` have the same path. Partial: for in-range indices paths are injective |
| C09, C10, C11 | `build_tree_internal`, `extend_internal`, light weight variants | canonical tree of a list, induction on height |
| C12, C13, C14 | `forget_internal`, `remember_internal` | invariants under pruning; C14 expected false, counterexample |
| C15, C16 | range lookup/verify | induction on height |
| C17 | iterators as the DFS list | induction |
| C18-C22 | circuit as list of gates + assignment; gadget = function adding gates; satisfaction = all gates hold | algebra over a field / `ZMod p`; C22 false, counterexample |
| C23, C24 | wire permutation as in code | cycles of one variable; product rearrangement; multivariate identity |
| C25 | `rearrange_gates` on gate lists | permutation of rows; lookup rows counterexample if confirmed |
| C26 | sorted vector construction | multiset invariant; product telescoping |
| C27 | `merge` | list reasoning |
| C28-C30 | limb arithmetic on integers with field equalities | size bounds; C28/C29 counterexamples by concrete numbers |
| C31-C33 | Edwards formulas over a field | `field_simp`/`ring`, completeness lemma, induction over bits/windows |
| C34, C35 | decomposition gates | counterexamples + partial |
| C76 | emulated point constants, selection, equality | from C71, part by part |
| C77 | conversion of points from Weierstrass to Edwards form | polynomial identities for chord and tangent; group argument for points of odd order |
| C78 | what proofs reveal of the witness | invariant function of the proof; counting of mask coefficients |
| C36, C75 | emulated curve additions as chains of emulated operations | exact relation by chaining, law over `ZMod q` with Mathlib's Weierstrass group; counterexamples |
| C37 | Merkle gadget as folding relation | induction on depth |
| C38, C39 | permutations as composition of bijections | power map bijective iff exponent coprime to p-1; invertible matrices |
| C40, C41 | padding and sponge on lists | list reasoning |
| C42, C43 | decoder loop by loop | Lagrange interpolation (Mathlib) |
| C44, C45 | byte chunks and little-endian numbers | list reasoning and `Nat` digits |
| C46-C50 | groups as modules over the field, pairing as bilinear map | polynomial division identities, Toeplitz/circulant = convolution |
| C51, C52 | evaluation tables | induction on variables; C52 counterexamples |
| C53-C56 | groups and abstract hash | group algebra, list induction |
| C57-C59 | algebraic | Lagrange polynomials, linear independence of powers |
| C60 | loop with fuel | invariant |

Details of what is and is not modelled are appended per area as the model grows.

## Merkle trees (`Verif/Merkle`, C01-C17)

Modelled: `merkle_tree/src/internal.rs` (lookup, update, remove, extend, forget, remember,
range lookup and verification, build, light-weight variants), `universal_merkle_tree.rs`,
`append_only.rs`, `light_weight.rs`, proof verification, iterators. Arity, height, hash and
index type are parameters; positions are naturals (`ToTraversalPath` is the digit function).
Concrete hash instances are in a section of their own (C86), gadgets too (C37).
Not modelled here: namespaced trees, serialization (C93).

## Circuits (`Verif/Circuit`, C18-C22, C61-C63)

Modelled: `relation/src/constraint_system.rs` before finalization (variables, gates, range
variables, public inputs, `check_circuit_satisfiability`), `gates/arithmetic.rs`,
`gates/logic.rs`, `gates/lookup.rs`, and all gadgets of `gadgets/arithmetic.rs`, `logic.rs`,
`cmp.rs`, `range.rs`, `ultraplonk/range.rs`, `utils.rs` (truncation) and
`ultraplonk/lookup_table.rs`. The field is `ZMod p` for a prime `p`. A gadget is a function from circuits
to a result and a new circuit (with the stored witness, as in the code).
`Sat` is the declarative reading of the satisfiability check for an arbitrary assignment;
`checkSat_ok` proves it equivalent to the model of the check itself.
`Correct` (in `Props/CircuitSpec.lean`) says: soundness against every assignment,
completeness for every assignment, success on the honest prover's data, unchanged frame, and
independence of the circuit from the witness.

Not modelled: `wire_variables` index arithmetic (a gate is a row with its five wires), the
`GATE_WIDTH` constant other than 4, the `witness` overwrite helper `witness_mut`.

## Utilities (`Verif/Util`, C42-C45)

Modelled: `utilities/src/reed_solomon_code.rs` (all three functions, loop by loop, over an
arbitrary field; `Radix2EvaluationDomain` is the list `offset * g^i`) and
`utilities/src/conversion.rs` (all functions; SHA-512 is a parameter). Prime fields are `ZMod p`,
extension field elements are lists of coordinates, `BigInt` has `ceil(bits/64)` words, `usize` is
64 bits. Not modelled: `par_utils`, `serialize` (except `canonical`, C93), `multi_pairing`, `hadamard_product`.

## Univariate KZG (`Verif/Pcs`, C46-C50, C64)

Modelled: `pcs/src/univariate_kzg/srs.rs` (`gen_srs_for_testing`, trimming),
`pcs/src/univariate_kzg/mod.rs` (commit, open, batch and multi-point variants, verification, FK23
openings), `pcs/src/toeplitz.rs`, `pcs/src/poly.rs`, the FFT helpers of `pcs/src/lib.rs`.
Groups are modules over the field, the pairing is a bilinear map (target group written additively),
sampled values are arguments. Polynomial division, multiplication, MSM, FFT and radix-2 domains are
arkworks; they are given by short reference definitions (`Poly.lean`, `Domain`). Mixed-radix domains,
the GPU code, transcripts and the error variants' messages are not modelled.
`Verif/Util/Toy.lean` is a field with 101 elements for examples only.

## Signatures, VRF, ElGamal (`Verif/Sig`, C53, C55, C56, C60, C65-C68)

Modelled: `signature/src/schnorr.rs` (keys, randomization, sign, challenge, verify, key bytes) over
an abstract commutative group for the whole curve with scalar multiplication by the integer
representative; `signature/src/bls_over_bn254.rs` (sign, verify, aggregation, multi-signatures,
unchecked variants, `hash_to_curve` over `ZMod p` with an arbitrary square root function);
`signature/src/bls_over_bls12381.rs` (textbook BLS instead of `blst`, canonical serialization with
an abstract codec); `vrf/src/blsvrf.rs`; `elgamal/src/lib.rs` with abstract Rescue permutation.
Not modelled: tagged base64, `Ord` on keys, sampling, zeroization (AEAD: see C90). The circuit gadgets of Schnorr and ElGamal are not part of this section.

## Rescue (`Verif/Hash`, `Verif/Circuit/Rescue*`, C38, C40, C41, C69, C70)

Modelled: `rescue/src/lib.rs` (vector and matrix operations, PRP, key schedule, permutation),
`sponge.rs` (`absorb`, `squeeze_native_field_elements`), `crhf.rs`, `prf.rs`, `commitment.rs`, and the
gadgets `gadgets/native.rs`, `gadgets/prf.rs`, `gadgets/commitment.rs`. The five parameter sets of
`rescue/src/rescue_constants` are in `RescueConsts.lean` as numbers (generated from the byte strings of
the source); the two placeholder sets (all zero) are one definition. The moduli are arkworks constants,
copied; `Verif/Util/Fields.lean` proves them prime with checked certificates
(`Verif/Util/Primality.lean`).
Not modelled: `rescue/src/permutation.rs` (not compiled, absent from `lib.rs`),
`sponge.rs` functions that are `unimplemented!()`, `errors.rs`.

## Poseidon2 (`Verif/Hash/Poseidon2*`, C39, C40)

Modelled: `poseidon2/src/lib.rs` (`permute_mut`, `sanity_check`), `external.rs`, `internal.rs`,
`crhf.rs`, and the parameter sets of `constants/{bls12_381,bn254}.rs` as numbers (generated from the
source, checked with the test vectors of the source).
The sponge itself is the external crate `spongefish`, whose source is not in the sandbox. `absorb`,
`squeeze` and `hash` are a reference model of its documented duplex construction (overwrite mode, permute
when the rate is used up, permute before squeezing); C40 statements about outputs rest on it, the padding
statements do not.
Not modelled: `permutation.rs` (wrapper and zeroization).

## Emulated (non-native) arithmetic (`Verif/Circuit/Emulated*`, `Verif/Circuit/Limbs.lean`, C28, C29, C71)

Modelled: `relation/src/gadgets/emulated.rs` (all functions; not the trait
`SerializableEmulatedStruct`, which the file only declares). An `EmulationConfig` is a record `Emu` of modulus, `T`,
`B`, `n`; `Emu.OK p` collects what the code needs of it (checked for both configurations of the crate). An
emulated field element is its integer representative. Hints (quotients and carries) are separate arguments
of the `...With` definitions, so that adversarial hints can be substituted.
`Props/EmulatedSpec.lean` states what it means for a gadget to force exactly a relation.

## Emulated curve additions (`Verif/Circuit/EmulatedCurve.lean`, `Verif/Props/Emulated{Chain,Honest,Sw*,Te*}.lean`, C36, C75)

Modelled: `relation/src/gadgets/ecc/emulated/short_weierstrass.rs` and `twisted_edwards.rs`, all functions (the
`SerializableEmulatedStruct` impls are not). The long function
`emulated_sw_ecc_add_gate` is cut into `swFlags`, `swDouble`, `swChord`, in the order of the code. Witness points are
pairs of integers below `q` (plus the infinity mark).
`SwRel` and `TeRel` say what the sequence of calls expresses for any meaning of "multiplication" and "addition". The
chain files prove that the circuit accepts exactly the triples for which they hold with the relations the crate's gates
really force (`MulRel`, `AddRel` of C28, C29), and that with the field operations of `ZMod q` they are the group law
(Mathlib's `WeierstrassCurve.Affine.Point`; `edAdd` of `Verif/Util/Edwards.lean`) up to the cases below.
`Possible p E a P Q R`: three new point variables and the gate; some satisfying assignment has these values.

Findings. (1) Inverted check for opposite points: `P + (-P) = O` is rejected and every other finite point is accepted.
(2) The infinity mark of a finite sum is free. (3) Wrong doubles are accepted, because `AddRel` is not addition modulo
`q`, in both configurations; the same for the Edwards gate. (4) `d` of BLS12-377 in Edwards form is a square, so the
Edwards addition is not complete; `emulated_te_ecc_add` divides by zero for some points of the curve.

`Props/EmulatedPoints.lean` (C76): constants, selection, equality test and equality constraint of these points, for all
assignments. Public point variables are modelled without a theorem.

## Conversion between curve forms (`Verif/Circuit/SwToTe.lean`, `Verif/Util/SwToTe.lean`, `Verif/Props/SwToTe.lean`, C77)

Modelled: `relation/src/gadgets/ecc/conversion.rs` (all constants, limb by limb) and `TEPoint::inverse`; division by zero
is a panic, as in `ark-ff`. Not modelled: the other conversions of `TEPoint` (they copy coordinates; `Affine::new` checks
the curve and the subgroup). `Util/SwToTe.lean` proves for any parameters meeting `TeParams` that the map takes chord
and tangent sums to Edwards sums, and that on points of odd order no denominator is zero; `params377` proves the
conditions of the crate's constants. That the order of `G1` is odd is arkworks' (the order is the scalar field prime).

Findings: the conversion panics on curve points of order 2 and 4, and on every finite point for BN254, BLS12-381 and
BW6-761, where the constants are zero.

## Two-limb modular arithmetic (`Verif/Circuit/ModArith*`, C30)

Modelled: `relation/src/gadgets/ultraplonk/mod_arith.rs`, except the getters, `FpElemVar::zero/one` and
`witness_fp_elem`. The integer quotient and carries computed with
`BigUint` are natural numbers; hints are separate arguments, so adversarial hints can be substituted.
`Props/ExactSpec.lean` gives the general form of the statements: which outputs are accepted, for which inputs the
stored witness is accepted, and what it is.

## Elliptic curve gadgets (`Verif/Circuit/Ecc*`, `Verif/Circuit/Curves.lean`, `Verif/Util/Edwards.lean`, C31-C33)

Modelled: `relation/src/gadgets/ecc/mod.rs` (point variables, selection, equality, neutrality, negation, curve
equation, addition, fixed-base and binary variable-base scalar multiplication) and `relation/src/gates/ecc.rs`. Not
modelled there: conversions between `TEPoint` and arkworks points, and the wrappers returning them.
The curve is a record of `a`, `d` and the order of the scalar field. The constants of the five curves
(`Curves.lean`) are arkworks constants, copied by hand; that they satisfy the conditions used (`a` square, `d` not
square, and so on) is proved. The native group operations of arkworks are the affine addition law
(`Edwards.lean`), proved associative wherever it is defined; the
theorems on scalar multiplication speak of sets of points on which it is total (`EdGroup`).
For BLS12-377 in Edwards form the set is `te377` (`Props/SwToTe.lean`), the points of odd order.

## Multi-scalar multiplication (`Verif/Circuit/Msm*`, `Verif/Circuit/Tables.lean`, `Verif/Props/TableSpec.lean`, C34)

Modelled: `relation/src/gadgets/ecc/msm.rs` completely (the naive and the windowed version, with their lookup tables).
`ark_std::log2` and the native scalar multiplication are modelled, see the header of `Msm.lean`. `MsmLoop.lean` contains
proof-side variants of the loops in which the window values are chosen by the prover; the model is proved equal to the
instance with the honest values. `TableSpec.lean` is the form of exact statements for gadgets that create lookup tables.
The theorems need the bases to lie in a set with a total addition law, see the previous section; the gadget does not
check this.

## Scalar multiplication with an endomorphism (`Verif/Circuit/Glv*`, `Verif/Props/Glv*`, C35)

Modelled: `relation/src/gadgets/ecc/glv.rs` completely and `variable_base_scalar_mul`. The big integer arithmetic of the
decomposition (num-bigint) is modelled with Lean's integers. The values the prover puts into the new variables are
parameters of the model (`f`, `g`), so that the same constraints can be run with the honest and with other values.
`GlvNum.lean` contains the arithmetic of the decomposition: bounds of the halves and the halves of `s + q`.
Not proved: that the endomorphism is multiplication by lambda on the whole subgroup. It is a hypothesis on the point
(`Eigen`), checked in the kernel for the generator.

## Schnorr verification circuit (`Verif/Circuit/SchnorrGadget.lean`, `Verif/Props/SchnorrCircuit.lean`, C54)

Modelled: `signature/src/gadgets/schnorr.rs` completely, on top of the Rescue and curve gadgets. The native side is
`Verif/Sig/Schnorr.lean` with the points of a group `EdGroup` and the Rescue hash filled in. Key and nonce point are
assumed to lie in that group: neither the gadget nor `create_point_variable` checks this.

## ElGamal encryption circuit (`Verif/Circuit/ElGamalGadget.lean`, `Verif/Props/ElGamalCircuit.lean`, C79)

`elgamalEncrypt` follows `elgamal/src/gadgets.rs`: `variable_base_scalar_mul` of the key (the model of C34/C35, which
depends on the kind of circuit), the Rescue permutation of the two coordinates, counter mode over padded blocks,
`fixed_base_scalar_mul` for the ephemeral key. The native side is `Verif/Sig/ElGamal.lean` instantiated with the points
of the curve and the model of Rescue (`scheme`). `then_encrypt` shows what is appended after any exact multiplication.

In circuits with lookups the two multiplications read the randomness differently: `fixed_base_scalar_mul` unpacks it to
bits, `msm` takes any number below `2^windowBits` that is equal to it in the field. `C79_lookup` and `C79_bandersnatch`
state exactly which ciphertexts occur.

Not modelled: the error text, `PhantomData`, the trait plumbing. The public key variable is not checked by the code;
theorems assume it holds a point of the curve.

## Verifier circuit (`Verif/Circuit/Verifier*.lean`, `Verif/Props/VerifierCircuit.lean`, C80)

`VerifierPoly.lean` follows `plonk/src/circuit/plonk_verifier/poly.rs`: `evaluate_poly_helper`,
`evaluate_pi_poly_circuit` (for merged circuits, its only use) and `compute_lin_poly_constant_term_circuit`, over the
two-limb arithmetic of C30. Elements are read back with `FpElemVar::witness` and `field_switching`, which panics above
the modulus. The model returns the sums used as factors next to the result; the code does not return them.

* `VerifierSpec.lean`: one step of arithmetic modulo `Q`; `Hol` says what the builder stores, `El` what an assignment
  stands for. Results of additions have unchecked limbs, so nothing follows about their use as factors unless they are
  in range.
* `VerifierEval.lean`, `VerifierPi.lean`, `VerifierConst.lean`: the three functions. `VerifierNative.lean`: their values
  are those of the native verifier (`Verif/Plonk/Verifier.lean`).
* `VerifierAdv.lean`: the same gates with other hints for one sum and one product, found for BLS12-377 by lattice
  reduction; the numbers are checked by the kernel.

The parameters `Params` ask for a native field with `k + 2` more bits than two limbs; `I377_params` proves it for the
configuration in use. Challenges come from `new_unchecked`; that their limbs are in range is an assumption of the
soundness theorems. Not modelled: the group operations, the transcript circuit and the linearization scalars.

## Merkle gadgets (`Verif/Circuit/MerkleGadget.lean`, `Verif/Props/MerkleCircuit.lean`, C37)

Modelled: `merkle_tree/src/gadgets/mod.rs` (`constrain_sibling_order`, `RescueDigestGadget`, `create_membership_proof_variable`, `is_member`, `enforce_membership_proof`) and `gadgets/universal_merkle_tree.rs` (`create_non_membership_proof_variable`, `is_non_member`, `enforce_non_membership_proof`). The hash is the Rescue sponge of `prelude.rs:53-65` over any permutation `f` that the Rescue gadget computes (`HashOk`; `perm_exists` gives one for every shipped parameter set). Positions are natural numbers; `F::from` of a position is its residue.

Proved, for every depth and every assignment: the gadgets compute the native folding along the path encoded by the bits (`C37_*_circuit`). Membership agrees with the native verifier up to the check that the leftmost label of each level is not zero (`C37_member_agrees_partial`). That check makes the circuit reject honest proofs of trees with gaps (`C37_sparse_counterexample`), and it is harmless for trees filled from the left (`C37_member_complete_partial`). The index variable is not tied to the path bits (`C37_flow_adversary`, `C37_index_counterexample`); against commitments of real trees the leaf hash ties them, up to an explicit collision or zero label (`C37_sound_on_trees`). Non-membership is the native verifier on the proof with its all-zero bottom levels emptied (`C37_nonmember_exact`, `C37_nonmember_flow_iff`), complete for trees without zero labels, sound for trees; positions are seen modulo the field (`C37_alias_counterexample`), and the circuit shape depends on which levels are empty (`C37_nonmember_shape_counterexample`).

Collision clauses name the two inputs, which are read off the assignment and the tree's own proof: a clause "some collision exists" would be true of every compressing hash.

Not modelled: the `u64` and `BigUint` index types apart from their values; `MerkleTreeGadget` for other tree types.

## Multilinear KZG (`Verif/Pcs/Multilinear*.lean`, `Verif/Props/Multilinear.lean`, C51, C52)
Modelled: `pcs/src/multilinear_kzg/{mod,srs,util,batching}.rs`: `commit`, `open_internal`, `verify_internal`, `batch_commit`, `batch_open_internal`, `batch_verify_internal`, `trim`, `gen_srs_for_testing` with its helpers, `merge_polynomials`, `build_l`, `compute_w_circ_l`.
- A multilinear polynomial is its table of evaluations. The pairing is bilinear between modules over the scalar field, as for univariate KZG.
- Trusted about dependencies: `multi_pairing` panics on inputs of different lengths (arkworks uses `zip_eq`); `evaluate` of dense multilinear extensions is repeated folding; `ifft` is the inverse transform.
- The transcript challenge is an arbitrary function of the commitment, the points and the commitment to `q`.
- The generated parameters are built per variable; the code multiplies all of them with the generator at once and cuts the result into slices, which gives the same vectors.
- Not modelled here: serialization, the transcript (C52 is about every challenge function; see C89).

## Finalized circuits and copy constraints (`Verif/Plonk`, `Verif/Props/{Finalize,CopyConstraints}.lean`, C23-C25)
Modelled: `relation/src/constraint_system.rs`: `finalize_for_arithmetization`, `pad`, `rearrange_gates`, `compute_wire_permutation`, `compute_extended_id_permutation`, `compute_extended_permutation`, `compute_prod_permutation_polynomial`; `relation/src/constants.rs`: `compute_coset_representatives`.
- Circuits are the ones of `Built`: any interleaving of new variables, plain gates, public inputs, range checks and lookup tables. Gates only use variables that exist (`insert_gate` does not check it).
- Random coset representatives are drawn from an arbitrary list. Running out of the list is an error value; the code would go on drawing.
- `Vec::swap` out of bounds, division by zero and indexing out of bounds are the error `panic`.
- The product polynomial is the list of its coefficients, without stripping trailing zeros.
- Proved: the permutation links exactly the slots of one variable, on every finalized circuit. Completeness of the product for every assignment and every challenge pair. The code's polynomial takes the accumulator's values on the domain, or the code panics on a vanishing denominator. Soundness is counted: at most `2 * slots * field` pairs of challenges are bad for a table that violates a copy constraint.
- C25 holds for TurboPlonk. For UltraPlonk it holds when no table row lies among the first rows taken by public inputs or on the last two rows of the domain (`TablesPlaced`). Three counterexamples show that the condition is needed.
- Not modelled: the selector polynomials.

## Lookup argument (`Verif/Plonk/{Lookup,SortedVec,LookupLemmas}.lean`, `Verif/Props/LookupArgument.lean`, C26)
Modelled: `relation/src/constraint_system.rs`: `compute_range_table`, `merged_table_value`, `merged_lookup_wire_value`, `compute_merged_lookup_table`, `compute_lookup_sorted_vec_polynomials`, `compute_lookup_prod_polynomial`.
- The hash map from values to numbers of lookups is a function; absent keys have the value zero.
- `F::from(i as u32)` is the cast of `i % 2^32`. The theorems are for ranges of at most 32 bits.
- Proved of the code: the sorted vector exists exactly when all looked-up values of the rows but the last are in the merged table. It is a merge in the order of the table. The product closes for all challenges; the returned polynomial satisfies the row equations, or the code panics on a vanishing denominator.
- Proved about adversaries: for any assignment and any vector in place of the sorted one, a looked-up value outside the table leaves at most `6 * size * |F|` pairs of challenges. An assignment that violates a range check or lookup leaves at most `4 * size` merging challenges. The latter needs regularly placed tables (`TablesPlaced`), with two counterexamples.

## Merging circuits (`Verif/Plonk/{Merge,MergeLemmas}.lean`, `Verif/Props/Merge.lean`, C27)
Modelled: `relation/src/constraint_system.rs`: `finalize_for_mergeable_circuit`, `merge`.
- The same list of random elements is used for both circuits, because the code draws coset representatives from a generator with a fixed seed.
- Proved: the merged circuit exists, is satisfied with concatenated inputs exactly when both circuits are, and its rows hold with the inputs of the second circuit counted from the last row backwards. Its wire permutation links exactly the slots of one variable, so the permutation product is complete and sound. The sigma and selector values of the merged circuit are the sums of those of the two circuits, which is what `ProvingKey::merge` and `VerifyingKey::merge` rely on.
- Circuits without public inputs panic (`pub_input_gate_ids[0]`), so C27 is partial.
- Not modelled: the merged keys themselves (`plonk/src/proof_system/structs.rs`).

## Lagrange coefficients and public inputs (`Verif/Plonk/{Lagrange,LagrangeLemmas}.lean`, `Verif/Props/Lagrange.lean`, C57)

Modelled: all of `plonk/src/lagrange.rs`, `evaluate_pi_poly` of the verifier and
`compute_pub_input_polynomial`. Arkworks parts taken as given: the vanishing polynomial value
`τ^n - h^n`, `batch_inversion` (zeros stay), the FFT. The specification of a coefficient is Mathlib's
`Lagrange.basis`. Finding: on a domain of one point the combined function is wrong at that point.

## PLONK verifier (`Verif/Plonk/{Verifier,ConstraintSpec,VerifierLemmas}.lean`, `Verif/Props/Verifier.lean`, C58, C59, C72)

Modelled: `plonk/src/proof_system/verifier.rs` from the challenges on (`prepare_pcs_info`,
`compute_lin_poly_constant_term`, `linearization_scalars_and_bases` with its lookup part,
`aggregate_poly_commitments`, `aggregate_evaluations`, `batch_verify_opening_proofs`), and
`verify_batch_proof` and the final check of `batch_verify` in `snark.rs`.
- Challenges are arbitrary; the transcript is not modelled here. The challenge combining several openings is an
  arbitrary function of the list of `u`.
- Groups are modules over the scalar field. The hash map of the multi-scalar multiplication is a list.
- `usize` underflow panics, as in a debug build. It occurs only for proofs without wires.
- The specification (`ConstraintSpec.lean`) writes down the constraints of TurboPlonk and UltraPlonk as polynomials,
  instance by instance, without the linearization. `combine` multiplies them by the verifier's powers of alpha.
- C59: for proofs of the prescribed shape, the equation the verifier checks is the statement that the combined
  constraints are the vanishing polynomial times the quotient at the challenge point. "Can be met" is quantified
  over opening polynomials; under KZG the equation is taken at the secret point (`C59_kzg`). What is outside is that
  KZG openings bind, which is an assumption about the group.
- C58: the powers of alpha given to different constraints are disjoint for batches of one kind of circuit, for
  batches whose first circuit is UltraPlonk, and for batches in which only the last one is. For all other mixed
  batches they overlap, and a batch with an unsatisfiable circuit is accepted for all challenges. The prover refuses
  mixed batches, the verifier does not.
- C72: lengths of the lists in a proof are not checked. A batch proof with ten wire commitments and two evaluation
  entries for one circuit shifts the pairing of evaluations and commitments such that copy constraints are no longer
  checked.

## From the circuit to the verifier (`Verif/Plonk/{Keys,Degrees}.lean`, `Verif/Props/EndToEnd.lean`, C73)

Modelled: `preprocess` of `plonk/src/proof_system/snark.rs` and the polynomials of `relation/src/constraint_system.rs`
it uses (`compute_selector_polynomials`, `compute_extended_permutation_polynomials`, the table polynomials), and
`compute_wire_polynomials`.
- Coefficient lists of an inverse transform are kept without stripping trailing zeros.
- The coset representatives of the verifying key come from the same list as those of `finalize`; the code uses a
  generator with a fixed seed in both places.
- `KeyOf` says, without the model of preprocessing, which polynomials belong to a finalized circuit. `C73_key` shows
  that they exist and `C73_preprocess` that preprocessing commits to exactly them.
- `C73_sound` is a game. Wires are fixed first, then `τ`, the sorted vectors, `β` and `γ`, the products, `α`, the
  quotient parts, `ζ`, the claimed values, `v`, the openings, `u`. In every round the theorem bounds the number of
  challenges for which the prover does not lose. The last round is the secret of the reference string. The prover's
  polynomials must have degree at most `n + 2` (the size of the commitment key), otherwise they are arbitrary.
- Outside the theorem: provers that do not know polynomials for their commitments (the algebraic group model is
  the usual assumption), and the derivation of challenges by hashing.

## Single proofs (`Verif/Plonk/Snark.lean`, `Verif/Props/Snark.lean`, C92)

Modelled: `prove`, `verify` and `batch_verify` of `plonk/src/proof_system/snark.rs`, on top of the models of the prover
and the verifier.
- `batch_verify` zips its four slices; the model has the check of the lengths, the zip, the preparation of each proof
  with its own transcript, and the combined check of the openings with the key of the first instance.
- With the feature `parallel` it is not fixed which of several errors is returned. The model returns the first, and
  theorems only speak about there being an error.
- The challenge that combines the openings is an arbitrary function of the last challenges of the proofs.
- Theorems assume that all keys have the same part of the reference string, as a comment in the code does. The code does
  not check it. Finding: for keys of different reference strings the answer for the list is neither implied by nor
  implies the answers for the proofs, with evaluated witnesses in both directions.

## Serialized trees and proofs (`Verif/Merkle/Serde{,Raw}.lean`, `Verif/Props/MerkleSerde{,Raw}.lean`, C93)

Modelled: `utilities/src/serialize.rs` `canonical::{serialize,deserialize}`; the serde derives of `MerkleNode` and of the
tree structs (`internal.rs`, `macros.rs`); the canonical serialization of `MerkleTreeProof`, `MerkleTreeRangeProof`
(`internal.rs`) and of node values (`hasher.rs`, `prelude.rs`).
- The derives map to and from the serde data model (`Val`), fields in the declared order. Formats (`bincode`, JSON), which
  could reorder, skip or repeat fields, and the text of tagged base64 (also `#[tagged]` of the proofs) are not modelled.
- Canonical serialization of a type is a pair of a writer and a reader of bytes (`Codec`). Elements, positions and node values
  have arbitrary codecs; theorems assume that they read back what they write (`Faithful`) or read only what they would
  write (`Exact`), which is proved for integers and for byte nodes. Vectors, integers and `read_exact` are from the
  documentation of arkworks. `Vec` lengths are `u64`; allocation is not modelled.
- A `Branch` whose children are not `ARITY` many is accepted by the code. `Node` cannot represent it (error `children`), so
  there is a second model with vectors of children (`RNode`) for serialization and lookup; the two agree on trees of the
  arity (`C93_raw_arity`, `C93_raw_lookup`). Other operations on such trees are not modelled.
- Findings: bytes behind a value are ignored, so that a tree has many serialized values; nothing of a tree is checked, so
  that lookups in a deserialized tree may return proofs its own commitment rejects, malformed proofs, or panic.

## Serialized proofs and keys (`Verif/Plonk/Serde.lean`, `Verif/Props/PlonkSerde.lean`, C94)

Modelled: the canonical serialization derives of `Proof`, `BatchProof`, `PlookupProof`, `ProofEvaluations`,
`PlookupEvaluations`, `VerifyingKey`, `ProvingKey` and their lookup parts (`structs.rs`), and of the univariate prover and
verifier parameters (`srs.rs`), on the codecs of C93.
- A derive is the fields in their declared order. `Vec`, `Option`, `bool`, `usize` (as `u64`) and field elements are from the
  documentation of arkworks. Curve points have arbitrary codecs; that they read back what they write and refuse other
  encodings of a point is a hypothesis (of the second half only for the claim that accepted bytes are the ones written).
- Not modelled: `#[tagged]` (text), serde, uncompressed mode (same derives, another codec of points), validation of points.
- Findings: `prepare_pcs_info` does not check the lengths of the vectors in a proof. A batch proof without entries in
  `plookup_proofs_vec`, or a proof without wire evaluations, is read from bytes and makes the verifier panic instead of
  returning an error, with honest keys. With as many entries as the prover writes (`KeyShape`, `ProofShape`) it always
  answers (`C94_answer`).

## Serialized reference strings, openings, signatures and ciphertexts (`Verif/{Pcs,Sig}/Serde.lean`, `Verif/Props/CryptoSerde.lean`, C95)

Modelled: the canonical serialization derives of `pcs/src/univariate_kzg/{srs,mod}.rs`, `pcs/src/multilinear_kzg/{srs,mod}.rs`,
of `VerKey` and `Signature` in `signature/src/schnorr.rs`, and of the keys and ciphertexts in `elgamal/src/lib.rs`, on the codecs
of C93 and C94.
- Codecs of points are parameters. `C95_verification_key` takes one that reads only points of the group of the generator, as
  arkworks does when it validates; `C95_neutral_key_counterexample` one that reads the neutral element, as arkworks does.
- Not modelled: text (`#[tagged]`), uncompressed mode, reading without validation.
- Findings: no consistency is checked when reference strings and key pairs are read; see the manifest.

## Keys as tagged text (`Verif/Sig/Tagged*.lean`, `Verif/Props/Tagged*.lean`, C96)

- Modelled: `to_tagged_base64` and `TryFrom<TaggedBase64>` of signing keys and key pairs in the signature crate. The two
  `TryFrom` instances of each type, by value and by reference, have the same body and are one function.
- External and modelled after documentation: the crate `tagged_base64` (tag, `~`, URL base 64 without padding, checksum byte at
  the end, trailing bits refused) and `blst::SecretKey` (32 bytes big endian, zero and integers from the order on refused).
  The checksum is a parameter; the theorems hold for any. Only `C96_base64`, `C96_text` and the parse clauses depend on the
  layout of the text.
- `C96_bls12381` takes the order as a parameter below `256 ^ 32`; the counterexample uses the two orders as numbers.
- `Verif/Sig/TaggedDerive.lean`, `Verif/Props/TaggedDerive.lean`: the text made by the attribute `#[tagged]`, for any type
  with a sound encoding (C93, C94, C95). That the attribute calls `deserialize_compressed` on the bytes and does not look at
  what follows is trusted from its documentation. The tags of Plonk proofs come from an external crate and are a parameter.
- Not modelled: `serde` of tagged types in binary formats.

## Prover and transcript (`Verif/Plonk/{Transcript,Prover*}.lean`, `Verif/Props/Prover.lean`, C74)

Modelled: `batch_prove` and `batch_prove_internal` of `plonk/src/proof_system/snark.rs`, all of
`plonk/src/proof_system/prover.rs` (five rounds, quotient, splitting, linearization, openings), and
`compute_challenges` of `verifier.rs`.
- The randomness of the prover is a parameter: `Masks` for the masks of each instance, `quotMask` for the splitting of
  the quotient. Theorems hold for every value.
- A transcript is the list of the calls of its methods. A challenge is an arbitrary function of that list.
- A constraint system is seen through the results of the methods of `Arithmetization` that the prover calls
  (`Arith`); `FCirc.arith` is the one of a finalized circuit.
- Fast Fourier transforms are evaluation and interpolation on the domain or coset. Polynomials are coefficient lists,
  with trailing zeros stripped where the Rust type strips them.
- A division by zero, a failed assertion or an index out of range is an error value.
- `Honest` says what the inputs are: a satisfied circuit that can be built, finalized and preprocessed with a large
  enough reference string, with tables placed as in C73.
- `ProverPoly` and `ProverQuot` relate coefficient lists to polynomials, `ProverSplit` and `ProverOpen` treat quotient
  and openings, `ProverRun` the whole prover on polynomials, `ProverCircuit` ties it to circuits.
- `C74_honest` is conditional on the prover returning a proof. `C74_outcome` lists the outcomes for satisfied circuits:
  a zero denominator at the challenges drawn (`Defined` fails), a quotient of the wrong degree, a zero coefficient or
  randomizer while splitting, or an accepted proof; no other error occurs. `C74_degree` says for one circuit when the
  degree is wrong (`α` or one of the last randomizers is zero). Over two points the degree is always wrong, so the empty
  circuit has no proof (`C74_two_rows_counterexample`). `ProverTotal` and `ProverOutcome` (both in `Verif/Plonk`) show
  that the other steps never fail. Probabilities are not modelled.
- `Verif/Props/ProverRare.lean` counts failures: `C74_batch_degree`, `C74_batch_rare` (degree of the quotient of a batch) and
  `C74_defined_rare` (denominators). The last count is for given `τ`, `β` and witness; that the oracle spreads `γ` is not modelled.

## What a proof reveals (`Verif/Plonk/Hiding.lean`, `Verif/Plonk/HidingTurbo.lean`, `Verif/Props/Hiding.lean`, `Verif/Props/HidingTurbo.lean`, C78)

Uses the model of the prover. For lookups the masks are universally quantified; without lookups they are counted, that
is, taken to be uniform.
- With lookups the prover masks wires 3 and 4 by `(a + b X) Z_H` and reveals three values of each: the commitment (a
  value at the secret of the reference string) and the evaluations at `ζ` and `ζ g`. `trace` is the combination in which
  `a` and `b` cancel. It uses only the proof and the public powers in the reference string.
- `C78_ultra_counterexample` gives two witnesses for one key, without public inputs, and a test that is true of every
  proof for the first and false of every proof for the second, for an oracle whose `ζ` is 7.
- Without lookups `C78_turbo_hiding` compares two witnesses of the same circuits (same keys, same inputs): for every set
  of proofs, the number of choices of the `13 len + 4` random field elements that lead into the set differs at most by
  the number of choices for which splitting the quotient fails and of those with degenerate challenges (`ζ` in the
  domain, `ζ` or `ζ g` the secret, a denominator of the permutation product zero). `C78_turbo_rare` bounds the
  degenerate challenges. Proof: `profile` lists the values of the masked polynomials at the secret and at `ζ`; it is a
  bijection of the randomness, and the proof is a function of it (`shown_same`). The splitting of the quotient is replaced
  by one that never fails (`IdealSplit.lean`). The challenges come from an arbitrary fixed function of the transcript,
  so nothing is said of the probability of degenerate challenges, nor of simulators.

## Challenges in the verifier circuit (`Verif/Plonk/RescueTranscript.lean`, `Verif/Circuit/Transcript{Var,Spec}.lean`, `Verif/Props/Transcript{Circuit,Counter}.lean`, C81)

Modelled: `plonk/src/transcript/rescue.rs` (all methods), `plonk/src/circuit/transcript.rs` (all methods),
`compute_challenges_vars` of `plonk/src/circuit/plonk_verifier/gadgets.rs`.
- The conversion of a commitment to twisted Edwards form is a parameter `te`; the theorems need it to succeed. Labels are
  ignored by the code and by the model. `rescueOracle` turns the transcript into a function of the calls, the form in
  which `compute_challenges` is modelled (C74); a failure counts as zero, and the proofs show that there is none.
- `challengesVars` also returns the variables of hashes, truncated hashes and message, so that theorems can speak of
  them.
- `Input` says which native keys, inputs and proof the values of an assignment are. Lookups are excluded, as in the
  circuit.
- The proofs treat the six truncations as parameters (`challengesW`). The code's choice gives `challengesVars`
  definitionally; `truncateWith` is a prover who truncates differently. The circuit does not depend on the choice
  (`challengesW_rel`), which gives the counterexamples.
- `TranscriptCounter` evaluates the shipped permutation over the base field of BLS12-377 in the kernel.

## What the transcripts bind (`Verif/Plonk/{ByteTranscripts,TranscriptBinding}.lean`, `Verif/Props/TranscriptBinding.lean`, C82)

Modelled: `plonk/src/transcript/standard.rs`, `plonk/src/transcript/solidity.rs` and the default methods of
`plonk/src/transcript/mod.rs`; `verifierCalls` is the list of calls of `compute_challenges`, tied to the older model of it
by `challenges_u`.
- The crate `merlin` is not modelled: its transcript is the list of labelled operations, a challenge any function of it.
  That `merlin` itself separates these lists (framing by lengths, STROBE) is outside.
- Compressed serializations of points (`to_bytes!`) are parameters, assumed injective (and of fixed length for the
  element of the reference string). Field elements, `usize` and the big-endian points of Solidity are modelled byte by byte.
- Keccak and the Rescue permutation are arbitrary functions. A collision means two different strings among those hashed
  in the two runs (`solQueries`, `rescueQueries`), not mere existence.
- Hypotheses: what the verifier checks before it uses challenges (`Checked`), sizes that fit a `usize` (`Usable`), and
  for the transcripts without labels keys with equally many commitments (`SameShape`); the last is necessary.
- For Rescue the conversion of commitments to Edwards form is total and injective (C77 for points of odd order).
- Not in the theorems: the probability that challenges repeat; what follows for soundness when keys are chosen after
  the challenges.

## The points of the verifier circuit (`Verif/Circuit/Verifier{Agg*,Combine}.lean`, `Verif/Plonk/BatchArg.lean`, `Verif/Props/VerifierPoints.lean`, C83)

Modelled: `linearization_scalars_and_bases_circuit` of `plonk/src/circuit/plonk_verifier/poly.rs`, the rest of
`gadgets.rs` and `mod.rs` (`partial_verify_circuit`, `VerifyingKeyVar::merge`, `aggregate_verify_keys`),
`non_native_power_5_gen`; on the native side `batch_arg.rs` (`partial_verify`, `aggregate_verify_keys`, `decide`) and
`VerifyingKey::merge`, `ProvingKey::merge` of `structs.rs`.
- Commitments are elements of a group `G` of exponent `Q` with a homomorphism `τ` into the points of the twisted Edwards
  curve (`EdGroup`, on which the addition law is total); the conversion to Edwards form is `coord τ`.
- `Setup` collects the conditions on the parameters, `Turbo` the shape of keys and proof the circuit is written for,
  `Data` says which native keys, inputs and proof an assignment holds.
- `rest_spec` follows the scalars from the challenges on (with `El`/`Hol` of C80), `combine_tspec` the multi-scalar
  multiplications (C34); `VerifierAggNative.lean` shows that the sums are those of `prepare_pcs_info`.
- The multi-scalar multiplication uses windows of 5 bits, 255 for scalars of 253; `wide` in `Setup` says that these with the
  possible excess of unreduced scalars stay below the native modulus, so that the failure of C34 does not occur.
- As in C80, sums that are used as factors have unchecked limbs; the theorem on any assignment assumes them (and the
  challenges) in range. The challenges are those of C81, cut from some representative of each hash.
- The theorems start from a circuit in which keys, inputs and a proof are stored (`Exist`, `Data`); the storing is C88.
- Examples (`Props/VerifierPointsEx.lean`): the hypotheses hold for BLS12-377 with the shipped Rescue constants, commitments in
  the subgroup of order `r` (the generator's order is computed by a ladder in Jacobian coordinates, `Util/WeierLadder.lean`)
  and the homomorphism of C77; the evaluation challenge of the example transcript is a pinned number.

## The batch argument (`Verif/Plonk/{BatchArg,BatchArgProve,MergedKey,ProverMerged}.lean`, `Verif/Props/BatchArg.lean`, C84)

Modelled: the rest of `plonk/src/proof_system/batch_arg.rs` (`Instance`, `setup_instance`, `batch_prove`), on top of C27 (merging
of circuits), C73 (keys, soundness) and C74 (prover). The functions for tests at the end of the file are not modelled.
- `Instance` has no field for the type: the code stores it and never reads it.
- `KeyOf`, `Frame` and `Provable` of C73 and C74 are stated for merged keys as well: the public inputs of the second circuit
  are then on the last rows in reverse.
- `MergedKey.lean`: the sum of the proving keys is the key of the merged circuit, for any reference string.
- `ProverMerged.lean`: with this key the constraints of a merged circuit with satisfied parts vanish on the domain.
- The verifier's challenge `τ` is `none` in `C84_sound`, as it is for TurboPlonk; in `C73_sound` it may be `none` without lookups.
- Outside the theorems: the same as in C73 and C74.

## Rescue over another field (`Verif/Circuit/RescueNonNative{,Spec,Adv}.lean`, `Verif/Props/RescueNonNative.lean`, C85)

Modelled: `rescue/src/gadgets/non_native.rs` (all functions) and `relation/src/gadgets/ultraplonk/non_native_gates.rs`, on top of C30
(modular arithmetic) and C38 (native Rescue). Elements of the hash field `ZMod Q` are pairs of limbs; vocabulary of C80.
- `prp` in the model also returns the states that enter the rounds with exponent `A`. These are sums of two elements, whose limbs
  the code does not range check; `C85_prp_sound_partial` assumes they and the output are in range, `C85_prp_counterexample` shows
  for the constants of ed-on-BLS12-377 and the limb size chosen by the code (range check of 21 bits) that this cannot be dropped.
- The permutation with constant round keys ends every round in a range check, so its theorems need no such condition.
- `aux` in `key_schedule`, computed and not used by the code, is left out. `mds.len()` is a type invariant.
- The code supports `T::A = 11` only; other exponents give an error (`C85_other_exponent`), as with the code.
- Sizes: `Params` asks `2^(2m+k+2) ≤ p`; `C85_parameters` derives the rest for limbs as `create_rescue_state_variable` chooses them.

## Tree hashes (`Verif/Merkle/{Oracle,Hashes}.lean`, `Verif/Props/MerkleHashes.lean`, C86)

Modelled: the `DigestAlgorithm` instances of `merkle_tree/src/prelude.rs`, `hasher.rs` and `examples.rs`.
- `Oracle` splits a tree hash into one hash function and the inputs it gets for leaves and inner nodes; `Separated` says that the
  inputs determine them. `Hashed`, `Checked`, `CheckedNone` are the inputs hashed for a tree and by the verifier; `Broken` is a
  collision between them or an input whose hash is the value of empty nodes.
- SHA3, Keccak and other `Digest`s are functions from byte strings to strings of a fixed length. Serializations of elements and
  positions are parameters, injective; failing serializations are not modelled. `F::from(pos)` is a parameter.
- The Poseidon2 permutation is any function on lists with nonempty values; the Rescue permutation is any function.
- In `Reachable` a `remember` step assumes an ideal hash, so for real hashes the trees are those without `remember`.
- The alias `Keccak256MerkleTree` has digest and node type exchanged, so that no value of it can be made; types are outside the model.

## Proofs and keys as field elements (`Verif/Plonk/ProofFields.lean`, `Verif/Props/ProofFields.lean`, C87)

Modelled: in `plonk/src/proof_system/structs.rs` the conversions of `Proof`, `ProofEvaluations` and `VerifyingKey` to and from lists,
and `From<Proof> for BatchProof`.
- `APoint` is `Affine` of arkworks: coordinates and a flag, identity `(0, 0)` with the flag. `affineNew` is `Affine::new`, which asserts
  that the coordinates are on the curve and in the subgroup; the test for the subgroup is a parameter.
- Points of the second group have coordinates in `ZMod q × ZMod q`; only their coordinates matter here.
- The trait bounds of the conversion of keys ask for a target field of degree 2 over the base field; the model ignores this.

## Keys and proofs stored in the verifier circuit (`Verif/Circuit/VerifierInput.lean`, `Verif/Props/VerifierInput.lean`, C88)

- Modelled: `VerifyingKeyVar::new` and `to_vec` (`plonk_verifier/mod.rs:57-98`), `ProofEvaluations::create_variables` and
  `BatchProof::create_variables` (`structs.rs:293-390`). Iterators that stop at the first error are one function `mapB`.
- The conversion of a commitment to a point of the twisted Edwards curve is a partial function `te`; `none` is a panic. For the
  theorems on the whole circuit it is the map `tau` of C83.
- `PlonkError::InvalidParameters` is the error `parameter`. The public inputs have no function in the code; in the model they
  are stored as the evaluations are. The test helper stores them with unchecked limbs, which the theorems do not cover.
- The opening key, the lookup key and the lookup proofs are dropped by the code and by the model.
- What is stored is not constrained: the circuit is the same for all data of one shape (`C88_uniform`), so any other data of that
  shape, also points off the curve and numbers not below the modulus, satisfy it. `C88_circuit_partial` therefore speaks about
  the data an assignment holds, and assumes that its points are commitments and its numbers are reduced.

## Soundness of multilinear batches and their transcript (`Verif/Pcs/IopTranscript.lean`, `Verif/Props/MlSound.lean`, C89)

- Modelled: all of `pcs/src/transcript.rs` and its use in `multilinear_kzg/batching.rs`. As for PLONK the crate `merlin` is the list of
  operations, a challenge any function of it; serializations of points are an injective parameter.
- The soundness theorem is about algebraic provers: every group element is a polynomial in the secrets (`Secret`: the univariate
  trapdoor, the factor between the generators, the multilinear trapdoors) times a generator. Any polynomials are allowed, more than
  the reference strings offer. `NoRoot` says that the secrets are no root of an identity, unless it holds; that an efficient
  prover cannot write down a non-zero polynomial with the secrets as root is the computational assumption, not modelled.
- `E` is fixed by the commitment, the points and the commitment to `q`, which is what `C89_binding` says the challenge depends on.

## AEAD (`Verif/Sig/Aead.lean`, `Verif/Props/Aead.lean`, C90)

- Modelled: `aead/src/lib.rs`: encryption, decryption, default and equality of key pairs, canonical serialization, the visitor of
  nonces. The sampled ephemeral key and nonce are arguments of `encrypt`.
- Assumed of the external crates, as hypotheses: `Agrees` (Diffie-Hellman values agree; `crypto_kx`) and `Opens` (the cipher opens
  exactly what it makes; `chacha20poly1305`). The order of the inputs to the key derivation and of `rx`, `tx` follows the
  documentation of libsodium. For the default pair X25519 is written out from RFC 7748 and checked with its first vector; that
  `crypto_kx` computes it is trusted.
- What `bincode` and `serde_json` do with byte strings is a model of those crates, from their documentation (they are not in the
  repository). Not modelled: serde of keys, trailing elements in a JSON array, `Debug`, `Hash`.
- `TagCollision` and `KeyCollision` are what a computational statement would bound; that they are infeasible is not modelled.

## Gadget circuits and the proof of exponent (`Verif/Plonk/BuiltExt.lean`, `Verif/Circuit/Poe.lean`, `Verif/Props/Poe.lean`, C91)

The theorems about finalization, keys, prover and verifier are about circuits that can be built (`Built`); the theorems about
gadgets are about single gadgets (`Correct`).  `Built.ext` joins them: `Frame`, which every gadget specification contains, says
that only variables, gates that are neither public-input nor lookup gates, and (with lookups) range checks are appended, so the
result can be built again.  For gadgets that append lookup tables (C34, C35 and C79 with lookups) the specification `TableExact`
has the field `frame`; `Props/TableBuilt.lean` has the theorems for them (`C91_table_*`), with an example that finalizes a
multi-scalar multiplication with one table.  `Props/VerifierOuter.lean` has `C83_built` and the soundness of proofs for the
verifier circuit (`C83_outer_partial`); its finalization is a hypothesis, and the real circuit is too large to be run in the
kernel.

`proofOfExponent` is `proof_of_exponent_circuit` of `plonk/examples/proof_of_exp.rs` up to the finalization, with both
assertions as panics; the native product `G * x` is a parameter, which the theorems set to the multiple in the group of the
curve.  Soundness is C73 for one circuit: polynomials committed by the prover, challenges counted in the order they are drawn.
The examples build and finalize the circuit in the kernel over a curve with 744 points over the field of 769 elements.

## Dummy keys and proofs (`Verif/Plonk/Dummy.lean`, `Verif/Props/Dummy.lean`, C97)

- Modelled: `BatchProof::dummy`, `VerifyingKey::dummy`, `ProofEvaluations::default`, and the default opening key. The default of
  a curve point is the neutral element, as in arkworks. The coset representatives are computed as in the finalization, from the
  same list of random elements (the code uses a fixed seed).
- `C97_circuit` joins the dummies with C88. Whether the neutral element has coordinates is a hypothesis; on a twisted Edwards
  curve it is the point `(0, 1)`. That proofs of the prover have the numbers of
  `TurboBatch` is `C97_prover` (`Verif/Props/DummyProver.lean`); `C97_real` puts preprocessing, the prover and the dummies
  together, with an example over fields of 193 and 4099 elements.

## Nonces of Schnorr signatures (`Verif/Props/SchnorrNonce.lean`, C98)

The theorems are on `sign` of `Verif/Sig/Schnorr.lean`. The inputs of the hash and its reduction to a scalar are written again in
the theorem file (`nonceInput`, `scalarHash`), as numbers and not as bytes. The hash is a parameter; nothing is assumed of it, a
collision on the two inputs is an alternative of the conclusion.
