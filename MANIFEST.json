{
 "claims": [
  {
   "property": "C01",
   "status": "proved",
   "theorems": [
    "Verif.Props.Merkle.C01_universal_tree_is_map"
   ],
   "note": "Histories of update_with/update/remove over in-range indices, any arity >= 1, height and hash."
  },
  {
   "property": "C02",
   "status": "proved",
   "theorems": [
    "Verif.Props.Merkle.C02_num_leaves_counts_present"
   ],
   "note": ""
  },
  {
   "property": "C03",
   "status": "proved",
   "theorems": [
    "Verif.Props.Merkle.C03_commitment_history_independent",
    "Verif.Props.Merkle.C03_from_kv_set_order_independent",
    "Verif.Props.Merkle.C03_insert_remove_restores"
   ],
   "note": ""
  },
  {
   "property": "C04",
   "status": "proved",
   "theorems": [
    "Verif.Props.Merkle.C04_append_only_proofs_verify",
    "Verif.Props.Merkle.C04_membership_proofs_verify"
   ],
   "note": "For every reachable tree (new, from_commitment, update, remove, forget, remember)."
  },
  {
   "property": "C05",
   "status": "proved",
   "theorems": [
    "Verif.Props.Merkle.C05_accepted_value_is_stored",
    "Verif.Props.Merkle.C05_membership_binding",
    "Verif.Props.Merkle.C05_membership_unique"
   ],
   "note": "Explicit collision form for all hashes; uniqueness and end-to-end form for an ideal hash."
  },
  {
   "property": "C06",
   "status": "proved",
   "theorems": [
    "Verif.Props.Merkle.C06_absent_index_has_proof",
    "Verif.Props.Merkle.C06_nonmembership_proofs_verify"
   ],
   "note": ""
  },
  {
   "property": "C07",
   "status": "partial",
   "theorems": [
    "Verif.Props.Merkle.C07_present_and_absent_counterexample",
    "Verif.Props.Merkle.C07_present_xor_absent_partial"
   ],
   "note": "False as stated for proofs of different length (counterexample for every hash function); proved for proofs of equal length."
  },
  {
   "property": "C08",
   "status": "partial",
   "theorems": [
    "Verif.Props.Merkle.C08_in_range_indices_do_not_alias_partial",
    "Verif.Props.Merkle.C08_out_of_range_aliases_counterexample",
    "Verif.Props.Merkle.C08_out_of_range_insert_breaks_proofs_counterexample",
    "Verif.Props.Merkle.C08_out_of_range_update_counterexample"
   ],
   "note": "False as stated: indices beyond the capacity alias (proved); in-range indices do not."
  },
  {
   "property": "C09",
   "status": "proved",
   "theorems": [
    "Verif.Props.Merkle.C09_append_order",
    "Verif.Props.Merkle.C09_default_height",
    "Verif.Props.Merkle.C09_push_each"
   ],
   "note": "Any arity >= 2, height and hash; any split in calls."
  },
  {
   "property": "C10",
   "status": "proved",
   "theorems": [
    "Verif.Props.Merkle.C10_extend_capacity",
    "Verif.Props.Merkle.C10_from_elems_capacity"
   ],
   "note": "Any sequence of extend calls, including overflowing ones."
  },
  {
   "property": "C11",
   "status": "proved",
   "theorems": [
    "Verif.Props.Merkle.C11_light_weight_matches_full"
   ],
   "note": "Capacity below 2^64 (the code casts to u64)."
  },
  {
   "property": "C12",
   "status": "proved",
   "theorems": [
    "Verif.Props.Merkle.C12_absent_neighbour_becomes_unknown",
    "Verif.Props.Merkle.C12_forget_is_safe"
   ],
   "note": "Stated for stored indices; an absent neighbour may become unknown (documented, witness proved)."
  },
  {
   "property": "C13",
   "status": "proved",
   "theorems": [
    "Verif.Props.Merkle.C13_empty_slot_not_writable_counterexample",
    "Verif.Props.Merkle.C13_forget_remember_round_trip",
    "Verif.Props.Merkle.C13_push_after_remember_counterexample",
    "Verif.Props.Merkle.C13_remember_effect",
    "Verif.Props.Merkle.C13_remember_only_valid",
    "Verif.Props.Merkle.C13_remove_after_remember_counterexample"
   ],
   "note": "For proofs of the tree height; three counterexamples show forget+remember is not transparent for empty slots."
  },
  {
   "property": "C14",
   "status": "partial",
   "theorems": [
    "Verif.Props.Merkle.C14_forget_absent_partial",
    "Verif.Props.Merkle.C14_forget_absent_proof_rejected_counterexample",
    "Verif.Props.Merkle.C14_nonmembership_remember_counterexample",
    "Verif.Props.Merkle.C14_nonmembership_remember_partial"
   ],
   "note": "False as stated (two counterexamples); proved when the returned proof has full length."
  },
  {
   "property": "C15",
   "status": "proved",
   "theorems": [
    "Verif.Props.Merkle.C15_range_proofs_verify"
   ],
   "note": "Append-only trees after any history of extend calls; any arity and height."
  },
  {
   "property": "C16",
   "status": "proved",
   "theorems": [
    "Verif.Props.Merkle.C16_accepted_range_is_stored",
    "Verif.Props.Merkle.C16_indices_not_bound_counterexample",
    "Verif.Props.Merkle.C16_range_binding"
   ],
   "note": "Explicit collision form; end-to-end form for an ideal hash; plus a finding: hashers whose leaf digest ignores the index (SHA3, Keccak) do not bind the index list."
  },
  {
   "property": "C17",
   "status": "proved",
   "theorems": [
    "Verif.Props.Merkle.C17_bulk_proofs",
    "Verif.Props.Merkle.C17_bulk_proofs_append",
    "Verif.Props.Merkle.C17_iteration",
    "Verif.Props.Merkle.C17_iteration_append"
   ],
   "note": "For all reachable trees of the three kinds."
  },
  {
   "property": "C18",
   "status": "proved",
   "theorems": [
    "Verif.Props.Circuit.C18_add",
    "Verif.Props.Circuit.C18_add_constant",
    "Verif.Props.Circuit.C18_add_constant_gate",
    "Verif.Props.Circuit.C18_add_gate",
    "Verif.Props.Circuit.C18_create_boolean_variable",
    "Verif.Props.Circuit.C18_create_constant_variable",
    "Verif.Props.Circuit.C18_enforce_bool",
    "Verif.Props.Circuit.C18_enforce_constant",
    "Verif.Props.Circuit.C18_enforce_equal",
    "Verif.Props.Circuit.C18_gen_quad_poly",
    "Verif.Props.Circuit.C18_lc",
    "Verif.Props.Circuit.C18_lc_gate",
    "Verif.Props.Circuit.C18_mul",
    "Verif.Props.Circuit.C18_mul_add",
    "Verif.Props.Circuit.C18_mul_add_gate",
    "Verif.Props.Circuit.C18_mul_constant",
    "Verif.Props.Circuit.C18_mul_constant_gate",
    "Verif.Props.Circuit.C18_mul_gate",
    "Verif.Props.Circuit.C18_power_11_gate",
    "Verif.Props.Circuit.C18_power_11_gen",
    "Verif.Props.Circuit.C18_quad_poly_gate",
    "Verif.Props.Circuit.C18_sub",
    "Verif.Props.Circuit.C18_sub_gate",
    "Verif.Props.Circuit.C18_sum"
   ],
   "note": "Every arithmetic gadget: soundness against every satisfying assignment, completeness, honest prover, fixed shape."
  },
  {
   "property": "C19",
   "status": "proved",
   "theorems": [
    "Verif.Props.Circuit.C19_conditional_select",
    "Verif.Props.Circuit.C19_enforce_false",
    "Verif.Props.Circuit.C19_enforce_true",
    "Verif.Props.Circuit.C19_is_equal",
    "Verif.Props.Circuit.C19_is_zero",
    "Verif.Props.Circuit.C19_logic_and",
    "Verif.Props.Circuit.C19_logic_and_all",
    "Verif.Props.Circuit.C19_logic_neg",
    "Verif.Props.Circuit.C19_logic_or",
    "Verif.Props.Circuit.C19_logic_or_gate",
    "Verif.Props.Circuit.C19_non_zero_gate"
   ],
   "note": "Every logic gadget, same form as C18."
  },
  {
   "property": "C20",
   "status": "proved",
   "theorems": [
    "Verif.Props.Circuit.C20_enforce_in_range",
    "Verif.Props.Circuit.C20_is_in_range",
    "Verif.Props.Circuit.C20_is_in_range_full_width_fails",
    "Verif.Props.Circuit.C20_unpack",
    "Verif.Props.Circuit.C20_unpack_too_long_counterexample"
   ],
   "note": "Bit lengths up to MODULUS_BIT_SIZE for unpack, up to the big integer size for enforce_in_range; longer unpackings are shown not canonical (counterexample), full-width is_in_range always errors."
  },
  {
   "property": "C21",
   "status": "proved",
   "theorems": [
    "Verif.Props.Circuit.C21_enforce_geq",
    "Verif.Props.Circuit.C21_enforce_geq_constant",
    "Verif.Props.Circuit.C21_enforce_gt",
    "Verif.Props.Circuit.C21_enforce_gt_constant",
    "Verif.Props.Circuit.C21_enforce_leq",
    "Verif.Props.Circuit.C21_enforce_leq_constant",
    "Verif.Props.Circuit.C21_enforce_lt",
    "Verif.Props.Circuit.C21_enforce_lt_constant",
    "Verif.Props.Circuit.C21_is_geq",
    "Verif.Props.Circuit.C21_is_geq_constant",
    "Verif.Props.Circuit.C21_is_gt",
    "Verif.Props.Circuit.C21_is_gt_constant",
    "Verif.Props.Circuit.C21_is_leq",
    "Verif.Props.Circuit.C21_is_leq_constant",
    "Verif.Props.Circuit.C21_is_lt",
    "Verif.Props.Circuit.C21_is_lt_constant"
   ],
   "note": "All comparison gadgets over every odd prime field."
  },
  {
   "property": "C22",
   "status": "partial",
   "theorems": [
    "Verif.Props.Circuit.C22_truncate_alias_counterexample",
    "Verif.Props.Circuit.C22_truncate_gate_partial",
    "Verif.Props.Circuit.C22_truncate_partial",
    "Verif.Props.Circuit.C22_truncate_unconstrained_high_part_counterexample"
   ],
   "note": "False as stated: two counterexamples (unconstrained high part; a + p alias). Partial: when all four parts are range-checked the output is the truncation of a or of a + p; completeness in full."
  },
  {
   "property": "C23",
   "status": "proved",
   "theorems": [
    "Verif.Props.CopyConstraints.C23_links",
    "Verif.Props.CopyConstraints.C23_permutation",
    "Verif.Props.CopyConstraints.C23_slots",
    "Verif.Props.CopyConstraints.C23_values"
   ],
   "note": "For every circuit that can be built, TurboPlonk or UltraPlonk, in every order of gates."
  },
  {
   "property": "C24",
   "status": "proved",
   "theorems": [
    "Verif.Props.CopyConstraints.C24_all_challenges",
    "Verif.Props.CopyConstraints.C24_complete",
    "Verif.Props.CopyConstraints.C24_labels",
    "Verif.Props.CopyConstraints.C24_panic",
    "Verif.Props.CopyConstraints.C24_polynomial",
    "Verif.Props.CopyConstraints.C24_sound"
   ],
   "note": "Completeness for every assignment and all challenges, the values of the accumulated polynomial the code returns, its panic on vanishing denominators, and soundness: at most 2*slots*|F| bad challenge pairs, hence an identity for all challenges implies the copy constraints in fields with more than 2*slots elements."
  },
  {
   "property": "C25",
   "status": "partial",
   "theorems": [
    "Verif.Props.CopyConstraints.C25_succeeds",
    "Verif.Props.Finalize.C25_displaced_input_counterexample",
    "Verif.Props.Finalize.C25_last_row_counterexample",
    "Verif.Props.Finalize.C25_lookup_rows",
    "Verif.Props.Finalize.C25_range_area_counterexample",
    "Verif.Props.Finalize.C25_rows",
    "Verif.Props.Finalize.C25_turbo",
    "Verif.Props.Finalize.C25_ultra"
   ],
   "note": "Proved for TurboPlonk in full (C25_turbo), and for UltraPlonk when no table row lies among the rows taken by public inputs or on the last two rows (C25_ultra, C25_lookup_rows). Refuted without the condition: a table made before public inputs displaces one of them (C25_displaced_input_counterexample), a lookup row can stay on the last row, which the lookup argument does not check (C25_last_row_counterexample), or be moved into the rows of the range table (C25_range_area_counterexample)."
  },
  {
   "property": "C26",
   "status": "proved",
   "theorems": [
    "Verif.Props.LookupArgument.C26_all_challenges",
    "Verif.Props.LookupArgument.C26_closes",
    "Verif.Props.LookupArgument.C26_complete",
    "Verif.Props.LookupArgument.C26_fails",
    "Verif.Props.LookupArgument.C26_last_row_counterexample",
    "Verif.Props.LookupArgument.C26_merging",
    "Verif.Props.LookupArgument.C26_panic",
    "Verif.Props.LookupArgument.C26_polynomial",
    "Verif.Props.LookupArgument.C26_range_area_counterexample",
    "Verif.Props.LookupArgument.C26_range_table",
    "Verif.Props.LookupArgument.C26_satisfied",
    "Verif.Props.LookupArgument.C26_sorted",
    "Verif.Props.LookupArgument.C26_sound",
    "Verif.Props.LookupArgument.C26_table"
   ],
   "note": "For every finalized UltraPlonk circuit and every challenge, with the failure case, the product polynomial of the code and its panic. Beyond the statement: plookup soundness with counted challenges (C26_sound, C26_merging) and equivalence with the range checks and lookups of the circuit when the tables are placed regularly (C26_all_challenges, C26_satisfied); without that condition the argument accepts a wrong lookup on the last row and rejects a satisfied circuit (C26_last_row_counterexample, C26_range_area_counterexample)."
  },
  {
   "property": "C27",
   "status": "partial",
   "theorems": [
    "Verif.Props.Merge.C27_gates",
    "Verif.Props.Merge.C27_mergeable",
    "Verif.Props.Merge.C27_no_inputs_counterexample",
    "Verif.Props.Merge.C27_no_inputs_panics",
    "Verif.Props.Merge.C27_permutation",
    "Verif.Props.Merge.C27_product_complete",
    "Verif.Props.Merge.C27_product_polynomial",
    "Verif.Props.Merge.C27_product_sound",
    "Verif.Props.Merge.C27_public_input",
    "Verif.Props.Merge.C27_sat",
    "Verif.Props.Merge.C27_selectors",
    "Verif.Props.Merge.C27_sigma",
    "Verif.Props.Merge.C27_succeeds",
    "Verif.Props.Merge.C27_types"
   ],
   "note": "Proved for all pairs of circuits that can be built, with at least one public input each: satisfaction is conjunction (C27_sat, C27_gates), public inputs are concatenated, the wire permutation and its product are right, the key values are sums, and only type A with type B is merged. Without public inputs merge panics (C27_no_inputs_panics, C27_no_inputs_counterexample)."
  },
  {
   "property": "C28",
   "status": "partial",
   "theorems": [
    "Verif.Props.Emulated.C28_mul",
    "Verif.Props.Emulated.C28_mul_constant",
    "Verif.Props.Emulated.C28_mul_constant_gate",
    "Verif.Props.Emulated.C28_mul_counterexample",
    "Verif.Props.Emulated.C28_mul_gate",
    "Verif.Props.Emulated.C28_mul_gate_sound_partial",
    "Verif.Props.Emulated.C28_mul_sound_partial",
    "Verif.Props.Emulated.C28_shipped_counterexample"
   ],
   "note": "As stated refuted, in both configurations of the crate (counterexamples). Exact characterization of what all four functions force is proved, also that honest witnesses are accepted; soundness holds for q < p and products below 2^T*p."
  },
  {
   "property": "C29",
   "status": "partial",
   "theorems": [
    "Verif.Props.Emulated.C29_add",
    "Verif.Props.Emulated.C29_add_constant",
    "Verif.Props.Emulated.C29_add_constant_gate",
    "Verif.Props.Emulated.C29_add_gate",
    "Verif.Props.Emulated.C29_add_honest_counterexample",
    "Verif.Props.Emulated.C29_add_sound_counterexample",
    "Verif.Props.Emulated.C29_add_sound_partial",
    "Verif.Props.Emulated.C29_shipped_counterexample",
    "Verif.Props.Emulated.C29_sub",
    "Verif.Props.Emulated.C29_sub_constant"
   ],
   "note": "As stated refuted, soundness and completeness, in both configurations of the crate (counterexamples). Exact characterizations of what all six functions force and of the inputs for which the stored witness is accepted are proved; soundness holds when q + result < 2^T."
  },
  {
   "property": "C30",
   "status": "partial",
   "theorems": [
    "Verif.Props.ModArith.C30_mod_add",
    "Verif.Props.ModArith.C30_mod_add_constant",
    "Verif.Props.ModArith.C30_mod_add_constant_sound_partial",
    "Verif.Props.ModArith.C30_mod_add_counterexample",
    "Verif.Props.ModArith.C30_mod_add_sound_partial",
    "Verif.Props.ModArith.C30_mod_add_vec",
    "Verif.Props.ModArith.C30_mod_add_vec_sound_partial",
    "Verif.Props.ModArith.C30_mod_mul",
    "Verif.Props.ModArith.C30_mod_mul_constant",
    "Verif.Props.ModArith.C30_mod_mul_constant_sound_partial",
    "Verif.Props.ModArith.C30_mod_mul_small_range_counterexample",
    "Verif.Props.ModArith.C30_mod_mul_sound_partial",
    "Verif.Props.ModArith.C30_mod_mul_wrap_counterexample",
    "Verif.Props.ModArith.C30_mod_negate",
    "Verif.Props.ModArith.C30_mod_negate_counterexample",
    "Verif.Props.ModArith.C30_mod_negate_sound_partial"
   ],
   "note": "Exact characterizations of mod_mul, mod_mul_constant, mod_add, mod_add_constant, mod_add_vec and mod_negate proved. Multiplication is sound and complete for range_bit_len >= 2 and 2^(2m+range_bit_len) <= p (met by the verifier circuit); for other parameters the code accepts, and for addition and negation, the statement is refuted (counterexamples)."
  },
  {
   "property": "C31",
   "status": "proved",
   "theorems": [
    "Verif.Props.Ecc.C31_add_bandersnatch",
    "Verif.Props.Ecc.C31_add_complete",
    "Verif.Props.Ecc.C31_add_edBls377",
    "Verif.Props.Ecc.C31_add_edBls381",
    "Verif.Props.Ecc.C31_add_edBn254",
    "Verif.Props.Ecc.C31_add_exact",
    "Verif.Props.Ecc.C31_add_group",
    "Verif.Props.Ecc.C31_bandersnatch_counterexample",
    "Verif.Props.Ecc.C31_bls377_counterexample",
    "Verif.Props.Ecc.C31_on_curve"
   ],
   "note": "For complete curves as stated, with instances for the three ed_on_* curves. Bandersnatch and BLS12-377 in Edwards form are not complete: for Bandersnatch the statement is proved on the points with 1 - d x^2 a square (they contain the generator); for arbitrary points the gadget is characterized exactly, and counterexamples show accepted wrong sums for curve points outside the prime order subgroups. For BLS12-377 the statement is proved on the points of odd order in C77_native."
  },
  {
   "property": "C32",
   "status": "proved",
   "theorems": [
    "Verif.Props.Ecc.C32_binary_select",
    "Verif.Props.Ecc.C32_constant",
    "Verif.Props.Ecc.C32_enforce_equal",
    "Verif.Props.Ecc.C32_inverse",
    "Verif.Props.Ecc.C32_is_equal",
    "Verif.Props.Ecc.C32_is_neutral",
    "Verif.Props.Ecc.C32_quaternary_select"
   ],
   "note": ""
  },
  {
   "property": "C33",
   "status": "proved",
   "theorems": [
    "Verif.Props.Ecc.C33_fixed_base",
    "Verif.Props.Ecc.C33_fixed_base_bandersnatch",
    "Verif.Props.Ecc.C33_fixed_base_edBls377",
    "Verif.Props.Ecc.C33_fixed_base_edBls381",
    "Verif.Props.Ecc.C33_fixed_base_edBn254",
    "Verif.Props.Ecc.C33_variable_base"
   ],
   "note": "For every set of points on which the addition law is total (all points of complete curves; a subgroup of Bandersnatch; the points of odd order of BLS12-377, te377). The scalar of the fixed-base gadget is forced below 2^n, n the even bit size."
  },
  {
   "property": "C34",
   "status": "partial",
   "theorems": [
    "Verif.Props.Msm.C34_bandersnatch_counterexample",
    "Verif.Props.Msm.C34_edBls377_counterexample",
    "Verif.Props.Msm.C34_edBls381_counterexample",
    "Verif.Props.Msm.C34_edBn254_counterexample",
    "Verif.Props.Msm.C34_lookup",
    "Verif.Props.Msm.C34_lookup_alias",
    "Verif.Props.Msm.C34_lookup_sound",
    "Verif.Props.Msm.C34_no_lookup"
   ],
   "note": "Exact characterization proved (C34_lookup): the possible results are the sums of n_i P_i over all n_i below 2^windowBits congruent to the scalars modulo the native field. The statement holds without lookups (C34_no_lookup) and with lookups when the windows stay within the field (C34_lookup_sound). It is refuted for ed_on_bn254, ed_on_bls12_377, ed_on_bls12_381 and Bandersnatch with lookups (counterexamples: scalar 1, accepted result different from the base)."
  },
  {
   "property": "C35",
   "status": "partial",
   "theorems": [
    "Verif.Props.Glv.C35_accept_partial",
    "Verif.Props.Glv.C35_alias",
    "Verif.Props.Glv.C35_decomposition",
    "Verif.Props.Glv.C35_decomposition_counterexample",
    "Verif.Props.Glv.C35_endomorphism",
    "Verif.Props.Glv.C35_glv_exact",
    "Verif.Props.Glv.C35_halves",
    "Verif.Props.Glv.C35_mul_counterexample",
    "Verif.Props.Glv.C35_neutral_counterexample",
    "Verif.Props.Glv.C35_reject_counterexample",
    "Verif.Props.Glv.C35_sound_partial",
    "Verif.Props.Glv.C35_variable_base"
   ],
   "note": "Refuted: for every scalar s, halves of s + q (q the native field order) are accepted, so variable_base_scalar_mul on Bandersnatch accepts (s + q) P for every scalar and every point (C35_alias; concrete: C35_mul_counterexample). Completeness also fails for some scalars (C35_reject_counterexample) and for the neutral element. Exact characterization of the decomposition, the endomorphism circuit and glv_mul proved, for points on which the endomorphism is multiplication by lambda (proved of the generator)."
  },
  {
   "property": "C36",
   "status": "partial",
   "theorems": [
    "Verif.Props.Emulated.C36_shipped_counterexample",
    "Verif.Props.Emulated.C36_sum",
    "Verif.Props.Emulated.C36_sw_add_inverse_counterexample",
    "Verif.Props.Emulated.C36_sw_add_partial",
    "Verif.Props.Emulated.C36_sw_circuit",
    "Verif.Props.Emulated.C36_sw_complete_partial",
    "Verif.Props.Emulated.C36_sw_double_counterexample",
    "Verif.Props.Emulated.C36_sw_exact",
    "Verif.Props.Emulated.C36_sw_flag_counterexample",
    "Verif.Props.Emulated.C36_sw_gate",
    "Verif.Props.Emulated.C36_sw_inverse_any_counterexample",
    "Verif.Props.Emulated.C36_sw_inverse_counterexample",
    "Verif.Props.Emulated.C36_sw_sound_partial"
   ],
   "note": "The accepted triples are characterised exactly for every configuration (C36_sw_exact). Proved: completeness except for opposite points, the builder included when no carry ripples; with right field arithmetic the gate is the group law up to the cases named. Refuted: P+(-P)=O is rejected and any other finite point accepted (C36_sw_inverse_*), the infinity mark of a finite sum is free (C36_sw_flag_counterexample), wrong doubles in both shipped configurations (C36_shipped_counterexample)."
  },
  {
   "property": "C37",
   "status": "partial",
   "theorems": [
    "Verif.Props.MerkleCircuit.C37_alias_counterexample",
    "Verif.Props.MerkleCircuit.C37_binding",
    "Verif.Props.MerkleCircuit.C37_enforce_member_circuit",
    "Verif.Props.MerkleCircuit.C37_enforce_nonmember_circuit",
    "Verif.Props.MerkleCircuit.C37_flow_adversary",
    "Verif.Props.MerkleCircuit.C37_flow_iff",
    "Verif.Props.MerkleCircuit.C37_index_counterexample",
    "Verif.Props.MerkleCircuit.C37_index_determines",
    "Verif.Props.MerkleCircuit.C37_is_member_circuit",
    "Verif.Props.MerkleCircuit.C37_is_member_undefined_counterexample",
    "Verif.Props.MerkleCircuit.C37_is_nonmember_circuit",
    "Verif.Props.MerkleCircuit.C37_member_agrees_partial",
    "Verif.Props.MerkleCircuit.C37_member_and_nonmember_counterexample",
    "Verif.Props.MerkleCircuit.C37_member_complete_partial",
    "Verif.Props.MerkleCircuit.C37_member_shape",
    "Verif.Props.MerkleCircuit.C37_nonmember_complete_partial",
    "Verif.Props.MerkleCircuit.C37_nonmember_exact",
    "Verif.Props.MerkleCircuit.C37_nonmember_flow_adversary",
    "Verif.Props.MerkleCircuit.C37_nonmember_flow_iff",
    "Verif.Props.MerkleCircuit.C37_nonmember_shape_counterexample",
    "Verif.Props.MerkleCircuit.C37_nonmember_sound",
    "Verif.Props.MerkleCircuit.C37_nonmember_sound_on_trees",
    "Verif.Props.MerkleCircuit.C37_sound_on_trees",
    "Verif.Props.MerkleCircuit.C37_sparse_counterexample",
    "Verif.Props.MerkleCircuit.C37_zero_siblings_counterexample"
   ],
   "note": "Root computation equal to native folding for every depth and assignment. Acceptance differs from the native verifier: membership rejects honest proofs of trees with gaps (C37_sparse_counterexample), the index variable is not tied to the path (C37_index_counterexample; harmless for commitments of real trees by C37_sound_on_trees), non-membership sees positions modulo the field and treats zero siblings as empty. Exact characterizations: C37_member_agrees_partial, C37_flow_iff, C37_flow_adversary, C37_nonmember_exact, C37_nonmember_flow_iff, C37_nonmember_flow_adversary. Completeness and soundness for trees built by any history."
  },
  {
   "property": "C38",
   "status": "proved",
   "theorems": [
    "Verif.Props.Circuit.C38_permutation_gadget",
    "Verif.Props.Circuit.C38_permutation_gadget_other_exponent",
    "Verif.Props.Circuit.C38_prp_gadget",
    "Verif.Props.Circuit.C38_shipped_permutation_gadget",
    "Verif.Props.Circuit.C38_shipped_prp_gadget",
    "Verif.Rescue.C38_key_schedule_injective",
    "Verif.Rescue.C38_placeholder_counterexample",
    "Verif.Rescue.C38_prp_bijective",
    "Verif.Rescue.C38_round_keys_bijective",
    "Verif.Rescue.C38_round_keys_length",
    "Verif.Rescue.C38_shipped_branch_number",
    "Verif.Rescue.C38_shipped_good",
    "Verif.Rescue.C38_shipped_mds",
    "Verif.Rescue.C38_shipped_permutation_bijective",
    "Verif.Rescue.C38_shipped_permutation_is_prp",
    "Verif.Rescue.C38_shipped_prp_bijective",
    "Verif.Rescue.C38_shipped_round_keys"
   ],
   "note": "For all exponents/matrices meeting the stated conditions and the five shipped parameter sets (checked, moduli proved prime); the gadgets compute the native permutation and cipher. The placeholder sets of two base fields give a constant map (counterexample)."
  },
  {
   "property": "C39",
   "status": "proved",
   "theorems": [
    "Verif.Poseidon2.C39_diagonal_ignored_counterexample",
    "Verif.Poseidon2.C39_external_matrix",
    "Verif.Poseidon2.C39_external_matrix_small",
    "Verif.Poseidon2.C39_internal_det",
    "Verif.Poseidon2.C39_internal_matrix",
    "Verif.Poseidon2.C39_permutation_iff",
    "Verif.Poseidon2.C39_sanity_check_counterexample",
    "Verif.Poseidon2.C39_sanity_panics",
    "Verif.Poseidon2.C39_shipped_bijective",
    "Verif.Poseidon2.C39_shipped_internal_matrix"
   ],
   "note": "Exact condition for bijectivity for all parameters passing the sanity check over primes above 7, and the three shipped sets. The sanity check itself does not imply it (counterexample), and for widths 2 and 3 the diagonal parameter is ignored (counterexample)."
  },
  {
   "property": "C40",
   "status": "proved",
   "theorems": [
    "Verif.Poseidon2.C40_poseidon2_absorb_block",
    "Verif.Poseidon2.C40_poseidon2_bit_padding_injective",
    "Verif.Poseidon2.C40_poseidon2_bit_padding_shape",
    "Verif.Poseidon2.C40_poseidon2_empty_input",
    "Verif.Poseidon2.C40_poseidon2_empty_input_counterexample",
    "Verif.Poseidon2.C40_poseidon2_empty_shipped",
    "Verif.Poseidon2.C40_poseidon2_fixed",
    "Verif.Poseidon2.C40_poseidon2_rate_zero",
    "Verif.Poseidon2.C40_poseidon2_squeeze_entry",
    "Verif.Poseidon2.C40_poseidon2_squeeze_prefix",
    "Verif.Poseidon2.C40_poseidon2_variable_collision",
    "Verif.Poseidon2.C40_poseidon2_variable_total",
    "Verif.Poseidon2.C40_poseidon2_zero_padding_counterexample",
    "Verif.Poseidon2.C40_poseidon2_zero_padding_same_length",
    "Verif.Rescue.C40_absorb_append",
    "Verif.Rescue.C40_absorb_block",
    "Verif.Rescue.C40_bit_padding_injective",
    "Verif.Rescue.C40_bit_padding_shape",
    "Verif.Rescue.C40_fixed_total",
    "Verif.Rescue.C40_second_squeeze_counterexample",
    "Verif.Rescue.C40_squeeze_entry",
    "Verif.Rescue.C40_squeeze_prefix",
    "Verif.Rescue.C40_state_collision_inner",
    "Verif.Rescue.C40_variable_collision",
    "Verif.Rescue.C40_variable_total",
    "Verif.Rescue.C40_zero_padding_counterexample",
    "Verif.Rescue.C40_zero_padding_fixed_length"
   ],
   "note": "Rescue and Poseidon2 (its external duplex sponge is a reference model). Extra findings: a second Rescue squeeze call repeats the last block; zero padding of the fixed-length hashes is not injective across lengths, and the empty Poseidon2 input is not padded (counterexamples)."
  },
  {
   "property": "C41",
   "status": "proved",
   "theorems": [
    "Verif.Rescue.C41_binding",
    "Verif.Rescue.C41_commit_verifies",
    "Verif.Rescue.C41_cross_length_counterexample",
    "Verif.Rescue.C41_length_parameters",
    "Verif.Rescue.C41_missing_blinding",
    "Verif.Rescue.C41_verify_iff"
   ],
   "note": "Fixed-length Rescue commitment; across lengths binding fails (counterexample)."
  },
  {
   "property": "C42",
   "status": "proved",
   "theorems": [
    "Verif.Props.RS.C42_decode_encode",
    "Verif.Props.RS.C42_decode_encode_char",
    "Verif.Props.RS.C42_decode_interpolates",
    "Verif.Props.RS.C42_decode_rou",
    "Verif.Props.RS.C42_encode_evaluates",
    "Verif.Props.RS.C42_positions_wrap_counterexample"
   ],
   "note": "Positions are evaluation points of the field; with more shares than the characteristic, integer positions may coincide as points (counterexample theorem)."
  },
  {
   "property": "C43",
   "status": "proved",
   "theorems": [
    "Verif.Props.RS.C43_decode_error_iff",
    "Verif.Props.RS.C43_decode_rou_errors"
   ],
   "note": "Errors exactly on too few shares or repeated points; domain variant also on empty input and out-of-range indices."
  },
  {
   "property": "C44",
   "status": "partial",
   "theorems": [
    "Verif.Props.Conv.C44_from_elements_total_partial",
    "Verif.Props.Conv.C44_roundtrip_counterexample",
    "Verif.Props.Conv.C44_roundtrip_partial",
    "Verif.Props.Conv.C44_to_elements_injective"
   ],
   "note": "False for prime fields whose multi-word size exceeds (bits-1)/8+1 bytes (counterexample 2^89-1); proved for all others, any extension degree, with padding; injectivity for all fields."
  },
  {
   "property": "C45",
   "status": "partial",
   "theorems": [
    "Verif.Props.Conv.C45_embedding_preserves",
    "Verif.Props.Conv.C45_hash_to_field",
    "Verif.Props.Conv.C45_mask_counterexample",
    "Verif.Props.Conv.C45_mask_partial",
    "Verif.Props.Conv.C45_mask_value",
    "Verif.Props.Conv.C45_reduction",
    "Verif.Props.Conv.C45_switch_counterexample",
    "Verif.Props.Conv.C45_switch_partial"
   ],
   "note": "Embedding proved. Masked conversion and field switching do not match their documentation in general (counterexamples); exact ranges proved."
  },
  {
   "property": "C46",
   "status": "proved",
   "theorems": [
    "Verif.Pcs.C46_completeness",
    "Verif.Pcs.C46_no_other_value",
    "Verif.Pcs.C46_verify_iff"
   ],
   "note": "Parameters from gen_srs_for_testing + trim; every trapdoor, generators, bilinear pairing."
  },
  {
   "property": "C47",
   "status": "partial",
   "theorems": [
    "Verif.Pcs.C47_degree_counterexample",
    "Verif.Pcs.C47_degree_partial",
    "Verif.Pcs.C47_open_unchecked_counterexample"
   ],
   "note": "False: degree exactly one above the supported degree is silently truncated (counterexample), and open has no check. Partial: all other degrees."
  },
  {
   "property": "C48",
   "status": "partial",
   "theorems": [
    "Verif.Pcs.C48_all_randomizers_partial",
    "Verif.Pcs.C48_batch_equation",
    "Verif.Pcs.C48_honest_accepted",
    "Verif.Pcs.C48_soundness_partial",
    "Verif.Pcs.C48_unchecked_counterexample"
   ],
   "note": "Acceptance, equation and soundness for equal lengths proved; unequal lengths leave claims unchecked (counterexample)."
  },
  {
   "property": "C49",
   "status": "proved",
   "theorems": [
    "Verif.Pcs.C49_completeness",
    "Verif.Pcs.C49_duplicate_points_panic"
   ],
   "note": "Repeated points panic in the verifier (theorem)."
  },
  {
   "property": "C50",
   "status": "partial",
   "theorems": [
    "Verif.Pcs.C50_coset_counterexample",
    "Verif.Pcs.C50_eval_domain",
    "Verif.Pcs.C50_fft_size",
    "Verif.Pcs.C50_many_points_counterexample",
    "Verif.Pcs.C50_multi_open_partial",
    "Verif.Pcs.C50_multi_open_rou",
    "Verif.Pcs.C50_seq_same",
    "Verif.Pcs.C50_small_domain_counterexample",
    "Verif.Pcs.C50_srs_size_counterexample",
    "Verif.Pcs.C50_toeplitz_mul"
   ],
   "note": "multi_open_rou in full for domains from multi_open_rou_eval_domain; multi_open for fewer than TWO_ADICITY^2 points and parameters holding the padded degree (counterexamples otherwise; also for too small and for coset domains)."
  },
  {
   "property": "C51",
   "status": "proved",
   "theorems": [
    "Verif.Props.Ml.C51_completeness",
    "Verif.Props.Ml.C51_evaluation_binding",
    "Verif.Props.Ml.C51_length_counterexample",
    "Verif.Props.Ml.C51_no_other_value",
    "Verif.Props.Ml.C51_refused",
    "Verif.Props.Ml.C51_verify_iff"
   ],
   "note": "For every number of variables, polynomial, point and trapdoor; also the exact acceptance condition, evaluation binding for a fixed commitment and proof family, and the refusals. Proofs of the wrong length make the verifier panic (C51_length_counterexample)."
  },
  {
   "property": "C52",
   "status": "partial",
   "theorems": [
    "Verif.Props.Ml.C52_commit",
    "Verif.Props.Ml.C52_completeness_partial",
    "Verif.Props.Ml.C52_degree_counterexample",
    "Verif.Props.Ml.C52_merge",
    "Verif.Props.Ml.C52_open_exact",
    "Verif.Props.Ml.C52_order_counterexample",
    "Verif.Props.Ml.C52_panic_counterexample",
    "Verif.Props.Ml.C52_params_counterexample",
    "Verif.Props.Ml.C52_soundness_partial",
    "Verif.Props.Ml.C52_truncation_counterexample",
    "Verif.Props.Ml.C52_two_polynomials_counterexample",
    "Verif.Props.Ml.C52_verify_iff"
   ],
   "note": "Refuted in general. Completeness holds when the composed polynomial fits on the evaluation points and the parameters are trimmed to exactly the number of merged variables (C52_completeness_partial). Otherwise: honest opening of two polynomials in 3 or in 7 or more variables fails for all but n+1 challenges (C52_two_polynomials_counterexample), larger parameters make the honest proof fail (C52_params_counterexample), too small ones are silently truncated by batch_commit, and the reported values are evaluations at the reversed points (C52_order_counterexample). Exact behaviour: C52_open_exact, C52_commit, C52_verify_iff; idealized soundness: C52_soundness_partial."
  },
  {
   "property": "C53",
   "status": "proved",
   "theorems": [
    "Verif.Props.Schnorr.C53_honest_accepted",
    "Verif.Props.Schnorr.C53_key_bytes_roundtrip",
    "Verif.Props.Schnorr.C53_randomized_accepted",
    "Verif.Props.Schnorr.C53_special_soundness",
    "Verif.Props.Schnorr.C53_unique_response",
    "Verif.Props.Schnorr.C53_zero_key_counterexample"
   ],
   "note": "Hypotheses: prime order base point, cofactor not divisible by r, scalar field shorter than base field, non-zero signing key (nothing verifies under the zero key, theorem). Includes special soundness and key bytes."
  },
  {
   "property": "C54",
   "status": "partial",
   "theorems": [
    "Verif.Props.SchnorrCircuit.C54_agrees_partial",
    "Verif.Props.SchnorrCircuit.C54_alias",
    "Verif.Props.SchnorrCircuit.C54_bit_partial",
    "Verif.Props.SchnorrCircuit.C54_check_circuit",
    "Verif.Props.SchnorrCircuit.C54_flow_counterexample",
    "Verif.Props.SchnorrCircuit.C54_flow_iff",
    "Verif.Props.SchnorrCircuit.C54_flow_partial",
    "Verif.Props.SchnorrCircuit.C54_honest",
    "Verif.Props.SchnorrCircuit.C54_settings",
    "Verif.Props.SchnorrCircuit.C54_sizes",
    "Verif.Props.SchnorrCircuit.C54_small_order_counterexample",
    "Verif.Props.SchnorrCircuit.C54_verify_circuit",
    "Verif.Props.SchnorrCircuit.C54_verify_iff"
   ],
   "note": "For keys not of small order and points of the group the circuit accepts exactly what the native verifier accepts (C54_agrees_partial, C54_bit_partial, C54_flow_partial); the circuit and its honest builder are characterized exactly in terms of the native equation. Refuted for small-order keys: under the neutral key the circuit accepts a signature of every message made without a secret, the native verifier rejects all (C54_small_order_counterexample, C54_flow_counterexample). The hypotheses are proved of the four curves in use."
  },
  {
   "property": "C55",
   "status": "proved",
   "theorems": [
    "Verif.Props.Bls.C55_aggregate_honest",
    "Verif.Props.Bls.C55_aggregate_order",
    "Verif.Props.Bls.C55_aggregate_verify_exact",
    "Verif.Props.Bls.C55_honest_accepted",
    "Verif.Props.Bls.C55_mismatch_rejected",
    "Verif.Props.Bls.C55_multi_sig_exact",
    "Verif.Props.Bls.C55_multi_sig_honest",
    "Verif.Props.Bls.C55_rogue_key_counterexample",
    "Verif.Props.Bls.C55_unchecked",
    "Verif.Props.Bls.C55_verify_exact"
   ],
   "note": "Exact characterizations of the three verifiers over a non-degenerate pairing whose points pass the validity checks; rogue keys remain possible (theorem)."
  },
  {
   "property": "C56",
   "status": "proved",
   "theorems": [
    "Verif.Props.ElGamal.C56_decrypt_encrypt",
    "Verif.Props.ElGamal.C56_encrypt_decrypt",
    "Verif.Props.ElGamal.C56_from_scalars_panic_counterexample",
    "Verif.Props.ElGamal.C56_scalars_parse_roundtrip",
    "Verif.Props.ElGamal.C56_scalars_roundtrip",
    "Verif.Props.ElGamal.C56_stream"
   ],
   "note": "Any message length, any group and permutation; from_scalars panics on invalid points (theorem)."
  },
  {
   "property": "C57",
   "status": "partial",
   "theorems": [
    "Verif.Props.Lagrange.C57_circuit_size",
    "Verif.Props.Lagrange.C57_evaluate",
    "Verif.Props.Lagrange.C57_evaluate_merged",
    "Verif.Props.Lagrange.C57_first",
    "Verif.Props.Lagrange.C57_first_and_last",
    "Verif.Props.Lagrange.C57_last",
    "Verif.Props.Lagrange.C57_merged_odd",
    "Verif.Props.Lagrange.C57_one_point_counterexample",
    "Verif.Props.Lagrange.C57_public_input",
    "Verif.Props.Lagrange.C57_public_input_merged",
    "Verif.Props.Lagrange.C57_range",
    "Verif.Props.Lagrange.C57_range_panics",
    "Verif.Props.Lagrange.C57_too_many"
   ],
   "note": "Proved for every domain with at least two points, every range and every evaluation point in the domain or not; the public input part for every circuit that can be built and finalized and for every merged pair. On a domain of one point first_and_last_lagrange_coeffs returns (1, 0) at the point (C57_one_point_counterexample); circuits never have such a domain (C57_circuit_size)."
  },
  {
   "property": "C58",
   "status": "partial",
   "theorems": [
    "Verif.Props.Verifier.C58_homogeneous",
    "Verif.Props.Verifier.C58_mixed_accepted_counterexample",
    "Verif.Props.Verifier.C58_mixed_counterexample",
    "Verif.Props.Verifier.C58_separate_partial"
   ],
   "note": "Proved for every homogeneous batch and, exactly, for every batch whose first instance is UltraPlonk or only whose last one is (C58_separate_partial, C58_homogeneous): the combination vanishes for all challenges only if every constraint vanishes, with counted challenges. Refuted for every other mix of kinds: powers overlap, and a batch containing a circuit with the gate -1 = 0 has a combination that vanishes for all challenges (C58_mixed_counterexample) and is accepted by the verifier (C58_mixed_accepted_counterexample)."
  },
  {
   "property": "C59",
   "status": "proved",
   "theorems": [
    "Verif.Props.Verifier.C59_accepted",
    "Verif.Props.Verifier.C59_batch_complete",
    "Verif.Props.Verifier.C59_batch_equation",
    "Verif.Props.Verifier.C59_batch_sound",
    "Verif.Props.Verifier.C59_complete",
    "Verif.Props.Verifier.C59_identity",
    "Verif.Props.Verifier.C59_kzg",
    "Verif.Props.Verifier.C59_sound"
   ],
   "note": "For every batch of instances of any kinds, all challenges, all claimed evaluations: the prepared opening holds exactly if the combined constraint is Z_H times the quotient at the point (C59_sound, C59_complete), under KZG the acceptance equation is exactly that for true openings (C59_kzg, C59_accepted), and batches of proofs combine soundly with counted challenges (C59_batch_*). Proofs of other shapes are C72."
  },
  {
   "property": "C60",
   "status": "proved",
   "theorems": [
    "Verif.Props.HashToCurve.C60_deterministic",
    "Verif.Props.HashToCurve.C60_result",
    "Verif.Props.HashToCurve.C60_terminates"
   ],
   "note": "Termination for every prime (x = 1 gives the square 4); choice of the root for 2p <= 2^256, which BN254 meets. hash_to_field and sqrt of arkworks are parameters."
  },
  {
   "property": "C61",
   "status": "proved",
   "theorems": [
    "Verif.Props.Circuit.C61_circuit_independent_of_witness"
   ],
   "note": "Programs over 40 gadget calls."
  },
  {
   "property": "C62",
   "status": "partial",
   "theorems": [
    "Verif.Props.Circuit.C62_public_boolean_counterexample",
    "Verif.Props.Circuit.C62_set_variable_public"
   ],
   "note": "Proved for set_variable_public; create_public_boolean_variable is shown not to enforce a boolean (counterexample)."
  },
  {
   "property": "C63",
   "status": "proved",
   "theorems": [
    "Verif.Props.Circuit.C63_lookup",
    "Verif.Props.Circuit.C63_tables_invariant",
    "Verif.Props.Circuit.C63_turbo_lookup_counterexample"
   ],
   "note": "UltraPlonk; on TurboPlonk circuits the call is shown to impose nothing."
  },
  {
   "property": "C64",
   "status": "proved",
   "theorems": [
    "Verif.Pcs.C64_evaluation_binding"
   ],
   "note": ""
  },
  {
   "property": "C65",
   "status": "partial",
   "theorems": [
    "Verif.Props.Bls.C65_bls_context_counterexample",
    "Verif.Props.Bls.C65_bls_context_partial",
    "Verif.Props.Schnorr.C65_schnorr_context_partial",
    "Verif.Props.Schnorr.C65_schnorr_leading_zero_counterexample"
   ],
   "note": "False: leading zero bytes (Schnorr) and moved bytes (BLS) are not separated. Partial: context strings of one length (for Schnorr also short enough for the base field), non-zero key, up to hash collisions."
  },
  {
   "property": "C66",
   "status": "partial",
   "theorems": [
    "Verif.Props.Schnorr.C66_not_small_order_partial",
    "Verif.Props.Schnorr.C66_outside_subgroup_counterexample"
   ],
   "note": "False: the check only excludes small order (counterexample). Partial: no accepted key has order dividing the cofactor, for cofactors below r."
  },
  {
   "property": "C67",
   "status": "proved",
   "theorems": [
    "Verif.Props.Bls.C67_vrf_completeness",
    "Verif.Props.Bls.C67_vrf_output_iff",
    "Verif.Props.Bls.C67_vrf_uniqueness"
   ],
   "note": "blst signatures are modelled as textbook BLS over a bilinear pairing."
  },
  {
   "property": "C68",
   "status": "partial",
   "theorems": [
    "Verif.Props.Bls.C68_roundtrip",
    "Verif.Props.Bls.C68_size_counterexample"
   ],
   "note": "Round trip proved; serialized_size is always too small (counterexample)."
  },
  {
   "property": "C69",
   "status": "partial",
   "theorems": [
    "Verif.Props.Circuit.C69_commitment",
    "Verif.Props.Circuit.C69_empty_hash_counterexample",
    "Verif.Props.Circuit.C69_empty_prf_counterexample",
    "Verif.Props.Circuit.C69_keyed_sponge",
    "Verif.Props.Circuit.C69_prf_partial",
    "Verif.Props.Circuit.C69_shipped_hash_ok",
    "Verif.Props.Circuit.C69_sponge_no_padding_error",
    "Verif.Props.Circuit.C69_sponge_no_padding_partial",
    "Verif.Props.Circuit.C69_variable_length_hash_partial"
   ],
   "note": "False on the empty input: gadget errors where the native function answers (counterexamples). Proved for all other inputs and all shipped parameter sets."
  },
  {
   "property": "C70",
   "status": "partial",
   "theorems": [
    "Verif.Rescue.C70_prf_empty_input_counterexample",
    "Verif.Rescue.C70_prf_length_counterexample",
    "Verif.Rescue.C70_prf_one_block",
    "Verif.Rescue.C70_prf_related_seeds",
    "Verif.Rescue.C70_prf_same_length_partial",
    "Verif.Rescue.C70_prf_total"
   ],
   "note": "Total; the empty input returns the seed in the clear and zero padding merges inputs of different length (counterexamples). Proved for inputs of one length."
  },
  {
   "property": "C71",
   "status": "proved",
   "theorems": [
    "Verif.Props.Emulated.C71_conditional_select",
    "Verif.Props.Emulated.C71_constant",
    "Verif.Props.Emulated.C71_create",
    "Verif.Props.Emulated.C71_enforce_equal",
    "Verif.Props.Emulated.C71_is_equal",
    "Verif.Props.Emulated.C71_is_zero"
   ],
   "note": ""
  },
  {
   "property": "C72",
   "status": "partial",
   "theorems": [
    "Verif.Props.Verifier.C72_shape_counterexample"
   ],
   "note": "Refuted: list lengths are not checked; a batch proof with ten wire commitments and two evaluation entries is accepted for circuits that are not satisfied (C72_shape_counterexample). With the prescribed shape the evaluations belong to their commitments (C59_sound)."
  },
  {
   "property": "C73",
   "status": "partial",
   "theorems": [
    "Verif.Props.EndToEnd.C73_circuit",
    "Verif.Props.EndToEnd.C73_key",
    "Verif.Props.EndToEnd.C73_preprocess",
    "Verif.Props.EndToEnd.C73_sound",
    "Verif.Props.EndToEnd.C73_srs"
   ],
   "note": "Proved round by round for every batch of buildable circuits of one kind: preprocessing (C73_preprocess, C73_key, C73_srs), circuit to polynomials (C73_circuit), and the whole verifier (C73_sound), with counted challenges. The adversary commits to polynomials it knows (algebraic in the reference string) and the challenges are parameters in turn (hashing is not modelled); circuits with tables placed on public-input rows or the last two rows are excluded (Supported), for which C25 and C26 have counterexamples."
  },
  {
   "property": "C74",
   "status": "partial",
   "theorems": [
    "Verif.Props.Prover.C74_batch_degree",
    "Verif.Props.Prover.C74_batch_rare",
    "Verif.Props.Prover.C74_defined_rare",
    "Verif.Props.Prover.C74_degree",
    "Verif.Props.Prover.C74_honest",
    "Verif.Props.Prover.C74_outcome",
    "Verif.Props.Prover.C74_two_rows_counterexample"
   ],
   "note": "Proved: every proof returned by the prover is accepted, for every batch of satisfied circuits, all randomness and all challenges (C74_honest); the outcomes for satisfied circuits are exactly a zero denominator, a wrong degree of the quotient, a zero coefficient or randomizer when splitting, or an accepted proof (C74_outcome); for one circuit the degree is wrong iff the challenge alpha or one of the last randomizers is zero (C74_degree). Refuted: over a domain with two points (a circuit without gates) the prover always fails (C74_two_rows_counterexample). Counted: the degree for batches is wrong iff alpha or a combination of the last randomizers is zero (C74_batch_degree), which at most nw + 1 in p choices of the last randomizers of an instance meet (C74_batch_rare); at most 6(n-1) + 2(n-2) values of gamma make a denominator zero (C74_defined_rare). Not counted: randomness for which an inner coefficient of the quotient is zero."
  },
  {
   "property": "C75",
   "status": "partial",
   "theorems": [
    "Verif.Props.Emulated.C75_add_partial",
    "Verif.Props.Emulated.C75_circuit",
    "Verif.Props.Emulated.C75_complete",
    "Verif.Props.Emulated.C75_counterexample",
    "Verif.Props.Emulated.C75_defined",
    "Verif.Props.Emulated.C75_exact",
    "Verif.Props.Emulated.C75_panic_counterexample",
    "Verif.Props.Emulated.C75_shipped_counterexample",
    "Verif.Props.Emulated.C75_sound_partial"
   ],
   "note": "The accepted triples are characterised exactly (C75_exact). Proved: completeness where the addition is defined, which is everywhere for d not a square (C75_defined); the builder succeeds when no carry ripples; with right field arithmetic the gate accepts exactly the sum. Refuted: wrong results are accepted in both shipped configurations; on BLS12-377 d is a square and the call panics for some points of the curve (C75_shipped_counterexample)."
  },
  {
   "property": "C76",
   "status": "proved",
   "theorems": [
    "Verif.Props.Emulated.C76_sw_constant",
    "Verif.Props.Emulated.C76_sw_enforce_equal",
    "Verif.Props.Emulated.C76_sw_is_equal",
    "Verif.Props.Emulated.C76_sw_select",
    "Verif.Props.Emulated.C76_te_constant",
    "Verif.Props.Emulated.C76_te_enforce_equal",
    "Verif.Props.Emulated.C76_te_is_equal",
    "Verif.Props.Emulated.C76_te_select"
   ],
   "note": "For every configuration, pair of points and assignment. Public point variables are modelled but have no theorem of their own."
  },
  {
   "property": "C77",
   "status": "partial",
   "theorems": [
    "Verif.Props.Emulated.C77_add",
    "Verif.Props.Emulated.C77_dummy_counterexample",
    "Verif.Props.Emulated.C77_emulated",
    "Verif.Props.Emulated.C77_injective",
    "Verif.Props.Emulated.C77_inverse",
    "Verif.Props.Emulated.C77_native",
    "Verif.Props.Emulated.C77_odd_order",
    "Verif.Props.Emulated.C77_on_curve",
    "Verif.Props.Emulated.C77_panic_counterexample"
   ],
   "note": "Proved for BLS12-377: results on the curve, injective, inverses, sums where all denominators are nonzero (C77_add); on points of odd order, which include G1, no panic and sums without further condition (C77_odd_order), with the consequences for the emulated and native addition (C77_emulated, C77_native). Refuted on the whole curve: panics for points of order 2 and 4 (C77_panic_counterexample); with the placeholder constants of the other three fields it panics for every finite point (C77_dummy_counterexample)."
  },
  {
   "property": "C78",
   "status": "partial",
   "theorems": [
    "Verif.Props.Hiding.C78_turbo_hiding",
    "Verif.Props.Hiding.C78_turbo_rare",
    "Verif.Props.Hiding.C78_turbo_total",
    "Verif.Props.Hiding.C78_ultra_counterexample",
    "Verif.Props.Hiding.C78_ultra_disjoint",
    "Verif.Props.Hiding.C78_ultra_trace"
   ],
   "note": "Refuted for UltraPlonk: wires 3 and 4 are masked with two coefficients but three values of them are revealed; a function of the proof equals a function of the witness for all randomness (C78_ultra_trace), so that the proofs of two witnesses are disjoint outside few challenges (C78_ultra_disjoint), with two concrete witnesses told apart by every proof (C78_ultra_counterexample). Proved for TurboPlonk batches in terms of counts of the randomness (C78_turbo_hiding, C78_turbo_total), with explicit terms for the failures of the splitting and for degenerate challenges, which are rare (C78_turbo_rare). Failures of the degree check are counted in C74_batch_rare. Missing: the number of failures from a zero inner coefficient of the quotient; probabilities over the oracle."
  },
  {
   "property": "C79",
   "status": "partial",
   "theorems": [
    "Verif.Props.ElGamalCircuit.C79_alias",
    "Verif.Props.ElGamalCircuit.C79_bandersnatch",
    "Verif.Props.ElGamalCircuit.C79_decrypts",
    "Verif.Props.ElGamalCircuit.C79_lookup",
    "Verif.Props.ElGamalCircuit.C79_lookup_counterexample",
    "Verif.Props.ElGamalCircuit.C79_lookup_sizes",
    "Verif.Props.ElGamalCircuit.C79_setups",
    "Verif.Props.ElGamalCircuit.C79_turbo",
    "Verif.Props.ElGamalCircuit.C79_wrong_message"
   ],
   "note": "Proved for circuits without lookups: every satisfying assignment holds the native ciphertext (C79_turbo) and the owner of the key recovers the data (C79_decrypts), with the assumptions met by the four shipped curves (C79_setups). Refuted for circuits with lookups: the exact set of ciphertexts is determined (C79_lookup, C79_bandersnatch), the shared key may be multiplied by another representative of the randomness than the ephemeral key (C79_alias, for all three shipped curves by C79_lookup_sizes), what the owner then obtains is given by C79_wrong_message, and C79_lookup_counterexample is a satisfied circuit whose ciphertext decrypts to another message."
  },
  {
   "property": "C80",
   "status": "partial",
   "theorems": [
    "Verif.Props.VerifierCircuit.C80_constant_counterexample",
    "Verif.Props.VerifierCircuit.C80_constant_honest",
    "Verif.Props.VerifierCircuit.C80_constant_sound_partial",
    "Verif.Props.VerifierCircuit.C80_helper_honest",
    "Verif.Props.VerifierCircuit.C80_helper_sound",
    "Verif.Props.VerifierCircuit.C80_pi_honest",
    "Verif.Props.VerifierCircuit.C80_pi_sound"
   ],
   "note": "Honest values are accepted and equal the native ones (C80_helper_honest, C80_pi_honest, C80_constant_honest). In every satisfying assignment with challenges in range the vanishing polynomial and the first Lagrange coefficient are right (C80_helper_sound), and the public input polynomial up to reduction (C80_pi_sound). The constant term is right if also the limbs of the sums are in range (C80_constant_sound_partial); the circuit does not check them, and for the parameters in use (BLS12-377) it accepts a wrong constant term (C80_constant_counterexample). Not covered: the transcript, the group operations, and the scalars of the linearization."
  },
  {
   "property": "C81",
   "status": "partial",
   "theorems": [
    "Verif.Props.TranscriptCircuit.C81_alias_partial",
    "Verif.Props.TranscriptCircuit.C81_honest",
    "Verif.Props.TranscriptCircuit.C81_message_partial",
    "Verif.Props.TranscriptCircuit.C81_short_range_partial",
    "Verif.Props.TranscriptCircuit.C81_sound_partial",
    "Verif.Rescue.C81_alias_counterexample",
    "Verif.Rescue.C81_message_counterexample",
    "Verif.Rescue.C81_short_range_counterexample"
   ],
   "note": "Honest values give the native challenges (C81_honest). In every satisfying assignment, for lookup ranges dividing neither 248 nor 129 (as 16), each challenge is the native one or the truncation of the hash plus the modulus where this has at most 377 bits (C81_sound_partial). The second case is refuted as a mere artefact: the circuit accepts it for any set of challenges (C81_alias_partial), with the shipped Rescue constants and keys of the shape of TurboPlonk (C81_alias_counterexample). For ranges dividing 248 (as 8) the challenge may also grow by multiples of 2^248 (C81_short_range_partial, C81_short_range_counterexample). The extra message is not constrained: the circuit for one message accepts the challenges of another (C81_message_partial, C81_message_counterexample). Not covered: proofs with lookups (the circuit does not support them), limbs of the challenges out of range."
  },
  {
   "property": "C82",
   "status": "partial",
   "theorems": [
    "Verif.Props.TranscriptBinding.C82_boundaries",
    "Verif.Props.TranscriptBinding.C82_infinity_counterexample",
    "Verif.Props.TranscriptBinding.C82_lookup_counterexample",
    "Verif.Props.TranscriptBinding.C82_not_bound",
    "Verif.Props.TranscriptBinding.C82_points",
    "Verif.Props.TranscriptBinding.C82_proof",
    "Verif.Props.TranscriptBinding.C82_rescue_counterexample",
    "Verif.Props.TranscriptBinding.C82_rescue_partial",
    "Verif.Props.TranscriptBinding.C82_shape_counterexample",
    "Verif.Props.TranscriptBinding.C82_solidity_partial",
    "Verif.Props.TranscriptBinding.C82_standard_partial"
   ],
   "note": "Proved: equal operations on merlin, without any assumption on shapes (C82_standard_partial), or equal last states for Solidity and Rescue with keys of the same shape and no collision among the strings hashed (C82_solidity_partial, C82_rescue_partial), imply equal message, inputs, absorbed parts of the keys, and proofs up to boundaries inside lists; with equal lengths the proofs are equal (C82_proof). Refuted beyond this: no transcript absorbs the commitments to lookup tables (C82_lookup_counterexample, C82_not_bound), Rescue absorbs neither domain size nor number of inputs nor k nor the reference string (C82_rescue_counterexample), boundaries between instances are lost (C82_boundaries), without labels selectors and permutation commitments run together (C82_shape_counterexample), and the point (0,0) is absorbed as infinity on curves that contain it (C82_infinity_counterexample; impossible for a nonzero constant coefficient, C82_points). merlin is a list of labelled operations, compressed point serializations are injective parameters."
  },
  {
   "property": "C83",
   "status": "partial",
   "theorems": [
    "Verif.Props.VerifierPoints.C83_built",
    "Verif.Props.VerifierPoints.C83_honest",
    "Verif.Props.VerifierPoints.C83_keys_honest",
    "Verif.Props.VerifierPoints.C83_keys_sound",
    "Verif.Props.VerifierPoints.C83_outer_partial",
    "Verif.Props.VerifierPoints.C83_sound_partial"
   ],
   "note": "Honest values give the points of the native partial_verify (C83_honest), and merged keys are the native ones, in any assignment (C83_keys_honest, C83_keys_sound). In every satisfying assignment whose challenges and sums have limbs in range the points are those of partial_verify with challenges cut from a representative of each native hash (C83_sound_partial). The circuit can be built (C83_built), and a prover for it whose wires carry no such assignment is rejected except for counted challenges (C83_outer_partial). The two reservations are real: C80 has an accepted wrong constant term from sums out of range, C81 accepted challenges from the second representative. Challenges zeta in the domain are excluded."
  },
  {
   "property": "C84",
   "status": "partial",
   "theorems": [
    "Verif.Props.BatchArg.C84_circuit",
    "Verif.Props.BatchArg.C84_decide",
    "Verif.Props.BatchArg.C84_honest",
    "Verif.Props.BatchArg.C84_keys",
    "Verif.Props.BatchArg.C84_sound",
    "Verif.Props.BatchArg.C84_wrong_beta"
   ],
   "note": "Proved: the sum of the keys of a type A and a type B circuit is the key of the merged circuit, for any reference string (C84_keys); partial_verify with any blinding factor followed by decide gives what verify_batch_proof gives on the doubled inputs (C84_decide), and fails if beta_g is another multiple (C84_wrong_beta); a proof returned by batch_prove for satisfied instances with shared inputs is accepted (C84_honest); a prover committing to polynomials whose wires do not carry assignments satisfying both circuits of every pair is rejected except for counted challenges, round by round (C84_circuit, C84_sound). As in C73 and C74 the cheating prover knows polynomials for its commitments, challenges are parameters, and completeness is conditional on batch_prove returning a proof."
  },
  {
   "property": "C85",
   "status": "partial",
   "theorems": [
    "Verif.Props.RescueNonNative.C85_create_honest",
    "Verif.Props.RescueNonNative.C85_create_sound",
    "Verif.Props.RescueNonNative.C85_keyed_honest",
    "Verif.Props.RescueNonNative.C85_keyed_padding_honest",
    "Verif.Props.RescueNonNative.C85_keyed_padding_sound",
    "Verif.Props.RescueNonNative.C85_keyed_sound",
    "Verif.Props.RescueNonNative.C85_other_exponent",
    "Verif.Props.RescueNonNative.C85_parameters",
    "Verif.Props.RescueNonNative.C85_permutation_honest",
    "Verif.Props.RescueNonNative.C85_permutation_sound",
    "Verif.Props.RescueNonNative.C85_prp_counterexample",
    "Verif.Props.RescueNonNative.C85_prp_honest",
    "Verif.Props.RescueNonNative.C85_prp_sound_partial",
    "Verif.Props.RescueNonNative.C85_refused",
    "Verif.Props.RescueNonNative.C85_shape",
    "Verif.Props.RescueNonNative.C85_shipped_parameters",
    "Verif.Props.RescueNonNative.C85_sponge_honest",
    "Verif.Props.RescueNonNative.C85_sponge_padding_honest",
    "Verif.Props.RescueNonNative.C85_sponge_padding_sound",
    "Verif.Props.RescueNonNative.C85_sponge_sound"
   ],
   "note": "Proved for all inputs: rescue_permutation, both sponges and both keyed sponges, honest and in every satisfying assignment with input limbs in range (C85_permutation_*, C85_sponge_*, C85_keyed_*), creation of states (C85_create_*), limb sizes chosen by the code (C85_parameters, C85_shipped_parameters), refused inputs (C85_refused, C85_other_exponent), shape independent of values (C85_shape). prp: honest (C85_prp_honest); in any assignment only if the sums entering the odd rounds and the output are in range (C85_prp_sound_partial). Without this it is false: C85_prp_counterexample, with the shipped ed-on-BLS12-377 constants and limbs as chosen by the code for a range check of 21 bits."
  },
  {
   "property": "C86",
   "status": "proved",
   "theorems": [
    "Verif.Props.MerkleHashes.C86_absence",
    "Verif.Props.MerkleHashes.C86_bytes_digest",
    "Verif.Props.MerkleHashes.C86_hasher_separated",
    "Verif.Props.MerkleHashes.C86_history",
    "Verif.Props.MerkleHashes.C86_interval_counterexample",
    "Verif.Props.MerkleHashes.C86_list",
    "Verif.Props.MerkleHashes.C86_membership",
    "Verif.Props.MerkleHashes.C86_poseidon2_digest",
    "Verif.Props.MerkleHashes.C86_poseidon2_refused",
    "Verif.Props.MerkleHashes.C86_poseidon2_separated",
    "Verif.Props.MerkleHashes.C86_positions",
    "Verif.Props.MerkleHashes.C86_rescue_digest",
    "Verif.Props.MerkleHashes.C86_rescue_separated",
    "Verif.Props.MerkleHashes.C86_sha_separated"
   ],
   "note": "Digests as inputs of one hash function, never an error: C86_rescue_digest, C86_poseidon2_digest (C86_poseidon2_refused for short inputs), C86_bytes_digest. Inputs of leaves and nodes are separated: C86_rescue_separated, C86_poseidon2_separated, C86_sha_separated, C86_hasher_separated, C86_positions. For any hash with separated inputs: C86_membership, C86_absence (any reached tree, proofs of its height), C86_history, C86_list (trees in memory, proofs of any length). The explicit collision or preimage is a disjunct of the conclusion. The interval hash refuses every leaf and every inner node: C86_interval_counterexample."
  },
  {
   "property": "C87",
   "status": "partial",
   "theorems": [
    "Verif.Props.ProofFields.C87_accepted",
    "Verif.Props.ProofFields.C87_evals_back",
    "Verif.Props.ProofFields.C87_evals_refused",
    "Verif.Props.ProofFields.C87_evals_round_trip",
    "Verif.Props.ProofFields.C87_identity_counterexample",
    "Verif.Props.ProofFields.C87_keys",
    "Verif.Props.ProofFields.C87_lookup",
    "Verif.Props.ProofFields.C87_malleable_counterexample",
    "Verif.Props.ProofFields.C87_merged_counterexample",
    "Verif.Props.ProofFields.C87_outcome",
    "Verif.Props.ProofFields.C87_round_trip",
    "Verif.Props.ProofFields.C87_shape_counterexample"
   ],
   "note": "Proved: round trip for TurboPlonk proofs with finite commitments (C87_round_trip), accepted lists give such proofs and come back with the last ten elements reduced (C87_accepted), exact outcomes of all lists (C87_outcome), evaluations both ways (C87_evals_*), keys up to the merged flag (C87_keys). False as stated: a proof with an identity commitment makes the conversion back panic (C87_identity_counterexample), lists with points off the curve panic instead of giving an error (C87_outcome), two lists may give one proof (C87_malleable_counterexample), proofs of other shapes may have equal fields (C87_shape_counterexample), the merged flag of keys does not enter (C87_merged_counterexample)."
  },
  {
   "property": "C88",
   "status": "partial",
   "theorems": [
    "Verif.Props.VerifierInput.C88_circuit_honest",
    "Verif.Props.VerifierInput.C88_circuit_partial",
    "Verif.Props.VerifierInput.C88_defined",
    "Verif.Props.VerifierInput.C88_fields",
    "Verif.Props.VerifierInput.C88_free_counterexample",
    "Verif.Props.VerifierInput.C88_honest",
    "Verif.Props.VerifierInput.C88_limbs",
    "Verif.Props.VerifierInput.C88_noncanonical_counterexample",
    "Verif.Props.VerifierInput.C88_sound_partial",
    "Verif.Props.VerifierInput.C88_to_vec",
    "Verif.Props.VerifierInput.C88_uniform"
   ],
   "note": "Proved: keys, inputs and proofs are stored exactly when every commitment has coordinates (C88_honest, C88_defined), evaluations of a field that is too large are refused (C88_fields), to_vec (C88_to_vec), the same circuit for all data of one shape (C88_uniform), limbs in range in every satisfying assignment (C88_limbs), the whole circuit returns the points of the native verifier (C88_circuit_honest). For any assignment only with the assumption that the stored points are commitments and the numbers reduced (C88_sound_partial, C88_circuit_partial); these are not checked by the circuit: C88_free_counterexample (any coordinates), C88_noncanonical_counterexample (x + Q for x)."
  },
  {
   "property": "C89",
   "status": "proved",
   "theorems": [
    "Verif.Props.Ml.C89_binding",
    "Verif.Props.Ml.C89_challenge",
    "Verif.Props.Ml.C89_empty",
    "Verif.Props.Ml.C89_polynomials",
    "Verif.Props.Ml.C89_soundness"
   ],
   "note": "Transcript: C89_empty, C89_challenge, C89_binding (for an injective serialization of commitments). Soundness for algebraic provers: C89_soundness for any committed table, C89_polynomials for the commitment of batch_commit with parameters for exactly the merged number of variables. The points are those the code evaluates at, that is reversed (see C52_order_counterexample)."
  },
  {
   "property": "C90",
   "status": "partial",
   "theorems": [
    "Verif.Props.Aead.C90_ciphertext_bytes",
    "Verif.Props.Aead.C90_data_bound",
    "Verif.Props.Aead.C90_default_counterexample",
    "Verif.Props.Aead.C90_equal_counterexample",
    "Verif.Props.Aead.C90_json_counterexample",
    "Verif.Props.Aead.C90_nonce_bincode",
    "Verif.Props.Aead.C90_opens_iff",
    "Verif.Props.Aead.C90_other_key",
    "Verif.Props.Aead.C90_pair_bytes",
    "Verif.Props.Aead.C90_panic_counterexample",
    "Verif.Props.Aead.C90_round_trip"
   ],
   "note": "Proved: round trip for generated pairs and the only failures of encryption (C90_round_trip), exactly the encryptions open (C90_opens_iff), other data or message only through a collision of tags (C90_data_bound), another pair only through a collision of derived keys (C90_other_key), canonical serialization of pairs and ciphertexts both ways (C90_pair_bytes, C90_ciphertext_bytes), nonces in bincode (C90_nonce_bincode). False of the code: KeyPair::default() does not open what is encrypted to its public key (C90_default_counterexample); pairs that count as equal may have different secret keys (C90_equal_counterexample); nonces of wrong length panic in deserialization (C90_panic_counterexample); no nonce written as JSON is read back (C90_json_counterexample). The last two rest on a model of bincode and serde_json."
  },
  {
   "property": "C91",
   "status": "proved",
   "theorems": [
    "Verif.Props.Poe.C91_accepted",
    "Verif.Props.Poe.C91_edBls381",
    "Verif.Props.Poe.C91_exponent",
    "Verif.Props.Poe.C91_gadget",
    "Verif.Props.Poe.C91_no_exponent",
    "Verif.Props.Poe.C91_one_key",
    "Verif.Props.Poe.C91_outcome",
    "Verif.Props.Poe.C91_relation",
    "Verif.Props.Poe.C91_same_key",
    "Verif.Props.Poe.C91_table_accepted",
    "Verif.Props.Poe.C91_table_gadget",
    "Verif.Props.Poe.C91_table_key",
    "Verif.Props.Poe.C91_table_sound",
    "Verif.Props.Poe.C91_unique"
   ],
   "note": "Gadgets keep circuits buildable and public inputs unchanged (C91_gadget, with lookup tables C91_table_gadget), keys do not depend on the witness (C91_same_key, C91_one_key, C91_table_key); completeness and soundness of proofs for gadgets with lookup tables (C91_table_accepted, C91_table_sound); for the example circuit outcome, relation and uniqueness of the exponent (C91_outcome, C91_relation, C91_unique), completeness (C91_accepted) and soundness for provers that commit to polynomials, with the number of exceptional challenges (C91_exponent, C91_no_exponent); C91_edBls381 is the curve of the example. Challenges are counted, not hashed (the transcripts are C82); the finalization is a hypothesis (it fails only without a large enough domain)."
  },
  {
   "property": "C92",
   "status": "partial",
   "theorems": [
    "Verif.Props.Snark.C92_complete_partial",
    "Verif.Props.Snark.C92_errors",
    "Verif.Props.Snark.C92_honest",
    "Verif.Props.Snark.C92_honest_list",
    "Verif.Props.Snark.C92_lengths",
    "Verif.Props.Snark.C92_prove",
    "Verif.Props.Snark.C92_reference_string_accepted_counterexample",
    "Verif.Props.Snark.C92_reference_string_counterexample",
    "Verif.Props.Snark.C92_sound_partial",
    "Verif.Props.Snark.C92_verify"
   ],
   "note": "Proved for keys with one reference string: C92_verify and C92_prove (single proofs are batches of one, no field lost, no index panics), C92_lengths, C92_errors, C92_complete_partial, C92_sound_partial (bad set of fewer challenges than proofs, independent of the hash), C92_honest and C92_honest_list (honest proofs of any sizes and kinds, through the whole prover). Refuted for keys of different reference strings, which batch_verify does not compare: it checks all proofs with the reference string of the first key, so that accepted proofs are rejected together (C92_reference_string_counterexample) and a rejected proof is accepted behind another one for every challenge (C92_reference_string_accepted_counterexample)."
  },
  {
   "property": "C93",
   "status": "partial",
   "theorems": [
    "Verif.Props.MerkleSerde.C93_children_counterexample",
    "Verif.Props.MerkleSerde.C93_height_counterexample",
    "Verif.Props.MerkleSerde.C93_more_children_counterexample",
    "Verif.Props.MerkleSerde.C93_node_bytes",
    "Verif.Props.MerkleSerde.C93_proof",
    "Verif.Props.MerkleSerde.C93_proof_prefix",
    "Verif.Props.MerkleSerde.C93_range_proof",
    "Verif.Props.MerkleSerde.C93_raw_accepted",
    "Verif.Props.MerkleSerde.C93_raw_arity",
    "Verif.Props.MerkleSerde.C93_raw_lookup",
    "Verif.Props.MerkleSerde.C93_raw_tree",
    "Verif.Props.MerkleSerde.C93_tag",
    "Verif.Props.MerkleSerde.C93_trailing_counterexample",
    "Verif.Props.MerkleSerde.C93_tree",
    "Verif.Props.MerkleSerde.C93_tree_accepted",
    "Verif.Props.MerkleSerde.C93_tree_injective",
    "Verif.Props.MerkleSerde.C93_uint",
    "Verif.Props.MerkleSerde.C93_unvalidated_counterexample"
   ],
   "note": "Proved: C93_tree, C93_raw_tree and C93_tree_injective (round trip of trees), C93_tree_accepted and C93_raw_accepted (an accepted value is the serialized value of the result up to bytes appended to node values, positions and elements), C93_proof, C93_range_proof, C93_proof_prefix (both directions, on bytes), C93_node_bytes, C93_uint, C93_tag. The raw theorems cover branches with any number of children, which the code accepts; C93_raw_arity and C93_raw_lookup connect them with the model of fixed arity. Refuted: values with appended bytes are accepted (C93_trailing_counterexample), and trees are not validated: a lookup in an accepted tree returns a proof its commitment rejects (C93_unvalidated_counterexample) or a malformed proof (C93_more_children_counterexample), or every lookup panics (C93_height_counterexample, C93_children_counterexample). Missing: the text formats."
  },
  {
   "property": "C94",
   "status": "partial",
   "theorems": [
    "Verif.Props.PlonkSerde.C94_answer",
    "Verif.Props.PlonkSerde.C94_batch_panic_counterexample",
    "Verif.Props.PlonkSerde.C94_batch_proof",
    "Verif.Props.PlonkSerde.C94_field",
    "Verif.Props.PlonkSerde.C94_panic_counterexample",
    "Verif.Props.PlonkSerde.C94_prefix",
    "Verif.Props.PlonkSerde.C94_proof",
    "Verif.Props.PlonkSerde.C94_proving_key",
    "Verif.Props.PlonkSerde.C94_verifying_key"
   ],
   "note": "Proved: C94_proof, C94_batch_proof, C94_verifying_key, C94_proving_key, C94_field (read back whatever follows, accepted bytes are those of the result), C94_prefix (no two meanings), C94_answer (verify answers on every proof with as many entries as the prover writes, for keys with and without lookups, merged or not). The encoding of points is a parameter assumed sound. Refuted: the verifier panics on a batch proof read from bytes that has no entries for lookups (C94_batch_panic_counterexample), and verify on a proof read from bytes that has no wire evaluations (C94_panic_counterexample), in both cases for every fitting key and public input, because the lengths of the vectors of a proof are not checked. Missing: text encodings."
  },
  {
   "property": "C95",
   "status": "partial",
   "theorems": [
    "Verif.Props.CryptoSerde.C95_elgamal",
    "Verif.Props.CryptoSerde.C95_key_pair_counterexample",
    "Verif.Props.CryptoSerde.C95_multilinear_answer",
    "Verif.Props.CryptoSerde.C95_multilinear_panic_counterexample",
    "Verif.Props.CryptoSerde.C95_multilinear_params",
    "Verif.Props.CryptoSerde.C95_multilinear_proof",
    "Verif.Props.CryptoSerde.C95_multilinear_srs",
    "Verif.Props.CryptoSerde.C95_multilinear_srs_panic_counterexample",
    "Verif.Props.CryptoSerde.C95_neutral_key_counterexample",
    "Verif.Props.CryptoSerde.C95_signature",
    "Verif.Props.CryptoSerde.C95_signature_unique",
    "Verif.Props.CryptoSerde.C95_srs",
    "Verif.Props.CryptoSerde.C95_srs_panic_counterexample",
    "Verif.Props.CryptoSerde.C95_srs_unchecked_counterexample",
    "Verif.Props.CryptoSerde.C95_transport",
    "Verif.Props.CryptoSerde.C95_trim",
    "Verif.Props.CryptoSerde.C95_verification_key"
   ],
   "note": "Proved: the round trips and that accepted bytes are those of the value (C95_srs, C95_multilinear_params, C95_multilinear_srs, C95_multilinear_proof, C95_signature, C95_elgamal), no second encoding of an accepted signature with the same R (C95_signature_unique), keys under which something is accepted have signing keys (C95_verification_key), encryption with everything sent as bytes (C95_transport), trimming and batch verification do not panic on values of the right shape (C95_trim, C95_multilinear_answer). The encoding of points is a parameter assumed sound. Refuted: reference strings without points are read and trimming them panics (C95_srs_panic_counterexample, C95_multilinear_srs_panic_counterexample), points need not be powers of one secret so that honest openings are refused (C95_srs_unchecked_counterexample), the verifier of multilinear batch openings panics on a proof without points (C95_multilinear_panic_counterexample), key pairs need not match (C95_key_pair_counterexample), the neutral element is read as an encryption key (C95_neutral_key_counterexample). Text encodings are C96."
  },
  {
   "property": "C96",
   "status": "partial",
   "theorems": [
    "Verif.Props.Tagged.C96_base64",
    "Verif.Props.Tagged.C96_bls12381",
    "Verif.Props.Tagged.C96_key",
    "Verif.Props.Tagged.C96_kinds",
    "Verif.Props.Tagged.C96_scheme_counterexample",
    "Verif.Props.Tagged.C96_text",
    "Verif.Props.Tagged.C96_two_texts_counterexample",
    "Verif.Props.TaggedDerive.C96_derived",
    "Verif.Props.TaggedDerive.C96_derived_counterexample",
    "Verif.Props.TaggedDerive.C96_types"
   ],
   "note": "Proved: base 64 and tagged text both ways, for any checksum (C96_base64, C96_text), keys and pairs are read back (C96_key), kinds are told apart (C96_kinds), keys over BLS12-381 have one text (C96_bls12381), derived text of signatures, proofs and Merkle proofs is read back and accepted only with the bytes of the value in front (C96_derived, C96_types). The crate tagged_base64 and the byte encoding of blst are external and modelled after their documentation. Refuted: keys reduced modulo the order have several texts, and no bytes at all are read as the key zero (C96_two_texts_counterexample); both BLS schemes use the tag BLS_SIGNING_KEY, so that every key over BLS12-381 is read as a key over BN254, the key 1 as another number (C96_scheme_counterexample); derived text ignores bytes behind the value, so that every signature and proof has other texts (C96_derived_counterexample)."
  },
  {
   "property": "C97",
   "status": "partial",
   "theorems": [
    "Verif.Props.Dummy.C97_accepts_counterexample",
    "Verif.Props.Dummy.C97_batch_counterexample",
    "Verif.Props.Dummy.C97_circuit",
    "Verif.Props.Dummy.C97_key",
    "Verif.Props.Dummy.C97_proof",
    "Verif.Props.Dummy.C97_prover",
    "Verif.Props.Dummy.C97_real"
   ],
   "note": "Proved: dummy keys are like the keys of preprocess (C97_key), dummy proofs have the numbers of proofs (C97_proof), a verifier circuit storing dummies is the same as one storing real data, if the neutral element has coordinates (C97_circuit; the numbers assumed of the proof, TurboBatch, are those of every proof the prover returns for circuits without lookups: C97_prover; all together for the keys of preprocess and the proofs of the prover: C97_real). Refuted: the opening key of a dummy key is zero, so that verify accepts every proof of the right shape for every public input (C97_accepts_counterexample), and a batch with a dummy key in front is never rejected, whatever the other keys are (C97_batch_counterexample)."
  },
  {
   "property": "C98",
   "status": "proved",
   "theorems": [
    "Verif.Props.SchnorrNonce.C98_collision_reveals",
    "Verif.Props.SchnorrNonce.C98_nonce",
    "Verif.Props.SchnorrNonce.C98_same_signature"
   ],
   "note": "Proved for every hash, with collisions on the two exact inputs as the alternative (C98_nonce, C98_same_signature); the collision case reveals the key (C98_collision_reveals). Hypotheses: base point of prime order r, r at most q. Found as a surviving mutant of the signer (nonce without the message)."
  }
 ]
}