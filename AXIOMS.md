# Axioms of the property theorems

Printed by Lean's `collectAxioms` for every theorem of `Brille.Props` named `Cnn_...`.

| theorem | axioms |
|---------|--------|
| `Brille.Props.C01_subscripts_visited_once_in_order` | Classical.choice, Quot.sound, propext |
| `Brille.Props.C01_zero_extent_counterexample` | Classical.choice, Quot.sound, propext |
| `Brille.Props.C02_all_fixed_throws` | propext |
| `Brille.Props.C02_fixed_axes_visit_slice` | Classical.choice, Quot.sound, propext |
| `Brille.Props.C03_iteration_follows_memory` | Classical.choice, Quot.sound, propext |
| `Brille.Props.C03_lin2sub2_column_counterexample` | none |
| `Brille.Props.C03_lin2sub2_column_partial` | Quot.sound, propext |
| `Brille.Props.C03_lin2sub2_row` | Quot.sound, propext |
| `Brille.Props.C03_lin2sub_column_counterexample` | Classical.choice, Quot.sound, propext |
| `Brille.Props.C03_lin2sub_sub2lin` | Classical.choice, Quot.sound, propext |
| `Brille.Props.C03_no_collision` | Quot.sound, propext |
| `Brille.Props.C03_sub2lin_lin2sub` | Quot.sound, propext |
| `Brille.Props.C04_broadcast_pairs` | Classical.choice, Quot.sound, propext |
| `Brille.Props.C04_broadcast_rejects` | Classical.choice, Quot.sound, propext |
| `Brille.Props.C04_zero_extent_counterexample` | Quot.sound, propext |
| `Brille.Props.C05_array2_decouple` | Classical.choice, Quot.sound, propext |
| `Brille.Props.C05_array2_extract` | Classical.choice, Quot.sound, propext |
| `Brille.Props.C05_array_counterexample` | Classical.choice, Quot.sound, propext |
| `Brille.Props.C05_array_decouple_partial` | Classical.choice, Quot.sound, propext |
| `Brille.Props.C05_array_overflow` | Classical.choice, Quot.sound, propext |
| `Brille.Props.C05_shared_counterexample` | Classical.choice, Quot.sound, propext |
| `Brille.Props.C05_sole_owner` | Classical.choice, Quot.sound, propext |
| `Brille.Props.C06_append_mismatch` | Classical.choice, Quot.sound, propext |
| `Brille.Props.C06_append_partial` | Classical.choice, Quot.sound, propext |
| `Brille.Props.C06_mixed` | Classical.choice, Quot.sound, propext |
| `Brille.Props.C06_resize_partial` | Classical.choice, Quot.sound, propext |
| `Brille.Props.C06_shifted` | Classical.choice, Quot.sound, propext |
| `Brille.Props.C06_zero_extent_counterexample` | Classical.choice, Quot.sound, propext |
| `Brille.Props.C07_diagonal_counterexample` | propext |
| `Brille.Props.C07_diagonal_identity` | Classical.choice, Quot.sound, propext |
| `Brille.Props.C07_keys_distinct` | Quot.sound, propext |
| `Brille.Props.C07_keys_from_indices` | Quot.sound, propext |
| `Brille.Props.C07_overwrite_by_index` | Classical.choice, Quot.sound, propext |
| `Brille.Props.C07_set_drops_pending` | propext |
| `Brille.Props.C07_table_refines_map` | Classical.choice, Quot.sound, propext |
| `Brille.Props.C08_derived_getters` | Classical.choice, Quot.sound, propext |
| `Brille.Props.C08_flags_and_counter_independent` | Classical.choice, Quot.sound, propext |
| `Brille.Props.C08_setVisits_actual` | Classical.choice, Quot.sound, propext |
| `Brille.Props.C08_setVisits_counterexample` | Quot.sound, propext |
| `Brille.Props.C08_unlocked_addvisit` | Classical.choice, Quot.sound, propext |
| `Brille.Props.C09_action` | Classical.choice, Quot.sound, propext |
| `Brille.Props.C09_associative` | Classical.choice, Quot.sound, propext |
| `Brille.Props.C09_equality` | Classical.choice, Quot.sound, propext |
| `Brille.Props.C09_equality_symmetric` | Classical.choice, Quot.sound, propext |
| `Brille.Props.C09_identity` | Classical.choice, Quot.sound, propext |
| `Brille.Props.C09_inverse` | Classical.choice, Quot.sound, propext |
| `Brille.Props.C09_inverse_counterexample` | Classical.choice, Quot.sound, propext |
| `Brille.Props.C09_inverse_undoes` | Classical.choice, Quot.sound, propext |
| `Brille.Props.C09_product_acts` | Classical.choice, Quot.sound, propext |
| `Brille.Props.C09_product_vectors` | Classical.choice, Quot.sound, propext |
| `Brille.Props.C09_translation_reduced` | Classical.choice, Quot.sound, propext |
| `Brille.Props.C10_commuting_partial` | Classical.choice, Quot.sound, propext |
| `Brille.Props.C10_database` | Classical.choice, Quot.sound, propext |
| `Brille.Props.C10_generate_counterexample` | Classical.choice, Quot.sound, propext |
| `Brille.Props.C10_motions_partial` | Classical.choice, Quot.sound, propext |
| `Brille.Props.C10_motions_step_partial` | Classical.choice, Quot.sound, propext |
| `Brille.Props.C10_points_partial` | Classical.choice, Quot.sound, propext |
| `Brille.Props.C11_commuting_partial` | Classical.choice, Quot.sound, propext |
| `Brille.Props.C11_generators_counterexample` | Classical.choice, Quot.sound, propext |
| `Brille.Props.C11_motions_partial` | Classical.choice, Quot.sound, propext |
| `Brille.Props.C11_points_partial` | Classical.choice, Quot.sound, propext |
| `Brille.Props.C12_find_index` | Classical.choice, Quot.sound, propext |
| `Brille.Props.C12_inverse_in_group` | Classical.choice, Quot.sound, propext |
| `Brille.Props.C12_inverse_index` | Classical.choice, Quot.sound, propext |
| `Brille.Props.C12_permute` | Classical.choice, Quot.sound, propext |
| `Brille.Props.C12_sort` | Classical.choice, Quot.sound, propext |
| `Brille.Props.C13_adjoint` | Classical.choice, Quot.sound, propext |
| `Brille.Props.C13_determinant` | Classical.choice, Quot.sound, propext |
| `Brille.Props.C13_inverse_field` | Classical.choice, Quot.sound, propext |
| `Brille.Props.C13_inverse_field_exists` | Classical.choice, Quot.sound, propext |
| `Brille.Props.C13_inverse_int` | Classical.choice, Quot.sound, propext |
| `Brille.Props.C13_inverse_int_counterexample` | Classical.choice, Quot.sound, propext |
| `Brille.Props.C13_product` | Classical.choice, Quot.sound, propext |
| `Brille.Props.C13_similar` | Classical.choice, Quot.sound, propext |
| `Brille.Props.C14_rotation_order` | Classical.choice, Quot.sound, propext |
| `Brille.Props.C14_unchecked_counterexample` | Classical.choice, Quot.sound, propext |
| `Brille.Props.C15_array_conjunction` | Classical.choice, Quot.sound, propext |
| `Brille.Props.C15_double_meaning` | Classical.choice, Quot.sound, propext |
| `Brille.Props.C15_equal_vectors` | Classical.choice, Quot.sound, propext |
| `Brille.Props.C15_int_array_exact` | Classical.choice, Quot.sound, propext |
| `Brille.Props.C15_int_array_tolerance_counterexample` | Classical.choice, Quot.sound, propext |
| `Brille.Props.C15_int_exact` | Classical.choice, Quot.sound, propext |
| `Brille.Props.C15_monotone` | Classical.choice, Quot.sound, propext |
| `Brille.Props.C15_not_transitive` | Classical.choice, Quot.sound, propext |
| `Brille.Props.C15_reflexive` | Classical.choice, Quot.sound, propext |
| `Brille.Props.C15_symmetric` | Classical.choice, Quot.sound, propext |
| `Brille.Props.C15_symmetric_float_double_counterexample` | Classical.choice, Quot.sound, propext |
| `Brille.Props.C15_symmetric_mixed` | Classical.choice, Quot.sound, propext |
| `Brille.Props.C16_derived` | Classical.choice, Quot.sound, propext |
| `Brille.Props.C16_find` | Classical.choice, Quot.sound, propext |
| `Brille.Props.C16_reductions` | Classical.choice, Quot.sound, propext |
| `Brille.Props.C16_tolerances_reflexive` | Classical.choice, Quot.sound, propext |
| `Brille.Props.C16_trichotomy` | Classical.choice, Quot.sound, propext |
| `Brille.Props.C16_unsupported` | Classical.choice, Quot.sound, propext |
| `Brille.Props.C16_vector_complement` | Classical.choice, Quot.sound, propext |
| `Brille.Props.C17_bravais_counterexample` | Classical.choice, Quot.sound, propext |
| `Brille.Props.C17_bravais_partial` | Classical.choice, Quot.sound, propext |
| `Brille.Props.C17_groups` | Quot.sound, propext |
| `Brille.Props.C17_hall_symbol_lookup` | Quot.sound, propext |
| `Brille.Props.C17_hall_symbol_round_trip_counterexample` | propext |
| `Brille.Props.C17_hall_symbol_round_trip_partial` | Quot.sound, propext |
| `Brille.Props.C17_name_lookup` | Classical.choice, Quot.sound, propext |
| `Brille.Props.C17_name_round_trip` | Classical.choice, Quot.sound, propext |
| `Brille.Props.C17_number_230_counterexample` | Classical.choice, Quot.sound, propext |
| `Brille.Props.C17_number_lookup` | Classical.choice, Quot.sound, propext |
| `Brille.Props.C17_numbers_reachable_partial` | Classical.choice, Quot.sound, propext |
| `Brille.Props.C17_rows` | Classical.choice, Quot.sound, propext |
| `Brille.Props.C17_string_lookup` | Classical.choice, Quot.sound, propext |
| `Brille.Props.C17_string_lookup_counterexample` | Classical.choice, Quot.sound, propext |
| `Brille.Props.C18_determinant` | Classical.choice, Quot.sound, propext |
| `Brille.Props.C18_invalid` | propext |
| `Brille.Props.C18_mutually_inverse_partial` | propext |
| `Brille.Props.C18_primitive_counterexample` | propext |
| `Brille.Props.C18_transposes` | propext |
| `Brille.Props.C19_dot_invariant` | Classical.choice, Quot.sound, propext |
| `Brille.Props.C19_integer_exact` | Classical.choice, Quot.sound, propext |
| `Brille.Props.C19_integer_truncation_counterexample` | Classical.choice, Quot.sound, propext |
| `Brille.Props.C19_other_lattices` | Classical.choice, Quot.sound, propext |
| `Brille.Props.C19_real_lattice` | Classical.choice, Quot.sound, propext |
| `Brille.Props.C19_reciprocal_lattice` | Classical.choice, Quot.sound, propext |
| `Brille.Props.C19_reflection_condition` | Classical.choice, Quot.sound, propext |
| `Brille.Props.C19_roundtrip` | Classical.choice, Quot.sound, propext |
| `Brille.Props.C20_optimal` | Classical.choice, Quot.sound, propext |
| `Brille.Props.C20_zero_counterexample` | Classical.choice, Quot.sound, propext |
| `Brille.Props.C21_fill_inverse_partial` | Classical.choice, Quot.sound, propext |
| `Brille.Props.C21_inverse_permutations_partial` | Classical.choice, Quot.sound, propext |
| `Brille.Props.C21_optimal_counterexample` | Classical.choice, Quot.sound, propext |
| `Brille.Props.C22_matching_partial` | Classical.choice, Quot.sound, propext |
| `Brille.Props.C22_no_rivals_partial` | Classical.choice, Quot.sound, propext |
| `Brille.Props.C22_stable_counterexample` | Classical.choice, Quot.sound, propext |
| `Brille.Props.C23_apply_permutation` | Classical.choice, Quot.sound, propext |
| `Brille.Props.C23_apply_twice` | Classical.choice, Quot.sound, propext |
| `Brille.Props.C23_inverse_counterexample` | Classical.choice, Quot.sound, propext |
| `Brille.Props.C23_inverse_partial` | Classical.choice, Quot.sound, propext |
| `Brille.Props.C24_common_datum` | Classical.choice, Quot.sound, propext |
| `Brille.Props.C24_exact_at_first_vertex` | Classical.choice, Quot.sound, propext |
| `Brille.Props.C24_exact_at_vertex` | Classical.choice, Quot.sound, propext |
| `Brille.Props.C24_linear` | Classical.choice, Quot.sound, propext |
| `Brille.Props.C24_order` | Classical.choice, Quot.sound, propext |
| `Brille.Props.C24_phase_aligns` | Classical.choice, Quot.sound, propext |
| `Brille.Props.C24_phase_invariance` | Classical.choice, Quot.sound, propext |
| `Brille.Props.C24_phase_orthogonal_counterexample` | Classical.choice, Quot.sound, propext |
| `Brille.Props.C24_pivot_counterexample` | Classical.choice, Quot.sound, propext |
| `Brille.Props.C24_pivot_relabels_partial` | Classical.choice, Quot.sound, propext |
| `Brille.Props.C24_weighted_sum` | Classical.choice, Quot.sound, propext |
| `Brille.Props.C25_cube_weights` | Classical.choice, Quot.sound, propext |
| `Brille.Props.C25_outside_counterexample` | Classical.choice, Quot.sound, propext |
| `Brille.Props.C25_partition_of_unity` | Classical.choice, Quot.sound, propext |
| `Brille.Props.C25_tolerance` | Classical.choice, Quot.sound, propext |
| `Brille.Props.C26_barycentric` | Classical.choice, Quot.sound, propext |
| `Brille.Props.C26_empty_counterexample` | Classical.choice, Quot.sound, propext |
| `Brille.Props.C26_exact` | Classical.choice, Quot.sound, propext |
| `Brille.Props.C26_found` | Classical.choice, Quot.sound, propext |
| `Brille.Props.C26_inside` | Classical.choice, Quot.sound, propext |
| `Brille.Props.C26_orientation_counterexample` | Classical.choice, Quot.sound, propext |
| `Brille.Props.C26_should_contain` | Classical.choice, Quot.sound, propext |
| `Brille.Props.C26_weights` | Classical.choice, Quot.sound, propext |
| `Brille.Props.C27_above_counterexample` | Quot.sound, propext |
| `Brille.Props.C27_below_counterexample` | Quot.sound, propext |
| `Brille.Props.C27_find_bin` | Classical.choice, Quot.sound, propext |
| `Brille.Props.C27_find_bin_outside` | Classical.choice, Quot.sound, propext |
| `Brille.Props.C27_node_contains_partial` | Classical.choice, Quot.sound, propext |
| `Brille.Props.C27_node_found` | Classical.choice, Quot.sound, propext |
| `Brille.Props.C27_ok_iff` | Classical.choice, Quot.sound, propext |
| `Brille.Props.C27_on_boundary` | Classical.choice, Quot.sound, propext |
| `Brille.Props.C27_two_steps_counterexample` | Classical.choice, Quot.sound, propext |
| `Brille.Props.C28_box_faces` | propext |
| `Brille.Props.C28_centres` | Classical.choice, Quot.sound, propext |
| `Brille.Props.C28_intersections` | Classical.choice, Quot.sound, propext |
| `Brille.Props.C28_neighbours` | Classical.choice, Quot.sound, propext |
| `Brille.Props.C28_neighbours_symmetric` | Classical.choice, Quot.sound, propext |
| `Brille.Props.C28_node_faces` | Classical.choice, Quot.sound, propext |
| `Brille.Props.C28_numbering` | Classical.choice, Quot.sound, propext |
| `Brille.Props.C28_order` | Quot.sound, propext |
| `Brille.Props.C29_any_comparison` | Classical.choice, Quot.sound, propext |
| `Brille.Props.C29_is_consolidated_counterexample` | Quot.sound, propext |
| `Brille.Props.C29_requests` | Classical.choice, Quot.sound, propext |
| `Brille.Props.C29_same_index_iff` | Classical.choice, Quot.sound, propext |
| `Brille.Props.C29_small_grid_counterexample` | propext |
| `Brille.Props.C29_tolerance_counterexample` | none |
| `Brille.Props.C30_reduce` | Classical.choice, Quot.sound, propext |
| `Brille.Props.C30_thread_count` | Classical.choice, Quot.sound, propext |
| `Brille.Props.C31_empty_counterexample` | propext |
| `Brille.Props.C31_inverse` | Classical.choice, Quot.sound, propext |
| `Brille.Props.C31_one_sided_counterexample` | propext |
| `Brille.Props.C31_schedule_independent` | Classical.choice, Quot.sound, propext |
| `Brille.Props.C31_sort` | Classical.choice, Quot.sound, propext |
| `Brille.Props.C32_can_finish` | Classical.choice, Quot.sound, propext |
| `Brille.Props.C32_fails_together` | Classical.choice, Quot.sound, propext |
| `Brille.Props.C32_nest_counterexample` | Classical.choice, Quot.sound, propext |
| `Brille.Props.C32_nest_serial_partial` | propext |
| `Brille.Props.C32_parallel_eq_serial` | Classical.choice, Quot.sound, propext |
| `Brille.Props.C32_reports` | Classical.choice, Quot.sound, propext |
| `Brille.Props.C33_already_inside` | Classical.choice, Quot.sound, propext |
| `Brille.Props.C33_moveinto_other` | Classical.choice, Quot.sound, propext |
| `Brille.Props.C33_moveinto_primitive` | Classical.choice, Quot.sound, propext |
| `Brille.Props.C33_moveinto_standard` | Classical.choice, Quot.sound, propext |
| `Brille.Props.C33_search` | Classical.choice, Quot.sound, propext |
| `Brille.Props.C34_complete` | Classical.choice, Quot.sound, propext |
| `Brille.Props.C34_ir_moveinto` | Classical.choice, Quot.sound, propext |
| `Brille.Props.C34_ir_moveinto_wedge` | Classical.choice, Quot.sound, propext |
| `Brille.Props.C34_stays_in_zone` | Classical.choice, Quot.sound, propext |
| `Brille.Props.C34_wedge_test` | Classical.choice, Quot.sound, propext |
| `Brille.Props.C35_empty_face_counterexample` | Classical.choice, Quot.sound, propext |
| `Brille.Props.C35_equivalence` | Classical.choice, Quot.sound, propext |
| `Brille.Props.C35_faces_equal` | Classical.choice, Quot.sound, propext |
| `Brille.Props.C35_orientation` | Classical.choice, Quot.sound, propext |
| `Brille.Props.C36_box` | Classical.choice, Quot.sound, propext |
| `Brille.Props.C36_combine` | Classical.choice, Quot.sound, propext |
| `Brille.Props.C36_dilation` | Classical.choice, Quot.sound, propext |
| `Brille.Props.C36_equal_faces` | Classical.choice, Quot.sound, propext |
| `Brille.Props.C36_equal_faces_counterexample` | Classical.choice, Quot.sound, propext |
| `Brille.Props.C36_linear_map` | Classical.choice, Quot.sound, propext |
| `Brille.Props.C36_mirror` | Classical.choice, Quot.sound, propext |
| `Brille.Props.C36_not_negative` | Classical.choice, Quot.sound, propext |
| `Brille.Props.C36_relabel` | Classical.choice, Quot.sound, propext |
| `Brille.Props.C36_translation` | Classical.choice, Quot.sound, propext |
| `Brille.Props.C36_volume_from_any_point` | Classical.choice, Quot.sound, propext |
| `Brille.Props.C37_duplicates_counterexample` | propext |
| `Brille.Props.C37_duplicates_exact` | Classical.choice, Quot.sound, propext |
| `Brille.Props.C37_duplicates_partial` | Classical.choice, Quot.sound, propext |
| `Brille.Props.C37_faceless` | Classical.choice, Quot.sound, propext |
| `Brille.Props.C37_finish_hull` | Classical.choice, Quot.sound, propext |
| `Brille.Props.C37_hull_counterexample` | Quot.sound, propext |
| `Brille.Props.C37_hull_partial` | Classical.choice, Quot.sound, propext |
| `Brille.Props.C37_purge` | Classical.choice, Quot.sound, propext |
| `Brille.Props.C37_remove_points` | Classical.choice, Quot.sound, propext |
| `Brille.Props.C38_cut` | Classical.choice, Quot.sound, propext |
| `Brille.Props.C38_one_cut` | Classical.choice, Quot.sound, propext |
| `Brille.Props.C39_array` | Classical.choice, Quot.sound, propext |
| `Brille.Props.C39_basis` | Classical.choice, Quot.sound, propext |
| `Brille.Props.C39_brillouin_zone_partial` | Classical.choice, Quot.sound, propext |
| `Brille.Props.C39_bz_mesh_counterexample` | Classical.choice, Quot.sound, propext |
| `Brille.Props.C39_bz_mesh_partial` | Classical.choice, Quot.sound, propext |
| `Brille.Props.C39_bz_trellis_partial` | Classical.choice, Quot.sound, propext |
| `Brille.Props.C39_config` | Classical.choice, Quot.sound, propext |
| `Brille.Props.C39_cube_node` | Classical.choice, Quot.sound, propext |
| `Brille.Props.C39_dual_partial` | Classical.choice, Quot.sound, propext |
| `Brille.Props.C39_file` | Quot.sound, propext |
| `Brille.Props.C39_file_readonly` | propext |
| `Brille.Props.C39_interpolator_cost` | Classical.choice, Quot.sound, propext |
| `Brille.Props.C39_interpolator_counterexample` | Classical.choice, Quot.sound, propext |
| `Brille.Props.C39_interpolator_partial` | Classical.choice, Quot.sound, propext |
| `Brille.Props.C39_lattice` | Classical.choice, Quot.sound, propext |
| `Brille.Props.C39_lattice_again` | Quot.sound, propext |
| `Brille.Props.C39_lattice_counterexample` | Classical.choice, Quot.sound, propext |
| `Brille.Props.C39_lattice_partial` | Classical.choice, Quot.sound, propext |
| `Brille.Props.C39_lattice_vectors_partial` | Classical.choice, Quot.sound, propext |
| `Brille.Props.C39_layer` | Classical.choice, Quot.sound, propext |
| `Brille.Props.C39_lists` | Classical.choice, Quot.sound, propext |
| `Brille.Props.C39_map` | Classical.choice, Quot.sound, propext |
| `Brille.Props.C39_mesh_partial` | Classical.choice, Quot.sound, propext |
| `Brille.Props.C39_motion` | Classical.choice, Quot.sound, propext |
| `Brille.Props.C39_nodes` | Classical.choice, Quot.sound, propext |
| `Brille.Props.C39_permutation_table` | Classical.choice, Quot.sound, propext |
| `Brille.Props.C39_point_symmetry_counterexample` | Classical.choice, Quot.sound, propext |
| `Brille.Props.C39_point_symmetry_partial` | Classical.choice, Quot.sound, propext |
| `Brille.Props.C39_point_symmetry_sorted` | Classical.choice, Quot.sound, propext |
| `Brille.Props.C39_poly` | Classical.choice, Quot.sound, propext |
| `Brille.Props.C39_poly_node` | Classical.choice, Quot.sound, propext |
| `Brille.Props.C39_polyhedron` | Classical.choice, Quot.sound, propext |
| `Brille.Props.C39_symmetry` | Classical.choice, Quot.sound, propext |
| `Brille.Props.C39_trellis_partial` | Classical.choice, Quot.sound, propext |
| `Brille.Props.C39_triangulation` | Classical.choice, Quot.sound, propext |
| `Brille.Props.C40_offsets` | Classical.choice, Quot.sound, propext |
| `Brille.Props.C40_offsets4` | Classical.choice, Quot.sound, propext |
| `Brille.Props.C40_offsets_prime` | Classical.choice, Quot.sound, propext |
| `Brille.Props.C40_prime_order` | Quot.sound, propext |
| `Brille.Props.C41_add_between` | Classical.choice, Quot.sound, propext |
| `Brille.Props.C41_add_if_missing` | propext |
| `Brille.Props.C41_all_present` | Quot.sound, propext |
| `Brille.Props.C41_find_first` | Classical.choice, Quot.sound, propext |
| `Brille.Props.C41_invert_lists` | Classical.choice, Quot.sound, propext |
| `Brille.Props.C41_invert_twice` | Classical.choice, Quot.sound, propext |
| `Brille.Props.C41_reverse` | Quot.sound, propext |
| `Brille.Props.C41_subscript_ok` | Quot.sound, propext |
| `Brille.Props.C41_unique` | Classical.choice, Quot.sound, propext |
| `Brille.Props.C41_unordered_list_in_lists` | Classical.choice, Quot.sound, propext |
| `Brille.Props.C42_binomial_counterexample` | Quot.sound, propext |
| `Brille.Props.C42_binomial_ends` | Quot.sound, propext |
| `Brille.Props.C42_binomial_partial` | Classical.choice, Quot.sound, propext |
| `Brille.Props.C42_binomial_small_partial` | Quot.sound, propext |
| `Brille.Props.C42_even_counterexample` | Classical.choice, Quot.sound, propext |
| `Brille.Props.C42_even_triples_partial` | Classical.choice, Quot.sound, propext |
| `Brille.Props.C42_gcd` | Quot.sound, propext |
| `Brille.Props.C42_positive_permutation` | Classical.choice, Quot.sound, propext |
| `Brille.Props.C43_exact` | Classical.choice, Quot.sound, propext |
| `Brille.Props.C43_found` | Classical.choice, Quot.sound, propext |
| `Brille.Props.C43_keys` | Classical.choice, Quot.sound, propext |
| `Brille.Props.C43_tetrahedra` | Quot.sound, propext |
| `Brille.Props.C43_weights` | Classical.choice, Quot.sound, propext |
| `Brille.Props.C44_accepted` | Classical.choice, Quot.sound, propext |
| `Brille.Props.C44_accepted_zero_counterexample` | Classical.choice, Quot.sound, propext |
| `Brille.Props.C44_centring` | Classical.choice, Quot.sound, propext |
| `Brille.Props.C44_database` | Classical.choice, Quot.sound, propext |
| `Brille.Props.C44_rotation` | Classical.choice, Quot.sound, propext |
| `Brille.Props.C44_text_counterexample` | Classical.choice, Quot.sound, propext |
| `Brille.Props.C44_text_database` | Classical.choice, Quot.sound, propext |
| `Brille.Props.C44_text_round_trip_partial` | Classical.choice, Quot.sound, propext |
| `Brille.Props.C44_translation` | Classical.choice, Quot.sound, propext |
| `Brille.Props.C44_two_primes_counterexample` | Classical.choice, Quot.sound, propext |
| `Brille.Props.C44_unknown_axis` | Classical.choice, Quot.sound, propext |
| `Brille.Props.C45_axis` | Classical.choice, Quot.sound, propext |
| `Brille.Props.C45_axis_counterexample` | Classical.choice, Quot.sound, propext |
| `Brille.Props.C45_constructor` | Classical.choice, Quot.sound, propext |
| `Brille.Props.C45_laue_classes` | propext |
| `Brille.Props.C45_lookup` | Classical.choice, Quot.sound, propext |
| `Brille.Props.C45_not_a_group_counterexample` | propext |
| `Brille.Props.C45_order_irrelevant` | Classical.choice, Quot.sound, propext |
| `Brille.Props.C45_tables_distinct` | propext |
| `Brille.Props.C45_tables_identity` | propext |
| `Brille.Props.C45_unique_rotations` | Classical.choice, Quot.sound, propext |
| `Brille.Props.C46_is_unique` | Quot.sound, propext |
| `Brille.Props.C46_unique` | Classical.choice, Quot.sound, propext |
| `Brille.Props.C46_unique_chain_counterexample` | Classical.choice, Quot.sound, propext |
| `Brille.Props.C46_unique_idx` | Quot.sound, propext |
| `Brille.Props.C47_condition` | Classical.choice, Quot.sound, propext |
| `Brille.Props.C47_construction` | Classical.choice, Quot.sound, propext |
| `Brille.Props.C47_every_point` | Classical.choice, Quot.sound, propext |
| `Brille.Props.C47_inside` | Classical.choice, Quot.sound, propext |
| `Brille.Props.C48_add_space_inversion_counterexample` | Classical.choice, Quot.sound, propext |
| `Brille.Props.C48_add_space_inversion_partial` | Classical.choice, Quot.sound, propext |
| `Brille.Props.C49_roundtrip` | Quot.sound, propext |
| `Brille.Props.C49_s2u_counterexample` | propext |
| `Brille.Props.C49_s2u_partial` | Classical.choice, Quot.sound, propext |
| `Brille.Props.C49_u2s` | Classical.choice, Quot.sound, propext |
| `Brille.Props.C50_box` | Classical.choice, Quot.sound, propext |
| `Brille.Props.C50_dilation` | Classical.choice, Quot.sound, propext |
| `Brille.Props.C50_tetrahedron` | Classical.choice, Quot.sound, propext |
| `Brille.Props.C50_translation` | Classical.choice, Quot.sound, propext |
| `Brille.Props.C51_edges` | Classical.choice, Quot.sound, propext |
| `Brille.Props.C51_edges_complete` | Classical.choice, Quot.sound, propext |
| `Brille.Props.C51_indexes` | Classical.choice, Quot.sound, propext |
| `Brille.Props.C52_dangling` | Classical.choice, Quot.sound, propext |
| `Brille.Props.C52_solid_unchanged` | Quot.sound, propext |
| `Brille.Props.C53_all_beyond` | Classical.choice, Quot.sound, propext |
| `Brille.Props.C53_clip` | Classical.choice, Quot.sound, propext |
| `Brille.Props.C53_nothing_to_cut` | Classical.choice, Quot.sound, propext |
| `Brille.Props.C54_leak_counterexample` | Classical.choice, Quot.sound, propext |
| `Brille.Props.C54_live` | Classical.choice, Quot.sound, propext |
| `Brille.Props.C54_memory_safe` | Classical.choice, Quot.sound, propext |
| `Brille.Props.C54_no_leak_partial` | Classical.choice, Quot.sound, propext |
| `Brille.Props.C55_access` | Classical.choice, Quot.sound, propext |
| `Brille.Props.C55_corner` | Classical.choice, Quot.sound, propext |
| `Brille.Props.C55_row` | Classical.choice, Quot.sound, propext |
| `Brille.Props.C55_rows` | Classical.choice, Quot.sound, propext |
| `Brille.Props.C55_view` | Classical.choice, Quot.sound, propext |
| `Brille.Props.C56_closest` | Classical.choice, Quot.sound, propext |
| `Brille.Props.C56_composition` | Classical.choice, Quot.sound, propext |
| `Brille.Props.C56_equivalent_to` | Classical.choice, Quot.sound, propext |
| `Brille.Props.C56_equivalent_to_near` | Classical.choice, Quot.sound, propext |
| `Brille.Props.C56_inverse` | Classical.choice, Quot.sound, propext |
| `Brille.Props.C56_permutation` | Classical.choice, Quot.sound, propext |
| `Brille.Props.C56_snap` | Classical.choice, Quot.sound, propext |
| `Brille.Props.C56_snap_distance` | Classical.choice, Quot.sound, propext |
| `Brille.Props.C56_snap_site` | Classical.choice, Quot.sound, propext |
| `Brille.Props.C56_types` | Classical.choice, Quot.sound, propext |
| `Brille.Props.C56_unit` | Classical.choice, Quot.sound, propext |
| `Brille.Props.C57_lattice_vectors` | Classical.choice, Quot.sound, propext |
| `Brille.Props.C57_permutation` | Classical.choice, Quot.sound, propext |
| `Brille.Props.C57_succeeds` | Classical.choice, Quot.sound, propext |
| `Brille.Props.C57_table` | Classical.choice, Quot.sound, propext |
| `Brille.Props.C58_axial` | Classical.choice, Quot.sound, propext |
| `Brille.Props.C58_axial_covariant` | Classical.choice, Quot.sound, propext |
| `Brille.Props.C58_dispatch` | Classical.choice, Quot.sound, propext |
| `Brille.Props.C58_matrices` | Classical.choice, Quot.sound, propext |
| `Brille.Props.C58_real` | Classical.choice, Quot.sound, propext |
| `Brille.Props.C58_real_counterexample` | Classical.choice, Quot.sound, propext |
| `Brille.Props.C58_real_covariant_partial` | Classical.choice, Quot.sound, propext |
| `Brille.Props.C58_recip` | Classical.choice, Quot.sound, propext |
| `Brille.Props.C58_recip_covariant` | Classical.choice, Quot.sound, propext |
| `Brille.Props.C58_round_trip` | Classical.choice, Quot.sound, propext |
| `Brille.Props.C58_unchanged` | Classical.choice, Quot.sound, propext |
| `Brille.Props.C59_inside` | Classical.choice, Quot.sound, propext |
| `Brille.Props.C59_matrices_counterexample` | Classical.choice, Quot.sound, propext |
| `Brille.Props.C59_matrices_lost_counterexample` | Classical.choice, Quot.sound, propext |
| `Brille.Props.C59_modes` | Classical.choice, Quot.sound, propext |
| `Brille.Props.C59_orthogonal` | Classical.choice, Quot.sound, propext |
| `Brille.Props.C59_scalar_products` | Classical.choice, Quot.sound, propext |
| `Brille.Props.C59_vectors` | Classical.choice, Quot.sound, propext |
| `Brille.Props.C60_fields` | Classical.choice, Quot.sound, propext |
| `Brille.Props.C60_no_move` | Classical.choice, Quot.sound, propext |
| `Brille.Props.C60_phonons` | Classical.choice, Quot.sound, propext |
| `Brille.Props.C61_all_elements` | Classical.choice, Quot.sound, propext |
| `Brille.Props.C61_closest` | Classical.choice, Quot.sound, propext |
| `Brille.Props.C61_cost` | Classical.choice, Quot.sound, propext |
| `Brille.Props.C61_interpolated` | Classical.choice, Quot.sound, propext |
| `Brille.Props.C61_itself` | Classical.choice, Quot.sound, propext |
| `Brille.Props.C61_itself_cost` | Classical.choice, Quot.sound, propext |
| `Brille.Props.C61_least_distance` | Classical.choice, Quot.sound, propext |
| `Brille.Props.C61_phase` | Classical.choice, Quot.sound, propext |
| `Brille.Props.C61_real_counterexample` | Classical.choice, Quot.sound, propext |
| `Brille.Props.C61_recovers` | Classical.choice, Quot.sound, propext |
| `Brille.Props.C61_sort` | Classical.choice, Quot.sound, propext |
| `Brille.Props.C61_symmetric` | Classical.choice, Quot.sound, propext |
| `Brille.Props.C61_vectors_cost` | Classical.choice, Quot.sound, propext |
| `Brille.Props.C62_atomic` | propext |
| `Brille.Props.C62_consistent` | Classical.choice, Quot.sound, propext |
| `Brille.Props.C62_count_counterexample` | propext |
| `Brille.Props.C62_elements` | Quot.sound, propext |
| `Brille.Props.C62_fill` | Classical.choice, Quot.sound, propext |
| `Brille.Props.C62_fill_cost` | Classical.choice, Quot.sound, propext |
| `Brille.Props.C62_multiple_counterexample` | propext |
| `Brille.Props.C62_negative_counterexample` | propext |
| `Brille.Props.C62_ready` | Classical.choice, Quot.sound, propext |
| `Brille.Props.C62_replace_counterexample` | propext |
| `Brille.Props.C62_strided_counterexample` | propext |
| `Brille.Props.C62_unit_counterexample` | propext |
| `Brille.Props.C62_zero_columns_counterexample` | propext |
| `Brille.Props.C63_count_counterexample` | propext |
| `Brille.Props.C63_nest_missing_counterexample` | propext |
| `Brille.Props.C63_nest_partial` | Quot.sound, propext |
| `Brille.Props.C63_nest_shape_counterexample` | propext |
| `Brille.Props.C63_outside` | Classical.choice, Quot.sound, propext |
| `Brille.Props.C63_results` | Classical.choice, Quot.sound, propext |
| `Brille.Props.C63_safe` | Classical.choice, Quot.sound, propext |
| `Brille.Props.C64_default_unit` | Classical.choice, Quot.sound, propext |
| `Brille.Props.C64_duality` | Classical.choice, Quot.sound, propext |
| `Brille.Props.C64_metrics` | Classical.choice, Quot.sound, propext |
| `Brille.Props.C64_negative_counterexample` | Classical.choice, Quot.sound, propext |
| `Brille.Props.C64_parameters` | Classical.choice, Quot.sound, propext |
| `Brille.Props.C64_planar_counterexample` | Classical.choice, Quot.sound, propext |
| `Brille.Props.C64_primitive` | Classical.choice, Quot.sound, propext |
| `Brille.Props.C64_trigonometry` | Classical.choice, Quot.sound, propext |
| `Brille.Props.C64_vectors` | Classical.choice, Quot.sound, propext |
| `Brille.Props.C65_cross` | Classical.choice, Quot.sound, propext |
| `Brille.Props.C65_dot` | Classical.choice, Quot.sound, propext |
| `Brille.Props.C65_from_position` | Classical.choice, Quot.sound, propext |
| `Brille.Props.C65_norm` | Classical.choice, Quot.sound, propext |
| `Brille.Props.C65_position` | Classical.choice, Quot.sound, propext |
| `Brille.Props.C65_reachable` | Classical.choice, Quot.sound, propext |
| `Brille.Props.C65_star` | Classical.choice, Quot.sound, propext |
| `Brille.Props.C65_star_function_counterexample` | Classical.choice, Quot.sound, propext |
| `Brille.Props.C66_adjusted` | Classical.choice, Quot.sound, propext |
| `Brille.Props.C66_centring` | Classical.choice, Quot.sound, propext |
| `Brille.Props.C66_changed_counterexample` | Classical.choice, Quot.sound, propext |
| `Brille.Props.C66_lengths` | Classical.choice, Quot.sound, propext |
| `Brille.Props.C66_orientation_counterexample` | Classical.choice, Quot.sound, propext |
| `Brille.Props.C66_parameters` | Classical.choice, Quot.sound, propext |
| `Brille.Props.C66_symmetry_counterexample` | Classical.choice, Quot.sound, propext |
| `Brille.Props.C66_total` | Classical.choice, Quot.sound, propext |
| `Brille.Props.C66_vectors` | Classical.choice, Quot.sound, propext |
| `Brille.Props.C67_box` | Classical.choice, Quot.sound, propext |
| `Brille.Props.C67_contains` | Classical.choice, Quot.sound, propext |
| `Brille.Props.C67_cut` | Classical.choice, Quot.sound, propext |
| `Brille.Props.C67_cut_any` | Classical.choice, Quot.sound, propext |
| `Brille.Props.C67_left_iff` | Classical.choice, Quot.sound, propext |
| `Brille.Props.C67_nothing_left` | Classical.choice, Quot.sound, propext |
| `Brille.Props.C67_one_cut` | Classical.choice, Quot.sound, propext |
| `Brille.Props.C67_one_cut_any` | Classical.choice, Quot.sound, propext |
| `Brille.Props.C68_centred_construct` | Classical.choice, Quot.sound, propext |
| `Brille.Props.C68_centred_search` | Classical.choice, Quot.sound, propext |
| `Brille.Props.C68_centred_volume` | Classical.choice, Quot.sound, propext |
| `Brille.Props.C68_centring` | Classical.choice, Quot.sound, propext |
| `Brille.Props.C68_construct_partial` | Classical.choice, Quot.sound, propext |
| `Brille.Props.C68_inversion` | Classical.choice, Quot.sound, propext |
| `Brille.Props.C68_large_extent` | Classical.choice, Quot.sound, propext |
| `Brille.Props.C68_large_extent_volume` | Classical.choice, Quot.sound, propext |
| `Brille.Props.C68_primitive_vertices` | Classical.choice, Quot.sound, propext |
| `Brille.Props.C68_search` | Classical.choice, Quot.sound, propext |
| `Brille.Props.C68_stop_counterexample` | Classical.choice, Quot.sound, propext |
| `Brille.Props.C68_terminates` | Classical.choice, Quot.sound, propext |
| `Brille.Props.C68_volume_decides` | Classical.choice, Quot.sound, propext |
| `Brille.Props.C68_zone_volume` | Classical.choice, Quot.sound, propext |
| `Brille.Props.C69_cut_adds` | Classical.choice, Quot.sound, propext |
| `Brille.Props.C69_part` | Classical.choice, Quot.sound, propext |
| `Brille.Props.C69_positive` | Classical.choice, Quot.sound, propext |
| `Brille.Props.C69_volume` | Classical.choice, Quot.sound, propext |
| `Brille.Props.C70_apart` | Classical.choice, Quot.sound, propext |
| `Brille.Props.C70_fills` | Classical.choice, Quot.sound, propext |
| `Brille.Props.C70_first_zone` | Classical.choice, Quot.sound, propext |
| `Brille.Props.C70_intersects` | Classical.choice, Quot.sound, propext |
| `Brille.Props.C70_inversion_counterexample` | Classical.choice, Quot.sound, propext |
| `Brille.Props.C70_reaches` | Classical.choice, Quot.sound, propext |
| `Brille.Props.C70_triclinic` | Classical.choice, Quot.sound, propext |
| `Brille.Props.C71_ir_moveinto` | Classical.choice, Quot.sound, propext |
| `Brille.Props.C71_search` | Classical.choice, Quot.sound, propext |
| `Brille.Props.C71_search_inversion` | Classical.choice, Quot.sound, propext |
| `Brille.Props.C71_triclinic` | Classical.choice, Quot.sound, propext |
| `Brille.Props.C72_edge_point_counterexample` | Classical.choice, Quot.sound, propext |
| `Brille.Props.C72_face_point_counterexample` | Classical.choice, Quot.sound, propext |
| `Brille.Props.C72_hull_edges_partial` | Classical.choice, Quot.sound, propext |
| `Brille.Props.C72_hull_partial` | Classical.choice, Quot.sound, propext |
| `Brille.Props.C72_search_hulls` | Classical.choice, Quot.sound, propext |
| `Brille.Props.C73_axis` | Classical.choice, Quot.sound, propext |
| `Brille.Props.C73_endless_counterexample` | Classical.choice, Quot.sound, propext |
| `Brille.Props.C73_grid` | Classical.choice, Quot.sound, propext |
| `Brille.Props.C74_build` | Classical.choice, Quot.sound, propext |
| `Brille.Props.C74_classify` | Classical.choice, Quot.sound, propext |
| `Brille.Props.C75_apart` | Classical.choice, Quot.sound, propext |
| `Brille.Props.C75_cover` | Classical.choice, Quot.sound, propext |
| `Brille.Props.C75_search` | Classical.choice, Quot.sound, propext |
| `Brille.Props.C75_search_exact` | Classical.choice, Quot.sound, propext |
| `Brille.Props.C76_construct` | Classical.choice, Quot.sound, propext |
| `Brille.Props.C76_in_turn` | Classical.choice, Quot.sound, propext |
| `Brille.Props.C76_interpolate` | Classical.choice, Quot.sound, propext |
| `Brille.Props.C76_race_counterexample` | Quot.sound, propext |
| `Brille.Props.C77_construct` | Classical.choice, Quot.sound, propext |
| `Brille.Props.C77_interpolate` | Classical.choice, Quot.sound, propext |
| `Brille.Props.C77_keys` | Classical.choice, Quot.sound, propext |
| `Brille.Props.C77_locate` | Classical.choice, Quot.sound, propext |
| `Brille.Props.C77_neighbours` | Classical.choice, Quot.sound, propext |
| `Brille.Props.C77_outside_counterexample` | Classical.choice, Quot.sound, propext |
| `Brille.Props.C77_statistics` | Classical.choice, Quot.sound, propext |
| `Brille.Props.C77_tetrahedron` | Classical.choice, Quot.sound, propext |
| `Brille.Props.C78_all_compare` | Classical.choice, Quot.sound, propext |
| `Brille.Props.C78_copies` | Classical.choice, Quot.sound, propext |
| `Brille.Props.C78_dot` | Quot.sound, propext |
| `Brille.Props.C78_elementwise` | Classical.choice, Quot.sound, propext |
| `Brille.Props.C78_in_place` | Classical.choice, Quot.sound, propext |
| `Brille.Props.C78_is` | Classical.choice, Quot.sound, propext |
| `Brille.Props.C78_is_array` | Classical.choice, Quot.sound, propext |
| `Brille.Props.C78_is_array_counterexample` | propext |
| `Brille.Props.C78_is_array_refused` | Quot.sound, propext |
| `Brille.Props.C78_le_ge` | Classical.choice, Quot.sound, propext |
| `Brille.Props.C78_le_ge_counterexample` | Classical.choice, Quot.sound, propext |
| `Brille.Props.C78_min` | Classical.choice, Quot.sound, propext |
| `Brille.Props.C78_overflow_counterexample` | propext |
| `Brille.Props.C78_reduce` | Classical.choice, Quot.sound, propext |
| `Brille.Props.C78_row_ordered_counterexample` | propext |
| `Brille.Props.C78_rows` | Classical.choice, Quot.sound, propext |
| `Brille.Props.C78_rows_refused` | Quot.sound, propext |
| `Brille.Props.C78_search` | Classical.choice, Quot.sound, propext |
| `Brille.Props.C78_search_columns` | Classical.choice, Quot.sound, propext |
| `Brille.Props.C78_search_counterexample` | propext |
| `Brille.Props.C78_sum` | Classical.choice, Quot.sound, propext |
| `Brille.Props.C78_total` | Classical.choice, Quot.sound, propext |
| `Brille.Props.C79_extract` | Classical.choice, Quot.sound, propext |
| `Brille.Props.C79_extract_mask` | Classical.choice, Quot.sound, propext |
| `Brille.Props.C79_extract_table` | Classical.choice, Quot.sound, propext |
| `Brille.Props.C79_is_permutation` | Classical.choice, Quot.sound, propext |
| `Brille.Props.C79_mask_counterexample` | propext |
| `Brille.Props.C79_permutation_vector` | Classical.choice, Quot.sound, propext |
| `Brille.Props.C79_permutation_vector_counterexample` | Classical.choice, Quot.sound, propext |
| `Brille.Props.C79_permute` | Classical.choice, Quot.sound, propext |
| `Brille.Props.C79_permute_counterexample` | Classical.choice, Quot.sound, propext |
| `Brille.Props.C79_reshape` | Classical.choice, Quot.sound, propext |
| `Brille.Props.C79_reshape_counterexample` | propext |
| `Brille.Props.C79_set` | Classical.choice, Quot.sound, propext |
| `Brille.Props.C79_set_counterexample` | Classical.choice, Quot.sound, propext |
| `Brille.Props.C79_set_vector` | Classical.choice, Quot.sound, propext |
| `Brille.Props.C79_swap` | Classical.choice, Quot.sound, propext |
| `Brille.Props.C79_unique_copy` | Classical.choice, Quot.sound, propext |
| `Brille.Props.C79_unique_counterexample` | propext |
| `Brille.Props.C80_export` | Classical.choice, Quot.sound, propext |
| `Brille.Props.C80_field_counterexample` | none |
| `Brille.Props.C80_import` | Classical.choice, Quot.sound, propext |
| `Brille.Props.C80_large_counterexample` | propext |
| `Brille.Props.C80_readonly_counterexample` | propext |
| `Brille.Props.C80_reversed_counterexample` | propext |
| `Brille.Props.C80_round_trip` | Classical.choice, Quot.sound, propext |
| `Brille.Props.C80_shape_counterexample` | propext |
| `Brille.Props.C80_to_array` | Classical.choice, Quot.sound, propext |
| `Brille.Props.C80_to_array2` | Classical.choice, Quot.sound, propext |
| `Brille.Props.C80_to_array_counterexample` | propext |
| `Brille.Props.C80_view_counterexample` | none |
| `Brille.Props.C81_between` | Classical.choice, Quot.sound, propext |
| `Brille.Props.C81_error` | Classical.choice, Quot.sound, propext |
| `Brille.Props.C81_exact` | Classical.choice, Quot.sound, propext |
| `Brille.Props.C81_total` | Classical.choice, Quot.sound, propext |
| `Brille.Props.C82_error` | Classical.choice, Quot.sound, propext |
| `Brille.Props.C82_follows` | Classical.choice, Quot.sound, propext |
| `Brille.Props.C82_keys` | Classical.choice, Quot.sound, propext |
| `Brille.Props.C82_sorts` | Classical.choice, Quot.sound, propext |
| `Brille.Props.C83_complex_counterexample` | Classical.choice, Quot.sound, propext |
| `Brille.Props.C83_density_counterexample` | Classical.choice, Quot.sound, propext |
| `Brille.Props.C83_grid_partial` | Classical.choice, Quot.sound, propext |
| `Brille.Props.C83_group` | propext |
| `Brille.Props.C83_hall_number_counterexample` | propext |
| `Brille.Props.C83_lattice` | Quot.sound, propext |
| `Brille.Props.C83_lost_density_counterexample` | Classical.choice, Quot.sound, propext |
| `Brille.Props.C83_misspelt_counterexample` | propext |
| `Brille.Props.C83_names` | Quot.sound, propext |
| `Brille.Props.C83_not_text` | Quot.sound, propext |
| `Brille.Props.C83_numbers_partial` | propext |
| `Brille.Props.C83_parameters` | Classical.choice, Quot.sound, propext |
| `Brille.Props.C83_vectors` | Classical.choice, Quot.sound, propext |
| `Brille.Props.C84_accepts_partial` | Classical.choice, Quot.sound, propext |
| `Brille.Props.C84_cycle_counterexample` | Classical.choice, Quot.sound, propext |
| `Brille.Props.C84_ends` | Classical.choice, Quot.sound, propext |
| `Brille.Props.C84_limit_counterexample` | Classical.choice, Quot.sound, propext |
| `Brille.Props.C84_moveinto` | Classical.choice, Quot.sound, propext |
| `Brille.Props.C84_orthogonal` | Classical.choice, Quot.sound, propext |
| `Brille.Props.C84_prism_partial` | Classical.choice, Quot.sound, propext |
| `Brille.Props.C84_rhombohedral_moveinto_partial` | Classical.choice, Quot.sound, propext |
| `Brille.Props.C84_rhombohedral_partial` | Classical.choice, Quot.sound, propext |
| `Brille.Props.C85_mesh_between` | Classical.choice, Quot.sound, propext |
| `Brille.Props.C85_mesh_error` | Classical.choice, Quot.sound, propext |
| `Brille.Props.C85_mesh_exact` | Classical.choice, Quot.sound, propext |
| `Brille.Props.C85_mesh_total` | Classical.choice, Quot.sound, propext |
| `Brille.Props.C85_nest_between_partial` | Classical.choice, Quot.sound, propext |
| `Brille.Props.C85_nest_error_partial` | Classical.choice, Quot.sound, propext |
| `Brille.Props.C85_nest_exact_partial` | Classical.choice, Quot.sound, propext |
| `Brille.Props.C85_nest_total_partial` | Classical.choice, Quot.sound, propext |
| `Brille.Props.C86_adjoint` | Classical.choice, Quot.sound, propext |
| `Brille.Props.C86_adjoint_counterexample` | Classical.choice, Quot.sound, propext |
| `Brille.Props.C86_conjugate_transpose` | Classical.choice, Quot.sound, propext |
| `Brille.Props.C86_copy` | Classical.choice, Quot.sound, propext |
| `Brille.Props.C86_cross` | Classical.choice, Quot.sound, propext |
| `Brille.Props.C86_determinant` | Classical.choice, Quot.sound, propext |
| `Brille.Props.C86_elementwise` | Classical.choice, Quot.sound, propext |
| `Brille.Props.C86_elementwise_counterexample` | propext |
| `Brille.Props.C86_inverse` | Classical.choice, Quot.sound, propext |
| `Brille.Props.C86_metric` | Classical.choice, Quot.sound, propext |
| `Brille.Props.C86_multiply` | Classical.choice, Quot.sound, propext |
| `Brille.Props.C86_multiply_counterexample` | Classical.choice, Quot.sound, propext |
| `Brille.Props.C86_similar` | Classical.choice, Quot.sound, propext |
| `Brille.Props.C86_transpose` | Classical.choice, Quot.sound, propext |
| `Brille.Props.C86_transpose_in_place` | Classical.choice, Quot.sound, propext |
| `Brille.Props.C86_transpose_in_place_counterexample` | Quot.sound, propext |
| `Brille.Props.C87_collect` | Classical.choice, Quot.sound, propext |
| `Brille.Props.C87_orthogonal` | Classical.choice, Quot.sound, propext |
| `Brille.Props.C87_orthogonal_counterexample` | Classical.choice, Quot.sound, propext |
| `Brille.Props.C87_transformation` | Classical.choice, Quot.sound, propext |
| `Brille.Props.C87_transformation_counterexample` | Classical.choice, Quot.sound, propext |
| `Brille.Props.C88_agree` | Classical.choice, Quot.sound, propext |
| `Brille.Props.C88_between_partial` | Classical.choice, Quot.sound, propext |
| `Brille.Props.C88_counterexample` | Classical.choice, Quot.sound, propext |
| `Brille.Props.C88_error_partial` | Classical.choice, Quot.sound, propext |
| `Brille.Props.C88_exact_partial` | Classical.choice, Quot.sound, propext |
| `Brille.Props.C88_not_moved` | Classical.choice, Quot.sound, propext |
| `Brille.Props.C88_not_moved_ir` | Classical.choice, Quot.sound, propext |
| `Brille.Props.C88_points` | Classical.choice, Quot.sound, propext |
| `Brille.Props.C88_total_partial` | Classical.choice, Quot.sound, propext |
| `Brille.Props.C88_whole` | Classical.choice, Quot.sound, propext |
| `Brille.Props.C89_chosen_partial` | Classical.choice, Quot.sound, propext |
| `Brille.Props.C89_cuts_partial` | Classical.choice, Quot.sound, propext |
| `Brille.Props.C89_direction_counterexample` | Classical.choice, Quot.sound, propext |
| `Brille.Props.C89_groups` | Classical.choice, Quot.sound, propext |
| `Brille.Props.C89_groups_counterexample` | Classical.choice, Quot.sound, propext |
| `Brille.Props.C89_mirror_counterexample` | Classical.choice, Quot.sound, propext |
| `Brille.Props.C89_operation` | Classical.choice, Quot.sound, propext |
| `Brille.Props.C89_pair` | Classical.choice, Quot.sound, propext |
| `Brille.Props.C89_retained` | Classical.choice, Quot.sound, propext |
| `Brille.Props.C89_room` | Classical.choice, Quot.sound, propext |
| `Brille.Props.C89_special` | Classical.choice, Quot.sound, propext |
| `Brille.Props.C89_use` | Quot.sound, propext |
| `Brille.Props.C89_use_mirror` | Classical.choice, Quot.sound, propext |
| `Brille.Props.C89_zone` | Classical.choice, Quot.sound, propext |
| `Brille.Props.C90_cross` | Classical.choice, Quot.sound, propext |
| `Brille.Props.C90_dot` | Classical.choice, Quot.sound, propext |
| `Brille.Props.C90_dot_counterexample` | propext |
| `Brille.Props.C90_in_place` | Classical.choice, Quot.sound, propext |
| `Brille.Props.C90_in_place_counterexample` | propext |
| `Brille.Props.C90_operator` | Classical.choice, Quot.sound, propext |
| `Brille.Props.C90_refused` | Classical.choice, Quot.sound, propext |
