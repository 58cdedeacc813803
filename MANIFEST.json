{
 "claims": [
  {
   "property": "C01",
   "status": "proved",
   "theorems": [
    "Brille.Props.C01_subscripts_visited_once_in_order",
    "Brille.Props.C01_zero_extent_counterexample"
   ],
   "note": "All ranks >= 1 and all shapes whose extents after the first are positive; the zero-extent failure is proved as a counterexample."
  },
  {
   "property": "C02",
   "status": "proved",
   "theorems": [
    "Brille.Props.C02_fixed_axes_visit_slice",
    "Brille.Props.C02_all_fixed_throws"
   ],
   "note": "All shapes of positive extent, every set of fixed axes; throwing when all axes are fixed."
  },
  {
   "property": "C03",
   "status": "partial",
   "theorems": [
    "Brille.Props.C03_lin2sub_sub2lin",
    "Brille.Props.C03_sub2lin_lin2sub",
    "Brille.Props.C03_no_collision",
    "Brille.Props.C03_iteration_follows_memory",
    "Brille.Props.C03_lin2sub2_row",
    "Brille.Props.C03_lin2sub2_column_partial",
    "Brille.Props.C03_lin2sub2_column_counterexample",
    "Brille.Props.C03_lin2sub_column_counterexample"
   ],
   "note": "Full for row-ordered strides of every rank; column order is proved only for two-dimensional arrays with at least two rows, and the code is proved wrong otherwise (counterexamples)."
  },
  {
   "property": "C04",
   "status": "proved",
   "theorems": [
    "Brille.Props.C04_broadcast_pairs",
    "Brille.Props.C04_broadcast_rejects",
    "Brille.Props.C04_zero_extent_counterexample"
   ],
   "note": "Positive extents; zero-extent counterexample."
  },
  {
   "property": "C05",
   "status": "partial",
   "theorems": [
    "Brille.Props.C05_array2_decouple",
    "Brille.Props.C05_sole_owner",
    "Brille.Props.C05_shared_counterexample",
    "Brille.Props.C05_array2_extract",
    "Brille.Props.C05_array_decouple_partial",
    "Brille.Props.C05_array_overflow",
    "Brille.Props.C05_array_counterexample"
   ],
   "note": "Array2: decouple and extract(i) proved in full for every state reachable by any program, including independence of the copy. Array: proved when the array uses all its memory or its strides fit the copy; otherwise proved to write out of bounds (C05_array_overflow, counterexample). Decoupling a sole mutable owner shares memory (counterexample). extract with index lists is part of C79."
  },
  {
   "property": "C06",
   "status": "partial",
   "theorems": [
    "Brille.Props.C06_resize_partial",
    "Brille.Props.C06_mixed",
    "Brille.Props.C06_shifted",
    "Brille.Props.C06_append_partial",
    "Brille.Props.C06_append_mismatch",
    "Brille.Props.C06_zero_extent_counterexample"
   ],
   "note": "resize/append proved for Array and Array2 in every reachable state for unshifted arrays whose extents after the first are non-zero; mixed grow/shrink, shifted arrays and mismatched append proved to throw without effect; zero extents proved to go out of bounds (counterexample)."
  },
  {
   "property": "C07",
   "status": "proved",
   "theorems": [
    "Brille.Props.C07_table_refines_map",
    "Brille.Props.C07_keys_distinct",
    "Brille.Props.C07_diagonal_identity",
    "Brille.Props.C07_diagonal_counterexample",
    "Brille.Props.C07_set_drops_pending",
    "Brille.Props.C07_overwrite_by_index",
    "Brille.Props.C07_keys_from_indices"
   ],
   "note": "Refinement over all histories for pairs of distinct indices; limits proved as counterexamples (storing on the diagonal, set on a pending key)."
  },
  {
   "property": "C08",
   "status": "partial",
   "theorems": [
    "Brille.Props.C08_flags_and_counter_independent",
    "Brille.Props.C08_unlocked_addvisit",
    "Brille.Props.C08_derived_getters",
    "Brille.Props.C08_setVisits_actual",
    "Brille.Props.C08_setVisits_counterexample"
   ],
   "note": "All flag operations and increments are proved for every word and history; the claim that the visit count reads back what was set is false of the code (visits(v) toggles), its exact behaviour and a counterexample are proved."
  },
  {
   "property": "C09",
   "status": "proved",
   "theorems": [
    "Brille.Props.C09_action",
    "Brille.Props.C09_product_acts",
    "Brille.Props.C09_product_vectors",
    "Brille.Props.C09_translation_reduced",
    "Brille.Props.C09_associative",
    "Brille.Props.C09_identity",
    "Brille.Props.C09_inverse",
    "Brille.Props.C09_inverse_undoes",
    "Brille.Props.C09_inverse_counterexample",
    "Brille.Props.C09_equality",
    "Brille.Props.C09_equality_symmetric"
   ],
   "note": "Integer rotation part, exact rational translation. Composition up to lattice vectors on points, exact on vectors, axial vectors and as motions."
  },
  {
   "property": "C10",
   "status": "partial",
   "theorems": [
    "Brille.Props.C10_database",
    "Brille.Props.C10_motions_partial",
    "Brille.Props.C10_motions_step_partial",
    "Brille.Props.C10_points_partial",
    "Brille.Props.C10_commuting_partial",
    "Brille.Props.C10_generate_counterexample"
   ],
   "note": "Closed, complete and distinct for commuting generators, for finite matrix groups step by step and for all 530 tabulated symbols; false in general (C10_generate_counterexample)."
  },
  {
   "property": "C11",
   "status": "partial",
   "theorems": [
    "Brille.Props.C11_points_partial",
    "Brille.Props.C11_commuting_partial",
    "Brille.Props.C11_motions_partial",
    "Brille.Props.C11_generators_counterexample"
   ],
   "note": "generators(): returns operations of the list; loses nothing when all sets generated from the list are closed, e.g. commuting operations. False in general (C11_generators_counterexample: the tetrahedral group in one order regenerates 9 of 12)."
  },
  {
   "property": "C12",
   "status": "proved",
   "theorems": [
    "Brille.Props.C12_find_index",
    "Brille.Props.C12_inverse_index",
    "Brille.Props.C12_inverse_in_group",
    "Brille.Props.C12_permute",
    "Brille.Props.C12_sort"
   ],
   "note": "find_index, get_inverse_index/get_inverse, permute, and sort (std::sort by its contract, with the comparison proved a strict weak order)."
  },
  {
   "property": "C13",
   "status": "proved",
   "theorems": [
    "Brille.Props.C13_determinant",
    "Brille.Props.C13_adjoint",
    "Brille.Props.C13_inverse_field",
    "Brille.Props.C13_inverse_field_exists",
    "Brille.Props.C13_inverse_int",
    "Brille.Props.C13_inverse_int_counterexample",
    "Brille.Props.C13_product",
    "Brille.Props.C13_similar"
   ],
   "note": "All sizes and all commutative rings (fields, integers). Integer matrices with other determinants are a proved counterexample."
  },
  {
   "property": "C14",
   "status": "proved",
   "theorems": [
    "Brille.Props.C14_rotation_order",
    "Brille.Props.C14_unchecked_counterexample"
   ],
   "note": "For every integer matrix of finite order; proved by the crystallographic restriction. The classification does not check its input: C14_unchecked_counterexample."
  },
  {
   "property": "C15",
   "status": "partial",
   "theorems": [
    "Brille.Props.C15_reflexive",
    "Brille.Props.C15_symmetric",
    "Brille.Props.C15_symmetric_mixed",
    "Brille.Props.C15_symmetric_float_double_counterexample",
    "Brille.Props.C15_int_exact",
    "Brille.Props.C15_monotone",
    "Brille.Props.C15_double_meaning",
    "Brille.Props.C15_array_conjunction",
    "Brille.Props.C15_int_array_exact",
    "Brille.Props.C15_equal_vectors",
    "Brille.Props.C15_int_array_tolerance_counterexample",
    "Brille.Props.C15_not_transitive"
   ],
   "note": "Symmetry is false between float and double arguments, and integer arrays with a tolerance are not exact: both proved as counterexamples; everything else proved."
  },
  {
   "property": "C16",
   "status": "proved",
   "theorems": [
    "Brille.Props.C16_trichotomy",
    "Brille.Props.C16_tolerances_reflexive",
    "Brille.Props.C16_derived",
    "Brille.Props.C16_vector_complement",
    "Brille.Props.C16_unsupported",
    "Brille.Props.C16_reductions",
    "Brille.Props.C16_find"
   ],
   "note": "Comparisons for all types and tolerances; reductions on the list of elements in linear-index order."
  },
  {
   "property": "C17",
   "status": "partial",
   "theorems": [
    "Brille.Props.C17_rows",
    "Brille.Props.C17_hall_symbol_lookup",
    "Brille.Props.C17_hall_symbol_round_trip_partial",
    "Brille.Props.C17_hall_symbol_round_trip_counterexample",
    "Brille.Props.C17_number_lookup",
    "Brille.Props.C17_numbers_reachable_partial",
    "Brille.Props.C17_number_230_counterexample",
    "Brille.Props.C17_name_lookup",
    "Brille.Props.C17_name_round_trip",
    "Brille.Props.C17_string_lookup",
    "Brille.Props.C17_string_lookup_counterexample",
    "Brille.Props.C17_bravais_partial",
    "Brille.Props.C17_bravais_counterexample",
    "Brille.Props.C17_groups"
   ],
   "note": "All 530 rows and lookups by Hall symbol, number, name and free string, for every key. Refuted parts: number 230 is never found, three Hall symbols are duplicated, forty B-centred rows are marked P, and \"R 3\" with choice R gives the H row."
  },
  {
   "property": "C18",
   "status": "partial",
   "theorems": [
    "Brille.Props.C18_mutually_inverse_partial",
    "Brille.Props.C18_primitive_counterexample",
    "Brille.Props.C18_transposes",
    "Brille.Props.C18_determinant",
    "Brille.Props.C18_invalid"
   ],
   "note": "The accessor for 6P is wrong for letter P (proved counterexample); everything proved for the other letters, and det/transposes for all letters."
  },
  {
   "property": "C19",
   "status": "proved",
   "theorems": [
    "Brille.Props.C19_roundtrip",
    "Brille.Props.C19_other_lattices",
    "Brille.Props.C19_dot_invariant",
    "Brille.Props.C19_real_lattice",
    "Brille.Props.C19_reciprocal_lattice",
    "Brille.Props.C19_reflection_condition",
    "Brille.Props.C19_integer_truncation_counterexample",
    "Brille.Props.C19_integer_exact"
   ],
   "note": "All centrings and rational vectors, with real and reciprocal lattices characterised; integer-vector truncation is a proved counterexample."
  },
  {
   "property": "C20",
   "status": "proved",
   "theorems": [
    "Brille.Props.C20_optimal",
    "Brille.Props.C20_zero_counterexample"
   ],
   "note": "Total correctness and optimality over every linearly ordered additive group; the all-zero matrix is reported as failure (C20_zero_counterexample)."
  },
  {
   "property": "C21",
   "status": "partial",
   "theorems": [
    "Brille.Props.C21_inverse_permutations_partial",
    "Brille.Props.C21_fill_inverse_partial",
    "Brille.Props.C21_optimal_counterexample"
   ],
   "note": "Termination and mutually inverse permutations for all rational matrices; minimality is false (C21_optimal_counterexample). Portable find_umins only; the AVX2 versions are not modelled."
  },
  {
   "property": "C22",
   "status": "partial",
   "theorems": [
    "Brille.Props.C22_matching_partial",
    "Brille.Props.C22_no_rivals_partial",
    "Brille.Props.C22_stable_counterexample"
   ],
   "note": "Termination within the limit, perfect matching, and the no-rivals case proved for all matrices; stability is false already for 2x2 (C22_stable_counterexample)."
  },
  {
   "property": "C23",
   "status": "partial",
   "theorems": [
    "Brille.Props.C23_apply_permutation",
    "Brille.Props.C23_apply_twice",
    "Brille.Props.C23_inverse_partial",
    "Brille.Props.C23_inverse_counterexample"
   ],
   "note": "apply_permutation proved for every permutation; apply_inverse_permutation writes the index instead of the object: exact behaviour characterised (C23_inverse_partial) and the full claim refuted."
  },
  {
   "property": "C24",
   "status": "partial",
   "theorems": [
    "Brille.Props.C24_weighted_sum",
    "Brille.Props.C24_exact_at_vertex",
    "Brille.Props.C24_common_datum",
    "Brille.Props.C24_linear",
    "Brille.Props.C24_order",
    "Brille.Props.C24_pivot_counterexample",
    "Brille.Props.C24_pivot_relabels_partial",
    "Brille.Props.C24_phase_aligns",
    "Brille.Props.C24_phase_invariance",
    "Brille.Props.C24_phase_orthogonal_counterexample",
    "Brille.Props.C24_exact_at_first_vertex"
   ],
   "note": "Weighted sum, exactness at vertices, linearity, common datum and phase invariance proved for all sizes; independence of the order of the pairs holds for the plain sum but is false through DualInterpolator, where the first pair fixes the mode labels (C24_pivot_counterexample; what remains true is C24_pivot_relabels_partial)."
  },
  {
   "property": "C25",
   "status": "partial",
   "theorems": [
    "Brille.Props.C25_cube_weights",
    "Brille.Props.C25_partition_of_unity",
    "Brille.Props.C25_tolerance",
    "Brille.Props.C25_outside_counterexample"
   ],
   "note": "Proved for every box and every point of it, exact and with tolerance; the promise for points outside the box is refuted (C25_outside_counterexample)."
  },
  {
   "property": "C26",
   "status": "proved",
   "theorems": [
    "Brille.Props.C26_barycentric",
    "Brille.Props.C26_inside",
    "Brille.Props.C26_found",
    "Brille.Props.C26_weights",
    "Brille.Props.C26_exact",
    "Brille.Props.C26_should_contain",
    "Brille.Props.C26_empty_counterexample",
    "Brille.Props.C26_orientation_counterexample"
   ],
   "note": "Weights equal the unique barycentric coordinates for every correctly oriented tetrahedron; found/not found, positivity and reproduction of linear functions with and without tolerance. Orientation and empty-node counterexamples recorded. PolyNode and NestLeaf share the model."
  },
  {
   "property": "C27",
   "status": "partial",
   "theorems": [
    "Brille.Props.C27_find_bin",
    "Brille.Props.C27_find_bin_outside",
    "Brille.Props.C27_on_boundary",
    "Brille.Props.C27_node_found",
    "Brille.Props.C27_ok_iff",
    "Brille.Props.C27_node_contains_partial",
    "Brille.Props.C27_two_steps_counterexample",
    "Brille.Props.C27_below_counterexample",
    "Brille.Props.C27_above_counterexample"
   ],
   "note": "find_bin, on_boundary and the existence part of the search proved; containment proved for single steps and refuted for double steps, below the first knot and beyond the last knot."
  },
  {
   "property": "C28",
   "status": "proved",
   "theorems": [
    "Brille.Props.C28_numbering",
    "Brille.Props.C28_order",
    "Brille.Props.C28_neighbours",
    "Brille.Props.C28_neighbours_symmetric",
    "Brille.Props.C28_centres",
    "Brille.Props.C28_intersections",
    "Brille.Props.C28_node_faces",
    "Brille.Props.C28_box_faces"
   ],
   "note": "Numbering bijection, order, neighbours, centres, intersections and faces, for all grid sizes."
  },
  {
   "property": "C29",
   "status": "proved",
   "theorems": [
    "Brille.Props.C29_requests",
    "Brille.Props.C29_same_index_iff",
    "Brille.Props.C29_any_comparison",
    "Brille.Props.C29_tolerance_counterexample",
    "Brille.Props.C29_small_grid_counterexample",
    "Brille.Props.C29_is_consolidated_counterexample"
   ],
   "note": "Proved for a comparison that is an equivalence relation and a grid of at least two different vertices; counterexamples show both are needed, and that is_consolidated is wrong after consolidate."
  },
  {
   "property": "C30",
   "status": "proved",
   "theorems": [
    "Brille.Props.C30_reduce",
    "Brille.Props.C30_thread_count"
   ],
   "note": "Proved for any number of threads and any distribution of nodes; comparison assumed to be an equivalence relation."
  },
  {
   "property": "C31",
   "status": "proved",
   "theorems": [
    "Brille.Props.C31_sort",
    "Brille.Props.C31_schedule_independent",
    "Brille.Props.C31_inverse",
    "Brille.Props.C31_empty_counterexample",
    "Brille.Props.C31_one_sided_counterexample"
   ],
   "note": "Schedule independence, completion, and mutually inverse stored permutations with the modelled jv_permutation_fill."
  },
  {
   "property": "C32",
   "status": "partial",
   "theorems": [
    "Brille.Props.C32_parallel_eq_serial",
    "Brille.Props.C32_fails_together",
    "Brille.Props.C32_reports",
    "Brille.Props.C32_can_finish",
    "Brille.Props.C32_nest_serial_partial",
    "Brille.Props.C32_nest_counterexample"
   ],
   "note": "Proved for PolyTrellis for every number of threads and interleaving, including exact failure reports and no deadlock. For Nest the serial version has undefined behaviour on a point that is not found (C32_nest_counterexample), so equality is proved only for points that are found."
  },
  {
   "property": "C33",
   "status": "proved",
   "theorems": [
    "Brille.Props.C33_moveinto_standard",
    "Brille.Props.C33_moveinto_primitive",
    "Brille.Props.C33_moveinto_other",
    "Brille.Props.C33_already_inside",
    "Brille.Props.C33_search"
   ],
   "note": "Coordinates are exact rationals; the geometry of the zone enters as arbitrary functions, so the decomposition holds whatever the tolerances. C33_search needs the faces' data to belong to one metric."
  },
  {
   "property": "C34",
   "status": "proved",
   "theorems": [
    "Brille.Props.C34_ir_moveinto",
    "Brille.Props.C34_stays_in_zone",
    "Brille.Props.C34_complete",
    "Brille.Props.C34_ir_moveinto_wedge",
    "Brille.Props.C34_wedge_test"
   ],
   "note": "The wedge test and the first zone's test are arbitrary predicates; completeness is under the hypothesis that the rotated wedges cover the zone, which C71_ir_moveinto proves for the zones that the construction finds."
  },
  {
   "property": "C35",
   "status": "proved",
   "theorems": [
    "Brille.Props.C35_faces_equal",
    "Brille.Props.C35_equivalence",
    "Brille.Props.C35_orientation",
    "Brille.Props.C35_empty_face_counterexample"
   ],
   "note": "All of Faces::operator==/!=; a list with an empty face is not equal to itself (theorem)"
  },
  {
   "property": "C36",
   "status": "proved",
   "theorems": [
    "Brille.Props.C36_volume_from_any_point",
    "Brille.Props.C36_translation",
    "Brille.Props.C36_linear_map",
    "Brille.Props.C36_dilation",
    "Brille.Props.C36_equal_faces",
    "Brille.Props.C36_equal_faces_counterexample",
    "Brille.Props.C36_mirror",
    "Brille.Props.C36_relabel",
    "Brille.Props.C36_combine",
    "Brille.Props.C36_box",
    "Brille.Props.C36_not_negative"
   ],
   "note": "Faces::volume, mirror, permute, combine and bounding_box in exact arithmetic; volumes of equal face lists agree for plane faces only (counterexample otherwise)"
  },
  {
   "property": "C37",
   "status": "partial",
   "theorems": [
    "Brille.Props.C37_purge",
    "Brille.Props.C37_faceless",
    "Brille.Props.C37_remove_points",
    "Brille.Props.C37_duplicates_partial",
    "Brille.Props.C37_duplicates_exact",
    "Brille.Props.C37_duplicates_counterexample",
    "Brille.Props.C37_finish_hull",
    "Brille.Props.C37_hull_partial",
    "Brille.Props.C37_hull_counterexample"
   ],
   "note": "False in two cases, both shown by counterexample theorems: duplicate points under a tolerance, and the hull of points with a duplicate. remove_points with sort=true is not modelled"
  },
  {
   "property": "C38",
   "status": "proved",
   "theorems": [
    "Brille.Props.C38_one_cut",
    "Brille.Props.C38_cut"
   ],
   "note": "Exact arithmetic, orthonormal frame. The claim is about results that have faces: when everything is removed the code returns the input vertices with no faces."
  },
  {
   "property": "C39",
   "status": "partial",
   "theorems": [
    "Brille.Props.C39_lists",
    "Brille.Props.C39_map",
    "Brille.Props.C39_array",
    "Brille.Props.C39_config",
    "Brille.Props.C39_motion",
    "Brille.Props.C39_symmetry",
    "Brille.Props.C39_basis",
    "Brille.Props.C39_permutation_table",
    "Brille.Props.C39_poly",
    "Brille.Props.C39_polyhedron",
    "Brille.Props.C39_cube_node",
    "Brille.Props.C39_poly_node",
    "Brille.Props.C39_nodes",
    "Brille.Props.C39_layer",
    "Brille.Props.C39_triangulation",
    "Brille.Props.C39_point_symmetry_partial",
    "Brille.Props.C39_point_symmetry_sorted",
    "Brille.Props.C39_point_symmetry_counterexample",
    "Brille.Props.C39_lattice_partial",
    "Brille.Props.C39_lattice",
    "Brille.Props.C39_lattice_again",
    "Brille.Props.C39_lattice_counterexample",
    "Brille.Props.C39_lattice_vectors_partial",
    "Brille.Props.C39_brillouin_zone_partial",
    "Brille.Props.C39_interpolator_partial",
    "Brille.Props.C39_interpolator_cost",
    "Brille.Props.C39_interpolator_counterexample",
    "Brille.Props.C39_dual_partial",
    "Brille.Props.C39_trellis_partial",
    "Brille.Props.C39_bz_trellis_partial",
    "Brille.Props.C39_mesh_partial",
    "Brille.Props.C39_bz_mesh_partial",
    "Brille.Props.C39_bz_mesh_counterexample",
    "Brille.Props.C39_file",
    "Brille.Props.C39_file_readonly"
   ],
   "note": "Proved for every file content, entry name and object: saving succeeds, also over an existing entry; everything else in the group or file is untouched; loading gives back exactly what was saved for lists, maps, arrays (empty ones too), comparison settings, motions, space-group operations, bases, permutation tables, polyhedra, cube/polyhedron nodes, node containers, tetrahedra layers and triangulations, and for lattices, lattice vectors, Brillouin zones, interpolators, trellises and meshes that are settled (sorted point operations, snapped atoms, default vector cost function). Also what comes back in general, and that loaded lattices are settled. Proved false of the code in general: a non-default vector cost function is lost on loading; a mesh in a Brillouin zone loses its comparison settings; unsorted point operations come back sorted; a lattice made without snapping may not load at all. Trusted: HDF5/HighFive return the values they were given."
  },
  {
   "property": "C40",
   "status": "proved",
   "theorems": [
    "Brille.Props.C40_offsets",
    "Brille.Props.C40_offsets_prime",
    "Brille.Props.C40_prime_order",
    "Brille.Props.C40_offsets4"
   ],
   "note": "Extent is any non-negative integer (four dimensions: any integer)."
  },
  {
   "property": "C41",
   "status": "proved",
   "theorems": [
    "Brille.Props.C41_add_if_missing",
    "Brille.Props.C41_add_between",
    "Brille.Props.C41_all_present",
    "Brille.Props.C41_invert_lists",
    "Brille.Props.C41_invert_twice",
    "Brille.Props.C41_unordered_list_in_lists",
    "Brille.Props.C41_reverse",
    "Brille.Props.C41_unique",
    "Brille.Props.C41_find_first",
    "Brille.Props.C41_subscript_ok"
   ],
   "note": "unique on the empty vector reads its first element (none in the model). invert_lists is proved without its assertion."
  },
  {
   "property": "C42",
   "status": "partial",
   "theorems": [
    "Brille.Props.C42_gcd",
    "Brille.Props.C42_binomial_ends",
    "Brille.Props.C42_binomial_partial",
    "Brille.Props.C42_binomial_small_partial",
    "Brille.Props.C42_binomial_counterexample",
    "Brille.Props.C42_positive_permutation",
    "Brille.Props.C42_even_triples_partial",
    "Brille.Props.C42_even_counterexample"
   ],
   "note": "gcd proved. binomial_coefficient is wrong from 30 choose 15 on since a wrapped product need not be smaller (C42_binomial_counterexample); proved where the product fits 64 bits and for all n up to 29; the floating point branch is not modelled. is_positive_permutation is cyclic rotation, which is evenness for triples only."
  },
  {
   "property": "C43",
   "status": "proved",
   "theorems": [
    "Brille.Props.C43_found",
    "Brille.Props.C43_weights",
    "Brille.Props.C43_exact",
    "Brille.Props.C43_tetrahedra",
    "Brille.Props.C43_keys"
   ],
   "note": "For every tree and point; exact and with tolerance; keys cover every pair of a result."
  },
  {
   "property": "C44",
   "status": "partial",
   "theorems": [
    "Brille.Props.C44_rotation",
    "Brille.Props.C44_unknown_axis",
    "Brille.Props.C44_accepted",
    "Brille.Props.C44_accepted_zero_counterexample",
    "Brille.Props.C44_two_primes_counterexample",
    "Brille.Props.C44_translation",
    "Brille.Props.C44_text_round_trip_partial",
    "Brille.Props.C44_text_counterexample",
    "Brille.Props.C44_text_database",
    "Brille.Props.C44_database",
    "Brille.Props.C44_centring"
   ],
   "note": "Rotations, axes, translations, centring, text round trip and all 530 rows proved. False in general: symbols with an unknown axis are accepted and give a zero matrix (C44_accepted_zero_counterexample), '' is read as ' (C44_two_primes_counterexample), and the written text drops a change of basis."
  },
  {
   "property": "C45",
   "status": "proved",
   "theorems": [
    "Brille.Props.C45_lookup",
    "Brille.Props.C45_order_irrelevant",
    "Brille.Props.C45_tables_distinct",
    "Brille.Props.C45_tables_identity",
    "Brille.Props.C45_laue_classes",
    "Brille.Props.C45_constructor",
    "Brille.Props.C45_not_a_group_counterexample",
    "Brille.Props.C45_unique_rotations",
    "Brille.Props.C45_axis",
    "Brille.Props.C45_axis_counterexample"
   ],
   "note": "Lookup, tables, Laue classes, constructor, unique rotations and axes proved. Recorded deviations: the lookup only counts, and axes outside the list of 73 give zeros."
  },
  {
   "property": "C46",
   "status": "partial",
   "theorems": [
    "Brille.Props.C46_is_unique",
    "Brille.Props.C46_unique",
    "Brille.Props.C46_unique_chain_counterexample",
    "Brille.Props.C46_unique_idx"
   ],
   "note": "With approximate (non-transitive) equality unique() can drop a row without keeping an equal one: proved counterexample; proved for equivalence relations. unique_idx is proved for every reflexive comparison."
  },
  {
   "property": "C47",
   "status": "proved",
   "theorems": [
    "Brille.Props.C47_inside",
    "Brille.Props.C47_construction",
    "Brille.Props.C47_every_point",
    "Brille.Props.C47_condition"
   ],
   "note": "With the triangulation (tetgen) and exact vertex identification as hypotheses, shown satisfiable by an explicit bisecting triangulation."
  },
  {
   "property": "C48",
   "status": "partial",
   "theorems": [
    "Brille.Props.C48_add_space_inversion_partial",
    "Brille.Props.C48_add_space_inversion_counterexample"
   ],
   "note": "Exact description of the result; equals the group with its inverted operations when the generators regenerate the list; false in general (counterexample)."
  },
  {
   "property": "C49",
   "status": "partial",
   "theorems": [
    "Brille.Props.C49_u2s",
    "Brille.Props.C49_s2u_partial",
    "Brille.Props.C49_s2u_counterexample",
    "Brille.Props.C49_roundtrip"
   ],
   "note": "u2s is proved for all widths. s2u only refuses negative numbers: a number too large for the unsigned type is silently reduced (C49_s2u_counterexample)."
  },
  {
   "property": "C50",
   "status": "proved",
   "theorems": [
    "Brille.Props.C50_translation",
    "Brille.Props.C50_dilation",
    "Brille.Props.C50_tetrahedron",
    "Brille.Props.C50_box"
   ],
   "note": "Faces::centroid in exact arithmetic"
  },
  {
   "property": "C51",
   "status": "proved",
   "theorems": [
    "Brille.Props.C51_indexes",
    "Brille.Props.C51_edges",
    "Brille.Props.C51_edges_complete"
   ],
   "note": ""
  },
  {
   "property": "C52",
   "status": "proved",
   "theorems": [
    "Brille.Props.C52_dangling",
    "Brille.Props.C52_solid_unchanged"
   ],
   "note": ""
  },
  {
   "property": "C53",
   "status": "proved",
   "theorems": [
    "Brille.Props.C53_clip",
    "Brille.Props.C53_nothing_to_cut",
    "Brille.Props.C53_all_beyond"
   ],
   "note": "Hypotheses: distinct vertices, faces without repeated corners, each directed edge once with its reverse, edges meeting only at vertices, sorting of the new face is a permutation; the result has no corner in the middle of an edge and three faces at each corner (what one_cut would otherwise remove)."
  },
  {
   "property": "C54",
   "status": "partial",
   "theorems": [
    "Brille.Props.C54_memory_safe",
    "Brille.Props.C54_live",
    "Brille.Props.C54_no_leak_partial",
    "Brille.Props.C54_leak_counterexample"
   ],
   "note": "Memory safety is proved for every program without restriction. Absence of leaks is proved for programs without the leaking calls; the leaks are proved as counterexamples (converting assignment, resize of a shifted array, wrong number of strides)."
  },
  {
   "property": "C55",
   "status": "proved",
   "theorems": [
    "Brille.Props.C55_view",
    "Brille.Props.C55_row",
    "Brille.Props.C55_rows",
    "Brille.Props.C55_corner",
    "Brille.Props.C55_access"
   ],
   "note": "All four views of both classes, in every state reachable by a program whose caller-chosen strides are good."
  },
  {
   "property": "C56",
   "status": "proved",
   "theorems": [
    "Brille.Props.C56_equivalent_to",
    "Brille.Props.C56_equivalent_to_near",
    "Brille.Props.C56_permutation",
    "Brille.Props.C56_composition",
    "Brille.Props.C56_unit",
    "Brille.Props.C56_inverse",
    "Brille.Props.C56_snap",
    "Brille.Props.C56_snap_distance",
    "Brille.Props.C56_snap_site",
    "Brille.Props.C56_types",
    "Brille.Props.C56_closest"
   ],
   "note": "Exact rational positions; the approximate comparison is a parameter of the lookup (C56_equivalent_to_near, C56_snap) and exact in the theorems about permutations."
  },
  {
   "property": "C57",
   "status": "proved",
   "theorems": [
    "Brille.Props.C57_table",
    "Brille.Props.C57_lattice_vectors",
    "Brille.Props.C57_permutation",
    "Brille.Props.C57_succeeds"
   ],
   "note": "Exact comparison in C57_lattice_vectors and C57_permutation, arbitrary reflexive comparison in C57_table and C57_succeeds."
  },
  {
   "property": "C58",
   "status": "partial",
   "theorems": [
    "Brille.Props.C58_real",
    "Brille.Props.C58_recip",
    "Brille.Props.C58_axial",
    "Brille.Props.C58_unchanged",
    "Brille.Props.C58_round_trip",
    "Brille.Props.C58_recip_covariant",
    "Brille.Props.C58_axial_covariant",
    "Brille.Props.C58_matrices",
    "Brille.Props.C58_real_covariant_partial",
    "Brille.Props.C58_real_counterexample",
    "Brille.Props.C58_dispatch"
   ],
   "note": "Proved for reciprocal-space and axial vectors and matrices. For real-space vectors the covariance holds only for operations that are their own inverse (C58_real_covariant_partial): rip_real turns by R where Q = R^T q + tau needs the inverse of R; C58_real_counterexample shows the wrong result."
  },
  {
   "property": "C59",
   "status": "partial",
   "theorems": [
    "Brille.Props.C59_vectors",
    "Brille.Props.C59_modes",
    "Brille.Props.C59_scalar_products",
    "Brille.Props.C59_orthogonal",
    "Brille.Props.C59_inside",
    "Brille.Props.C59_matrices_counterexample",
    "Brille.Props.C59_matrices_lost_counterexample"
   ],
   "note": "Proved for vectors in Cartesian units: what happens to a row (C59_vectors), that modes go to modes (C59_modes), that scalar products stay, and when writes stay in the scratch space (C59_inside). The claim for matrices of pairs of atoms is false: for N atoms nothing is turned unless N is a multiple of three (C59_matrices_counterexample), and then all but N*N/9 matrices are lost (C59_matrices_lost_counterexample)."
  },
  {
   "property": "C60",
   "status": "partial",
   "theorems": [
    "Brille.Props.C60_fields",
    "Brille.Props.C60_phonons",
    "Brille.Props.C60_no_move"
   ],
   "note": "Proved for scalars, reciprocal vectors and matrices, pseudovectors (C60_fields) and phonons (C60_phonons). Vectors with components along the real lattice are excluded: see C58_real_counterexample; matrices of phonons: see C59_matrices_counterexample. The interpolation inside of the irreducible zone enters as a hypothesis here; what it does between vertices is C24 to C26."
  },
  {
   "property": "C61",
   "status": "partial",
   "theorems": [
    "Brille.Props.C61_cost",
    "Brille.Props.C61_symmetric",
    "Brille.Props.C61_phase",
    "Brille.Props.C61_least_distance",
    "Brille.Props.C61_vectors_cost",
    "Brille.Props.C61_closest",
    "Brille.Props.C61_recovers",
    "Brille.Props.C61_all_elements",
    "Brille.Props.C61_itself_cost",
    "Brille.Props.C61_itself",
    "Brille.Props.C61_sort",
    "Brille.Props.C61_interpolated",
    "Brille.Props.C61_real_counterexample"
   ],
   "note": "Proved for scalar values (real or complex) with complex vectors: the cost matrix, its symmetry and independence of phases, the pairing when every column has one cheapest row, the exact recovery of relabelled modes by the parallel sort, and interpolation after it. For real-valued vectors the cost reads uninitialised memory (C61_real_counterexample). The cost for data that mix scalars, vectors and matrices is proved too (C61_all_elements). Missing: the pairing for such data, and what is stored when several modes compete for one partner beyond what the assignment property says."
  },
  {
   "property": "C62",
   "status": "partial",
   "theorems": [
    "Brille.Props.C62_fill",
    "Brille.Props.C62_fill_cost",
    "Brille.Props.C62_atomic",
    "Brille.Props.C62_elements",
    "Brille.Props.C62_consistent",
    "Brille.Props.C62_ready",
    "Brille.Props.C62_count_counterexample",
    "Brille.Props.C62_multiple_counterexample",
    "Brille.Props.C62_negative_counterexample",
    "Brille.Props.C62_zero_columns_counterexample",
    "Brille.Props.C62_strided_counterexample",
    "Brille.Props.C62_unit_counterexample",
    "Brille.Props.C62_replace_counterexample"
   ],
   "note": "Proved for fills and histories of fills, replacements and stored permutations, sizes below 2^32. The documentation promises more, refuted by counterexamples: a wrong number of points is accepted and then no permutation can be stored (C62_count), element numbers that are not multiples of 3 or negative are accepted (C62_multiple, C62_negative), zero columns divide by zero (C62_zero_columns), strides of the element array are ignored with costs (C62_strided), unknown units throw instead of being replaced (C62_unit), a throwing replacement leaves inconsistent data (C62_replace)."
  },
  {
   "property": "C63",
   "status": "partial",
   "theorems": [
    "Brille.Props.C63_results",
    "Brille.Props.C63_safe",
    "Brille.Props.C63_outside",
    "Brille.Props.C63_nest_partial",
    "Brille.Props.C63_nest_shape_counterexample",
    "Brille.Props.C63_nest_missing_counterexample",
    "Brille.Props.C63_count_counterexample"
   ],
   "note": "Proved for trellis and mesh (C63_results, C63_safe); for a nest only if the two arrays have the same shape and all points are found, otherwise false (counterexamples). Data for a wrong number of points (C62) can lead to reads outside of the data (C63_count_counterexample)."
  },
  {
   "property": "C64",
   "status": "partial",
   "theorems": [
    "Brille.Props.C64_trigonometry",
    "Brille.Props.C64_parameters",
    "Brille.Props.C64_default_unit",
    "Brille.Props.C64_vectors",
    "Brille.Props.C64_duality",
    "Brille.Props.C64_metrics",
    "Brille.Props.C64_primitive",
    "Brille.Props.C64_planar_counterexample",
    "Brille.Props.C64_negative_counterexample"
   ],
   "note": "Proved without rounding (real numbers) for the constructors without snapping. Not true of the code: singular vectors silently give zero dual vectors (C64_planar_counterexample) and negative lengths are accepted and give a left-handed lattice (C64_negative_counterexample)."
  },
  {
   "property": "C65",
   "status": "partial",
   "theorems": [
    "Brille.Props.C65_reachable",
    "Brille.Props.C65_position",
    "Brille.Props.C65_dot",
    "Brille.Props.C65_norm",
    "Brille.Props.C65_star",
    "Brille.Props.C65_cross",
    "Brille.Props.C65_from_position",
    "Brille.Props.C65_star_function_counterexample"
   ],
   "note": "Proved for the member functions and operators. The free function star is a factor 2 pi too large (C65_star_function_counterexample)."
  },
  {
   "property": "C66",
   "status": "partial",
   "theorems": [
    "Brille.Props.C66_centring",
    "Brille.Props.C66_parameters",
    "Brille.Props.C66_vectors",
    "Brille.Props.C66_lengths",
    "Brille.Props.C66_total",
    "Brille.Props.C66_adjusted",
    "Brille.Props.C66_symmetry_counterexample",
    "Brille.Props.C66_changed_counterexample",
    "Brille.Props.C66_orientation_counterexample"
   ],
   "note": "Real numbers, no rounding. Not true of the code: the adjusted lattice need not have the symmetry (C66_symmetry_counterexample), operations outside of the table may change a lattice that has the symmetry (C66_changed_counterexample), and adjusted vectors may be turned around (C66_orientation_counterexample)."
  },
  {
   "property": "C67",
   "status": "proved",
   "theorems": [
    "Brille.Props.C67_one_cut",
    "Brille.Props.C67_cut",
    "Brille.Props.C67_contains",
    "Brille.Props.C67_box",
    "Brille.Props.C67_nothing_left",
    "Brille.Props.C67_one_cut_any",
    "Brille.Props.C67_cut_any",
    "Brille.Props.C67_left_iff"
   ],
   "note": "C67_one_cut_any, C67_cut_any: any planes, never throws; C67_left_iff: something is left exactly if a point is strictly behind all planes (with non-zero normals); C67_contains, C67_box. The modelled sort of new faces is used. Coordinates are exact rationals; the solid is the convex hull over the reals."
  },
  {
   "property": "C68",
   "status": "partial",
   "theorems": [
    "Brille.Props.C68_search",
    "Brille.Props.C68_large_extent",
    "Brille.Props.C68_construct_partial",
    "Brille.Props.C68_inversion",
    "Brille.Props.C68_stop_counterexample",
    "Brille.Props.C68_centring",
    "Brille.Props.C68_centred_volume",
    "Brille.Props.C68_centred_search",
    "Brille.Props.C68_centred_construct",
    "Brille.Props.C68_primitive_vertices",
    "Brille.Props.C68_zone_volume",
    "Brille.Props.C68_large_extent_volume",
    "Brille.Props.C68_terminates",
    "Brille.Props.C68_volume_decides"
   ],
   "note": "The search is proved for every extent and order of neighbours; from some extent on the result is the zone of the infinite lattice, whose volume is the absolute value of the determinant of the basis; the constructor returns after finitely many turns and, where it contains the zone, its result is the zone exactly if its volume is that determinant. Centred lattices: the zone is bounded by the planes halfway to the reflections the centring allows, has the volume of the cell times the number of lattice points in the conventional cell, and does not depend on the lattice that the search works with. The stopping rule of the constructor (two equal volumes) is refuted by a counterexample. Comparisons are exact."
  },
  {
   "property": "C69",
   "status": "proved",
   "theorems": [
    "Brille.Props.C69_volume",
    "Brille.Props.C69_positive",
    "Brille.Props.C69_part",
    "Brille.Props.C69_cut_adds"
   ],
   "note": "exact arithmetic"
  },
  {
   "property": "C70",
   "status": "partial",
   "theorems": [
    "Brille.Props.C70_intersects",
    "Brille.Props.C70_apart",
    "Brille.Props.C70_fills",
    "Brille.Props.C70_reaches",
    "Brille.Props.C70_first_zone",
    "Brille.Props.C70_inversion_counterexample",
    "Brille.Props.C70_triclinic"
   ],
   "note": "Soundness of the check is proved for exact comparisons and convex polyhedra within the zone: intersections are always found (also after improper operations, which reorder the faces), images overlap in null sets, and the images cover the zone, hence every point accepted by the containment test of the zone is accepted by that of the polyhedron after some operation. C70_triclinic: for the inversion alone the dedicated division always succeeds. Missing: the approximate comparison. The gap of the check for the group of the inversion alone is shown by a counterexample."
  },
  {
   "property": "C71",
   "status": "partial",
   "theorems": [
    "Brille.Props.C71_search",
    "Brille.Props.C71_search_inversion",
    "Brille.Props.C71_triclinic",
    "Brille.Props.C71_ir_moveinto"
   ],
   "note": "C71_search (any group with more than the inversion, any planes tried), C71_search_inversion, C71_triclinic (always succeeds), C71_ir_moveinto. Comparisons and coordinates are exact, and the first zone is assumed to be invariant under the operations and the inversion, which C68 and C70_first_zone give for the zone of a lattice. If the group has no inversion, C71_search further assumes that the convex hulls which the search takes and accepts are right; C72_search_hulls gives this for the constructor of C72 where the points are as C72 asks for. With an inversion no hull is taken and C71_search_inversion needs no such assumption. Missing: tolerances, and that the search succeeds for lattices that are not triclinic."
  },
  {
   "property": "C72",
   "status": "partial",
   "theorems": [
    "Brille.Props.C72_hull_partial",
    "Brille.Props.C72_face_point_counterexample",
    "Brille.Props.C72_edge_point_counterexample",
    "Brille.Props.C72_hull_edges_partial",
    "Brille.Props.C72_search_hulls"
   ],
   "note": "Proved for different points, not all in a plane, each of which is a corner of the hull or inside it (C72_hull_partial), and with points on edges if the first three points of no face are in line (C72_hull_edges_partial). The full statement is false of the code: points inside a face (C72_face_point_counterexample) and points on an edge that come between its ends (C72_edge_point_counterexample). Comparisons are exact."
  },
  {
   "property": "C73",
   "status": "proved",
   "theorems": [
    "Brille.Props.C73_axis",
    "Brille.Props.C73_grid",
    "Brille.Props.C73_endless_counterexample"
   ],
   "note": "C73_axis, C73_grid: the knots for every list of vertices and positive edge length (third root of the largest volume), with exact arithmetic. C73_endless_counterexample: a largest volume that is zero or negative is not rejected and the loop never ends."
  },
  {
   "property": "C74",
   "status": "proved",
   "theorems": [
    "Brille.Props.C74_classify",
    "Brille.Props.C74_build"
   ],
   "note": "C74_classify (one node), C74_build (whole grid). Exact arithmetic: the code compares volumes of floating point numbers with ==, which the model does exactly."
  },
  {
   "property": "C75",
   "status": "proved",
   "theorems": [
    "Brille.Props.C75_cover",
    "Brille.Props.C75_apart",
    "Brille.Props.C75_search",
    "Brille.Props.C75_search_exact"
   ],
   "note": "C75_cover, C75_apart, C75_search (any comparison that tells knots apart), C75_search_exact. Contrast with C27_two_steps_counterexample: for grids built in a convex polyhedron two steps along one axis are never taken."
  },
  {
   "property": "C76",
   "status": "proved",
   "theorems": [
    "Brille.Props.C76_construct",
    "Brille.Props.C76_interpolate",
    "Brille.Props.C76_race_counterexample",
    "Brille.Props.C76_in_turn"
   ],
   "note": "Exact comparisons. TetGen is a parameter with the contract Reliable (shown satisfiable); the second attempt with the convex hull after a failed triangulation is modelled as failure, which the contract excludes. C76_race_counterexample: the append of a vertex added by TetGen in part_two is not protected, so two threads can take the same number and lose a vertex."
  },
  {
   "property": "C77",
   "status": "proved",
   "theorems": [
    "Brille.Props.C77_tetrahedron",
    "Brille.Props.C77_construct",
    "Brille.Props.C77_locate",
    "Brille.Props.C77_interpolate",
    "Brille.Props.C77_neighbours",
    "Brille.Props.C77_keys",
    "Brille.Props.C77_statistics",
    "Brille.Props.C77_outside_counterexample"
   ],
   "note": "Exact comparisons; TetGen is a parameter with a contract, shown satisfiable. A point outside is not covered: with several layers the code then reads beyond its list (C77_outside_counterexample)."
  },
  {
   "property": "C78",
   "status": "partial",
   "theorems": [
    "Brille.Props.C78_le_ge",
    "Brille.Props.C78_all_compare",
    "Brille.Props.C78_le_ge_counterexample",
    "Brille.Props.C78_is_array",
    "Brille.Props.C78_is_array_refused",
    "Brille.Props.C78_is_array_counterexample",
    "Brille.Props.C78_search",
    "Brille.Props.C78_search_columns",
    "Brille.Props.C78_is",
    "Brille.Props.C78_elementwise",
    "Brille.Props.C78_copies",
    "Brille.Props.C78_in_place",
    "Brille.Props.C78_reduce",
    "Brille.Props.C78_total",
    "Brille.Props.C78_sum",
    "Brille.Props.C78_min",
    "Brille.Props.C78_rows",
    "Brille.Props.C78_rows_refused",
    "Brille.Props.C78_dot",
    "Brille.Props.C78_search_counterexample",
    "Brille.Props.C78_overflow_counterexample",
    "Brille.Props.C78_row_ordered_counterexample"
   ],
   "note": "Proved for all packed layouts (searches, comparisons with a value or an array) and all layouts without shared elements (element-by-element functions, copies, reductions, rows). Refuted for arrays with gaps: searches look at the gaps and negation or rounding writes outside of the memory (C78_search_counterexample, C78_overflow_counterexample); contiguous_row_ordered_copy keeps column order (C78_row_ordered_counterexample); all(le_ge, value) ignores the tolerances it is given (C78_le_ge_counterexample; what it does is C78_le_ge); comparing a column-ordered array with a single row writes outside of the memory (C78_is_array_counterexample). match is in C89, operators with two arrays are C90."
  },
  {
   "property": "C79",
   "status": "partial",
   "theorems": [
    "Brille.Props.C79_set",
    "Brille.Props.C79_set_vector",
    "Brille.Props.C79_set_counterexample",
    "Brille.Props.C79_extract",
    "Brille.Props.C79_extract_mask",
    "Brille.Props.C79_extract_table",
    "Brille.Props.C79_unique_copy",
    "Brille.Props.C79_unique_counterexample",
    "Brille.Props.C79_mask_counterexample",
    "Brille.Props.C79_reshape",
    "Brille.Props.C79_reshape_counterexample",
    "Brille.Props.C79_swap",
    "Brille.Props.C79_permute",
    "Brille.Props.C79_permute_counterexample",
    "Brille.Props.C79_is_permutation",
    "Brille.Props.C79_permutation_vector",
    "Brille.Props.C79_permutation_vector_counterexample"
   ],
   "note": "Proved: set, extract, the copying of unique for row-ordered arrays, reshape, swap, permute for permutations, is_permutation, permutation_vector for different rows. Refuted: set does not check the row number, unique overflows for column-ordered arrays, a row of flags is misread, reshape does not check the number of elements, permute with a repeated number never ends, permutation_vector with equal rows is not a permutation."
  },
  {
   "property": "C80",
   "status": "partial",
   "theorems": [
    "Brille.Props.C80_import",
    "Brille.Props.C80_export",
    "Brille.Props.C80_round_trip",
    "Brille.Props.C80_reversed_counterexample",
    "Brille.Props.C80_field_counterexample",
    "Brille.Props.C80_view_counterexample",
    "Brille.Props.C80_large_counterexample",
    "Brille.Props.C80_readonly_counterexample",
    "Brille.Props.C80_to_array",
    "Brille.Props.C80_to_array_counterexample",
    "Brille.Props.C80_shape_counterexample",
    "Brille.Props.C80_to_array2"
   ],
   "note": "Proved for strides that are non-negative multiples of the element size and arrays reaching less than 2^32 elements. Refuted: reversed arrays and fields of structured arrays are misread, views are exported without their shift, byte strides overflow at 4 GB, the buffer protocol inverts the read-only flag, column-ordered Array2 are scrambled when made into Array."
  },
  {
   "property": "C81",
   "status": "proved",
   "theorems": [
    "Brille.Props.C81_total",
    "Brille.Props.C81_error",
    "Brille.Props.C81_between",
    "Brille.Props.C81_exact"
   ],
   "note": "Exact arithmetic instead of floating point, so the tolerances do not occur; TetGen only has to fulfil its contract (a partition into tetrahedra), threads may share the nodes in any way; the irreducible zone is one that the search of C71 accepts. Results exist unless the move into the first zone of one of the points fails (C68 and C03 say when); this totality is proved for scalars. Grids that permute branches are excluded: sorting would change the order of the values."
  },
  {
   "property": "C82",
   "status": "proved",
   "theorems": [
    "Brille.Props.C82_keys",
    "Brille.Props.C82_sorts",
    "Brille.Props.C82_follows",
    "Brille.Props.C82_error"
   ],
   "note": "Exact comparisons, TetGen as in C76 (contract Reliable), scalar values (real or complex) and complex vectors as in C61. That modes at announced pairs fit best to their own continuation is the hypothesis Connected; it is shown for two modes in a bar."
  },
  {
   "property": "C83",
   "status": "partial",
   "theorems": [
    "Brille.Props.C83_parameters",
    "Brille.Props.C83_vectors",
    "Brille.Props.C83_names",
    "Brille.Props.C83_group",
    "Brille.Props.C83_hall_number_counterexample",
    "Brille.Props.C83_not_text",
    "Brille.Props.C83_misspelt_counterexample",
    "Brille.Props.C83_grid_partial",
    "Brille.Props.C83_numbers_partial",
    "Brille.Props.C83_complex_counterexample",
    "Brille.Props.C83_density_counterexample",
    "Brille.Props.C83_lost_density_counterexample",
    "Brille.Props.C83_lattice"
   ],
   "note": "Which constructor of the compiled module is called with what; what these raise is not modelled. Refuted: documented Hall numbers (C83_hall_number_counterexample), unknown names are silently ignored (C83_misspelt_counterexample), complex values with real vectors (C83_complex_counterexample), densities (C83_density_counterexample, C83_lost_density_counterexample)."
  },
  {
   "property": "C84",
   "status": "partial",
   "theorems": [
    "Brille.Props.C84_accepts_partial",
    "Brille.Props.C84_ends",
    "Brille.Props.C84_rhombohedral_partial",
    "Brille.Props.C84_prism_partial",
    "Brille.Props.C84_orthogonal",
    "Brille.Props.C84_moveinto",
    "Brille.Props.C84_rhombohedral_moveinto_partial",
    "Brille.Props.C84_cycle_counterexample",
    "Brille.Props.C84_limit_counterexample"
   ],
   "note": "Refuted in general twice: the search can go round in a circle for ever (C84_cycle_counterexample, a basis a, a+b, c of an orthorhombic lattice) and its limit on turns can be too small (C84_limit_counterexample). Proved: with orthogonal axes every wavevector is accepted (C84_orthogonal); for rhombohedral and all cubic lattices, and for lattices with one axis perpendicular to a reduced plane, every wavevector without a translate on a face plane is accepted; without the limit the search ends for every lattice and every such wavevector (C84_ends); moveinto answers exactly where the search ends inside (C84_moveinto). Missing: acceptance of wavevectors with translates on a face plane in non-orthogonal reduced lattices, and triclinic lattices."
  },
  {
   "property": "C85",
   "status": "partial",
   "theorems": [
    "Brille.Props.C85_mesh_total",
    "Brille.Props.C85_mesh_error",
    "Brille.Props.C85_mesh_between",
    "Brille.Props.C85_mesh_exact",
    "Brille.Props.C85_nest_total_partial",
    "Brille.Props.C85_nest_error_partial",
    "Brille.Props.C85_nest_between_partial",
    "Brille.Props.C85_nest_exact_partial"
   ],
   "note": "Exact arithmetic; TetGen triangulates what it is given. Mesh: complete for scalars (results, range, error) and for scalars, vectors and matrices (exactness) without stored permutations. Nest: the same, but only if values and vectors have the same shape; otherwise the result is written beyond its memory (C63_nest_shape_counterexample), which is what is missing for the nest."
  },
  {
   "property": "C86",
   "status": "proved",
   "theorems": [
    "Brille.Props.C86_multiply",
    "Brille.Props.C86_multiply_counterexample",
    "Brille.Props.C86_elementwise",
    "Brille.Props.C86_elementwise_counterexample",
    "Brille.Props.C86_copy",
    "Brille.Props.C86_determinant",
    "Brille.Props.C86_adjoint",
    "Brille.Props.C86_adjoint_counterexample",
    "Brille.Props.C86_inverse",
    "Brille.Props.C86_transpose",
    "Brille.Props.C86_conjugate_transpose",
    "Brille.Props.C86_transpose_in_place",
    "Brille.Props.C86_transpose_in_place_counterexample",
    "Brille.Props.C86_metric",
    "Brille.Props.C86_similar",
    "Brille.Props.C86_cross"
   ],
   "note": "All sizes and addresses, with what happens on overlap: a product that is to replace its second factor is zero; the adjoint in place is wrong; the in-place transpose is right for size three and for no other size above one. Memory is one map from addresses to elements of one type."
  },
  {
   "property": "C87",
   "status": "partial",
   "theorems": [
    "Brille.Props.C87_collect",
    "Brille.Props.C87_transformation",
    "Brille.Props.C87_transformation_counterexample",
    "Brille.Props.C87_orthogonal",
    "Brille.Props.C87_orthogonal_counterexample"
   ],
   "note": "The claim is false of the code: as soon as two of the rotations differ a null pointer is read, so only the first point group has a transformation; and the search for perpendicular axes finds every axis. C87_transformation says for every list what happens. How axes are chosen in the higher Laue classes is a parameter, and never reached."
  },
  {
   "property": "C88",
   "status": "partial",
   "theorems": [
    "Brille.Props.C88_points",
    "Brille.Props.C88_whole",
    "Brille.Props.C88_total_partial",
    "Brille.Props.C88_error_partial",
    "Brille.Props.C88_between_partial",
    "Brille.Props.C88_exact_partial",
    "Brille.Props.C88_not_moved",
    "Brille.Props.C88_not_moved_ir",
    "Brille.Props.C88_agree",
    "Brille.Props.C88_counterexample"
   ],
   "note": "Proved for all points that land in the irreducible zone, so for all points of lattices without symmetry (C88_whole), and for points not moved. False for other points: the grid covers only the irreducible zone, interpolate_at moves points only into the first zone, and cube nodes accept points outside: C88_counterexample, a constant comes back three times too large and no error is raised."
  },
  {
   "property": "C89",
   "status": "partial",
   "theorems": [
    "Brille.Props.C89_operation",
    "Brille.Props.C89_chosen_partial",
    "Brille.Props.C89_retained",
    "Brille.Props.C89_room",
    "Brille.Props.C89_use",
    "Brille.Props.C89_use_mirror",
    "Brille.Props.C89_groups",
    "Brille.Props.C89_pair",
    "Brille.Props.C89_cuts_partial",
    "Brille.Props.C89_groups_counterexample",
    "Brille.Props.C89_mirror_counterexample",
    "Brille.Props.C89_direction_counterexample",
    "Brille.Props.C89_special",
    "Brille.Props.C89_zone"
   ],
   "note": "Proved: the special points are the face means, corners and edge middles (C89_special); those left are those above all planes (C89_retained); normals fit the memory (C89_room); groups are disjoint and, where the operation is the identity after its order, complete orbits (C89_groups; false for the three-fold rotoinversion: C89_groups_counterexample); the planes of one operation contain its axis and leave an image of every vector, also for the three-fold rotoinversion (C89_cuts_partial, C89_pair); for integer matrices of finite order that are isometries and whose axis the library finds, the order, kind and axis given to the search are right (C89_operation), so that the same holds for the planes chosen for such a group (C89_chosen_partial); when planes are used (C89_use, C89_use_mirror); the zone found with the chosen planes is irreducible (C89_zone, from C71). Counterexamples: a mirror not dealt with as a mirror (C89_mirror_counterexample), a two-fold axis along a direction that is special in the reciprocal and not in the real lattice (C89_direction_counterexample). Missing: that the planes of all operations together leave an image of every vector (the program checks the volume)."
  },
  {
   "property": "C90",
   "status": "partial",
   "theorems": [
    "Brille.Props.C90_in_place",
    "Brille.Props.C90_refused",
    "Brille.Props.C90_operator",
    "Brille.Props.C90_in_place_counterexample",
    "Brille.Props.C90_dot",
    "Brille.Props.C90_cross",
    "Brille.Props.C90_dot_counterexample"
   ],
   "note": "Operators: proved for positive extents and every layout whose elements have separate places. False if the right array lies in the memory of the left one (C90_in_place_counterexample: subtracting the first row from all rows leaves the second row unchanged). dot and cross: proved for arrays stored row after row; for column order other numbers come back without an error, and for numbers of rows that do not fit memory outside of the arrays is read (C90_dot_counterexample; the code only asserts). Empty arrays: see C04_zero_extent_counterexample."
  }
 ]
}