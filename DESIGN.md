# Formal model of brille in Lean 4 — design

## 1. Layout

* `lean/Verif/Model/*.lean`  — the model, function by function; every definition cites the `/repo` file and lines it
  models and says what it simplifies.
* `lean/Verif/Spec/*.lean`   — small specifications written without reference to the model.
* `lean/Verif/Proofs/*.lean` — helper lemmas (no claims).
* `lean/Verif/Props/*.lean`  — the property theorems, named `Cnn_...`, with concrete, non-trivial `example`s meeting their
  hypotheses.
* `properties.jsonl` has the properties in English, `MANIFEST.json` maps them to theorems, `AXIOMS.md` lists the axioms each of
  these theorems depends on, `seeded/LOG.jsonl` records the tests of the theorems against wrong programs.

## 2. Modelling conventions

* **Floating point** numbers are exact elements of a linearly ordered field, `ℚ` where computation is needed, `ℝ` or `ℂ` where
  roots, angles or phases occur.  Rounding is *not* modelled; properties about rounding are out of scope.  Where the code
  compares approximately the tolerance is an explicit parameter, or an arbitrary Boolean relation; where a theorem takes the
  comparison to be exact, its statement or the comment of the model says so.
* **Machine integers** are `ℕ`/`ℤ` except where overflow matters (`BitVec 32`, arithmetic modulo 2^32 or 2^64).  Unsigned
  subtraction that may wrap is modelled explicitly.
* **Undefined behaviour and exceptions** are explicit: a model function which can throw or index out of bounds returns
  `Option`/`Except`, and theorems state when the result is `some`/`ok`.
* **Loops** are structural recursion, or recursion on explicit fuel, in which case a separate theorem proves that the fuel
  suffices (so that the C++ loop terminates).
* **Threads** are an arbitrary interleaving of atomic steps (one step = one critical section or one write to a location owned
  by the iteration); theorems quantify over all schedules.
* **Memory** of arrays is an explicit heap with handles, buffers and reference counts; theorems quantify over all programs.
* **Files** (HDF5) are finite trees of named groups, attributes and datasets.
* **False claims**: if the code does not have a property a user would expect, the negation is proved with a concrete witness
  (`..._counterexample`) and the strongest true part is proved with suffix `_partial`.

## 3. Trusted base

* Lean 4.33.0's kernel and the Mathlib definitions used in statements.
* Axioms: only `propext`, `Classical.choice`, `Quot.sound`.  `AXIOMS.md` lists them theorem by theorem; it is printed by Lean
  (`collectAxioms`).  There is no `sorry`, `admit`, `native_decide`, `bv_decide`, `implemented_by`, `unsafe` or axiom of our own.
  Complete finite tables and witnesses are evaluated by the kernel (`decide`, `decide +kernel`).
* The faithfulness of the model to the C++ text: by reading only; the C++ was never built or run.
* Third-party parts are parameters or hypotheses: tetgen (triangulation), HDF5, the OpenMP runtime, `std::sort` by its
  contract, the standard containers as lists and finite maps.

## 4. Properties: what is modelled and how it is proved

The theorems of each property are listed in `MANIFEST.json`; `properties.jsonl` has the full statements. `partial` means that a part of the
property is false of the code (there is then a theorem with `counterexample` in its name), or not proved; the last column says which.

| id | property | modelled | proof | status and limits |
|----|----------|----------|-------|-------------------|
| C01 | Array subscript iteration visits every element exactly once, in row-major order | `SubIt` as a state machine (`operator++`, begin, end) over lists of extents | induction on the list of dimensions: the iterates are the row-major list of subscripts | proved: All ranks >= 1 and all shapes whose extents after the first are positive; the zero-extent failure is proved as a counterexample. |
| C02 | Fixed-axis subscript iteration visits exactly the slice | the same machine with fixed axes | induction over the axes, free ones advance as in C01 | proved: All shapes of positive extent, every set of fixed axes; throwing when all axes are fixed. |
| C03 | Linear and multi-dimensional indices convert back and forth | `lin2sub`, `sub2lin`, `calculate_stride` | mixed radix induction; witnesses for column order | partial: Full for row-ordered strides of every rank; column order is proved only for two-dimensional arrays with at least two rows, and the code is proved wrong otherwise (counterexamples). |
| C04 | Broadcasting pairs elements by the numpy rule and rejects anything else | `BroadcastIt` constructor, increment, end | induction as in C01; zero-against-one witness | proved: Positive extents; zero-extent counterexample. |
| C05 | Decoupling an array copies exactly the viewed elements into fresh memory | `Array`, `Array2` on an explicit heap: handles, reference counts, shifts, strides | invariant over all programs; out-of-bounds witness for a strided view | partial: Array2: decouple and extract(i) proved in full for every state reachable by any program, including independence of the copy. Array: proved when the array uses all its memory or its strides fit the copy; otherwise proved to write out of bounds (C05_array_overflow, counterexample). Decoupling a sole mutable owner shares memory (counterexample). extract with index lists is part of C79. |
| C06 | Resizing and appending keep the existing elements | `resize`, `append` on the same heap | element-wise by row-major linearisation, in all reachable states | partial: resize/append proved for Array and Array2 in every reachable state for unshifted arrays whose extents after the first are non-zero; mixed grow/shrink, shifted arrays and mismatched append proved to throw without effect; zero extents proved to go out of bounds (counterexample). |
| C07 | The permutation table behaves as a finite map with identity default | all operations of `PermutationTable` | invariant over histories; refinement to a finite map | proved: Refinement over all histories for pairs of distinct indices; limits proved as counterexamples (storing on the diagonal, set on a pending key). |
| C08 | The sorting status packs independent flags and a visit counter | `SortingStatus` over `BitVec 32` | bitwise extensionality; exact behaviour of `visits(v)` | partial: All flag operations and increments are proved for every word and history; the claim that the visit count reads back what was set is false of the code (visits(v) toggles), its exact behaviour and a counterexample are proved. |
| C09 | Crystal motions compose, invert and act like affine isometries | `Motion` over integer matrices and rational translations modulo 1, and its text form | ring identities; text round trip | proved: Integer rotation part, exact rational translation. Composition up to lattice vectors on points, exact on vectors, axial vectors and as motions. |
| C10 | Generating a symmetry group from generators yields a set with identity, generators and no duplicates, inside the generated group | the `generate` loops over an abstract group with decidable equality | list induction; closure for commuting generators; kernel evaluation of all 530 tabulated symbols; witness in S3 | partial: Closed, complete and distinct for commuting generators, for finite matrix groups step by step and for all 530 tabulated symbols; false in general (C10_generate_counterexample). |
| C11 | Reducing a symmetry group to generators loses nothing | the `generators` loop | list induction; witness in the tetrahedral group | partial: generators(): returns operations of the list; loses nothing when all sets generated from the list are closed, e.g. commuting operations. False in general (C11_generators_counterexample: the tetrahedral group in one order regenerates 9 of 12). |
| C12 | Point-group element lookup, inverse index and reordering are consistent | list operations of `PointSymmetry` | list induction; the comparison of `sort` is a strict weak order | proved: find_index, get_inverse_index/get_inverse, permute, and sort (std::sort by its contract, with the comparison proved a strict weak order). |
| C13 | 3x3 determinant, adjoint and inverse are exact inverses | `matrix_determinant`, `matrix_adjoint`, `matrix_inverse` for n×n | induction over the size against Mathlib's `Matrix.det` and `Matrix.adjugate` | proved: All sizes and all commutative rings (fields, integers). Integer matrices with other determinants are a proved counterexample. |
| C14 | The reported rotation order is the true order of the symmetry operation | `isometry_type`, `rotation_order` | finite order and integrality bound the trace; Cayley–Hamilton | proved: For every integer matrix of finite order; proved by the crystallographic restriction. The classification does not check its input: C14_unchecked_counterexample. |
| C15 | Approximate comparison is reflexive and symmetric, and exact for integers | `approx_float::scalar`, `vector`, `matrix` | ordered-field arithmetic; witnesses between precisions | partial: Symmetry is false between float and double arguments, and integer arrays with a tolerance are not exact: both proved as counterexamples; everything else proved. |
| C16 | Comparison operators obey trichotomy and complement laws | `Comparer` and the reductions `all`, `any`, `first`, `count` | ordered-field arithmetic, list induction | proved: Comparisons for all types and tolerances; reductions on the list of elements in linear-index order. |
| C17 | The space-group database is internally consistent and its lookups are exact | generated table `ALL_SPACEGROUPS`; the lookups | kernel evaluation over the complete table, lifted to all keys | partial: All 530 rows and lookups by Hall symbol, number, name and free string, for every key. Refuted parts: number 230 is never found, three Hall symbols are duplicated, forty B-centred rows are marked P, and "R 3" with choice R gives the H row. |
| C18 | Primitive-cell transformation matrices are mutually inverse for every centring | tables of `PrimitiveTransform` | matrix identities for every letter | partial: The accessor for 6P is wrong for letter P (proved counterexample); everything proved for the other letters, and det/transposes for all letters. |
| C19 | Transforming vectors to the primitive lattice and back is the identity and preserves q.x | `transform_to_primitive`, `transform_from_primitive` | linear algebra over ℚ | proved: All centrings and rational vectors, with real and reciprocal lattices characterised; integer-vector truncation is a proved counterexample. |
| C20 | The Munkres solver terminates and returns a minimum-cost assignment | the Munkres state machine, all six steps | invariant (potentials, independent starred zeros), termination measure, weak duality | proved: Total correctness and optimality over every linearly ordered additive group; the all-zero matrix is reported as failure (C20_zero_counterexample). |
| C21 | The Jonker-Volgenant solver returns mutually inverse row and column solutions | `lapjv` loops | matching invariant; termination measure; witness against optimality | partial: Termination and mutually inverse permutations for all rational matrices; minimality is false (C21_optimal_counterexample). Portable find_umins only; the AVX2 versions are not modelled. |
| C22 | The stable-matching solver returns mutually inverse assignments | `smp` loops | matching invariant; witness against stability | partial: Termination within the limit, perfect matching, and the no-rivals case proved for all matrices; stability is false already for 2x2 (C22_stable_counterexample). |
| C23 | In-place permutation of objects equals out-of-place permutation | the cycle-following loops | induction over cycles | partial: apply_permutation proved for every permutation; apply_inverse_permutation writes the index instead of the object: exact behaviour characterised (C23_inverse_partial) and the full claim refuted. |
| C24 | Interpolation is linear in the data, exact at vertices and reproduces constants | `interpolate_at_mix`, `DualInterpolator::interpolate_at` | sums over lists; complex phases | partial: Weighted sum, exactness at vertices, linearity, common datum and phase invariance proved for all sizes; independence of the order of the pairs holds for the plain sum but is false through DualInterpolator, where the first pair fixes the mode labels (C24_pivot_counterexample; what remains true is C24_pivot_relabels_partial). |
| C25 | Cuboid node weights are a partition of unity reproducing the point | `CubeNode::indices_weights` | polynomial identities | partial: Proved for every box and every point of it, exact and with tolerance; the promise for points outside the box is refuted (C25_outside_counterexample). |
| C26 | Tetrahedron weights are barycentric coordinates | `PolyNode`, `NestLeaf` weights | barycentric coordinates by determinants | proved: Weights equal the unique barycentric coordinates for every correctly oriented tetrahedron; found/not found, positivity and reproduction of linear functions with and without tolerance. Orientation and empty-node counterexamples recorded. PolyNode and NestLeaf share the model. |
| C27 | The trellis bin search finds the containing bin | `find_bin`, `on_boundary` | induction on sorted lists of knots | partial: find_bin, on_boundary and the existence part of the search proved; containment proved for single steps and refuted for double steps, below the first knot and beyond the last knot. |
| C28 | Trellis node numbering is a bijection and neighbours are symmetric | `sub2idx`, `idx2sub`, `node_neighbours`, centres, intersections | mixed radix arithmetic for all grid sizes | proved: Numbering bijection, order, neighbours, centres, intersections and faces, for all grid sizes. |
| C29 | Vertex bookkeeping returns an index that decodes to the vertex that was added | `VertexMapSet`, `VertexIndexMap` | history invariant, decode preservation | proved: Proved for a comparison that is an equivalence relation and a grid of at least two different vertices; counterexamples show both are needed, and that is_consolidated is wrong after consolidate. |
| C30 | Combining per-thread vertex maps preserves every node's vertices | `combine`, `reduce`, `parallel_reduce`, `consolidate_pair` | invariant over any number of threads | proved: Proved for any number of threads and any distribution of nodes; comparison assumed to be an equivalence relation. |
| C31 | Parallel sorting of modes is independent of the thread schedule and symmetric | `DualInterpolator::sort` as interleaved atomic steps with an explicit mutex | commuting updates of distinct keys, for all schedules | proved: Schedule independence, completion, and mutually inverse stored permutations with the modelled jv_permutation_fill. |
| C32 | Parallel interpolation equals serial interpolation for every schedule | the threaded `interpolate_at` loops and `ThreadException` | simulation: every complete schedule ends in the serial state | partial: Proved for PolyTrellis for every number of threads and interleaving, including exact failure reports and no deadlock. For Nest the serial version has undefined behaviour on a point that is not found (C32_nest_counterexample), so equality is proved only for points that are found. |
| C33 | Moving a point into the first Brillouin zone only subtracts a reciprocal lattice vector | `moveinto` with the geometry of the zone as arbitrary functions | loop invariant; termination of the search | proved: Coordinates are exact rationals; the geometry of the zone enters as arbitrary functions, so the decomposition holds whatever the tolerances. C33_search needs the faces' data to belong to one metric. |
| C34 | Moving a point into the irreducible zone uses a point-group operation that reconstructs it | `ir_moveinto`, `ir_moveinto_wedge` over arbitrary inside tests | loop invariant | proved: The wedge test and the first zone's test are arbitrary predicates; completeness is under the hypothesis that the rotated wedges cover the zone, which C71_ir_moveinto proves for the zones that the construction finds. |
| C35 | Polyhedron face equality is equality up to cyclic rotation and reordering | `Faces::operator==` | lists up to rotation and reordering | proved: All of Faces::operator==/!=; a list with an empty face is not equal to itself (theorem) |
| C36 | Polyhedron volume is independent of face bookkeeping | `Faces::volume`, `mirror`, `permute`, `combine`, boxes | polynomial identities over fans of triangles | proved: Faces::volume, mirror, permute, combine and bounding_box in exact arithmetic; volumes of equal face lists agree for plane faces only (counterexample otherwise) |
| C37 | Reindexing faces after removing vertices keeps every face's corner points | re-indexing after removing points | list induction: the corners decode to the same points | partial: False in two cases, both shown by counterexample theorems: duplicate points under a tolerance, and the hull of points with a duplicate. remove_points with sort=true is not modelled |
| C38 | Cutting a polyhedron by a plane never leaves it | `one_cut` with its helpers | every new vertex is on an edge and not beyond the plane | proved: Exact arithmetic, orthonormal frame. The claim is about results that have faces: when everything is removed the code returns the input vertices with no faces. |
| C39 | Lists, maps and settings survive a save/load cycle | HDF5 groups as a finite tree of named entries; all `to_hdf`/`from_hdf` pairs | round trips, frame conditions | partial: Proved for every file content, entry name and object: saving succeeds, also over an existing entry; everything else in the group or file is untouched; loading gives back exactly what was saved for lists, maps, arrays (empty ones too), comparison settings, motions, space-group operations, bases, permutation tables, polyhedra, cube/polyhedron nodes, node containers, tetrahedra layers and triangulations, and for lattices, lattice vectors, Brillouin zones, interpolators, trellises and meshes that are settled (sorted point operations, snapped atoms, default vector cost function). Also what comes back in general, and that loaded lattices are settled. Proved false of the code in general: a non-default vector cost function is lost on loading; a mesh in a Brillouin zone loses its comparison settings; unsorted point operations come back sorted; a lattice made without snapping may not load at all. Trusted: HDF5/HighFive return the values they were given. |
| C40 | Relative neighbour offsets list every non-zero offset exactly once | `make_relative_neighbour_indices` and variants | membership, distinctness, length | proved: Extent is any non-negative integer (four dimensions: any integer). |
| C41 | Index-list utilities compute what their names say | utilities on `std::vector` | list induction | proved: unique on the empty vector reads its first element (none in the model). invert_lists is proved without its assertion. |
| C42 | Integer helpers: gcd, binomial coefficients, parity of permutations | `gcd`, `binomial_coefficient`, `is_positive_permutation` | arithmetic modulo 2^64; witness of overflow | partial: gcd proved. binomial_coefficient is wrong from 30 choose 15 on since a wrapped product need not be smaller (C42_binomial_counterexample); proved where the product fits 64 bits and for all n up to 29; the floating point branch is not modelled. is_positive_permutation is cyclic rotation, which is evenness for triples only. |
| C43 | Nested tetrahedral search returns weights of a leaf that contains the point | trees of `NestNode` | structural induction | proved: For every tree and point; exact and with tolerance; keys cover every pair of a result. |
| C44 | Hall symbols are decoded to the tabulated symmetry elements | the Hall symbol parser and printer, generators of a symbol | text round trip; evaluation of all 530 rows; witnesses | partial: Rotations, axes, translations, centring, text round trip and all 530 rows proved. False in general: symbols with an unknown axis are accepted and give a zero matrix (C44_accepted_zero_counterexample), '' is read as ' (C44_two_primes_counterexample), and the written text drops a change of basis. |
| C45 | Point-group tables identify each point group uniquely | `pointgroup_data`, lookup, Laue classes, axes | kernel evaluation over the complete tables, lifted to all operations of finite order | proved: Lookup, tables, Laue classes, constructor, unique rotations and axes proved. Recorded deviations: the lookup only counts, and axes outside the list of 73 give zeros. |
| C46 | Selecting unique rows keeps one representative of every row | `is_unique`, `unique_idx`, `unique` | list induction; witness for a non-transitive comparison | partial: With approximate (non-transitive) equality unique() can drop a row without keeping an equal one: proved counterexample; proved for equivalence relations. unique_idx is proved for every reflexive comparison. |
| C47 | The nested tetrahedral mesh is built correctly and covers the polyhedron | `Nest::construct`, `subdivide` | tree invariant; the triangulation is a hypothesis with a model | proved: With the triangulation (tetgen) and exact vertex identification as hypotheses, shown satisfiable by an explicit bisecting triangulation. |
| C48 | Adding the space inversion to a point group gives the group with its inverted operations | `add_space_inversion` | list induction; witness | partial: Exact description of the result; equals the group with its inverted operations when the generators regenerate the list; false in general (counterexample). |
| C49 | Conversions between signed and unsigned integers keep the value or refuse | `u2s`, `s2u` | arithmetic for all widths | partial: u2s is proved for all widths. s2u only refuses negative numbers: a number too large for the unsigned type is silently reduced (C49_s2u_counterexample). |
| C50 | Centroid of a polyhedron | `Faces::centroid` | polynomial identities: translation, scaling, combination | proved: Faces::centroid in exact arithmetic |
| C51 | Edges of a polyhedron | `edges`, `indexes` | counting; Euler's formula as a hypothesis where the code assumes it | proved:  |
| C52 | Dangling faces are removed | `remove_dangling_faces` | greatest fixed point, termination | proved:  |
| C53 | Cutting a polyhedron by a plane clips every face and closes the hole | `one_cut`: clipping of each face, closing of the hole | clipped polygons as a specification; invariant of the loop over cut edges | proved: Hypotheses: distinct vertices, faces without repeated corners, each directed edge once with its reverse, edges meeting only at vertices, sorting of the new face is a permutation; the result has no corner in the middle of an edge and three faces at each corner (what one_cut would otherwise remove). |
| C54 | Array handles never use or free dead memory, whatever the history | constructors, destructors, assignments of arrays on the heap | invariant: counts equal the number of handles | partial: Memory safety is proved for every program without restriction. Absence of leaks is proved for programs without the leaking calls; the leaks are proved as counterexamples (converting assignment, resize of a shifted array, wrong number of strides). |
| C55 | Views of arrays show exactly the selected elements and share their memory | the views of `Array` and `Array2` | element-wise, in all reachable states | proved: All four views of both classes, in every state reachable by a program whose caller-chosen strides are good. |
| C56 | Symmetry operations permute the atoms of the unit cell | `Basis` | exact positions modulo 1; permutations of atoms | proved: Exact rational positions; the approximate comparison is a parameter of the lookup (C56_equivalent_to_near, C56_snap) and exact in the theorems about permutations. |
| C57 | The table of atom permutations and lattice vectors is right | `GammaTable` | table invariant, composition of operations | proved: Exact comparison in C57_lattice_vectors and C57_permutation, arbitrary reflexive comparison in C57_table and C57_succeeds. |
| C58 | Interpolated results are turned in place consistently with the operation | `rip_real`, `rip_recip`, `rip_axial` | linear algebra; witness for real-space vectors | partial: Proved for reciprocal-space and axial vectors and matrices. For real-space vectors the covariance holds only for operations that are their own inverse (C58_real_covariant_partial): rip_real turns by R where Q = R^T q + tau needs the inverse of R; C58_real_counterexample shows the wrong result. |
| C59 | Phonon eigenvectors are rotated, permuted and given their phases correctly | `rip_gamma_complex`, `e_iqd` | complex phases; action on modes; witnesses for matrices | partial: Proved for vectors in Cartesian units: what happens to a row (C59_vectors), that modes go to modes (C59_modes), that scalar products stay, and when writes stay in the scratch space (C59_inside). The claim for matrices of pairs of atoms is false: for N atoms nothing is turned unless N is a multiple of three (C59_matrices_counterexample), and then all but N*N/9 matrices are lost (C59_matrices_lost_counterexample). |
| C60 | Interpolating at any point gives the field or the phonons at that point | `ir_interpolate_at` | composition of C33, C34, C58, C59 | partial: Proved for scalars, reciprocal vectors and matrices, pseudovectors (C60_fields) and phonons (C60_phonons). Vectors with components along the real lattice are excluded: see C58_real_counterexample; matrices of phonons: see C59_matrices_counterexample. The interpolation inside of the irreducible zone enters as a hypothesis here; what it does between vertices is C24 to C26. |
| C61 | Sorting finds which modes of two points belong together | `add_cost`, `cost_matrix`, `determine_permutation_ij` | invariance under phases; unique cheapest rows; composition with C21 and C31 | partial: Proved for scalar values (real or complex) with complex vectors: the cost matrix, its symmetry and independence of phases, the pairing when every column has one cheapest row, the exact recovery of relabelled modes by the parallel sort, and interpolation after it. For real-valued vectors the cost reads uninitialised memory (C61_real_counterexample). The cost for data that mix scalars, vectors and matrices is proved too (C61_all_elements). Missing: the pairing for such data, and what is stored when several modes compete for one partner beyond what the assignment property says. |
| C62 | Filling a grid stores exactly the described data, or nothing | `fill_check`, `fill`, `replace_data` | decision logic modulo 2^32; histories of fills | partial: Proved for fills and histories of fills, replacements and stored permutations, sizes below 2^32. The documentation promises more, refuted by counterexamples: a wrong number of points is accepted and then no permutation can be stored (C62_count), element numbers that are not multiples of 3 or negative are accepted (C62_multiple, C62_negative), zero columns divide by zero (C62_zero_columns), strides of the element array are ignored with costs (C62_strided), unknown units throw instead of being replaced (C62_unit), a throwing replacement leaves inconsistent data (C62_replace). |
| C63 | Interpolating a filled grid is memory safe and gives the weighted modes | `interpolate_at` of trellis, nest and mesh with the memory of arrays | bounds of every read and write; composition with C24 | partial: Proved for trellis and mesh (C63_results, C63_safe); for a nest only if the two arrays have the same shape and all points are found, otherwise false (counterexamples). Data for a wrong number of points (C62) can lead to reads outside of the data (C63_count_counterexample). |
| C64 | A lattice has the parameters, vectors and duality it was asked for | `LatticeDual` constructors, exact trigonometry of `math.hpp` | real analysis; matrix identities | partial: Proved without rounding (real numbers) for the constructors without snapping. Not true of the code: singular vectors silently give zero dual vectors (C64_planar_counterexample) and negative lengths are accepted and give a left-handed lattice (C64_negative_counterexample). |
| C65 | Products of lattice vectors are products of the positions | `LVec` methods and products | metric tensors; matrix identities | partial: Proved for the member functions and operators. The free function star is a factor 2 pi too large (C65_star_function_counterexample). |
| C66 | Adjusting a lattice to its symmetry keeps symmetric lattices and never fails for tabulated groups | `snap_to_symmetry`, `getcentring`, `mat_vec_links` | case analysis over systems; witnesses | partial: Real numbers, no rounding. Not true of the code: the adjusted lattice need not have the symmetry (C66_symmetry_counterexample), operations outside of the table may change a lattice that has the symmetry (C66_changed_counterexample), and adjusted vectors may be turned around (C66_orientation_counterexample). |
| C67 | Cutting a convex polyhedron keeps exactly the part behind all planes | `one_cut`, `cut`, `sort_convex_polygon_face`, `contains`, boxes | convex polyhedra as closed surfaces of polygons; the hull equals the intersection of half-spaces; corners sorted by angle form a convex polygon | proved: C67_one_cut_any, C67_cut_any: any planes, never throws; C67_left_iff: something is left exactly if a point is strictly behind all planes (with non-zero normals); C67_contains, C67_box. The modelled sort of new faces is used. Coordinates are exact rationals; the solid is the convex hull over the reals. |
| C68 | The polyhedron of a Brillouin zone | `voro_search`, `construct`, `plane_points_from_normal`; the constructor with primitive vectors of a centred lattice | composition of C67 and C40; compactness of the zone; the zone as a fundamental domain of the lattice for its volume; termination because the volumes agree from some extent on; kernel evaluation of the witness | partial: The search is proved for every extent and order of neighbours; from some extent on the result is the zone of the infinite lattice, whose volume is the absolute value of the determinant of the basis; the constructor returns after finitely many turns and, where it contains the zone, its result is the zone exactly if its volume is that determinant. Centred lattices: the zone is bounded by the planes halfway to the reflections the centring allows, has the volume of the cell times the number of lattice points in the conventional cell, and does not depend on the lattice that the search works with. The stopping rule of the constructor (two equal volumes) is refuted by a counterexample. Comparisons are exact. |
| C69 | The computed volume of a convex polyhedron is its volume | `Faces::volume`, cuts | division into tetrahedra around a point strictly within, their measures, pairwise null intersections; the unit from the unit cube | proved: exact arithmetic |
| C70 | A trial irreducible Brillouin zone that passes the check fills the first zone without overlap | `check_ir_polyhedron`, `Poly::apply`, `intersects`, `wedge_triclinic` | positive overlap of interiors is found (C67, C69), images overlap in null sets, equal measure and closedness give covering | partial: Soundness of the check is proved for exact comparisons and convex polyhedra within the zone: intersections are always found (also after improper operations, which reorder the faces), images overlap in null sets, and the images cover the zone, hence every point accepted by the containment test of the zone is accepted by that of the polyhedron after some operation. C70_triclinic: for the inversion alone the dedicated division always succeeds. Missing: the approximate comparison. The gap of the check for the group of the inversion alone is shown by a counterexample. |
| C71 | A successful construction finds an irreducible Brillouin zone and normals that describe it | `construct` after the first zone is found, `check_if_mirroring_needed`, `get_ir_polyhedron_wedge_normals`, `wedge_brute_force` (choice of normals as parameter), `wedge_triclinic` | invariant of the search (a convex part of the zone with the origin, or nothing); a tile that has the origin is a cone within the zone; faces of a cone are in the surface of the zone or pass through the origin; then C70 and C34 | partial: C71_search (any group with more than the inversion, any planes tried), C71_search_inversion, C71_triclinic (always succeeds), C71_ir_moveinto. Comparisons and coordinates are exact, and the first zone is assumed to be invariant under the operations and the inversion, which C68 and C70_first_zone give for the zone of a lattice. If the group has no inversion, C71_search further assumes that the convex hulls which the search takes and accepts are right; C72_search_hulls gives this for the constructor of C72 where the points are as C72 asks for. With an inversion no hull is taken and C71_search_inversion needs no such assumption. Missing: tolerances, and that the search succeeds for lattices that are not triclinic. |
| C72 | The convex hull of points is a convex polyhedron with exactly the points of the hull | `Poly(vertices)`, `Faces(vertices)`, `find_convex_hull_planes`, `find_planes_containing_point`, `polygon_faces`, `face_has_area`, `sort_convex_polygon_face` | a plane through an edge can be tilted until it meets a further point, so that the planes found are all supporting planes with three points not on a line; the points in one plane are sorted (C40); an edge is shared with the plane tilted about it; for points on edges the order around a face is weak and an invariant of the removal loop shows that exactly the corners remain; kernel evaluation of the witnesses | partial: Proved for different points, not all in a plane, each of which is a corner of the hull or inside it (C72_hull_partial), and with points on edges if the first three points of no face are in line (C72_hull_edges_partial). The full statement is false of the code: points inside a face (C72_face_point_counterexample) and points on an edge that come between its ends (C72_edge_point_counterexample). Comparisons are exact. |
| C73 | The knots of the hybrid grid | `knotStep`, `knotLoop`, `axisKnots`: the knots made at the start of `PolyTrellis::construct`; the cube root is a parameter | induction over the turns of the loop; the negative result for volumes that are not positive by the same induction | proved: C73_axis, C73_grid: the knots for every list of vertices and positive edge length (third root of the largest volume), with exact arithmetic. C73_endless_counterexample: a largest volume that is zero or negative is not rejected and the loop never ends. |
| C74 | The types of the nodes of the hybrid grid | `assumedNull`, `examine`, `classify`, `build`: the types of the nodes in `construct` and `part_one`, with the polyhedron of a node from `trellis_node_faces`, `Poly::intersection`, `volume`, `contains` | the cut of a convex polyhedron with any planes (C67), volumes of convex polyhedra compare like their points (C69), a convex polyhedron has four faces; spheres by Cauchy-Schwarz | proved: C74_classify (one node), C74_build (whole grid). Exact arithmetic: the code compares volumes of floating point numbers with ==, which the model does exactly. |
| C75 | Every point of the polyhedron finds a node | `node_subscript` on the grid of `build` | points of the polyhedron near a given one that avoid all knots are dense; a segment to a node two steps away passes through the node between, which is tried first | proved: C75_cover, C75_apart, C75_search (any comparison that tells knots apart), C75_search_exact. Contrast with C27_two_steps_counterexample: for grids built in a convex polyhedron two steps along one axis are never taken. |
| C76 | A constructed hybrid grid interpolates everywhere | `construct` with both parts, `NodeContainer`, `LQPolyTet` around a TetGen parameter and `indices_weights` | requests of a node deliver the corners of its box or part (C19/C28 bookkeeping extended by the boundary), the lookup of triangulation points keeps numbers valid while vertices are appended, then C25/C26 at the node found by C75; a reliable TetGen exists by Caratheodory | proved: Exact comparisons. TetGen is a parameter with the contract Reliable (shown satisfiable); the second attempt with the convex hull after a failed triangulation is modelled as failure, which the contract excludes. C76_race_counterexample: the append of a vertex added by TetGen in part_two is not protected, so two threads can take the same number and lose a vertex. |
| C77 | The layered tetrahedral mesh locates and interpolates everywhere | `TetTriLayer`, `TetTri::connect`, `find_connections`, `locate`, `neighbours`, `collect_keys`, `volume_statistics` and `triangulate` around a TetGen parameter; interpolation of one number per vertex | each layer is a cover by positively ordered tetrahedra; of the finitely many closed tetrahedra of the next layer near a point one contains it and overlaps with the tetrahedron found (Baire-free: boundaries have measure zero, rational points are dense), overlap is detected by C67/C70, spheres by the triangle inequality; induction over layers | proved: Exact comparisons; TetGen is a parameter with a contract, shown satisfiable. A point outside is not covered: with several layers the code then reads beyond its list (C77_outside_counterexample). |
| C78 | Functions that look at the elements of an array do not depend on its layout | the element functions of `Array2` on extents, strides, shift and memory, comparisons with tolerances (ArrayCmp) | loops over subscripts visit the lexicographic grid (C01); linear loops read the table in row or column order for packed layouts; assignments to separate places accumulate | partial: Proved for all packed layouts (searches, comparisons with a value or an array) and all layouts without shared elements (element-by-element functions, copies, reductions, rows). Refuted for arrays with gaps: searches look at the gaps and negation or rounding writes outside of the memory (C78_search_counterexample, C78_overflow_counterexample); contiguous_row_ordered_copy keeps column order (C78_row_ordered_counterexample); all(le_ge, value) ignores the tolerances it is given (C78_le_ge_counterexample; what it does is C78_le_ge); comparing a column-ordered array with a single row writes outside of the memory (C78_is_array_counterexample). match is in C89, operators with two arrays are C90. |
| C79 | Rows of an array can be chosen, replaced, exchanged and permuted | `set`, `extract`, the copy of `unique`, `reshape`, `swap`, `permute`, `is_permutation`, `permutation_vector` | one assignment changes one entry and nothing else; `permute` keeps the invariant table = wanted table after the remaining permutation, and the number of misplaced rows falls; equal multiplicities of the rows of one array and equal lengths give a permutation | partial: Proved: set, extract, the copying of unique for row-ordered arrays, reshape, swap, permute for permutations, is_permutation, permutation_vector for different rows. Refuted: set does not check the row number, unique overflows for column-ordered arrays, a row of flags is misread, reshape does not check the number of elements, permute with a repeated number never ends, permutation_vector with equal rows is not a permutation. |
| C80 | Arrays from and to Python and between array kinds have the same elements | `py2a`, `py2a2`, `a2py`, the buffer protocol as maps of addresses with 32-bit arithmetic; conversions `Array`/`Array2` | sums of subscripts times strides stay below 2^32; row indices are injective | partial: Proved for strides that are non-negative multiples of the element size and arrays reaching less than 2^32 elements. Refuted: reversed arrays and fields of structured arrays are misread, views are exported without their shift, byte strides overflow at 4 GB, the buffer protocol inverts the read-only flag, column-ordered Array2 are scrambled when made into Array. |
| C81 | Interpolation anywhere in reciprocal space is as good as the sampling | `ir_interpolate_at` as the composition of the models of the irreducible zone, the constructed grid, its data, `ir_moveinto`, `indices_weights`, `interpolate` and the rotations | the weights of the nodes are convex and refer to vertices of one node, whose extent is at most an edge; combination with the symmetry of the function and with C71, C76, C55 and C61 | proved: Exact arithmetic instead of floating point, so the tolerances do not occur; TetGen only has to fulfil its contract (a partition into tetrahedra), threads may share the nodes in any way; the irreducible zone is one that the search of C71 accepts. Results exist unless the move into the first zone of one of the points fails (C68 and C03 say when); this totality is proved for scalars. Grids that permute branches are excluded: sorting would change the order of the values. |
| C82 | Sorted interpolation in the hybrid grid follows the modes | `collect_keys`, `collect_keys_node` of the hybrid grid; with the models of C31, C61, C62 and C76 | invariant of the nodes; composition: keys, assignment, table, interpolation | proved: Exact comparisons, TetGen as in C76 (contract Reliable), scalar values (real or complex) and complex vectors as in C61. That modes at announced pairs fit best to their own continuation is the hypothesis Connected; it is shown for two modes in a bar. |
| C83 | What is asked for in Python is what is made | `create_bz`, `create_grid` and `Lattice` of the Python package, up to the calls of the compiled module | case analysis over all given and missing arguments, for all their values | partial: Which constructor of the compiled module is called with what; what these raise is not modelled. Refuted: documented Hall numbers (C83_hall_number_counterexample), unknown names are silently ignored (C83_misspelt_counterexample), complex values with real vectors (C83_complex_counterexample), densities (C83_density_counterexample, C83_lost_density_counterexample). |
| C84 | Every wavevector can be brought into the first zone | the loop of part_moveinto_prim and moveinto (Model/MoveInto), for any zone whose faces belong to lattice vectors | each turn takes a point off the face planes strictly closer, so the translates visited are distinct and closer than the origin; counting the vectors that can be closer in rhombohedral and prism lattices (at most one of each opposite pair, six pairs) bounds the turns; discreteness of the squared lengths gives termination; two counterexamples by following the states | partial: Refuted in general twice: the search can go round in a circle for ever (C84_cycle_counterexample, a basis a, a+b, c of an orthorhombic lattice) and its limit on turns can be too small (C84_limit_counterexample). Proved: with orthogonal axes every wavevector is accepted (C84_orthogonal); for rhombohedral and all cubic lattices, and for lattices with one axis perpendicular to a reduced plane, every wavevector without a translate on a face plane is accepted; without the limit the search ends for every lattice and every such wavevector (C84_ends); moveinto answers exactly where the search ends inside (C84_moveinto). Missing: acceptance of wavevectors with translates on a face plane in non-orthogonal reduced lattices, and triclinic lattices. |
| C85 | Interpolating anywhere in reciprocal space with a tetrahedral mesh or a nest gives what the data say | `ir_interpolate_at` of the mesh and of the nest: the composition of the models of C71, C77 or C43 and C47, C62, C63 and C56 | one argument for every grid that locates the points of the zone with convex weights; for the mesh by following the tetrahedron found through the layers, for the nest by the soundness of the trees and by keeping new vertices in the divided tetrahedra | partial: Exact arithmetic; TetGen triangulates what it is given. Mesh: complete for scalars (results, range, error) and for scalars, vectors and matrices (exactness) without stored permutations. Nest: the same, but only if values and vectors have the same shape; otherwise the result is written beyond its memory (C63_nest_shape_counterexample), which is what is missing for the nest. |
| C86 | Matrix routines on memory | the loops of the matrix routines on one memory with pointers, overlap included (MatrixMem) | loops that write different cells from cells not yet written; the determinant refines the one of C13; results are compared with Mathlib's matrices | proved: All sizes and addresses, with what happens on overlap: a product that is to replace its second factor is zero; the adjoint in place is wrong; the in-place transpose is right for size three and for no other size above one. Memory is one map from addresses to elements of one type. |
| C87 | Transformation of a point group to its standard setting | ptg_get_pointsymmetry, ptg_get_transformation_matrix and get_orthogonal_axis (PointGroupAxes) | case analysis over all lists of rotations; the claim fails, what happens instead is proved for every list | partial: The claim is false of the code: as soon as two of the rotations differ a null pointer is read, so only the first point group has a transformation; and the search for perpendicular axes finds every axis. C87_transformation says for every list what happens. How axes are chosen in the higher Laue classes is a parameter, and never reached. |
| C88 | Interpolating without rotation, and without moving points | `interpolate_at` of the hybrid grid and the forms with `do_not_move_points` (EndToEndFirst), with the models of C81 | the row of a point of the zone is close to the function (C76, C62, C63); composition with C33 and C60; witness for points outside the irreducible zone | partial: Proved for all points that land in the irreducible zone, so for all points of lattices without symmetry (C88_whole), and for points not moved. False for other points: the grid covers only the irreducible zone, interpolate_at moves points only into the first zone, and cube nodes accept points outside: C88_counterexample, a constant comes back three times too large and no error is raised. |
| C89 | Planes chosen for the irreducible zone cut away only what an operation gives back | the first part of `wedge_brute_force`, `keep_if`, `have_volume` and `match` (WedgeSearch), over any ordered field; the special points, the flags of the eight attempts and the whole construction (WedgeWhole) | an invariant of the search: the points left are those above the normals, the normals are the cuts of different operations; over a full turn the components across the axis add up to nothing, so they change sign once; witnesses for a mirror, for a skew basis and for the groups of a three-fold rotoinversion; the whole construction finds irreducible zones by C71; what the search assumes of an operation is proved for integer isometries of finite order (WedgeOps) | partial: Proved: the special points are the face means, corners and edge middles (C89_special); those left are those above all planes (C89_retained); normals fit the memory (C89_room); groups are disjoint and, where the operation is the identity after its order, complete orbits (C89_groups; false for the three-fold rotoinversion: C89_groups_counterexample); the planes of one operation contain its axis and leave an image of every vector, also for the three-fold rotoinversion (C89_cuts_partial, C89_pair); for integer matrices of finite order that are isometries and whose axis the library finds, the order, kind and axis given to the search are right (C89_operation), so that the same holds for the planes chosen for such a group (C89_chosen_partial); when planes are used (C89_use, C89_use_mirror); the zone found with the chosen planes is irreducible (C89_zone, from C71). Counterexamples: a mirror not dealt with as a mirror (C89_mirror_counterexample), a two-fold axis along a direction that is special in the reciprocal and not in the real lattice (C89_direction_counterexample). Missing: that the planes of all operations together leave an image of every vector (the program checks the volume). |
| C90 | Operators with two arrays combine the right elements | the operators with two arrays on memory, in place and with a new array (ArrayBroadcast), with the iterator of C04; `dot` and `cross` (ArrayDot) | the iterator visits the grid of the larger extents (C04); assignments to separate places accumulate; witnesses for shared memory and for column order (ArrayDot) | partial: Operators: proved for positive extents and every layout whose elements have separate places. False if the right array lies in the memory of the left one (C90_in_place_counterexample: subtracting the first row from all rows leaves the second row unchanged). dot and cross: proved for arrays stored row after row; for column order other numbers come back without an error, and for numbers of rows that do not fit memory outside of the arrays is read (C90_dot_counterexample; the code only asserts). Empty arrays: see C04_zero_extent_counterexample. |

## 5. Coverage, file by file

For every file of `/repo/src` and `/repo/wrap`: the model modules that cite it, and the line ranges cited in their comments. Code
outside of these ranges is not modelled.

| file | model modules and lines |
|------|-------------------------|
| `approx_config.hpp` | Hdf: 10-14, 17, 41-48, 49-57 |
| `approx_float.hpp` | Approx: 55, 79-100, 80, 88, 88-89, 92, 94, 96, 148-188, 153-185, 203-207, 221-243, 259-304, 365-369 |
| `array.hpp` | ArrayFun; ArrayMem: 1, 56-65, 293-317, 345-347, 349-356, 358-372, 381-399, 400-408, 402-403, 414-428, 421; GridInterp: 355-364; Numpy: 48-58, 70, 92-96, 107-112, 113-120, 248-259, 249-259, 331, 345-347, 349-357, 381-399; ParallelInterpolate: 362; Subscript: 373-380, 400-408 |
| `array.tpp` | Approx: 422-501, 695-758, 750-758, 804-822, 823-842, 843-853; ArrayMem: 49-56, 330-363, 330-380, 361-363, 363, 411-417; Numpy: 1068-1076 |
| `array2.hpp` | ArrayBroadcast: 100-102; ArrayCmp: 444; ArrayFun: 48-58, 83-85, 109-115, 195-200, 305, 306, 308, 309, 317-320, 344-354, 356-364; ArrayMem: 48-57, 109-115, 276-296, 313-316, 319-321, 323-337, 344-354, 356-363, 369-387, 379; Fill: 222-232, 222-242, 234, 330; Hdf: 535-567, 568-572; Numpy: 92-96, 221-242, 222-242, 345-355 |
| `array2.tpp` | Approx: 416-500, 664-720; ArrayBroadcast: 1317-1343; ArrayCmp: 664-672, 668-671, 724-753, 739-744, 937-941; ArrayFun: 23-31, 60-243, 82-111, 141-154, 156-169, 172-204, 207-236, 303-313, 416-422, 416-495, 419, 420, 423-429, 427, 430-436, 437-443, 445-462, 464-479, 480-495, 497-509, 511-608, 596-608, 664-672, 664-702, 673-676, 677-684, 685-692, 693-702, 703-712, 714-722, 769-812, 773-780, 815-840, 819-836, 828-838, 841-866, 867-893, 894-920, 980-989, 991-1003, 1018-1037, 1018-1107, 1026, 1028-1035, 1039-1059, 1061-1080, 1064-1072, 1081-1098, 1094-1097, 1100-1107, 1110-1115, 1172-1175, 1232-1238, 1240-1246, 1248-1253, 1255-1271, 1304-1309; ArrayMem: 50-57, 328-361, 328-373, 359-361; FaceEdit: 158-170; GridInterp; Hdf: 1125-1146, 1148-1153; MoveInto: 505; WedgeSearch: 621-630, 631-635 |
| `array_.hpp` | Tetra |
| `array_functions.hpp` | ArrayBroadcast: 41-53; ArrayDot: 168-189, 177-187, 224-244, 232-242; Lattice: 167-324, 189-201, 246-255, 257-289, 319-326, 392-410, 398-410, 563-575; TrellisWire: 528-530; WedgeSearch |
| `array_l_functions.hpp` | Lattice: 9-20 |
| `array_lvec.hpp` | Hdf: 92-94, 197-206, 207-216; Lattice: 87-95 |
| `array_lvec_methods.tpp` | Lattice: 42-51, 53-66, 58, 68-82 |
| `basis.hpp` | Atoms: 41-42, 58-65, 88-132, 94-104, 98-99, 147-169, 158-159, 185-190, 191-233, 196-205, 198-203, 207-226, 211-221, 215-218, 227-232; Hdf: 41-42, 58-65, 186-190, 191-230, 197-204, 206-223, 207-222, 224-228, 260-277, 279-306 |
| `bravais.cpp` | Hall: 39-51 |
| `bravais.hpp` | Primitive: 54; SpgTable: 54 |
| `bz.cpp` | IrCheck: 69-94, 72-73, 83-90; Wedge: 22-56, 27-35, 42-49, 44-49, 45, 69-94, 72-75; Zone: 197-231, 200-206, 209-212, 225-228; ZoneCentred: 100-104, 197-231, 200-206 |
| `bz.hpp` | EndToEnd: 660-685, 756-763; Hdf: 53-70, 797-814, 816-834, 836-841, 842-846; MoveInto: 756-763; Wedge: 110, 160, 167-181, 217-262, 220-223, 236-250; WedgeWhole: 160, 167-181; Zone: 142-154; ZoneCentred: 105-131, 142-159 |
| `bz_mesh.hpp` | EndToEndFirst: 97-136; EndToEndMesh: 71-73, 97-136, 110; Hdf: 36-44, 137-145, 146-154 |
| `bz_move.cpp` | MoveInto: 14-53, 14-18, 23-26, 28-48, 29-47, 30, 32-42, 34-42, 102-165, 118-120, 167-303, 266-292, 277, 306-358 |
| `bz_nest.hpp` | EndToEndFirst: 92-130; EndToEndMesh: 64, 92-130, 105 |
| `bz_trellis.hpp` | EndToEnd: 69, 153-197, 181; EndToEndFirst: 110-128, 116-121, 153-197; Hdf: 38-45, 198-206, 207-215; IrInterpolate: 153-197, 160-164, 175-180, 189-190; TrellisBuild: 57-59 |
| `bz_wedge.cpp` | EndToEnd; IrCheck: 457-485, 470-475, 478-483; Wedge: 44-455, 52-374, 405-450, 417-430, 436-447, 436-438; WedgeSearch: 21-35, 33, 37-42, 39-40, 52-371, 64, 92-94, 96-101, 107-110, 115-164, 118, 122-133, 136, 138-141, 139, 150, 157, 159-162, 167-187, 171, 175, 177, 179, 182-185, 201-370, 204-234, 206-234, 207-217, 220-231, 303-369, 312-315, 317-366, 319-348, 359-363; WedgeWhole: 54-371, 64, 67-86, 409-413 |
| `comparisons.hpp` | Approx: 32-42, 67-115, 116-143; ArrayCmp: 63-66 |
| `enums.hpp` | Hdf; Lattice: 32; Primitive; Rotate; Trellis: 43 |
| `geometry.hpp` | Cut: 376-394, 470-497, 602-645, 607-641, 745-827, 947-965, 966-977; FaceEdit: 884-1112, 884-906, 887-892, 897-899, 908-945, 930-933, 977-1011, 985-987, 1013-1072, 1021-1047, 1027-1031, 1074-1095, 1077-1078, 1080-1083, 1097-1110; Faces: 412-418; Hull: 146-181, 250-252, 338-364, 340-364, 648-695, 650-745, 661, 662-683, 690, 726-745, 861-882; IrCheck: 844-848; SortFace: 282-286, 318, 320-321, 329-330, 745-832, 749, 776-780, 816-830; Tetra: 120-138; Zone: 187-207 |
| `hall_symbol.cpp` | Hall: 22-103, 30-31, 33-99, 54-71, 72-80, 105-111, 113-159, 117-127, 136-141, 143-147, 145-146, 162-168, 170-173, 175-206, 180-190, 209-211, 212-214, 215-259, 216-255, 261-263, 264-266, 268-307, 269-287, 289-303 |
| `hall_symbol.hpp` | Hall: 64-67, 119, 137-151, 170-174, 171-174, 201-213 |
| `hdf_interface.cpp` | Hdf: 6-40 |
| `hdf_interface.hpp` | Hdf: 18-23, 21, 24-29, 27, 32-46, 55-68, 77-92, 93-106, 120-136, 126-128, 129-134, 139-149, 144-145, 146-148 |
| `interpolator.hpp` | EndToEnd: 386-426; Fill: 85, 94-99, 94-103, 96, 124-128, 152-210, 173-196, 206-210, 308-333, 443-499, 475-494, 538-585, 607-609; Hdf: 94-103, 163-168, 246-294, 257-293, 547-584, 599-601, 628-640, 645-664; Interpolate: 92-100; IrInterpolate: 55-66; ModeCost: 92-100, 242-300, 246-250, 252-299, 500, 607-609; Rotate: 386-426, 412-420, 598-600, 601-604, 612-622 |
| `interpolator_at.tpp` | GridInterp: 90-127, 106-115, 108, 109-114, 112, 113, 117-125, 119, 120-124, 123; Interpolate: 90-127, 102, 103, 106-115, 109-114, 111-113, 113, 117-125, 120-124, 122-123, 123; ParallelInterpolate: 113 |
| `interpolator_axial.tpp` | Rotate: 18-68 |
| `interpolator_cost.tpp` | ModeCost: 18-58, 26-30, 27-29, 29-39, 31-38, 38, 42-44, 44-54, 45, 46-53, 53 |
| `interpolator_gamma.tpp` | Rotate: 22-34, 47-139, 56-58, 79-135, 101-112, 113, 117-131, 133 |
| `interpolator_real.tpp` | Rotate: 18-64, 25-26, 42-59, 46-50, 51-58 |
| `interpolator_recip.tpp` | Rotate: 18-64 |
| `interpolatordual.hpp` | Fill: 74-120, 74-77, 87, 188-221, 189-195, 197-201, 203-207, 213-215, 218-221, 425-435; GridInterp: 149-155; Hdf: 74-77, 301-309, 315-323; Interpolate: 149-155, 357-382, 373-382; ModeCost: 384-396, 425-435; ParallelInterpolate: 378; SortPermutations: 398-435, 401-410, 406-410, 413-419, 413-415, 415-419, 420, 425-435 |
| `lapjv.hpp` | Lapjv: 74-100, 84-97, 86, 93, 99-264, 281-538, 296-520, 305-307, 309-331, 311-331, 313-321, 322, 336-354, 346-350, 359-407, 359-403, 366, 366-403, 388-402, 409-517, 420-436, 421-436, 437-495, 439-455, 443-454, 451-452, 457-465, 467-494, 475-494, 488-489, 497-504, 507-516, 522-536 |
| `lattice_dual.hpp` | Hdf: 148-155, 300-308, 703-717, 718-733; Lattice: 55-73, 75-89, 91-112, 93-98, 100-110, 134-145, 153-156, 205-214, 459-484, 476-482, 493-510, 511-517, 560-567, 569-576, 582-594, 595-599, 600-615, 621-630, 671-685, 686-702, 738-776; Snap: 17-51, 18-51, 29, 205-214, 312-510, 312-373, 314, 315, 318-373, 326, 329-334, 335, 351-352, 355-372, 369-370, 375-384, 403-453, 406-407, 416-420, 455-484, 493-510; ZoneCentred: 735-770 |
| `linear_algebra.hpp` | Lattice: 24-38, 39-44, 66-75, 120-125; Snap: 65-69 |
| `math.hpp` | Lattice: 45-118, 45-61, 63-81, 96-104, 106-118 |
| `mesh.hpp` | EndToEndMesh: 134-158; GridInterp: 119-189, 134-158; Hdf: 72-75, 85-88, 195-204, 205-214; Mesh: 148-156 |
| `motion.hpp` | Hdf: 26-28, 120-125, 126-133; Motion: 27-29, 34, 37-50, 51-62, 64-70, 72-76, 78-83, 88-98, 108-111, 112-115; MotionText: 140-253, 166-253, 170-182, 184, 185, 186-250, 229-247 |
| `munkres.hpp` | Munkres: 30-34, 42-50, 59-68, 67-82, 89-131, 96-109, 98-107, 124-127, 154-165, 166-175, 176-187, 181-182, 188-206, 192-193, 194-198, 207-218, 228-249, 251-297, 267-277, 281-285, 298-312, 302-305, 305 |
| `neighbours.cpp` | Neighbours: 25-30, 32-40, 34-36, 42-59, 47-49, 53, 61-67 |
| `nest.hpp` | EndToEndMesh: 357-379; GridInterp: 347-379, 357-379, 361, 373-377; Nest: 44-48, 78-88, 89-107, 136-139, 154, 156, 164-228, 177-195, 199-206, 208-223, 210-222, 213-219, 230-235, 246-258; ParallelInterpolate: 358-411, 374-378; Tetra: 45, 62-64, 82-85, 98-101, 117-122, 123 |
| `nest.tpp` | EndToEndMesh; Nest: 20-52, 38-50, 54-101, 62-84, 65-83, 87-100, 89-92 |
| `permutation.hpp` | ApplyPermutation: 762-815, 762-782, 763, 767-781, 772-777, 799-815, 800, 804-814; Lapjv: 604-613 |
| `permutation_table.hpp` | Hdf: 69-71, 237-245, 251-260; PermutationTable: 63-71, 68, 95-97, 98-101, 115-129, 136-139, 141-144, 147-162, 164-170, 173-184, 193-198, 214, 216-227, 228-234, 283-292; SortPermutations: 177-180, 180, 181-182 |
| `phonon.hpp` | Atoms: 90-194, 94-104, 114-167, 133-139, 142-164, 151-154, 168-171, 173-176, 177-182, 189-193 |
| `pointgroup.cpp` | PointGroup: 73-79, 81-116, 162-178, 218-225, 248-262, 254-259, 256-257, 285-296, 287-295, 533-552, 555-563, 558-559, 588-595, 605-641, 620-631, 664-684, 678; PointGroupAxes: 195-213, 195-246, 224-241, 231-239, 233-237, 346-364, 366-531, 565-603, 572-586, 574-576, 577-580, 597-603; Symmetry: 313-334, 335-339, 340-344 |
| `pointgroup.hpp` | PointGroup: 92, 114 |
| `pointsymmetry.cpp` | Hdf: 173-188; PointGroupAxes: 105-107; Rotate: 108-110; Snap: 480-497, 480-488, 489-497; Symmetry: 111-118, 119-130, 131-142, 143-147, 173-188, 189-224, 242-246, 248-255, 257-260, 258, 297-318, 303-315, 308-314, 313, 319-341, 321-328, 332-338, 385-394; WedgeWhole: 272-286 |
| `pointsymmetry.hpp` | Hdf: 96-103, 104-113 |
| `polyhedron.hpp` | Hdf: 40-42, 819-826, 831-837 |
| `polyhedron_faces.cpp` | Faces: 24-44, 27-36, 30-31, 48-58, 52-54, 60-91, 74-83, 93-102, 105-116 |
| `polyhedron_faces.hpp` | Cut: 344-366, 374-399, 408-501, 432-469, 486-501, 503-519; FaceEdit: 51-103, 56-60, 88-89; Faces: 116-117, 119-130, 142-149, 215-233, 222-231, 227-229, 254-269, 262-267, 265, 296, 314-333; Hdf: 521-525, 530-533; Hull: 51-81, 51-92, 56-60; IrCheck: 152-171; TrellisBuild: 289-293; Wedge: 174-186; WedgeWhole: 201-213 |
| `polyhedron_flex.hpp` | FaceEdit: 22-29, 273-299, 287-290; Faces: 145, 313-322, 324; Hdf: 16-18, 249-255, 260-265; Hull: 22-29; IrCheck: 17-18, 68, 161-188, 164-172, 177-184, 178, 181, 199-211, 212-216; Wedge: 99-142, 145; Zone: 310-311 |
| `primitive.hpp` | Primitive: 112-123, 135-146, 170, 195 |
| `smp.hpp` | Smp: 53-179, 64-73, 65-73, 66-71, 68-71, 76-85, 88-89, 109-122, 113-119, 125-163, 128-161, 128-162 |
| `sorting_status.hpp` | SortingStatus: 36, 39-44, 43, 47-51, 52-57, 57, 58-64, 65-71, 72-78, 79-85, 87-95, 96-102, 103-108, 109-115, 129-134 |
| `spg_database.cpp` | Hall: 665-670; SpgDb: 612-667, 612, 614-620, 622-633, 635-642, 646-650, 652-664; SpgTable: 78-610, 79-138, 139-198, 199-258, 259-318, 319-378, 379-438, 439-498, 499-558, 559-609 |
| `spg_database.hpp` | SpgTable: 80-91 |
| `subscript.hpp` | Numpy: 602-607; Subscript: 34-38, 75-82, 78-81, 91-97, 102-109, 110-121, 115-119, 152-163, 154-161, 164-170, 172, 176-182, 183-189, 187, 336-341, 344-360, 372, 374-378, 380-393, 394-401, 404, 405-410, 411-418, 420-422, 541-560, 549-552, 554-557, 569-580, 602-607, 616-619 |
| `symmetry.cpp` | Atoms: 193-196; Snap: 198-215; Symmetry: 90-93, 106-120, 112, 126-146, 132-143, 137-142, 141, 147-166, 149-153, 156-162, 168-175 |
| `symmetry.hpp` | Hdf: 180-187, 188-201 |
| `thread_exception.h` | ParallelInterpolate: 7-10, 12-24, 25-43 |
| `transform.hpp` | MoveInto: 108-158; Primitive: 46-100, 108-158 |
| `trellis.tpp` | Fill: 292 |
| `trellis_node.hpp` | Hdf: 175-182, 183-192, 208-212, 373-399, 400-425, 440-443, 648-670, 671-702; Tetra: 209-211, 238-243, 273-305, 285-286, 294, 300-301, 308-312, 314-335, 328-331, 332, 332-334, 333, 347-364, 354-360, 363; Trellis: 130-148, 136-138, 137-138, 506-549, 524-527; TrellisKeys: 525, 527-530, 557-566, 568-572; TrellisWire: 75-82, 206-211, 434-443, 448-460, 451-457, 504-509, 510-515, 537-544, 584-614 |
| `trellis_poly.hpp` | EndToEnd: 274-299; EndToEndFirst: 245-255; GridInterp: 256-299, 274-299, 279, 280, 288-297; Hdf: 124-129, 666-677, 678-694, 695-698, 699-702; ParallelInterpolate: 274-351, 274-299, 281-282, 288-297, 291-295, 318-326, 318-330, 318-343, 330, 330-343, 331-343, 334-340, 335-340, 343, 344-350, 345-349; Trellis: 66-73, 74-82, 126, 127, 344-348, 350-354, 356-360, 382-434, 398-424, 400-401, 436, 480-494, 541-543, 544-550, 551-553, 554-556, 557-562, 563-571, 603-611, 605-606, 617-622, 623-626, 627-635, 643-663; TrellisBuild: 636-642; TrellisWire: 124-130, 245-255 |
| `trellis_poly_parallel.tpp` | EndToEnd; TrellisBuild: 70-117, 83-95, 86-88, 93-95, 100-108, 106, 160-285, 219-249, 221-249, 222-224; TrellisKeys: 470-487, 470-509, 490-509; TrellisWire: 70-149, 176-293, 222-285, 234-280, 249-254, 273-280, 353-364, 373-454, 404-432, 423-425, 435-449; VertexMap: 144, 203-206, 219-291, 243-244, 244, 260-265, 262, 279 |
| `triangulation_layers.hpp` | EndToEndMesh; Hdf: 48-55, 313-327, 328-345, 366-368, 497-512, 513-537; Mesh: 43-56, 63-69, 88-117, 102-104, 177-189, 190-203, 204-213, 214-224, 237-252, 254-256, 261-264, 265-288, 367-368, 377-381, 401-417, 412-415, 443, 447-494, 460-487, 471-485, 541-628, 631-671, 642-669 |
| `triangulation_poly.hpp` | TrellisWire: 31-133, 66-69, 88, 111-125, 158-163, 167-169, 212-218 |
| `triangulation_simple.hpp` | Nest |
| `types.hpp` | Numpy: 36 |
| `utilities.hpp` | ArrayDot: 369-377; Lattice: 369-376; ListUtil: 629-816, 631-638, 640-653, 655-672, 657-658, 674-693, 683-689, 695-714, 701-710, 745-753, 762-767, 764-766, 770-776, 779-787, 789-804, 794-800; MatrixMem: 366-373; Tetra: 369-376 |
| `utilities.tpp` | ArrayDot: 209-214; IntUtil: 664-676, 689-727, 701, 703-719, 730-741, 743-755; Interpolate: 528-577, 529, 567-577; ListUtil: 784-789; Matrix: 19-23, 39-42, 44, 98-102, 105-122, 125-141, 144-156, 158-172, 174-177; MatrixMem: 26-28, 39-42, 80-84, 98-101, 105-122, 125-141, 144-155, 156, 158-172, 174-177, 186-193, 195-201; ModeCost: 249-278, 249-400, 259-278, 280-316, 285-316, 295-315, 339-350, 354-356, 357-380, 358-379, 383-400, 385-388, 402-406, 415-418, 427-430, 529-590, 531, 586-592 |
| `vertex_index_map.h` | StdMap: 16; VertexMap: 12-18, 36-53, 43-47, 55-60, 62-65, 69, 100-111, 104-108, 118-126 |
| `vertex_map_knit.h` | StdMap: 48; VertexMap: 42-164, 53-64, 54-64, 77-90, 97-114, 139-142, 159, 166-198, 200-219, 223-242, 229, 239 |
| `vertex_map_set.h` | StdMap: 29, 92, 128; VertexMap: 17, 18, 24-39, 28, 43-50, 82-84, 106-109, 116-123, 127-130, 132-141, 161-197, 161-196, 188, 199-206, 222-229, 231-236, 238-243 |
| `wrap/_array.hpp` | ArrayFun; Numpy: 29-88, 90-136, 98-103, 101, 137-153, 147, 165-168, 191-197 |
| `wrap/_common_grid.hpp` | EndToEndFirst: 276-300, 292-300, 412-436, 428-436; Fill: 26-42, 28-29, 127-144 |
| `wrap/_interpolator.hpp` | Fill: 12-50, 23-28, 23-49, 26-28, 28, 30-35, 37-45, 52-106, 66-105, 67-72, 74-79, 81-89 |

Not modelled at all: `approx_config.cpp`, `array_attributes.hpp`, `array_l_.hpp`, `array_l_attributes.hpp`, `array_l_post.hpp`, `array_l_pre.hpp`, `array_post.hpp`, `array_pre.hpp`, `array_tetgen.hpp`, `bz_config.hpp`, `bz_trellis_l.hpp`, `comparisons.cpp`, `debug.cpp`, `debug.hpp`, `is_musl.h`, `logger.cpp`, `logger.hpp`, `neighbours.hpp`, `polyhedron_lattice.hpp`, `polyhedron_lattice.tpp`, `process_id.cpp`, `process_id.hpp`, `rotates.hpp`, `symmetry_common.hpp`, `trellis_poly_l.hpp`, `trellis_poly_l.tpp`, `vertex_map_set.cpp`, `wrap/_approx.cpp`, `wrap/_basis.cpp`, `wrap/_bravais.cpp`, `wrap/_brille.cpp`, `wrap/_bz.cpp`, `wrap/_c_to_python.hpp`, `wrap/_debug.cpp`, `wrap/_enums.cpp`, `wrap/_hall_symbol.cpp`, `wrap/_interpolator.cpp`, `wrap/_lattice.cpp`, `wrap/_lattice.hpp`, `wrap/_mesh.cpp`, `wrap/_mesh.hpp`, `wrap/_nest.cpp`, `wrap/_nest.hpp`, `wrap/_pointgroup.cpp`, `wrap/_pointsymmetry.cpp`, `wrap/_polyhedron.cpp`, `wrap/_polyhedron.hpp`, `wrap/_primitive.cpp`, `wrap/_sorting_status.cpp`, `wrap/_spacegroup.cpp`, `wrap/_symmetry.cpp`, `wrap/_trellis.cpp`, `wrap/_trellis.hpp`, and the Python package `/repo/brille`.

Known gaps inside of modelled files:

* `bz.cpp`, `bz.hpp`, `bz_wedge.cpp`: of the construction of zones, `voro_search`, `construct`, the triclinic and the brute force wedge
  search, the check of the irreducible polyhedron and its wedge normals are modelled; how the brute force search chooses the planes to cut
  with from the special points (bz_wedge.cpp 52-374) is modelled by itself (C89), with the order in which operations and groups of points are
  sorted left open, and a parameter of the search for the zone in C71; both are put together in `WedgeWhole`.  The constructor of convex hulls is modelled by itself (C72) and a
  parameter of the search.  C33 and C34 take the zone and the wedge as arbitrary tests.
* `trellis_poly.hpp`, `trellis_poly_parallel.tpp`: the choice of knots, the classification of nodes, search, numbering, interpolation
  the wiring of vertices to nodes and the parallel loops are modelled, with TetGen as a parameter (contract in `Spec/TrellisWire.lean`);
  the option of extra boundary points and the second attempt after a failed triangulation are not, nor is `trellis_poly_l.*`.
* `triangulation_layers.hpp`: the lists of neighbouring tetrahedra, which nothing uses, and the formula for the volumes of the layers in between (logarithms and powers) are left out; `triangulation_simple.hpp`: only saving and loading.
* `array2.*`: `match` is modelled for exact vectors (C89); the comparison inside `unique` is not modelled; `array.*`: of the
  functions of arrays with more dimensions only memory, views, broadcasting and the conversion to `Array2` are modelled.
* `lapjv.hpp`: the AVX2 versions are not modelled.
* Python bindings: the conversion of arrays (addresses only, not lifetimes) and the checks of `fill`.

## 6. Disagreements between the code and what its users may expect

Each is a theorem of the model:

* `C01_zero_extent_counterexample`: The hypothesis on the later extents is needed: for the empty array of shape (3,0) the loop does not stop at once but visits (0,0), which is not a subscript of the array.
* `C03_lin2sub2_column_counterexample`: Column order with a single row: `(0,1)` of a 1×2 column-ordered array is stored at linear index 1, but `lin2sub` returns `(1,0)`, which is out of range.
* `C03_lin2sub_column_counterexample`: The general overload is wrong in column order: in a 2×2 column-ordered array (strides 1,2) the linear index 2 belongs to `(0,1)`, `lin2sub` returns `(2,0)`.
* `C04_zero_extent_counterexample`: Positivity is needed: broadcasting an empty array (extent 0) with a singleton visits element 0 of the empty operand.
* `C05_array_counterexample`: `Array`: decoupling a view of the last column of a 2×2 array, and extracting a row of a column-ordered 2×3 array, write outside the new memory; `Array2` copies correctly.
* `C05_shared_counterexample`: So the copy is not independent in general: an assignment to the decoupled array of a sole owner changes the original.
* `C06_zero_extent_counterexample`: A zero extent after the first dimension breaks `resize` and `append` although there is nothing to copy: the subscript iteration runs out of the memory.
* `C07_diagonal_counterexample`: Storing a permutation for an equal pair is accepted and changes the answer for every other equal pair: after `overwrite(1,1,[1,0])` the lookup `(2,2)` is no longer the identity.
* `C08_setVisits_counterexample`: The constructor `SortingStatus(true,false,5)` reports 4 visits.
* `C09_inverse_counterexample`: For other determinants the integer "inverse" does not invert.
* `C10_generate_counterexample`: C10 is false in general: from the two exchanges `y,x,z` and `x,z,y`, which generate the six permutations of the coordinates, only four operations are made; the product of the two in one of the two orders is missing.
* `C11_generators_counterexample`: C11 is false in general: the twelve rotations of the tetrahedron are a group, but from the generators found for them, given in this order, only nine operations are generated.
* `C13_inverse_int_counterexample`: For other determinants the integer routine still reports success but, because the division truncates, its result is not an inverse.
* `C14_unchecked_counterexample`: The classification does not recognise matrices that are no symmetry operations: a shear, which has no finite order, counts as the identity, and a matrix with determinant 2 counts as a four-fold rotation.
* `C15_int_array_tolerance_counterexample`: C15 fails for integer arrays with a tolerance: unlike the scalar form, the array form accepts different integers.
* `C15_symmetric_float_double_counterexample`: C15 fails between the two floating point types: the tolerance comes from the first argument's type, so `scalar(1.f, 1.0001) ≠ scalar(1.0001, 1.f)`.
* `C17_bravais_counterexample`: Every row of a B-centred lattice is marked as primitive, and there are forty of them.
* `C17_hall_symbol_round_trip_counterexample`: Three rows carry the Hall symbol of the row two before, and so cannot be found by it.
* `C17_number_230_counterexample`: Space group 230 is in the table, but is never found by its number.
* `C17_string_lookup_counterexample`: Asking for the rhombohedral setting of "R 3" gives the row of the hexagonal setting, whose Hall symbol is "R 3" as well.
* `C18_primitive_counterexample`: C18 fails for `P`: the accessor returns the all-sixes matrix instead of six times the identity (it is exposed to users as the properties `P` and `Pt`).
* `C19_integer_truncation_counterexample`: C19 fails for integer vectors: the division by six truncates, so an integer reciprocal vector which is not a reciprocal lattice point of the primitive lattice changes when transformed.
* `C20_zero_counterexample`: If all costs are zero every permutation has the least cost, but the solver reports failure.
* `C21_optimal_counterexample`: The permutation `lapjv` returns for `skewed` costs 5, although another one costs 3: ties are broken with an allowance which is proportional to the sum of all costs.
* `C22_stable_counterexample`: Already for two rows and columns the matching need not be stable: row 0 and column 0 prefer each other but each is given the other partner.
* `C23_inverse_counterexample`: C23 (inverse) is false of the code: exchanging the two objects 10 and 20 yields 0 and 10.
* `C24_phase_orthogonal_counterexample`: If the mode is orthogonal to the reference mode the phase is not removed: the factor is one, so the contribution changes with the arbitrary phase.
* `C24_pivot_counterexample`: Through `DualInterpolator`, whose mode maps are those from the *first* vertex, the order matters: two vertices with crossing modes, listed the other way round, give the modes in the other order.
* `C25_outside_counterexample`: C25 fails for points outside: the node accepts the point (3/2, 1/2, 1/2) although it lies outside of the unit cube and even though the caller asked for a containment check, and the weights then add up to 2. (The documentation promises "outside of the volume no indices or weights are set".)
* `C26_empty_counterexample`: A node without tetrahedra that is told it should contain the point reads beyond its lists.
* `C26_orientation_counterexample`: If the corners are in negative order while the stored volume is positive, the weights sum to minus one and no point is found inside.
* `C27_above_counterexample`: C27 (containment) fails beyond the last knot: the point (100, 0, 0) of a 2×2×1 grid gets the linear index of the node (0,1,0), which is far away from it.
* `C27_below_counterexample`: C27 (containment) fails below the first knot: the point (-100, 0, 0) is assigned to node (0,0,0) of a one-node grid that ends at 0.
* `C27_two_steps_counterexample`: C27 (containment) fails for two steps along one axis: the point (2, 2, 1/2) is a corner of the non-null node (1,1,0), but the search returns the node (0,2,0), whose box does not touch the point.
* `C29_is_consolidated_counterexample`: C29: a set that has just been consolidated does not report being consolidated, as soon as it has two vertices (the test looks at the reserved storage).
* `C29_small_grid_counterexample`: C29: with a single grid vertex the first vertex to append is written out of bounds.
* `C29_tolerance_counterexample`: C29, false as it stands for a tolerance: equality within tolerance is not transitive, and a vertex between two vertices already added makes `add` throw.
* `C31_empty_counterexample`: Sorting an interpolator without data divides by zero: the table of zero points still has the key 0.
* `C31_one_sided_counterexample`: If a pair is announced in one direction only, the exception of `overwrite` leaves the parallel region and the program is terminated.
* `C32_nest_counterexample`: The serial version of `Nest` does not report a point which is not found: it has undefined behaviour where the threaded version throws.
* `C35_empty_face_counterexample`: A list with an empty face is not equal even to itself.
* `C36_equal_faces_counterexample`: For faces that are not plane the volume depends on the vertex from which each face is read, so lists of faces that compare equal can have different volumes.
* `C37_duplicates_counterexample`: With a tolerance, equality is no equivalence, and the renumbering can leave indices beyond the end of the reduced list of points: of three points in a row, each within tolerance of the next but the outer two not of each other, one is kept, and a face at the third point refers to a point number 2.
* `C37_hull_counterexample`: In every other case the faces refer to the reduced list of vertices, while the vertices are those given: the hull of the corners of a tetrahedron, one of them given twice, is a body with a missing corner.
* `C39_bz_mesh_counterexample`: every mesh in a Brillouin zone with settings of its own loses them.
* `C39_interpolator_counterexample`: for every non-default vector cost function, whatever the data, what comes back is not what was saved.
* `C39_lattice_counterexample`: a lattice made without snapping, with an atom that does not agree with the symmetry, is saved without complaint, and can not be loaded.
* `C39_point_symmetry_counterexample`: operations out of order, as `PointSymmetry(n)`, `set` and `permute` can make them, come back in another order.
* `C42_binomial_counterexample`: Thirty objects, fifteen chosen: a product wraps around without becoming smaller, and the result is 14052247 instead of 155117520.
* `C42_even_counterexample`: For longer lists an even rearrangement need not be recognised, and two empty lists are not rearrangements of each other.
* `C44_accepted_zero_counterexample`: A symbol that is accepted and whose second operation has the zero matrix as its rotation.
* `C44_text_counterexample`: A change of basis is not written, so symbols that have one do not survive.
* `C44_two_primes_counterexample`: Two primes are accepted in place of the double prime, but stand for the single prime: of the primes only the first character is looked at.
* `C45_axis_counterexample`: Not every rotation has its axis in the list: this one, of order two, has the axis (4, 1, 0), and zeros are returned.
* `C45_not_a_group_counterexample`: The counts decide, nothing else is looked at: three two-fold axes that do not make a group are class 222 (6).
* `C46_unique_chain_counterexample`: C46 fails for approximate equality, which is not transitive: in a chain where each row is within tolerance of its predecessor, a row may be dropped although no kept row is equal to it; and `unique_idx` disagrees with `unique` about which rows are representatives.
* `C48_add_space_inversion_counterexample`: C48 is false in general: the group of the twelve rotations of the tetrahedron becomes, with inversion, a list of 18 operations instead of the group of 24, and operations of the original are missing from it.
* `C49_s2u_counterexample`: A `long long` of `2^32 + 5` becomes the `unsigned int` 5 without an exception.
* `C54_leak_counterexample`: Memory is lost by assigning from an array of another element type, by resizing a shifted view and by constructing with the wrong number of strides, although every array object is destroyed.
* `C58_real_counterexample`: For a four-fold rotation, a vector along the point `q` comes out opposite to the moved point `Q = Rᵀ q`: their scalar product changes its sign.
* `C59_matrices_counterexample`: For `N` atoms there are `N²` matrices. The code only goes on if `N` is a multiple of three: otherwise it turns nothing, not even the vectors, and only says so in the value returned.
* `C59_matrices_lost_counterexample`: Even with three atoms and the operation that changes nothing: of the nine matrices only the first is kept, the others become zero.
* `C61_real_counterexample`: For real vectors the cost reads memory that was never written: `inplace_antiphase` does nothing for real numbers, so that the buffer for the second mode stays as it was allocated. This is so for any two points as soon as there is a mode with vectors.
* `C62_count_counterexample`: The first dimension "must be equal in size to the number of grid-vertices", but a wrong number is accepted; then all pairs of the grid are forgotten, so that every attempt to store a permutation for one of them throws.
* `C62_multiple_counterexample`: The number of vector elements is documented to be a multiple of three. Filling a grid accepts other numbers, while replacing the same data throws.
* `C62_negative_counterexample`: A negative number of elements is accepted, if the sum is right modulo `2^32`.
* `C62_replace_counterexample`: Replacing only the values is not all or nothing: when it throws, the grid is left with values and vectors for different numbers of points.
* `C62_strided_counterexample`: With cost information, the strides of the element array are ignored: two modes with three scalars are taken for one mode with three scalars and three vector elements.
* `C62_unit_counterexample`: A length unit outside of the mapped range is documented to be replaced by 3, but the call throws; a missing one is replaced.
* `C62_zero_columns_counterexample`: Data with no columns and no element numbers divide by zero.
* `C63_count_counterexample`: Data for two points are accepted by a grid with three vertices (`C62_count_counterexample`); interpolating at the third vertex then reads outside of them.
* `C63_nest_missing_counterexample`: A point outside of a nest is undefined behaviour, not an exception.
* `C63_nest_shape_counterexample`: The array for the vectors gets the shape of the values: interpolating three energies and three vectors per point, the usual data, writes outside of it.
* `C64_negative_counterexample`: C64 fails for negative lengths: they are accepted, and the lattice is left-handed.
* `C64_planar_counterexample`: C64 fails for vectors in a plane: no exception, the other space silently gets the zero basis.
* `C65_star_function_counterexample`: C65 fails for the free function `star`: its result is 2π times as long as the vector.
* `C66_changed_counterexample`: Operations outside of the table may change a lattice that has their symmetry: a twofold rotation about `a + b`, with `c` not perpendicular to `a` and `b`.
* `C66_orientation_counterexample`: When vectors are adjusted they may also be turned around: here `a` is reversed.
* `C66_symmetry_counterexample`: The adjusted lattice need not have the symmetry: a cell with three equal lengths and angles of 60° is not changed for the group P4, whose fourfold rotation it does not have.
* `C68_stop_counterexample`: C68. The rule to stop when the volume does not change is wrong: for this lattice the constructor settles, after the extents one and two, on a polyhedron of twice the volume of a cell of the lattice which has points outside the first Brillouin zone.
* `C70_inversion_counterexample`: If the inversion is the only operation besides the identity then only the volume is looked at: the middle half of the cube passes, and no operation carries it to the top of the cube.
* `C72_edge_point_counterexample`: A point on an edge, given between the two ends of the edge: the two faces at this edge are missing. With the same points in another order all four faces are found.
* `C72_face_point_counterexample`: A point inside one face: the constructor keeps it as a corner, and its faces are not those of a closed surface (the step from `(4, 3, 0)` to `(6, 0, 0)` is not taken back on another face).
* `C73_endless_counterexample`: C73 fails for a largest volume that is not positive, which nothing excludes: the loop that makes the knots never ends (and the list of knots grows until memory runs out).
* `C76_race_counterexample`: Two threads that add a vertex at the same time in part two, which nothing prevents: there is an order of their steps, each thread doing its own in turn, after which both take the same number for their two different points, and one of the points is not among the vertices.
* `C77_outside_counterexample`: Locating a point outside of the polyhedron: with one layer nothing is found, and interpolation throws; with more layers the list of connections is read beyond its end.
* `C78_is_array_counterexample`: Comparing an array stored column after column with a single row writes outside of the memory of the answers.
* `C78_le_ge_counterexample`: With the tolerance 1/100 all of 1 and -1/1000 are at least zero, and yet not all are at least zero or at most zero.
* `C78_overflow_counterexample`: Negating or rounding an array with gaps writes outside of the new memory, and the answers of `is` cannot all be read.
* `C78_row_ordered_counterexample`: `contiguous_row_ordered_copy` of a column-ordered array is not row ordered.
* `C78_search_counterexample`: Searching an array with gaps looks at the gaps: no element of the last two columns of 1 2 3 / 4 5 6 is 4, but `any` finds one and misses that one is 6; nor is 3 in the first row of 1 2 / 3 4 / 5 6 stored by columns.
* `C79_mask_counterexample`: A single row of flags is accepted as a mask: all its flags are counted, but only the first is applied, and the last rows of the result are not copied from anywhere.
* `C79_permutation_vector_counterexample`: With equal rows the answer of `permutation_vector` need not be a permutation, although `is_permutation` holds.
* `C79_permute_counterexample`: `permute` does not check its argument: with the row number 1 twice it never ends.
* `C79_reshape_counterexample`: The number of elements is not checked by `reshape`: after it elements cannot be read.
* `C79_set_counterexample`: The number of the row is not checked: `set(1, …)` on the first row of a table changes the second row of the table, and `set(2, …)` writes outside of the memory.
* `C79_unique_counterexample`: `unique` of a table stored by columns writes outside of the new memory as soon as a row is dropped.
* `C80_field_counterexample`: A stride that is no multiple of the size of an element, as that of a field of a structured array, is accepted and rounded down.
* `C80_large_counterexample`: The strides in bytes are 32-bit numbers: all rows of an array with 2²⁹ doubles per row are shown to numpy as the first one.
* `C80_readonly_counterexample`: Through the buffer protocol arrays which may be changed are read-only and arrays which may not be changed are writable.
* `C80_reversed_counterexample`: A numpy array with a negative stride, such as `q[::-1]`, is accepted, and its elements are looked up far outside of its memory.
* `C80_shape_counterexample`: A shape for more elements is accepted if the memory behind the array is large enough; then elements which do not belong to the array appear.
* `C80_to_array_counterexample`: From an `Array2` stored by columns the elements come in the wrong order.
* `C80_view_counterexample`: A view that does not start at the beginning of its memory is shown to numpy as if it did.
* `C83_complex_counterexample`: Complex values with real vectors: the grid that is made has real values, without an error.
* `C83_density_counterexample`: A density, documented as a number like any other, loses its fraction: less than one point becomes no point.
* `C83_hall_number_counterexample`: A Hall number, which the documentation allows, is refused.
* `C83_lost_density_counterexample`: A density given with another kind of grid is not refused, as other names of nested grids are, but lost.
* `C83_misspelt_counterexample`: A misspelt option is not refused: nothing depends on names that are not known.
* `C84_cycle_counterexample`: is false in general: in an orthorhombic lattice described by a basis that is not the shortest one, the search goes round in a circle from a point with translates on the zone's surface. It would never end inside, however many turns were allowed, and `moveinto` throws, although translates of the point are in the zone.
* `C84_limit_counterexample`: is false in general also for points that have no translate on the surface: the limit on the number of turns, the number of faces, is too small if the basis is long. Here one more turn would do.
* `C86_adjoint_counterexample`: the adjoint in place is wrong: elements are replaced while others still need them
* `C86_elementwise_counterexample`: an operand that begins a little before the result is overwritten while it is read
* `C86_multiply_counterexample`: If the result is to replace the second factor, it is zero whatever the factors are: the factor is set to zero before it is used.
* `C86_transpose_in_place_counterexample`: For no other size above one: whatever the matrix is, as long as its elements differ, the result is not the transposed matrix.
* `C87_orthogonal_counterexample`: in particular the axis of the rotation itself
* `C87_transformation_counterexample`: so no point group but the first has a transformation: not the one of a single two-fold axis
* `C88_counterexample`: The grid is made for the quarter of the zone that is irreducible and holds one number everywhere. At a point of the first zone outside that quarter `interpolate_at` answers without an error, three times the number; `ir_interpolate_at` gives the number.
* `C89_direction_counterexample`: The direction No. 3 is the axis of a two-fold rotation, in the reciprocal lattice and not in the real lattice: the plane does not contain the axis, and half of the axis is cut away.
* `C89_groups_counterexample`: The order of a three-fold rotoinversion is that of its rotation, so that half of the images are left out: there are points that are in no group, as a point takes its inverse out of the list without having it in its own group.
* `C89_mirror_counterexample`: A mirror that was not dealt with as a mirror is taken for a two-fold rotation: the plane contains the axis, which for a mirror is wrong, and what is cut away has no image in what is left.
* `C90_dot_counterexample`: The layout is only asserted: for the same table stored column after column, `dot` gives other numbers without an error; and with two and three rows memory outside of the arrays is read.
* `C90_in_place_counterexample`: Subtracting the first row of an array from the array in place: the first row is zero when it is subtracted from the second row, which stays as it is.

Found by reading and not in the model:

* `permutation.hpp` composes permutations in the wrong order; `geometry.hpp` `pseudo_orient2d` uses a coordinate twice;
  `PolyTrellis::operator!=` ignores the comparison settings;
  `DualInterpolator::permute_modes` calls members that do not exist; `pointsymmetry` `get` out of range gives a zero matrix;
  `Array::extract` of a vector of arrays cannot compile; `Nest` has no HDF5 functions.
