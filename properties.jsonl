{"id": "C01", "title": "Array subscript iteration visits every element exactly once, in row-major order", "statement": "Looping over an array's subscripts (Array::subItr / Array2::subItr) visits every multi-index inside the shape exactly once, in row-major order, and then stops, for every shape whose extents are all positive; consequently every whole-array operation built on it touches every element exactly once.", "quantifier": "all numbers of dimensions and all shapes with positive extents (and the behaviour for shapes with a zero extent after the first dimension)", "why_tests_cant": "the set of shapes is infinite; a test checks a handful of shapes", "anchors": ["src/subscript.hpp:SubIt", "src/subscript.hpp:SubIt2"]}
{"id": "C02", "title": "Fixed-axis subscript iteration visits exactly the slice", "statement": "Iterating with some axes fixed (subItr(fix)) visits exactly the subscripts agreeing with the fixed axes, each once, in row-major order of the free axes.", "quantifier": "all shapes with positive extents and every choice of fixed axes and fixed positions leaving at least one free axis", "why_tests_cant": "combinatorially many (shape, fixed axes) pairs of unbounded size", "anchors": ["src/subscript.hpp:SubIt(shape,inpt)", "src/array.tpp:sum", "src/array.tpp:permute"]}
{"id": "C03", "title": "Linear and multi-dimensional indices convert back and forth", "statement": "For row-ordered and column-ordered strides of a shape, converting an in-range linear index to a subscript and back is the identity and the subscript is in range; distinct subscripts of a contiguous array never collide in memory.", "quantifier": "all shapes, all linear indices, all in-range subscripts", "why_tests_cant": "unbounded shapes and indices", "anchors": ["src/subscript.hpp:lin2sub", "src/subscript.hpp:sub2lin", "src/array.hpp:calculate_stride"]}
{"id": "C04", "title": "Broadcasting pairs elements by the numpy rule and rejects anything else", "statement": "Element-wise operations between two arrays succeed exactly when in every dimension the extents agree or one of them is one, the result has the larger extent, and the element at output index i combines the operands at i with singleton axes pinned to zero; any other pair of shapes throws.", "quantifier": "all pairs of equal-rank shapes with positive extents (and the zero-extent corner case)", "why_tests_cant": "all pairs of shapes of every rank cannot be enumerated", "anchors": ["src/subscript.hpp:BroadcastIt", "src/subscript.hpp:BroadcastIt2", "src/array.tpp:ARRAY_ARRAY_OP"]}
{"id": "C05", "title": "Decoupling an array copies exactly the viewed elements into fresh memory", "statement": "decouple()/extract() of a view returns an array with the same shape and the same element at every subscript, whose later modification cannot be seen through the original, and never writes outside its own allocation.", "quantifier": "all buffers, shifts, strides and shapes of a view", "why_tests_cant": "all layouts of views over all buffers; out-of-bounds writes may go unnoticed in a test", "anchors": ["src/array.hpp:_decouple", "src/array2.hpp:_decouple", "src/array.hpp:init_check"]}
{"id": "C06", "title": "Resizing and appending keep the existing elements", "statement": "After resize every element inside both shapes is unchanged and every new element has the fill value; after append(dim, extra) the first block equals the old array and the second block equals extra.", "quantifier": "all arrays, target shapes that grow or shrink in every direction, all appended arrays of matching shape", "why_tests_cant": "unbounded shapes and contents", "anchors": ["src/array.tpp:resize", "src/array.tpp:append", "src/array2.tpp:resize", "src/array2.tpp:append"]}
{"id": "C07", "title": "The permutation table behaves as a finite map with identity default", "statement": "For every history of table operations, looking up (i,j) returns the last permutation stored for (i,j) (or, for i==j and for pairs that were never stored, the identity permutation), storing one pair never changes another pair's lookup, and every stored pair's key decodes to that pair only.", "quantifier": "all sequences of set/overwrite/refresh operations on tables of all sizes", "why_tests_cant": "histories are unbounded", "anchors": ["src/permutation_table.hpp:PermutationTable", "src/permutation_table.hpp:permutation_table_keys_from_indicies"]}
{"id": "C08", "title": "The sorting status packs independent flags and a visit counter", "statement": "Setting or clearing one of the sorted/locked/queued/claimed flags never changes the other flags or the visit count, incrementing the visit count never changes a flag, and the visit count reads back what was set.", "quantifier": "all 2^32 status words, all operation sequences", "why_tests_cant": "operation histories are unbounded and the state space has 2^32 words", "anchors": ["src/sorting_status.hpp:SortingStatus", "wrap/_sorting_status.cpp"]}
{"id": "C09", "title": "Crystal motions compose, invert and act like affine isometries", "statement": "Products of motions act on points as composition, the product is associative with the identity motion as unit, inverse() undoes the motion in both orders for every motion whose rotation part has determinant +1 or -1, and vectors/axial vectors transform by the rotation part alone (with the determinant for axial vectors).", "quantifier": "all motions with integer rotation part and rational translation, all points and vectors", "why_tests_cant": "infinitely many motions and points", "anchors": ["src/motion.hpp:Motion"]}
{"id": "C10", "title": "Generating a symmetry group from generators yields a set with identity, generators and no duplicates, inside the generated group", "statement": "Symmetry::generate returns a duplicate-free list of motions which contains the identity and each generator and only products of generators; a user additionally expects the result to be closed under multiplication.", "quantifier": "all finite lists of generating motions of finite order", "why_tests_cant": "lists of generators are unbounded; closure quantifies over all pairs of results", "anchors": ["src/symmetry.cpp:Symmetry::generate", "src/pointsymmetry.cpp:PointSymmetry::generate"]}
{"id": "C11", "title": "Reducing a symmetry group to generators loses nothing", "statement": "Generating from the operations returned by generators() reproduces every operation of the original set.", "quantifier": "all finite sets of motions forming a group", "why_tests_cant": "all groups; order of operations matters", "anchors": ["src/symmetry.cpp:Symmetry::generators", "src/pointsymmetry.cpp:PointSymmetry::generators"]}
{"id": "C12", "title": "Point-group element lookup, inverse index and reordering are consistent", "statement": "get_inverse_index(i) returns the position of a matrix R' in the list with R R' = identity when the list contains one and throws otherwise; permute(p) lists the same operations in the requested order and sort() orders them without losing or duplicating any; find_index(R) is the first position of R, or size() when absent.", "quantifier": "all lists of integer 3x3 matrices, all indices, all permutations", "why_tests_cant": "lists and matrices are unbounded", "anchors": ["src/pointsymmetry.cpp:get_inverse_index", "src/pointsymmetry.cpp:permute", "src/pointsymmetry.cpp:sort", "src/pointsymmetry.cpp:find_index"]}
{"id": "C13", "title": "3x3 determinant, adjoint and inverse are exact inverses", "statement": "matrix_determinant is the determinant, matrix_adjoint is the adjugate, and matrix_inverse returns a two-sided inverse exactly when the determinant is nonzero (over a field) or is +-1 (over the integers), reporting the determinant it used.", "quantifier": "all 3x3 matrices over the integers or any field", "why_tests_cant": "infinitely many matrices", "anchors": ["src/utilities.tpp:matrix_determinant", "src/utilities.tpp:matrix_adjoint", "src/utilities.tpp:matrix_determinant_and_inverse"]}
{"id": "C14", "title": "The reported rotation order is the true order of the symmetry operation", "statement": "For every integer matrix that is a crystallographic isometry (some power is the identity) the classification by determinant and trace succeeds, and the reported rotation order is the least n>0 such that the n-th power of the proper part is the identity.", "quantifier": "all integer 3x3 matrices of finite multiplicative order", "why_tests_cant": "infinitely many matrices; this is the crystallographic restriction theorem", "anchors": ["src/pointgroup.cpp:isometry_type", "src/pointgroup.cpp:rotation_order", "src/pointgroup.cpp:isometry_value"]}
{"id": "C15", "title": "Approximate comparison is reflexive and symmetric, and exact for integers", "statement": "approx_float::scalar(a,b) is reflexive, symmetric, independent of the tolerance argument for integers where it is equality, monotone in the tolerance, and its vector/matrix forms are the conjunction over elements; it is not transitive.", "quantifier": "all pairs and arrays of values and all tolerances", "why_tests_cant": "all values and tolerances", "anchors": ["src/approx_float.hpp:scalar", "src/approx_float.hpp:vector", "src/approx_float.hpp:matrix"]}
{"id": "C16", "title": "Comparison operators obey trichotomy and complement laws", "statement": "For the ordering comparisons used by every Array method, exactly one of lt/eq/gt holds, le is lt-or-eq, ge is gt-or-eq, neq is the complement of eq, and any/all/count/first/last/find agree with each other on every array.", "quantifier": "all pairs of values, all arrays, all comparison operators and tolerances", "why_tests_cant": "all inputs", "anchors": ["src/comparisons.hpp:Comparer", "src/array.tpp:all", "src/array.tpp:any", "src/array.tpp:first", "src/array.tpp:count"]}
{"id": "C17", "title": "The space-group database is internally consistent and its lookups are exact", "statement": "Each of the 530 Hall numbers indexes its own row; looking a Hall symbol up returns a Hall number whose row carries that symbol; looking up an international number returns a row with that international number and international numbers 1 to 230 are all reachable; the Bravais letter agrees with the Hall symbol's lattice letter.", "quantifier": "every row of the 530-row table and every key string/number", "why_tests_cant": "tests sample rows; the number of keys is unbounded", "anchors": ["src/spg_database.cpp:ALL_SPACEGROUPS", "src/spg_database.cpp:international_number_to_hall_number", "src/spg_database.cpp:hall_symbol_to_hall_number"]}
{"id": "C18", "title": "Primitive-cell transformation matrices are mutually inverse for every centring", "statement": "For every Bravais letter the matrices returned by PrimitiveTransform satisfy P * invP = identity (6P * invP = 6 * identity), the transposed accessors are their transposes and det(invP) is the number of lattice points per conventional cell.", "quantifier": "all Bravais letters including P", "why_tests_cant": "finite but must also hold for the degenerate P case which tests skip", "anchors": ["src/primitive.hpp:PrimitiveTransform"]}
{"id": "C19", "title": "Transforming vectors to the primitive lattice and back is the identity and preserves q.x", "statement": "transform_from_primitive(transform_to_primitive(v)) = v for real-space and reciprocal-space vectors, the two transformations preserve the scalar product between a reciprocal and a real vector, and integer reciprocal-lattice vectors obeying the centring rule map to integer vectors.", "quantifier": "all vectors and all centrings", "why_tests_cant": "infinitely many vectors", "anchors": ["src/transform.hpp:transform_to_primitive", "src/transform.hpp:transform_from_primitive"]}
{"id": "C20", "title": "The Munkres solver terminates and returns a minimum-cost assignment", "statement": "For every square cost matrix with non-zero total absolute cost the solver terminates and get_assignment returns a permutation whose total cost is minimal among all permutations.", "quantifier": "all sizes N and all N x N cost matrices over an ordered field", "why_tests_cant": "optimality quantifies over all permutations of all matrices", "anchors": ["src/munkres.hpp:Munkres"]}
{"id": "C21", "title": "The Jonker-Volgenant solver returns mutually inverse row and column solutions", "statement": "For every square cost matrix lapjv terminates with rowsol and colsol mutually inverse permutations of the indices; a user additionally expects the assignment to have minimal cost.", "quantifier": "all sizes and all cost matrices", "why_tests_cant": "all matrices of all sizes", "anchors": ["src/lapjv.hpp:lapjv"]}
{"id": "C22", "title": "The stable-matching solver returns mutually inverse assignments", "statement": "When the stable matching routine reports success, the row and column solutions are mutually inverse permutations, and (as its name promises) no row and column both prefer each other to their partners.", "quantifier": "all preference (cost) matrices of all sizes", "why_tests_cant": "all matrices of all sizes", "anchors": ["src/smp.hpp:smp"]}
{"id": "C23", "title": "In-place permutation of objects equals out-of-place permutation", "statement": "apply_permutation(objects, p) leaves result[i] = old[p[i]] for every i and resets p to the identity; apply_inverse_permutation(objects, p) leaves result[p[i]] = old[i].", "quantifier": "all vectors and all permutations of their indices", "why_tests_cant": "all permutations of all sizes; cycle structure matters", "anchors": ["src/permutation.hpp:apply_permutation", "src/permutation.hpp:apply_inverse_permutation"]}
{"id": "C24", "title": "Interpolation is linear in the data, exact at vertices and reproduces constants", "statement": "Interpolating with vertex weights that sum to one returns the data of a vertex when its weight is one, returns any datum shared by all vertices (after their mode permutations), is linear in the stored data, and is unchanged if the vertices and weights are listed in another order.", "quantifier": "all data arrays, mode counts, permutations and weights", "why_tests_cant": "all real inputs", "anchors": ["src/interpolator_at.tpp:interpolate_at_mix", "src/interpolatordual.hpp:interpolate_at"]}
{"id": "C25", "title": "Cuboid node weights are a partition of unity reproducing the point", "statement": "For a point inside an axis-aligned cuboid node the returned weights are non-negative, sum to one, only mention node vertices and reproduce the point as weighted mean of the vertices; for a vertex point only that vertex is returned; a point outside is rejected when containment is not asserted.", "quantifier": "all cuboids with positive side lengths and all points", "why_tests_cant": "continuum of inputs", "anchors": ["src/trellis_node.hpp:CubeNode::indices_weights"]}
{"id": "C26", "title": "Tetrahedron weights are barycentric coordinates", "statement": "For any non-degenerate positively oriented tetrahedron and any point the computed weights sum to one and reproduce the point, all are non-negative exactly when the point is inside, and indices_weights returns true exactly when some tetrahedron of the node contains the point.", "quantifier": "all tetrahedra and points, all lists of tetrahedra", "why_tests_cant": "continuum of inputs", "anchors": ["src/trellis_node.hpp:PolyNode::tetrahedra_contains", "src/trellis_node.hpp:PolyNode::indices_weights", "src/nest.hpp:NestLeaf::weights"]}
{"id": "C27", "title": "The trellis bin search finds the containing bin", "statement": "For increasing bin edges and a point within them find_bin returns the index i with edge[i] <= x < edge[i+1]; outside it returns the first bin below and an out-of-range index at or above the last edge, and on_boundary only ever proposes a step that stays in range.", "quantifier": "all strictly increasing edge lists and all points", "why_tests_cant": "continuum of inputs", "anchors": ["src/trellis_poly.hpp:find_bin", "src/trellis_poly.hpp:on_boundary"]}
{"id": "C28", "title": "Trellis node numbering is a bijection and neighbours are symmetric", "statement": "Converting a node subscript to its linear index and back is the identity in both directions for all in-range values; node_neighbours lists exactly the in-range nodes differing by at most one in each direction (non-null, never the node itself), each once, and neighbourhood is symmetric.", "quantifier": "all trellis sizes, all nodes", "why_tests_cant": "unbounded trellis sizes", "anchors": ["src/trellis_poly.hpp:sub2idx", "src/trellis_poly.hpp:idx2sub", "src/trellis_poly.hpp:node_neighbours", "src/trellis_poly.hpp:span"]}
{"id": "C29", "title": "Vertex bookkeeping returns an index that decodes to the vertex that was added", "statement": "After any history of preserve/add calls, each returned (type,index) pair decodes, against the consolidated vertex list, to a vertex equal to the one supplied at that call, no vertex of the list is stored twice by the history, and earlier results stay valid.", "quantifier": "all histories of preserve/add over all pristine vertex sets", "why_tests_cant": "histories are unbounded", "anchors": ["src/vertex_map_set.h:VertexMapSet", "src/vertex_index_map.h:VertexIndexMap::decode"]}
{"id": "C30", "title": "Combining per-thread vertex maps preserves every node's vertices", "statement": "For any number of per-thread vertex maps built on the same pristine set with disjoint nodes, the reduction (serial or parallel tree) yields one vertex list and one node map such that every (node, vertex number) refers to a vertex equal to the one it referred to before; the result is the same whatever order the pairwise combinations finish in.", "quantifier": "all numbers of threads, all distributions of nodes to threads, all schedules of the pairwise reduction", "why_tests_cant": "schedules and distributions are unbounded", "anchors": ["src/vertex_map_knit.h:combine", "src/vertex_map_knit.h:parallel_reduce", "src/vertex_map_knit.h:reduce", "src/vertex_map_knit.h:consolidate_pair"]}
{"id": "C31", "title": "Parallel sorting of modes is independent of the thread schedule and symmetric", "statement": "After DualInterpolator::sort the permutation stored for every pair (i,j) is the one computed from the data of i and j alone, whatever order threads run in, and the permutations stored for (i,j) and (j,i) are mutually inverse.", "quantifier": "all interleavings of the worker threads, all key sets, all data", "why_tests_cant": "thread schedules cannot be enumerated by tests", "anchors": ["src/interpolatordual.hpp:sort", "src/permutation_table.hpp:overwrite"]}
{"id": "C32", "title": "Parallel interpolation equals serial interpolation for every schedule", "statement": "interpolate_at with threads writes, for every point, the same values as the single-threaded version regardless of scheduling, and throws if and only if some point cannot be located or some point's evaluation throws.", "quantifier": "all schedules, all point lists, all data", "why_tests_cant": "thread schedules cannot be enumerated by tests", "anchors": ["src/trellis_poly.hpp:interpolate_at", "src/nest.hpp:interpolate_at", "src/thread_exception.h:ThreadException"]}
{"id": "C33", "title": "Moving a point into the first Brillouin zone only subtracts a reciprocal lattice vector", "statement": "For every Q for which moveinto returns, Q = q + tau with tau an integer combination of reciprocal lattice vectors and q inside the zone, in the conventional as well as in the primitive setting, and the search always stops after at most as many steps as there are zone faces.", "quantifier": "all Q points, all zones, all centrings", "why_tests_cant": "continuum of inputs", "anchors": ["src/bz_move.cpp:moveinto", "src/bz_move.cpp:part_moveinto_prim"]}
{"id": "C34", "title": "Moving a point into the irreducible zone uses a point-group operation that reconstructs it", "statement": "For every Q for which ir_moveinto returns, Q = transpose(R) q + tau with R the point-group operation at the returned index, the returned inverse index refers to its inverse, and q lies in the irreducible wedge.", "quantifier": "all Q, all point groups, all wedges", "why_tests_cant": "continuum of inputs and all groups", "anchors": ["src/bz_move.cpp:ir_moveinto", "src/bz_move.cpp:ir_moveinto_wedge"]}
{"id": "C35", "title": "Polyhedron face equality is equality up to cyclic rotation and reordering", "statement": "Two face lists compare equal exactly when there is a one-to-one correspondence between faces under which each face is a cyclic rotation of its partner; the relation is reflexive, symmetric and transitive and distinguishes a face from its mirror image.", "quantifier": "all face lists", "why_tests_cant": "all lists of all sizes", "anchors": ["src/polyhedron_faces.cpp:Faces::operator!="]}
{"id": "C36", "title": "Polyhedron volume is independent of face bookkeeping", "statement": "The computed volume does not change when faces are reordered, when the starting vertex of a face is rotated, or when vertices are relabelled; it changes sign when every face is reversed, scales with the cube of a dilation, and for a closed surface is unchanged by translating the vertices.", "quantifier": "all vertex arrays and face lists", "why_tests_cant": "continuum of inputs", "anchors": ["src/polyhedron_faces.hpp:volume", "src/polyhedron_faces.hpp:mirror", "src/polyhedron_faces.hpp:permute"]}
{"id": "C37", "title": "Reindexing faces after removing vertices keeps every face's corner points", "statement": "Each routine which drops vertices and renumbers faces (remove_points, remove_faceless_points, vertex purge, duplicate removal, convex-hull finishing) returns faces whose renumbered indices are in range and refer to the same corner points as before.", "quantifier": "all vertex lists, face lists and keep masks", "why_tests_cant": "unbounded inputs", "anchors": ["src/geometry.hpp:remove_points_and_update_face_indexing", "src/geometry.hpp:remove_faceless_points", "src/geometry.hpp:polygon_face_vertex_purge", "src/geometry.hpp:remove_duplicate_points_and_update_face_indexing", "src/polyhedron_flex.hpp:finish_convex_hull"]}
{"id": "C38", "title": "Cutting a polyhedron by a plane never leaves it", "statement": "Every vertex of the polyhedron returned by one_cut/cut/intersection lies on or behind every cutting plane and is a convex combination of vertices of the original polyhedron.", "quantifier": "all polyhedra and planes (exact arithmetic)", "why_tests_cant": "continuum of inputs", "anchors": ["src/polyhedron_faces.hpp:one_cut", "src/geometry.hpp:valid_edge_plane_intersections", "src/geometry.hpp:keep_to_cut_edge_list"]}
{"id": "C39", "title": "Lists, maps and settings survive a save/load cycle", "statement": "Reading back what was written with lists_to_hdf / map_to_hdf / Config / interpolator metadata yields the original value.", "quantifier": "all lists of lists, all finite maps, all settings", "why_tests_cant": "unbounded inputs", "anchors": ["src/hdf_interface.hpp:lists_to_hdf", "src/hdf_interface.hpp:map_to_hdf", "src/interpolator.hpp:to_hdf"]}
{"id": "C40", "title": "Relative neighbour offsets list every non-zero offset exactly once", "statement": "make_relative_neighbour_indices(extent) and its axis-first variant list every non-zero integer offset with components between -extent and extent exactly once (in 3 and in 4 dimensions).", "quantifier": "all non-negative extents", "why_tests_cant": "extents are unbounded", "anchors": ["src/neighbours.cpp:make_relative_neighbour_indices", "src/neighbours.cpp:make_relative_neighbour_indices_prime", "src/neighbours.cpp:make_relative_neighbour_indices4"]}
{"id": "C41", "title": "Index-list utilities compute what their names say", "statement": "invert_lists is the transpose relation of its input, unique keeps the first occurrence of every value in order, add_if_missing is idempotent and adds exactly the value, add_between_if_missing inserts the value between the two given neighbours and nowhere else, and unordered_list_in_lists holds exactly when some list is a permutation of the candidate.", "quantifier": "all lists", "why_tests_cant": "unbounded lists", "anchors": ["src/utilities.hpp:invert_lists", "src/utilities.hpp:unique", "src/utilities.hpp:add_if_missing", "src/utilities.hpp:add_between_if_missing", "src/utilities.hpp:unordered_list_in_lists"]}
{"id": "C42", "title": "Integer helpers: gcd, binomial coefficients, parity of permutations", "statement": "gcd returns the greatest common divisor, binomial_coefficient(n,k) returns n choose k, and is_positive_permutation(a,b) tells whether b is an even rearrangement of a.", "quantifier": "all integers and all lists", "why_tests_cant": "unbounded inputs", "anchors": ["src/utilities.tpp:gcd", "src/utilities.tpp:binomial_coefficient", "src/utilities.hpp:is_positive_permutation"]}
{"id": "C43", "title": "Nested tetrahedral search returns weights of a leaf that contains the point", "statement": "For every tree of nested tetrahedra the search returns vertices of one leaf tetrahedron all of whose ancestors contain the point, with weights that sum to one and reproduce the point; it returns nothing only if no root-to-leaf chain contains the point; the keys collected from the tree cover every pair of vertices that such a result can mention.", "quantifier": "all trees, all points", "why_tests_cant": "unbounded trees", "anchors": ["src/nest.hpp:NestNode::indices_weights", "src/nest.hpp:collect_keys", "src/nest.hpp:tetrahedra"]}
{"id": "C44", "title": "Hall symbols are decoded to the tabulated symmetry elements", "statement": "Every rotation matrix produced when decoding a Hall symbol has determinant +-1 and the order given by the symbol's digit, generators of centred lattices include the centring translations, and every one of the 530 tabulated Hall symbols decodes successfully.", "quantifier": "all Hall symbol strings in the grammar and all 530 database rows", "why_tests_cant": "tests sample a few symbols", "anchors": ["src/hall_symbol.cpp:HallSymbol::get_generators", "src/hall_symbol.cpp:SeitzSymbol"]}
{"id": "C45", "title": "Point-group tables identify each point group uniquely", "statement": "The 32 crystallographic classes are distinguished by their table of rotation-type counts: the lookup returns the table index of the class and no other index has the same counts.", "quantifier": "all 32 classes and all count tables", "why_tests_cant": "must hold for every class and every possible count table", "anchors": ["src/pointgroup.cpp:pointgroup_data", "src/pointgroup.cpp:get_pointgroup_number"]}
{"id": "C46", "title": "Selecting unique rows keeps one representative of every row", "statement": "is_unique flags exactly the rows that differ from all earlier rows; unique() lists the rows flagged in order, pairwise different, and (when row equality is an equivalence) one for every original row; unique_idx gives every row the index of an earlier or equal row that is its own representative and equal to it.", "quantifier": "all arrays of rows and all row comparisons", "why_tests_cant": "all arrays; approximate equality is not transitive", "anchors": ["src/array.tpp:is_unique", "src/array.tpp:unique_idx", "src/array.tpp:unique"]}
{"id": "C47", "title": "The nested tetrahedral mesh is built correctly and covers the polyhedron", "statement": "For any triangulation routine that returns correct tetrahedra covering what it is given, building the nested mesh never throws, never changes or duplicates a vertex already numbered, gives every tetrahedron indices in range together with its true volume, leaves only tetrahedra within the volume limit or at the deepest permitted level, and as a result every point of the polyhedron gets positive weights that sum to one and reproduce it.", "quantifier": "all polyhedra, triangulation routines, volume limits, branching limits, and points", "why_tests_cant": "unbounded recursion and a continuum of points", "anchors": ["src/nest.tpp:Nest::construct", "src/nest.tpp:Nest::subdivide", "src/nest.hpp:NestNode::indices_weights"]}
{"id": "C48", "title": "Adding the space inversion to a point group gives the group with its inverted operations", "statement": "add_space_inversion returns a list that already has the inversion unchanged; otherwise it returns exactly the operations of the group and their products with the inversion, each once.", "quantifier": "all finite lists of integer matrices of finite order that form a group, in any order", "why_tests_cant": "the outcome depends on the order in which the operations are listed; there are far too many orders to try", "anchors": ["src/pointsymmetry.cpp:add_space_inversion", "src/symmetry.cpp:add_space_inversion"]}
{"id": "C49", "title": "Conversions between signed and unsigned integers keep the value or refuse", "statement": "u2s returns the same number exactly when the signed type can hold it and throws otherwise; s2u returns the same number exactly when the unsigned type can hold it and throws otherwise; s2u undoes u2s.", "quantifier": "all values and all pairs of widths", "why_tests_cant": "all values of all integer types", "anchors": ["src/utilities.tpp:u2s", "src/utilities.tpp:s2u"]}
{"id": "C50", "title": "Centroid of a polyhedron", "statement": "The centroid of a closed polyhedron with a volume moves with the polyhedron under translation and scaling, and is the mean of the vertices for a tetrahedron and the middle for a box.", "quantifier": "every list of faces forming a closed surface, every vertex position, every translation and scale", "why_tests_cant": "the identity holds for all closed surfaces and all real coordinates, a continuum of cases", "anchors": ["src/polyhedron_faces.hpp:centroid", "src/polyhedron_faces.hpp:volume"]}
{"id": "C51", "title": "Edges of a polyhedron", "statement": "The list of edges has every edge of the faces exactly once, in one of its two directions; it is returned exactly if vertices, edges and faces satisfy Euler's relation. The list of vertex indices names each vertex used by a face once.", "quantifier": "every list of faces", "why_tests_cant": "there is no bound on the number of faces or vertices", "anchors": ["src/polyhedron_faces.cpp:edges", "src/polyhedron_faces.hpp:indexes"]}
{"id": "C52", "title": "Dangling faces are removed", "statement": "Removing dangling faces ends for every list of faces, and leaves the largest part of it in which every face has at least three corners and every corner is on at least three faces; a list which is like that already is not changed.", "quantifier": "every list of faces", "why_tests_cant": "termination and maximality are about all lists, and the loop repeats an unknown number of times", "anchors": ["src/geometry.hpp:remove_dangling_faces"]}
{"id": "C53", "title": "Cutting a polyhedron by a plane clips every face and closes the hole", "statement": "For a proper polyhedral surface with vertices on both sides of the plane and no face in it, one_cut does not throw, and the faces it returns are exactly the input faces clipped to the kept side (those left with three corners or more, in order) followed by the face whose corners are the points where the edges reach the plane; a polyhedron entirely behind the plane is returned unchanged, one entirely beyond it vanishes.", "quantifier": "all polyhedral surfaces and planes (exact arithmetic), all orders in which edges are met", "why_tests_cant": "continuum of inputs and unbounded numbers of faces and edges", "anchors": ["src/polyhedron_faces.hpp:one_cut", "src/geometry.hpp:keep_to_cut_edge_list", "src/geometry.hpp:valid_edge_plane_intersections", "src/utilities.hpp:add_between_if_missing", "src/geometry.hpp:remove_points_and_update_face_indexing"]}
{"id": "C54", "title": "Array handles never use or free dead memory, whatever the history", "statement": "In any program of array calls (construction, wrapping external memory, copying, assigning, viewing, decoupling, resizing, appending, converting, destroying; exceptions caught) no call reads, writes or deletes memory that was already deleted, external memory is never deleted by an array, every array object points to live memory of the recorded length, and memory the library allocated is released when the last array using it is gone.", "quantifier": "all programs of array calls, all interleavings of copies, views and destructions", "why_tests_cant": "unbounded histories of sharing and destruction; a double free or a leak is invisible to value tests", "anchors": ["src/array.hpp:~Array", "src/array.hpp:operator=", "src/array.hpp:Array", "src/array.tpp:resize", "src/array2.hpp:~Array2", "src/array2.tpp:resize"]}
{"id": "C55", "title": "Views of arrays show exactly the selected elements and share their memory", "statement": "view(), view(i), view(i,j) and view(corner) of any array return an array of the selected shape whose element at every subscript is the corresponding element of the original, for reading and writing; every in-range subscript of every array addresses its own element of its own memory; a row that does not exist is refused without effect.", "quantifier": "all arrays reachable by any program, all layouts and shifts, all subscripts", "why_tests_cant": "all combinations of shapes, strides and nested views", "anchors": ["src/array.tpp:view", "src/array2.tpp:view", "src/array.hpp:init_check", "src/array.hpp:operator[]"]}
{"id": "C56", "title": "Symmetry operations permute the atoms of the unit cell", "statement": "Looking up an atom by type and position finds one exactly if an atom of that type sits at that position in some cell of the crystal, and reports the first; in a unit cell without duplicate atoms every operation that maps the crystal onto itself permutes the atoms among those of the same type, products of operations compose the permutations, and inverses invert them. Snapping atoms to symmetric positions never changes their number or types, never moves atoms already in order, moves no coordinate by more than half a lattice vector, reports success only if every operation then maps every atom to an equivalent one, and puts an atom near a special position onto it.", "quantifier": "all unit cells, all operations, all lists of operations, all comparisons", "why_tests_cant": "the number of crystals and operations is unbounded and duplicated or slightly displaced atoms are rarely tested", "anchors": ["src/basis.hpp:Basis::equivalent_to", "src/basis.hpp:Basis::equivalent_after_operation", "src/basis.hpp:Basis::closest_to", "src/basis.hpp:Basis::snap_to"]}
{"id": "C57", "title": "The table of atom permutations and lattice vectors is right", "statement": "For every point-group operation and atom the table used to rotate phonon eigenvectors holds the number of the atom equivalent to the image under one fixed space-group operation with that rotation part, and a whole lattice vector that, up to a vector common to all atoms, leads back from the image to the first cell; the numbers for one operation form a permutation; vectors are not stored twice and begin with zero; the table is made exactly if the crystal has the symmetry, and refuses questions beyond its size.", "quantifier": "all unit cells, point groups and space groups", "why_tests_cant": "each entry depends on the whole crystal structure and unit tests fix a few crystals", "anchors": ["src/phonon.hpp:GammaTable::construct", "src/phonon.hpp:GammaTable::F0", "src/phonon.hpp:GammaTable::vector"]}
{"id": "C58", "title": "Interpolated results are turned in place consistently with the operation", "statement": "Turning an interpolated result by the point operation that relates the requested point to the irreducible point leaves scalars untouched, turns each vector and each matrix of each branch by the operation its rotates-like setting calls for, changes nothing else in the row, is undone by the inverse operation, and for a field with the symmetry of the crystal gives the value of the field at the requested point.", "quantifier": "every row, every layout of scalars, vectors and matrices with any number of branches, every pair of mutually inverse integer operations", "why_tests_cant": "tests look at a few operations of a few space groups on a few layouts; an offset or a transposed operation shows only for some operations and layouts", "anchors": ["src/interpolator_real.tpp:rip_real", "src/interpolator_recip.tpp:rip_recip", "src/interpolator_axial.tpp:rip_axial", "src/interpolator.hpp:rotate_in_place"]}
{"id": "C59", "title": "Phonon eigenvectors are rotated, permuted and given their phases correctly", "statement": "When a result holds phonon eigenvectors, the rotation in place turns the vector of each atom, multiplies it with the phase of the table of atoms and moves it to the equivalent atom, whatever earlier rows left in the scratch space. For a crystal whose force constants have the symmetry of its space group, an eigenvector of the dynamical matrix at the irreducible point becomes an eigenvector at the requested point, with the same eigenvalue, and scalar products of modes are kept. Writes stay inside the scratch space, and the matrices for pairs of atoms are treated alike.", "quantifier": "every crystal, table, row, number of branches and atoms, every pair of mutually inverse operations, every pair of points related by one of them, every force constants of finite range", "why_tests_cant": "a wrong sign, phase or permutation shows only for atoms off special positions and operations that are not their own inverse; eigenvectors are defined only up to a phase so tests compare only derived quantities", "anchors": ["src/interpolator_gamma.tpp:rip_gamma_complex", "src/interpolator_gamma.tpp:e_iqd", "src/phonon.hpp:GammaTable", "src/interpolator.hpp:rotate_in_place"]}
{"id": "C60", "title": "Interpolating at any point gives the field or the phonons at that point", "statement": "Interpolating at a list of arbitrary points of reciprocal space gives one result per point, in order. If inside of the irreducible zone the interpolation reproduces fields that are periodic and have the symmetry of the crystal, the results are the values of these fields at the points asked for. If there it gives energies and matching phonon eigenvectors, the results at every point are energies and matching eigenvectors at that point.", "quantifier": "every list of points, every crystal, zone, wedge, set of operations, layout and field of the stated symmetry", "why_tests_cant": "the move into the zone, the choice of operation, the interpolation and the rotation must fit together for every operation of every group; tests sample some", "anchors": ["src/bz_trellis.hpp:BrillouinZoneTrellis3::ir_interpolate_at", "src/bz_move.cpp:BrillouinZone::ir_moveinto", "src/interpolator.hpp:rotate_in_place"]}
{"id": "C61", "title": "Sorting finds which modes of two points belong together", "statement": "When an object holding scalar energies and complex eigenvectors is sorted, the cost of pairing mode b of one point with mode c of another is the weighted sum of the absolute differences of their scalars and of the documented vector cost, which does not depend on the arbitrary phases of the vectors. If every mode of the second point is cheapest to pair with a different mode of the first, that pairing is what is stored, and its inverse for the opposite pair. If all points have the same distinguishable modes in different orders and phases, the sort (in parallel, in any schedule) recovers these orders exactly, and interpolating anywhere with weights adding up to one then gives back the modes of the first vertex.", "quantifier": "all numbers of modes and elements, all data, weights and vector cost functions, all table histories, thread counts and schedules", "why_tests_cant": "The data, orders, phases and schedules form infinite families; a wrong pairing shows up only as a mixture of unrelated modes.", "anchors": ["src/interpolator_cost.tpp:add_cost", "src/interpolator.hpp:set_cost_info", "src/interpolatordual.hpp:cost_matrix", "src/interpolatordual.hpp:determine_permutation_ij", "src/interpolatordual.hpp:sort", "src/utilities.tpp:inplace_antiphase"]}
{"id": "C62", "title": "Filling a grid stores exactly the described data, or nothing", "statement": "Filling a grid with arrays of values and vectors ends normally exactly if both arrays have one of the documented layouts for the given element numbers, with the same number of points and of modes, and the roles are known; then every element of the arrays is found again as the documented element of the documented mode of its point. A call that throws leaves the grid unchanged. After any sequence of fills, replacements and sorts the grid holds values and vectors for the same points and modes, and its permutation table announces exactly the pairs of the grid with the identity of the present modes on the diagonal.", "quantifier": "every history of calls, every N-dimensional array shape and content, every element specification", "why_tests_cant": "There are unboundedly many shapes, element specifications and call histories; tests use a few fixed data sets on fresh grids.", "anchors": ["wrap/_interpolator.hpp: fill_check", "wrap/_common_grid.hpp: def_grid_fill", "src/interpolator.hpp: Interpolator::check_elements", "src/interpolator.hpp: Interpolator::branches", "src/interpolator.hpp: Interpolator::replace_data", "src/interpolatordual.hpp: DualInterpolator::replace_data", "src/interpolatordual.hpp: DualInterpolator::replace_value_data", "src/interpolatordual.hpp: DualInterpolator::update_permutation_table"]}
{"id": "C63", "title": "Interpolating a filled grid is memory safe and gives the weighted modes", "statement": "After any sequence of fills, replacements and sorts, interpolate_at reads and writes only inside its arrays, throws exactly if the grid has no data or a point is located nowhere, and otherwise returns arrays with the layout of the stored ones whose every element is the weighted sum over the vertices of the elements of the modes that belong together (for vectors: with the phases removed).", "quantifier": "every history of fills, replacements and sorts, every data layout, every list of points and vertices", "why_tests_cant": "the histories, layouts and locations are unbounded; a wrong offset or shape shows for some layouts only", "anchors": ["src/trellis_poly.hpp:interpolate_at", "src/nest.hpp:interpolate_at", "src/mesh.hpp:interpolate_at", "src/interpolatordual.hpp:interpolate_at", "src/interpolator_at.tpp:interpolate_at_mix"]}
{"id": "C64", "title": "A lattice has the parameters, vectors and duality it was asked for", "statement": "A lattice built from three lengths and angles (degree, radian, multiples of pi, or the unit guessed from the size) without snapping exists exactly if such a cell exists; the built lattice reports these lengths and angles back, its real and reciprocal basis vectors are dual (a_i . b_j = 2 pi delta_ij), right-handed and in the Busing-Levy orientation. Built from three non-coplanar vectors it has these vectors and their dual. Metrics are the scalar products, volumes multiply to (2 pi)^3, coordinate transformations are inverse to each other and the primitive lattice is dual again with the volume divided by the number of centring points.", "quantifier": "every length unit, angle unit, all positive lengths and angles in (0, pi), every non-singular matrix, every centring", "why_tests_cant": "trigonometric shortcuts, unit guesses and inverse matrices for all real parameters; tests look at a few cells", "anchors": ["src/lattice_dual.hpp:LatticeDual", "src/math.hpp:cos_and_sin_d", "src/linear_algebra.hpp:mat_inverse"]}
{"id": "C65", "title": "Products of lattice vectors are products of the positions", "statement": "For two lattice vectors of the same lattice (each real or reciprocal), the scalar product, norm, dual vector (star), vector product and conversion from Cartesian coordinates give what they should in Cartesian space: the dot product is that of the positions (with the 2 pi of mixed units), the norm is the length, star is the same position on the other basis, and the cross product of two vectors has the position of the vector product.", "quantifier": "all lattices built by the constructors, all pairs of coordinate vectors", "why_tests_cant": "identities between coordinates on non-orthogonal bases must hold for all metrics; tests compare a few cells numerically", "anchors": ["src/array_lvec_methods.tpp:LVec", "src/array_functions.hpp:dot", "src/array_functions.hpp:cross"]}
{"id": "C66", "title": "Adjusting a lattice to its symmetry keeps symmetric lattices and never fails for tabulated groups", "statement": "By default a lattice is adjusted (snapped) to its symmetry operations when it is constructed. For each of the 530 tabulated space group settings: a cell that has the symmetry is left exactly as it is, whether given by parameters or vectors and for either space; adjusting any other cell throws no exception and gives the parameters of a cell again; the centring found from the operations is the one of the Hall symbol. For every group of operations, basis vectors related by an operation become equally long, unrelated ones keep their length, and the adjusted basis is dual with the adjusted lengths and angles.", "quantifier": "all 530 settings, all real lengths, angles and vectors, every tolerance under which equal numbers compare equal, all finite groups of integer matrices", "why_tests_cant": "the branches depend on which operations link which axes; only a handful of the settings are tested, with few cells each", "anchors": ["src/lattice_dual.hpp:snap_to_symmetry", "src/lattice_dual.hpp:set_vectors", "src/symmetry.cpp:getcentring", "src/pointsymmetry.cpp:mat_vec_links"]}
{"id": "C67", "title": "Cutting a convex polyhedron keeps exactly the part behind all planes", "statement": "Cutting a convex polyhedron with any list of planes does not throw. If some point of it lies strictly behind all of the planes the result is a convex polyhedron, and otherwise it is empty; a point of space belongs to a result that is not empty if and only if it belongs to the original and is not beyond any of the planes. The order in which the corners of each new face are listed is the one the code computes. The containment test of the result answers accordingly, and the bounding boxes the code starts from are convex polyhedra.", "quantifier": "all convex polyhedra with any number of vertices and faces, all lists of planes, all points of space", "why_tests_cant": "The number of faces and planes is unbounded and so are the positions of the planes: vertices in a plane, edges cut at their ends, faces that vanish, all occur for special positions only; equality of two sets of points cannot be tested point by point", "anchors": ["src/polyhedron_faces.hpp:one_cut", "src/polyhedron_faces.hpp:cut", "src/geometry.hpp:sort_convex_polygon_face", "src/geometry.hpp:bare_winding_angles", "src/polyhedron_faces.hpp:contains", "src/polyhedron_flex.hpp:bounding_box"]}
{"id": "C68", "title": "The polyhedron of a Brillouin zone", "statement": "Constructing a Brillouin zone from a lattice yields a convex polyhedron whose points are those at least as close to the origin as to any of the reciprocal lattice points taken into account, symmetric under inversion, and from some extent on exactly the first Brillouin zone of the infinite lattice; the rule that ends the search for that extent, an unchanged volume, is expected to end it no earlier.", "quantifier": "Every non-singular lattice with rational vectors, every extent, every order of equally distant lattice points, every comparison of volumes, every point of space.", "why_tests_cant": "Lattices and points of space are unbounded, and the number of cuts grows with the extent; a test compares the result for a few lattices with reduced cells, for which the stopping rule happens to work.", "anchors": ["src/bz.cpp:BrillouinZone::voro_search", "src/bz.hpp:BrillouinZone::construct", "src/geometry.hpp:plane_points_from_normal", "src/polyhedron_flex.hpp:bounding_box"]}
{"id": "C69", "title": "The computed volume of a convex polyhedron is its volume", "statement": "For every convex polyhedron (as made by the bounding box and by cuts) the volume returned by Polyhedron::volume is the Lebesgue measure of the set of its points and is positive; a convex polyhedron that is part of another has at most its volume, and the same volume only if it is the same set; and the volumes of the two parts into which a plane cuts a polyhedron add up to the volume of the whole.", "quantifier": "all convex polyhedra with any number of vertices and faces, all planes", "why_tests_cant": "the polyhedra form a continuum, and a test compares the sum over triangles with another formula, not with the measure of the set", "anchors": ["src/polyhedron_faces.hpp:volume", "src/polyhedron_flex.hpp:volume", "src/polyhedron_flex.hpp:cut"]}
{"id": "C70", "title": "A trial irreducible Brillouin zone that passes the check fills the first zone without overlap", "statement": "When the check of a trial irreducible polyhedron (convex, part of the first Brillouin zone) succeeds with exact comparisons, the images of the polyhedron under the point group operations cover the whole first Brillouin zone, so that every point of the zone can be carried into the polyhedron by some operation, and no operation other than the identity carries a part of positive volume of the polyhedron into itself. (Not so if inversion is the only operation besides the identity, where only the volume is compared; there the dedicated triclinic division is complete.)", "quantifier": "every reciprocal basis with rational Cartesian coordinates, every finite group of integer matrices given as a list (with or without added time reversal), every pair of convex polyhedra, every point of the zone", "why_tests_cant": "The check samples neither points nor operations: that volume plus pairwise non-intersection implies covering is a measure-theoretic fact about all polyhedra and groups; tests only see single lattices and single points.", "anchors": ["src/bz.cpp:BrillouinZone::check_ir_polyhedron", "src/polyhedron_flex.hpp:Poly::apply", "src/polyhedron_flex.hpp:Poly::intersects", "src/polyhedron_flex.hpp:Poly::intersection", "src/bz_wedge.cpp:BrillouinZone::wedge_triclinic", "src/pointsymmetry.cpp:PointSymmetry::higher"]}
{"id": "C71", "title": "A successful construction finds an irreducible Brillouin zone and normals that describe it", "statement": "When a Brillouin zone has been constructed without an exception, its irreducible polyhedron is a convex part of the first zone with the share of its volume that belongs to one operation; no operation but the identity carries more than a set of volume zero of it to itself, and the operations together carry it to the whole zone. The wedge normals describe it: a point of the first zone is in the irreducible polyhedron exactly when no normal has a negative product with it, so that a point moved by ir_moveinto ends up in the irreducible polyhedron, and ir_moveinto fails only if moveinto does. For triclinic lattices the construction always succeeds.", "quantifier": "every lattice and point group, every first zone that the group and the inversion map to itself, every choice of the cutting planes in every attempt of the search, every point", "why_tests_cant": "The search is a heuristic: which planes are cut with depends on the special points of the zone; that whatever passes the final check is a correct irreducible zone described by its normals must hold for all lattices and all choices, and is a statement about sets of points.", "anchors": ["src/bz.hpp:BrillouinZone::construct", "src/bz.hpp:BrillouinZone::check_if_mirroring_needed", "src/bz.cpp:BrillouinZone::get_ir_polyhedron_wedge_normals", "src/bz.cpp:BrillouinZone::check_ir_polyhedron", "src/bz_wedge.cpp:BrillouinZone::wedge_brute_force", "src/bz_wedge.cpp:BrillouinZone::wedge_triclinic", "src/bz_move.cpp:BrillouinZone::ir_moveinto"]}
{"id": "C72", "title": "The convex hull of points is a convex polyhedron with exactly the points of the hull", "statement": "For points which are not all in one plane, the polyhedron constructed from the points alone is a convex polyhedron: every edge is shared by two faces that run along it in opposite directions, all corners are behind every face, its vertices are given points, each of them a corner, and the set of its points is exactly the convex hull of the given points. (False of the code if some of the points are strictly inside a face, or if the first three points on a face are on one line.)", "quantifier": "every list of different points, in every order and of every number within the limit of the counter, which are not all in one plane", "why_tests_cant": "The configurations form a continuum of any dimension; that the planes found through triples of points, grouped and sorted, close up to a surface and enclose exactly the hull is a statement about all of them and about sets of points.", "anchors": ["src/geometry.hpp:find_convex_hull_planes", "src/geometry.hpp:find_planes_containing_point", "src/geometry.hpp:polygon_faces", "src/geometry.hpp:face_has_area", "src/geometry.hpp:sort_convex_polygon_face", "src/polyhedron_faces.hpp:Faces", "src/polyhedron_flex.hpp:Poly"]}
{"id": "C73", "title": "The knots of the hybrid grid", "statement": "Building a hybrid grid in a polyhedron with a positive largest node volume makes knots along each Cartesian axis that increase in equal steps from the least to the largest coordinate of the vertices, as few as possible; no node is larger than the largest volume; the loop that makes them ends.", "quantifier": "every list of vertices with an extent along the axis, every positive largest volume, every axis", "why_tests_cant": "The number and place of the knots depends on the extents and the volume in a way examples only sample, and a loop that fails to end cannot be seen by a test that passes.", "anchors": ["src/trellis_poly_parallel.tpp PolyTrellis::construct"]}
{"id": "C74", "title": "The types of the nodes of the hybrid grid", "statement": "Building a hybrid grid in a convex polyhedron does not throw, and every node gets the right type: it is used exactly if inner points of its box are points of the polyhedron, it is a cube exactly if its whole box belongs to the polyhedron and does not contain the origin (unless all nodes are to be divided into tetrahedra), and the part of the polyhedron kept for a node that is used is a convex polyhedron with exactly the points the box and the polyhedron share; a node is never discarded because of its distance although it shares a point.", "quantifier": "every convex polyhedron, every positive largest volume, every node, either setting of always_triangulate", "why_tests_cant": "A node wrongly taken for null leaves a hole in the zone only for polyhedra in special position relative to the grid; the test by circumscribed spheres must be sound for every shape.", "anchors": ["src/trellis_poly_parallel.tpp PolyTrellis::construct part_one", "src/trellis_poly.hpp maximum_node_circumsphere_radius trellis_node_faces", "src/polyhedron_flex.hpp intersection"]}
{"id": "C75", "title": "Every point of the polyhedron finds a node", "statement": "In a hybrid grid built in a convex polyhedron, every point of the polyhedron, also one on the boundary of nodes or of the polyhedron, is assigned to an existing node that is used and whose box contains it; the parts kept for the nodes that are used cover the polyhedron and have no inner points in common.", "quantifier": "every convex polyhedron, every positive largest volume, every point of the polyhedron", "why_tests_cant": "Points on faces, edges and corners of nodes next to nodes that are not used are a set of measure zero that random points do not meet, and the order in which neighbours are tried matters there.", "anchors": ["src/trellis_poly.hpp node_subscript node_index find_bin on_boundary", "src/trellis_poly_parallel.tpp PolyTrellis::construct"]}
{"id": "C76", "title": "A constructed hybrid grid interpolates everywhere", "statement": "Constructing a hybrid grid in a convex polyhedron does not throw however the nodes are distributed over threads; its vertices are different points of the polyhedron, with all its corners among them and the origin if it is in the polyhedron, and its stored boundary is the polyhedron. For every point of the polyhedron it then reports vertices, none further away than the node edge along an axis, with positive weights that add up to one and reproduce every function linear up to a constant. This relies on TetGen returning tetrahedra that cover the polyhedron it is given, and on vertices which TetGen adds being appended by one thread at a time.", "quantifier": "every convex polyhedron, every positive node edge, every distribution of the nodes over threads and order of handling them, either setting of always_triangulate, every TetGen that covers what it is given, every point of the polyhedron", "why_tests_cant": "A wrong vertex number gives plausible interpolation results in all but the affected nodes; numbers depend on the number of threads, on the order of reduction and on which vertices coincide.", "anchors": ["src/trellis_poly_parallel.tpp PolyTrellis::construct part_one part_two", "src/trellis_node.hpp NodeContainer PolyNode CubeNode", "src/triangulation_poly.hpp LQPolyTet", "src/vertex_map_set.h", "src/vertex_index_map.h", "src/trellis_poly.hpp indices_weights"]}
{"id": "C77", "title": "The layered tetrahedral mesh locates and interpolates everywhere", "statement": "For any triangulation routine that returns correct tetrahedra covering a convex polyhedron, building the layered mesh does not throw however threads share the work, has the requested number of layers, and connects each tetrahedron with exactly the tetrahedra of the next layer that overlap with it or have a corner in it. Then every point of the polyhedron is located: the weights returned belong to different vertices of the lowest layer, are positive, sum to one and place the point; interpolation is exact for functions linear up to a constant and stays within the range of the data. Neighbours of a vertex and the keys of pairs are those of common tetrahedra.", "quantifier": "every convex polyhedron, largest cell volume, number of layers, TetGen result meeting its contract, order in which threads handle tetrahedra, and every point of the polyhedron", "why_tests_cant": "A test locates some points in some mesh; that the search never loses a point between layers needs an argument for every point, including those on faces, edges and corners shared by tetrahedra of both layers", "anchors": ["src/triangulation_layers.hpp:TetTriLayer", "src/triangulation_layers.hpp:TetTri::connect", "src/triangulation_layers.hpp:TetTri::locate", "src/triangulation_layers.hpp:triangulate", "src/mesh.hpp:Mesh3::interpolate_at"]}
{"id": "C78", "title": "Functions that look at the elements of an array do not depend on its layout", "statement": "For a two-dimensional array showing a table of values, searches (all, any, count, first, last, find, comparisons), element-by-element functions (abs, negation, powers, rounding), contiguous copies, in-place operations with a number, reductions (sum, product, minimum, maximum along a dimension or in total), comparisons of rows and inner products of rows depend only on the table, in row order, and not on how the elements lie in memory; an operation in place changes nothing in memory but the elements of the array.", "quantifier": "every table, every extents, every layout in memory (row order, column order, views with gaps), every predicate or function of an element", "why_tests_cant": "Tests use freshly made arrays in row order; views, slices taken over from Python and column-ordered arrays are the cases that fail", "anchors": ["src/array2.tpp:all any count first last find is abs sum prod min max", "src/array2.tpp:row_is count find dot", "src/array2.hpp:contiguous_copy is_contiguous"]}
{"id": "C79", "title": "Rows of an array can be chosen, replaced, exchanged and permuted", "statement": "Setting a row replaces exactly that row; extraction by row numbers or by flags gives the rows asked for in order and refuses numbers and masks that do not fit; unique keeps one row of each kind; reshaping keeps the elements in row order; swapping and permuting rows ends and puts the rows where they belong without touching other memory; is_permutation says whether two arrays have the same rows up to order, and permutation_vector gives the permutation.", "quantifier": "every array in every layout, every list of row numbers or flags, every permutation", "why_tests_cant": "Permuting in place by cycles is wrong only for some permutations, and writing outside of rows shows only in other arrays sharing the memory", "anchors": ["src/array2.tpp:set extract unique reshape swap permute is_permutation permutation_vector"]}
{"id": "C80", "title": "Arrays from and to Python and between array kinds have the same elements", "statement": "A numpy array given to the library, and an array returned by it to Python, show the same elements for all subscripts, without copying; conversion between arrays of two and of more dimensions keeps the elements in row order.", "quantifier": "every numpy array (shape, strides, element size) and every array object, every subscript", "why_tests_cant": "Tests pass freshly made numpy arrays; slices, reversed and transposed arrays, fields of structured arrays and arrays beyond 4 GB are different descriptions of memory", "anchors": ["wrap/_array.hpp:py2a py2a2 a2py", "src/array.hpp:Array(const Array2&, shape)", "src/array2.hpp:Array2(const Array&)"]}
{"id": "C81", "title": "Interpolation anywhere in reciprocal space is as good as the sampling", "statement": "A grid made for a lattice with symmetry is filled with a scalar that is periodic and has the symmetry of the crystal. Wherever a point is in reciprocal space, interpolation gives a value for it; that value differs from the sampled function at the point by no more than the function changes over the edge of one node, never leaves the range of the data, and is exact if the function is linear within the irreducible zone (which also holds for vectors and matrices).", "quantifier": "every lattice and point group whose irreducible zone was found, every edge length, every history of calls that fill the grid without sorting, every list of points, every function with the symmetry", "why_tests_cant": "tests compare a few points for one dispersion; the bound has to hold for every point, lattice and function, and needs all steps from the zone to the grid and back at once", "anchors": ["src/bz_trellis.hpp ir_interpolate_at", "src/trellis_poly.hpp interpolate_at", "src/trellis_poly_parallel.tpp PolyTrellis", "src/bz_wedge.cpp wedge_search", "src/bz.cpp ir_moveinto"]}
{"id": "C82", "title": "Sorted interpolation in the hybrid grid follows the modes", "statement": "The hybrid grid announces, for sorting, exactly pairs of distinct vertices that are at most one node apart, both ways round, and with every point of the polyhedron come only vertices any two of which are announced. If the modes at announced pairs of vertices fit better to their own continuation than to any other, sorting them ends without an exception under every schedule of its threads, and afterwards every interpolation adds up, for each mode, only what the surrounding vertices hold for that same mode (vectors after being brought into phase): the result for a mode that is a function of position is within the change of this function over one node, and exact if it is affine.", "quantifier": "every convex polyhedron, node size, TetGen with the documented result, distribution of nodes over threads, history of fills, number of threads and schedule of the sort, number of modes and vector components, point of the polyhedron", "why_tests_cant": "sorting errors depend on the pairs of vertices, the order in which threads write and the point asked for; tests cannot cover all schedules and points", "anchors": ["src/trellis_poly_parallel.tpp collect_keys", "src/trellis_poly_parallel.tpp collect_keys_node", "src/interpolatordual.hpp sort", "src/interpolatordual.hpp determine_permutations", "src/trellis_poly.hpp interpolate_at"]}
{"id": "C83", "title": "What is asked for in Python is what is made", "statement": "Every documented way to call create_bz (three lengths and three angles as numbers, arrays, rows or columns, or three vectors; by position or by name; the space group by position or by name) asks the compiled module for the same lattice, group and options; names have precedence over positions; a zone is only made for a group given as text. create_grid makes a grid exactly for consistent arguments, of the kind, number types and parameters asked for. Lattice refuses only mixed groups, atoms without symmetry, and group together with operations, and passes on everything else. Not true of the code: Hall numbers are refused, misspelt options are ignored, complex values with real vectors give a grid of real values, densities lose their fraction and are ignored for other grids.", "quantifier": "all argument values, texts and combinations of positional, named, missing and unknown arguments", "why_tests_cant": "the combinations of optional arguments are too many to enumerate and the values are unbounded", "anchors": ["brille/utils.py create_bz", "brille/utils.py create_grid", "brille/lattice.py Lattice"]}
{"id": "C84", "title": "Every wavevector can be brought into the first zone", "statement": "For every wavevector, moving it into the first Brillouin zone gives an answer rather than an exception: the search among the lattice translates ends inside the zone within the allowed number of steps.", "quantifier": "every lattice, every zone built from its faces, every wavevector in either setting", "why_tests_cant": "The search depends on the wavevector, the lattice, the basis describing it and the order of the faces; tests try some of each, while the failing ones lie on the zone's surface or need an unusual basis.", "anchors": ["src/bz_move.cpp:part_moveinto_prim", "src/bz_move.cpp:BrillouinZone::moveinto"]}
{"id": "C85", "title": "Interpolating anywhere in reciprocal space with a tetrahedral mesh or a nest gives what the data say", "statement": "For a layered tetrahedral mesh or a nest of tetrahedra constructed in the irreducible Brillouin zone and filled with data, interpolation at any list of points of reciprocal space gives, for each point, a result unless the point cannot be moved into the first zone; interpolated scalars never leave the range of the data; a function with the symmetry and periodicity of the crystal is reproduced within the largest change inside one tetrahedron; and scalars, vectors and matrices that are linear within the irreducible zone are reproduced exactly everywhere.", "quantifier": "every lattice basis and point group with an irreducible zone, every mesh or nest that the constructors can give (any number of layers or levels, any order of the threads, any triangulations by TetGen), every history of filling, every function and every list of points", "why_tests_cant": "The chain of moving, locating, weighting and turning is exercised by tests only at sampled points of a few crystals; whether the layers of connections or the levels of the nest lose a point depends on the geometry of every tetrahedron.", "anchors": ["src/bz_mesh.hpp:ir_interpolate_at", "src/bz_nest.hpp:ir_interpolate_at", "src/mesh.hpp:interpolate_at", "src/nest.hpp:interpolate_at", "src/triangulation_layers.hpp:TetTri::locate", "src/nest.tpp:construct"]}
{"id": "C86", "title": "Matrix routines on memory", "statement": "Product, sum, difference, copy, determinant, adjoint, inverse, similar matrix, transpose, conjugate transpose, metric and cross product of matrices given by pointers are the mathematical operations on the row-major matrices at these addresses, and no memory but the result (and blocks allocated for the call) is changed, provided that the result does not overlap the operands; sums, differences and copies may be in place.", "quantifier": "all sizes, contents of memory and addresses", "why_tests_cant": "Tests use a few matrices of size three in separate arrays; which cells are written and what overlap does can only be said for all addresses.", "anchors": ["src/utilities.tpp multiply_arrays", "src/utilities.tpp mul_arrays", "src/utilities.tpp array_cofactor", "src/utilities.tpp matrix_determinant", "src/utilities.tpp matrix_adjoint", "src/utilities.tpp matrix_inverse", "src/utilities.tpp similar_matrix", "src/utilities.tpp array_transpose", "src/utilities.tpp matrix_transpose", "src/utilities.tpp matrix_metric", "src/utilities.hpp vector_cross"]}
{"id": "C87", "title": "Transformation of a point group to its standard setting", "statement": "For every list of rotations which form a point group, ptg_get_transformation_matrix returns the point group and a matrix whose rows are the axes of the standard setting.", "quantifier": "all non-empty lists of integer matrices of finite order", "why_tests_cant": "The result for one group says nothing about the others, and the tests do not call the function.", "anchors": ["src/pointgroup.cpp ptg_get_transformation_matrix", "src/pointgroup.cpp ptg_get_pointsymmetry", "src/pointgroup.cpp get_orthogonal_axis", "src/pointgroup.cpp set_transformation_matrix"]}
{"id": "C88", "title": "Interpolating without rotation, and without moving points", "statement": "Every result of interpolate_at of a hybrid grid is that of the grid at a point of the first zone which differs from the given point by a reciprocal lattice vector. For a periodic function sampled at the vertices, which need not have any symmetry, the result is within the change of the function over the edge of a node of its value at the given point, is never outside the range of the data, and is exact for functions that are linear in the zone; and interpolation fails only if a point cannot be moved into the first zone. With do_not_move_points the same holds for points of the zone without any periodicity, and ir_interpolate_at with do_not_move_points gives the same rows.", "quantifier": "all lattices, irreducible zones, grids, histories of data, functions and lists of points", "why_tests_cant": "Tests interpolate at some points of some lattices, and mostly without symmetry, where the irreducible zone is the whole zone.", "anchors": ["src/bz_trellis.hpp:interpolate_at", "src/bz_trellis.hpp:ir_interpolate_at", "src/bz_mesh.hpp:ir_interpolate_at", "src/bz_nest.hpp:ir_interpolate_at", "wrap/_common_grid.hpp:def_grid_interpolate", "wrap/_common_grid.hpp:def_grid_ir_interpolate", "src/trellis_node.hpp:CubeNode::indices_weights"]}
{"id": "C89", "title": "Planes chosen for the irreducible zone cut away only what an operation gives back", "statement": "When a Brillouin zone is made with a wedge search, the planes that bound the irreducible zone are found from the point group operations and the special points of the zone (face centres, corners, edge middles). Every operation contributes planes at most once, and never more than there is memory for. The planes of a rotation or rotoinversion contain its axis, and every wavevector has an image under a power of that operation on the kept side of all of them; a mirror is cut by its own plane. The special points kept are exactly those on the kept side of every chosen plane, and the groups of equivalent special points from which planes are made divide the special points into orbits.", "quantifier": "all lists of operations of a point group in any order, all special points, all sortings of the groups, all bases, both switches of the search", "why_tests_cant": "the planes depend on which special points coincide after rotation and on the order of operations; tests compare volumes for the space groups of a table, in standard settings", "anchors": ["src/bz_wedge.cpp:wedge_brute_force", "src/bz_wedge.cpp:keep_if", "src/bz_wedge.cpp:have_volume", "src/array2.tpp:match"]}
{"id": "C90", "title": "Operators with two arrays combine the right elements", "statement": "The sum, difference, product and quotient of two two-dimensional arrays is the array of the results element by element; a dimension of extent one is used for every row or column of the other array; other extents are refused with an exception. The operators in place do the same for the left array, refuse a right array that is larger or where the left array is constant, and change nothing in memory but the elements of the left array. The inner and the vector product of two arrays of vectors are those of the rows, a single vector being used for all vectors of the other array.", "quantifier": "every pair of arrays, every extents and layout in memory, every element operation, arrays that share memory or not", "why_tests_cant": "Tests compare a few freshly made arrays of small extents; layouts and sharing of memory are chosen by the caller, and the wrong results with shared memory raise no error", "anchors": ["src/array2.tpp:operator+=", "src/array2.hpp:broadcastItr", "src/array_functions.hpp:ARRAY_ARRAY_OP", "src/subscript.hpp:BroadcastIt2"]}
