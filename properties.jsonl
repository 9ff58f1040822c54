{"id": "C01", "title": "Vector behaves as a sequence under every operation history", "statement": "Starting from any Vector constructor, after any sequence of reserve, resize, clear, push_back, emplace_back, pop_back, assign and indexed writes whose documented preconditions hold, the observable contents (size, indexing, iteration) equal those of an abstract sequence subjected to the same operations, size() <= capacity(), and no operation reads or writes a slot outside the allocation or reads a slot that has not been constructed.", "quantifier": "all element types with copy/move, all initial vectors, all finite operation sequences, all element values", "why_tests_cant": "tests exercise a handful of sequences; the claim is an invariant over every history, including each boundary between size and capacity", "anchors": ["include/um2/stdlib/vector.hpp: Vector::reserve, resize, clear, push_back, emplace_back, pop_back, assign, operator[], swapBuffers, append, recommend"]}
{"id": "C02", "title": "Vector append of one of its own elements", "statement": "v.push_back(v[i]) and v.emplace_back(v[i]) append the value that v[i] had before the call, whatever the current size and capacity.", "quantifier": "all vectors (full or not), all valid indices i, both overloads, trivially and non-trivially movable element types", "why_tests_cant": "only shows when the vector is exactly full and the element type has a destructive move; sampling rarely hits both", "anchors": ["include/um2/stdlib/vector.hpp: push_back 766-790, emplace_back 802-813, pushBackSlowPath, emplaceBackSlowPath, swapBuffers"]}
{"id": "C03", "title": "Vector growth is amortised constant", "statement": "Pushing n elements one at a time on an empty Vector relocates fewer than 2n elements in total, the capacity never shrinks, and capacity never exceeds twice the final size; the growth computation stays within the Int range as long as the capacity is below 2^30.", "quantifier": "all n, all push histories", "why_tests_cant": "a total cost bound over all n is not observable from examples", "anchors": ["include/um2/stdlib/vector.hpp: recommend 387-392, pushBackSlowPath 371-383"]}
{"id": "C04", "title": "String behaves as a character sequence under every operation history", "statement": "After any sequence of construction from text, copy, move, assignment, append and substr, the String's size, characters and NUL terminator equal those of an abstract character list; a freshly constructed string of at most 22 characters is stored inline, every text of 23 or more characters is on the heap, capacity() >= size(), and a moved-from string is empty.", "quantifier": "all texts, all finite operation histories, all lengths including the 22/23 boundary", "why_tests_cant": "the small/large representation switch has an unbounded number of reachable (size, capacity) pairs", "anchors": ["include/um2/stdlib/string.hpp: init, assignShort, assignLong, growByAndReplace, append, operator=, move ctor, substr, capacity, size"]}
{"id": "C05", "title": "String never leaks, double-frees or frees an inline buffer", "statement": "In every history over any number of String objects (construct, copy, move, assign, append, destroy), each heap block is freed exactly once and only by its owner; at the end of life of all strings no block remains allocated.", "quantifier": "all finite histories over any set of strings", "why_tests_cant": "ownership is a whole-history property; tests run a few histories and do not check the free list", "anchors": ["include/um2/stdlib/string.hpp: growByAndReplace 554-595, assignLong 393-417, dtor 738, copy/move ctor and assignment 611-719"]}
{"id": "C06", "title": "Numeric String constructors copy exactly the formatted text", "statement": "String(x) for an integer or floating-point x holds exactly the characters that printf-style formatting of x produces and reads only characters the formatter produced.", "quantifier": "all values of the argument type", "why_tests_cant": "the formatted length depends on magnitude; only huge magnitudes exceed the fixed 32-byte scratch buffer", "anchors": ["include/um2/stdlib/string.hpp: String(int)/String(float)/String(double) 653-692, init 488-509"]}
{"id": "C07", "title": "String and StringView comparisons are the lexicographic order", "statement": "compare() is negative, zero or positive exactly according to lexicographic order on unsigned character values with a proper prefix being smaller, and ==, !=, <, <=, >, >= all agree with it; hence < is a strict total order.", "quantifier": "all pairs and triples of strings", "why_tests_cant": "order axioms quantify over triples of arbitrary strings", "anchors": ["include/um2/stdlib/string_view.hpp: compare 331-343, operators 174-214", "include/um2/stdlib/string.hpp: compare 892, operators 318-368"]}
{"id": "C08", "title": "StringView searches return the extremal matching index", "statement": "find_first_of(c) returns the least index holding c, find_first_not_of(c) the least index not holding c, find_last_of(c) the greatest index holding c, find_first_of(view) the least index at which view occurs as a contiguous block, and each returns npos exactly when no such index exists; starts_with/ends_with agree with prefix/suffix.", "quantifier": "all strings and all needles, including empty ones", "why_tests_cant": "requires both minimality and completeness over all strings", "anchors": ["include/um2/stdlib/string_view.hpp: find_first_of 383, 421-440, find_first_not_of 394, find_last_of 405-419", "include/um2/stdlib/string.hpp: starts_with, ends_with 909-945, find_last_of 947"]}
{"id": "C09", "title": "Tokenising a StringView loses nothing but delimiters", "statement": "Calling getTokenAndShrink(d) until it returns an empty token returns exactly the maximal non-empty d-free fields of the string, in order; every call on a view that contains a non-delimiter makes the view strictly shorter, the returned token never contains a delimiter, and a view of delimiters only yields an empty token and is left unchanged.", "quantifier": "all strings, all delimiters, the whole sequence of calls", "why_tests_cant": "the property is about the iterated function over all strings", "anchors": ["include/um2/stdlib/string_view.hpp: getTokenAndShrink 471-502, removeLeadingSpaces 459-469"]}
{"id": "C10", "title": "stringToLattice returns every entry of the text", "statement": "For lattice text whose rows are separated by newlines and whose entries are separated by the delimiter, stringToLattice returns one row per non-blank line and one entry per field, in order, with the parsed value of each field.", "quantifier": "all lattice texts, all delimiters", "why_tests_cant": "blank lines or blank fields in the middle of the text change the result; tests only use clean literals", "anchors": ["include/um2/common/string_to_lattice.hpp: stringToLattice"]}
{"id": "C11", "title": "Small sorts sort", "statement": "sort3, sort4 and insertionSort leave the range in non-decreasing order and a permutation of the input, for any strict weak order.", "quantifier": "all inputs of the respective size / any length, any linearly ordered type", "why_tests_cant": "full input space", "anchors": ["include/um2/common/branchless_sort.hpp: sort3, sort4", "include/um2/common/insertion_sort.hpp: insertionSort"]}
{"id": "C12", "title": "Permutation utilities are consistent", "statement": "sortPermutation returns a permutation p with v[p[0]] <= v[p[1]] <= ...; applyPermutation(v, p) turns v into v[p[0]], v[p[1]], ... in place; invertPermutation(p, q) yields q with q[p[i]] = i and p[q[i]] = i.", "quantifier": "all vectors and all permutations of any length", "why_tests_cant": "in-place cycle-chasing must be right for every permutation; termination and index bounds quantify over all of them", "anchors": ["include/um2/common/permutation.hpp: sortPermutation, applyPermutation, invertPermutation"]}
{"id": "C13", "title": "Vec and Pair orderings are lexicographic total orders", "statement": "operator< on Vec<D,T> and Pair is irreflexive, transitive, total and agrees with ==; min/max/clamp return an argument and the right bound; lexicographical_compare is the lexicographic order on ranges.", "quantifier": "all dimensions, all values of a linearly ordered component type", "why_tests_cant": "order axioms over triples", "anchors": ["include/um2/math/vec.hpp: operator== 895, operator< 908", "include/um2/stdlib/utility/pair.hpp", "include/um2/stdlib/algorithm/{min,max,clamp,lexicographical_compare,max_element,is_sorted}.hpp"]}
{"id": "C14", "title": "Morton codes decode to what was encoded", "statement": "mortonDecode(mortonEncode(x, y)) = (x, y) and mortonDecode(mortonEncode(x, y, z)) = (x, y, z) for all coordinates up to max_2d / max_3d, for 32- and 64-bit codes, and the hardware (BMI2) and portable implementations produce the same code and the same decoded coordinates; bit 2i of a 2D code is bit i of x and bit 2i+1 is bit i of y (3i, 3i+1, 3i+2 in 3D).", "quantifier": "all coordinates in range, both widths, both implementations", "why_tests_cant": "2^64 inputs per function", "anchors": ["include/um2/math/morton.hpp: pdep/pext fallbacks, mortonEncode, mortonDecode, max_2d_morton_coord, max_3d_morton_coord"]}
{"id": "C15", "title": "Morton codes are injective and monotone in every coordinate", "statement": "Distinct in-range coordinates get distinct codes and increasing any coordinate (others fixed or increased) increases the code.", "quantifier": "all pairs of in-range coordinate tuples", "why_tests_cant": "pairs of 64-bit inputs", "anchors": ["include/um2/math/morton.hpp: mortonEncode"]}
{"id": "C16", "title": "Morton sorting points is a stable description of the same points", "statement": "mortonLess is a strict weak order on points of the unit box, mortonSort returns a permutation of its input ordered by code, and mortonSortPermutation returns the permutation that does so.", "quantifier": "all finite point sets", "why_tests_cant": "order axioms and permutation property over all inputs", "anchors": ["include/um2/geometry/morton_sort_points.hpp", "include/um2/math/morton.hpp: mortonEncode(float)"]}
{"id": "C17", "title": "Logger emits exactly the enabled messages and stays in its buffer", "statement": "A message is written iff its level is at or below the configured level; each line consists of the optional colour, timestamp and level prefix, the message text and the postamble; composing a line never writes past the 256-byte buffer.", "quantifier": "all configurations, levels and message texts", "why_tests_cant": "long messages overflow only in builds without assertions; tests use short messages", "anchors": ["src/common/logger.cpp", "include/um2/common/logger.hpp"]}
{"id": "C18", "title": "Summation and mean are exact up to rounding order", "statement": "sum() equals the mathematical sum of all elements, each counted once, for every length (including the recursive pairwise branch); mean() is sum()/n; in exact arithmetic the result does not depend on the splitting.", "quantifier": "all vectors of any length over any commutative additive structure", "why_tests_cant": "the recursive split must cover every length above 128", "anchors": ["include/um2/math/stats.hpp: naiveSum, pairwiseSum, sum, mean"]}
{"id": "C19", "title": "Variance and median match their definitions", "statement": "variance() equals the sum of squared deviations from the mean divided by n-1 and is non-negative, stdDev() is its square root; median() of a sorted vector has at least half of the elements on each side.", "quantifier": "all vectors of length >= 2 (variance) / >= 1 (median), exact arithmetic", "why_tests_cant": "one-pass update formula must hold at every prefix length", "anchors": ["include/um2/math/stats.hpp: variance 117-135, stdDev, median 95-109"]}
{"id": "C20", "title": "solveQuadratic returns exactly the real roots", "statement": "In exact arithmetic, every value returned by solveQuadratic(a,b,c) other than the 'no root' sentinel is a real root of ax^2+bx+c, every real root is returned when the polynomial is not identically zero, and the roots come in non-decreasing order.", "quantifier": "all real coefficients, including a = 0, b = 0, c = 0 and zero or negative discriminant", "why_tests_cant": "the branch structure (a=0, b=0, discriminant sign) spans a continuum", "anchors": ["include/um2/math/quadratic_equation.hpp: solveQuadratic"]}
{"id": "C21", "title": "Cubic deflation preserves roots", "statement": "Given a non-zero root of a cubic (leading coefficient non-zero), the quadratic that solveCubic deflates to has exactly the remaining roots, so the three returned values are roots of the cubic and every real root is returned, in non-decreasing order.", "quantifier": "all real coefficients and roots, both branches of the deflation formula", "why_tests_cant": "both deflation branches must agree algebraically for all coefficients", "anchors": ["include/um2/math/cubic_equation.hpp: solveCubic"]}
{"id": "C22", "title": "Small matrix product and inverse", "statement": "For Mat<M,N> a and Mat<N,P> b, (a*b)(i,j) is the sum over k of a(i,k) b(k,j) for every i < M and j < P; a*v is the matrix-vector product; inv of an invertible 2x2 matrix is its inverse; a rotation matrix is orthogonal with determinant one.", "quantifier": "all shapes M, N, P and all entries", "why_tests_cant": "square-only tests hide shape mistakes", "anchors": ["include/um2/math/mat.hpp: operator* 233-246, inv 265-289, makeRotationMatrix 249"]}
{"id": "C23", "title": "Matrix product and matmul agree", "statement": "operator*(A,B), operator*(A,x) and matmul(C,A,B) compute the matrix product in column-major storage, whatever C held before and whether or not a BLAS library is configured.", "quantifier": "all shapes, all entries, all prior contents of C", "why_tests_cant": "depends on prior contents and on a build option", "anchors": ["include/um2/math/matrix.hpp", "src/math/matrix.cpp: operator*, matmul"]}
{"id": "C24", "title": "AxisAlignedBox is a lattice with matching containment", "statement": "a += b yields the smallest box containing both, += is associative, commutative and idempotent, empty() is neutral for boxes within +-infDistance, contains(p) holds exactly for points between the corners, boundingBox(points) is the least box containing them, and intersects is symmetric and holds iff the boxes share a point.", "quantifier": "all boxes and points in any dimension", "why_tests_cant": "algebraic laws over all triples of boxes", "anchors": ["include/um2/geometry/axis_aligned_box.hpp: operator+=, empty, contains, boundingBox, intersects"]}
{"id": "C25", "title": "Ray-box intersection returns the exact chord", "statement": "intersect(ray, box) returns an interval (r0, r1) with 0 <= r0 <= r1 such that ray(t) lies in the box for t >= 0 iff r0 <= t <= r1, and the miss value iff no point of the ray lies in the box (exact arithmetic, ray direction with no zero component; zero components treated as IEEE infinities).", "quantifier": "all boxes, ray origins (inside or outside) and directions", "why_tests_cant": "continuum of rays; exactness in both directions", "anchors": ["include/um2/geometry/axis_aligned_box.hpp: intersect"]}
{"id": "C26", "title": "Closest point on a line segment", "statement": "pointClosestTo(p) returns a parameter r in [0,1] whose point on the segment minimises the distance to p among all points of the segment.", "quantifier": "all non-degenerate segments and all points", "why_tests_cant": "minimality quantifies over the continuum", "anchors": ["include/um2/geometry/line_segment.hpp: pointClosestTo, distanceTo, interpolate"]}
{"id": "C27", "title": "Ray-segment intersection is sound and complete", "statement": "For a ray not parallel to the segment, intersect returns a valid parameter r iff the ray meets the segment, and then ray(r) is on the segment; isLeft(p) has the sign of the signed area.", "quantifier": "all segments and rays", "why_tests_cant": "continuum, both directions", "anchors": ["include/um2/geometry/line_segment.hpp: intersect, isLeft"]}
{"id": "C28", "title": "Triangle predicates and measures", "statement": "For a counter-clockwise triangle contains(p) holds iff p is a convex combination of the vertices; area is positive iff CCW, is invariant under translation and cyclic relabelling and negated orientation flips isCCW; interpolate maps the reference triangle's vertices to the vertices; the centroid is contained; flip reverses orientation and keeps the vertex set.", "quantifier": "all triangles and points", "why_tests_cant": "continuum", "anchors": ["include/um2/geometry/triangle.hpp", "include/um2/geometry/polygon.hpp"]}
{"id": "C29", "title": "Quadrilateral predicates and measures", "statement": "area() equals the shoelace area, the interpolation map sends the reference corners to the vertices and its jacobian is its derivative, for a convex CCW quadrilateral contains(p) holds iff p is in the convex hull of the vertices; flip reverses orientation and keeps the boundary edges.", "quantifier": "all quadrilaterals and points", "why_tests_cant": "continuum", "anchors": ["include/um2/geometry/quadrilateral.hpp", "include/um2/geometry/polygon.hpp"]}
{"id": "C30", "title": "Polygon area and centroid", "statement": "The shoelace area of an N-gon is translation invariant, invariant under cyclic rotation of its vertices, negated by reversal, and additive under cutting along a diagonal; the centroid formula commutes with translation.", "quantifier": "all N and all vertex lists", "why_tests_cant": "all N", "anchors": ["include/um2/geometry/polygon.hpp: area 143-171, centroid 177-208"]}
{"id": "C31", "title": "Quadratic segment parametrisation", "statement": "interpolate(0), interpolate(1), interpolate(1/2) are the three vertices; interpolate(r) = C + rB + r^2 A for the coefficients returned by getPolyCoeffs; jacobian is the derivative; boundingBox contains every point of the curve and each face of the box is attained; enclosedArea is the signed area between the curve and its chord.", "quantifier": "all quadratic segments and parameters in [0,1]", "why_tests_cant": "continuum", "anchors": ["include/um2/geometry/quadratic_segment.hpp: interpolate 199-208, getPolyCoeffs 242-260, jacobian 221-229, boundingBox 369-404, enclosedArea 891-902"]}
{"id": "C32", "title": "Quadratic cells conform to their edges", "statement": "Shape functions of quadratic triangles and quadrilaterals sum to one, take the vertex values at the nodes, restrict on each side to the interpolation of the quadratic segment returned by getEdge, and the jacobian is the exact derivative of the interpolation.", "quantifier": "all vertex positions and all parameters", "why_tests_cant": "continuum", "anchors": ["include/um2/geometry/quadratic_triangle.hpp: interp 171-181, jacobian 189-198", "include/um2/geometry/quadratic_quadrilateral.hpp: interp 172-189, jacobian 197-220", "include/um2/geometry/polygon.hpp: getEdge"]}
{"id": "C33", "title": "Flipping a face reverses its boundary and nothing else", "statement": "flip() on a polygon, and flipFace on a mesh, leaves the set of boundary edges (with their mid-points for quadratic cells) unchanged while reversing each edge's direction, so the enclosed area is unchanged in magnitude; flipping twice is the identity.", "quantifier": "all triangles, quadrilaterals, quadratic triangles, quadratic quadrilaterals", "why_tests_cant": "tests compare only the vertices they expect to move", "anchors": ["include/um2/geometry/{triangle,quadrilateral,quadratic_triangle,quadratic_quadrilateral}.hpp: flip", "include/um2/mesh/face_vertex_mesh.hpp: flipFace 400-426"]}
{"id": "C34", "title": "Modular rays tile the box", "statement": "For every valid azimuthal angle and spacing, ModularRays yields nx+ny rays whose origins lie on the box boundary, are equally spaced on it, point into the box, and every exit point is the entry point of a ray of the same family in the neighbouring module.", "quantifier": "all boxes, angles in (0,pi) other than pi/2 (which asks for zero side rays) and spacings", "why_tests_cant": "continuum of angles and counts", "anchors": ["include/um2/geometry/modular_rays.hpp: ctor 77-106, getRay 112-163"]}
{"id": "C35", "title": "RegularGrid flat indexing is a bijection", "statement": "getFlatIndex maps the cell indices 0 <= i_d < numCells(d) one-to-one onto 0 .. totalNumCells()-1 in any dimension, in the order of the specialised 1D/2D/3D formulas, as long as the total fits in Int.", "quantifier": "all dimensions and grid sizes", "why_tests_cant": "all sizes", "anchors": ["include/um2/mesh/regular_grid.hpp: getFlatIndex 307-331, totalNumCells 232", "include/um2/mesh/regular_partition.hpp: getChild"]}
{"id": "C36", "title": "RegularGrid point location is consistent with the cell boxes", "statement": "getCellIndexContaining(p) returns the unique cell whose half-open box contains p when p is inside the grid, and -1 in a coordinate exactly when p is outside in that coordinate; the cell boxes tile the grid's bounding box; getCellCentroid is in the cell.", "quantifier": "all grids with positive spacing and all points, exact arithmetic", "why_tests_cant": "continuum; boundary points belong to exactly one cell", "anchors": ["include/um2/mesh/regular_grid.hpp: getCellIndexContaining 389-407, getBox 290-305, getCellCentroid 343-359"]}
{"id": "C37", "title": "RegularGrid range query is exact", "statement": "getCellIndicesIntersecting(box) returns per axis an index range containing exactly the cells whose half-open extent meets the box, and the sentinel -1 when the box misses the grid on that axis.", "quantifier": "all grids and boxes", "why_tests_cant": "continuum of boxes including those partially outside", "anchors": ["include/um2/mesh/regular_grid.hpp: getCellIndicesIntersecting 361-387"]}
{"id": "C38", "title": "RectilinearGrid built from boxes or ids has sorted, distinct divisions", "statement": "The divisions are strictly increasing (separated by at least the tolerance when built from boxes), every input coordinate is within tolerance of a division, consecutive boxes tile the extent, and getBox(i,j,..) of the id constructor has the width and height of the id placed there.", "quantifier": "all box lists / id lattices", "why_tests_cant": "all inputs, incl. the insertion-order dependent de-duplication", "anchors": ["include/um2/mesh/rectilinear_grid.hpp: ctors 139-215, getBox 387-401, getFlatIndex 349-372"]}
{"id": "C39", "title": "Partitions place children by row from the bottom", "statement": "A rectilinear or regular partition built from a 2D id list (first row on top) returns from getChild(i, j) the entry in column i of the j-th row counted from the bottom.", "quantifier": "all lattice shapes and contents", "why_tests_cant": "all shapes, off-by-one on row reversal", "anchors": ["include/um2/mesh/rectilinear_partition.hpp: ctor 103-119", "src/mpact/model.cpp: flattenLattice 68-87, addCoarseGrid 1101-1156, mapFlatIndexToLattice2D 2284-2295"]}
{"id": "C40", "title": "Element type codes convert without loss", "statement": "VTK and XDMF element codes convert to each other and back, verticesPerElem and inferVTKElemType are inverse on the supported faces, getMeshType classifies exactly the supported sets of element types independent of their order.", "quantifier": "all supported codes and all lists of codes", "why_tests_cant": "finite but the classification ranges over all lists", "anchors": ["include/um2/mesh/element_types.hpp"]}
{"id": "C41", "title": "Vertex-to-face adjacency is exact", "statement": "After populateVF, the faces listed for a vertex are exactly the faces whose connectivity contains the vertex, in increasing order, and the offsets partition the list.", "quantifier": "all meshes", "why_tests_cant": "counting-sort layout must be right for all meshes", "anchors": ["src/mesh/face_vertex_mesh.cpp: populateVF 178-217"]}
{"id": "C42", "title": "Renumbering a mesh preserves its geometry", "statement": "mortonSort (faces then vertices) leaves the multiset of faces, each given by the coordinates of its vertices in order, unchanged.", "quantifier": "all meshes with in-range connectivity", "why_tests_cant": "permutation/inverse permutation mix-ups only appear for non-involutive permutations", "anchors": ["src/mesh/face_vertex_mesh.cpp: mortonSort 102-176"]}
{"id": "C43", "title": "faceContaining returns a face that contains the point", "statement": "faceContaining(p) returns the first face that contains p and -1 exactly when no face does.", "quantifier": "all meshes and points", "why_tests_cant": "completeness over all meshes", "anchors": ["include/um2/mesh/face_vertex_mesh.hpp: faceContaining 458-468"]}
{"id": "C44", "title": "Manifold and watertight validation accepts only closed oriented meshes", "statement": "If a mesh passes the manifold/watertight check, every interior edge is used by exactly two faces in opposite directions, every boundary edge by one face, and the boundary edges form a single closed loop; the check terminates on every mesh.", "quantifier": "all meshes", "why_tests_cant": "adversarial connectivity", "anchors": ["src/mesh/face_vertex_mesh.cpp: checkManifoldWatertight 268-426"]}
{"id": "C45", "title": "Ray-mesh intersections are ordered along the ray", "statement": "sortRayMeshIntersections returns the intersected faces ordered by distance along the ray with each face's own intersection parameters kept together and sorted.", "quantifier": "all intersection lists", "why_tests_cant": "order depends on several parameters per face", "anchors": ["src/mesh/face_vertex_mesh.cpp: sortRayMeshIntersections 531-591", "include/um2/mesh/face_vertex_mesh.hpp: intersect 470-500"]}
{"id": "C46", "title": "PolytopeSoup stays well-formed under every history", "statement": "After any sequence of addVertex, addElement and addElset calls, element k's stored connectivity and type are those given to the k-th addElement, element set k's name, ids and data are those given to the k-th successful addElset, names are distinct, and rejected calls leave the soup unchanged.", "quantifier": "all operation histories", "why_tests_cant": "offset arrays must stay consistent across every history", "anchors": ["src/mesh/polytope_soup.cpp: addVertex 106-118, addElement 120-133, addElset 135-177, getElement 52-64, getElset 66-100"]}
{"id": "C47", "title": "Sorting element sets changes only their order", "statement": "sortElsets leaves the mapping from element set name to the set of (element id, data value) pairs unchanged, and orders the names and each set's ids increasingly.", "quantifier": "all soups", "why_tests_cant": "all soups incl. those without element sets", "anchors": ["src/mesh/polytope_soup.cpp: sortElsets 203-254"]}
{"id": "C48", "title": "Appending soups is a disjoint union", "statement": "After a += b, a holds a's elements followed by b's with vertex ids shifted by a's vertex count, and each element set of the result is the union of the equally named sets with b's ids shifted by a's element count, including data.", "quantifier": "all pairs of soups, including empty ones and a += a", "why_tests_cant": "aliasing and empty operands are outside ordinary tests", "anchors": ["src/mesh/polytope_soup.cpp: operator+= 256-366"]}
{"id": "C49", "title": "Element-set extraction yields the sub-mesh", "statement": "getSubset(name, sub) makes sub contain exactly the elements in the set, in order, with the same vertex coordinates, only the vertices they use, and every other element set restricted to them.", "quantifier": "all soups and set names", "why_tests_cant": "renumbering must be right for all soups", "anchors": ["src/mesh/polytope_soup.cpp: getSubset 441-613"]}
{"id": "C50", "title": "XDMF topology round trip", "statement": "Reading back the topology that the XDMF writer emits for a soup gives the same element types and connectivity, for homogeneous and mixed soups.", "quantifier": "all soups of supported element types", "why_tests_cant": "mixed encodings are variable length", "anchors": ["src/mesh/polytope_soup.cpp: writeXDMFtopology 1249-1346, readXDMFTopology 1601-1665"]}
{"id": "C51", "title": "Abaqus element sets are read completely", "statement": "Every element id listed in an Abaqus *ELSET block appears, converted to 0-based, in the resulting element set.", "quantifier": "all id lists and line breaks", "why_tests_cant": "line-ending variations", "anchors": ["src/mesh/polytope_soup.cpp: Abaqus parsing 622-843"]}
{"id": "C52", "title": "Nuclide symbols map to ZAIDs", "statement": "toZAID of element symbol plus mass number returns 1000*Z + A with Z the position of the symbol in the periodic table, and -1 when the symbol is unknown.", "quantifier": "all symbol strings and mass numbers", "why_tests_cant": "all strings", "anchors": ["src/physics/nuclide.cpp: toZAID 163-216, ELEMENTS 131-143"]}
{"id": "C53", "title": "Cross-section temperature interpolation is bounded and continuous", "statement": "interpXS(T) returns the tabulated data at tabulated temperatures, clamps outside the range, and between two temperatures each value lies between the two tabulated values and varies linearly in sqrt(T).", "quantifier": "all temperature tables (sorted) and temperatures", "why_tests_cant": "continuum; boundary of each interval", "anchors": ["src/physics/nuclide.cpp: interpXS 66-122"]}
{"id": "C54", "title": "One-group collapse preserves the scattering balance", "statement": "collapseTo1GroupAvg returns the group averages of each reaction and a 1x1 scattering matrix consistent with the averaged total scattering when the input is consistent (s = column sums of ss).", "quantifier": "all group counts and cross sections", "why_tests_cant": "all G", "anchors": ["src/physics/cross_section.cpp: collapseTo1GroupAvg 122-141"]}
{"id": "C55", "title": "Coarse-cell homogenisation is the area-weighted average", "statement": "getCoarseCellHomogenizedXSec returns for each reaction the face-area-weighted mean over the cell, so each value lies between the smallest and largest material value and a uniform cell returns its own cross section.", "quantifier": "all meshes with positive areas, all material assignments", "why_tests_cant": "all meshes", "anchors": ["src/mpact/model.cpp: computeCellHomogenizedXSec 3074-3133"]}
{"id": "C56", "title": "Material compositions conserve mass", "statement": "setUO2(wt_u235, wt_gad), addNuclidesAtomPercent and addNuclideWt set number densities whose mass sums to the material density (for weight fractions summing to one), with all densities non-negative.", "quantifier": "all densities and weight fractions in range, exact arithmetic", "why_tests_cant": "continuum", "anchors": ["src/physics/material.cpp: setUO2 498-606, addNuclidesAtomPercent 426-457, addNuclideWt 392-416"]}
{"id": "C57", "title": "MPACT model references are always valid", "statement": "After any sequence of the add* calls, every child id stored in the core, assemblies, lattices and RTMs refers to an existing object, every coarse cell with a mesh refers to an existing mesh whose face count equals its number of material ids, and every material id refers to an existing material.", "quantifier": "all call histories", "why_tests_cant": "invariant over all histories", "anchors": ["src/mpact/model.cpp: addMaterial 123, addCoarseCell 818-891, addRTM 898-947, addLattice 954-988, addAssembly 995-1055, addCore 1062-1094, addRectangularPinMesh 716-766, addCylindricalPinCell 656-709"]}
{"id": "C58", "title": "Rejected MPACT model edits have no effect", "statement": "An add* call that reports failure by returning -1 leaves the model unchanged, and a call that does not fail returns the index of the object it added.", "quantifier": "all call histories and arguments", "why_tests_cant": "all histories", "anchors": ["src/mpact/model.cpp: add* functions"]}
{"id": "C59", "title": "Fine-cell counts are the sum over the hierarchy", "statement": "numAssembliesTotal, numLatticesTotal, numRTMsTotal, numCoarseCellsTotal and numFineCellsTotal count occurrences with multiplicity, and getMeanChordLengths returns exactly numFineCellsTotal entries.", "quantifier": "all models", "why_tests_cant": "all hierarchies", "anchors": ["include/um2/mpact/model.hpp: 430-510", "src/mpact/model.cpp: getMeanChordLengths 3177-3244"]}
{"id": "C60", "title": "Cylindrical pin mesh topology is conforming", "statement": "The generated linear and quadratic pin meshes have in-range connectivity, na*(nr+1) faces, every interior edge shared by exactly two faces in opposite directions and the outer boundary a single loop of na edges.", "quantifier": "all azimuthal divisions that are powers of two >= 8 and all ring counts", "why_tests_cant": "all sizes", "anchors": ["src/mpact/model.cpp: addCylindricalPinMesh 295-381, 462-623"]}
{"id": "C61", "title": "Cylindrical pin mesh preserves ring areas", "statement": "The equal-area radii and the chord-corrected radii make each ring of the mesh have exactly the requested area, and all faces together the area of the pitch square (exact arithmetic).", "quantifier": "all pitches, positive non-decreasing radii, ring counts and azimuthal divisions", "why_tests_cant": "continuum and all counts", "anchors": ["src/mpact/model.cpp: addCylindricalPinMesh 197-285, 422-438"]}
{"id": "C62", "title": "Rectangular pin mesh tiles the rectangle", "statement": "addRectangularPinMesh produces nx*ny CCW rectangles of equal area whose union is the rectangle, with in-range connectivity and interior edges shared by exactly two faces in opposite directions.", "quantifier": "all positive counts and extents", "why_tests_cant": "all sizes", "anchors": ["src/mpact/model.cpp: addRectangularPinMesh 716-766"]}
{"id": "C63", "title": "Generated names are unique and sequential", "statement": "getASCIINumber(n) is the 5-digit decimal of n, distinct for distinct n < 100000, and incrementASCIINumber turns the name of n into the name of n+1; reading the digits back gives n.", "quantifier": "all n < 99999", "why_tests_cant": "all n, carry chains", "anchors": ["include/um2/mpact/model.hpp: incrementASCIINumber 323-340, getASCIINumber 342-354"]}
{"id": "C64", "title": "Writing and reading an MPACT model restores its hierarchy", "statement": "Reading the XDMF tree written for a model recreates the same core, assembly, lattice and RTM id tables.", "quantifier": "all models whose objects are all used", "why_tests_cant": "needs models with several lattices per assembly", "anchors": ["src/mpact/model.cpp: writeXDMFFile 1752-1940, readXDMFFile 2438-2955"]}
{"id": "C65", "title": "Power extraction groups faces into connected components", "statement": "getPowers partitions the faces with positive power into the connected components of the 'shares a vertex' relation, one entry per component, and the total power is preserved.", "quantifier": "all meshes and power fields", "why_tests_cant": "merge order must not matter for any mesh", "anchors": ["src/mpact/powers.cpp: getPowers 77-244"]}
{"id": "C66", "title": "Height listings are sorted by a valid order", "statement": "The comparison used to sort (id, height) pairs in the C API is a strict weak order, so the listing is well defined and sorted.", "quantifier": "all lists of ids and heights", "why_tests_cant": "needs three heights spaced by less than the tolerance", "anchors": ["src/um2c.cpp: um2MPACTCoarseCellHeights 411-475, um2MPACTRTMHeights, um2MPACTLatticeHeights"]}
{"id": "C67", "title": "Material ids survive narrowing", "statement": "The material stored for each face by addCylindricalPinCell and importCoarseCellMeshes is the material the caller named, for any number of materials in the model.", "quantifier": "all material counts", "why_tests_cant": "needs more than 127 materials", "anchors": ["src/mpact/model.cpp: addCylindricalPinCell 694-708, importCoarseCellMeshes 1198-1211", "cmake/config.hpp.in: MatID"]}
{"id": "C68", "title": "Area and centroid of curved cells", "statement": "The area and centroid reported for 6-node triangles and 8-node quadrilaterals are those of the region bounded by their quadratic edges: the signed area equals the boundary (Green) integral along the edges and the integral of the Jacobian determinant over the reference cell, and area times centroid equals the boundary integral of the first moments; flipping a 6-node triangle negates the area.", "quantifier": "all planar node positions (centroid: non-zero area and distinct corner neighbours)", "why_tests_cant": "tests check a few shapes; the identity is polynomial in 12 or 16 coordinates", "anchors": ["include/um2/geometry/quadratic_polygon.hpp: area, centroid", "include/um2/geometry/quadratic_segment.hpp: enclosedArea, enclosedCentroid"]}
{"id": "C69", "title": "XDMF grid round trip", "statement": "A PolytopeSoup written as an XDMF uniform grid and read back into an empty soup has the same vertices (shifted by the given origin), elements, element sets and set data, in the same order.", "quantifier": "all soups of supported element types, all element-set names and data", "why_tests_cant": "depends on every combination of set names, presence of data, element mix and planarity; tests use a handful of meshes", "anchors": ["src/mesh/polytope_soup.cpp: writeXDMFUniformGrid 1194-1430, readXDMFUniformGrid 1480-1990"]}
{"id": "C70", "title": "Abaqus files are read completely", "statement": "Reading an Abaqus file with a *NODE section, any number of *ELEMENT sections and *ELSET sections gives a soup with exactly the listed vertices, elements (type, connectivity converted to 0-based) in file order and the listed sets, sorted.", "quantifier": "all files of the supported form, all section counts, ids, spacings and line breaks", "why_tests_cant": "the reader is a set of nested loops over lines and tokens with buffer limits; tests read a handful of files", "anchors": ["src/mesh/polytope_soup.cpp: readAbaqusFile 615-848"]}
{"id": "C71", "title": "Macroscopic cross sections of a material are the density-weighted sum of its nuclides", "statement": "populateXSec sets every reaction and group of the material's macroscopic cross section to the sum over its nuclides of number density times the microscopic cross section of that nuclide interpolated at the material's temperature; in particular the scattering balance of the nuclides carries over.", "quantifier": "for all libraries, all materials, all reactions and groups", "why_tests_cant": "Tests use one library file and a few materials; the identity must hold for any nuclide list and temperature.", "anchors": ["src/physics/material.cpp:460-495 (populateXSec)", "src/physics/cross_section_library.cpp:457-467 (getNuclide)"]}
{"id": "C72", "title": "The Newton loop of the cubic solver ends on the extreme root", "statement": "The block `eval` computes the value and the derivative of the cubic; the Newton iteration of solveCubic starts not past the extreme real root, moves monotonically towards it, converges to it, and if the loop stops then on an exact root; solveCubic then returns every real root.", "quantifier": "all real cubics with a nonzero leading coefficient, any number of iterations", "why_tests_cant": "convergence from a closed-form starting point is a statement about an infinite sequence for a three-parameter family of cubics", "anchors": ["include/um2/math/cubic_equation.hpp:33-118"]}
{"id": "C73", "title": "Ray intersections of curved segments and cells are exactly the crossings", "statement": "The values written by intersect(ray) for a quadratic segment are exactly the parameters r >= 0 at which the ray meets the curve (for a ray not along the curve); for a quadratic polygon, those of all edges in order.", "quantifier": "all quadratic segments and polygons, all rays of unit direction", "why_tests_cant": "tests shoot rays at one or two shapes; roots at the ends, tangents and degenerate quadratics form a continuum", "anchors": ["include/um2/geometry/quadratic_segment.hpp:664-698", "include/um2/geometry/polygon.hpp:251-262"]}
{"id": "C74", "title": "The length of a quadratic segment is its arc length", "statement": "length() of a quadratic segment equals the integral of the speed over [0,1]; the perimeter of a quadratic polygon is the sum over its edges.", "quantifier": "all quadratic segments", "why_tests_cant": "the closed form (square roots and a logarithm) is tested on a few segments with known length only", "anchors": ["include/um2/geometry/quadratic_segment.hpp:266-364", "include/um2/geometry/polygon.hpp:107-120"]}
{"id": "C75", "title": "The closest point of a quadratic segment minimises the distance", "statement": "pointClosestTo returns a parameter in [0,1] and no other point of the curve is closer to the given point; squaredDistanceTo is that minimum.", "quantifier": "all quadratic segments, all points", "why_tests_cant": "a global minimum over a continuum; tests compare with sampled points", "anchors": ["include/um2/geometry/quadratic_segment.hpp:408-483"]}
{"id": "C76", "title": "isLeft decides the side of a curved edge", "statement": "For a quadratic segment whose middle vertex is left of the chord, a point off the curve is left of the segment iff it is left of the chord and not in the region between curve and chord; with the middle vertex on the right, iff it is left of the chord or in that region. A segment taken for straight answers the side of the chord, and its curve lies within the tolerance of the chord.", "quantifier": "all quadratic segments with three vertices not on a line (or taken for straight), all points not on the curve", "why_tests_cant": "a region of the plane with several code paths (triangle, box, one or two roots); tests probe a few points of a few segments", "anchors": ["include/um2/geometry/quadratic_segment.hpp:528-640"]}
{"id": "C77", "title": "contains of a curved cell is membership in it", "statement": "contains(p) of a quadratic polygon holds iff p is in the polygon of the corners minus the regions cut off by inward bulges plus the regions added by outward bulges.", "quantifier": "all quadratic polygons in counterclockwise order with convex corners, all points not on a curved edge", "why_tests_cant": "membership over a continuum for arbitrary combinations of bulges; tests use one triangle and one quadrilateral", "anchors": ["include/um2/geometry/polygon.hpp:214-226", "include/um2/geometry/quadratic_segment.hpp:528-640"]}
{"id": "C78", "title": "Intersections of quadratic segments and self-intersecting polygons", "statement": "intersect(q1, q2) for quadratic segments returns the common points: every reported point is on the first segment and near the second one, reported points are distinct, intersects() agrees, no common point is lost; hasSelfIntersection reports exactly the polygons with edges that meet where they should not, and fixSelfIntersection moves one middle vertex so that these edges no longer meet twice.", "quantifier": "all pairs of quadratic segments, all quadratic polygons, all tolerances", "why_tests_cant": "The search bisects both curves and finishes with Newton's method; whether a crossing is lost depends on where it lies among the pieces and on tangent directions at the ends of the pieces, which no finite set of pairs covers.", "anchors": ["include/um2/geometry/quadratic_segment.hpp:703-891", "include/um2/geometry/polygon.hpp:264-387"]}
{"id": "C79", "title": "The source taken from an MPACT flux file is flux times cross section, summed over the groups", "statement": "For a file with elements of one face type, a material number and one flux per energy group for every face, getSource returns for face i the sums over the groups of flux times scattering and of flux times nu-fission cross section of the material of face i. Files with several element types or other types give an empty result.", "quantifier": "all meshes, all numbers of groups, all materials, fluxes and material assignments, all contents of the reused vectors", "why_tests_cant": "there is no unit test of getSource; the loop over generated set names, the reuse of the flux vector between groups and the material indices depend on the number of groups and the file", "anchors": ["src/mpact/source.cpp:20-122", "include/um2/mpact/model.hpp:323-340"]}
{"id": "C80", "title": "The CMFD iteration matrix is the transport sweep with the coarse correction", "statement": "set_U applied to cell sources gives c/2 times the quadrature sum of the cell averages of the angular fluxes that solve the transport equation with quasi-periodic boundary; set_omega adds F times the summed change, with F the solution of the coarse diffusion problem; spectral_radius returns an eigenvalue of largest modulus over all samples, although the matrix buffers are reused between samples without being cleared.", "quantifier": "all cell parameters accepted by the constructor, all phases, all quadratures, all contents of the reused buffers", "why_tests_cant": "tests compare entries for one or two parameter sets with numbers from another program; the meaning of the matrices and the reuse of uncleared buffers are not observable on samples", "anchors": ["src/physics/cmfd.cpp:25-277", "include/um2/physics/cmfd.hpp:38-80"]}
{"id": "C81", "title": "Reading an MPACT cross section library gives the numbers of the file", "statement": "For a well-formed library file the reader returns the group bounds, the fission spectrum and every nuclide in order, each with its ZAID, mass, temperatures and, for every temperature and group, the absorption, fission, nu-fission, transport, scattering values and the row of the scattering matrix given on its line (zero where nothing is given); isFissile is set exactly when a fission value is positive. Files of another kind and nuclides that make no sense are refused.", "quantifier": "all library files, any numbers of groups, nuclides, temperatures and values per line", "why_tests_cant": "the tests read one library with a fixed layout of lines; how numbers are spread over lines, how many lines and which rows are short are not varied", "anchors": ["src/physics/cross_section_library.cpp:27-447", "src/physics/nuclide.cpp:31-63"]}
{"id": "C82", "title": "A mesh and its soup are the same mesh", "statement": "Converting a FaceVertexMesh to a PolytopeSoup keeps all vertices and faces, converting a soup of one element type in a plane to a mesh keeps all vertices and faces, and going there and back gives the same mesh; soups with other elements are refused.", "quantifier": "all meshes and soups of the four kinds, all contents of uninitialised memory", "why_tests_cant": "tests convert one small planar mesh; they do not look at vertices after a non-planar one, which are read from uninitialised memory", "anchors": ["src/mesh/face_vertex_mesh.cpp:32-96", "src/mesh/face_vertex_mesh.cpp:223-245"]}
{"id": "C83", "title": "Validation orients every face counter-clockwise", "statement": "After checkCCWFaces every face has its area taken positive and the same boundary edges; vertices and the order of the faces do not change.", "quantifier": "all meshes of triangles, quadrilaterals and their quadratic versions", "why_tests_cant": "tests flip one convex face; a non-convex face or a curved quadrilateral is not tried, and the flip is not re-checked by the code", "anchors": ["src/mesh/face_vertex_mesh.cpp:250-266", "include/um2/mesh/face_vertex_mesh.hpp:410-426"]}
{"id": "C84", "title": "VTK files are read completely", "statement": "Reading a VTK 3.0 unstructured grid gives a soup with exactly the points of the file, the cells with the types and vertex ids of the file, and for every scalar cell array an element set of all cells with the values of the array; the sets are sorted by name. Files of another version, format or data set type and integers that may not be representable are refused.", "quantifier": "all files of the stated form, all numbers of points, cells and arrays, all line layouts of the values", "why_tests_cant": "the tests read a few small files written for the reader; other layouts that the format allows, other cell types, missing or additional values and long lines are not tried", "anchors": ["src/mesh/polytope_soup.cpp:850-1145", "include/um2/mesh/element_types.hpp:72-94"]}
{"id": "C85", "title": "Soups compare equal exactly if they are the same up to the tolerance", "statement": "compare returns 0 exactly if both soups have the same elements, vertices less than epsDistance apart, and the same element sets with data at most epsDistance apart, in the same order; otherwise it returns the number of the first difference.", "quantifier": "all pairs of soups, all tolerances", "why_tests_cant": "the tests use compare to check the readers and writers; a wrong or missing comparison would make those tests pass silently", "anchors": ["src/mesh/polytope_soup.cpp:372-435", "include/um2/math/vec.hpp:805-825"]}
{"id": "C86", "title": "The CMFD data file shows every coarse cell where it is, with its own data", "statement": "Model::writeCMFDInfo gives, for every place of a coarse cell in the core (assembly, lattice, module, cell), exactly one rectangle: that of the cell in global coordinates, at the middle height of its lattice. The set Coarse_Cell_n holds exactly the faces that are places of cell n. For every group, each face carries the area-weighted total cross section of its cell, the scattering ratio, and the spectral radius computed from the mean side, total cross section and ratio of that cell (-1 for a ratio above 1). Nothing is written for a model with a coarse cell that is not in the core, and the ratio is undefined for a void cell.", "quantifier": "all hierarchies that the modifiers build, all meshes with an area, all cross section tables with up to 100000 groups, any function for the spectral radius", "why_tests_cant": "The data of a face is found through four nested tables and an inverted index; a test sees a few cores, in which symmetric positions hide transpositions and offset errors.", "anchors": ["src/mpact/model.cpp:3249-3517", "src/mpact/model.cpp:3070-3174", "include/um2/physics/cross_section.hpp:113-118"]}
{"id": "C87", "title": "The volumes written for the materials are theirs, and the ray spacing suits nine tenths of the faces", "statement": "The file name.volumes gives for every material the sum, over all slabs of all assemblies in the core, of the area of the faces of that material times the thickness of the slab; the volumes add up to the volume of everything. The mean chord length from which the input file takes the ray spacing is that of a face, at least 9/10 of the faces have at least this length, and at least 1/10 at most. A material that no face of the core has, and a core without faces, lead to undefined behaviour.", "quantifier": "all hierarchies that the modifiers build whose cells have meshes, any area function, any outcome of std::sort, all numbers of faces below 2^31", "why_tests_cant": "Each volume is a sum over five nested tables into a bucket picked by a signed byte; a test sees one small core. The percentile index comes from the truncation of a rounded product, (1 - 0.9) n, for two thousand million values of n.", "anchors": ["src/mpact/model.cpp:2048-2165", "src/mpact/model.cpp:2016-2022", "include/um2/math/stats.hpp:47-72"]}
{"id": "C88", "title": "The input and cross section files consist of the intended lines", "statement": "The case name is the file name without directory and extension. If every material has a nuclide, the lines of the input file are those of the template: for each material a comment with its name and a line for every nuclide, the further ones moved to the column of the first one once `<type>` is replaced by one character, and the keywords each on a line of their own; the ray spacing is a quarter of the representative chord length. The cross section file has a line with the numbers of materials and groups and for each material its name and one line of five values per group. A material without nuclides swallows the line after it.", "quantifier": "all file names, all lists of materials with any names and nuclides, all numbers of groups, any formatting of numbers without line breaks", "why_tests_cant": "No test reads these files; whether a keyword starts a line depends on the number of nuclides of the material before it.", "anchors": ["src/mpact/model.cpp:1951-2047", "src/mpact/model.cpp:2167-2206", "include/um2/stdlib/string.hpp:948-960"]}
{"id": "C89", "title": "The boolean operations of the Gmsh interface keep the physical groups", "statement": "Two non-empty lists of surfaces or of volumes, by strictly increasing tag and of one dimension, are accepted, and nothing else. After a fragment, intersection or cut every group of this dimension has its tag and name and holds the children of its entities, and the entities that took no part; a group none of whose entities leaves a child is gone. So fragmenting does not change the region of a group, intersecting restricts it to what objects and tools share, cutting removes the tools. Adding entities to a group with a name keeps the other groups and makes the union.", "quantifier": "all models with any groups, all inputs, any children returned by the geometry kernel, any regions", "why_tests_cant": "The code walks three sorted lists with two running indices and merges by lower_bound; whether an entity gets the wrong children depends on the interleaving of tags. Tests use a handful of overlapping discs and need Gmsh to run.", "anchors": ["src/gmsh/model.cpp:38-70", "src/gmsh/model.cpp:175-345", "src/gmsh/model.cpp:424-655"]}
{"id": "C90", "title": "With a list of materials every entity gets the first of them, and its colour", "statement": "If a list of materials is given to a fragment or an intersection, an entity that would have several of them keeps the first one only, and no entity loses its material; groups of other names are as without the list. The region of a material is then its region before without the regions of the materials listed earlier. Every entity, with its boundary, gets the colour of the first listed material that has it; everything else keeps its colour. A material listed twice loses all its entities; of two groups with one name only one is treated; if no group remains the behaviour is undefined.", "quantifier": "all models, all inputs, any children, all lists of materials", "why_tests_cant": "The loop edits the vectors it reads: the material i is reduced by materials j < i that were reduced themselves. That this still gives the first material for every entity needs an induction; tests use two or three materials.", "anchors": ["src/gmsh/model.cpp:119-167", "src/gmsh/model.cpp:352-409", "src/gmsh/model.cpp:424-592"]}
{"id": "C91", "title": "Every coarse cell gets the rectangle of the first place where it stands", "statement": "If every coarse cell stands somewhere in the core, the grid that is laid over the geometry has one rectangle per coarse cell: its corner is the sum of the corners of assembly, module and cell at the first such place, its height the middle of the lattice's slab, its size that of the cell (in three dimensions a box of half the slab). If modules and lattices fit the grids they are in, the boxes of different coarse cells do not overlap. A coarse cell that stands nowhere leads to reading uninitialised numbers; modules that fit up to the tolerance only can overlap.", "quantifier": "all hierarchies of tables with a child per grid cell; any ordered field", "why_tests_cant": "Four arrays of flags skip assemblies, lattices, modules and cells already seen; that the skipped parts contain nothing new is an invariant over four nested levels. The tests have one assembly with distinct objects.", "anchors": ["src/gmsh/model.cpp:1107-1205", "src/gmsh/model.cpp:1234-1258"]}
{"id": "C92", "title": "Laying the coarse grid over the geometry gives every cell its group and every point one material", "statement": "After the overlay exactly the fragments of the grid remain. The group Coarse_Cell_i has exactly the fragments of rectangle i. Every fragment has exactly one material: one it had before, or the fill material; the fill material has exactly what had no other material; a fragment with one material other than the fill material keeps it; other groups keep what lies in the grid. In terms of points: the group of a cell covers its rectangle and every point of the grid has exactly one material. Colours are those of the materials. Needs: no group named just Material, no group with the name of a coarse cell before, at most 100000 cells.", "quantifier": "all models with distinct names, all fragment maps, all numbers of cells up to 100000", "why_tests_cant": "The result depends on the order of a list of materials, two sorted-set algorithms, generated names and the removal of the complement; the tests count groups of one small model.", "anchors": ["src/gmsh/model.cpp:76-109", "src/gmsh/model.cpp:1207-1233", "src/gmsh/model.cpp:1258-1328"]}
{"id": "C93", "title": "In three dimensions the surfaces of the grid get the groups of the volumes above them", "statement": "In three dimensions the coarse cells are boxes, and the result consists of the bottoms of the boxes. After the step from volumes to surfaces exactly the children of the rectangles remain; a surface that bounds one volume only has exactly the groups of that volume; so it is in the group of its coarse cell and in no other, and has exactly one material. A surface that bounds several volumes has at most one material, but may be in several coarse cells.", "quantifier": "all groups of volumes, adjacencies and children of the intersection", "why_tests_cant": "Depends on the adjacencies of all volumes; the path is not covered by a test that looks at the groups.", "anchors": ["src/gmsh/model.cpp:1319-1410"]}
{"id": "C94", "title": "A pin in Gmsh: every point of it is in one ring, in the group of its material", "statement": "addCylindricalPin2D ends the program with an error unless there is a radius, there are as many materials as radii and the radii are positive and do not decrease. Otherwise it adds one surface for each radius, the disk and the annuli around the centre, returns their new tags from the inside to the outside, puts each into the physical group of its material and gives it its colour; other groups, surfaces and colours do not change. Every point of the largest disk is in exactly one new surface, that of the first radius that reaches it; points outside are in none.", "quantifier": "all states of groups and colours, all centres, radii and materials, all points, over any ordered field", "why_tests_cant": "Tests add two or three pins of fixed radii; that the surfaces partition the disk and that the groups of other materials stay as they are is a statement about all radii, all points and all earlier states.", "anchors": ["src/gmsh/model.cpp:664-723"]}
{"id": "C95", "title": "A lattice of pins in Gmsh: each pin around the middle of its cell", "statement": "For a lattice of pin ids whose columns have a common width and whose rows a common height, addCylindricalPinLattice2D adds one surface for each ring of each pin, around the middle of the cell of the pin (rows of the list from top to bottom) moved by the offset; the tags are new, different and returned without repetition; every ring is in the physical group of its material and has its colour, and no other group and no colour of an older surface changes. If the radii are positive, do not decrease and are less than half the sides of the cells, every point that a radius of the pin of its cell reaches is in exactly one new surface, that of the first such radius, and in the group of its material.", "quantifier": "all states, all lattices of any size, all extents of at least the tolerance of the grid, all radii, materials, offsets and points, over any ordered field", "why_tests_cant": "Tests use one lattice; the row order, the middles of columns of different widths and the collection of the tags per ring are statements about all lattices.", "anchors": ["src/gmsh/model.cpp:746-866", "include/um2/mesh/rectilinear_grid.hpp:185-216"]}
{"id": "C96", "title": "The info file keeps the physical groups and colours of a Gmsh model", "statement": "For every model whose entities have dimension 0 to 3, whose groups consist of these entities, whose group names contain no quotation mark and no newline and whose colours are bytes, reading the info file that write produces succeeds and gives the same groups in the same order, by dimension, name and entities, where the entities of each dimension are numbered from one by increasing tag, and the same colours of all surfaces and volumes; the colour of no other entity changes.", "quantifier": "all models with any number of entities, groups, colours and any names, below 2^31 each", "why_tests_cant": "Tests write and read one model; the eight entries per line, the renumbering and the parsing by position are statements about all counts, names and tags.", "anchors": ["src/gmsh/io.cpp:31-188", "src/gmsh/io.cpp:192-251", "src/gmsh/io.cpp:258-370"]}
{"id": "C97", "title": "The mesh size from the Knudsen number is the size of the material at every place", "statement": "setMeshFieldFromKnudsenNumber accepts exactly the documented inputs. The background field it sets is, at every place on a Material group, the smallest size of the materials at that place: the base size, or for coolant and absorbers the base size up to the threshold in mean free paths and a linear rise after it. In an equilateral triangle of the base size, the mean free path over the mean chord length is the given Knudsen number.", "quantifier": "all physical groups, materials, cross sections, Knudsen numbers, thresholds, scales, geometries and places", "why_tests_cant": "The function builds a network of Gmsh fields whose numbers are handed on; tests look at one geometry and at the number of elements, not at the value of the field at every place, and cannot range over the materials and geometries.", "anchors": ["src/gmsh/mesh.cpp:157-514", "include/um2/geometry/polygon.hpp:238-245"]}
{"id": "C98", "title": "The polar quadrature of the CMFD analysis integrates over the angle", "statement": "The 32 points and weights of set_U are the Gauss-Legendre quadrature: the points are the roots of the Legendre polynomial of degree 32 up to the last digit, and the weighted sum is the integral over [-1, 1] of every polynomial of degree at most 63, up to the digits of the table, also after the table is rounded to Float. No point is zero, so no angle lies along the cells.", "quantifier": "all polynomials of degree at most 63, all continuous integrands near such a polynomial, all roundings of the table", "why_tests_cant": "The tests compare a few spectral radii with published values to a few digits; a wrong digit in the table is not seen, and no test covers all integrands.", "anchors": ["src/physics/cmfd.cpp:112-140", "src/physics/cmfd.cpp:147-167"]}
{"id": "C99", "title": "The soup of an MPACT model is its coarse cells at their places", "statement": "Converting a model to a PolytopeSoup gives the mesh of every coarse cell at every one of its places in the core, moved to that place and height, in the order of reading. There is a set for every place of an assembly, lattice, module and cell, named by the number of the object and the number of the visit, and it holds exactly the elements inside. Material, one-group cross section, mean chord length and Knudsen number are given for every element. There are no other sets.", "quantifier": "all models built from existing parts, with any nesting and any repeated use of the parts; all correct sorting functions", "why_tests_cant": "The tests write one small model and look at the file; they do not show that the sets of repeated parts keep apart, nor that the values stay with their elements when the soups are joined and sorted.", "anchors": ["src/mpact/model.cpp:1277-1518"]}
{"id": "C100", "title": "A quadratic mesh that passes validation has no face that intersects itself", "statement": "FaceVertexMesh::validate on a quadratic mesh ends, either with an error or with a mesh in which every face is counter-clockwise, every edge belongs to at most two faces, the boundary is one loop, and no two edges of a face meet more than once. On the way only middle vertices of edges are moved, and the boundary of the mesh stays where it was.", "quantifier": "all quadratic meshes, with any number of faces and of repairs", "why_tests_cant": "The tests repair one face; a repair changes an edge that another face shares, so that the repairs of different faces act on each other without bound.", "anchors": ["src/mesh/face_vertex_mesh.cpp:428-525", "include/um2/mesh/face_vertex_mesh.hpp:440-449", "include/um2/geometry/polygon.hpp:322-387"]}
{"id": "C101", "title": "A validated cross section is complete and physical, and so is the built-in C5G7 set", "statement": "XSec::validate comes back exactly for cross sections with one value for each group and a square scattering matrix, warns about exactly the negative values and the fission in what is not fissile, and never reads beyond a vector. Material::validateProperties and validateXSec do the same for materials. The averages over the groups of a cross section without a message have none either. The seven built-in C5G7 cross sections give no message, their absorption, fission, scattering and transport values balance, and every source in a medium made of one of them has exactly one flux, which is not negative if the source is not.", "quantifier": "all cross sections and materials, with any number of groups and any vectors; all sources", "why_tests_cant": "The tests validate a handful of cross sections that are right; whether a message can be missing, or a size go unchecked before the data are read, is a question about all cross sections. The tests of the C5G7 data look at single numbers.", "anchors": ["src/physics/cross_section.cpp:17-120", "src/physics/cross_section.cpp:143-543", "src/physics/material.cpp:324-364", "src/physics/material.cpp:612-657"]}
{"id": "C102", "title": "addCoarseGrid tiles the domain with equal coarse cells", "statement": "addCoarseGrid on a model without cells adds nx * ny cells of equal size, one module for each, one lattice counted row by row from the bottom left, one assembly and the core, so that the places of the cells tile the domain: every point of the domain is in exactly one of them. With extents or numbers that are not positive nothing changes.", "quantifier": "all extents and numbers of cells", "why_tests_cant": "The test builds one grid of two by one cells; that every cell gets its place for all numbers of columns and rows, through the renumbering, the reversal of the rows and the tolerances of four functions, needs a proof.", "anchors": ["src/mpact/model.cpp:1100-1156"]}
{"id": "C103", "title": "The numbers in the files of the post-processing programs", "statement": "Every number is written as a decimal number with 16 digits after the point that differs from the value by at most half a unit of the last digit; the files have one such number on each line, in the order of the numbers; a text stands for one value only, and a value that is a multiple of 2^-53 can be got back from its text.", "quantifier": "all rational values, all lists of values", "why_tests_cant": "a test sees a few numbers; that the texts of all numbers can be told apart or not is a statement about all of them", "anchors": ["post-process/extract_edge_length.cpp:103-122", "post-process/extract_meanchordlength.cpp:81-100", "post-process/extract_powers.cpp:25-40", "post-process/extract_spectrum.cpp:24-45", "post-process/extract_cmfd_info.cpp:61-125"]}
{"id": "C104", "title": "The mean chord lengths and the edges follow the order of the fine cells", "statement": "For a model all of whose coarse cells have meshes, the program for the mean chord lengths writes, on line i, the mean chord length of the i-th fine cell, in the order of the elements of the soup of the model; the program for the edges writes the lengths of the edges of every fine cell in that order, cell by cell.", "quantifier": "all models (any number of assemblies, lattices, modules, cells and faces), all functions for the mean chord length and the length of an edge", "why_tests_cant": "the agreement of two nested loops over a hierarchy is needed for every hierarchy", "anchors": ["post-process/extract_meanchordlength.cpp:23-79", "post-process/extract_edge_length.cpp:23-100"]}
{"id": "C105", "title": "The spectrum, the CMFD data and the powers are those of the file", "statement": "The spectrum has, for every group of the soup, the sum over the elements of flux times area, with the area for the type of the elements, and other soups are refused; the files of the CMFD data have the total cross sections, scattering ratios and spectral radii of every group, and for a soup written by writeCMFDInfo these are the values of the coarse cells; the file of powers has a line for each power, and an error is reported exactly if their sum differs from 1 by more than a thousandth.", "quantifier": "all soups, all numbers of groups, all models, all lists of powers", "why_tests_cant": "names of sets are counted up, and the sums run over all elements: the claim is about every number of groups and elements", "anchors": ["post-process/extract_spectrum.cpp:50-119", "post-process/extract_cmfd_info.cpp:19-59", "post-process/extract_powers.cpp:16-48"]}
{"id": "C106", "title": "The source programs write the scattering, fission and total sources", "statement": "The programs that extract the source write the file they read with three sets more: at every element the scattering source, the fission source divided by k, and their sum; all other sets and elements stay, and a file whose elements are not faces of one type is refused.", "quantifier": "all soups of faces of one type with material and flux sets, all materials, all numbers of groups below 1000, all k", "why_tests_cant": "the sources are sums over all groups at all elements, and the sets are appended to a file with arbitrary other sets", "anchors": ["models/c5g7/2d/c5g7_extract_source.cpp:24-50", "models/crocus/crocus_2d_extract_source.cpp:79-104", "models/fnr/fnr_leu_2d_extract_source.cpp:129-154", "models/vera/problem_4/2d/vera_4_rodded_extract_source.cpp:183-208"]}
{"id": "C107", "title": "A plane model made of lattices of pins has the right material at every point", "statement": "A program that adds lattices of pins to an empty Gmsh model, adds a coarse grid to an MPACT model and overlays it ends without an error, and then every point of the domain has exactly one material: that of the first circle of its pin that reaches it, or the fill material; every point is in the group of the coarse cell whose rectangle it is in, and nothing is left outside the domain.", "quantifier": "all lists of lattices of known pins, all radii, materials, offsets, domains and numbers of coarse cells up to 100000, all answers of the kernel to the fragment operation, all points", "why_tests_cant": "the claim is about every point of the plane after a chain of lattice calls, a grid and an overlay whose fragments come from the geometry kernel", "anchors": ["src/gmsh/model.cpp:112-655", "src/gmsh/model.cpp:1107-1410", "src/mpact/model.cpp:1100-1156", "models/c5g7/2d/c5g7_2d_variable_grid.cpp:140-169", "models/crocus/crocus_2d_variable_grid.cpp:173-206", "models/vera/problem_4/2d/vera_4_rodded_2d_variable_grid.cpp:333-370"]}
{"id": "C108", "title": "The plane C5G7 programs build the C5G7 benchmark", "statement": "The programs read their lattice texts without loss, and on any grid of coarse cells they build the benchmark: UO2 and MOX assemblies and water at their places, fission chamber and guide tubes and the three enrichment zones at their places in the assemblies, each pin a circle of 0.54 cm in the middle of its cell of 1.26 cm, and moderator everywhere else.", "quantifier": "all numbers of coarse cells per side up to the limit of the names, all answers of the kernel to the fragment operation, all points of the domain", "why_tests_cant": "no test runs the program, and the claim is about every point of the plane for every grid", "anchors": ["models/c5g7/2d/c5g7_2d_variable_grid.cpp:31-169", "models/c5g7/2d/c5g7_2d_advanced_mesh.cpp:60-181", "include/um2/common/string_to_lattice.hpp:15-57", "src/physics/material.cpp:612-657"]}
{"id": "C109", "title": "The plane CROCUS programs build the core without overlapping rods", "statement": "The programs read their lattice texts without loss and on any grid of coarse cells build the core: 336 oxide rods and 178 metal rods, fuel within the clad, at the places of two square lattices of different pitch with a common middle, and water everywhere else; although the lattices overlap, rods of different lattices are more than 1 cm apart.", "quantifier": "all numbers of coarse cells per side up to the limit of the names, all answers of the kernel to the fragment operation, all points of the domain", "why_tests_cant": "no test runs the program; the two lattices overlap, so the material of a point depends on every pair of rods being apart", "anchors": ["models/crocus/crocus_2d_variable_grid.cpp:95-206", "models/crocus/crocus_2d_advanced_mesh.cpp:106-218", "include/um2/common/string_to_lattice.hpp:15-57"]}
{"id": "C110", "title": "The plane VERA 4 programs build the specified quarter core", "statement": "The programs read their lattice texts without loss and on any grid of coarse cells build the quarter of three by three assemblies: every pin has its layers of materials around its middle, the gaps between assemblies and the rest are moderator; the places that are not fuel are guide tubes around the middle of an assembly, and a rod in a guide tube leaves the tube in place.", "quantifier": "the rodded and the unrodded program, all numbers of coarse cells per side up to the limit of the names, all answers of the kernel to the fragment operation, all points of the domain", "why_tests_cant": "no test runs the programs; a point check covers single points and not the whole plane, and not all grids or fragments", "anchors": ["models/vera/problem_4/2d/vera_4_rodded_2d_variable_grid.cpp:203-370", "models/vera/problem_4/2d/vera_4_unrodded_2d_variable_grid.cpp:185-323"]}
{"id": "C111", "title": "A pin-modular model repeats one coarse cell per kind of pin without changing the materials", "statement": "The advanced-mesh programs draw every pin of a core, keep one coarse cell for each kind of pin, and repeat it through lattices, assemblies and the core: the model so assembled has at every point of the core the material of the drawing, that is, of the pin whose cell the point is in, at its distance from the middle of the pin; each coarse cell is the rectangle of a pin of its kind and nothing is left outside. The advanced-mesh program of the rodded VERA problem 4 so gives its core of two by two assemblies, and has the pins of the variable-grid program of the same problem.", "quantifier": "all cores of lattices of pins of one size in which every kind of pin is used, all answers of the kernel to the fragment operation, all points of the core", "why_tests_cant": "no test runs the programs; where the coarse cells are taken from depends on a search over the whole core, and the claim is about all points", "anchors": ["models/vera/problem_4/2d/vera_4_rodded_2d_advanced_mesh.cpp:203-397", "src/gmsh/model.cpp:1231-1410", "src/mpact/model.cpp:133-560"]}
{"id": "C112", "title": "Which cylindrical pins addCylindricalPinMesh accepts", "statement": "A pin with growing circles and at least one ring in each region is meshed whenever its radii are less than half the pitch. The points of the mesh are at the radii of the rings times a factor, more than one, that depends only on the number of azimuthal divisions and the order; a pin that is meshed is also meshed with more divisions, and with curved edges if it is with straight ones. With a tolerance that is smaller than a quarter of a division of the cell's side, than the sine of half a division, and than half the distance of the pin from the side, the mesh is the one without a tolerance.", "quantifier": "all pitches, radii and numbers of rings, all powers of two from 8 as numbers of divisions, both orders", "why_tests_cant": "the tests mesh a few pins; the condition for acceptance depends on a computed equal-area radius and not on the radii the user gives", "anchors": ["src/mpact/model.cpp:138-270", "src/mpact/model.cpp:400-445"]}
{"id": "C113", "title": "The 3D C5G7 program with standard meshes makes the benchmark's core", "statement": "The program ends without an error with a core of three by three squares of 21.42 cm in ten slices of 21.42 cm, each of 17 by 17 cells of 1.26 cm. In the lowest nine slices the two UO2 and two MOX assemblies have the pins of the benchmark, everywhere else is water. Every cell with a pin has exactly the area of a circle of radius 0.54 cm in the faces with the material of the pin and the rest in moderator; a water cell has only moderator.", "quantifier": "all 26,010 places of cells in the core, all correct sorts, all tolerances up to 1e-4, all seven materials with the names of the C5G7 library", "why_tests_cant": "the program has no test; the position, height, material and area of every cell depend on the lattice texts, the id arithmetic of the hierarchy and the equal-area radii together", "anchors": ["models/c5g7/3d/c5g7_3d_standard_moc.cpp:16-211", "src/mpact/model.cpp:138-891"]}
{"id": "C114", "title": "The NuScale program makes the quarter core in its vessel", "statement": "Whatever pieces the geometry kernel makes of the cut and of the fragment, the program comes to the end of the overlay without an error. A point in the cell of a pin has the material of the ring of the pin it is in, for the documented assemblies with their middles at multiples of the assembly pitch; a point elsewhere is steel in the reflector outside the openings for assemblies and coolant holes, in the barrel and in the vessel, and water otherwise. The coarse cells are the equal rectangles of the grid.", "quantifier": "all points of the domain, all answers of the kernel, all grids up to 100000 coarse cells, all tolerances up to a pin pitch, all colours, with and without the gap", "why_tests_cant": "the program has no test; the material of a point depends on the cut, the file written and read again, thirteen lattices and the overlay together", "anchors": ["models/nuscale/nuscale_2d.cpp:7-695", "src/gmsh/model.cpp"]}
{"id": "C115", "title": "The C interface shows the whole model", "statement": "A client that asks the C interface for the numbers of cells and the children, level by level, never leaves a table, sees every coarse cell at exactly the places where it stands, once and in the order the totals count, and with arrays of the length the interface gives it gets the materials of all fine cells, and the area, the material, the centroid and the vertices of every face of a coarse cell. A query for the face that contains a point gives the first such face or -1 if there is none; a query with a ray gives all intersections in ascending order. From the arrays of the face data the mesh can be rebuilt.", "quantifier": "all models with complete tables, all coarse cells with a mesh, all buffers, points and rays", "why_tests_cant": "the tests of the C interface look at a handful of fixed models; that the functions together describe the model, and which lengths of the caller's arrays are safe, is a statement about all models", "anchors": ["src/um2c.cpp:97-407", "src/um2c.cpp:603-687"]}
{"id": "C116", "title": "An XDMF mesh and its data file belong together", "statement": "Writing a mesh to `dir/name.xdmf` puts the data into `dir/name.h5` and touches no other file, and reading `dir/name.xdmf` gives the mesh back. The pair of files can be moved together to another directory and read there with the same result. A path with another ending is refused.", "quantifier": "all meshes for which C69 holds, all directories and names, all contents of the file system", "why_tests_cant": "the tests write to one fixed relative path and read it at once; how paths of all forms are split, and what is stored about them inside the files, is not exercised", "anchors": ["src/mesh/polytope_soup.cpp:1436-1477", "src/mesh/polytope_soup.cpp:1997-2088", "src/mpact/model.cpp:1698-1716", "src/mpact/model.cpp:2300-2314"]}
{"id": "C117", "title": "The plane models of the Ford Nuclear Reactor", "statement": "On every coarse grid, the programs for the core and for the single element draw the specified figure: each point of the domain has exactly the material that the lengths, the curved plates, the side and guide plates, the rods with rounded corners and the tank of heavy water assign to it, and water elsewhere. Nothing overlaps, nothing is cut off by the domain, and the clad around the meat has nearly its nominal thickness. The meat is as thick as in a flat plate, and the fuel called LEU is low enriched.", "quantifier": "all points of the plane, all numbers of coarse cells within the limits of the labels, all answers of the geometry kernel to the fragment", "why_tests_cant": "the programs are not run in the tests, and a run checks no point of the geometry; the claim on the thickness of the meat is an inequality about circles for all points", "anchors": ["models/fnr/fnr_leu_2d_variable_grid.cpp:67-473", "models/fnr/fnr_leu_2d_variable_grid.cpp:540-682", "models/fnr/fnr_leu_2d_advanced_mesh.cpp", "models/fnr/fnr_heu_2d_single_asy.cpp:60-435"]}
{"id": "C118", "title": "The pin cell of VERA problem 1A", "statement": "The programs for the pin cell with and without a gap end without an error, and each point of the cell has exactly the material that the radii of the benchmark assign to it: fuel, gap, clad, and moderator up to the sides of the cell; the cell is the only coarse cell. The densities of the materials are those of their nuclides, and the helium has the density that is quoted for it.", "quantifier": "all points of the cell, all answers of the geometry kernel to the fragment, all tolerances up to the pitch", "why_tests_cant": "the programs are not run in the tests, and a run checks no point of the geometry", "anchors": ["models/vera/problem_1/vera_1a.cpp:24-122", "models/vera/problem_1/vera_1a_nogap.cpp:24-108", "src/gmsh/model.cpp:664-723"]}
{"id": "C119", "title": "The SVEA assembly", "statement": "The program for the SVEA assembly ends without an error and gives each point of the assembly exactly one material: the fuel of the table in the pellets and clad around them, clad in the channel box with its rounded corners, in the ring of the water cross and in its four wings, coolant between the pins inside the box, and moderator in the water cross, in the wings and outside the box; the coarse cells are those of the grid.", "quantifier": "all points of the assembly, all numbers of coarse cells up to the limit, all answers of the geometry kernel to the six booleans and to the fragment, all tolerances up to the size of a cell", "why_tests_cant": "the program is not run in the tests, and a run shows one answer of the kernel; the order of the surfaces that a cut returns is not documented", "anchors": ["models/svea/svea_2d_variable_grid.cpp:13-231", "models/svea/svea_2d_variable_grid.cpp:418-515", "src/gmsh/model.cpp:38-70", "src/gmsh/model.cpp:664-723"]}
{"id": "C120", "title": "Determinants and cross products in floating point", "statement": "In floating-point arithmetic the 2x2 determinant, and with it the cross products of two and three dimensions, has exactly the sign of the true value (zero exactly when the true value is zero) and a relative error of at most 3u + 2u^2 with u = 2^-p; the inverse of a 2x2 matrix divides by zero exactly when the matrix is singular, and its entries have a relative error of at most 5u.", "quantifier": "all precisions p, all rounding functions to nearest with any treatment of ties, all floating-point entries (no overflow or underflow)", "why_tests_cant": "the interesting inputs are nearly singular, where the products agree in all digits that are kept; a random test never meets them", "anchors": ["include/um2/math/vec.hpp:773-803", "include/um2/math/mat.hpp:265-289", "include/um2/stdlib/math/fma.hpp:16-21"]}
{"id": "C121", "title": "The orientation tests in floating point", "statement": "In floating-point arithmetic areCCW says that three points turn left or are on a line if and only if they do, so that a point of two triangles with a common edge is in at least one of them; areApproxCCW never rejects points that turn left.", "quantifier": "all precisions, all roundings to nearest, all floating-point points", "why_tests_cant": "the tests use points with few digits, for which the differences of coordinates are exact", "anchors": ["include/um2/geometry/point.hpp:49-73", "include/um2/geometry/triangle.hpp:337-349", "include/um2/math/vec.hpp:42-53"]}
{"id": "C122", "title": "The quadratic equation in floating point", "statement": "In floating-point arithmetic solveQuadratic decides exactly whether a quadratic equation has a real root, returns the sentinel if it has none, and otherwise returns its two roots in order, each with a relative error of at most 7 * 2^-p, and equal if the root is double; the root of a linear equation has a relative error of at most 2^-p.", "quantifier": "all precisions p >= 8, all roundings to nearest, all floating-point coefficients (no overflow or underflow)", "why_tests_cant": "the errors are largest where the discriminant nearly vanishes or one root is much smaller than the other", "anchors": ["include/um2/math/quadratic_equation.hpp:22-105"]}
{"id": "C123", "title": "Morton codes of floating-point coordinates", "statement": "In floating-point arithmetic the Morton code of a point of the unit square or cube is defined and names the cell of each coordinate; it is monotone in each coordinate; decoding a code and encoding the result gives the same code again, so that no code is lost to rounding; decoding the code of a point gives a point whose coordinates differ by at most the width of a cell and two rounding errors. The vertices of a mesh are scaled into the unit square before they are sorted.", "quantifier": "all points, all codes of both widths, float and double (where the code permits the pair), all roundings to nearest", "why_tests_cant": "the tests encode the corners only; whether the quotient k / max times max is at least k after two roundings depends on the binary digits of k and max, and there are 2^64 codes", "anchors": ["include/um2/math/morton.hpp:334-397", "include/um2/geometry/morton_sort_points.hpp:28-54", "include/um2/geometry/morton_sort_points.hpp:89-101", "src/mesh/face_vertex_mesh.cpp:118-166"]}
{"id": "C124", "title": "Statistics in floating point", "statement": "In floating-point arithmetic: the error of the sum of at most 128 * 2^k numbers is at most ((1 + u)^(127 + k) - 1) times the sum of their magnitudes, which is 152 * 2^-p for any number of elements an Int can count; the error of the mean is at most 154 * 2^-p times the mean magnitude; the median is an element or lies between the two elements in the middle; the variance is never negative, is zero exactly when all numbers are equal, and has an error of at most (8 n + 78) 2^-p B^2 for n numbers of magnitude at most B; mean and median lie between the smallest and the largest number.", "quantifier": "all lists of floating-point numbers, all precisions from 24 on (variance, median: all), all roundings to nearest, with and without fused multiplication and addition in the loop", "why_tests_cant": "an error bound is a statement about all lists; the tests compare with exact results on a handful of small integers, for which nothing is rounded", "anchors": ["include/um2/math/stats.hpp:32-59", "include/um2/math/stats.hpp:79-135"]}
{"id": "C125", "title": "Regular grids in floating point", "statement": "In floating-point arithmetic: the conversion in getCellIndexContaining is defined for points within 2^30 cells of the lower end; a point below the lower end is in no cell; the cell found is that of the exact calculation up to 3 * 2^-p times the distance from the lower end, and exactly that cell if the distance and the ends of the cell are numbers of the format; cells are ordered as points are; getCellIndicesIntersecting gives nothing or an ordered range, and the range contains the cell of each point of the box; the ends of getBox are ordered, not inverted and have a bounded error, and neighbouring boxes meet up to a bounded error; the centroid of each cell is located in it if 16 * 2^-p (|min| + n dx) <= dx; each point of a box getBox(i), and each point of the bounding box, is located in a cell, and the boxes of neighbours share their edge.", "quantifier": "all grids, all floating-point points and boxes, all precisions, all roundings to nearest, with and without fused multiplication and addition", "why_tests_cant": "the tests use spacings of 1 and other exact numbers; the errors are of one unit in the last place at particular multiples of an inexact spacing", "anchors": ["include/um2/mesh/regular_grid.hpp:254-305", "include/um2/mesh/regular_grid.hpp:343-405"]}
{"id": "C126", "title": "Linear interpolation in floating point", "statement": "In floating-point arithmetic a line segment l(r) begins exactly at its first point, each coordinate changes in one direction only, no point is before the beginning, and the end is the second point up to 2^-p |b| + 2 * 2^-p |b - a|, and exactly if neither coordinate is more than twice the other. Between two temperatures the weight of interpXS lies in the unit interval, so cross sections that are not negative stay so, follow the temperature in one direction, and lie between the two values if these differ by at most a factor of two (else up to the error of the end). A segment ends exactly at its second point.", "quantifier": "all numbers of the format, all precisions, all roundings to nearest, with and without fused multiplication and addition, all increasing square roots", "why_tests_cant": "the tests interpolate between small exact numbers; rounding errors and ties occur at particular operands only", "anchors": ["include/um2/geometry/line_segment.hpp:154-166", "src/physics/nuclide.cpp:86-121"]}
{"id": "C127", "title": "Distances in floating point", "statement": "In floating-point arithmetic the squared distance of two points in n dimensions has a relative error of at most n + 2 roundings, is never negative, is zero exactly for equal points and is the same in both directions; isApprox is true (false) for points closer (farther) than the tolerance by more than this; the closest point of a segment has a parameter between 0 and 1, is undefined exactly for segments of no extent, is the end itself for an end, and is that of the closest point in exact arithmetic up to 3 (n + 2) roundings relative to the products of coordinates, so that no point of the segment is closer by more than the square of these times the squared distance to its first end; the distance to a segment is not negative and is zero at its ends.", "quantifier": "all points in all dimensions, all precisions, all roundings to nearest (symmetry: those that do not depend on the sign), with and without fused multiplication and addition", "why_tests_cant": "a bound that does not depend on how close the points are concerns all pairs of points, in particular nearby ones, where the subtraction cancels", "anchors": ["include/um2/math/vec.hpp:728-748", "include/um2/math/vec.hpp:805-825", "include/um2/geometry/line_segment.hpp:221-256"]}
{"id": "C128", "title": "Rays and segments in floating point", "statement": "In floating-point arithmetic the intersection of a ray with a segment is decided for a segment whose points differ from the given ones by one rounding of the distance to the origin of the ray and one of the length (not at all if the differences are exact): a parallel segment is never hit; a hit means that the ray meets the line of the segment between its first point, exactly, and nine roundings past its second point, not behind the origin, and the value written has a relative error of nine roundings; every meeting from the first point, exactly, to nine roundings before the second is a hit; a polygon writes at most one value per edge. A ray that enters a triangle hits it.", "quantifier": "all segments, rays and polygons, all precisions of at least five digits, all roundings to nearest", "why_tests_cant": "whether a ray can slip through between two edges concerns all rays through all vertices; the tests shoot a few", "anchors": ["include/um2/geometry/line_segment.hpp:351-369", "include/um2/geometry/polygon.hpp:251-262"]}
{"id": "C129", "title": "Colours", "statement": "Colours are equal exactly if their four bytes are. Integers from 0 to 255 are the bytes of their colour in every integral type of at least a byte, three make an opaque colour, and the bytes of a colour give it back. Numbers between 0 and 1 always make a colour, 0 and 1 are the bytes 0 and 255, a greater number has no smaller byte, and n / 255 has the byte n in single and in double precision. Outside of these ranges integers wrap and numbers may be undefined behaviour.", "quantifier": "all colours, all integral types, all precisions of at least eight digits, all roundings to nearest (the way back from n / 255: to even)", "why_tests_cant": "the constructor truncates, so that a single quotient rounded down would lose a byte", "anchors": ["include/um2/common/color.hpp:56-72", "include/um2/common/color.hpp:107-124"]}
{"id": "C130", "title": "Areas and centroids in floating point", "statement": "In floating-point arithmetic the area of a triangle is not negative exactly if isCCW says so, whatever the points, and does not change when the triangle is moved. With representable differences of coordinates (points of a common grid) the areas of triangles and quadrilaterals have the exact sign and a relative error of 3u + 2u^2, isConvex is exact, a convex quadrilateral has no negative area, and its centroid, in the positive quadrant, is defined and has a relative error of 21 roundings; the centroid of a triangle has an error of three roundings of the mean magnitude. The area of a polygon by the shoelace formula has an error relative to the sum of the magnitudes of its terms; it is positive for a convex counterclockwise polygon.", "quantifier": "all points, all precisions, all roundings to nearest, with and without fused multiplication and addition", "why_tests_cant": "the tests use shapes with small integer coordinates, where nothing is rounded", "anchors": ["include/um2/geometry/triangle.hpp:249-301", "include/um2/geometry/quadrilateral.hpp:246-338", "include/um2/geometry/polygon.hpp:143-155"]}
{"id": "C131", "title": "Norms, unit vectors, perimeters and mean chords in floating point", "statement": "In floating-point arithmetic the norm of a vector and the distance of two points have a relative error of (n + 3) / 2 + 1 roundings in n dimensions, and the norm is zero for the zero vector only. Every other vector has a unit vector, with the same signs and zeros; the square of its exact length is one up to 4k + 2 roundings, and the constructor of Ray accepts it in single and double precision. The perimeter of a polygon has one more error per edge; the mean chord of a counterclockwise triangle (quadrilateral) with representable differences has a relative error of 16 (18) roundings.", "quantifier": "all vectors, points and polygons, all precisions (24 digits or more for the rays), all roundings to nearest, with and without fused multiplication and addition", "why_tests_cant": "the tests compare single values with a tolerance; that the assertion of Ray never fails for a unit vector concerns all vectors", "anchors": ["include/um2/math/vec.hpp:749-770", "include/um2/math/vec.hpp:813-818", "include/um2/geometry/ray.hpp:27-34", "include/um2/geometry/polygon.hpp:92-104", "include/um2/geometry/polygon.hpp:237-245"]}
{"id": "C132", "title": "Vectors and pairs compare as what they contain", "statement": "For elements of a linear order, == of vectors never reads past an end and is equality of the sequences; <, >, <= and >= are the lexicographic order, a beginning coming before the whole; the operators of pairs are the lexicographic order of their two parts. iota fills a range with consecutive numbers and is defined exactly if the number after the last one is still an Int. A vector of max_size() elements is the greatest one whose bytes an Int can count.", "quantifier": "all sequences and pairs of elements of a linear order, all ranges and first numbers, all sizes of elements", "why_tests_cant": "the tests compare a few short vectors; consistency of six operators is a statement about all pairs of sequences", "anchors": ["include/um2/stdlib/vector.hpp:833-873", "include/um2/stdlib/utility/pair.hpp:70-102", "include/um2/stdlib/algorithm/equal.hpp:8-18", "include/um2/stdlib/numeric/iota.hpp:8-15", "include/um2/stdlib/vector.hpp:728-735"]}
{"id": "C133", "title": "Powers from an FSR output", "statement": "getPowers of a file accepts exactly the outputs with elements of one of the four types and a set `power` with one value for every element, one of them positive; otherwise it ends the program, and nothing it does is undefined. What it returns are the powers and centroids of the connected groups of elements with positive power, the power of an element being the value that the set has for it.", "quantifier": "all soups, element sets and values, all four element types, all implementations of std::sort", "why_tests_cant": "there is one test with one file; the checks are about all sets of ids", "anchors": ["src/mpact/powers.cpp:35-59", "src/mpact/powers.cpp:78-106", "src/mpact/powers.cpp:248-278", "src/mesh/polytope_soup.cpp:82-100", "src/mesh/face_vertex_mesh.cpp:53-96"]}
{"id": "C134", "title": "Linear systems and eigenvalues", "statement": "linearSolve(a, b) returns the one solution of A X = B if the matrix is regular (with the identity, the inverse), reads and writes only its arrays, and reports a matrix for which there is none; the overload that works in place leaves the same solution in b. eigvals returns the roots of the characteristic polynomial, each as often as it occurs, so that their product is the determinant and their sum the trace.", "quantifier": "all square matrices of all sizes and all right sides, over all fields (real matrices for eigvals), all LAPACK libraries that do what the documentation says", "why_tests_cant": "the tests solve one system; which arguments are handed to LAPACK matters for other shapes, and a singular matrix is not tested", "anchors": ["src/math/matrix.cpp:362-602", "src/math/matrix.cpp:604-682", "include/um2/math/matrix.hpp:140-170"]}
{"id": "C135", "title": "Boxes in floating point", "statement": "With rounding, the extents of a box are not negative and vanish only for equal corners, the centroid is in the box, scaling by at least one loses no point of it and scaling by at most one adds none. The intersection with a ray is reported up to a few relative errors; a ray that starts in the box is never missed; a box is hit wherever a box in it is hit; and a grid of boxes is watertight: wherever the whole is hit, one of its cells is hit.", "quantifier": "all precisions of at least one digit, all roundings to nearest, all dimensions, all boxes, rays (also with zero components of the direction, of either sign), factors and grids", "why_tests_cant": "the tests use boxes and rays whose parameters are representable; rounding matters near corners and faces, and whether a ray can slip between two cells is a question about all rays", "anchors": ["include/um2/geometry/axis_aligned_box.hpp:234-255", "include/um2/geometry/axis_aligned_box.hpp:278-310", "include/um2/geometry/axis_aligned_box.hpp:353-361", "include/um2/geometry/ray.hpp:62-66", "include/um2/geometry/point.hpp:41-48"]}
{"id": "C136", "title": "Modular rays in floating point", "statement": "With rounding, modular rays exist for every box and spacing with at most 2^30 rays an edge (the right angle included), their number is that of the exact calculation up to three relative errors, each ray starts on its edge, never outside the box and within a few units in the last place of its exact place, neighbouring rays are one spacing apart up to that error, the box is hit by each of its rays from the start on, and the rays are cyclic up to rounding: where a ray leaves the box, a ray of the next box starts on its line.", "quantifier": "all precisions, all roundings to nearest, with and without fused operations, all boxes, angles and spacings, all rays, if there are not more than 2^p / 8 of them (always so in double precision)", "why_tests_cant": "the tests compare a few rays of a box at the origin to within an epsilon; that no ray of any box starts outside of it, or misses it, is a statement about the rounding of all of them", "anchors": ["include/um2/geometry/modular_rays.hpp:73-106", "include/um2/geometry/modular_rays.hpp:112-163"]}
{"id": "C137", "title": "Cross sections in floating point", "statement": "With rounding, for data that are not negative: every value of a homogenised cross section is the area-weighted mean over the faces up to 3 (faces + materials + 1) relative errors of 2^-p, every macroscopic value is the sum of cross section times number density up to nuclides + 1 relative errors, every value of a collapsed cross section is the mean of the groups up to 156 relative errors; nothing becomes negative; the homogenised cross section is fissile exactly if the material of a face with an area has a fission cross section; scattering balance carries over up to the same errors, and in double precision the assertion at the end of collapseTo1GroupAvg holds.", "quantifier": "all precisions, all roundings to nearest, with and without fused operations, all numbers of faces, materials, nuclides and groups, all values", "why_tests_cant": "the tests compare a few cells to within 1e-6; that no cell, whatever its size and number of faces, loses more than a stated relative amount or changes its fissile flag is about all of them", "anchors": ["src/mpact/model.cpp:3072-3133", "src/physics/material.cpp:459-495", "src/physics/cross_section.cpp:122-141"]}
{"id": "C138", "title": "Rectilinear grids in floating point", "statement": "With rounding, a grid built from a lattice of ids has one column for each column and one row for each row of the lattice, its divisions start at 0, increase strictly and are each within (number of additions) x (disagreement of the widths + 2 x 2^-p x extent) of the exact place, and every point of the domain is in exactly one cell; when the widths of a column are the same number in all rows, the divisions are exactly the rounded running sums.", "quantifier": "all precisions, all roundings to nearest, all lattices, widths and tolerances for which the accumulated error of a row is at most a quarter of the tolerance (or, for equal widths, 2 x extent <= 2^p x tolerance)", "why_tests_cant": "the tests build lattices of a few cells with widths that are sums of powers of two; whether two rounded sums are merged into one division depends on the values and on the order of all rows", "anchors": ["include/um2/mesh/rectilinear_grid.hpp:139-215", "include/um2/mesh/rectilinear_grid.hpp:349-401"]}
{"id": "C139", "title": "Material compositions in floating point", "statement": "With rounding, number densities added by weight are right up to 8 relative errors of 2^-p, those of n nuclides added by atom fractions up to n + 9, and those that setUO2 adds up to 52 for enrichments up to 49%; the same nuclides are added as in exact arithmetic, none becomes zero or negative that was positive, and the mass of the composition is that of the material up to the same errors.", "quantifier": "all precisions from 8 to 53 bits, all roundings to nearest, with and without fused operations, all densities, weight fractions, atom fractions, enrichments and gadolinia contents", "why_tests_cant": "the tests compare a handful of compositions to 1e-6; the error bound for every enrichment and list, and the sign of U-238, which is found by a subtraction from one, are about all inputs", "anchors": ["src/physics/material.cpp:392-457", "src/physics/material.cpp:497-606"]}
{"id": "C140", "title": "Numbers in XDMF files of other programs", "statement": "Integers of four or eight bytes, signed or not, that are stored little-endian are read as the values that were stored, if these fit into 32 bits; in every case the value read is the stored one reduced to 32 bits. Coordinates and element-set data in single or double precision are read exactly if the build can represent them, and with one rounding otherwise. What a program stores in four or eight bytes is what a mesh gets.", "quantifier": "all datasets, byte strings, widths, signs, precisions of the build and roundings", "why_tests_cant": "the tests read files that UM2 or one other program wrote on the same machine; widths, signs, byte orders and lengths that do not match occur in files of other programs", "anchors": ["src/mesh/polytope_soup.cpp:1481-1597", "src/mesh/polytope_soup.cpp:1599-1748", "src/mesh/polytope_soup.cpp:1754-1976"]}
{"id": "C141", "title": "Rectangular pin meshes in floating point", "statement": "With rounding, addRectangularPinMesh accepts what it accepts in exact arithmetic. Its vertices are the products of two sequences that start at 0, increase strictly and are within two roundings of the exact places; the faces are the boxes between them, counterclockwise, of positive area, cover the rectangle up to the last division and overlap in edges only; their areas add up to that of the pin up to four roundings. The mesh ends where the pin ends.", "quantifier": "all pin sizes, all roundings to nearest, all numbers of faces up to 2^(p-1) an edge", "why_tests_cant": "the tests look at a mesh of integers; whether divisions can coincide or the mesh can leave its cell depends on every size and number of faces", "anchors": ["src/mpact/model.cpp:716-766"]}
{"id": "C142", "title": "Cylindrical pin meshes in floating point", "statement": "With rounding, addCylindricalPinMesh of order 1 still divides regions into rings of equal areas: ring radii and equivalent radii are within a few roundings per ring of the exact ones. A pin whose circles stay away from the sides is meshed with the faces of exact arithmetic, every coordinate is within (4 N + 40) units of rounding times the pitch, a coordinate is zero exactly when the exact one is, and the area of every face is its share of its region up to a few units. A pin whose enlarged circle leaves the cell by more than the errors is refused. The corners of the mesh are the corners of the cell.", "quantifier": "all pitches, radii, numbers of rings and azimuthal divisions (powers of two), all roundings to nearest, all contractions, all sines and cosines within one unit in the last place", "why_tests_cant": "the tests compare a few vertices of two pins within a tolerance; accumulated errors and the two tests against the tolerance (which set coordinates to zero) depend on every radius and every angle", "anchors": ["src/mpact/model.cpp:138-396"]}
{"id": "C143", "title": "Quadratic segments and cells in floating point", "statement": "With rounding, a quadratic segment interpolates its three nodes exactly, points between them with an error of eight roundings of the largest coordinate, and gives the same points when its two cells see it in opposite directions. Its box contains the curve and is no larger than needed, isStraight accepts what is straight up to the tolerance and nothing else, the enclosed area has the right sign, and the areas of quadratic triangles and quadrilaterals have an error of eight or nine roundings of the sum of their parts; cells with straight edges have exactly the areas of the linear cells.", "quantifier": "all nodes and parameters (representable differences where stated), all roundings to nearest, all contractions", "why_tests_cant": "the tests compare a few segments within a tolerance; the errors depend on the nodes, and the claim that the box contains the curve is about infinitely many points", "anchors": ["include/um2/geometry/quadratic_segment.hpp:199-291", "include/um2/geometry/quadratic_segment.hpp:369-404", "include/um2/geometry/quadratic_segment.hpp:891-902", "include/um2/geometry/polygon.hpp:157-171"]}
{"id": "C144", "title": "Rays through quadratic segments in floating point", "statement": "With rounding, every distance that the intersection of a ray with a quadratic segment reports is not negative and belongs to a point of the segment that is on the line of the ray, up to a few hundred roundings of the sizes. A ray that stays clear of the segment, or has it behind its origin, reports nothing; where the segment changes the side of the ray by more than the errors, an intersection is reported with its distance, and if it does so twice both are. At most two values are written for an edge. A ray through the common node of two edges is reported by one of them.", "quantifier": "all nodes, origins and directions, all roundings to nearest with at least eight bits, all contractions", "why_tests_cant": "the tests send a few rays at a few segments and compare within a tolerance; rays that are missed are found by no test, and the error depends on all coordinates", "anchors": ["include/um2/geometry/quadratic_segment.hpp:645-701", "include/um2/math/quadratic_equation.hpp:66-108", "include/um2/geometry/polygon.hpp:247-262"]}
{"id": "C145", "title": "The closest point of a quadratic segment in floating point", "statement": "With rounding, the parameter of the point of a quadratic segment that is closest to a point is a number of the format between zero and one, whatever the solver of the cubic equation returns, and the reported square of the distance is, up to four roundings, that of a point within eight roundings of the segment. For a segment that is not straight it is never greater than the computed distance to either end or to a point that the solver suggests, so the ends have distance zero; and the cubic equation that is handed to the solver is the equation of the stationary points of the distance, up to a thousand roundings of the sizes.", "quantifier": "all nodes and points, all solvers, all roundings to nearest with enough bits, all contractions", "why_tests_cant": "the tests look at a few points near a few segments, with one solver and one rounding, and compare within a tolerance", "anchors": ["include/um2/geometry/quadratic_segment.hpp:406-488", "include/um2/geometry/quadratic_segment.hpp:199-208", "include/um2/math/vec.hpp:805-811"]}
{"id": "C146", "title": "Quadratic cylindrical pin meshes in floating point", "statement": "With rounding, addCylindricalPinMesh of order 2 still gives every face its share of the area of its region. The equivalent radius of ring j, which the function computes from the one before it, is the radius of the ring times the exact factor up to 46 (j + 1) + 10 roundings. A pin whose circles stay away from the sides is meshed with the faces of exact arithmetic, every coordinate is within (23 N + 31) units of rounding times the pitch, a coordinate is zero exactly when the exact one is, and the quadratic area of every face of a ring is right up to (736 N + 992) units times the square of the pitch. A pin whose enlarged circle leaves the cell by more than the errors is refused.", "quantifier": "all pitches, radii, numbers of rings and azimuthal divisions (powers of two), all roundings to nearest, all contractions, all sines and cosines within one unit in the last place", "why_tests_cant": "the tests compare a few vertices of two pins within a tolerance; the recurrence for the equivalent radii divides by a small sine and feeds each error to the next ring", "anchors": ["src/mpact/model.cpp:138-248", "src/mpact/model.cpp:398-645"]}
{"id": "C147", "title": "The length of a quadratic segment in floating point", "statement": "With rounding, the length of a quadratic segment is the arc length. A segment that is taken to be straight has the distance of its ends, up to three roundings. Otherwise the coefficients of the curve are right up to ten roundings of its size, and the closed form gives the length of the curve they describe up to (60 / (2 |x2|) + 15 times the mean reciprocal speed) units times (2 |x2| + |x1|)². The perimeter of a quadratic polygon is the sum of the lengths of its edges, up to one rounding for each.", "quantifier": "all nodes, all roundings to nearest with at least 12 bits, all contractions, all logarithms within a unit in the last place", "why_tests_cant": "the tests compare the lengths of a few arcs with constants; the closed form subtracts products of roots from each other inside a logarithm, and which arcs lose everything there depends on the scale, the direction and the precision", "anchors": ["include/um2/geometry/quadratic_segment.hpp:297-363", "include/um2/geometry/quadratic_segment.hpp:241-259", "include/um2/math/quadratic_equation.hpp:50-60", "include/um2/math/vec.hpp:813-818", "include/um2/geometry/polygon.hpp:106-118"]}
{"id": "C148", "title": "A generated mesh has the faces that were asked for", "statement": "After any calls to initialize, finalize, the settings, setGlobalMeshSize and generateMesh, asking for a mesh of triangles, quadrilaterals, quadratic triangles or quadratic quadrilaterals makes a mesh whose faces have 3, 4, 6, 8 nodes, with the number of smoothing steps asked for. Any other type makes no mesh. The global mesh size is set at every point of the model. Initialize resets the logger, colours only terminals, and starts Gmsh unless it is running; closing and opening the session again makes the process as new.", "quantifier": "all programs of these calls (induction over the list of calls), all states of the session, all numbers of smoothing steps, all defaults of the options", "why_tests_cant": "a test makes one mesh in a new process; the options of Gmsh outlive the call that sets them, so whether a mesh is right depends on all the calls before", "anchors": ["src/gmsh/mesh.cpp:28-84", "src/um2.cpp:15-47", "src/um2c.cpp:57-67", "src/common/logger.cpp:38-49", "src/common/settings.cpp:18-21"]}
{"id": "C149", "title": "Centroids and mean chords of quadratic cells in floating point", "statement": "The computed centroid of a quadratic triangle or quadrilateral with differing corners and representable differences of nodes is within a few dozen rounding errors of the largest coordinate and edge of the exact centroid of the region inside the curved boundary, times the ratio of the magnitudes of the areas of its parts to its area, which is one if no edge curves inwards. The centroid of the region between one edge and its chord has such an error too. A cell with an edge whose ends coincide has no centroid, even if it has an area. The mean chord has the relative errors of the area, of the constant pi and of the perimeter, and is missing exactly if the perimeter is missing or zero.", "quantifier": "all precisions from 12 bits, all ways to break ties, all choices of the compiler between fused and separate operations, all nodes of a triangle; for quadrilaterals, all whose corners are convex and in the positive quadrant", "why_tests_cant": "the rotation to the frame of the chord and back, the division by the area and the cancellation of areas of edges that curve inwards make the error depend on every node; tests compare a few cells with a tolerance", "anchors": ["include/um2/geometry/polygon.hpp:193-209", "include/um2/geometry/polygon.hpp:237-245", "include/um2/geometry/quadratic_segment.hpp:908-966"]}
{"id": "C150", "title": "Cubic equations in floating point", "statement": "The values that solveCubic returns are in ascending order, are numbers of the format, and are roots, to seven rounding errors each, of a cubic equation whose coefficients differ from the given ones by a few rounding errors of the terms at the point where the iteration stopped, and in the constant and the quadratic coefficient by the residual there; a value is the mark of a missing root exactly if that equation has no other root. Without a constant or without a leading coefficient the values are accurate roots of the given equation. The iteration ends. The residual at the point where it stops is a rounding error of the terms of the equation.", "quantifier": "all precisions from 8 bits, all ways to break ties, all choices of the compiler between fused and separate operations, all coefficients, all cube root functions", "why_tests_cant": "whether a Newton iteration in rounded arithmetic stops on the wrong side of a root depends on the last bits of every operation; tests compare a few equations with a tolerance", "anchors": ["include/um2/math/cubic_equation.hpp:31-124", "include/um2/math/quadratic_equation.hpp:48-108"]}
{"id": "C151", "title": "The side of a quadratic segment in floating point", "statement": "isLeft(q, p) is true for a point p above the curve (as seen along the chord from its first to its last node) and false for one below it, unless the point is within a few rounding errors of the height of the curve; beside the chord the line through the end points decides. Of a segment and the same segment reversed, exactly one has a given point on its left.", "quantifier": "all precisions from 12 bits, all ways to break ties, all choices of the compiler between fused and separate operations, all segments and points", "why_tests_cant": "a point-in-cell test next to a curved edge depends on the last bits of the rotation, of the parabola and of the comparison; tests probe a handful of points far from the curve", "anchors": ["include/um2/geometry/quadratic_segment.hpp:529-639", "include/um2/geometry/line_segment.hpp:276-313", "include/um2/geometry/quadratic_segment.hpp:515-524"]}
{"id": "C152", "title": "Finding the face of a point in floating point", "statement": "faceContaining returns the first face that contains the given point and -1 only if no face does. For a mesh of axis-parallel rectangles, such as the one of addRectangularPinMesh, this is exact for all points: every point of the pin has a face, and on a line between faces it is the one to the left or below. For other meshes of triangles and quadrilaterals it is exact on a grid, and otherwise up to a bounded error of the side of each edge.", "quantifier": "all precisions from 5 bits, all ways to break ties, all meshes and points", "why_tests_cant": "a point that falls between two faces is lost only for particular last bits of its coordinates; tests locate a few points well inside of faces", "anchors": ["include/um2/mesh/face_vertex_mesh.hpp:458-468", "include/um2/geometry/quadrilateral.hpp:383-394", "include/um2/geometry/triangle.hpp:337-349", "include/um2/geometry/point.hpp:51-60", "src/mpact/model.cpp:716-766"]}
{"id": "C153", "title": "Handles and arrays of the C interface", "statement": "A handle from um2NewMPACTModel or um2ReadMPACTModel stands for its own model until um2DeleteMPACTModel, whatever else is called in between. um2Free is for the arrays of um2Malloc and of the functions that return arrays, once each. Releasing or deleting twice, mixing up the two, and using a deleted model are undefined. A program that gives back what it was given leaves nothing behind.", "quantifier": "all sequences of calls, all models, all answers of malloc", "why_tests_cant": "use after a release often seems to work; tests call the functions in one order and with enough memory", "anchors": ["src/um2c.cpp:43-53", "src/um2c.cpp:75-94", "src/um2c.cpp:466-474", "src/um2c.cpp:527-535", "src/um2c.cpp:622-628"]}
