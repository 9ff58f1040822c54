# Formal model of UM2: design

Subject: the C++ library UM2 (`/repo`, read as text). This document says what is
modelled, how each property of `properties.jsonl` is proved, what was found to be false of the
code, what is trusted and what is left out.

## Method

* `lean/Verif/Model/*.lean`: executable, total definitions, one per C++ function, each
  citing file and lines in `/repo` and stating its simplifications.
* `lean/Verif/Lemmas/*.lean`: helper lemmas.
* `lean/Verif/Props/*.lean`: the property theorems, named `Cnn_...`, with the small
  specifications they are stated in, and `example`s showing that their hypotheses are met by
  non-trivial cases. A theorem that covers only part of its property has the suffix
  `_partial`; a theorem named `..._fails` proves the negation of (part of) a property with a
  concrete witness, i.e. it documents a defect in the code.
* C++ undefined behaviour is a distinct outcome in the model (`none` of an `Option`), never a
  default value: out-of-bounds indexing, reading moved-from or raw memory, signed overflow,
  division by zero of integers, out-of-range float-to-int conversion, violated preconditions
  of `std` functions.
* Arithmetic. `Int` is a 32-bit signed integer; index arithmetic is modelled over `Nat`
  or `Int`, with explicit range checks or range hypotheses where overflow matters. Code that only
  *compares* floating point numbers is modelled over an arbitrary linear order, which is
  exact for non-NaN floats. Code that computes with floats is modelled in exact
  arithmetic over an ordered field or the reals; the statements say so. From C120 on there are also
  models of numerical kernels in floating-point arithmetic (`Model/Fp*.lean`): a number is an
  integer of at most p bits times any power of two, each operation rounds its exact
  result to a nearest such number (any treatment of ties; `fma` rounds once). Overflow,
  underflow, NaN and `-ffast-math` are outside these models.
* `std::sort` is used through its contract: any permutation of the input that is sorted by
  the comparator, provided that the comparator is a strict weak order on the input
  (`IsStdSort`, `StrictWeak` in `Model/Mem.lean`). BLAS `gemm` is used through its contract.
* `seeded/LOG.jsonl` records experiments with wrong programs: an edit of a model definition and
  the theorems that stop being provable.

## Trusted base

* The Lean 4 kernel (4.33.0) and Mathlib as installed. Every property theorem depends on
  at most the axioms `propext`, `Classical.choice`, `Quot.sound` (printed by
  `#print axioms` in `lean/Verif/Audit.lean` at build time). No own axioms, no `sorry`, no
  `native_decide`, no `bv_decide`.
* The reading of the C++ text into the model (manual, cited line by line).
* Builds: `ASSERT` is compiled out (Release), so preconditions that are only asserted are
  treated as unchecked; `ASSERT_ASSUME` violated is undefined behaviour; `logger::error` does
  not exit (the `exit_on_error = false` setting; the default is `true`, with which every
  branch after an error is unreachable) unless stated.
* Platform: 32-bit `int`, 64-bit `long`, two's complement, `char` is signed (x86-64; this
  matters in C07), little endian, IEEE infinities where they are modelled explicitly (C25).

## What is modelled

| Code | Model | Left out |
|---|---|---|
| stdlib/vector.hpp | Vector | iterators, exceptions |
| stdlib/string.hpp | Str, StrView | byte order of the representation flag (only its meaning) |
| stdlib/string_view.hpp, common/string_to_lattice.hpp, common/strto.hpp | StrView, Abaqus (`strtol`) | `strtod` (a parameter) |
| stdlib/algorithm/*, common/permutation.hpp, common/insertion_sort.hpp, common/branchless_sort.hpp | Algorithm | `std::sort` (contract) |
| common/logger.* | Logger | the device of the output streams, real time |
| math/morton.hpp, geometry/morton_sort_points.hpp | Morton, MortonPoints, FpMorton | |
| math/stats.hpp, quadratic_equation.hpp, cubic_equation.hpp | Stats, Roots | `std::cbrt`, `sqrt` (exact) |
| math/mat.hpp, matrix.* | Matrix, LinearSolve | complex types |
| math/vec.hpp | used inline by the geometry models | |
| geometry/axis_aligned_box.hpp, ray.hpp, point.hpp | Box, Geom | |
| geometry/line_segment.hpp, triangle.hpp, quadrilateral.hpp, polygon.hpp | Geom | |
| geometry/quadratic_*.hpp | Quadratic, QSeg, QCross | rounding; capacity of the output buffer of `intersect` |
| geometry/modular_rays.hpp | Rays, FpRays | |
| mesh/regular_grid.hpp, rectilinear_grid.hpp, *_partition.hpp | Grid, FpRect | |
| mesh/element_types.hpp | ElementTypes | |
| mesh/face_vertex_mesh.* | Mesh, MeshCheck, Conform, RaySort, MeshSoup | |
| mesh/polytope_soup.* | Soup, Compare, XDMF, XdmfFiles, XdmfData, Abaqus, VTK | HDF5 and pugixml (assumed to return what was stored) |
| physics/nuclide.cpp, material.*, cross_section.cpp | Nuclide, Material, XSec, XSValid, FpXSec, FpMaterial (homogenisation of mpact/model.cpp included) | |
| physics/cross_section_library.cpp | XSLib, XSec | `strtod` (a parameter) |
| physics/cmfd.* | Cmfd, GaussTable | LAPACK |
| math/matrix.cpp 362-775 | LinearSolve | LAPACK (by the contract of its documentation); the instances for float and complex numbers, which differ in the types only |
| mpact/source.* | Source | — |
| mpact/model.* | Pin, FpPin, FpCyl, FpCyl2, Mpact, Names, Heights, ModelXdmf, CmfdInfo, ModelFiles, ModelSoup | |
| gmsh/model.cpp 38-109, 112-655, 664-866, 1107-1410 | GmshGroups, OverlayGrid, OverlayGroups, OverlaySurfaces, GmshPins | Gmsh itself (assumed: groups, colours; children of an operation are an argument) |
| gmsh/io.cpp | GmshInfo | the model file itself (assumed: opening it numbers the entities of a dimension from one by tag); the stream fails only at the end |
| gmsh/mesh.cpp 28-84, um2.cpp, common/settings.cpp, um2c.cpp 57-67 | GmshMesh | Gmsh itself (assumed: what its manual says of the options); the messages |
| gmsh/mesh.cpp 157-514 | MeshField | Gmsh fields (assumed: their documented functions); rounding |
| mesh/face_vertex_mesh.cpp 428-525 | SelfFix | files written for inspection, messages; rounding |
| post-process/*.cpp (extract_edge_length, extract_meanchordlength, extract_spectrum, extract_cmfd_info, extract_powers) | PostTools | reading the input file is given by its result; opening and closing the output file succeed |
| models/**/*extract_source.cpp | SourceTools | the materials the programs build (given), reading and writing the file |
| models/c5g7/3d/c5g7_3d_standard_moc.cpp | C5G7Core | output (modelled elsewhere) |
| models/c5g7/2d, models/crocus: *_variable_grid.cpp, *_advanced_mesh.cpp; models/vera/problem_4/2d (geometry) | LatticeText, LatticePrograms, C5G7Plane, Crocus, Vera4, PinModular, Vera4Modular | command line, mesh generation, import and output (modelled elsewhere) |
| models/nuscale/nuscale_2d.cpp | Nuscale, Scene | materials' cross sections (colours are given), mesh generation; Gmsh's cut and fragment (assumed: pieces make up the points of what they come from) |
| models/fnr/*.cpp | Fnr, Scene | exact real arithmetic; cross sections of the materials, mesh generation; Gmsh's fragment (assumed as for nuscale_2d.cpp) and the inside of its loops (by the curves above a point) |
| models/vera/problem_1/*.cpp | Vera1, Scene | exact arithmetic; cross sections, mesh generation; Gmsh's fragment (assumed as for nuscale_2d.cpp) |
| models/svea/*.cpp | Svea, Vera1, Scene | real arithmetic; cross sections, mesh generation; Gmsh's booleans (assumed: `Answer`) and fragment (assumed as for nuscale_2d.cpp) |
| math/vec.hpp (det2x2, cross), mat.hpp (inv), quadratic_equation.hpp, cubic_equation.hpp, geometry/point.hpp (orientation), triangle.hpp (contains), math/morton.hpp 334-397, math/stats.hpp, mesh/regular_grid.hpp, math/vec.hpp (dot, norm, distance), geometry/line_segment.hpp 154-313, 351-369, quadratic_segment.hpp 199-363, 369-488, 515-701, 891-902 and 908-966, polygon.hpp 92-171, 193-209, 237-262, triangle.hpp 249-301, quadrilateral.hpp 246-338 and 383-394, mesh/face_vertex_mesh.hpp 458-468, ray.hpp 27-34 and 62-66, axis_aligned_box.hpp, physics/nuclide.cpp 86-121: in floating point | Fp, FpGeom, FpRoots, FpCubic, FpMorton, FpStats, FpGrid, FpLerp, FpDist, FpRay, FpArea, FpNorm, FpBox, FpQuad, FpQRay, FpQClosest, FpQLength, FpQCentroid, FpQLeft, FpLocate | overflow and underflow; the compiler contracting other products into `fma` |
| common/color.hpp | Color | the table of named colours |
| stdlib/vector.hpp 728-735, 833-873, utility/pair.hpp 70-102, algorithm/equal.hpp, numeric/iota.hpp | Relational | |
| um2c.cpp | CApi, Heights, CHeap | geometry of a face (given); addresses and alignment |
| mpact/powers.cpp | Power, PowerFile | |

Not modelled at all: the rest of `src/gmsh/*` (calls into Gmsh), GPU variants, threads, file-system effects,
floating-point rounding (except in the models Fp*) and NaN (except where stated).

## Properties

Per property: how it is modelled and proved, where, and what the result covers.

* **C01** Vector behaves as a sequence under every operation history. Model: `Vector` as (slots: list of constructed/moved-from/raw cells, size, capacity); each operation function by function. Proof: refinement to `List` by induction over the operation history; out-of-bounds or raw reads are a distinct `ub` outcome shown unreachable. *Props/Vector; proved.* All constructors, every history of reserve/resize/clear/push_back/pop_back/assign/element write, copy and move. Requested sizes at most 2^30 (beyond that 2*capacity overflows Int, see C03_growth_range).
* **C02** Vector append of one of its own elements. Same model, the argument may be a slot of the vector itself. *Props/Vector; partial.* False of the code: pushing an own element onto a full vector of a non-trivially movable type appends a moved-from object (C02_own_element_fails). Proved for trivially movable types, and for any type when the vector is not full.
* **C03** Vector growth is amortised constant. Cost-instrumented push loop; closed invariant by induction; Int range of the growth computation. *Props/Sharper, Vector; proved.* For up to 2^30 elements; beyond that the Int computation overflows (C03_growth_range).
* **C04** String behaves as a character sequence under every operation history. Model: String representation (short/long, heap cell). Refinement to `List Char` by induction over histories. *Props/Str; proved.* Text, size, terminator and capacity under every history, with memory modelled block by block. Fresh texts of at most 22 characters are inline; every text of 23 or more is on the heap (an assignment may keep a heap buffer for a short text).
* **C05** String never leaks, double-frees or frees an inline buffer. Heap as finite map of live blocks; ownership invariant by induction over histories of many strings. *Props/Str; proved.* Every heap block is owned by exactly one live String; destroying all of them frees every block once.
* **C06** Numeric String constructors copy exactly the formatted text. Model of the 32-byte scratch buffer and the copy of `strlen` characters, decimal formatting of integers and fixed-point numbers. *Props/StrView; partial.* Integers and floats below 10^23 exactly; false for larger floats, whose text does not fit the 32-byte buffer (C06_float_fails).
* **C07** String and StringView comparisons are the lexicographic order. Model of compare via `lexicographical_compare`/`memcmp` and lengths; total-order theorem against the lexicographic order of lists. *Props/StrView; partial.* The six operators agree with the lexicographic order of signed characters, a strict total order. With unsigned characters (as std::string) only for ASCII texts; C07_unsigned_fails is a counterexample.
* **C08** StringView searches return the extremal matching index. Model of each loop; extremal-index specification. *Props/StrView; proved.* All searches, prefix and suffix tests, against index specifications.
* **C09** Tokenising a StringView loses nothing but delimiters. Model of getTokenAndShrink; specification by field splitting, induction on length. *Props/Tokens; proved.* 
* **C10** stringToLattice returns every entry of the text. Model of the two-level tokenising loop with the parser as a parameter; exact result for every text. *Props/Tokens; partial.* Exact result on every text (C10_exact). All entries are returned when blank lines/fields occur only at the end; otherwise the rest is silently dropped (C10_blank_line_fails, C10_blank_field_fails). strto is a parameter assumed to stop at the delimiter; C10_naturals_delimited discharges this for decimal naturals.
* **C11** Small sorts sort. Model of the branchless networks and of insertion sort over a linear order; sorted + permutation. *Props/Algorithm; proved.* Any strict weak order; insertionSort with explicit moved-from slots.
* **C12** Permutation utilities are consistent. Model of the loops on index lists; in-place permutation invariant. *Props/Algorithm; proved.* std::sort is used through its contract (any conforming result).
* **C13** Vec and Pair orderings are lexicographic total orders. Definitions over a linear order; order axioms. *Props/Order; proved.* Over any linear order (exact for non-NaN floats).
* **C14** Morton codes decode to what was encoded. BitVec model of the mask/shift ladders and of pdep/pext; bit-level characterisation for all bits. *Props/Morton; proved.* 2D and 3D, 32- and 64-bit, portable and BMI2 code; bit-level specification, round trips, agreement. The 3D decoders agree exactly on the codes an encoder can return; outside that range they differ (C14_decode3_agree_*_fails).
* **C15** Morton codes are injective and monotone in every coordinate. Follows from the bit characterisation of C14. *Props/Morton; proved.* Injective and strictly monotone on in-range coordinates; follows for BMI2 by C14 agreement.
* **C16** Morton sorting points is a stable description of the same points. mortonLess modelled as comparison of codes; preorder + sorting. *Props/MortonPoints; proved.* Exact arithmetic for x*max; std::sort through its contract.
* **C17** Logger emits exactly the enabled messages and stays in its buffer. Byte buffer model with write index; prefix/filters; overflow as `ub`. *Props/Logger; partial.* Exact lines, streams, exit and filtering over every message history, for messages that fit; composing overflows the buffer exactly when the line needs more than 256 bytes (C17_overflow_iff), so 'never writes past the buffer' is false (C17_overflow_fails).
* **C18** Summation and mean are exact up to rounding order. pairwiseSum by well-founded recursion over an additive commutative monoid. *Props/Stats; proved.* Any additive monoid / field; exact arithmetic.
* **C19** Variance and median match their definitions. Exact field arithmetic; Welford invariant by induction. *Props/Stats; proved.* Exact arithmetic; a single value divides by zero.
* **C20** solveQuadratic returns exactly the real roots. Exact real arithmetic, branch by branch. *Props/Roots; proved.* Exact real arithmetic, including multiplicities (C20_factor).
* **C21** Cubic deflation preserves roots. Exact real arithmetic, branch by branch; the Newton iteration is a parameter whose result is assumed to be a root. *Props/Roots; proved.* Given that the Newton loop ends on an exact root (the property's premise; C72 gives it whenever the loop starts not past the extreme root); all other branches unconditionally.
* **C22** Small matrix product and inverse. Loops with the code's bounds; sums over a commutative ring, inverse over a field. *Props/Matrix; partial.* Matrix-vector product, inverse and rotation for all inputs. The matrix-matrix product is right only for N = P: the loop bound is N instead of P (C22_mul_exact, C22_mul_fails).
* **C23** Matrix product and matmul agree. Column-major list model; loops of both builds. *Props/Matrix; partial.* operator* is the product in both builds, matmul with BLAS too (by the gemm contract); without BLAS matmul adds to the old contents of c (C23_matmul_exact, C23_matmul_fails).
* **C24** AxisAlignedBox is a lattice with matching containment. Linear order model; lattice laws. *Props/Box, Sharper; proved.* Any linear order (exact for non-NaN floats), any dimension.
* **C25** Ray-box intersection returns the exact chord. Exact arithmetic over an ordered field with IEEE infinities and NaN for zero direction components. *Props/Box; partial.* Exact chord over an ordered field for parameters up to infDistance, IEEE infinities/NaN modelled; missing: a ray lying exactly in a face plane is reported as a miss (C25_face_fails).
* **C26** Closest point on a line segment. Exact arithmetic over ℝ/ordered field. *Props/Geom; proved.* Exact arithmetic over an ordered field, any dimension.
* **C27** Ray-segment intersection is sound and complete. Exact arithmetic over an ordered field. *Props/Geom; proved.* Exact arithmetic over an ordered field.
* **C28** Triangle predicates and measures. Exact arithmetic over an ordered field. *Props/Geom; proved.* Exact arithmetic; containment for non-degenerate counter-clockwise triangles (C28_degenerate_fails shows why).
* **C29** Quadrilateral predicates and measures. Exact arithmetic over an ordered field. *Props/Geom; proved.* Exact arithmetic over an ordered field; the tolerance in quad isCCW is modelled as in the code.
* **C30** Polygon area and centroid. Lists of points over a commutative ring; induction on the list. *Props/Geom; proved.* Exact arithmetic over a field, any number of vertices.
* **C31** Quadratic segment parametrisation. Exact arithmetic over ℝ. *Props/Quadratic; proved.* Exact arithmetic over the reals; quadratic pointClosestTo/isLeft/intersect are not covered here.
* **C32** Quadratic cells conform to their edges. Polynomial identities over a field; derivative via the exact difference quotient / HasDerivAt. *Props/Quadratic; proved.* Exact arithmetic over a field; Jacobians as derivatives over the reals.
* **C33** Flipping a face reverses its boundary and nothing else. Edge lists before and after the flip. *Props/Quadratic; partial.* Holds for triangles, quadrilaterals and 6-node triangles; the 8-node quadrilateral flip forgets to exchange nodes 5 and 6 (C33_quad8_fails).
* **C34** Modular rays tile the box. Exact arithmetic over ℝ with integer counts. *Props/Rays; proved.* Exact real arithmetic, all angles in (0,pi) except pi/2 itself (zero rays on the side edges: assertion).
* **C35** RegularGrid flat indexing is a bijection. Nat arithmetic, any dimension by induction. *Props/GridIndex; proved.* Any dimension, every 32-bit operation checked for overflow.
* **C36** RegularGrid point location is consistent with the cell boxes. Exact arithmetic with `Int.floor`. *Props/GridLocate; proved.* Exact arithmetic; conversion to Int of points 2^31 or more cells away is undefined and stated.
* **C37** RegularGrid range query is exact. Exact arithmetic with `Int.floor`, clamping. *Props/GridLocate; proved.* Exact arithmetic, one axis at a time as in the code; undefined conversions stated.
* **C38** RectilinearGrid built from boxes or ids has sorted, distinct divisions. List model of insertion/dedup/sort over an ordered field. *Props/RectGrid; proved.* Exact arithmetic over an ordered field; std::sort through its contract.
* **C39** Partitions place children by row from the bottom. List-of-lists model. *Props/Partition; proved.* Any lattice shape; ragged lattices rejected.
* **C40** Element type codes convert without loss. Finite maps; classification over all lists. *Props/ElementTypes; proved.* All element type tables and mesh type inference. C40_infer_edge_fails: the count-based inference returns Triangle for a quadratic edge (3 vertices); every other supported type is inferred correctly.
* **C41** Vertex-to-face adjacency is exact. Counting sort on lists, CSR specification. *Props/Mesh; proved.* Vertex-face map equals its specification for every mesh with in-range connectivity, and the flag invariant holds over every history of operations.
* **C42** Renumbering a mesh preserves its geometry. Permutation + inverse relabelling. *Props/Mesh; partial.* Every defined outcome preserves the geometry. C42_away_from_origin_fails: the code scales by the extents without subtracting the lower corner, so a mesh whose bounding box is not at the origin violates the precondition of the Morton encoder (undefined behaviour). Missing: definedness for such meshes, which is false.
* **C43** faceContaining returns a face that contains the point. First-index search with a generic containment predicate. *Props/Mesh; proved.* First containing face for any containment predicate; for CCW triangles containment is the closed triangle (exact arithmetic).
* **C44** Manifold and watertight validation accepts only closed oriented meshes. Model of the edge counting loop and of the boundary walk with its undefined outcomes. *Props/MeshCheck; partial.* Exact characterisation of acceptance, termination and undefined outcome. C44_overlap_fails: the check ignores the direction in which an edge is used twice, so overlapping copies of a face are accepted; C44_oriented_partial recovers the property when no directed edge is repeated.
* **C45** Ray-mesh intersections are ordered along the ray. Model of the key computation, the sort and the block permutation. *Props/RaySort; proved.* Exact arithmetic. C45_key_fails: the sort key is not the documented mean of the two smallest parameters when the first parameter is the smallest; the ordering claim holds regardless.
* **C46** PolytopeSoup stays well-formed under every history. Offset-array soup; refinement to list of elements and list of named sets, over histories. *Props/Soup; proved.* Every history of addVertex/addElement/addElset refines an abstract list of elements and sets. C46_stale_data_fails records that getElset leaves the caller's old data vector in place when the set has no data.
* **C47** Sorting element sets changes only their order. Sort by names, permutation of sets, through the flat offset arrays. *Props/SoupSort; partial.* Full property for every soup with at least one element set. C47_no_sets_fails: without element sets sortElsets reads _elset_offsets[0] of an empty vector (undefined behaviour).
* **C48** Appending soups is a disjoint union. Disjoint-union refinement through the flat arrays. *Props/SoupAppend; partial.* Union of vertices, elements and sets for a non-empty other soup. C48_empty_other_fails, C48_self_append_fails and C48_data_mismatch_fails are witnesses where the property is false of the code.
* **C49** Element-set extraction yields the sub-mesh. Sub-mesh refinement with order-preserving renumbering. *Props/SoupSubset; proved.* Sub-mesh extraction into an empty soup for every set with strictly increasing ids; rejected calls leave the target alone. C49_nonempty_target_fails records that a non-empty target gets wrong vertex ids.
* **C50** XDMF topology round trip. Encoding and decoding of the type-tagged stream and of the uniform topologies. *Props/XDMF; partial.* Proved for soups that contain at least one 2D cell or only one kind of readable cell; false of the code otherwise (C50_*_fails): soups of only points or straight edges are not written, soups of only quadratic edges are written but not read back.
* **C51** Abaqus element sets are read completely. Character-level model of the id loop. *Props/Abaqus; partial.* Proved for lines in which every id is followed by a comma, lines under 1024 characters; an id at the end of a line without a comma is dropped (C51_no_trailing_comma_fails).
* **C52** Nuclide symbols map to ZAIDs. Character-level model; table lookup. *Props/Nuclide; proved.* All element symbols, letter case, any mass number, trailing metastable suffix; unknown symbols; injectivity.
* **C53** Cross-section temperature interpolation is bounded and continuous. Exact arithmetic over ℝ with sqrt as a strictly monotone function. *Props/XSec; proved.* Over exact reals; sqrt-temperature interpolation at, below, above, between tabulated temperatures, with continuity.
* **C54** One-group collapse preserves the scattering balance. Finite sums over a field. *Props/XSec; proved.* One-group collapse as average; scattering balance kept. Exact field arithmetic.
* **C55** Coarse-cell homogenisation is the area-weighted average. Finite sums over an ordered field. *Props/XSecMix; proved.* Homogenisation over face areas; areas and per-face material ids are inputs of the model.
* **C56** Material compositions conserve mass. Exact arithmetic, table constants as rationals. *Props/Material; partial.* Weight and atom-fraction additions conserve mass (exact rationals). setUO2 proved for 1.0135*w <= 1; above that the code produces a negative U-238 density (C56_uo2_negative_fails). Nuclides without tabulated mass are dropped (C56_weight_unknown_fails).
* **C57** MPACT model references are always valid. Record of lists, invariant over histories. *Props/Mpact; partial.* C57_valid_partial and C57_uniform hold for all histories of the add* calls (importCoarseCellMeshes excluded, see C67). Missing: a coarse cell without mesh keeps unchecked material ids (C57_meshless_fails); arrays whose first row is the shortest give an RTM without children (C57_ragged_fails).
* **C58** Rejected MPACT model edits have no effect. Same model as C57; exact acceptance conditions. *Props/Mpact; partial.* C58_accepted for every call; C58_rejected_partial for every call except addRectangularPinMesh and addCylindricalPinCell, for which the claim is false (C58_rectangular_fails, C58_pinCell_fails, C58_pinCell_meshless_fails). Exact acceptance conditions: C58_coarseCell, C58_rtm, C58_lattice, C58_assembly.
* **C59** Fine-cell counts are the sum over the hierarchy. Sum over nested lists. *Props/MpactTotals; partial.* C59_totals is complete (also the overflow case). C59_chords_partial needs every placed coarse cell to have a mesh; otherwise chord lengths are attributed to the wrong fine cell (C59_meshless_fails) or read out of bounds (C59_meshless_ub_fails).
* **C60** Cylindrical pin mesh topology is conforming. Nat index arithmetic, all na (even) and nr. *Props/PinTopo; proved.* Every accepted mesh, linear and quadratic: face count, in-range connectivity, no unused vertex, every edge off the boundary in exactly two faces in opposite directions with the same midpoint, boundary one loop of the last na edges.
* **C61** Cylindrical pin mesh preserves ring areas. Exact arithmetic over ℝ with sin/cos/sqrt of Mathlib. *Props/PinArea; proved.* Exact real arithmetic (Mathlib sqrt, sin, cos, pi). Positive non-decreasing radii (the code does not check the order; with decreasing radii a square root of a negative number is taken). Each face of ring t of region i has area pi(r_i^2 - r_{i-1}^2)/rings_i/num_azi, linear and quadratic; all faces sum to pitch^2 (positive radii only); the eps tests change nothing when eps is below every non-zero value that occurs (C61_tolerance).
* **C62** Rectangular pin mesh tiles the rectangle. Nat index arithmetic + exact rational coordinates. *Props/RectPin; proved.* Boxes of the grid row by row, counterclockwise, equal areas, cover, disjoint interiors, total area, conforming topology with the perimeter as boundary, acceptance condition. validate() (no effect on counterclockwise boxes) is left out.
* **C63** Generated names are unique and sequential. Digit lists. *Props/Names; proved.* Decimal names for all n < 100000, any prefix; increment proved for numbers of any width. Behaviour outside: C63_overflow_fails, C63_nines_fails, C63_wrap_fails (outside the stated range).
* **C64** Writing and reading an MPACT model restores its hierarchy. Tree of named nodes with its texts; writer and reader function by function; invariant per level over the visited ids. *Props/ModelXdmf; partial.* Writer and reader of the tree (names, NX_by_NY texts, z ranges, tables) are modelled. The round trip is proved for models in which lattice i is used only in assembly i (C64_roundtrip_partial); for other models it is false because model.cpp 2599 stores the assembly id (C64_two_lattices_fails: out-of-bounds; C64_exchanged_fails: wrong table). With that line corrected it holds for all models whose objects are all used (C64_corrected).
* **C65** Power extraction groups faces into connected components. Merging loop by well-founded recursion; connected components by `Relation.ReflTransGen`. *Props/Power, PowerKinds; partial.* One entry per connected component, power and centroid of each component, total power, in exact arithmetic, for all four face types, for every mesh where close vertices are close relative to the size of the faces (C65_exact: close vertices coincide; C65_large: faces extend at least 1e-3). Missing: for smaller faces with a gap the claim is false (C65_tolerance_fails).
* **C66** Height listings are sorted by a valid order. Comparator over an ordered field, `std::sort` contract on inputs where it is a strict weak order. *Props/Heights; partial.* C66_cycle_fails: the comparator is not an order for any tolerance. C66_order_partial and C66_sorted_partial hold when closeness of heights is transitive; C66_listing and C66_assembly (contents before sorting) are complete.
* **C67** Material ids survive narrowing. Int8 truncation of the ids along `addCylindricalPinCell` and `importCoarseCellMeshes`. *Props/MpactMaterials; partial.* Proved for at most 128 materials (C67_pinCell_partial, C67_import_partial); false for more: ids are truncated to 8 signed bits (C67_*_fails).
* **C68** Area and centroid of curved cells. Exact arithmetic over ℝ; interval integrals of Mathlib for the boundary and area integrals. *Props/QuadMeasure; proved.* Exact arithmetic over the reals; equality with Green boundary integrals and, for area, with the double integral of det J.
* **C69** XDMF grid round trip. Uniform grids with attributes: writer and reader of vertices, topology and element sets. *Props/XDMF; partial.* Proved for grids of readable element types, set names that do not clash with the reserved dataset names, vertices not flattened; the exceptions are false of the code (C69_*_fails).
* **C70** Abaqus files are read completely. Line-level model of the reader: node, element and element-set sections. *Props/Abaqus; partial.* Proved for files of the form *NODE, *ELEMENT type=CPS3/4/6/8 sections, *ELSET sections with every line under 1024 characters. Unsupported element types become one-vertex elements (C70_unsupported_fails) and a long line silently ends the file (C70_long_line_fails). strto<Float> is a parameter. Ids beyond 32 bits wrap around (C70_wrap_fails).
* **C71** Macroscopic cross sections of a material are the density-weighted sum of its nuclides. Microscopic data per nuclide, interpolation as in C53, sums over nuclides. *Props/XSecMix; partial.* Proved for materials whose nuclides are all in the library; a ZAID missing there silently uses the first nuclide (C71_unknown_fails).
* **C72** The Newton loop of the cubic solver ends on the extreme root. The cubic is shifted and scaled to y³+py+q; convexity beyond the inflection point gives monotone Newton iterates bounded by the extreme root, whose limit is a root; the loop can only stop where the step makes no progress, which is a root. *Props/Newton; partial.* Everything proved for a factor lambda with lambda^3 >= lambda + 1 or a start that is not past the root; the literal in the code misses this by 10^-19 relative (C72_start_partial) and then stops on a non-root (C72_lambda_fails).
* **C73** Ray intersections of curved segments and cells are exactly the crossings. Completeness and soundness of solveQuadratic (C20) for the cross product of curve and ray. *Props/QSegRay; proved.* Exact real arithmetic; rays along a straight curve excluded by hypothesis.
* **C74** The length of a quadratic segment is its arc length. The antiderivative of sqrt(a r²+b r+c) is differentiated and the fundamental theorem of calculus used. *Props/QSegLength; partial.* Proved for vertices not on a line, and for straight segments with the middle vertex in the middle half of the chord; false for other collinear vertices (C74_collinear_fails, C74_overshoot_fails).
* **C75** The closest point of a quadratic segment minimises the distance. A minimiser exists by compactness; an interior one is a zero of the derivative, which is the cubic solved; the fold over the roots keeps the best. *Props/QSegClosest; partial.* Proved for segments that are not straight (the solver finding all roots, which solveCubic_finds derives from C72) and straight ones with the middle vertex at the midpoint; false for other straight segments (C75_straight_fails).
* **C76** isLeft decides the side of a curved edge. Skew coordinates along chord and quadratic coefficient turn the curve into η = w − w²; hull, triangle, box and root tests are translated into them. *Props/QSegLeft; proved.* Exact arithmetic; region between curve and chord = convex hull of the curve. Points on the curve itself are excluded because the code answers them inconsistently (C76_on_curve).
* **C77** contains of a curved cell is membership in it. Fold over the edges and C76 per edge. *Props/QSegContains; partial.* Proved when outward bulges stay left of the other chords and out of the inward bulges (C77_contains_partial); false without that (C77_lean_fails).
* **C78** Intersections of quadratic segments and self-intersecting polygons. `Model/QCross.lean`: box test, Newton loop, leaf acceptance, bisection with removal of duplicates, `intersects`, `hasSelfIntersection`, `fixSelfIntersection`, over an exact ordered field with the two tolerances as parameters. Soundness and completeness of the search by induction over the depth, the pieces tracked by their parametrisation; the removal of duplicates up to permutation; straight segments solved outright (one Newton step is exact). *Props/QCross; partial.* Soundness up to the tolerance, distinctness, agreement with intersects(), completeness of the search up to Newton's method, the exact result for straight segments and the effect of the repair are proved. That every crossing is found, that nothing else is reported and that self-intersections are detected is false of the code (C78_miss_fails, C78_false_fails, C78_bowtie_fails).
* **C79** The source taken from an MPACT flux file is flux times cross section, summed over the groups. `Model/Source.lean` models getSource on the soup model of C46 with the name generator of C63; undefined behaviour (missing data, material index outside the list) is `none`. `C79_source_partial` by induction over the groups with the invariant that the set name is `flux_` followed by the three digits of the next group and the source is the partial sum. `C79_rejects` covers the error returns. `C79_order_fails`, `C79_missing_fails`, `C79_names_fails` and `C79_material_fails` are the cases where the claim is false of the code. *Props/Source; partial.* Proved for sets in element order with all groups present, up to 999 groups; false otherwise (C79_*_fails).
* **C80** The CMFD iteration matrix is the transport sweep with the coarse correction. Exact solution of the transport equation per cell; matrices as d·1 + u·shift with phase; regularity of the solved systems from the moduli; invariant that the buffer is zero off the band. *Props/Cmfd; partial.* Exact arithmetic; LAPACK solver = inverse matrix (shown regular), eigenvalues and quadrature are parameters. The meaning of the sweep is proved for two or more fine cells and Σ_t = 1 (C80_sweep_partial); for other Σ_t, one cell and c = 1 it is false (C80_*_fails).
* **C81** Reading an MPACT cross section library gives the numbers of the file. Model.XSLib: readMPACTLibrary line by line, with the one 1024-byte line buffer and views that survive the next getline (so that stale views read what the buffer holds then); undefined behaviour, refusal and result are three outcomes. Specification (Lemmas.XSLib): `Block`, `RowText`, `NucText`, `FileText` relate lines to numbers through `fields`; `table` is the cross section of one temperature. Proof: induction over the tokens of a block, the columns of a row, the temperatures, the groups and the nuclides. `strto<Float>` is a parameter that only has to stop at a blank or the terminator. *Props/XSLib; partial.* True for blocks whose lines (but the last) end in at most one blank and a right number of nuclides; false otherwise (C81_trailing_fails, C81_missing_fails, C81_extra_fails).
* **C82** A mesh and its soup are the same mesh. `Model/MeshSoup.lean` models the constructor and the conversion operator on the models of C41 (mesh) and C46 (soup); indeterminate vertices are a parameter. `C82_of_soup_partial` (reading with stride N is reading by offsets when all elements have N vertices), `C82_to_soup`, `C82_round_trip`, `C82_rejects`; `C82_nonplanar_fails` for vertices at another height. *Props/MeshSoup; partial.* Proved for planar soups; a vertex at another height loses the vertices after it (C82_nonplanar_fails).
* **C83** Validation orients every face counter-clockwise. `checkCCW` in `Model/MeshSoup.lean` with the predicates and flips of C28, C29, C33. `C83_pass` by induction over the faces; `C83_triangles`, `C83_tri6`, `C83_quads_partial` (convex faces) give the resulting areas. `C83_dart_fails` and `C83_quad8_fails` are the cases where the claim is false of the code. *Props/MeshSoup; partial.* Proved for triangles, quadratic triangles and convex quadrilaterals; false of darts and quadratic quadrilaterals (C83_dart_fails, C83_quad8_fails).
* **C84** VTK files are read completely. Function by function in `Model/VTK.lean`, on the stream, buffer and outcomes of `Model/XSLib.lean`. Specification of the text in `Lemmas/VTK.lean` (`PointLine`, `CellLine`, `Section`, `DataText`) and `Props/VTK.lean` (`File`, `Known`). `C84_read_partial` by induction over the lines, with C47 for the final sort; `C84_refused`, `C84_lossless` for the error branches. The other theorems are cases where the claim is false of the code. *Props/VTK; partial.* Proved for files as MPACT writes them, with cells whose type follows from the number of vertices; false of quadratic edges and of several layouts that the format allows (C84_..._fails).
* **C85** Soups compare equal exactly if they are the same up to the tolerance. `Model/Compare.lean`. `C85_code` says outright which number is returned when; `C85_equal` combines it with the representation of C46; `C85_symm`; `C85_not_transitive` and `C85_order` show what equality does not mean. *Props/Compare; proved.* Float arithmetic is exact (an ordered field).
* **C86** The CMFD data file shows every coarse cell where it is, with its own data. Model of writeCMFDInfo up to soup.write (Model/CmfdInfo): the four loops over the tables, addVertex/addElement on the soup model of C46, the table of face ids, the sets of the cells and the three families of sets, with the homogenisation of C55. Proved by an invariant of the loops: after visiting a list of places the vertices are their corners in order, the elements are the consecutive quadrilaterals, and the table of a cell is the list of indices of its places; the set loops by induction on the soup representation. *Props/CmfdInfo; partial.* Proved for models whose coarse cells are all in the core and not void; the two failures are theorems. Exact arithmetic; the spectral radius is a parameter.
* **C87** The volumes written for the materials are theirs, and the ray spacing suits nine tenths of the faces. Model of the loops of writeMaterialVolumes with the buckets, sorting and pairwise summation, and of the index (Model/ModelFiles). Each loop body appends to each bucket a list that depends on the place only; the composition gives the bucket of a material as the concatenation over the hierarchy, whose sum is the specified volume. Conservation by exchanging sums. The index is (n-1)/10 exactly; the rest is counting in a sorted list. *Props/ModelFiles, ModelText; partial.* Volumes for models in which every material is used; index for cores with faces; the failures are theorems. Exact arithmetic.
* **C88** The input and cross section files consist of the intended lines. The text is a list of bytes; theorem: splitting it at line breaks gives the specified list of lines. Induction over the nuclides and the materials; the specification computes the column from the header with a one-character type, not from the subtraction of 5. *Props/ModelText; partial.* Input file for materials with nuclides, cross section file for equal numbers of groups; the failures are theorems.
* **C89** The boolean operations of the Gmsh interface keep the physical groups. Model/GmshGroups follows the code: the three sorted vectors of getPhysicalGroupInfo, the running indices of getNewPhysicalGroups, insertion by lower_bound, removal and re-addition of the groups. What Gmsh itself does is a small record of groups and colours, assumed; the children of the kernel are an argument. Proved: acceptance is exactly the specification (`C89_check`), groups and members after the operation (`C89_groups`, `C89_members`), definedness, and the three statements about regions from what the kernel says about the children; `addToPhysicalGroup` (`C89_add`). *Props/GmshGroups; proved.* assumes the stated behaviour of Gmsh; tags as integers
* **C90** With a list of materials every entity gets the first of them, and its colour. On the model of C89: `hierarchy` with std::set_intersection and std::set_difference as they are, `colorMaterials` with the recursive colouring as an argument. Proved by induction over the list: `C90_hierarchy` (exact membership), `C90_once`, `C90_kept`, `C90_groups`, `C90_region`, `C90_color`; `C90_defined` says exactly when the result is defined. `_fails`: a material listed twice, two groups with one name, no group left. *Props/GmshGroups; partial.* proved for lists of distinct materials and distinct group names; false otherwise (C90_twice_fails, C90_names_fails), undefined if no group remains (C90_none_fails)
* **C91** Every coarse cell gets the rectangle of the first place where it stands. Model/OverlayGrid has the nested loops with their flags. The specification says where a cell stands (`At`, in terms of the divisions of the grids) and in which order the places come (`before`, lexicographic). Proof: the flags of each level imply that every cell below has been seen (invariants InvC, InvR, InvL, InvA), so the result is the first place (`C91_first_partial`). `C91_apart`: at different places nothing overlaps. `C91_unplaced_fails`, `C91_tolerance_fails` (a model built by the modifiers). *Props/OverlayGrid; partial.* undefined for a coarse cell that stands nowhere (C91_unplaced_fails); disjointness needs modules that fit exactly (C91_tolerance_fails)
* **C92** Laying the coarse grid over the geometry gives every cell its group and every point one material. Model/OverlayGroups runs getMaterials, the move of the fill material, addToPhysicalGroup, the groups with counted names, groupPreserving (C90) and the removal. `C92_defined`, `C92_removed`, `C92_cells`, `C92_fill`, `C92_one`, `C92_keeps`, `C92_rest`, `C92_region` (points), `C92_color`, by composing C89_add, C63_sequential, C90_hierarchy and C90_color. `C92_name_fails`, `C92_swap_fails`, `C92_again_fails` show that the conditions are needed and what the swap does. *Props/OverlayGroups; proved.* under the conditions of `Setting`; C92_name_fails, C92_swap_fails, C92_again_fails show the cases outside
* **C93** In three dimensions the surfaces of the grid get the groups of the volumes above them. Model/OverlaySurfaces: surfaceGroups, groupPreserving, the children of the rectangles and the removal; adjacencies are an argument. `C93_removed`, `C93_groups`, `C93_one`; `C93_whole` composes with C92 in dimension 3. `C93_shared_fails`: a surface between two volumes is in two coarse cells. *Props/OverlaySurfaces; proved.* a surface between two volumes of the grid is in both cells (C93_shared_fails)
* **C94** A pin in Gmsh: every point of it is in one ring, in the group of its material. `Pins.addPin` follows the function: checks, surfaces with consecutive tags, groups and colours (`addToPhysicalGroup`, `setColor` of C89). `C94_accepts`, `C94_pin`: induction over the rings (`pinMats_spec`, `ringsAt_get`). `C94_points`: in a sorted list of positive radii the rings between neighbours are disjoint and their union is the disk. Assumed of Gmsh: new surfaces get consecutive tags, colouring a surface colours no other surface. *Props/GmshPins; proved.* Equal radii are accepted although the error message says strictly increasing (C94_equal_fails).
* **C95** A lattice of pins in Gmsh: each pin around the middle of its cell. `Pins.addLattice` with the grid of C38 (`Mpact.mkGrid`). `latticeLoop_spec`: induction over the pins; one pin (`pin_added`) adds its rings with consecutive tags over its places, and the result of two steps composes (`added_append`). `C95_lattice` from C38_ids (the divisions are the partial sums of the widths). `C95_points`: the pins lie inside the cells, the cells are disjoint, and C94's argument inside a pin. `C95_refuses`: the errors. *Props/GmshPins; proved.* The function checks neither the radii, nor the number of materials of a pin, nor that there is a row: C95_radii_fails, C95_materials_fails, C95_empty_fails.
* **C96** The info file keeps the physical groups and colours of a Gmsh model. `GmshInfo` models the text byte by byte: groups and colours written eight entries per line, and the reader with `find`, `substr`, `stoi`, `stoul`, `getline` as the standard defines them (size_t wraps, npos, exceptions). `C96_roundtrip`: open after write gives groups and colours; `C96_colors`: all colours of surfaces and volumes when opening the model file leaves the default; `C96_numbers`: the written numbers are the positions by increasing tag; `C96_name`: the name of the info file. That opening the model file numbers the entities in this way is an assumption about Gmsh (io.cpp 48). *Props/GmshInfo; partial.* for names without quotation mark and newline; what is not kept: C96_quote_fails, C96_tags_fails, C96_curve_fails, C96_folder_fails, C96_short_fails
* **C97** The mesh size from the Knudsen number is the size of the material at every place. Verif/Model/MeshField.lean models the fields as functions of the place and the function with all its checks, over the real numbers; `prt` is std::to_string. Verif/Props/MeshFieldSpec.lean has the size of a material and the accepted inputs, without fields. C97_accepted: accepted iff the conditions hold. C97_size: the value of the background field is the smallest size of the materials at the place, and the largest size of Gmsh where there is none. C97_cover: with different names of the materials every place on a Material group is on a material. C97_knudsen: the base size gives the Knudsen number in an equilateral triangle. C97_growth: the size away from the fuel or the boundary. C97_text: the effect of printing the coefficients with std::to_string. C97_same_fails: two materials with one name are accepted, and another Material group gets no size. *Props/MeshField; partial.* For materials with different names everything is proved. Without that condition the claim is false (C97_same_fails). Exact arithmetic; fields of Gmsh are modelled by their documented functions.
* **C98** The polar quadrature of the CMFD analysis integrates over the angle. Verif/Model/GaussTable.lean has the tables. Verif/Props/GaussTable.lean: the moments of degree 0 to 63 are compared in exact rational arithmetic by the kernel, and C98_exact follows for all polynomials by linearity, with the integral of Mathlib. C98_rounded adds the effect of rounding the table. C98_any is for all other continuous integrands, with the distance to a polynomial. C98_roots: a change of sign of Mathlib's shiftedLegendre 32 around every point gives a root there, and the degree shows that there are no others. C98_points, C98_angles: order, symmetry, signs, no zero. *Props/GaussTable; proved.* The decimal literals are taken exactly; C98_rounded covers any rounding to Float.
* **C99** The soup of an MPACT model is its coarse cells at their places. Verif/Model/ModelSoup.lean models the four nested loops with the counters, the soup of a cell, the joining (+=) and the sorting of the soups with the model of PolytopeSoup of C46-C48. Verif/Props/ModelSoupSpec.lean says what the soup is: the tiles of the core (IsTile, from C86), the visits of every object in the order of reading, and IsSoup. C99_soup_partial: by induction over the loops, with the invariant that the soup so far is a list of parts (Made), the counters are the numbers of visits (Ctrs) and the names are those of the visits (Tag). C99_many_fails: with a cell at more than 100000 places the names repeat, and the set of the first place also holds the elements of another. C99_refused: a core without assemblies. *Props/ModelSoup; partial.* C99_soup_partial needs every object at no more than 100000 places; beyond that the property is false (C99_many_fails). Numbers are exact; the mean chord length of a face is an argument.
* **C100** A quadratic mesh that passes validation has no face that intersects itself. Verif/Model/SelfFix.lean models the while loop with its number of rounds as fuel, on the model of the intersection test and of the repair of one face (C78), and validate as the sequence of the orientation pass (C83), the check for manifold and watertight meshes (C44) and the loop. C100_clean: by induction over the rounds, the mesh at the end has no face that is reported, the same faces, and the same vertices but for middle vertices. C100_unchanged: a clean mesh is left alone. C100_extent_partial: each repair moves the sides of the least box around all edges by at most the tolerance, n repairs by n tolerances (the boxes are shown to be least by Tight). C100_defined: no access outside the vectors, no division by zero. C100_validate_partial: all guarantees together, for quadratic triangles. C100_endless_fails: a valid mesh of two triangles on which the loop alternates between two states for ever. C100_boundary_fails: a repair that bends an edge of the boundary and is accepted. *Props/SelfFix; partial.* False as stated: the validation need not end (C100_endless_fails) and may move the boundary (C100_boundary_fails). Proved: what holds when it ends (C100_clean, C100_validate_partial for triangles, C100_extent_partial), and that it is defined (C100_defined). Exact arithmetic.
* **C101** A validated cross section is complete and physical, and so is the built-in C5G7 set. Verif/Model/XSValid.lean models a validation as the list of its checks, run in order until an error ends the program, with reads beyond a vector as a separate outcome; the C5G7 tables are copied number by number and filled in as the code does. C101_returns and C101_silent: the verdict as an equivalence with the size conditions (Sized) and the sign conditions (Physical). C101_warnings: each of the eight kinds of warning, for each index, if and only if the value is so. C101_defined_partial: no read outside. C101_properties, C101_xsec: the materials. C101_collapse: the one-group average. C101_medium: with positive absorption and scattering equal to the column sums, the balance has exactly one flux, not negative for a source that is not (the negative part of the flux is dominated by its own scattering, hence zero; injective linear maps in finite dimension are onto). C101_c5g7: the data, evaluated in the kernel with rational numbers, against the balance and the capture cross sections of the comments. C101_c5g7_medium: C101_medium for each of the seven. C101_c5g7_materials: names and validation of the materials. C101_exit_fails, C101_matrix_fails: reads beyond a vector. *Props/XSValid; partial.* False as stated for reads beyond a vector: with exit_on_error off (C101_exit_fails), or when the data of the matrix were replaced by fewer values (C101_matrix_fails); otherwise no such read (C101_defined_partial). Everything else is proved. Exact arithmetic.
* **C102** addCoarseGrid tiles the domain with equal coarse cells. Model: addCoarseGrid of Verif/Model/Mpact.lean. C102_grid: by induction over the cells and the modules, the whole model after the call. C102_tiles: the places of coarse cells in the sense of C86 (IsTile) are the nx by ny rectangles. C102_cover: each point in exactly one place (least column whose right end is beyond the point). C102_rejected: nothing changes. C102_used_fails: a model that has a cell already. *Props/CoarseGrid; proved.* For models without cells, which the assertions ask for (C102_used_fails otherwise), and cells not narrower than the tolerance for distances. Exact arithmetic.
* **C103** The numbers in the files of the post-processing programs. `fixed16` is `%.16f` (exact value rounded half to even at 16 decimals).  Spec: `IsNumber` (a sign, digits, a point, 16 digits) with its value.  `C103_text`: the text is a number within half of 10^-16; `C103_unique`: of one value; `C103_exact`: for multiples of 2^-53 (doubles of size 1/2 or more) the text determines the value; `C103_collision_fails`, `C103_zero_fails`: two values with the same text, a positive value written as zero; `C103_lines`: the lines of the file. *Props/PostText; proved.* The claim that the value can be got back is made, and proved, for multiples of 2^-53 only; the failure otherwise is C103_collision_fails and C103_zero_fails.
* **C104** The mean chord lengths and the edges follow the order of the fine cells. `chordList` and `edgeList` follow the programs: a list for every coarse cell, then a walk through core, assemblies, lattices and modules with copies into a vector of `numFineCellsTotal` entries.  `C104_chords_partial`: the list is that of the coarse cells placed in the core, in the order of the hierarchy; `C104_elements_partial`: line i belongs to element i of the soup of property C99; `C104_edges_partial`: the edges.  `C104_unplaced_fails`: a coarse cell without a mesh that is nowhere in the core ends the program. *Props/PostModel; partial.* Needs every coarse cell to have a mesh; C104_unplaced_fails shows the refusal otherwise.
* **C105** The spectrum, the CMFD data and the powers are those of the file. `spectrumLoop`, `infoLoop` (loops with fuel) and `powerFile` follow the programs.  `C105_spectrum_partial`: sets `flux_001`, … with a value for each element, in order, at most 998 groups: the list of `integral`s; `C105_kinds`: the types; `C105_info_partial`: the three files; `C105_written_partial`: composed with C86, the values are those of the model; `C105_powers`: the file and the check.  `C105_ids_fails`: the ids of a flux set are not used, so the value of the second element is multiplied with the area of the first; `C105_limit_fails`: after `flux_999` the set flux`000 is looked up; `C105_repeat_fails`: without scattering ratios and spectral radii their files repeat the total cross sections. *Props/PostSoup; partial.* False of the code for flux sets on part of the elements, for 1000 groups, and for missing families: C105_ids_fails, C105_limit_fails, C105_repeat_fails.
* **C106** The source programs write the scattering, fission and total sources. SourceTools: the part of the four programs after the materials are built, over exact reals; C79 gives the sources, addElset the sets. Proved for files without source sets (`C106_sources_partial`); files with one are refused (`C106_again_fails`). *Props/SourceTools; partial.* false for files that already have a source set (C106_again_fails)
* **C107** A plane model made of lattices of pins has the right material at every point. LatticePrograms: the lattice calls (C95), the grid (C102), the rectangles of the cells (C91) and the groups after the overlay (C92) composed into one program; an invariant over the calls says which rings are there; `C107_points` holds also for overlapping lattices, `C107_lattices` reads the material off the pin cell, `C107_fragments` shows that the assumption on the kernel can always be met. *Props/LatticePrograms; proved.* exact arithmetic; the geometry kernel is assumed to fragment correctly (Fragments)
* **C108** The plane C5G7 programs build the C5G7 benchmark. C5G7Plane: the lattice texts verbatim, read by the model of stringToLattice (C10), and the four calls with their numbers; the specification gives the benchmark by distances from the middle pin. The texts are shown to spell the specified tables, the rest is C107. *Props/C5G7Plane; proved.* exact arithmetic; mesh generation is not modelled
* **C109** The plane CROCUS programs build the core without overlapping rods. Crocus: the lattice texts verbatim, read by the model of stringToLattice, and the two calls with their numbers. The specification gives the oxide rods as four crossed rectangles and the metal rods by runs of the upper half and a half turn. All pairs of rods of different lattices are shown to be apart, the rest is C107_points. *Props/Crocus; proved.* exact arithmetic; mesh generation is not modelled
* **C110** The plane VERA 4 programs build the specified quarter core. Vera4: the lattice texts verbatim, the radii, materials, offsets and calls of the two programs. The specification gives the place of each pin by its distance from the middle of its assembly; C107_lattices gives the materials of all points. The claim about guide tubes is refuted by a point between 0.561 and 0.602 cm from a control rod. *Props/Vera4; partial.* the pins, their places and the moderator between them are proved for both programs; that the rods leave the guide tubes in place is false of the code (C110_tubes_fails); exact arithmetic; mesh generation is not modelled
* **C111** A pin-modular model repeats one coarse cell per kind of pin without changing the materials. PinModular: addCoarseCell, addRTM, addLattice, addAssembly, addCore as the programs call them, then the overlay. C111_modular composes the materials of the drawing (C107), the tiling of the core by coarse cells and the choice of one tile per coarse cell by the overlay. Vera4Modular gives the texts and calls of the VERA program. *Props/PinModular, Vera4Modular; partial.* the general theorem and the core of the advanced-mesh program are proved; that it has the pins of the variable-grid program is false of the code (C111_same_pins_fails); exact arithmetic; mesh generation is not modelled
* **C112** Which cylindrical pins addCylindricalPinMesh accepts. Over the real numbers. By induction over the rings the equal-area radii are the ring radii times sqrt(theta / sin theta) (linear) or cos g / 4 + 3 g / (4 sin g) (quadratic); the largest ring radii are the given radii, so the test on the equal-area radii is a test on these. Inequalities between the factors follow from half-angle formulas and one derivative. The tolerance: a sine or cosine of a multiple of half a division is zero or at least 2 / na, and a boundary point is on the side or at least pitch / (2 na) away from it, so the tests against the tolerance set only zeros to zero. *Props/PinAccept, PinTolerance; partial.* the exact condition is proved for both orders; that radii less than half the pitch suffice is false of the code (C112_half_pitch_fails); real arithmetic
* **C113** The 3D C5G7 program with standard meshes makes the benchmark's core. The calls of the program are modelled one by one on the MPACT model. The texts are evaluated by the kernel and compared with tables computed from the benchmark's description; the calls are then followed symbolically to the final model, whose places of cells come from the lemmas on pin-modular cores of C111. The areas come from C61 and C62, the acceptance of the mesh from C112, and the tolerance from the new theorem C112_tolerance_quadratic, which shows that the tests against the tolerance change nothing. *Props/C5G7Core; proved.* real arithmetic; the areas of the faces between the last ring and the sides of the cell are proved in sum
* **C114** The NuScale program makes the quarter core in its vessel. The program is modelled from the vessel to the overlay: addCylindricalPin2D for the vessel, groupPreservingCut with the 74 tools, colorMaterials, write, open, thirteen calls of addCylindricalPinLattice2D, the coarse grid and the overlay. The kernel's answers are variables constrained by `Cutting` and `FragmentsOf`, which say that pieces make up the points of what they come from; both are shown to be possible. A general layer (`Scene`) proves the overlay on surfaces that are not only rings; the groups are followed through the file with the theorems of C96, through the lattices with C107. The list of holes is compared with the upper half mirrored, the texts with tables of the assemblies. Squares are half-open. *Props/Nuscale; partial.* false of the code for the assembly pitch and the gadolinia pins of A06, with witnesses; proved for the positions and pins as built
* **C115** The C interface shows the whole model. The functions are modelled one by one, with the arrays of the caller as lists: a write outside is undefined behaviour. A client is written that makes the loops a user would make; loops with defined bodies are flat maps, rows of a table in order are the table, and the order is lexicographic by an invariant on key prefixes. Area, centroid, containment and intersection of a face are parameters (they are C16-C20, C38 and others). *Props/CApi; partial.* false of the code for cells without mesh, with a witness; proved for cells with a mesh
* **C116** An XDMF mesh and its data file belong together. A file system is a map from paths to files; the splitting of the path is modelled with the loops and substrings of the code. The data sets are opened by HDF5 paths, whose links are compared. The round trip composes the names with C69; for renamed pairs the number of characters skipped by the reader decides which link path is opened, and this is computed for all lengths. *Props/XdmfFiles; partial.* moving is false of the code for pairs written in the root directory, with a witness; proved for all others
* **C117** The plane models of the Ford Nuclear Reactor. The loops of lines and arcs are modelled over the real numbers, their inside by counting the curves above a point; the centres of the arcs are computed as in the code. Each function that draws is shown to add exactly the points of the specification to the vectors of tags, by induction over the loops; the figure of the core comes from the text of the layout. Nothing overlaps, because with the bulge of the plates subtracted all parts of a column lie in separate intervals. Groups and overlay then follow as for C114. The meat is compared with circular rings by the monotonicity of the distance of two circles and bounds on the cosine. *Props/Fnr; partial.* the drawing is proved in full; the claims on the thickness of the meat and on the enrichment are false of the code, with witnesses
* **C118** The pin cell of VERA problem 1A. Single calls of `addCylindricalPin2D` keep the invariant of C107; the points of the rings are then those of the specification, and the overlay gives each point its material as in C114. The masses of the nuclides are computed from the table of atomic masses of the library. *Props/Vera1; partial.* the geometry is proved in full; the claim on the density of the helium is false of the code, with a witness
* **C119** The SVEA assembly. The program is a tree whose nodes are questions to the kernel; `Always` quantifies over all answers that `Answer` permits. The curves of the box are shown to bound the rounded squares; each boolean before the last has a connected result, which is proved, so that it is one surface and its first tag is the one the program needs. An invariant on the known surfaces is carried through the tree. The groups are then ranked by their tags, so that the pins have precedence over the coolant that overlaps them. *Props/Svea; partial.* proved if the kernel returns the coolant before the water (`C119_assembly_partial`, such an answer exists: `C119_order`); without it the pins, the box and the outside are right (`C119_frame`); an answer for which the claim is false is given by `C119_order_fails`
* **C120** Determinants and cross products in floating point. A floating-point number is an integer of at most p bits times a power of two; rounding is any function to a nearest such number, and IEEE's round-to-nearest-even is shown to be one. The error of the product `b c` is itself such a number, so that Kahan's correction is exact up to two roundings; an error that is smaller than the value cannot change its sign, and a difference below the grid of the summands is represented exactly. *Props/FpGeom; proved.* 
* **C121** The orientation tests in floating point. With exact differences the claim follows from C120; the differences are exact for points of a common grid. In general the error is at most 6u times the products of the differences. The tolerance covers this for coordinates up to a bound. *Props/FpGeom; partial.* exact for points whose differences are representable, e.g. on a common binary grid (`C121_orientation_partial`, `C121_triangle_partial`); false in general (`C121_gap_fails`), the error is bounded by `C121_error`; the tolerant test is right in double precision for coordinates up to 4096 (`C121_approx_double`), in single precision it is not (`C121_approx_fails`)
* **C122** The quadratic equation in floating point. The discriminant is a determinant, so its sign is exact and its error relative (C120). The square root halves a relative error, the sum with the sign of `b` does not cancel, and each quotient adds one rounding; sorting does not increase the errors. The reference roots are those of the exact solver (C20). *Props/FpRoots; proved.* 
* **C123** Morton codes of floating-point coordinates. The largest coordinate is 2^n - 1. For k between 2^e and 2^(e+1) the error of the quotient is at most half a unit, and since max is less than 2^n the product is nearer to k than to the next number below k. For k = 2^e the numbers below are twice as dense; there the remainder of 2^(n+p-1) by 2^n - 1 decides, which is small enough for the widths and precisions that occur. The product with a rounded reciprocal stays below the midpoint above one. *Props/FpMorton; partial.* proved, except that the scaling of a mesh into the unit square holds only if its bounding box begins at the origin (`C123_scaled`; `C123_scaled_fails`)
* **C124** Statistics in floating point. Induction on the recursion of the pairwise sum and on the list. For the variance, the new mean is shown to be between the old mean and the new value even after three roundings, so that both factors have the same sign and the accumulator does not decrease. The run is compared with the exact run (C19) by an invariant on the distance of the means and of the accumulators. *Props/FpStats; partial.* the bounds and signs are proved; false are: the mean lies in the range of the data (`C124_mean_fails`), a variance of zero means equal data (`C124_variance_fails`; the converse is `C124_variance_equal`)
* **C125** Regular grids in floating point. Rounding is monotone, which gives order, ranges and the lower end without error analysis. Nearness is two applications of the relative error. Exactness: two numbers of the format differ by 2^-p of the larger at least, and a value that far below an integer does not round to it. The centroid lies 5/16 of the spacing inside under the stated condition. *Props/FpGrid; partial.* false are the last three parts: `C125_inside_fails`, `C125_bounding_box_fails`, `C125_corner_fails`, `C125_neighbours_fails`; they hold up to the error bounds of `C125_near`, `C125_locate`, `C125_neighbours`
* **C126** Linear interpolation in floating point. Everything about order and sign follows from rounding being monotone and exact on numbers of the format; the exact end from the exactness of differences within a factor of two (Sterbenz); the error bounds from the relative error of each operation. *Props/FpLerp; partial.* all parts but the last are proved; the last is false (`C126_end_fails`), and true within a factor of two (`C126_between`), for exact differences (`C126_end_exact`), and up to the error of `C126_end`
* **C127** Distances in floating point. A value after k relative errors lies between x (1-u)^k and x (1+u)^k; this is closed under sums and products of what is not negative. The square of a rounded difference counts two errors, each turn of the loop one more. The ends: equal operands give a quotient of exactly one. The dot product is bounded by the sum of the absolute products (induction over the coordinates); the quotient combines both errors, and clamping does not enlarge them. *Props/FpClosest, FpDist; partial.* all parts are proved but one: the distance is zero at the second end only if the differences are numbers of the format (`C127_segment`, `C127_end_fails`)
* **C128** Rays and segments in floating point. The three cross products have exact signs and a relative error of three roundings (C120), so the signs of the quotients are exact and their errors at most nine roundings; Cramer's rule identifies the exact quotients with the parameters of the meeting point. *Props/FpRay; partial.* all parts but the last are proved; the last is false (`C128_leak_fails`)
* **C129** Colours. Bit vectors for the integers; for the numbers rounding is monotone and exact at 0 and 255. The way back is evaluated in the kernel for all 256 bytes and both formats, which is the whole domain. *Props/Color; proved.* 
* **C130** Areas and centroids in floating point. The cross products have exact signs and small relative errors (C120) and halves are exact. Centroids: relative errors of sums, products and quotients of what is not negative. Shoelace: induction over the vertices with the error of a rounded sum. *Props/FpArea; partial.* all parts but the last are proved; the last is false (`C130_polygon_fails`)
* **C131** Norms, unit vectors, perimeters and mean chords in floating point. The calculus of relative errors of C127, extended by quotients and square roots; the square root is any exact one, rounded. Induction over the vertices for the perimeter. 18 errors of the unit vector and 5 of its squared norm stay below 2^-19 with 24 digits. *Props/FpNorm; proved.* overflow and underflow are left out: for vectors of very small or very large numbers squaredNorm leaves the range
* **C132** Vectors and pairs compare as what they contain. Reading past the end of the second range is a distinct outcome of equal. Induction over the sequences against the linear order of lists; the derived operators are negations and exchanges as in the code. For elements with a NaN a witness shows the operators contradicting each other. *Props/Relational; proved.* elements of a linear order; C132_nan_fails shows what a NaN does
* **C133** Powers from an FSR output. Composition of the lookup of the set (C46), the mesh of a soup (C82) and the groups (C65). An iff for what is accepted; different ids in ascending order, as many as there are elements, are 0, 1, 2, … *Props/PowerFile; partial.* C133_powers_partial needs the ids to be different and ids of elements, and NearFits (C65); C133_ids_fails gives the counterexample; the acceptance (C133_data, C133_refused) is proved in full
* **C134** Linear systems and eigenvalues. LAPACK is a parameter with its documented contract (illegal arguments, singular matrices, elements outside the matrices, size of the work array); an instance meeting it is given for each. What is proved is that the wrappers pass sizes, leading dimensions, copies and work arrays such that the contract gives the solution. *Props/LinearSolve; partial.* C134_singular_fails: singular matrices are not reported, the right side is returned; everything else is proved; exact arithmetic, LAPACK by contract
* **C135** Boxes in floating point. The computed parameter of a plane is a monotone function of its coordinate (rounding is monotone), also where it is infinite; from this come the comparison of boxes and the watertight grid, without error bounds. The parameters have three relative errors with the exact sign, which gives soundness and completeness up to slivers. The IEEE infinities and NaN of a zero direction are modelled. *Props/FpBox; partial.* C135_complete_partial: rays are missed only if the chord is a few relative errors long (C135_corner_fails is such a ray); C135_zero_fails and C135_enlarge_fails for degenerate scaling; everything else is proved
* **C136** Modular rays in floating point. The place of a ray has three relative errors; with at most 2^p / 8 rays they are less than the half spacing at the ends, and rounding is monotone. The trigonometric functions are parameters with a contract (`Trig`), which correctly rounded functions meet in double precision (`C136_trig`, `C136_trig_double`, by bounds of pi). *Props/FpRays; partial.* all theorems assume 8 (nx + ny) <= 2^p, which always holds in double precision; C136_outside_fails is a case in single precision where it does not; C136_same_fails: distinctness needs a spacing of more than the error
* **C137** Cross sections in floating point. Relative errors are counted along the loops beside the exact loops of C54 and C55 (`Off`): sums of what is not negative keep relative errors, a product adds them, a quotient doubles those of the divisor. *Props/FpXSec; partial.* the exact mean is not reproduced (C137_uniform_fails), the debug assertion fails in single precision (C137_collapse_assert_fails); the error bounds, signs, flag and balance are proved without bounds on sizes
* **C138** Rectilinear grids in floating point. Every coordinate of every box is shown to be near the place of its index by induction over columns and rows; places of one index are merged and those of different indices are kept apart because rounding to nearest is monotone and the tolerance is itself a floating-point number. *Props/FpRect; partial.* false when the errors of a row reach the tolerance (C138_drift_fails, C138_far_fails); proved below a quarter of it, and for equal widths as long as twice the extent is at most 2^p tolerances
* **C139** Material compositions in floating point. Relative errors are counted along the expressions beside the exact ones of C56, the constants being decimal literals rounded to double and then to Float; the difference that gives U-238 keeps a relative error because at most half is subtracted from one. *Props/FpMaterial; partial.* false for U-238 near full enrichment (C139_u238_fails), proved for 1.0135 w <= 1/2; weights and atom fractions in full
* **C140** Numbers in XDMF files of other programs. The readers are modelled on the bytes of the datasets: HDF5 copies them because the type of the file is passed as the type of the memory, then come the casts. The stored value is defined by the type of the dataset, an encoder gives the round trip, and IEEE values are decoded from bytes and shown to be floating-point numbers of the build. *Props/Sharper, XdmfData; partial.* false for big-endian files, ids beyond 32 bits, small integers and lengths that do not match (C140_*_fails); proved for little-endian data of four and eight bytes
* **C141** Rectangular pin meshes in floating point. The coordinates are those of the code, rounded; strict growth follows because neighbours differ by more than their rounding errors, the sums of areas telescope, and for powers of two all steps are exact. *Props/FpPin; partial.* the mesh does not end exactly where the pin ends (C141_extent_fails; it does for powers of two, C141_power), the rest is proved for up to 2^(p-1) faces an edge (C141_many_fails beyond)
* **C142** Cylindrical pin meshes in floating point. The function of `Verif.Pin` with every operation rounded and optional contraction. Differences of squares are far from harmless one by one, but the sums that the rings accumulate telescope, so the error of ring j is 4 j + 8 relative roundings; angles, sines and cosines are bounded with the concavity of the sine near the zeros, and the tolerance separates what is exactly zero from what is not. *Props/FpCyl; partial.* the corners are off by one unit in the last place (C142_corner_fails); the rest is proved for circles two tolerances away from the sides (C142_vertices) or beyond them by more than the errors (C142_refuses), between them either can happen
* **C143** Quadratic segments and cells in floating point. Relative errors of products and sums are composed term by term; for the box the curve with the computed coefficients is compared with the exact one, and its extremum with the computed value, including the case that the parameter of the extremum is rounded to 1. *Props/FpQuad; partial.* the box contains the curve up to 31 roundings of the distances of the nodes and one of the first coordinate (C143_box), not exactly (C143_box_fails)
* **C144** Rays through quadratic segments in floating point. The computed equation is compared with the exact one coefficient by coefficient; C122 gives the roots of the computed equation, the intermediate value theorem its root between two points on different sides. *Props/FpQRay; partial.* everything is proved but the last sentence, which is false (C144_leak_fails); exact bounds instead
* **C145** The closest point of a quadratic segment in floating point. The solver is an arbitrary function; the loop over its roots has the invariant that the kept distance belongs to the kept parameter and is the least so far; the coefficients are compared with those of the derivative one by one. *Props/FpQClosest; proved.* the solver is a parameter: that it finds all roots is not claimed (C21 and C72 have the solver); the straight case is that of C75
* **C146** Quadratic cylindrical pin meshes in floating point. The function of `Verif.Pin` with every operation rounded and optional contraction. The recurrence for the equivalent radii is handled with a calculus of absolute errors scaled by the ring radius: the errors of one ring enter the next one with a factor of at most one, because the area of the edge of the inner ring is smaller than that of the outer one, so they grow linearly, not exponentially. The points then follow as in C142, with half the angle; the areas of quadratic faces are compared as a shoelace and four crosses. *Props/FpCyl2; proved.* the number of rings is limited to 2^p / 360 and the tolerance has to be larger than the errors; corners as in C142
* **C147** The length of a quadratic segment in floating point. The function of `Verif.Model.QSeg` with every operation rounded and optional contraction; a result that is not a finite number is `none`. The errors of the roots, the two arguments of the logarithm, the discriminant, the numerator and the denominator are bounded one after the other. Where the arguments cancel their errors are multiplied by the discriminant, which is the product of each argument and its conjugate, so the cancellation does no harm. The exact value is that of C74, and the logarithm is the integral of the reciprocal of the speed. *Props/FpQLength; partial.* false without a bound on how close the coefficients are to being parallel (`C147_length_fails`); `C147_length_partial` and `C147_formula` have that hypothesis, on the coefficients as they are computed: the square of their cross product is at least 64 units of rounding relative to their sizes
* **C148** A generated mesh has the faces that were asked for. The process as a state: settings of the logger, the options of Gmsh as variables, the points with their sizes, and how the mesh was made. The calls are functions on it; a program is a list of them. What Gmsh makes of its options is a small specification after its manual. An induction over the calls keeps the two options that matter. *Props/GmshMesh; partial.* false for triangles after quadrilaterals in the same session (`C148_faces_fails`); `C148_faces_partial` says exactly for which programs it holds. What Gmsh does with its options is taken from its manual
* **C149** Centroids and mean chords of quadratic cells in floating point. The functions over any correctly rounded arithmetic, with a bit per product for the choice of the compiler. The error of each step of the cap centroid is bounded over the reals (norm, unit vector, three scalar products, rotation back); an induction over the edges bounds the sums of areas and moments; the quotient is bounded by the thickness of the cell. The specification is in sums of caps; two theorems identify them with Green's integrals along the curved boundary. *Props/FpQCentroid; proved.* differences of nodes from the first of each edge must be representable; the quadrilateral in the positive quadrant is inherited from the linear centroid (C130)
* **C150** Cubic equations in floating point. The function over any correctly rounded arithmetic with a bit per product for the choice of the compiler. Each step of Horner's scheme has a bounded error; the two ways to divide by the root are exact divisions of a cubic with perturbed coefficients; C122 gives the accuracy of the quadratic. The loop visits no point twice. If it stops before the first root, then the slope is at least twice the square of the distance to the inflection, hence a slope or a value with the wrong sign is a rounding error, and so is the value. A concrete equation is evaluated in double precision for the negation. *Props/FpCubic; partial.* the residual is a rounding error if the loop stops before the first root (C150_residual_partial) or does not start (C150_start); C150_residual_fails is an equation for which it steps over the root; everything else is proved
* **C151** The side of a quadratic segment in floating point. The function over any correctly rounded arithmetic with a bit per product for the choice of the compiler. The square root of a rounded square is exact, hence the rotation is exact for chords along an axis, and the triangle test is exact on a grid (C121); the height of the parabola has an error of a few roundings and the box around it is not too small. For chords in any direction the rotation is accurate to eight roundings. Points in double precision that are on the left in neither or in both directions are evaluated in the kernel. *Props/FpQLeft; partial.* proved for chords along an axis with the third node over their middle and points of a grid, outside sixteen rounding errors of the height (C151_side_partial); for other middle nodes the decision between the two computed roots is proved (C151_two), for other chords the accuracy of the rotation (C151_rotation); the last sentence is false (C151_leak_fails, C151_overlap_fails)
* **C152** Finding the face of a point in floating point. The loop over any correctly rounded arithmetic, by induction over the faces. The sign of the determinant is exact for representable differences (C120); for an edge along an axis one of the differences is zero and rounding keeps the sign of the others, hence the side is exact for all numbers. With C141 the faces of a rectangular pin mesh are the boxes between two increasing sequences, so the first box that contains a point is the half-open cell of the point. *Props/FpLocate; partial.* exact for rectangular pin meshes (C152_pin) and for points of a grid (C152_grid_partial), up to an error otherwise (C152_margin); false for all meshes of doubles (C152_gap_fails)
* **C153** Handles and arrays of the C interface. The calls act on a list of blocks; a block that was released stays in the list as gone. An invariant over the sequence of calls ties the blocks to the pointers given out and taken back, which can be read off the calls and their answers alone. From it follow which next calls are defined and what they see. *Props/CHeap, Sharper; partial.* handles and releases in full (C153_free, C153_delete, C153_query, C153_made, C153_double, C153_balance); the functions that return arrays only when there is memory (C153_arrays_partial; C153_memory_fails)

## Findings: where the code does not do what its users expect

Each is proved as a `..._fails` theorem (or is visible in the exact statement named).

* **C02** Appending an own element to a full vector of a non-trivially movable type appends a moved-from object.
* **C06** Floats of 10^23 and more do not fit the 32-byte text buffer: the terminator is overwritten by garbage.
* **C07** Strings are ordered by signed characters, not as `std::string` orders them.
* **C10** A blank line or an empty field silently drops the rest of the lattice.
* **C14** The portable and the BMI2 3D decoders disagree on codes with unused high bits.
* **C17** A log line over 256 bytes overflows the buffer; hours from 100 on are not digits; `addColor` with an unknown colour moves the write index back without need.
* **C22** `Mat * Mat` loops to the wrong bound when the inner dimension differs from the number of rows.
* **C23** Without BLAS, `matmul` adds to the old contents of the output.
* **C25** A ray that lies in a face plane of a box is reported as a miss (0 · ∞).
* **C28** A degenerate triangle contains points far away from it.
* **C33** Flipping an 8-node quadrilateral forgets to exchange two midpoints.
* **C40** A quadratic edge is inferred to be a triangle from its vertex count.
* **C42** `mortonSort` of a mesh away from the origin violates the encoder's precondition.
* **C44** Meshes with the same face twice pass the manifold check; a closed surface or an empty mesh is undefined behaviour.
* **C45** The sort key differs from its documentation in one branch (harmless for the order).
* **C46** `getElset` leaves the caller's data vector alone when the set has none.
* **C47** `sortElsets` without element sets reads an empty vector.
* **C48** Appending an empty soup, appending a soup to itself, or merging a set with data into one without, goes wrong.
* **C49** Extraction into a non-empty soup gives wrong vertex ids.
* **C50** Soups of edges or vertices only do not survive the XDMF round trip.
* **C51** The last id of a line is lost unless a comma follows it; a line of 1024 characters ends the file.
* **C56** Unknown nuclides are dropped; enrichment above 98.67 % gives a negative U-238 density.
* **C57** Material ids of a cell without mesh are not checked; ragged arrays with a short first row give an object without children.
* **C58** Rejected `addRectangularPinMesh` and `addCylindricalPinCell` calls leave meshes behind.
* **C59** Chord lengths are attributed to the wrong fine cells (or read out of bounds) when a coarse cell has no mesh.
* **C61** The order of the radii is not checked.
* **C63** Numbers from 100000 on repeat names; the increment of "99999" changes the prefix.
* **C64** `readXDMFFile` stores the assembly id where the lattice id belongs (model.cpp 2599).
* **C65** Faces smaller than 10^-3 with a gap between them are not joined although they share vertices up to the tolerance.
* **C66** The height comparator is not a strict weak order.
* **C67** Material ids are truncated to 8 signed bits.
* **C69** Element sets named like the reserved datasets clash; flat z coordinates.
* **C70** Unsupported Abaqus element types become one-vertex elements.
* **C71** A ZAID missing in the library silently uses the first nuclide of the library.
* **C72** The literal 1.32471795724474602596 in cubic_equation.hpp is below the plastic number, so the start can be past the root by one part in 10^19; in exact arithmetic the loop then stops at once on a point that is not a root.
* **C74** Three vertices on a line with the middle one beyond an end give `0 * log(0)`, NaN; with the middle one near an end the part of the curve past that end is left out.
* **C75** The closest point of a straight segment whose middle vertex is not the midpoint is a wrong one (the parameter on the chord is used on the curve).
* **C76** A point on the curve is left of the segment for a middle vertex over the middle of the chord and not left of it for other segments (C76_on_curve).
* **C77** Points of an outward bulge that leans past the line of a neighbouring edge are reported outside the cell (C77_lean_fails).
* **C80** `beta_n` is called with the thickness of the fine cell, not its optical thickness, so the averages are wrong unless Σ_t = 1 (C80_sigma_fails); with one fine cell per coarse cell (`p = 1`, accepted) the corner entry overwrites the diagonal (C80_one_cell_fails); `c = 1` (accepted) divides 0 by 0 at α = 0 (C80_c1_fails).
* **C79** The ids of the sets are ignored: a set that lists the elements in another order gives the flux to the wrong faces (C79_order_fails). A missing group silently reuses the flux of the group before (C79_missing_fails). A face of material 0 reads the material list at index -1 (C79_material_fails). The comment above the function has a factor of the face area that the code leaves out.
* **C82** The constructor stops copying vertices at the first one whose height differs; the rest of the mesh has indeterminate coordinates, with only a warning (C82_nonplanar_fails).
* **C83** A counter-clockwise quadrilateral with the reflex corner at vertex 1 or 3 is reported clockwise and is turned clockwise (C83_dart_fails); a flipped quadratic quadrilateral gets a new edge (C83_quad8_fails).
* **C81** A line of the %GRP or %CHI block that ends in two or more blanks makes the reader take the next number from the middle of the next line, silently (C81_trailing_fails: bounds 9 and 25 are read as 9 and 5). If %DIM announces more nuclides than there are, nuclides with ZAID 0 are kept (C81_missing_fails); if fewer, the vector is overrun (C81_extra_fails). Group and temperature indices of the lines are only asserted.
* **C78** `intersect(QuadraticSegment, QuadraticSegment)` misses a transversal crossing if the tangents at the starts of the two pieces that hold it are parallel (`det == 0` returns 0), e.g. `y = 0` and `y = x^2 - 1/4096` (`C78_miss_fails`). It reports curves that stay apart, since the *squared* distance is compared with `100 * epsDistance` (a distance of 0.003 in double, 0.1 in float) (`C78_false_fails`). Four common points are possible and are returned, the code asserts at most two (`C78_four_fails`). `hasSelfIntersection` asks for more than one common point also of opposite edges, so a bow tie is not reported, and no polygon with straight edges ever is (`C78_bowtie_fails`, `C78_straight_polygon`). Overlapping straight edges have no intersection (`C78_parallel`). `fixSelfIntersection` on a polygon without a hit reads `getEdge(-1)` (`C78_fix_none_fails`).
* **C84** The cell types of the file are ignored; the type is guessed from the number of vertices, so that a quadratic edge is read as a triangle (C84_edge_fails) and a cell of five vertices gets the type Invalid (C84_pentagon_fails). Two points on one line: every second one is lost (C84_two_points_fails). Points with two coordinates hand `strto` a null pointer (C84_planar_fails). Of several arrays after one line CELL_DATA only the first is read (C84_second_array_fails). Arrays that are not separated by an empty line overrun the vector of the values (C84_adjacent_fails). Missing values, an empty line between the values (C84_missing_fails) or a line of 1024 or more characters (C84_long_line_fails) leave uninitialized values in the array, silently. The number of values is not compared with the number of cells (C84_count_fails).
* **C85** Equality up to a tolerance is not transitive (C85_not_transitive), and the same element sets in another order count as a difference (C85_order).
* **C86** A coarse cell that is not used in the core makes `soup.addElset` fail with an empty list (model.cpp 3405-3408), so that no file is written (`C86_unused_fails`). A cell whose homogenised total cross section is zero in a group gives 0/0 for the scattering ratio, and a NaN is handed to the spectral radius (`C86_void_fails`).
* **C87** `um2::sum` of an empty range is undefined; a material in the table that no face of the core has leads to it (model.cpp 2149, `C87_unused_fails`). A core without faces reads `mcls[0]` of an empty vector (2022, `C87_nothing_fails`).
* **C88** nothing ends the line of a material without nuclides (model.cpp 1996-2009): the next comment, or the keyword GEOM, lands on the same line (`C88_void_fails`). The cross section file takes the number of groups from the first material: no materials, or one with fewer groups, is undefined, one with more groups is cut (`C88_groups_fails`, `C88_more_fails`).
* **C90** `processMaterialHierarchy` subtracts a material from itself when it is listed twice, so all its entities lose their material (`C90_twice_fails`). It finds one group per name only: with two groups of one name an entity ends up with two materials (`C90_names_fails`). `colorMaterialPhysicalGroupEntities` takes `back` of the list of groups without a check: an intersection that leaves no entity with a group is undefined when materials are given (`C90_none_fails`).
* **C91** `overlayCoarseGrid` leaves the rectangle of a coarse cell that is not placed in the core uninitialised and uses it (`C91_unplaced_fails`). `addRTM` accepts modules whose size agrees up to the tolerance, and the rectangles of their cells then overlap by a sliver (`C91_tolerance_fails`).
* **C92** `overlayCoarseGrid` does not move the fill material to the end but exchanges it with the last one, which changes the order of the others: an entity with two materials then gets the other one (`C92_swap_fails`). A group named `Material` makes `getMaterials` throw (`C92_name_fails`). Groups of coarse cells from an earlier grid keep what is outside the new grid (`C92_again_fails`).
* **C94** `C94_equal_fails`: the message says the radii must be strictly increasing, but `is_sorted` accepts equal radii; Gmsh is then asked for an annulus without points.
* **C95** `C95_radii_fails`: the lattice accepts decreasing and negative radii that `addCylindricalPin2D` refuses. `C95_materials_fails`: fewer materials than radii of a pin are read outside the vector. `C95_empty_fails`: `pin_ids[0]` of an empty lattice is read outside the vector.
* **C96** write of a group name with a quotation mark or a newline gives a file that open refuses (`C96_quote_fails`); tags of groups (`C96_tags_fails`) and colours of curves and points (`C96_curve_fails`) are not kept; for a file name without extension in a folder with a dot, the info file is outside of the folder (`C96_folder_fails`); a line that ends too early is read again from its start, because npos + 1 wraps to 0 (`C96_short_fails`).
* **C97** setMeshFieldFromKnudsenNumber compares only the number of the Material groups with the number of the materials. Two materials with one name pass, and a Material group without a material gets the largest size of Gmsh, 10^22 (C97_same_fails).
* **C99** Model::operator PolytopeSoup: a coarse cell (or another part) at more than 100000 places: the five digits of the visit start again at 00000, and the sets of different places are merged without a message (`C99_many_fails`).
* **C100** FaceVertexMesh::validate never returns on some meshes of two quadratic triangles: the repair of one face bends the common edge so that the other one intersects itself, the repair of that one bends it back (`C100_endless_fails`). The comparison of bounding boxes does not ensure that the boundary is not modified: an edge of the boundary that does not touch the box can be moved (`C100_boundary_fails`).
* **C101** XSec::validate goes on to read the vectors whose size it has just reported as wrong when exit_on_error is off (`C101_exit_fails`), and does not compare the data of the scattering matrix, which asVector lets one replace, with its extents (`C101_matrix_fails`). For microscopic cross sections the sign of no value is looked at.
* **C102** In a release build addCoarseGrid does not notice that the model has cells already: the modules are made of the first cells of the model, and the new cells get no place (`C102_used_fails`; the condition is an ASSERT only).
* **C103** `%.16f` writes 16 decimals, not 17 significant digits: two doubles below 1/2 can have the same text, and small positive values (fluxes, powers) are written as zero.
* **C104** extract_meanchordlength and extract_edge_length refuse a model with a coarse cell without a mesh, even if the cell is not in the core.
* **C105** extract_spectrum takes the values of a flux set to be those of the elements 0, 1, 2, … whatever the ids of the set are, and finds at most 999 groups; extract_cmfd_info does not clear its buffers between the three look-ups, so that the files of a missing family repeat the values of the previous one.
* **C106** The programs write back to a soup that must not have the sets scattering_source, fission_source or total_source: a file the program has written before is refused (`C106_again_fails`), so it cannot be run twice.
* **C110** The pin with the control rod (AIC) has only the rod, radii 0.382 and 0.484; the guide tube that surrounds the rod (moderator to 0.561, clad to 0.602) is missing, so the rodded model has moderator in place of the clad of 24 tubes (`C110_tubes_fails`). The pin with pyrex has the radii of the instrument tube (0.559, 0.605) in place of those of the guide tube.
* **C111** The two programs of the rodded VERA problem 4 are different: with the variable grid the 2.619 % assemblies have pyrex in all 24 tubes, in the advanced-mesh program in 20, the four tubes at three pins both ways from the middle being empty (`C111_same_pins_fails`).
* **C112** `addCylindricalPinMesh` says that the radii must be less than half the pitch, but with straight edges and eight divisions a radius of more than 94.9 % of half the pitch is refused, for example 0.6 for pitch 1.26 (`C112_half_pitch_fails`); with curved edges the limit is 99.9 %.
* **C114** models/nuscale/nuscale_2d.cpp places the assembly in column or row 0 at -17*pin_pitch/2 but those in column k at (k - 1/2)*asy_pitch without the half gap, so the pins of every other assembly are 0.04182 cm nearer to the middle of the core than the assembly pitch says, and the distance of the first two assemblies is 21.46182 cm and not 21.50364 cm (`C114_pitch_fails`). The assembly A06 is made with `lat_a05`, which has four gadolinia pins; the comment on A06 in the same file has eight at other places (`C114_gad_fails`).
* **C115** The modifiers accept a coarse cell of a supported mesh type without mesh; the C interface says that it has faces, but asking for their areas reads `meshes[-1]` (`C115_meshless_fails`). With the default type the program ends with an error instead.
* **C116** The reader finds a data set by skipping as many characters as its own data file name has, so a renamed pair is readable exactly if the new name is as long as the old one or one longer (`C116_renamed`, `C116_renamed_fails`). A path in the root directory is split wrongly (`/m.xdmf` gives the data file name `/m.h5`), so a pair written there cannot be moved (`C116_root_fails`). A file called `.xdmf` or `..xdmf` cannot be written (`C116_unnamed`).
* **C117** The comment in the FNR programs that the meat is as thick as in a flat plate is false: the arcs through the four corners all have the radius of the middle of the plate, so the meat is more than one percent (about 2.4) thicker in the middle of every plate (`C117_meat_fails`; it contains the even meat, `C117_meat_partial`). The programs for the LEU core use the weights of the HEU fuel: 93 percent of the uranium is U235 (`C117_enrichment_fails`). The weight fractions of the fuel add up to 0.99915, since the zinc of the alloy is dropped (`C117_weights_fails`).
* **C118** vera_1a.cpp quotes 0.012768 kg/m^3 for the helium in the gap, but sets 0.00012768 g/cm^3, ten times as much (`C118_helium_fails`).
* **C119** svea_2d_variable_grid.cpp takes the first four surfaces of the last cut for coolant and says that the last four are moderator. There are nine surfaces, so that one has no group (it becomes moderator, because that is the fill of the overlay), and nothing fixes their order: with the water first, the coolant between the pins becomes moderator (`C119_order_fails`).
* **C121** areCCW first rounds the differences of the coordinates, so that the exact determinant does not help: the double point (0.1, 0.3) is on the common edge of two triangles as far as doubles go, and `contains` is false for both (`C121_gap_fails`). In single precision the tolerance of areApproxCCW is below the rounding error for coordinates of less than 100 (`C121_approx_fails`).
* **C123** mortonSortVertices and mortonSortFaces scale by the extent of the bounding box but do not subtract its corner; for a mesh that does not begin at the origin the scaled coordinates leave the unit square (`C123_scaled_fails`) and the encoder is undefined.
* **C124** The mean of three equal doubles can be a larger number (`C124_mean_fails`), and the variance of two different doubles can be zero (`C124_variance_fails`); both are off by one unit in the last place.
* **C125** With spacing 0.01 in double precision a point strictly inside getBox(5) of a grid of six cells is located in no cell (`C125_inside_fails`), with spacing 0.05 a point strictly inside the bounding box of 17 cells is located in no cell (`C125_bounding_box_fails`), the lower corner of cell 29 is located in cell 28 (`C125_corner_fails`), and boxes 5 and 6 overlap while 6 and 7 do not touch (`C125_neighbours_fails`).
* **C126** The segment from 1.5 to 2^52 + 5 ends at 2^52 + 6 in double precision (`C126_end_fails`): two ties in a row go the same way.
* **C127** The second point of the segment from (1.5, 0) to (2^52 + 5, 0) has the distance 1 to it (`C127_end_fails`).
* **C128** With exact differences in double precision, a ray that crosses two edges of a triangle with integer coordinates below 2^24 has one hit only (`C128_leak_fails`): it enters within nine roundings of the end of an edge, s rounds to more than 1, and the next edge rightly sees the exit (its s is positive): an odd number of hits.
* **C130** The shoelace formula gives the area 0 for a convex pentagon of area 5/2 whose coordinates are integers below 2^53 (`C130_polygon_fails`); the formulas for triangles and quadrilaterals, which subtract first, give 5/2.
* **C132** The derived operators are defined by negation, so vectors with a NaN are both <= and >= and not == (`C132_nan_fails`), unlike the numbers themselves, for which all three are false. iota increments once more than it writes: a range ending with the greatest Int overflows.
* **C133** getPowerData compares the ids with each other only, with `<=`: a set that lists an element twice is accepted, and its values are given to the elements by position (`C133_ids_fails`: power 5/2 instead of 1). The assertion ids[i] == i, which would notice, is compiled out.
* **C134** Without assertions the return value of LAPACK is dropped: for a singular matrix linearSolve returns the right side as the solution (`C134_singular_fails`), and also for a right side with too few rows (`C134_shapes`); a matrix with fewer columns than rows is read past its end.
* **C135** Near a corner a ray that crosses the interior of a box can be missed in double precision (`C135_corner_fails`; the chord is about 1e-16); in a grid one of the neighbours is then hit (`C135_watertight`). Scaling a box by zero can put its corners in the wrong order (`C135_zero_fails`), and a box a few units in the last place wide is not enlarged by a factor 3/2 (`C135_enlarge_fails`).
* **C136** With about 2^p / 2 rays (single precision, nine million) a ray starts outside its box (`C136_outside_fails`); where the spacing is below the precision of the coordinates rays coincide (`C136_same_fails`). In contrast to exact arithmetic (C34) the right angle is no special case: the cosine of the floating-point number is not zero, and one ray starts on the side.
* **C137** A cell of one material does not get the cross section of its material: the area is multiplied in and divided out by a rounded inverse (`C137_uniform_fails`: area 49, absorption 1 becomes 1 - 2^-53, outside the range of the materials). In single precision the assertion of collapseTo1GroupAvg (1e-6, absolute) fails for three groups that scatter within themselves with 19, 21 and 25 (`C137_collapse_assert_fails`).
* **C138** Agreement of the widths to within the tolerance is not enough: two rows of two cells of widths 1 and 1 + 2^-24 (0.6 of the tolerance) make a grid of three columns, because the differences add up (`C138_drift_fails`). In single precision a column of width 3.7e-4, more than three times the tolerance, vanishes after a column of width 8192 (`C138_far_fails`).
* **C139** For enrichments above 49% the relative error of U-238 is not bounded: for the enrichment 0x1.f92e1901a44f5p-1 exact arithmetic has a positive amount and double precision none (`C139_u238_fails`), so that addNuclide reports an invalid number density.
* **C140** The datasets are read with the type of the file as the type of the memory, so that HDF5 does not convert: a big-endian file gives other vertices and coordinates (`C140_big_fails`). Ids beyond 32 bits become other ids (`C140_wrap_fails`). Precisions 1 and 2 are accepted, then a topology is refused and a set left out without a message (`C140_small_fails`). A dataset with more values than Dimensions says, or set data with more values than ids, are written beyond the end of the buffer; missing values are read as zero (`C140_count_fails`).
* **C141** A pin of width 1.26 with 9 columns gets a mesh wider than the pin, one of width 7 with 55 columns a narrower one (`C141_extent_fails`), by one unit in the last place: pins of a lattice overlap or leave gaps. In single precision with more than 2^24 columns divisions coincide (`C141_many_fails`).
* **C142** With `double`, eight divisions and a cell of side 1 (or 1.26, or 1.3), the corner of the cylindrical pin mesh is at (1, 1 - 2^-53) instead of (1, 1) (`C142_corner_fails`): the mesh of a cell does not end exactly at the cell.
* **C143** The computed box of a quadratic segment need not contain the segment, not even its third node: from -1 to -1 through 2^-60 the box ends at 0 (`C143_box_fails`). `C143_box` bounds by how much.
* **C144** A ray through the common node of two edges can be missed by both (`C144_leak_fails`): the origin is subtracted from the first node of each edge with a rounding, and the two parameters become greater than 1 and less than 0.
* **C147** A segment whose third node is far from the middle and close to the chord can have the length NaN although it is not taken to be straight: with `double`, from (0, 0) to (512, 0) through (352, 2^-23) both arguments of the logarithm are zero (`C147_length_fails`). The same segment in the other direction has the length 512. The perimeter of a polygon with such an edge is NaN (`C147_perimeter_none`).
* **C148** `generateMesh` never takes back `Mesh.RecombineAll` and `Mesh.SubdivisionAlgorithm`: in a session in which a mesh of quadrilaterals has been made, asking for triangles makes quadrilaterals (`C148_faces_fails`); calling `initialize` again does not help, closing the session does (`C148_restart`).
* **C150** The loop of `solveCubic` can step over the root it approaches. For `x³ + (2 - 3/2⁵¹) x + 27/2⁹⁰` in double precision (no fused operations, exact cube root) the point after the first step is zero instead of about `-1.1e-26`: the rounding errors of the value and of the quotient exceed the damping factor `1 + eps` that is meant to prevent this. The iteration then stops, because the next step points back, and zero is returned as the only real root; every root is negative (`C150_residual_fails`). The relative error is 100 %, the absolute one is tiny.
* **C151** The half-planes of `isLeft` for a quadratic segment and for its reverse do not complement each other: the parabola is evaluated at `x` from one end and at `l - x` from the other, with different roundings. There are doubles for which a point is on the left of neither (`C151_leak_fails`), so that it is inside none of the two faces that have the edge in common, and others on the left of both (`C151_overlap_fails`).
* **C152** `faceContaining` returns -1 for points inside a mesh of triangles: the two triangles that share an edge compute the side of that edge from different differences, and both reject the double next to (0.1, 0.3) on the edge from (0, 0) to (0.5, 1.5) (`C152_gap_fails`). Meshes of axis-parallel rectangles have no such points (`C152_pin`).
* **C153** The functions of the C interface that return arrays (`um2MPACTCoarseCellHeights`, `um2MPACTCoarseCellFaceData` and others) write through the result of `malloc` without looking at it: without memory they are undefined though the handle is valid (`C153_memory_fails`). A negative size given to `um2Malloc` becomes a request for 2^63 bytes or more (`C153_negative`).
