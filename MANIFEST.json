{
 "claims": [
  {
   "property": "C01",
   "status": "proved",
   "theorems": [
    "Verif.Vector.C01_history",
    "Verif.Vector.C01_copy_move"
   ],
   "note": "All constructors, every history of reserve/resize/clear/push_back/pop_back/assign/element write, copy and move. Requested sizes at most 2^30 (beyond that 2*capacity overflows Int, see C03_growth_range)."
  },
  {
   "property": "C02",
   "status": "partial",
   "theorems": [
    "Verif.Vector.C02_own_element_trivial",
    "Verif.Vector.C02_own_element_partial",
    "Verif.Vector.C02_own_element_fails"
   ],
   "note": "False of the code: pushing an own element onto a full vector of a non-trivially movable type appends a moved-from object (C02_own_element_fails). Proved for trivially movable types, and for any type when the vector is not full."
  },
  {
   "property": "C03",
   "status": "proved",
   "theorems": [
    "Verif.Vector.C03_relocations",
    "Verif.Vector.C03_amortised",
    "Verif.Vector.C03_capacity_monotone",
    "Verif.Vector.C03_growth_range"
   ],
   "note": "For up to 2^30 elements; beyond that the Int computation overflows (C03_growth_range)."
  },
  {
   "property": "C04",
   "status": "proved",
   "theorems": [
    "Verif.Str.C04_history",
    "Verif.Str.C04_inline"
   ],
   "note": "Text, size, terminator and capacity under every history, with memory modelled block by block. Fresh texts of at most 22 characters are inline; every text of 23 or more is on the heap (an assignment may keep a heap buffer for a short text)."
  },
  {
   "property": "C05",
   "status": "proved",
   "theorems": [
    "Verif.Str.C05_ownership",
    "Verif.Str.C05_no_leak"
   ],
   "note": "Every heap block is owned by exactly one live String; destroying all of them frees every block once."
  },
  {
   "property": "C06",
   "status": "partial",
   "theorems": [
    "Verif.StrView.C06_numeric_exact",
    "Verif.StrView.C06_integer",
    "Verif.StrView.C06_float_partial",
    "Verif.StrView.C06_float_fails",
    "Verif.StrView.C06_text"
   ],
   "note": "Integers and floats below 10^23 exactly; false for larger floats, whose text does not fit the 32-byte buffer (C06_float_fails)."
  },
  {
   "property": "C07",
   "status": "partial",
   "theorems": [
    "Verif.StrView.C07_compare",
    "Verif.StrView.C07_operators",
    "Verif.StrView.C07_strict_total",
    "Verif.StrView.C07_unsigned_partial",
    "Verif.StrView.C07_unsigned_fails"
   ],
   "note": "The six operators agree with the lexicographic order of signed characters, a strict total order. With unsigned characters (as std::string) only for ASCII texts; C07_unsigned_fails is a counterexample."
  },
  {
   "property": "C08",
   "status": "proved",
   "theorems": [
    "Verif.StrView.C08_find_first_of",
    "Verif.StrView.C08_find_first_not_of",
    "Verif.StrView.C08_find_last_of",
    "Verif.StrView.C08_find_view",
    "Verif.StrView.C08_prefix_suffix"
   ],
   "note": "All searches, prefix and suffix tests, against index specifications."
  },
  {
   "property": "C09",
   "status": "proved",
   "theorems": [
    "Verif.StrView.C09_fields_spec",
    "Verif.StrView.C09_tokens",
    "Verif.StrView.C09_progress"
   ],
   "note": ""
  },
  {
   "property": "C10",
   "status": "partial",
   "theorems": [
    "Verif.StrView.C10_exact",
    "Verif.StrView.C10_partial",
    "Verif.StrView.C10_naturals_delimited",
    "Verif.StrView.C10_blank_line_fails",
    "Verif.StrView.C10_blank_field_fails"
   ],
   "note": "Exact result on every text (C10_exact). All entries are returned when blank lines/fields occur only at the end; otherwise the rest is silently dropped (C10_blank_line_fails, C10_blank_field_fails). strto is a parameter assumed to stop at the delimiter; C10_naturals_delimited discharges this for decimal naturals."
  },
  {
   "property": "C11",
   "status": "proved",
   "theorems": [
    "Verif.Alg.C11_sort3",
    "Verif.Alg.C11_sort4",
    "Verif.Alg.C11_insertionSort"
   ],
   "note": "Any strict weak order; insertionSort with explicit moved-from slots."
  },
  {
   "property": "C12",
   "status": "proved",
   "theorems": [
    "Verif.Alg.C12_applyPermutation",
    "Verif.Alg.C12_invertPermutation",
    "Verif.Alg.C12_apply_invert",
    "Verif.Alg.C12_sortPermutation_comparator",
    "Verif.Alg.C12_sortPermutation"
   ],
   "note": "std::sort is used through its contract (any conforming result)."
  },
  {
   "property": "C13",
   "status": "proved",
   "theorems": [
    "Verif.Order.C13_vecLt_spec",
    "Verif.Order.C13_vecEq_spec",
    "Verif.Order.C13_vec_strict_total",
    "Verif.Order.C13_pair",
    "Verif.Order.C13_pair_trans",
    "Verif.Order.C13_min_max",
    "Verif.Order.C13_clamp",
    "Verif.Order.C13_lexCompare",
    "Verif.Order.C13_maxElement",
    "Verif.Order.C13_isSorted"
   ],
   "note": "Over any linear order (exact for non-NaN floats)."
  },
  {
   "property": "C14",
   "status": "proved",
   "theorems": [
    "Verif.Morton.C14_pext_pdep",
    "Verif.Morton.C14_pdep_pext",
    "Verif.Morton.C14_encode2_32",
    "Verif.Morton.C14_encode2BMI_32",
    "Verif.Morton.C14_encode3_32",
    "Verif.Morton.C14_encode3BMI_32",
    "Verif.Morton.C14_encode2_agree_32",
    "Verif.Morton.C14_encode3_agree_32",
    "Verif.Morton.C14_decode2_agree_32",
    "Verif.Morton.C14_decode3_agree_32",
    "Verif.Morton.C14_decode3_agree_32_fails",
    "Verif.Morton.C14_encode3_32_lt",
    "Verif.Morton.C14_roundtrip2_32",
    "Verif.Morton.C14_roundtrip3_32",
    "Verif.Morton.C14_roundtrip2BMI_32",
    "Verif.Morton.C14_roundtrip3BMI_32",
    "Verif.Morton.C14_decode2_encode_32",
    "Verif.Morton.C14_encode2_64",
    "Verif.Morton.C14_encode2BMI_64",
    "Verif.Morton.C14_encode3_64",
    "Verif.Morton.C14_encode3BMI_64",
    "Verif.Morton.C14_encode2_agree_64",
    "Verif.Morton.C14_encode3_agree_64",
    "Verif.Morton.C14_decode2_agree_64",
    "Verif.Morton.C14_decode3_agree_64",
    "Verif.Morton.C14_decode3_agree_64_fails",
    "Verif.Morton.C14_encode3_64_lt",
    "Verif.Morton.C14_roundtrip2_64",
    "Verif.Morton.C14_roundtrip3_64",
    "Verif.Morton.C14_roundtrip2BMI_64",
    "Verif.Morton.C14_roundtrip3BMI_64",
    "Verif.Morton.C14_decode2_encode_64"
   ],
   "note": "2D and 3D, 32- and 64-bit, portable and BMI2 code; bit-level specification, round trips, agreement. The 3D decoders agree exactly on the codes an encoder can return; outside that range they differ (C14_decode3_agree_*_fails)."
  },
  {
   "property": "C15",
   "status": "proved",
   "theorems": [
    "Verif.Morton.C15_injective2_32",
    "Verif.Morton.C15_injective3_32",
    "Verif.Morton.C15_monotone2_32",
    "Verif.Morton.C15_monotone3_32",
    "Verif.Morton.C15_injective2_64",
    "Verif.Morton.C15_injective3_64",
    "Verif.Morton.C15_monotone2_64",
    "Verif.Morton.C15_monotone3_64"
   ],
   "note": "Injective and strictly monotone on in-range coordinates; follows for BMI2 by C14 agreement."
  },
  {
   "property": "C16",
   "status": "proved",
   "theorems": [
    "Verif.MortonPoints.C16_code2_monotone",
    "Verif.MortonPoints.C16_code3_monotone",
    "Verif.MortonPoints.C16_code2_cells",
    "Verif.MortonPoints.C16_mortonLess_strictWeak",
    "Verif.MortonPoints.C16_mortonSort",
    "Verif.MortonPoints.C16_mortonSortPermutation"
   ],
   "note": "Exact arithmetic for x*max; std::sort through its contract."
  },
  {
   "property": "C17",
   "status": "partial",
   "theorems": [
    "Verif.Logger.C17_overflow_iff",
    "Verif.Logger.C17_overflow_fails",
    "Verif.Logger.C17_message_partial",
    "Verif.Logger.C17_history_partial",
    "Verif.Logger.C17_timestamp",
    "Verif.Logger.C17_timestamp_fails"
   ],
   "note": "Exact lines, streams, exit and filtering over every message history, for messages that fit; composing overflows the buffer exactly when the line needs more than 256 bytes (C17_overflow_iff), so 'never writes past the buffer' is false (C17_overflow_fails)."
  },
  {
   "property": "C18",
   "status": "proved",
   "theorems": [
    "Verif.Stats.C18_sum",
    "Verif.Stats.C18_mean"
   ],
   "note": "Any additive monoid / field; exact arithmetic."
  },
  {
   "property": "C19",
   "status": "proved",
   "theorems": [
    "Verif.Stats.C19_variance",
    "Verif.Stats.C19_single",
    "Verif.Stats.C19_variance_nonneg",
    "Verif.Stats.C19_stdDev",
    "Verif.Stats.C19_median"
   ],
   "note": "Exact arithmetic; a single value divides by zero."
  },
  {
   "property": "C20",
   "status": "proved",
   "theorems": [
    "Verif.Roots.C20_factor",
    "Verif.Roots.C20_none",
    "Verif.Roots.C20_linear",
    "Verif.Roots.C20_roots"
   ],
   "note": "Exact real arithmetic, including multiplicities (C20_factor)."
  },
  {
   "property": "C21",
   "status": "proved",
   "theorems": [
    "Verif.Roots.C21_deflate",
    "Verif.Roots.C21_roots",
    "Verif.Roots.C21_degenerate"
   ],
   "note": "Given that the Newton loop ends on an exact root (the property's premise; C72 gives it whenever the loop starts not past the extreme root); all other branches unconditionally."
  },
  {
   "property": "C22",
   "status": "partial",
   "theorems": [
    "Verif.Mx.C22_mulVec",
    "Verif.Mx.C22_mul_exact",
    "Verif.Mx.C22_mul_partial",
    "Verif.Mx.C22_mul_fails",
    "Verif.Mx.C22_inv",
    "Verif.Mx.C22_inv_singular",
    "Verif.Mx.C22_rotation"
   ],
   "note": "Matrix-vector product, inverse and rotation for all inputs. The matrix-matrix product is right only for N = P: the loop bound is N instead of P (C22_mul_exact, C22_mul_fails)."
  },
  {
   "property": "C23",
   "status": "partial",
   "theorems": [
    "Verif.Mx.C23_mulVec",
    "Verif.Mx.C23_matmul_exact",
    "Verif.Mx.C23_mul",
    "Verif.Mx.C23_blas",
    "Verif.Mx.C23_matmul_partial",
    "Verif.Mx.C23_matmul_fails"
   ],
   "note": "operator* is the product in both builds, matmul with BLAS too (by the gemm contract); without BLAS matmul adds to the old contents of c (C23_matmul_exact, C23_matmul_fails)."
  },
  {
   "property": "C24",
   "status": "proved",
   "theorems": [
    "Verif.Box.C24_contains",
    "Verif.Box.C24_join",
    "Verif.Box.C24_laws",
    "Verif.Box.C24_empty",
    "Verif.Box.C24_addPoint",
    "Verif.Box.C24_boundingBox",
    "Verif.Box.C24_intersects",
    "Verif.Box.C24_scale",
    "Verif.Box.C24_scale_corners"
   ],
   "note": "Any linear order (exact for non-NaN floats), any dimension."
  },
  {
   "property": "C25",
   "status": "partial",
   "theorems": [
    "Verif.Box.C25_intersect_partial",
    "Verif.Box.C25_face_fails"
   ],
   "note": "Exact chord over an ordered field for parameters up to infDistance, IEEE infinities/NaN modelled; missing: a ray lying exactly in a face plane is reported as a miss (C25_face_fails)."
  },
  {
   "property": "C26",
   "status": "proved",
   "theorems": [
    "Verif.Geom.C26_closest",
    "Verif.Geom.C26_ends"
   ],
   "note": "Exact arithmetic over an ordered field, any dimension."
  },
  {
   "property": "C27",
   "status": "proved",
   "theorems": [
    "Verif.Geom.C27_intersect",
    "Verif.Geom.C27_parallel",
    "Verif.Geom.C27_isLeft",
    "Verif.Geom.C27_polygon"
   ],
   "note": "Exact arithmetic over an ordered field."
  },
  {
   "property": "C28",
   "status": "proved",
   "theorems": [
    "Verif.Geom.C28_area",
    "Verif.Geom.C28_contains",
    "Verif.Geom.C28_maps",
    "Verif.Geom.C28_image",
    "Verif.Geom.C28_flip",
    "Verif.Geom.C28_degenerate_fails"
   ],
   "note": "Exact arithmetic; containment for non-degenerate counter-clockwise triangles (C28_degenerate_fails shows why)."
  },
  {
   "property": "C29",
   "status": "proved",
   "theorems": [
    "Verif.Geom.C29_area",
    "Verif.Geom.C29_maps",
    "Verif.Geom.C29_contains",
    "Verif.Geom.C29_centroid"
   ],
   "note": "Exact arithmetic over an ordered field; the tolerance in quad isCCW is modelled as in the code."
  },
  {
   "property": "C30",
   "status": "proved",
   "theorems": [
    "Verif.Geom.C30_translation",
    "Verif.Geom.C30_rotation",
    "Verif.Geom.C30_reversal",
    "Verif.Geom.C30_cut",
    "Verif.Geom.C30_triangle",
    "Verif.Geom.C30_fan",
    "Verif.Geom.C30_centroid",
    "Verif.Geom.C30_centroid_triangle",
    "Verif.Geom.C30_centroid_cut"
   ],
   "note": "Exact arithmetic over a field, any number of vertices."
  },
  {
   "property": "C31",
   "status": "proved",
   "theorems": [
    "Verif.Geom.C31_interpolate",
    "Verif.Geom.C31_jacobian",
    "Verif.Geom.C31_boundingBox",
    "Verif.Geom.C31_enclosedArea",
    "Verif.Geom.C31_curvesLeft",
    "Verif.Geom.C31_bezier",
    "Verif.Geom.C31_bisection"
   ],
   "note": "Exact arithmetic over the reals; quadratic pointClosestTo/isLeft/intersect are not covered here."
  },
  {
   "property": "C32",
   "status": "proved",
   "theorems": [
    "Verif.Geom.C32_tri6_nodes",
    "Verif.Geom.C32_quad8_nodes",
    "Verif.Geom.C32_tri6_edges",
    "Verif.Geom.C32_quad8_edges",
    "Verif.Geom.C32_tri6_jacobian",
    "Verif.Geom.C32_quad8_jacobian"
   ],
   "note": "Exact arithmetic over a field; Jacobians as derivatives over the reals."
  },
  {
   "property": "C33",
   "status": "partial",
   "theorems": [
    "Verif.Geom.C33_tri",
    "Verif.Geom.C33_quad",
    "Verif.Geom.C33_tri6",
    "Verif.Geom.C33_quad8_partial",
    "Verif.Geom.C33_quad8_fails"
   ],
   "note": "Holds for triangles, quadrilaterals and 6-node triangles; the 8-node quadrilateral flip forgets to exchange nodes 5 and 6 (C33_quad8_fails)."
  },
  {
   "property": "C34",
   "status": "proved",
   "theorems": [
    "Verif.Rays.C34_defined",
    "Verif.Rays.C34_right_angle_undefined",
    "Verif.Rays.C34_origins",
    "Verif.Rays.C34_spacing",
    "Verif.Rays.C34_cyclic"
   ],
   "note": "Exact real arithmetic, all angles in (0,pi) except pi/2 itself (zero rays on the side edges: assertion)."
  },
  {
   "property": "C35",
   "status": "proved",
   "theorems": [
    "Verif.Grid.C35_total",
    "Verif.Grid.C35_flat",
    "Verif.Grid.C35_injective",
    "Verif.Grid.C35_surjective",
    "Verif.Grid.C35_rectilinear"
   ],
   "note": "Any dimension, every 32-bit operation checked for overflow."
  },
  {
   "property": "C36",
   "status": "proved",
   "theorems": [
    "Verif.Grid.C36_tiling",
    "Verif.Grid.C36_centroid",
    "Verif.Grid.C36_index",
    "Verif.Grid.C36_cell"
   ],
   "note": "Exact arithmetic; conversion to Int of points 2^31 or more cells away is undefined and stated."
  },
  {
   "property": "C37",
   "status": "proved",
   "theorems": [
    "Verif.Grid.C37_range",
    "Verif.Grid.C37_undefined"
   ],
   "note": "Exact arithmetic, one axis at a time as in the code; undefined conversions stated."
  },
  {
   "property": "C38",
   "status": "proved",
   "theorems": [
    "Verif.Grid.C38_boxes",
    "Verif.Grid.C38_exact",
    "Verif.Grid.C38_tiling",
    "Verif.Grid.C38_ids",
    "Verif.Grid.C38_undefined"
   ],
   "note": "Exact arithmetic over an ordered field; std::sort through its contract."
  },
  {
   "property": "C39",
   "status": "proved",
   "theorems": [
    "Verif.Grid.C39_partition",
    "Verif.Grid.C39_flatten",
    "Verif.Grid.C39_ragged",
    "Verif.Grid.C39_mapFlat",
    "Verif.Grid.C39_roundtrip",
    "Verif.Grid.C39_coarseGrid"
   ],
   "note": "Any lattice shape; ragged lattices rejected."
  },
  {
   "property": "C40",
   "status": "proved",
   "theorems": [
    "Verif.ElemTypes.C40_table",
    "Verif.ElemTypes.C40_vtk_unsupported",
    "Verif.ElemTypes.C40_xdmf_unsupported",
    "Verif.ElemTypes.C40_vtk_roundtrip",
    "Verif.ElemTypes.C40_xdmf_roundtrip",
    "Verif.ElemTypes.C40_infer_count",
    "Verif.ElemTypes.C40_infer_type",
    "Verif.ElemTypes.C40_infer_edge_fails",
    "Verif.ElemTypes.C40_meshType_perm",
    "Verif.ElemTypes.C40_meshType",
    "Verif.ElemTypes.C40_meshType_code"
   ],
   "note": "All element type tables and mesh type inference. C40_infer_edge_fails: the count-based inference returns Triangle for a quadratic edge (3 vertices); every other supported type is inferred correctly."
  },
  {
   "property": "C41",
   "status": "proved",
   "theorems": [
    "Verif.Mesh.C41_populateVF",
    "Verif.Mesh.C41_membership",
    "Verif.Mesh.C41_out_of_range",
    "Verif.Mesh.C41_flag"
   ],
   "note": "Vertex-face map equals its specification for every mesh with in-range connectivity, and the flag invariant holds over every history of operations."
  },
  {
   "property": "C42",
   "status": "partial",
   "theorems": [
    "Verif.Mesh.C42_sortVertices",
    "Verif.Mesh.C42_sortFaces",
    "Verif.Mesh.C42_sortFaces_undefined",
    "Verif.Mesh.C42_mortonSort",
    "Verif.Mesh.C42_codes_defined",
    "Verif.Mesh.C42_triangles_at_origin",
    "Verif.Mesh.C42_away_from_origin_fails"
   ],
   "note": "Every defined outcome preserves the geometry. C42_away_from_origin_fails: the code scales by the extents without subtracting the lower corner, so a mesh whose bounding box is not at the origin violates the precondition of the Morton encoder (undefined behaviour). Missing: definedness for such meshes, which is false."
  },
  {
   "property": "C43",
   "status": "proved",
   "theorems": [
    "Verif.Mesh.C43_faceContaining",
    "Verif.Mesh.C43_triangles"
   ],
   "note": "First containing face for any containment predicate; for CCW triangles containment is the closed triangle (exact arithmetic)."
  },
  {
   "property": "C44",
   "status": "partial",
   "theorems": [
    "Verif.MeshCheck.C44_accepts_iff",
    "Verif.MeshCheck.C44_terminates",
    "Verif.MeshCheck.C44_undefined_iff",
    "Verif.MeshCheck.C44_oriented_partial",
    "Verif.MeshCheck.C44_mesh_edges",
    "Verif.MeshCheck.C44_overlap_fails"
   ],
   "note": "Exact characterisation of acceptance, termination and undefined outcome. C44_overlap_fails: the check ignores the direction in which an edge is used twice, so overlapping copies of a face are accepted; C44_oriented_partial recovers the property when no directed edge is repeated."
  },
  {
   "property": "C45",
   "status": "proved",
   "theorems": [
    "Verif.RaySort.C45_sorted",
    "Verif.RaySort.C45_intersect",
    "Verif.RaySort.C45_key_first_smallest",
    "Verif.RaySort.C45_key_fails"
   ],
   "note": "Exact arithmetic. C45_key_fails: the sort key is not the documented mean of the two smallest parameters when the first parameter is the smallest; the ordering claim holds regardless."
  },
  {
   "property": "C46",
   "status": "proved",
   "theorems": [
    "Verif.Polytope.C46_step",
    "Verif.Polytope.C46_history",
    "Verif.Polytope.C46_getElement",
    "Verif.Polytope.C46_getElset",
    "Verif.Polytope.C46_getElsetByName",
    "Verif.Polytope.C46_stale_data_fails",
    "Verif.Polytope.C46_elemTypes"
   ],
   "note": "Every history of addVertex/addElement/addElset refines an abstract list of elements and sets. C46_stale_data_fails records that getElset leaves the caller's old data vector in place when the set has no data."
  },
  {
   "property": "C47",
   "status": "partial",
   "theorems": [
    "Verif.Polytope.C47_sortElsets",
    "Verif.Polytope.C47_no_sets_fails"
   ],
   "note": "Full property for every soup with at least one element set. C47_no_sets_fails: without element sets sortElsets reads _elset_offsets[0] of an empty vector (undefined behaviour)."
  },
  {
   "property": "C48",
   "status": "partial",
   "theorems": [
    "Verif.Polytope.C48_append",
    "Verif.Polytope.C48_wellformed_partial",
    "Verif.Polytope.C48_empty_other_fails",
    "Verif.Polytope.C48_self_append_fails",
    "Verif.Polytope.C48_data_mismatch_fails"
   ],
   "note": "Union of vertices, elements and sets for a non-empty other soup. C48_empty_other_fails, C48_self_append_fails and C48_data_mismatch_fails are witnesses where the property is false of the code."
  },
  {
   "property": "C49",
   "status": "proved",
   "theorems": [
    "Verif.Polytope.C49_subset",
    "Verif.Polytope.C49_rejected",
    "Verif.Polytope.C49_nonempty_target_fails"
   ],
   "note": "Sub-mesh extraction into an empty soup for every set with strictly increasing ids; rejected calls leave the target alone. C49_nonempty_target_fails records that a non-empty target gets wrong vertex ids."
  },
  {
   "property": "C50",
   "status": "partial",
   "theorems": [
    "Verif.XDMF.C50_topology_partial",
    "Verif.XDMF.C50_quadratic_edges_fails",
    "Verif.XDMF.C50_code_wrap_fails",
    "Verif.XDMF.C50_lines_fails"
   ],
   "note": "Proved for soups that contain at least one 2D cell or only one kind of readable cell; false of the code otherwise (C50_*_fails): soups of only points or straight edges are not written, soups of only quadratic edges are written but not read back."
  },
  {
   "property": "C51",
   "status": "partial",
   "theorems": [
    "Verif.Abaqus.C51_blank",
    "Verif.Abaqus.C51_line_partial",
    "Verif.Abaqus.C51_block_partial",
    "Verif.Abaqus.C51_no_trailing_comma_fails"
   ],
   "note": "Proved for lines in which every id is followed by a comma, lines under 1024 characters; an id at the end of a line without a comma is dropped (C51_no_trailing_comma_fails)."
  },
  {
   "property": "C52",
   "status": "proved",
   "theorems": [
    "Verif.Nuclide.C52_zaid",
    "Verif.Nuclide.C52_unknown",
    "Verif.Nuclide.C52_injective"
   ],
   "note": "All element symbols, letter case, any mass number, trailing metastable suffix; unknown symbols; injectivity."
  },
  {
   "property": "C53",
   "status": "proved",
   "theorems": [
    "Verif.Phys.C53_tabulated",
    "Verif.Phys.C53_below",
    "Verif.Phys.C53_above",
    "Verif.Phys.C53_linear",
    "Verif.Phys.C53_between",
    "Verif.Phys.C53_continuous"
   ],
   "note": "Over exact reals; sqrt-temperature interpolation at, below, above, between tabulated temperatures, with continuity."
  },
  {
   "property": "C54",
   "status": "proved",
   "theorems": [
    "Verif.Phys.C54_average",
    "Verif.Phys.C54_balance"
   ],
   "note": "One-group collapse as average; scattering balance kept. Exact field arithmetic."
  },
  {
   "property": "C55",
   "status": "proved",
   "theorems": [
    "Verif.Phys.C55_mean",
    "Verif.Phys.C55_bounds",
    "Verif.Phys.C55_uniform",
    "Verif.Phys.C55_balance"
   ],
   "note": "Homogenisation over face areas; areas and per-face material ids are inputs of the model."
  },
  {
   "property": "C56",
   "status": "partial",
   "theorems": [
    "Verif.Phys.C56_table",
    "Verif.Phys.C56_weight",
    "Verif.Phys.C56_weight_total",
    "Verif.Phys.C56_weight_unknown_fails",
    "Verif.Phys.C56_atoms",
    "Verif.Phys.C56_uo2_partial",
    "Verif.Phys.C56_uo2_negative_fails"
   ],
   "note": "Weight and atom-fraction additions conserve mass (exact rationals). setUO2 proved for 1.0135*w <= 1; above that the code produces a negative U-238 density (C56_uo2_negative_fails). Nuclides without tabulated mass are dropped (C56_weight_unknown_fails)."
  },
  {
   "property": "C57",
   "status": "partial",
   "theorems": [
    "Verif.Mpact.C57_valid_partial",
    "Verif.Mpact.C57_uniform",
    "Verif.Mpact.C57_meshless_fails",
    "Verif.Mpact.C57_ragged_fails"
   ],
   "note": "C57_valid_partial and C57_uniform hold for all histories of the add* calls (importCoarseCellMeshes excluded, see C67). Missing: a coarse cell without mesh keeps unchecked material ids (C57_meshless_fails); arrays whose first row is the shortest give an RTM without children (C57_ragged_fails)."
  },
  {
   "property": "C58",
   "status": "partial",
   "theorems": [
    "Verif.Mpact.C58_accepted",
    "Verif.Mpact.C58_rejected_partial",
    "Verif.Mpact.C58_coarseCell",
    "Verif.Mpact.C58_rectangular_fails",
    "Verif.Mpact.C58_pinCell_fails",
    "Verif.Mpact.C58_pinCell_meshless_fails",
    "Verif.Mpact.C58_rtm",
    "Verif.Mpact.C58_lattice",
    "Verif.Mpact.C58_assembly"
   ],
   "note": "C58_accepted for every call; C58_rejected_partial for every call except addRectangularPinMesh and addCylindricalPinCell, for which the claim is false (C58_rectangular_fails, C58_pinCell_fails, C58_pinCell_meshless_fails). Exact acceptance conditions: C58_coarseCell, C58_rtm, C58_lattice, C58_assembly."
  },
  {
   "property": "C59",
   "status": "partial",
   "theorems": [
    "Verif.Mpact.C59_totals",
    "Verif.Mpact.C59_chords_partial",
    "Verif.Mpact.C59_meshless_fails",
    "Verif.Mpact.C59_meshless_ub_fails"
   ],
   "note": "C59_totals is complete (also the overflow case). C59_chords_partial needs every placed coarse cell to have a mesh; otherwise chord lengths are attributed to the wrong fine cell (C59_meshless_fails) or read out of bounds (C59_meshless_ub_fails)."
  },
  {
   "property": "C60",
   "status": "proved",
   "theorems": [
    "Verif.PropsPinTopo.C60_linear",
    "Verif.PropsPinTopo.C60_quadratic"
   ],
   "note": "Every accepted mesh, linear and quadratic: face count, in-range connectivity, no unused vertex, every edge off the boundary in exactly two faces in opposite directions with the same midpoint, boundary one loop of the last na edges."
  },
  {
   "property": "C61",
   "status": "proved",
   "theorems": [
    "Verif.PropsPinArea.C61_linear_rings",
    "Verif.PropsPinArea.C61_linear_total",
    "Verif.PropsPinArea.C61_quadratic_rings",
    "Verif.PropsPinArea.C61_quadratic_total",
    "Verif.PropsPinArea.C61_tolerance"
   ],
   "note": "Exact real arithmetic (Mathlib sqrt, sin, cos, pi). Positive non-decreasing radii (the code does not check the order; with decreasing radii a square root of a negative number is taken). Each face of ring t of region i has area pi(r_i^2 - r_{i-1}^2)/rings_i/num_azi, linear and quadratic; all faces sum to pitch^2 (positive radii only); the eps tests change nothing when eps is below every non-zero value that occurs (C61_tolerance)."
  },
  {
   "property": "C62",
   "status": "proved",
   "theorems": [
    "Verif.PropsRectPin.C62_boxes",
    "Verif.PropsRectPin.C62_conforming",
    "Verif.PropsRectPin.C62_cover",
    "Verif.PropsRectPin.C62_disjoint",
    "Verif.PropsRectPin.C62_area",
    "Verif.PropsRectPin.C62_accepts"
   ],
   "note": "Boxes of the grid row by row, counterclockwise, equal areas, cover, disjoint interiors, total area, conforming topology with the perimeter as boundary, acceptance condition. validate() (no effect on counterclockwise boxes) is left out."
  },
  {
   "property": "C63",
   "status": "proved",
   "theorems": [
    "Verif.Names.C63_number",
    "Verif.Names.C63_injective",
    "Verif.Names.C63_increment",
    "Verif.Names.C63_sequential",
    "Verif.Names.C63_count",
    "Verif.Names.C63_overflow_fails",
    "Verif.Names.C63_nines_fails",
    "Verif.Names.C63_wrap_fails"
   ],
   "note": "Decimal names for all n < 100000, any prefix; increment proved for numbers of any width. Behaviour outside: C63_overflow_fails, C63_nines_fails, C63_wrap_fails (outside the stated range)."
  },
  {
   "property": "C64",
   "status": "partial",
   "theorems": [
    "Verif.PropsModelXdmf.C64_roundtrip_partial",
    "Verif.PropsModelXdmf.C64_corrected",
    "Verif.PropsModelXdmf.C64_flatten",
    "Verif.PropsModelXdmf.C64_moves",
    "Verif.PropsModelXdmf.C64_two_lattices_fails",
    "Verif.PropsModelXdmf.C64_exchanged_fails"
   ],
   "note": "Writer and reader of the tree (names, NX_by_NY texts, z ranges, tables) are modelled. The round trip is proved for models in which lattice i is used only in assembly i (C64_roundtrip_partial); for other models it is false because model.cpp 2599 stores the assembly id (C64_two_lattices_fails: out-of-bounds; C64_exchanged_fails: wrong table). With that line corrected it holds for all models whose objects are all used (C64_corrected)."
  },
  {
   "property": "C65",
   "status": "partial",
   "theorems": [
    "Verif.PropsPower.C65_components_partial",
    "Verif.PropsPower.C65_short",
    "Verif.PropsPower.C65_exact",
    "Verif.PropsPower.C65_large",
    "Verif.PropsPower.C65_kinds",
    "Verif.PropsPower.C65_tolerance_fails",
    "Verif.Power.C65_tri",
    "Verif.Power.C65_quad",
    "Verif.Power.C65_tri6",
    "Verif.Power.C65_quad8"
   ],
   "note": "One entry per connected component, power and centroid of each component, total power, in exact arithmetic, for all four face types, for every mesh where close vertices are close relative to the size of the faces (C65_exact: close vertices coincide; C65_large: faces extend at least 1e-3). Missing: for smaller faces with a gap the claim is false (C65_tolerance_fails)."
  },
  {
   "property": "C66",
   "status": "partial",
   "theorems": [
    "Verif.Heights.C66_listing",
    "Verif.Heights.C66_assembly",
    "Verif.Heights.C66_cycle_fails",
    "Verif.Heights.C66_order_partial",
    "Verif.Heights.C66_sorted_partial"
   ],
   "note": "C66_cycle_fails: the comparator is not an order for any tolerance. C66_order_partial and C66_sorted_partial hold when closeness of heights is transitive; C66_listing and C66_assembly (contents before sorting) are complete."
  },
  {
   "property": "C67",
   "status": "partial",
   "theorems": [
    "Verif.Mpact.C67_pinCell_partial",
    "Verif.Mpact.C67_import_range",
    "Verif.Mpact.C67_import_partial",
    "Verif.Mpact.C67_import_alias_fails",
    "Verif.Mpact.C67_import_negative_fails",
    "Verif.Mpact.C67_import_255_fails",
    "Verif.Mpact.C67_pinCell_alias_fails",
    "Verif.Mpact.C67_pinCell_128_fails",
    "Verif.Mpact.C67_import_abort_fails"
   ],
   "note": "Proved for at most 128 materials (C67_pinCell_partial, C67_import_partial); false for more: ids are truncated to 8 signed bits (C67_*_fails)."
  },
  {
   "property": "C68",
   "status": "proved",
   "theorems": [
    "Verif.Geom.C68_tri6_area",
    "Verif.Geom.C68_quad8_area",
    "Verif.Geom.C68_tri6_flip",
    "Verif.Geom.C68_tri6_det",
    "Verif.Geom.C68_quad8_det",
    "Verif.Geom.C68_enclosedCentroid",
    "Verif.Geom.C68_tri6_centroid",
    "Verif.Geom.C68_quad8_centroid"
   ],
   "note": "Exact arithmetic over the reals; equality with Green boundary integrals and, for area, with the double integral of det J."
  },
  {
   "property": "C69",
   "status": "partial",
   "theorems": [
    "Verif.XDMF.C69_grid_partial",
    "Verif.XDMF.C69_vertices",
    "Verif.XDMF.C69_name_clash_fails",
    "Verif.XDMF.C69_flat_fails"
   ],
   "note": "Proved for grids of readable element types, set names that do not clash with the reserved dataset names, vertices not flattened; the exceptions are false of the code (C69_*_fails)."
  },
  {
   "property": "C70",
   "status": "partial",
   "theorems": [
    "Verif.Abaqus.C70_lines_partial",
    "Verif.Abaqus.C70_long_line",
    "Verif.Abaqus.C70_file_partial",
    "Verif.Abaqus.C70_unsupported_fails",
    "Verif.Abaqus.C70_long_line_fails",
    "Verif.Abaqus.C70_wrap_fails"
   ],
   "note": "Proved for files of the form *NODE, *ELEMENT type=CPS3/4/6/8 sections, *ELSET sections with every line under 1024 characters. Unsupported element types become one-vertex elements (C70_unsupported_fails) and a long line silently ends the file (C70_long_line_fails). strto<Float> is a parameter. Ids beyond 32 bits wrap around (C70_wrap_fails)."
  },
  {
   "property": "C71",
   "status": "partial",
   "theorems": [
    "Verif.Phys.C71_sum",
    "Verif.Phys.C71_interp_balance",
    "Verif.Phys.C71_balance",
    "Verif.Phys.C71_unknown_fails"
   ],
   "note": "Proved for materials whose nuclides are all in the library; a ZAID missing there silently uses the first nuclide (C71_unknown_fails)."
  },
  {
   "property": "C72",
   "status": "partial",
   "theorems": [
    "Verif.Roots.C72_eval",
    "Verif.Roots.C72_start",
    "Verif.Roots.C72_stops",
    "Verif.Roots.C72_converges",
    "Verif.Roots.C72_roots",
    "Verif.Roots.C72_start_partial",
    "Verif.Roots.C72_lambda_fails"
   ],
   "note": "Everything proved for a factor lambda with lambda^3 >= lambda + 1 or a start that is not past the root; the literal in the code misses this by 10^-19 relative (C72_start_partial) and then stops on a non-root (C72_lambda_fails)."
  },
  {
   "property": "C73",
   "status": "proved",
   "theorems": [
    "Verif.Geom.C73_intersect",
    "Verif.Geom.C73_polygon"
   ],
   "note": "Exact real arithmetic; rays along a straight curve excluded by hypothesis."
  },
  {
   "property": "C74",
   "status": "partial",
   "theorems": [
    "Verif.Geom.C74_length",
    "Verif.Geom.C74_straight",
    "Verif.Geom.C74_perimeter",
    "Verif.Geom.C74_collinear_fails",
    "Verif.Geom.C74_overshoot_fails"
   ],
   "note": "Proved for vertices not on a line, and for straight segments with the middle vertex in the middle half of the chord; false for other collinear vertices (C74_collinear_fails, C74_overshoot_fails)."
  },
  {
   "property": "C75",
   "status": "partial",
   "theorems": [
    "Verif.Geom.C75_closest",
    "Verif.Geom.C75_straight",
    "Verif.Geom.C75_straight_fails"
   ],
   "note": "Proved for segments that are not straight (the solver finding all roots, which solveCubic_finds derives from C72) and straight ones with the middle vertex at the midpoint; false for other straight segments (C75_straight_fails)."
  },
  {
   "property": "C76",
   "status": "proved",
   "theorems": [
    "Verif.Geom.C76_isLeft",
    "Verif.Geom.C76_straight",
    "Verif.Geom.C76_on_curve"
   ],
   "note": "Exact arithmetic; region between curve and chord = convex hull of the curve. Points on the curve itself are excluded because the code answers them inconsistently (C76_on_curve)."
  },
  {
   "property": "C77",
   "status": "partial",
   "theorems": [
    "Verif.Geom.C77_left_of_all",
    "Verif.Geom.C77_contains_partial",
    "Verif.Geom.C77_lean_fails"
   ],
   "note": "Proved when outward bulges stay left of the other chords and out of the inward bulges (C77_contains_partial); false without that (C77_lean_fails)."
  },
  {
   "property": "C78",
   "status": "partial",
   "theorems": [
    "Verif.QCross.C78_sound",
    "Verif.QCross.C78_distinct",
    "Verif.QCross.C78_agree",
    "Verif.QCross.C78_keeps_partial",
    "Verif.QCross.C78_straight",
    "Verif.QCross.C78_parallel",
    "Verif.QCross.C78_self",
    "Verif.QCross.C78_straight_polygon",
    "Verif.QCross.C78_fix",
    "Verif.QCross.C78_fix_none_fails",
    "Verif.QCross.C78_miss_fails",
    "Verif.QCross.C78_false_fails",
    "Verif.QCross.C78_bowtie_fails",
    "Verif.QCross.C78_four_fails"
   ],
   "note": "Soundness up to the tolerance, distinctness, agreement with intersects(), completeness of the search up to Newton's method, the exact result for straight segments and the effect of the repair are proved. That every crossing is found, that nothing else is reported and that self-intersections are detected is false of the code (C78_miss_fails, C78_false_fails, C78_bowtie_fails)."
  },
  {
   "property": "C79",
   "status": "partial",
   "theorems": [
    "Verif.Source.C79_source_partial",
    "Verif.Source.C79_rejects",
    "Verif.Source.C79_order_fails",
    "Verif.Source.C79_missing_fails",
    "Verif.Source.C79_names_fails",
    "Verif.Source.C79_material_fails",
    "Verif.Source.C79_convert"
   ],
   "note": "Proved for sets in element order with all groups present, up to 999 groups; false otherwise (C79_*_fails)."
  },
  {
   "property": "C80",
   "status": "partial",
   "theorems": [
    "Verif.Cmfd.C80_cell",
    "Verif.Cmfd.C80_flux_exists",
    "Verif.Cmfd.C80_sweep_partial",
    "Verif.Cmfd.C80_coarse",
    "Verif.Cmfd.C80_cells",
    "Verif.Cmfd.C80_diffusion",
    "Verif.Cmfd.C80_omega",
    "Verif.Cmfd.C80_radius",
    "Verif.Cmfd.C80_c1_fails",
    "Verif.Cmfd.C80_one_cell_fails",
    "Verif.Cmfd.C80_sigma_fails"
   ],
   "note": "Exact arithmetic; LAPACK solver = inverse matrix (shown regular), eigenvalues and quadrature are parameters. The meaning of the sweep is proved for two or more fine cells and Σ_t = 1 (C80_sweep_partial); for other Σ_t, one cell and c = 1 it is false (C80_*_fails)."
  },
  {
   "property": "C81",
   "status": "partial",
   "theorems": [
    "Verif.XSLib.C81_read_partial",
    "Verif.XSLib.C81_table",
    "Verif.XSLib.C81_unsound",
    "Verif.XSLib.C81_missing_fails",
    "Verif.XSLib.C81_extra_fails",
    "Verif.XSLib.C81_stream",
    "Verif.XSLib.C81_rejects",
    "Verif.XSLib.C81_trailing_fails",
    "Verif.XSLib.C81_columns"
   ],
   "note": "True for blocks whose lines (but the last) end in at most one blank and a right number of nuclides; false otherwise (C81_trailing_fails, C81_missing_fails, C81_extra_fails)."
  },
  {
   "property": "C82",
   "status": "partial",
   "theorems": [
    "Verif.Mesh.C82_of_soup_partial",
    "Verif.Mesh.C82_to_soup",
    "Verif.Mesh.C82_round_trip",
    "Verif.Mesh.C82_rejects",
    "Verif.Mesh.C82_nonplanar_fails",
    "Verif.Mesh.C82_types"
   ],
   "note": "Proved for planar soups; a vertex at another height loses the vertices after it (C82_nonplanar_fails)."
  },
  {
   "property": "C83",
   "status": "partial",
   "theorems": [
    "Verif.Mesh.C83_pass",
    "Verif.Mesh.C83_triangles",
    "Verif.Mesh.C83_quads_partial",
    "Verif.Mesh.C83_tri6",
    "Verif.Mesh.C83_dart_fails",
    "Verif.Mesh.C83_quad8_fails"
   ],
   "note": "Proved for triangles, quadratic triangles and convex quadrilaterals; false of darts and quadratic quadrilaterals (C83_dart_fails, C83_quad8_fails)."
  },
  {
   "property": "C84",
   "status": "partial",
   "theorems": [
    "Verif.VTKFile.C84_read_partial",
    "Verif.VTKFile.C84_words",
    "Verif.VTKFile.C84_edge_fails",
    "Verif.VTKFile.C84_refused",
    "Verif.VTKFile.C84_lossless",
    "Verif.VTKFile.C84_long_line_fails",
    "Verif.VTKFile.C84_sound",
    "Verif.VTKFile.C84_two_points_fails",
    "Verif.VTKFile.C84_planar_fails",
    "Verif.VTKFile.C84_no_blank_fails",
    "Verif.VTKFile.C84_adjacent_fails",
    "Verif.VTKFile.C84_second_array_fails",
    "Verif.VTKFile.C84_missing_fails",
    "Verif.VTKFile.C84_count_fails",
    "Verif.VTKFile.C84_pentagon_fails"
   ],
   "note": "Proved for files as MPACT writes them, with cells whose type follows from the number of vertices; false of quadratic edges and of several layouts that the format allows (C84_..._fails)."
  },
  {
   "property": "C85",
   "status": "proved",
   "theorems": [
    "Verif.Polytope.C85_code",
    "Verif.Polytope.C85_equal",
    "Verif.Polytope.C85_symm",
    "Verif.Polytope.C85_not_transitive",
    "Verif.Polytope.C85_order"
   ],
   "note": "Float arithmetic is exact (an ordered field)."
  },
  {
   "property": "C86",
   "status": "partial",
   "theorems": [
    "Verif.CmfdInfo.C86_info_partial",
    "Verif.CmfdInfo.C86_checks",
    "Verif.CmfdInfo.C86_unused_fails",
    "Verif.CmfdInfo.C86_void_fails"
   ],
   "note": "Proved for models whose coarse cells are all in the core and not void; the two failures are theorems. Exact arithmetic; the spectral radius is a parameter."
  },
  {
   "property": "C87",
   "status": "partial",
   "theorems": [
    "Verif.MFiles.C87_volumes_partial",
    "Verif.MFiles.C87_unused_fails",
    "Verif.MFiles.C87_conserve",
    "Verif.MFiles.C87_index",
    "Verif.MFiles.C87_chord_partial",
    "Verif.MFiles.C87_nothing_fails",
    "Verif.MFiles.C87_text"
   ],
   "note": "Volumes for models in which every material is used; index for cores with faces; the failures are theorems. Exact arithmetic."
  },
  {
   "property": "C88",
   "status": "partial",
   "theorems": [
    "Verif.MFiles.C88_name",
    "Verif.MFiles.C88_input_partial",
    "Verif.MFiles.C88_void_fails",
    "Verif.MFiles.C88_xs_partial",
    "Verif.MFiles.C88_groups_fails",
    "Verif.MFiles.C88_more_fails"
   ],
   "note": "Input file for materials with nuclides, cross section file for equal numbers of groups; the failures are theorems."
  },
  {
   "property": "C89",
   "status": "proved",
   "theorems": [
    "Verif.GmshGroups.C89_check",
    "Verif.GmshGroups.C89_check_defined",
    "Verif.GmshGroups.C89_groups",
    "Verif.GmshGroups.C89_members",
    "Verif.GmshGroups.C89_defined",
    "Verif.GmshGroups.C89_region",
    "Verif.GmshGroups.C89_fragment",
    "Verif.GmshGroups.C89_intersect",
    "Verif.GmshGroups.C89_cut",
    "Verif.GmshGroups.C89_add",
    "Verif.GmshGroups.C89_add_defined"
   ],
   "note": "assumes the stated behaviour of Gmsh; tags as integers"
  },
  {
   "property": "C90",
   "status": "partial",
   "theorems": [
    "Verif.GmshGroups.C90_hierarchy",
    "Verif.GmshGroups.C90_groups",
    "Verif.GmshGroups.C90_once",
    "Verif.GmshGroups.C90_kept",
    "Verif.GmshGroups.C90_region",
    "Verif.GmshGroups.C90_color",
    "Verif.GmshGroups.C90_defined",
    "Verif.GmshGroups.C90_twice_fails",
    "Verif.GmshGroups.C90_names_fails",
    "Verif.GmshGroups.C90_none_fails"
   ],
   "note": "proved for lists of distinct materials and distinct group names; false otherwise (C90_twice_fails, C90_names_fails), undefined if no group remains (C90_none_fails)"
  },
  {
   "property": "C91",
   "status": "partial",
   "theorems": [
    "Verif.OverlayGrid.C91_first_partial",
    "Verif.OverlayGrid.C91_unplaced_fails",
    "Verif.OverlayGrid.C91_apart",
    "Verif.OverlayGrid.C91_tolerance_fails"
   ],
   "note": "undefined for a coarse cell that stands nowhere (C91_unplaced_fails); disjointness needs modules that fit exactly (C91_tolerance_fails)"
  },
  {
   "property": "C92",
   "status": "proved",
   "theorems": [
    "Verif.OverlayGroups.C92_defined",
    "Verif.OverlayGroups.C92_removed",
    "Verif.OverlayGroups.C92_wf",
    "Verif.OverlayGroups.C92_cells",
    "Verif.OverlayGroups.C92_fill",
    "Verif.OverlayGroups.C92_one",
    "Verif.OverlayGroups.C92_keeps",
    "Verif.OverlayGroups.C92_rest",
    "Verif.OverlayGroups.C92_region",
    "Verif.OverlayGroups.C92_color",
    "Verif.OverlayGroups.C92_name_fails",
    "Verif.OverlayGroups.C92_swap_fails",
    "Verif.OverlayGroups.C92_again_fails"
   ],
   "note": "under the conditions of `Setting`; C92_name_fails, C92_swap_fails, C92_again_fails show the cases outside"
  },
  {
   "property": "C93",
   "status": "proved",
   "theorems": [
    "Verif.OverlaySurfaces.C93_defined",
    "Verif.OverlaySurfaces.C93_removed",
    "Verif.OverlaySurfaces.C93_groups",
    "Verif.OverlaySurfaces.C93_one",
    "Verif.OverlaySurfaces.C93_whole",
    "Verif.OverlaySurfaces.C93_shared_fails"
   ],
   "note": "a surface between two volumes of the grid is in both cells (C93_shared_fails)"
  },
  {
   "property": "C94",
   "status": "proved",
   "theorems": [
    "Verif.PinsP.C94_accepts",
    "Verif.PinsP.C94_pin",
    "Verif.PinsP.C94_points",
    "Verif.PinsP.C94_equal_fails"
   ],
   "note": "Equal radii are accepted although the error message says strictly increasing (C94_equal_fails)."
  },
  {
   "property": "C95",
   "status": "proved",
   "theorems": [
    "Verif.PinsP.C95_lattice",
    "Verif.PinsP.C95_refuses",
    "Verif.PinsP.C95_points",
    "Verif.PinsP.C95_radii_fails",
    "Verif.PinsP.C95_materials_fails",
    "Verif.PinsP.C95_empty_fails"
   ],
   "note": "The function checks neither the radii, nor the number of materials of a pin, nor that there is a row: C95_radii_fails, C95_materials_fails, C95_empty_fails."
  },
  {
   "property": "C96",
   "status": "partial",
   "theorems": [
    "Verif.InfoSpec.C96_roundtrip",
    "Verif.InfoSpec.C96_colors",
    "Verif.InfoSpec.C96_numbers",
    "Verif.InfoSpec.C96_name",
    "Verif.InfoSpec.C96_quote_fails",
    "Verif.InfoSpec.C96_tags_fails",
    "Verif.InfoSpec.C96_curve_fails",
    "Verif.InfoSpec.C96_folder_fails",
    "Verif.InfoSpec.C96_number",
    "Verif.InfoSpec.C96_short_fails",
    "Verif.InfoSpec.C96_sorted",
    "Verif.InfoSpec.C96_stream"
   ],
   "note": "for names without quotation mark and newline; what is not kept: C96_quote_fails, C96_tags_fails, C96_curve_fails, C96_folder_fails, C96_short_fails"
  },
  {
   "property": "C97",
   "status": "partial",
   "theorems": [
    "Verif.KnSpec.C97_accepted",
    "Verif.KnSpec.C97_size",
    "Verif.KnSpec.C97_cover",
    "Verif.KnSpec.C97_knudsen",
    "Verif.KnSpec.C97_growth",
    "Verif.KnSpec.C97_text",
    "Verif.KnSpec.C97_same_fails"
   ],
   "note": "For materials with different names everything is proved. Without that condition the claim is false (C97_same_fails). Exact arithmetic; fields of Gmsh are modelled by their documented functions."
  },
  {
   "property": "C98",
   "status": "proved",
   "theorems": [
    "Verif.Cmfd.C98_points",
    "Verif.Cmfd.C98_exact",
    "Verif.Cmfd.C98_rounded",
    "Verif.Cmfd.C98_any",
    "Verif.Cmfd.C98_roots",
    "Verif.Cmfd.C98_angles"
   ],
   "note": "The decimal literals are taken exactly; C98_rounded covers any rounding to Float."
  },
  {
   "property": "C99",
   "status": "partial",
   "theorems": [
    "Verif.ModelSoup.C99_soup_partial",
    "Verif.ModelSoup.C99_many_fails",
    "Verif.ModelSoup.C99_refused"
   ],
   "note": "C99_soup_partial needs every object at no more than 100000 places; beyond that the property is false (C99_many_fails). Numbers are exact; the mean chord length of a face is an argument."
  },
  {
   "property": "C100",
   "status": "partial",
   "theorems": [
    "Verif.SelfFix.C100_clean",
    "Verif.SelfFix.C100_unchanged",
    "Verif.SelfFix.C100_extent_partial",
    "Verif.SelfFix.C100_defined",
    "Verif.SelfFix.C100_message",
    "Verif.SelfFix.C100_validate_partial",
    "Verif.SelfFix.C100_endless_fails",
    "Verif.SelfFix.C100_boundary_fails"
   ],
   "note": "False as stated: the validation need not end (C100_endless_fails) and may move the boundary (C100_boundary_fails). Proved: what holds when it ends (C100_clean, C100_validate_partial for triangles, C100_extent_partial), and that it is defined (C100_defined). Exact arithmetic."
  },
  {
   "property": "C101",
   "status": "partial",
   "theorems": [
    "Verif.XSValid.C101_returns",
    "Verif.XSValid.C101_silent",
    "Verif.XSValid.C101_warnings",
    "Verif.XSValid.C101_defined_partial",
    "Verif.XSValid.C101_exit_fails",
    "Verif.XSValid.C101_matrix_fails",
    "Verif.XSValid.C101_properties",
    "Verif.XSValid.C101_xsec",
    "Verif.XSValid.C101_collapse",
    "Verif.XSValid.C101_medium",
    "Verif.XSValid.C101_c5g7",
    "Verif.XSValid.C101_c5g7_medium",
    "Verif.XSValid.C101_c5g7_materials"
   ],
   "note": "False as stated for reads beyond a vector: with exit_on_error off (C101_exit_fails), or when the data of the matrix were replaced by fewer values (C101_matrix_fails); otherwise no such read (C101_defined_partial). Everything else is proved. Exact arithmetic."
  },
  {
   "property": "C102",
   "status": "proved",
   "theorems": [
    "Verif.CoarseGrid.C102_grid",
    "Verif.CoarseGrid.C102_tiles",
    "Verif.CoarseGrid.C102_cover",
    "Verif.CoarseGrid.C102_rejected",
    "Verif.CoarseGrid.C102_used_fails"
   ],
   "note": "For models without cells, which the assertions ask for (C102_used_fails otherwise), and cells not narrower than the tolerance for distances. Exact arithmetic."
  },
  {
   "property": "C103",
   "status": "proved",
   "theorems": [
    "Verif.Post.C103_text",
    "Verif.Post.C103_unique",
    "Verif.Post.C103_exact",
    "Verif.Post.C103_collision_fails",
    "Verif.Post.C103_zero_fails",
    "Verif.Post.C103_lines"
   ],
   "note": "The claim that the value can be got back is made, and proved, for multiples of 2^-53 only; the failure otherwise is C103_collision_fails and C103_zero_fails."
  },
  {
   "property": "C104",
   "status": "partial",
   "theorems": [
    "Verif.Post.C104_chords_partial",
    "Verif.Post.C104_elements_partial",
    "Verif.Post.C104_edges_partial",
    "Verif.Post.C104_unplaced_fails"
   ],
   "note": "Needs every coarse cell to have a mesh; C104_unplaced_fails shows the refusal otherwise."
  },
  {
   "property": "C105",
   "status": "partial",
   "theorems": [
    "Verif.Post.C105_spectrum_partial",
    "Verif.Post.C105_ids_fails",
    "Verif.Post.C105_limit_fails",
    "Verif.Post.C105_kinds",
    "Verif.Post.C105_info_partial",
    "Verif.Post.C105_repeat_fails",
    "Verif.Post.C105_written_partial",
    "Verif.Post.C105_powers"
   ],
   "note": "False of the code for flux sets on part of the elements, for 1000 groups, and for missing families: C105_ids_fails, C105_limit_fails, C105_repeat_fails."
  },
  {
   "property": "C106",
   "status": "partial",
   "theorems": [
    "Verif.Source.C106_sources_partial",
    "Verif.Source.C106_again_fails",
    "Verif.Source.C106_rejects"
   ],
   "note": "false for files that already have a source set (C106_again_fails)"
  },
  {
   "property": "C107",
   "status": "proved",
   "theorems": [
    "Verif.ProgramsP.C107_points",
    "Verif.ProgramsP.C107_lattices",
    "Verif.ProgramsP.C107_fragments"
   ],
   "note": "exact arithmetic; the geometry kernel is assumed to fragment correctly (Fragments)"
  },
  {
   "property": "C108",
   "status": "proved",
   "theorems": [
    "Verif.C5G7P.C108_c5g7"
   ],
   "note": "exact arithmetic; mesh generation is not modelled"
  },
  {
   "property": "C109",
   "status": "proved",
   "theorems": [
    "Verif.CrocusP.C109_counts",
    "Verif.CrocusP.C109_apart",
    "Verif.CrocusP.C109_crocus"
   ],
   "note": "exact arithmetic; mesh generation is not modelled"
  },
  {
   "property": "C110",
   "status": "partial",
   "theorems": [
    "Verif.Vera4P.C110_vera4_partial",
    "Verif.Vera4P.C110_tubes_fails"
   ],
   "note": "the pins, their places and the moderator between them are proved for both programs; that the rods leave the guide tubes in place is false of the code (C110_tubes_fails); exact arithmetic; mesh generation is not modelled"
  },
  {
   "property": "C111",
   "status": "partial",
   "theorems": [
    "Verif.ModularP.C111_modular",
    "Verif.Vera4MP.C111_vera4",
    "Verif.Vera4MP.C111_same_pins_fails"
   ],
   "note": "the general theorem and the core of the advanced-mesh program are proved; that it has the pins of the variable-grid program is false of the code (C111_same_pins_fails); exact arithmetic; mesh generation is not modelled"
  },
  {
   "property": "C112",
   "status": "partial",
   "theorems": [
    "Verif.PropsPinAccept.C112_factors",
    "Verif.PropsPinAccept.C112_linear_partial",
    "Verif.PropsPinAccept.C112_quadratic_partial",
    "Verif.PropsPinAccept.C112_finer",
    "Verif.PropsPinAccept.C112_half_pitch_fails",
    "Verif.PropsPinAccept.C112_tolerance_linear",
    "Verif.PropsPinAccept.C112_tolerance_quadratic"
   ],
   "note": "the exact condition is proved for both orders; that radii less than half the pitch suffice is false of the code (C112_half_pitch_fails); real arithmetic"
  },
  {
   "property": "C113",
   "status": "proved",
   "theorems": [
    "Verif.C5G7CoreP.C113_c5g7"
   ],
   "note": "real arithmetic; the areas of the faces between the last ring and the sides of the cell are proved in sum"
  },
  {
   "property": "C114",
   "status": "partial",
   "theorems": [
    "Verif.NuscaleP.C114_nuscale_partial",
    "Verif.NuscaleP.C114_pitch_fails",
    "Verif.NuscaleP.C114_gad_fails",
    "Verif.NuscaleP.C114_fragments",
    "Verif.NuscaleP.C114_cutting"
   ],
   "note": "false of the code for the assembly pitch and the gadolinia pins of A06, with witnesses; proved for the positions and pins as built"
  },
  {
   "property": "C115",
   "status": "partial",
   "theorems": [
    "Verif.CApi.C115_walk",
    "Verif.CApi.C115_fine_cells",
    "Verif.CApi.C115_areas",
    "Verif.CApi.C115_materials",
    "Verif.CApi.C115_faces_partial",
    "Verif.CApi.C115_containing",
    "Verif.CApi.C115_centroid",
    "Verif.CApi.C115_intersect",
    "Verif.CApi.C115_face_data",
    "Verif.CApi.C115_sizes",
    "Verif.CApi.C115_meshless_fails",
    "Verif.CApi.C115_meshless_refused"
   ],
   "note": "false of the code for cells without mesh, with a witness; proved for cells with a mesh"
  },
  {
   "property": "C116",
   "status": "partial",
   "theorems": [
    "Verif.XdmfFiles.C116_beside",
    "Verif.XdmfFiles.C116_round_trip_partial",
    "Verif.XdmfFiles.C116_unnamed",
    "Verif.XdmfFiles.C116_renamed",
    "Verif.XdmfFiles.C116_moved_partial",
    "Verif.XdmfFiles.C116_formats",
    "Verif.XdmfFiles.C116_root_fails",
    "Verif.XdmfFiles.C116_renamed_fails"
   ],
   "note": "moving is false of the code for pairs written in the root directory, with a witness; proved for all others"
  },
  {
   "property": "C117",
   "status": "partial",
   "theorems": [
    "Verif.FnrP.C117_core",
    "Verif.FnrP.C117_rows",
    "Verif.FnrP.C117_single",
    "Verif.FnrP.C117_whole",
    "Verif.FnrP.C117_single_whole",
    "Verif.FnrP.C117_clad",
    "Verif.FnrP.C117_meat_partial",
    "Verif.FnrP.C117_meat_fails",
    "Verif.FnrP.C117_enrichment_fails",
    "Verif.FnrP.C117_weights_fails"
   ],
   "note": "the drawing is proved in full; the claims on the thickness of the meat and on the enrichment are false of the code, with witnesses"
  },
  {
   "property": "C118",
   "status": "partial",
   "theorems": [
    "Verif.Vera1P.C118_cell",
    "Verif.Vera1P.C118_densities",
    "Verif.Vera1P.C118_compositions",
    "Verif.Vera1P.C118_isotopes",
    "Verif.Vera1P.C118_helium_fails"
   ],
   "note": "the geometry is proved in full; the claim on the density of the helium is false of the code, with a witness"
  },
  {
   "property": "C119",
   "status": "partial",
   "theorems": [
    "Verif.SveaP.C119_assembly_partial",
    "Verif.SveaP.C119_frame",
    "Verif.SveaP.C119_order",
    "Verif.SveaP.C119_order_fails"
   ],
   "note": "proved if the kernel returns the coolant before the water (`C119_assembly_partial`, such an answer exists: `C119_order`); without it the pins, the box and the outside are right (`C119_frame`); an answer for which the claim is false is given by `C119_order_fails`"
  },
  {
   "property": "C120",
   "status": "proved",
   "theorems": [
    "Verif.FpGeomP.C120_sign",
    "Verif.FpGeomP.C120_error",
    "Verif.FpGeomP.C120_cross",
    "Verif.FpGeomP.C120_inverse"
   ],
   "note": ""
  },
  {
   "property": "C121",
   "status": "partial",
   "theorems": [
    "Verif.FpGeomP.C121_orientation_partial",
    "Verif.FpGeomP.C121_triangle_partial",
    "Verif.FpGeomP.C121_gap_fails",
    "Verif.FpGeomP.C121_error",
    "Verif.FpGeomP.C121_approx_partial",
    "Verif.FpGeomP.C121_eps",
    "Verif.FpGeomP.C121_approx_double",
    "Verif.FpGeomP.C121_approx_fails"
   ],
   "note": "exact for points whose differences are representable, e.g. on a common binary grid (`C121_orientation_partial`, `C121_triangle_partial`); false in general (`C121_gap_fails`), the error is bounded by `C121_error`; the tolerant test is right in double precision for coordinates up to 4096 (`C121_approx_double`), in single precision it is not (`C121_approx_fails`)"
  },
  {
   "property": "C122",
   "status": "proved",
   "theorems": [
    "Verif.FpRootsP.C122_none",
    "Verif.FpRootsP.C122_roots",
    "Verif.FpRootsP.C122_double",
    "Verif.FpRootsP.C122_linear"
   ],
   "note": ""
  },
  {
   "property": "C123",
   "status": "partial",
   "theorems": [
    "Verif.FpMortonP.C123_code2_u32",
    "Verif.FpMortonP.C123_monotone2_u32",
    "Verif.FpMortonP.C123_roundtrip2_u32",
    "Verif.FpMortonP.C123_near2_u32",
    "Verif.FpMortonP.C123_code2_u64",
    "Verif.FpMortonP.C123_monotone2_u64",
    "Verif.FpMortonP.C123_roundtrip2_u64",
    "Verif.FpMortonP.C123_near2_u64",
    "Verif.FpMortonP.C123_code3_u32",
    "Verif.FpMortonP.C123_monotone3_u32",
    "Verif.FpMortonP.C123_roundtrip3_u32",
    "Verif.FpMortonP.C123_near3_u32",
    "Verif.FpMortonP.C123_code3_u64",
    "Verif.FpMortonP.C123_monotone3_u64",
    "Verif.FpMortonP.C123_roundtrip3_u64",
    "Verif.FpMortonP.C123_near3_u64",
    "Verif.FpMortonP.C123_scaled",
    "Verif.FpMortonP.C123_scaled_mono",
    "Verif.FpMortonP.C123_scaled_fails"
   ],
   "note": "proved, except that the scaling of a mesh into the unit square holds only if its bounding box begins at the origin (`C123_scaled`; `C123_scaled_fails`)"
  },
  {
   "property": "C124",
   "status": "partial",
   "theorems": [
    "Verif.FpStatsP.C124_sum",
    "Verif.FpStatsP.C124_sum_int",
    "Verif.FpStatsP.C124_mean",
    "Verif.FpStatsP.C124_mean_fails",
    "Verif.FpStatsP.C124_median",
    "Verif.FpStatsP.C124_variance_nonneg",
    "Verif.FpStatsP.C124_variance_equal",
    "Verif.FpStatsP.C124_variance_error",
    "Verif.FpStatsP.C124_variance_fails"
   ],
   "note": "the bounds and signs are proved; false are: the mean lies in the range of the data (`C124_mean_fails`), a variance of zero means equal data (`C124_variance_fails`; the converse is `C124_variance_equal`)"
  },
  {
   "property": "C125",
   "status": "partial",
   "theorems": [
    "Verif.FpGridP.C125_defined",
    "Verif.FpGridP.C125_lower",
    "Verif.FpGridP.C125_near",
    "Verif.FpGridP.C125_outside",
    "Verif.FpGridP.C125_locate",
    "Verif.FpGridP.C125_exact",
    "Verif.FpGridP.C125_monotone",
    "Verif.FpGridP.C125_range",
    "Verif.FpGridP.C125_range_covers",
    "Verif.FpGridP.C125_cell",
    "Verif.FpGridP.C125_neighbours",
    "Verif.FpGridP.C125_cell_order",
    "Verif.FpGridP.C125_centroid",
    "Verif.FpGridP.C125_maximum",
    "Verif.FpGridP.C125_inside_fails",
    "Verif.FpGridP.C125_bounding_box_fails",
    "Verif.FpGridP.C125_corner_fails",
    "Verif.FpGridP.C125_neighbours_fails"
   ],
   "note": "false are the last three parts: `C125_inside_fails`, `C125_bounding_box_fails`, `C125_corner_fails`, `C125_neighbours_fails`; they hold up to the error bounds of `C125_near`, `C125_locate`, `C125_neighbours`"
  },
  {
   "property": "C126",
   "status": "partial",
   "theorems": [
    "Verif.FpLerpP.C126_start",
    "Verif.FpLerpP.C126_monotone",
    "Verif.FpLerpP.C126_after_start",
    "Verif.FpLerpP.C126_between",
    "Verif.FpLerpP.C126_end_exact",
    "Verif.FpLerpP.C126_end",
    "Verif.FpLerpP.C126_error",
    "Verif.FpLerpP.C126_weight_none",
    "Verif.FpLerpP.C126_weight",
    "Verif.FpLerpP.C126_xs_nonneg",
    "Verif.FpLerpP.C126_xs_between",
    "Verif.FpLerpP.C126_xs_bounds",
    "Verif.FpLerpP.C126_xs_monotone",
    "Verif.FpLerpP.C126_end_fails"
   ],
   "note": "all parts but the last are proved; the last is false (`C126_end_fails`), and true within a factor of two (`C126_between`), for exact differences (`C126_end_exact`), and up to the error of `C126_end`"
  },
  {
   "property": "C127",
   "status": "partial",
   "theorems": [
    "Verif.FpDistP.C127_dot",
    "Verif.FpDistP.C127_closest_error",
    "Verif.FpDistP.C127_closest_least",
    "Verif.FpDistP.C127_closest_near",
    "Verif.FpDistP.C127_error",
    "Verif.FpDistP.C127_nonneg",
    "Verif.FpDistP.C127_zero",
    "Verif.FpDistP.C127_isApprox",
    "Verif.FpDistP.C127_isApprox_self",
    "Verif.FpDistP.C127_symmetric",
    "Verif.FpDistP.C127_ieee_odd",
    "Verif.FpDistP.C127_closest_defined",
    "Verif.FpDistP.C127_closest_range",
    "Verif.FpDistP.C127_closest_ends",
    "Verif.FpDistP.C127_segment",
    "Verif.FpDistP.C127_end_fails"
   ],
   "note": "all parts are proved but one: the distance is zero at the second end only if the differences are numbers of the format (`C127_segment`, `C127_end_fails`)"
  },
  {
   "property": "C128",
   "status": "partial",
   "theorems": [
    "Verif.FpRayP.C128_seen",
    "Verif.FpRayP.C128_seen_exact",
    "Verif.FpRayP.C128_parallel",
    "Verif.FpRayP.C128_hit",
    "Verif.FpRayP.C128_complete",
    "Verif.FpRayP.C128_miss",
    "Verif.FpRayP.C128_polygon",
    "Verif.FpRayP.C128_leak_fails"
   ],
   "note": "all parts but the last are proved; the last is false (`C128_leak_fails`)"
  },
  {
   "property": "C129",
   "status": "proved",
   "theorems": [
    "Verif.ColorP.C129_equal",
    "Verif.ColorP.C129_integers",
    "Verif.ColorP.C129_bytes",
    "Verif.ColorP.C129_channel",
    "Verif.ColorP.C129_order",
    "Verif.ColorP.C129_floats",
    "Verif.ColorP.C129_round_trip",
    "Verif.ColorP.C129_undefined",
    "Verif.ColorP.C129_outside"
   ],
   "note": ""
  },
  {
   "property": "C130",
   "status": "partial",
   "theorems": [
    "Verif.FpAreaP.C130_grid",
    "Verif.FpAreaP.C130_triangle_ccw",
    "Verif.FpAreaP.C130_triangle",
    "Verif.FpAreaP.C130_translate",
    "Verif.FpAreaP.C130_quad",
    "Verif.FpAreaP.C130_convex",
    "Verif.FpAreaP.C130_triangle_centroid",
    "Verif.FpAreaP.C130_triangle_box",
    "Verif.FpAreaP.C130_quad_centroid",
    "Verif.FpAreaP.C130_polygon",
    "Verif.FpAreaP.C130_polygon_fails"
   ],
   "note": "all parts but the last are proved; the last is false (`C130_polygon_fails`)"
  },
  {
   "property": "C131",
   "status": "proved",
   "theorems": [
    "Verif.FpNormP.C131_norm",
    "Verif.FpNormP.C131_distance",
    "Verif.FpNormP.C131_unit",
    "Verif.FpNormP.C131_direction",
    "Verif.FpNormP.C131_perimeter",
    "Verif.FpNormP.C131_triangle_chord",
    "Verif.FpNormP.C131_quad_chord",
    "Verif.FpNormP.C131_real"
   ],
   "note": "overflow and underflow are left out: for vectors of very small or very large numbers squaredNorm leaves the range"
  },
  {
   "property": "C132",
   "status": "proved",
   "theorems": [
    "Verif.RelP.C132_equal",
    "Verif.RelP.C132_order",
    "Verif.RelP.C132_pair",
    "Verif.RelP.C132_iota",
    "Verif.RelP.C132_max_size",
    "Verif.RelP.C132_nan_fails"
   ],
   "note": "elements of a linear order; C132_nan_fails shows what a NaN does"
  },
  {
   "property": "C133",
   "status": "partial",
   "theorems": [
    "Verif.PowerFileP.C133_data",
    "Verif.PowerFileP.C133_powers_partial",
    "Verif.PowerFileP.C133_total",
    "Verif.PowerFileP.C133_refused",
    "Verif.PowerFileP.C133_types",
    "Verif.PowerFileP.C133_ids_fails"
   ],
   "note": "C133_powers_partial needs the ids to be different and ids of elements, and NearFits (C65); C133_ids_fails gives the counterexample; the acceptance (C133_data, C133_refused) is proved in full"
  },
  {
   "property": "C134",
   "status": "partial",
   "theorems": [
    "Verif.LapackP.C134_solve",
    "Verif.LapackP.C134_inverse",
    "Verif.LapackP.C134_singular",
    "Verif.LapackP.C134_shapes",
    "Verif.LapackP.C134_singular_fails",
    "Verif.LapackP.C134_eigvals"
   ],
   "note": "C134_singular_fails: singular matrices are not reported, the right side is returned; everything else is proved; exact arithmetic, LAPACK by contract"
  },
  {
   "property": "C135",
   "status": "partial",
   "theorems": [
    "Verif.FpBoxP.C135_extents",
    "Verif.FpBoxP.C135_centroid",
    "Verif.FpBoxP.C135_grow",
    "Verif.FpBoxP.C135_shrink",
    "Verif.FpBoxP.C135_grow_error",
    "Verif.FpBoxP.C135_sound",
    "Verif.FpBoxP.C135_complete_partial",
    "Verif.FpBoxP.C135_inside",
    "Verif.FpBoxP.C135_monotone",
    "Verif.FpBoxP.C135_watertight",
    "Verif.FpBoxP.C135_corner_fails",
    "Verif.FpBoxP.C135_zero_fails",
    "Verif.FpBoxP.C135_enlarge_fails"
   ],
   "note": "C135_complete_partial: rays are missed only if the chord is a few relative errors long (C135_corner_fails is such a ray); C135_zero_fails and C135_enlarge_fails for degenerate scaling; everything else is proved"
  },
  {
   "property": "C136",
   "status": "partial",
   "theorems": [
    "Verif.FpRaysP.C136_defined",
    "Verif.FpRaysP.C136_count",
    "Verif.FpRaysP.C136_origins",
    "Verif.FpRaysP.C136_spacing",
    "Verif.FpRaysP.C136_hits",
    "Verif.FpRaysP.C136_cyclic",
    "Verif.FpRaysP.C136_trig",
    "Verif.FpRaysP.C136_trig_double",
    "Verif.FpRaysP.C136_outside_fails",
    "Verif.FpRaysP.C136_same_fails"
   ],
   "note": "all theorems assume 8 (nx + ny) <= 2^p, which always holds in double precision; C136_outside_fails is a case in single precision where it does not; C136_same_fails: distinctness needs a spacing of more than the error"
  },
  {
   "property": "C137",
   "status": "partial",
   "theorems": [
    "Verif.Fp.C137_mean",
    "Verif.Fp.C137_error",
    "Verif.Fp.C137_fissile",
    "Verif.Fp.C137_balance",
    "Verif.Fp.C137_uniform_fails",
    "Verif.Fp.C137_macro",
    "Verif.Fp.C137_macro_balance",
    "Verif.Fp.C137_collapse",
    "Verif.Fp.C137_collapse_balance",
    "Verif.Fp.C137_collapse_assert",
    "Verif.Fp.C137_collapse_assert_fails"
   ],
   "note": "the exact mean is not reproduced (C137_uniform_fails), the debug assertion fails in single precision (C137_collapse_assert_fails); the error bounds, signs, flag and balance are proved without bounds on sizes"
  },
  {
   "property": "C138",
   "status": "partial",
   "theorems": [
    "Verif.Fp.C138_ids",
    "Verif.Fp.C138_tiling",
    "Verif.Fp.C138_equal",
    "Verif.Fp.C138_drift_fails",
    "Verif.Fp.C138_far_fails"
   ],
   "note": "false when the errors of a row reach the tolerance (C138_drift_fails, C138_far_fails); proved below a quarter of it, and for equal widths as long as twice the extent is at most 2^p tolerances"
  },
  {
   "property": "C139",
   "status": "partial",
   "theorems": [
    "Verif.Fp.C139_weight",
    "Verif.Fp.C139_atoms",
    "Verif.Fp.C139_atoms_zero",
    "Verif.Fp.C139_uo2",
    "Verif.Fp.C139_uo2_mass",
    "Verif.Fp.C139_uo2_positive",
    "Verif.Fp.C139_u238_fails"
   ],
   "note": "false for U-238 near full enrichment (C139_u238_fails), proved for 1.0135 w <= 1/2; weights and atom fractions in full"
  },
  {
   "property": "C140",
   "status": "partial",
   "theorems": [
    "Verif.XData.C140_single",
    "Verif.XData.C140_double",
    "Verif.XData.C140_widths",
    "Verif.XData.C140_ints",
    "Verif.XData.C140_round_trip",
    "Verif.XData.C140_set",
    "Verif.XData.C140_floats",
    "Verif.XData.C140_wrap_fails",
    "Verif.XData.C140_big_fails",
    "Verif.XData.C140_small_fails",
    "Verif.XData.C140_count_fails",
    "Verif.XData.C140_bits"
   ],
   "note": "false for big-endian files, ids beyond 32 bits, small integers and lengths that do not match (C140_*_fails); proved for little-endian data of four and eight bytes"
  },
  {
   "property": "C141",
   "status": "partial",
   "theorems": [
    "Verif.PropsFpPin.C141_accepts",
    "Verif.PropsFpPin.C141_boxes",
    "Verif.PropsFpPin.C141_extent",
    "Verif.PropsFpPin.C141_power",
    "Verif.PropsFpPin.C141_tiling",
    "Verif.PropsFpPin.C141_area",
    "Verif.PropsFpPin.C141_extent_fails",
    "Verif.PropsFpPin.C141_many_fails"
   ],
   "note": "the mesh does not end exactly where the pin ends (C141_extent_fails; it does for powers of two, C141_power), the rest is proved for up to 2^(p-1) faces an edge (C141_many_fails beyond)"
  },
  {
   "property": "C142",
   "status": "partial",
   "theorems": [
    "Verif.PropsFpCyl.C142_radii",
    "Verif.PropsFpCyl.C142_equivalent",
    "Verif.PropsFpCyl.C142_vertices",
    "Verif.PropsFpCyl.C142_refuses",
    "Verif.PropsFpCyl.C142_areas",
    "Verif.PropsFpCyl.C142_pi",
    "Verif.PropsFpCyl.C142_corner_fails"
   ],
   "note": "the corners are off by one unit in the last place (C142_corner_fails); the rest is proved for circles two tolerances away from the sides (C142_vertices) or beyond them by more than the errors (C142_refuses), between them either can happen"
  },
  {
   "property": "C143",
   "status": "partial",
   "theorems": [
    "Verif.FpQuadP.C143_nodes",
    "Verif.FpQuadP.C143_interpolate",
    "Verif.FpQuadP.C143_interpolate_unit",
    "Verif.FpQuadP.C143_reverse",
    "Verif.FpQuadP.C143_jacobian",
    "Verif.FpQuadP.C143_box_ends",
    "Verif.FpQuadP.C143_box",
    "Verif.FpQuadP.C143_box_tight",
    "Verif.FpQuadP.C143_box_fails",
    "Verif.FpQuadP.C143_enclosed",
    "Verif.FpQuadP.C143_curvesLeft",
    "Verif.FpQuadP.C143_straight",
    "Verif.FpQuadP.C143_straight_complete",
    "Verif.FpQuadP.C143_straight_midpoint",
    "Verif.FpQuadP.C143_triangle",
    "Verif.FpQuadP.C143_quadrilateral",
    "Verif.FpQuadP.C143_triangle_convex",
    "Verif.FpQuadP.C143_triangle_straight"
   ],
   "note": "the box contains the curve up to 31 roundings of the distances of the nodes and one of the first coordinate (C143_box), not exactly (C143_box_fails)"
  },
  {
   "property": "C144",
   "status": "partial",
   "theorems": [
    "Verif.FpQRayP.C144_sound",
    "Verif.FpQRayP.C144_clear",
    "Verif.FpQRayP.C144_behind",
    "Verif.FpQRayP.C144_found",
    "Verif.FpQRayP.C144_both",
    "Verif.FpQRayP.C144_size",
    "Verif.FpQRayP.C144_cell",
    "Verif.FpQRayP.C144_leak_fails"
   ],
   "note": "everything is proved but the last sentence, which is false (C144_leak_fails); exact bounds instead"
  },
  {
   "property": "C145",
   "status": "proved",
   "theorems": [
    "Verif.FpQClosestP.C145_range",
    "Verif.FpQClosestP.C145_least",
    "Verif.FpQClosestP.C145_ends",
    "Verif.FpQClosestP.C145_sound",
    "Verif.FpQClosestP.C145_near",
    "Verif.FpQClosestP.C145_equation"
   ],
   "note": "the solver is a parameter: that it finds all roots is not claimed (C21 and C72 have the solver); the straight case is that of C75"
  },
  {
   "property": "C146",
   "status": "proved",
   "theorems": [
    "Verif.PropsFpCyl2.C146_equivalent",
    "Verif.PropsFpCyl2.C146_vertices",
    "Verif.PropsFpCyl2.C146_refuses",
    "Verif.PropsFpCyl2.C146_areas"
   ],
   "note": "the number of rings is limited to 2^p / 360 and the tolerance has to be larger than the errors; corners as in C142"
  },
  {
   "property": "C147",
   "status": "partial",
   "theorems": [
    "Verif.PropsFpQLength.C147_formula",
    "Verif.PropsFpQLength.C147_length_partial",
    "Verif.PropsFpQLength.C147_straight",
    "Verif.PropsFpQLength.C147_perimeter",
    "Verif.PropsFpQLength.C147_perimeter_none",
    "Verif.PropsFpQLength.C147_length_fails"
   ],
   "note": "false without a bound on how close the coefficients are to being parallel (`C147_length_fails`); `C147_length_partial` and `C147_formula` have that hypothesis, on the coefficients as they are computed: the square of their cross product is at least 64 units of rounding relative to their sizes"
  },
  {
   "property": "C148",
   "status": "partial",
   "theorems": [
    "Verif.GmshMesh.C148_faces_state",
    "Verif.GmshMesh.C148_faces_partial",
    "Verif.GmshMesh.C148_faces_fails",
    "Verif.GmshMesh.C148_restart",
    "Verif.GmshMesh.C148_options",
    "Verif.GmshMesh.C148_other",
    "Verif.GmshMesh.C148_size",
    "Verif.GmshMesh.C148_initialize",
    "Verif.GmshMesh.C148_finalize"
   ],
   "note": "false for triangles after quadrilaterals in the same session (`C148_faces_fails`); `C148_faces_partial` says exactly for which programs it holds. What Gmsh does with its options is taken from its manual"
  },
  {
   "property": "C149",
   "status": "proved",
   "theorems": [
    "Verif.PropsFpQCentroid.C149_moments_triangle",
    "Verif.PropsFpQCentroid.C149_moments_quad",
    "Verif.PropsFpQCentroid.C149_cap",
    "Verif.PropsFpQCentroid.C149_cap_none",
    "Verif.PropsFpQCentroid.C149_triangle",
    "Verif.PropsFpQCentroid.C149_triangle_convex",
    "Verif.PropsFpQCentroid.C149_quad",
    "Verif.PropsFpQCentroid.C149_quad_convex",
    "Verif.PropsFpQCentroid.C149_triangle_none",
    "Verif.PropsFpQCentroid.C149_quad_none",
    "Verif.PropsFpQCentroid.C149_chord_triangle",
    "Verif.PropsFpQCentroid.C149_chord_quad",
    "Verif.PropsFpQCentroid.C149_chord_none"
   ],
   "note": "differences of nodes from the first of each edge must be representable; the quadrilateral in the positive quadrant is inherited from the linear centroid (C130)"
  },
  {
   "property": "C150",
   "status": "partial",
   "theorems": [
    "Verif.FpCubicP.C150_roots",
    "Verif.FpCubicP.C150_zero",
    "Verif.FpCubicP.C150_quadratic",
    "Verif.FpCubicP.C150_residual_partial",
    "Verif.FpCubicP.C150_start",
    "Verif.FpCubicP.C150_fp",
    "Verif.FpCubicP.C150_terminates",
    "Verif.FpCubicP.C150_residual_fails"
   ],
   "note": "the residual is a rounding error if the loop stops before the first root (C150_residual_partial) or does not start (C150_start); C150_residual_fails is an equation for which it steps over the root; everything else is proved"
  },
  {
   "property": "C151",
   "status": "partial",
   "theorems": [
    "Verif.FpQLeftP.C151_arc",
    "Verif.FpQLeftP.C151_side_partial",
    "Verif.FpQLeftP.C151_rotation",
    "Verif.FpQLeftP.C151_chord",
    "Verif.FpQLeftP.C151_two",
    "Verif.FpQLeftP.C151_leak_fails",
    "Verif.FpQLeftP.C151_overlap_fails"
   ],
   "note": "proved for chords along an axis with the third node over their middle and points of a grid, outside sixteen rounding errors of the height (C151_side_partial); for other middle nodes the decision between the two computed roots is proved (C151_two), for other chords the accuracy of the rotation (C151_rotation); the last sentence is false (C151_leak_fails, C151_overlap_fails)"
  },
  {
   "property": "C152",
   "status": "partial",
   "theorems": [
    "Verif.FpLocateP.C152_grid_partial",
    "Verif.FpLocateP.C152_margin",
    "Verif.FpLocateP.C152_axis",
    "Verif.FpLocateP.C152_rectangle",
    "Verif.FpLocateP.C152_pin",
    "Verif.FpLocateP.C152_gap_fails"
   ],
   "note": "exact for rectangular pin meshes (C152_pin) and for points of a grid (C152_grid_partial), up to an error otherwise (C152_margin); false for all meshes of doubles (C152_gap_fails)"
  },
  {
   "property": "C153",
   "status": "partial",
   "theorems": [
    "Verif.CHeapP.C153_free",
    "Verif.CHeapP.C153_delete",
    "Verif.CHeapP.C153_query",
    "Verif.CHeapP.C153_distinct",
    "Verif.CHeapP.C153_made",
    "Verif.CHeapP.C153_double",
    "Verif.CHeapP.C153_balance",
    "Verif.CHeapP.C153_negative",
    "Verif.CHeapP.C153_malloc",
    "Verif.CHeapP.C153_new",
    "Verif.CHeapP.C153_arrays_partial",
    "Verif.CHeapP.C153_memory",
    "Verif.CHeapP.C153_memory_fails",
    "Verif.CHeapP.C153_negative_size"
   ],
   "note": "handles and releases in full (C153_free, C153_delete, C153_query, C153_made, C153_double, C153_balance); the functions that return arrays only when there is memory (C153_arrays_partial; C153_memory_fails)"
  }
 ]
}