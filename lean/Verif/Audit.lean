import Verif.Props.Abaqus
import Verif.Props.Algorithm
import Verif.Props.Box
import Verif.Props.C5G7Core
import Verif.Props.C5G7CoreSpec
import Verif.Props.C5G7Plane
import Verif.Props.C5G7PlaneSpec
import Verif.Props.CApi
import Verif.Props.CApiSpec
import Verif.Props.CHeap
import Verif.Props.Cmfd
import Verif.Props.CmfdInfo
import Verif.Props.CmfdInfoSpec
import Verif.Props.CoarseGrid
import Verif.Props.Color
import Verif.Props.Compare
import Verif.Props.Crocus
import Verif.Props.CrocusSpec
import Verif.Props.ElementTypes
import Verif.Props.Fnr
import Verif.Props.FnrSpec
import Verif.Props.FpArea
import Verif.Props.FpBox
import Verif.Props.FpClosest
import Verif.Props.FpCubic
import Verif.Props.FpCyl
import Verif.Props.FpCyl2
import Verif.Props.FpDist
import Verif.Props.FpGeom
import Verif.Props.FpGrid
import Verif.Props.FpLerp
import Verif.Props.FpLocate
import Verif.Props.FpMaterial
import Verif.Props.FpMorton
import Verif.Props.FpNorm
import Verif.Props.FpPin
import Verif.Props.FpQCentroid
import Verif.Props.FpQClosest
import Verif.Props.FpQLeft
import Verif.Props.FpQLength
import Verif.Props.FpQRay
import Verif.Props.FpQuad
import Verif.Props.FpRay
import Verif.Props.FpRays
import Verif.Props.FpRect
import Verif.Props.FpRoots
import Verif.Props.FpSpec
import Verif.Props.FpStats
import Verif.Props.FpXSec
import Verif.Props.GaussTable
import Verif.Props.Geom
import Verif.Props.GmshGroups
import Verif.Props.GmshGroupsSpec
import Verif.Props.GmshInfo
import Verif.Props.GmshMesh
import Verif.Props.GmshPins
import Verif.Props.GmshPinsSpec
import Verif.Props.GridIndex
import Verif.Props.GridLocate
import Verif.Props.Heights
import Verif.Props.LatticePrograms
import Verif.Props.LatticeProgramsSpec
import Verif.Props.LinearSolve
import Verif.Props.Logger
import Verif.Props.Material
import Verif.Props.Matrix
import Verif.Props.Mesh
import Verif.Props.MeshCheck
import Verif.Props.MeshField
import Verif.Props.MeshFieldSpec
import Verif.Props.MeshSoup
import Verif.Props.ModelFiles
import Verif.Props.ModelFilesSpec
import Verif.Props.ModelSoup
import Verif.Props.ModelSoupSpec
import Verif.Props.ModelText
import Verif.Props.ModelXdmf
import Verif.Props.ModelXdmfSpec
import Verif.Props.Morton
import Verif.Props.MortonPoints
import Verif.Props.Mpact
import Verif.Props.MpactMaterials
import Verif.Props.MpactTotals
import Verif.Props.Names
import Verif.Props.Newton
import Verif.Props.Nuclide
import Verif.Props.Nuscale
import Verif.Props.NuscaleSpec
import Verif.Props.Order
import Verif.Props.OverlayGrid
import Verif.Props.OverlayGridSpec
import Verif.Props.OverlayGroups
import Verif.Props.OverlayGroupsSpec
import Verif.Props.OverlaySurfaces
import Verif.Props.Partition
import Verif.Props.PinAccept
import Verif.Props.PinArea
import Verif.Props.PinModular
import Verif.Props.PinModularSpec
import Verif.Props.PinTolerance
import Verif.Props.PinTopo
import Verif.Props.PostModel
import Verif.Props.PostSoup
import Verif.Props.PostText
import Verif.Props.Power
import Verif.Props.PowerFile
import Verif.Props.PowerKinds
import Verif.Props.QCross
import Verif.Props.QSegClosest
import Verif.Props.QSegContains
import Verif.Props.QSegLeft
import Verif.Props.QSegLength
import Verif.Props.QSegRay
import Verif.Props.QuadMeasure
import Verif.Props.Quadratic
import Verif.Props.RaySort
import Verif.Props.Rays
import Verif.Props.RectGrid
import Verif.Props.RectPin
import Verif.Props.Relational
import Verif.Props.Roots
import Verif.Props.SceneSpec
import Verif.Props.SelfFix
import Verif.Props.Sharper
import Verif.Props.Soup
import Verif.Props.SoupAppend
import Verif.Props.SoupSort
import Verif.Props.SoupSubset
import Verif.Props.Source
import Verif.Props.SourceTools
import Verif.Props.Stats
import Verif.Props.Str
import Verif.Props.StrView
import Verif.Props.Svea
import Verif.Props.SveaSpec
import Verif.Props.Tokens
import Verif.Props.VTK
import Verif.Props.Vector
import Verif.Props.Vera1
import Verif.Props.Vera1Spec
import Verif.Props.Vera4
import Verif.Props.Vera4Modular
import Verif.Props.Vera4ModularSpec
import Verif.Props.Vera4Spec
import Verif.Props.XDMF
import Verif.Props.XSLib
import Verif.Props.XSValid
import Verif.Props.XSec
import Verif.Props.XSecMix
import Verif.Props.XdmfData
import Verif.Props.XdmfFiles

/-! Axioms used by every property theorem (printed at build time). -/

#print axioms Verif.Abaqus.C51_blank
#print axioms Verif.Abaqus.C51_line_partial
#print axioms Verif.Abaqus.C51_block_partial
#print axioms Verif.Abaqus.C51_no_trailing_comma_fails
#print axioms Verif.Abaqus.C70_lines_partial
#print axioms Verif.Abaqus.C70_long_line
#print axioms Verif.Abaqus.C70_file_partial
#print axioms Verif.Abaqus.C70_unsupported_fails
#print axioms Verif.Abaqus.C70_long_line_fails
#print axioms Verif.Abaqus.C70_wrap_fails
#print axioms Verif.Alg.C11_sort3
#print axioms Verif.Alg.C11_sort4
#print axioms Verif.Alg.C11_insertionSort
#print axioms Verif.Alg.C12_applyPermutation
#print axioms Verif.Alg.C12_invertPermutation
#print axioms Verif.Alg.C12_apply_invert
#print axioms Verif.Alg.C12_sortPermutation_comparator
#print axioms Verif.Alg.C12_sortPermutation
#print axioms Verif.Box.C24_contains
#print axioms Verif.Box.C24_join
#print axioms Verif.Box.C24_laws
#print axioms Verif.Box.C24_empty
#print axioms Verif.Box.C24_addPoint
#print axioms Verif.Box.C24_boundingBox
#print axioms Verif.Box.C24_intersects
#print axioms Verif.Box.C24_scale
#print axioms Verif.Box.C25_intersect_partial
#print axioms Verif.Box.C25_face_fails
#print axioms Verif.C5G7CoreP.C113_c5g7
#print axioms Verif.C5G7P.C108_c5g7
#print axioms Verif.CApi.C115_walk
#print axioms Verif.CApi.C115_fine_cells
#print axioms Verif.CApi.C115_areas
#print axioms Verif.CApi.C115_materials
#print axioms Verif.CApi.C115_faces_partial
#print axioms Verif.CApi.C115_containing
#print axioms Verif.CApi.C115_centroid
#print axioms Verif.CApi.C115_intersect
#print axioms Verif.CApi.C115_face_data
#print axioms Verif.CApi.C115_sizes
#print axioms Verif.CApi.C115_meshless_fails
#print axioms Verif.CApi.C115_meshless_refused
#print axioms Verif.CHeapP.C153_free
#print axioms Verif.CHeapP.C153_delete
#print axioms Verif.CHeapP.C153_query
#print axioms Verif.CHeapP.C153_distinct
#print axioms Verif.CHeapP.C153_made
#print axioms Verif.CHeapP.C153_double
#print axioms Verif.CHeapP.C153_balance
#print axioms Verif.CHeapP.C153_negative
#print axioms Verif.CHeapP.C153_malloc
#print axioms Verif.CHeapP.C153_new
#print axioms Verif.CHeapP.C153_arrays_partial
#print axioms Verif.CHeapP.C153_memory
#print axioms Verif.CHeapP.C153_memory_fails
#print axioms Verif.Cmfd.C80_cell
#print axioms Verif.Cmfd.C80_flux_exists
#print axioms Verif.Cmfd.C80_sweep_partial
#print axioms Verif.Cmfd.C80_coarse
#print axioms Verif.Cmfd.C80_cells
#print axioms Verif.Cmfd.C80_diffusion
#print axioms Verif.Cmfd.C80_omega
#print axioms Verif.Cmfd.C80_radius
#print axioms Verif.Cmfd.C80_c1_fails
#print axioms Verif.Cmfd.C80_one_cell_fails
#print axioms Verif.Cmfd.C80_sigma_fails
#print axioms Verif.CmfdInfo.C86_info_partial
#print axioms Verif.CmfdInfo.C86_checks
#print axioms Verif.CmfdInfo.C86_unused_fails
#print axioms Verif.CmfdInfo.C86_void_fails
#print axioms Verif.CoarseGrid.C102_grid
#print axioms Verif.CoarseGrid.C102_tiles
#print axioms Verif.CoarseGrid.C102_cover
#print axioms Verif.CoarseGrid.C102_rejected
#print axioms Verif.CoarseGrid.C102_used_fails
#print axioms Verif.ColorP.C129_equal
#print axioms Verif.ColorP.C129_integers
#print axioms Verif.ColorP.C129_bytes
#print axioms Verif.ColorP.C129_channel
#print axioms Verif.ColorP.C129_order
#print axioms Verif.ColorP.C129_floats
#print axioms Verif.ColorP.C129_round_trip
#print axioms Verif.ColorP.C129_undefined
#print axioms Verif.ColorP.C129_outside
#print axioms Verif.Polytope.C85_code
#print axioms Verif.Polytope.C85_equal
#print axioms Verif.Polytope.C85_symm
#print axioms Verif.Polytope.C85_not_transitive
#print axioms Verif.Polytope.C85_order
#print axioms Verif.CrocusP.C109_counts
#print axioms Verif.CrocusP.C109_apart
#print axioms Verif.CrocusP.C109_crocus
#print axioms Verif.ElemTypes.C40_table
#print axioms Verif.ElemTypes.C40_vtk_unsupported
#print axioms Verif.ElemTypes.C40_xdmf_unsupported
#print axioms Verif.ElemTypes.C40_vtk_roundtrip
#print axioms Verif.ElemTypes.C40_xdmf_roundtrip
#print axioms Verif.ElemTypes.C40_infer_count
#print axioms Verif.ElemTypes.C40_infer_type
#print axioms Verif.ElemTypes.C40_infer_edge_fails
#print axioms Verif.ElemTypes.C40_meshType_perm
#print axioms Verif.ElemTypes.C40_meshType
#print axioms Verif.ElemTypes.C40_meshType_code
#print axioms Verif.FnrP.C117_core
#print axioms Verif.FnrP.C117_rows
#print axioms Verif.FnrP.C117_single
#print axioms Verif.FnrP.C117_whole
#print axioms Verif.FnrP.C117_single_whole
#print axioms Verif.FnrP.C117_clad
#print axioms Verif.FnrP.C117_meat_partial
#print axioms Verif.FnrP.C117_meat_fails
#print axioms Verif.FnrP.C117_enrichment_fails
#print axioms Verif.FnrP.C117_weights_fails
#print axioms Verif.FpAreaP.C130_grid
#print axioms Verif.FpAreaP.C130_triangle_ccw
#print axioms Verif.FpAreaP.C130_triangle
#print axioms Verif.FpAreaP.C130_translate
#print axioms Verif.FpAreaP.C130_quad
#print axioms Verif.FpAreaP.C130_convex
#print axioms Verif.FpAreaP.C130_triangle_centroid
#print axioms Verif.FpAreaP.C130_triangle_box
#print axioms Verif.FpAreaP.C130_quad_centroid
#print axioms Verif.FpAreaP.C130_polygon
#print axioms Verif.FpAreaP.C130_polygon_fails
#print axioms Verif.FpBoxP.C135_extents
#print axioms Verif.FpBoxP.C135_centroid
#print axioms Verif.FpBoxP.C135_grow
#print axioms Verif.FpBoxP.C135_shrink
#print axioms Verif.FpBoxP.C135_grow_error
#print axioms Verif.FpBoxP.C135_sound
#print axioms Verif.FpBoxP.C135_complete_partial
#print axioms Verif.FpBoxP.C135_inside
#print axioms Verif.FpBoxP.C135_monotone
#print axioms Verif.FpBoxP.C135_watertight
#print axioms Verif.FpBoxP.C135_corner_fails
#print axioms Verif.FpBoxP.C135_zero_fails
#print axioms Verif.FpBoxP.C135_enlarge_fails
#print axioms Verif.FpDistP.C127_dot
#print axioms Verif.FpDistP.C127_closest_error
#print axioms Verif.FpDistP.C127_closest_least
#print axioms Verif.FpDistP.C127_closest_near
#print axioms Verif.FpCubicP.C150_roots
#print axioms Verif.FpCubicP.C150_zero
#print axioms Verif.FpCubicP.C150_quadratic
#print axioms Verif.FpCubicP.C150_residual_partial
#print axioms Verif.FpCubicP.C150_start
#print axioms Verif.FpCubicP.C150_fp
#print axioms Verif.FpCubicP.C150_terminates
#print axioms Verif.FpCubicP.C150_residual_fails
#print axioms Verif.PropsFpCyl.C142_radii
#print axioms Verif.PropsFpCyl.C142_equivalent
#print axioms Verif.PropsFpCyl.C142_vertices
#print axioms Verif.PropsFpCyl.C142_refuses
#print axioms Verif.PropsFpCyl.C142_areas
#print axioms Verif.PropsFpCyl.C142_pi
#print axioms Verif.PropsFpCyl.C142_corner_fails
#print axioms Verif.PropsFpCyl2.C146_equivalent
#print axioms Verif.PropsFpCyl2.C146_vertices
#print axioms Verif.PropsFpCyl2.C146_refuses
#print axioms Verif.PropsFpCyl2.C146_areas
#print axioms Verif.FpDistP.C127_error
#print axioms Verif.FpDistP.C127_nonneg
#print axioms Verif.FpDistP.C127_zero
#print axioms Verif.FpDistP.C127_isApprox
#print axioms Verif.FpDistP.C127_isApprox_self
#print axioms Verif.FpDistP.C127_symmetric
#print axioms Verif.FpDistP.C127_ieee_odd
#print axioms Verif.FpDistP.C127_closest_defined
#print axioms Verif.FpDistP.C127_closest_range
#print axioms Verif.FpDistP.C127_closest_ends
#print axioms Verif.FpDistP.C127_segment
#print axioms Verif.FpDistP.C127_end_fails
#print axioms Verif.FpGeomP.C120_sign
#print axioms Verif.FpGeomP.C120_error
#print axioms Verif.FpGeomP.C120_cross
#print axioms Verif.FpGeomP.C120_inverse
#print axioms Verif.FpGeomP.C121_orientation_partial
#print axioms Verif.FpGeomP.C121_triangle_partial
#print axioms Verif.FpGeomP.C121_gap_fails
#print axioms Verif.FpGeomP.C121_error
#print axioms Verif.FpGeomP.C121_approx_partial
#print axioms Verif.FpGeomP.C121_eps
#print axioms Verif.FpGeomP.C121_approx_double
#print axioms Verif.FpGeomP.C121_approx_fails
#print axioms Verif.FpGridP.C125_defined
#print axioms Verif.FpGridP.C125_lower
#print axioms Verif.FpGridP.C125_near
#print axioms Verif.FpGridP.C125_outside
#print axioms Verif.FpGridP.C125_locate
#print axioms Verif.FpGridP.C125_exact
#print axioms Verif.FpGridP.C125_monotone
#print axioms Verif.FpGridP.C125_range
#print axioms Verif.FpGridP.C125_range_covers
#print axioms Verif.FpGridP.C125_cell
#print axioms Verif.FpGridP.C125_neighbours
#print axioms Verif.FpGridP.C125_cell_order
#print axioms Verif.FpGridP.C125_centroid
#print axioms Verif.FpGridP.C125_maximum
#print axioms Verif.FpGridP.C125_inside_fails
#print axioms Verif.FpGridP.C125_bounding_box_fails
#print axioms Verif.FpGridP.C125_corner_fails
#print axioms Verif.FpGridP.C125_neighbours_fails
#print axioms Verif.FpLerpP.C126_start
#print axioms Verif.FpLerpP.C126_monotone
#print axioms Verif.FpLerpP.C126_after_start
#print axioms Verif.FpLerpP.C126_between
#print axioms Verif.FpLerpP.C126_end_exact
#print axioms Verif.FpLerpP.C126_end
#print axioms Verif.FpLerpP.C126_error
#print axioms Verif.FpLerpP.C126_weight_none
#print axioms Verif.FpLerpP.C126_weight
#print axioms Verif.FpLerpP.C126_xs_nonneg
#print axioms Verif.FpLerpP.C126_xs_between
#print axioms Verif.FpLerpP.C126_xs_bounds
#print axioms Verif.FpLerpP.C126_xs_monotone
#print axioms Verif.FpLerpP.C126_end_fails
#print axioms Verif.FpLocateP.C152_grid_partial
#print axioms Verif.FpLocateP.C152_margin
#print axioms Verif.FpLocateP.C152_axis
#print axioms Verif.FpLocateP.C152_rectangle
#print axioms Verif.FpLocateP.C152_pin
#print axioms Verif.FpLocateP.C152_gap_fails
#print axioms Verif.Fp.C139_weight
#print axioms Verif.Fp.C139_atoms
#print axioms Verif.Fp.C139_atoms_zero
#print axioms Verif.Fp.C139_uo2
#print axioms Verif.Fp.C139_uo2_mass
#print axioms Verif.Fp.C139_uo2_positive
#print axioms Verif.Fp.C139_u238_fails
#print axioms Verif.FpMortonP.C123_code2_u32
#print axioms Verif.FpMortonP.C123_monotone2_u32
#print axioms Verif.FpMortonP.C123_roundtrip2_u32
#print axioms Verif.FpMortonP.C123_near2_u32
#print axioms Verif.FpMortonP.C123_code2_u64
#print axioms Verif.FpMortonP.C123_monotone2_u64
#print axioms Verif.FpMortonP.C123_roundtrip2_u64
#print axioms Verif.FpMortonP.C123_near2_u64
#print axioms Verif.FpMortonP.C123_code3_u32
#print axioms Verif.FpMortonP.C123_monotone3_u32
#print axioms Verif.FpMortonP.C123_roundtrip3_u32
#print axioms Verif.FpMortonP.C123_near3_u32
#print axioms Verif.FpMortonP.C123_code3_u64
#print axioms Verif.FpMortonP.C123_monotone3_u64
#print axioms Verif.FpMortonP.C123_roundtrip3_u64
#print axioms Verif.FpMortonP.C123_near3_u64
#print axioms Verif.FpMortonP.C123_scaled
#print axioms Verif.FpMortonP.C123_scaled_mono
#print axioms Verif.FpMortonP.C123_scaled_fails
#print axioms Verif.FpNormP.C131_norm
#print axioms Verif.FpNormP.C131_distance
#print axioms Verif.FpNormP.C131_unit
#print axioms Verif.FpNormP.C131_direction
#print axioms Verif.FpNormP.C131_perimeter
#print axioms Verif.FpNormP.C131_triangle_chord
#print axioms Verif.FpNormP.C131_quad_chord
#print axioms Verif.FpNormP.C131_real
#print axioms Verif.PropsFpPin.C141_accepts
#print axioms Verif.PropsFpPin.C141_boxes
#print axioms Verif.PropsFpPin.C141_extent
#print axioms Verif.PropsFpPin.C141_power
#print axioms Verif.PropsFpPin.C141_tiling
#print axioms Verif.PropsFpPin.C141_area
#print axioms Verif.PropsFpPin.C141_extent_fails
#print axioms Verif.PropsFpPin.C141_many_fails
#print axioms Verif.PropsFpQCentroid.C149_moments_triangle
#print axioms Verif.PropsFpQCentroid.C149_moments_quad
#print axioms Verif.PropsFpQCentroid.C149_cap
#print axioms Verif.PropsFpQCentroid.C149_cap_none
#print axioms Verif.PropsFpQCentroid.C149_triangle
#print axioms Verif.PropsFpQCentroid.C149_triangle_convex
#print axioms Verif.PropsFpQCentroid.C149_quad
#print axioms Verif.PropsFpQCentroid.C149_quad_convex
#print axioms Verif.PropsFpQCentroid.C149_triangle_none
#print axioms Verif.PropsFpQCentroid.C149_quad_none
#print axioms Verif.PropsFpQCentroid.C149_chord_triangle
#print axioms Verif.PropsFpQCentroid.C149_chord_quad
#print axioms Verif.PropsFpQCentroid.C149_chord_none
#print axioms Verif.FpQClosestP.C145_range
#print axioms Verif.FpQClosestP.C145_least
#print axioms Verif.FpQClosestP.C145_ends
#print axioms Verif.FpQClosestP.C145_sound
#print axioms Verif.FpQClosestP.C145_near
#print axioms Verif.FpQClosestP.C145_equation
#print axioms Verif.FpQLeftP.C151_arc
#print axioms Verif.FpQLeftP.C151_side_partial
#print axioms Verif.FpQLeftP.C151_rotation
#print axioms Verif.FpQLeftP.C151_chord
#print axioms Verif.FpQLeftP.C151_two
#print axioms Verif.FpQLeftP.C151_leak_fails
#print axioms Verif.FpQLeftP.C151_overlap_fails
#print axioms Verif.PropsFpQLength.C147_formula
#print axioms Verif.PropsFpQLength.C147_length_partial
#print axioms Verif.PropsFpQLength.C147_straight
#print axioms Verif.PropsFpQLength.C147_perimeter
#print axioms Verif.PropsFpQLength.C147_perimeter_none
#print axioms Verif.PropsFpQLength.C147_length_fails
#print axioms Verif.FpQRayP.C144_sound
#print axioms Verif.FpQRayP.C144_clear
#print axioms Verif.FpQRayP.C144_behind
#print axioms Verif.FpQRayP.C144_found
#print axioms Verif.FpQRayP.C144_both
#print axioms Verif.FpQRayP.C144_size
#print axioms Verif.FpQRayP.C144_cell
#print axioms Verif.FpQRayP.C144_leak_fails
#print axioms Verif.FpQuadP.C143_nodes
#print axioms Verif.FpQuadP.C143_interpolate
#print axioms Verif.FpQuadP.C143_interpolate_unit
#print axioms Verif.FpQuadP.C143_reverse
#print axioms Verif.FpQuadP.C143_jacobian
#print axioms Verif.FpQuadP.C143_box_ends
#print axioms Verif.FpQuadP.C143_box
#print axioms Verif.FpQuadP.C143_box_tight
#print axioms Verif.FpQuadP.C143_box_fails
#print axioms Verif.FpQuadP.C143_enclosed
#print axioms Verif.FpQuadP.C143_curvesLeft
#print axioms Verif.FpQuadP.C143_straight
#print axioms Verif.FpQuadP.C143_straight_complete
#print axioms Verif.FpQuadP.C143_straight_midpoint
#print axioms Verif.FpQuadP.C143_triangle
#print axioms Verif.FpQuadP.C143_quadrilateral
#print axioms Verif.FpQuadP.C143_triangle_convex
#print axioms Verif.FpQuadP.C143_triangle_straight
#print axioms Verif.FpRayP.C128_seen
#print axioms Verif.FpRayP.C128_seen_exact
#print axioms Verif.FpRayP.C128_parallel
#print axioms Verif.FpRayP.C128_hit
#print axioms Verif.FpRayP.C128_complete
#print axioms Verif.FpRayP.C128_miss
#print axioms Verif.FpRayP.C128_polygon
#print axioms Verif.FpRayP.C128_leak_fails
#print axioms Verif.FpRaysP.C136_defined
#print axioms Verif.FpRaysP.C136_count
#print axioms Verif.FpRaysP.C136_origins
#print axioms Verif.FpRaysP.C136_spacing
#print axioms Verif.FpRaysP.C136_hits
#print axioms Verif.FpRaysP.C136_cyclic
#print axioms Verif.FpRaysP.C136_trig
#print axioms Verif.FpRaysP.C136_trig_double
#print axioms Verif.FpRaysP.C136_outside_fails
#print axioms Verif.FpRaysP.C136_same_fails
#print axioms Verif.Fp.C138_ids
#print axioms Verif.Fp.C138_tiling
#print axioms Verif.Fp.C138_equal
#print axioms Verif.Fp.C138_drift_fails
#print axioms Verif.Fp.C138_far_fails
#print axioms Verif.FpRootsP.C122_none
#print axioms Verif.FpRootsP.C122_roots
#print axioms Verif.FpRootsP.C122_double
#print axioms Verif.FpRootsP.C122_linear
#print axioms Verif.FpStatsP.C124_sum
#print axioms Verif.FpStatsP.C124_sum_int
#print axioms Verif.FpStatsP.C124_mean
#print axioms Verif.FpStatsP.C124_mean_fails
#print axioms Verif.FpStatsP.C124_median
#print axioms Verif.FpStatsP.C124_variance_nonneg
#print axioms Verif.FpStatsP.C124_variance_equal
#print axioms Verif.FpStatsP.C124_variance_error
#print axioms Verif.FpStatsP.C124_variance_fails
#print axioms Verif.Fp.C137_mean
#print axioms Verif.Fp.C137_error
#print axioms Verif.Fp.C137_fissile
#print axioms Verif.Fp.C137_balance
#print axioms Verif.Fp.C137_uniform_fails
#print axioms Verif.Fp.C137_macro
#print axioms Verif.Fp.C137_macro_balance
#print axioms Verif.Fp.C137_collapse
#print axioms Verif.Fp.C137_collapse_balance
#print axioms Verif.Fp.C137_collapse_assert
#print axioms Verif.Fp.C137_collapse_assert_fails
#print axioms Verif.Cmfd.C98_points
#print axioms Verif.Cmfd.C98_exact
#print axioms Verif.Cmfd.C98_rounded
#print axioms Verif.Cmfd.C98_any
#print axioms Verif.Cmfd.C98_roots
#print axioms Verif.Cmfd.C98_angles
#print axioms Verif.Geom.C26_closest
#print axioms Verif.Geom.C26_ends
#print axioms Verif.Geom.C27_intersect
#print axioms Verif.Geom.C27_parallel
#print axioms Verif.Geom.C27_isLeft
#print axioms Verif.Geom.C27_polygon
#print axioms Verif.Geom.C28_area
#print axioms Verif.Geom.C28_contains
#print axioms Verif.Geom.C28_maps
#print axioms Verif.Geom.C28_image
#print axioms Verif.Geom.C28_flip
#print axioms Verif.Geom.C28_degenerate_fails
#print axioms Verif.Geom.C29_area
#print axioms Verif.Geom.C29_maps
#print axioms Verif.Geom.C29_contains
#print axioms Verif.Geom.C29_centroid
#print axioms Verif.Geom.C30_translation
#print axioms Verif.Geom.C30_rotation
#print axioms Verif.Geom.C30_reversal
#print axioms Verif.Geom.C30_cut
#print axioms Verif.Geom.C30_triangle
#print axioms Verif.Geom.C30_fan
#print axioms Verif.Geom.C30_centroid
#print axioms Verif.Geom.C30_centroid_triangle
#print axioms Verif.Geom.C30_centroid_cut
#print axioms Verif.GmshGroups.C89_check
#print axioms Verif.GmshGroups.C89_check_defined
#print axioms Verif.GmshGroups.C89_groups
#print axioms Verif.GmshGroups.C89_members
#print axioms Verif.GmshGroups.C89_defined
#print axioms Verif.GmshGroups.C89_region
#print axioms Verif.GmshGroups.C89_fragment
#print axioms Verif.GmshGroups.C89_intersect
#print axioms Verif.GmshGroups.C89_cut
#print axioms Verif.GmshGroups.C89_add
#print axioms Verif.GmshGroups.C89_add_defined
#print axioms Verif.GmshGroups.C90_hierarchy
#print axioms Verif.GmshGroups.C90_groups
#print axioms Verif.GmshGroups.C90_once
#print axioms Verif.GmshGroups.C90_kept
#print axioms Verif.GmshGroups.C90_region
#print axioms Verif.GmshGroups.C90_color
#print axioms Verif.GmshGroups.C90_defined
#print axioms Verif.GmshGroups.C90_twice_fails
#print axioms Verif.GmshGroups.C90_names_fails
#print axioms Verif.GmshGroups.C90_none_fails
#print axioms Verif.InfoSpec.C96_roundtrip
#print axioms Verif.InfoSpec.C96_colors
#print axioms Verif.InfoSpec.C96_numbers
#print axioms Verif.InfoSpec.C96_name
#print axioms Verif.InfoSpec.C96_quote_fails
#print axioms Verif.InfoSpec.C96_tags_fails
#print axioms Verif.InfoSpec.C96_curve_fails
#print axioms Verif.InfoSpec.C96_folder_fails
#print axioms Verif.InfoSpec.C96_number
#print axioms Verif.InfoSpec.C96_short_fails
#print axioms Verif.InfoSpec.C96_sorted
#print axioms Verif.InfoSpec.C96_stream
#print axioms Verif.GmshMesh.C148_faces_state
#print axioms Verif.GmshMesh.C148_faces_partial
#print axioms Verif.GmshMesh.C148_faces_fails
#print axioms Verif.GmshMesh.C148_restart
#print axioms Verif.GmshMesh.C148_options
#print axioms Verif.GmshMesh.C148_other
#print axioms Verif.GmshMesh.C148_size
#print axioms Verif.GmshMesh.C148_initialize
#print axioms Verif.GmshMesh.C148_finalize
#print axioms Verif.PinsP.C94_accepts
#print axioms Verif.PinsP.C94_pin
#print axioms Verif.PinsP.C94_points
#print axioms Verif.PinsP.C95_lattice
#print axioms Verif.PinsP.C95_refuses
#print axioms Verif.PinsP.C95_points
#print axioms Verif.PinsP.C94_equal_fails
#print axioms Verif.PinsP.C95_radii_fails
#print axioms Verif.PinsP.C95_materials_fails
#print axioms Verif.PinsP.C95_empty_fails
#print axioms Verif.Grid.C35_total
#print axioms Verif.Grid.C35_flat
#print axioms Verif.Grid.C35_injective
#print axioms Verif.Grid.C35_surjective
#print axioms Verif.Grid.C35_rectilinear
#print axioms Verif.Grid.C36_tiling
#print axioms Verif.Grid.C36_centroid
#print axioms Verif.Grid.C36_index
#print axioms Verif.Grid.C36_cell
#print axioms Verif.Grid.C37_range
#print axioms Verif.Grid.C37_undefined
#print axioms Verif.Heights.C66_listing
#print axioms Verif.Heights.C66_assembly
#print axioms Verif.Heights.C66_cycle_fails
#print axioms Verif.Heights.C66_order_partial
#print axioms Verif.Heights.C66_sorted_partial
#print axioms Verif.ProgramsP.C107_points
#print axioms Verif.ProgramsP.C107_lattices
#print axioms Verif.ProgramsP.C107_fragments
#print axioms Verif.LapackP.C134_solve
#print axioms Verif.LapackP.C134_inverse
#print axioms Verif.LapackP.C134_singular
#print axioms Verif.LapackP.C134_shapes
#print axioms Verif.LapackP.C134_singular_fails
#print axioms Verif.LapackP.C134_eigvals
#print axioms Verif.Logger.C17_overflow_iff
#print axioms Verif.Logger.C17_overflow_fails
#print axioms Verif.Logger.C17_message_partial
#print axioms Verif.Logger.C17_history_partial
#print axioms Verif.Logger.C17_timestamp
#print axioms Verif.Logger.C17_timestamp_fails
#print axioms Verif.Phys.C56_table
#print axioms Verif.Phys.C56_weight
#print axioms Verif.Phys.C56_weight_total
#print axioms Verif.Phys.C56_weight_unknown_fails
#print axioms Verif.Phys.C56_atoms
#print axioms Verif.Phys.C56_uo2_partial
#print axioms Verif.Phys.C56_uo2_negative_fails
#print axioms Verif.Mx.C22_mulVec
#print axioms Verif.Mx.C22_mul_exact
#print axioms Verif.Mx.C22_mul_partial
#print axioms Verif.Mx.C22_mul_fails
#print axioms Verif.Mx.C22_inv
#print axioms Verif.Mx.C22_inv_singular
#print axioms Verif.Mx.C22_rotation
#print axioms Verif.Mx.C23_mulVec
#print axioms Verif.Mx.C23_matmul_exact
#print axioms Verif.Mx.C23_mul
#print axioms Verif.Mx.C23_blas
#print axioms Verif.Mx.C23_matmul_partial
#print axioms Verif.Mx.C23_matmul_fails
#print axioms Verif.Mesh.C41_populateVF
#print axioms Verif.Mesh.C41_membership
#print axioms Verif.Mesh.C41_out_of_range
#print axioms Verif.Mesh.C42_sortVertices
#print axioms Verif.Mesh.C42_sortFaces
#print axioms Verif.Mesh.C42_sortFaces_undefined
#print axioms Verif.Mesh.C42_mortonSort
#print axioms Verif.Mesh.C42_codes_defined
#print axioms Verif.Mesh.C42_triangles_at_origin
#print axioms Verif.Mesh.C42_away_from_origin_fails
#print axioms Verif.Mesh.C41_flag
#print axioms Verif.Mesh.C43_faceContaining
#print axioms Verif.Mesh.C43_triangles
#print axioms Verif.MeshCheck.C44_accepts_iff
#print axioms Verif.MeshCheck.C44_terminates
#print axioms Verif.MeshCheck.C44_undefined_iff
#print axioms Verif.MeshCheck.C44_oriented_partial
#print axioms Verif.MeshCheck.C44_mesh_edges
#print axioms Verif.MeshCheck.C44_overlap_fails
#print axioms Verif.KnSpec.C97_accepted
#print axioms Verif.KnSpec.C97_size
#print axioms Verif.KnSpec.C97_cover
#print axioms Verif.KnSpec.C97_knudsen
#print axioms Verif.KnSpec.C97_growth
#print axioms Verif.KnSpec.C97_text
#print axioms Verif.KnSpec.C97_same_fails
#print axioms Verif.Mesh.C82_of_soup_partial
#print axioms Verif.Mesh.C82_to_soup
#print axioms Verif.Mesh.C82_round_trip
#print axioms Verif.Mesh.C82_rejects
#print axioms Verif.Mesh.C82_nonplanar_fails
#print axioms Verif.Mesh.C82_types
#print axioms Verif.Mesh.C83_pass
#print axioms Verif.Mesh.C83_triangles
#print axioms Verif.Mesh.C83_quads_partial
#print axioms Verif.Mesh.C83_tri6
#print axioms Verif.Mesh.C83_dart_fails
#print axioms Verif.Mesh.C83_quad8_fails
#print axioms Verif.MFiles.C87_volumes_partial
#print axioms Verif.MFiles.C87_unused_fails
#print axioms Verif.MFiles.C87_conserve
#print axioms Verif.MFiles.C87_index
#print axioms Verif.MFiles.C87_chord_partial
#print axioms Verif.MFiles.C87_nothing_fails
#print axioms Verif.ModelSoup.C99_soup_partial
#print axioms Verif.ModelSoup.C99_many_fails
#print axioms Verif.ModelSoup.C99_refused
#print axioms Verif.MFiles.C88_name
#print axioms Verif.MFiles.C88_input_partial
#print axioms Verif.MFiles.C88_void_fails
#print axioms Verif.MFiles.C88_xs_partial
#print axioms Verif.MFiles.C88_groups_fails
#print axioms Verif.MFiles.C88_more_fails
#print axioms Verif.MFiles.C87_text
#print axioms Verif.PropsModelXdmf.C64_roundtrip_partial
#print axioms Verif.PropsModelXdmf.C64_corrected
#print axioms Verif.PropsModelXdmf.C64_flatten
#print axioms Verif.PropsModelXdmf.C64_moves
#print axioms Verif.PropsModelXdmf.C64_two_lattices_fails
#print axioms Verif.PropsModelXdmf.C64_exchanged_fails
#print axioms Verif.Morton.C14_pext_pdep
#print axioms Verif.Morton.C14_pdep_pext
#print axioms Verif.Morton.C14_encode2_32
#print axioms Verif.Morton.C14_encode2BMI_32
#print axioms Verif.Morton.C14_encode3_32
#print axioms Verif.Morton.C14_encode3BMI_32
#print axioms Verif.Morton.C14_encode2_agree_32
#print axioms Verif.Morton.C14_encode3_agree_32
#print axioms Verif.Morton.C14_decode2_agree_32
#print axioms Verif.Morton.C14_decode3_agree_32
#print axioms Verif.Morton.C14_decode3_agree_32_fails
#print axioms Verif.Morton.C14_encode3_32_lt
#print axioms Verif.Morton.C14_roundtrip2_32
#print axioms Verif.Morton.C14_roundtrip3_32
#print axioms Verif.Morton.C14_roundtrip2BMI_32
#print axioms Verif.Morton.C14_roundtrip3BMI_32
#print axioms Verif.Morton.C14_decode2_encode_32
#print axioms Verif.Morton.C15_injective2_32
#print axioms Verif.Morton.C15_injective3_32
#print axioms Verif.Morton.C15_monotone2_32
#print axioms Verif.Morton.C15_monotone3_32
#print axioms Verif.Morton.C14_encode2_64
#print axioms Verif.Morton.C14_encode2BMI_64
#print axioms Verif.Morton.C14_encode3_64
#print axioms Verif.Morton.C14_encode3BMI_64
#print axioms Verif.Morton.C14_encode2_agree_64
#print axioms Verif.Morton.C14_encode3_agree_64
#print axioms Verif.Morton.C14_decode2_agree_64
#print axioms Verif.Morton.C14_decode3_agree_64
#print axioms Verif.Morton.C14_decode3_agree_64_fails
#print axioms Verif.Morton.C14_encode3_64_lt
#print axioms Verif.Morton.C14_roundtrip2_64
#print axioms Verif.Morton.C14_roundtrip3_64
#print axioms Verif.Morton.C14_roundtrip2BMI_64
#print axioms Verif.Morton.C14_roundtrip3BMI_64
#print axioms Verif.Morton.C14_decode2_encode_64
#print axioms Verif.Morton.C15_injective2_64
#print axioms Verif.Morton.C15_injective3_64
#print axioms Verif.Morton.C15_monotone2_64
#print axioms Verif.Morton.C15_monotone3_64
#print axioms Verif.MortonPoints.C16_code2_monotone
#print axioms Verif.MortonPoints.C16_code3_monotone
#print axioms Verif.MortonPoints.C16_code2_cells
#print axioms Verif.MortonPoints.C16_mortonLess_strictWeak
#print axioms Verif.MortonPoints.C16_mortonSort
#print axioms Verif.MortonPoints.C16_mortonSortPermutation
#print axioms Verif.Mpact.C57_valid_partial
#print axioms Verif.Mpact.C57_uniform
#print axioms Verif.Mpact.C57_meshless_fails
#print axioms Verif.Mpact.C58_accepted
#print axioms Verif.Mpact.C58_rejected_partial
#print axioms Verif.Mpact.C58_coarseCell
#print axioms Verif.Mpact.C58_rectangular_fails
#print axioms Verif.Mpact.C58_pinCell_fails
#print axioms Verif.Mpact.C58_pinCell_meshless_fails
#print axioms Verif.Mpact.C58_rtm
#print axioms Verif.Mpact.C58_lattice
#print axioms Verif.Mpact.C58_assembly
#print axioms Verif.Mpact.C57_ragged_fails
#print axioms Verif.Mpact.C67_pinCell_partial
#print axioms Verif.Mpact.C67_import_range
#print axioms Verif.Mpact.C67_import_partial
#print axioms Verif.Mpact.C67_import_alias_fails
#print axioms Verif.Mpact.C67_import_negative_fails
#print axioms Verif.Mpact.C67_import_255_fails
#print axioms Verif.Mpact.C67_pinCell_alias_fails
#print axioms Verif.Mpact.C67_pinCell_128_fails
#print axioms Verif.Mpact.C67_import_abort_fails
#print axioms Verif.Mpact.C59_totals
#print axioms Verif.Mpact.C59_chords_partial
#print axioms Verif.Mpact.C59_meshless_fails
#print axioms Verif.Mpact.C59_meshless_ub_fails
#print axioms Verif.Names.C63_number
#print axioms Verif.Names.C63_injective
#print axioms Verif.Names.C63_increment
#print axioms Verif.Names.C63_sequential
#print axioms Verif.Names.C63_count
#print axioms Verif.Names.C63_overflow_fails
#print axioms Verif.Names.C63_nines_fails
#print axioms Verif.Names.C63_wrap_fails
#print axioms Verif.Roots.C72_eval
#print axioms Verif.Roots.C72_start
#print axioms Verif.Roots.C72_stops
#print axioms Verif.Roots.C72_converges
#print axioms Verif.Roots.C72_roots
#print axioms Verif.Roots.C72_start_partial
#print axioms Verif.Roots.C72_lambda_fails
#print axioms Verif.Nuclide.C52_zaid
#print axioms Verif.Nuclide.C52_unknown
#print axioms Verif.Nuclide.C52_injective
#print axioms Verif.NuscaleP.C114_nuscale_partial
#print axioms Verif.NuscaleP.C114_pitch_fails
#print axioms Verif.NuscaleP.C114_gad_fails
#print axioms Verif.NuscaleP.C114_fragments
#print axioms Verif.NuscaleP.C114_cutting
#print axioms Verif.Order.C13_vecLt_spec
#print axioms Verif.Order.C13_vecEq_spec
#print axioms Verif.Order.C13_vec_strict_total
#print axioms Verif.Order.C13_pair
#print axioms Verif.Order.C13_pair_trans
#print axioms Verif.Order.C13_min_max
#print axioms Verif.Order.C13_clamp
#print axioms Verif.Order.C13_lexCompare
#print axioms Verif.Order.C13_maxElement
#print axioms Verif.Order.C13_isSorted
#print axioms Verif.OverlayGrid.C91_first_partial
#print axioms Verif.OverlayGrid.C91_unplaced_fails
#print axioms Verif.OverlayGrid.C91_apart
#print axioms Verif.OverlayGrid.C91_tolerance_fails
#print axioms Verif.OverlayGroups.C92_defined
#print axioms Verif.OverlayGroups.C92_removed
#print axioms Verif.OverlayGroups.C92_wf
#print axioms Verif.OverlayGroups.C92_cells
#print axioms Verif.OverlayGroups.C92_fill
#print axioms Verif.OverlayGroups.C92_one
#print axioms Verif.OverlayGroups.C92_keeps
#print axioms Verif.OverlayGroups.C92_rest
#print axioms Verif.OverlayGroups.C92_region
#print axioms Verif.OverlayGroups.C92_color
#print axioms Verif.OverlayGroups.C92_name_fails
#print axioms Verif.OverlayGroups.C92_swap_fails
#print axioms Verif.OverlayGroups.C92_again_fails
#print axioms Verif.OverlaySurfaces.C93_defined
#print axioms Verif.OverlaySurfaces.C93_removed
#print axioms Verif.OverlaySurfaces.C93_groups
#print axioms Verif.OverlaySurfaces.C93_one
#print axioms Verif.OverlaySurfaces.C93_whole
#print axioms Verif.OverlaySurfaces.C93_shared_fails
#print axioms Verif.Grid.C39_partition
#print axioms Verif.Grid.C39_flatten
#print axioms Verif.Grid.C39_ragged
#print axioms Verif.Grid.C39_mapFlat
#print axioms Verif.Grid.C39_roundtrip
#print axioms Verif.Grid.C39_coarseGrid
#print axioms Verif.PropsPinAccept.C112_factors
#print axioms Verif.PropsPinAccept.C112_linear_partial
#print axioms Verif.PropsPinAccept.C112_quadratic_partial
#print axioms Verif.PropsPinAccept.C112_finer
#print axioms Verif.PropsPinAccept.C112_half_pitch_fails
#print axioms Verif.PropsPinArea.C61_linear_rings
#print axioms Verif.PropsPinArea.C61_linear_total
#print axioms Verif.PropsPinArea.C61_quadratic_rings
#print axioms Verif.PropsPinArea.C61_quadratic_total
#print axioms Verif.PropsPinArea.C61_tolerance
#print axioms Verif.ModularP.C111_modular
#print axioms Verif.PropsPinAccept.C112_tolerance_linear
#print axioms Verif.PropsPinAccept.C112_tolerance_quadratic
#print axioms Verif.PropsPinTopo.C60_linear
#print axioms Verif.PropsPinTopo.C60_quadratic
#print axioms Verif.Post.C104_chords_partial
#print axioms Verif.Post.C104_elements_partial
#print axioms Verif.Post.C104_edges_partial
#print axioms Verif.Post.C104_unplaced_fails
#print axioms Verif.Post.C105_spectrum_partial
#print axioms Verif.Post.C105_ids_fails
#print axioms Verif.Post.C105_limit_fails
#print axioms Verif.Post.C105_kinds
#print axioms Verif.Post.C105_info_partial
#print axioms Verif.Post.C105_repeat_fails
#print axioms Verif.Post.C105_written_partial
#print axioms Verif.Post.C105_powers
#print axioms Verif.Post.C103_text
#print axioms Verif.Post.C103_unique
#print axioms Verif.Post.C103_exact
#print axioms Verif.Post.C103_collision_fails
#print axioms Verif.Post.C103_zero_fails
#print axioms Verif.Post.C103_lines
#print axioms Verif.PropsPower.C65_components_partial
#print axioms Verif.PropsPower.C65_short
#print axioms Verif.PropsPower.C65_exact
#print axioms Verif.PropsPower.C65_large
#print axioms Verif.PropsPower.C65_kinds
#print axioms Verif.PropsPower.C65_tolerance_fails
#print axioms Verif.PowerFileP.C133_data
#print axioms Verif.PowerFileP.C133_powers_partial
#print axioms Verif.PowerFileP.C133_total
#print axioms Verif.PowerFileP.C133_refused
#print axioms Verif.PowerFileP.C133_types
#print axioms Verif.PowerFileP.C133_ids_fails
#print axioms Verif.Power.C65_tri
#print axioms Verif.Power.C65_quad
#print axioms Verif.Power.C65_tri6
#print axioms Verif.Power.C65_quad8
#print axioms Verif.QCross.C78_sound
#print axioms Verif.QCross.C78_distinct
#print axioms Verif.QCross.C78_agree
#print axioms Verif.QCross.C78_keeps_partial
#print axioms Verif.QCross.C78_straight
#print axioms Verif.QCross.C78_parallel
#print axioms Verif.QCross.C78_self
#print axioms Verif.QCross.C78_straight_polygon
#print axioms Verif.QCross.C78_fix
#print axioms Verif.QCross.C78_fix_none_fails
#print axioms Verif.QCross.C78_miss_fails
#print axioms Verif.QCross.C78_false_fails
#print axioms Verif.QCross.C78_bowtie_fails
#print axioms Verif.QCross.C78_four_fails
#print axioms Verif.Geom.C75_closest
#print axioms Verif.Geom.C75_straight
#print axioms Verif.Geom.C75_straight_fails
#print axioms Verif.Geom.C77_left_of_all
#print axioms Verif.Geom.C77_contains_partial
#print axioms Verif.Geom.C77_lean_fails
#print axioms Verif.Geom.C76_isLeft
#print axioms Verif.Geom.C76_straight
#print axioms Verif.Geom.C76_on_curve
#print axioms Verif.Geom.C74_length
#print axioms Verif.Geom.C74_straight
#print axioms Verif.Geom.C74_perimeter
#print axioms Verif.Geom.C74_collinear_fails
#print axioms Verif.Geom.C74_overshoot_fails
#print axioms Verif.Geom.C73_intersect
#print axioms Verif.Geom.C73_polygon
#print axioms Verif.Geom.C68_tri6_area
#print axioms Verif.Geom.C68_quad8_area
#print axioms Verif.Geom.C68_tri6_flip
#print axioms Verif.Geom.C68_tri6_det
#print axioms Verif.Geom.C68_quad8_det
#print axioms Verif.Geom.C68_enclosedCentroid
#print axioms Verif.Geom.C68_tri6_centroid
#print axioms Verif.Geom.C68_quad8_centroid
#print axioms Verif.Geom.C31_interpolate
#print axioms Verif.Geom.C31_jacobian
#print axioms Verif.Geom.C31_boundingBox
#print axioms Verif.Geom.C31_enclosedArea
#print axioms Verif.Geom.C31_curvesLeft
#print axioms Verif.Geom.C31_bezier
#print axioms Verif.Geom.C31_bisection
#print axioms Verif.Geom.C32_tri6_nodes
#print axioms Verif.Geom.C32_quad8_nodes
#print axioms Verif.Geom.C32_tri6_edges
#print axioms Verif.Geom.C32_quad8_edges
#print axioms Verif.Geom.C32_tri6_jacobian
#print axioms Verif.Geom.C32_quad8_jacobian
#print axioms Verif.Geom.C33_tri
#print axioms Verif.Geom.C33_quad
#print axioms Verif.Geom.C33_tri6
#print axioms Verif.Geom.C33_quad8_partial
#print axioms Verif.Geom.C33_quad8_fails
#print axioms Verif.RaySort.C45_sorted
#print axioms Verif.RaySort.C45_intersect
#print axioms Verif.RaySort.C45_key_first_smallest
#print axioms Verif.RaySort.C45_key_fails
#print axioms Verif.Rays.C34_defined
#print axioms Verif.Rays.C34_right_angle_undefined
#print axioms Verif.Rays.C34_origins
#print axioms Verif.Rays.C34_spacing
#print axioms Verif.Rays.C34_cyclic
#print axioms Verif.Grid.C38_boxes
#print axioms Verif.Grid.C38_exact
#print axioms Verif.Grid.C38_tiling
#print axioms Verif.Grid.C38_ids
#print axioms Verif.Grid.C38_undefined
#print axioms Verif.PropsRectPin.C62_boxes
#print axioms Verif.PropsRectPin.C62_conforming
#print axioms Verif.PropsRectPin.C62_cover
#print axioms Verif.PropsRectPin.C62_disjoint
#print axioms Verif.PropsRectPin.C62_area
#print axioms Verif.PropsRectPin.C62_accepts
#print axioms Verif.RelP.C132_equal
#print axioms Verif.RelP.C132_order
#print axioms Verif.RelP.C132_pair
#print axioms Verif.RelP.C132_iota
#print axioms Verif.RelP.C132_max_size
#print axioms Verif.RelP.C132_nan_fails
#print axioms Verif.Roots.C20_factor
#print axioms Verif.Roots.C20_none
#print axioms Verif.Roots.C20_linear
#print axioms Verif.Roots.C20_roots
#print axioms Verif.Roots.C21_deflate
#print axioms Verif.Roots.C21_roots
#print axioms Verif.Roots.C21_degenerate
#print axioms Verif.SelfFix.C100_clean
#print axioms Verif.SelfFix.C100_unchanged
#print axioms Verif.SelfFix.C100_extent_partial
#print axioms Verif.SelfFix.C100_defined
#print axioms Verif.SelfFix.C100_message
#print axioms Verif.SelfFix.C100_validate_partial
#print axioms Verif.SelfFix.C100_endless_fails
#print axioms Verif.SelfFix.C100_boundary_fails
#print axioms Verif.Vector.C03_relocations
#print axioms Verif.Box.C24_scale_corners
#print axioms Verif.CHeapP.C153_negative_size
#print axioms Verif.XData.C140_single
#print axioms Verif.XData.C140_double
#print axioms Verif.Polytope.C46_step
#print axioms Verif.Polytope.C46_history
#print axioms Verif.Polytope.C46_getElement
#print axioms Verif.Polytope.C46_getElset
#print axioms Verif.Polytope.C46_getElsetByName
#print axioms Verif.Polytope.C46_stale_data_fails
#print axioms Verif.Polytope.C46_elemTypes
#print axioms Verif.Polytope.C48_append
#print axioms Verif.Polytope.C48_wellformed_partial
#print axioms Verif.Polytope.C48_empty_other_fails
#print axioms Verif.Polytope.C48_self_append_fails
#print axioms Verif.Polytope.C48_data_mismatch_fails
#print axioms Verif.Polytope.C47_sortElsets
#print axioms Verif.Polytope.C47_no_sets_fails
#print axioms Verif.Polytope.C49_subset
#print axioms Verif.Polytope.C49_rejected
#print axioms Verif.Polytope.C49_nonempty_target_fails
#print axioms Verif.Source.C79_source_partial
#print axioms Verif.Source.C79_rejects
#print axioms Verif.Source.C79_order_fails
#print axioms Verif.Source.C79_missing_fails
#print axioms Verif.Source.C79_names_fails
#print axioms Verif.Source.C79_material_fails
#print axioms Verif.Source.C79_convert
#print axioms Verif.Source.C106_sources_partial
#print axioms Verif.Source.C106_again_fails
#print axioms Verif.Source.C106_rejects
#print axioms Verif.Stats.C18_sum
#print axioms Verif.Stats.C18_mean
#print axioms Verif.Stats.C19_variance
#print axioms Verif.Stats.C19_single
#print axioms Verif.Stats.C19_variance_nonneg
#print axioms Verif.Stats.C19_stdDev
#print axioms Verif.Stats.C19_median
#print axioms Verif.Str.C04_history
#print axioms Verif.Str.C04_inline
#print axioms Verif.Str.C05_ownership
#print axioms Verif.Str.C05_no_leak
#print axioms Verif.StrView.C07_compare
#print axioms Verif.StrView.C07_operators
#print axioms Verif.StrView.C07_strict_total
#print axioms Verif.StrView.C07_unsigned_partial
#print axioms Verif.StrView.C07_unsigned_fails
#print axioms Verif.StrView.C08_find_first_of
#print axioms Verif.StrView.C08_find_first_not_of
#print axioms Verif.StrView.C08_find_last_of
#print axioms Verif.StrView.C08_find_view
#print axioms Verif.StrView.C08_prefix_suffix
#print axioms Verif.StrView.C06_numeric_exact
#print axioms Verif.StrView.C06_integer
#print axioms Verif.StrView.C06_float_partial
#print axioms Verif.StrView.C06_float_fails
#print axioms Verif.StrView.C06_text
#print axioms Verif.SveaP.C119_assembly_partial
#print axioms Verif.SveaP.C119_frame
#print axioms Verif.SveaP.C119_order
#print axioms Verif.SveaP.C119_order_fails
#print axioms Verif.StrView.C09_fields_spec
#print axioms Verif.StrView.C09_tokens
#print axioms Verif.StrView.C09_progress
#print axioms Verif.StrView.C10_exact
#print axioms Verif.StrView.C10_partial
#print axioms Verif.StrView.C10_naturals_delimited
#print axioms Verif.StrView.C10_blank_line_fails
#print axioms Verif.StrView.C10_blank_field_fails
#print axioms Verif.VTKFile.C84_read_partial
#print axioms Verif.VTKFile.C84_words
#print axioms Verif.VTKFile.C84_edge_fails
#print axioms Verif.VTKFile.C84_refused
#print axioms Verif.VTKFile.C84_lossless
#print axioms Verif.VTKFile.C84_long_line_fails
#print axioms Verif.VTKFile.C84_sound
#print axioms Verif.VTKFile.C84_two_points_fails
#print axioms Verif.VTKFile.C84_planar_fails
#print axioms Verif.VTKFile.C84_no_blank_fails
#print axioms Verif.VTKFile.C84_adjacent_fails
#print axioms Verif.VTKFile.C84_second_array_fails
#print axioms Verif.VTKFile.C84_missing_fails
#print axioms Verif.VTKFile.C84_count_fails
#print axioms Verif.VTKFile.C84_pentagon_fails
#print axioms Verif.Vector.C01_history
#print axioms Verif.Vector.C01_copy_move
#print axioms Verif.Vector.C02_own_element_trivial
#print axioms Verif.Vector.C02_own_element_partial
#print axioms Verif.Vector.C02_own_element_fails
#print axioms Verif.Vector.C03_amortised
#print axioms Verif.Vector.C03_capacity_monotone
#print axioms Verif.Vector.C03_growth_range
#print axioms Verif.Vera1P.C118_cell
#print axioms Verif.Vera1P.C118_densities
#print axioms Verif.Vera1P.C118_compositions
#print axioms Verif.Vera1P.C118_isotopes
#print axioms Verif.Vera1P.C118_helium_fails
#print axioms Verif.Vera4P.C110_vera4_partial
#print axioms Verif.Vera4P.C110_tubes_fails
#print axioms Verif.Vera4MP.C111_vera4
#print axioms Verif.Vera4MP.C111_same_pins_fails
#print axioms Verif.XDMF.C50_topology_partial
#print axioms Verif.XDMF.C50_quadratic_edges_fails
#print axioms Verif.XDMF.C50_code_wrap_fails
#print axioms Verif.XDMF.C50_lines_fails
#print axioms Verif.XDMF.C69_grid_partial
#print axioms Verif.XDMF.C69_vertices
#print axioms Verif.XDMF.C69_name_clash_fails
#print axioms Verif.XDMF.C69_flat_fails
#print axioms Verif.XSLib.C81_read_partial
#print axioms Verif.XSLib.C81_table
#print axioms Verif.XSLib.C81_unsound
#print axioms Verif.XSLib.C81_missing_fails
#print axioms Verif.XSLib.C81_extra_fails
#print axioms Verif.XSLib.C81_stream
#print axioms Verif.XSLib.C81_rejects
#print axioms Verif.XSLib.C81_trailing_fails
#print axioms Verif.XSLib.C81_columns
#print axioms Verif.XSValid.C101_returns
#print axioms Verif.XSValid.C101_silent
#print axioms Verif.XSValid.C101_warnings
#print axioms Verif.XSValid.C101_defined_partial
#print axioms Verif.XSValid.C101_exit_fails
#print axioms Verif.XSValid.C101_matrix_fails
#print axioms Verif.XSValid.C101_properties
#print axioms Verif.XSValid.C101_xsec
#print axioms Verif.XSValid.C101_collapse
#print axioms Verif.XSValid.C101_medium
#print axioms Verif.XSValid.C101_c5g7
#print axioms Verif.XSValid.C101_c5g7_medium
#print axioms Verif.XSValid.C101_c5g7_materials
#print axioms Verif.Phys.C53_tabulated
#print axioms Verif.Phys.C53_below
#print axioms Verif.Phys.C53_above
#print axioms Verif.Phys.C53_linear
#print axioms Verif.Phys.C53_between
#print axioms Verif.Phys.C53_continuous
#print axioms Verif.Phys.C54_average
#print axioms Verif.Phys.C54_balance
#print axioms Verif.Phys.C55_mean
#print axioms Verif.Phys.C55_bounds
#print axioms Verif.Phys.C55_uniform
#print axioms Verif.Phys.C55_balance
#print axioms Verif.Phys.C71_sum
#print axioms Verif.Phys.C71_interp_balance
#print axioms Verif.Phys.C71_balance
#print axioms Verif.Phys.C71_unknown_fails
#print axioms Verif.XData.C140_widths
#print axioms Verif.XData.C140_ints
#print axioms Verif.XData.C140_round_trip
#print axioms Verif.XData.C140_set
#print axioms Verif.XData.C140_floats
#print axioms Verif.XData.C140_wrap_fails
#print axioms Verif.XData.C140_big_fails
#print axioms Verif.XData.C140_small_fails
#print axioms Verif.XData.C140_count_fails
#print axioms Verif.XData.C140_bits
#print axioms Verif.XdmfFiles.C116_beside
#print axioms Verif.XdmfFiles.C116_round_trip_partial
#print axioms Verif.XdmfFiles.C116_unnamed
#print axioms Verif.XdmfFiles.C116_renamed
#print axioms Verif.XdmfFiles.C116_moved_partial
#print axioms Verif.XdmfFiles.C116_formats
#print axioms Verif.XdmfFiles.C116_root_fails
#print axioms Verif.XdmfFiles.C116_renamed_fails
