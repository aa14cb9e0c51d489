import Verif.Data.Attributes
import Verif.Data.Distance
import Verif.Data.Headers
import Verif.Data.Madmap
import Verif.Data.MadmapFiles
import Verif.Data.Profile
import Verif.Data.PropsMap
import Verif.Data.PropsMask
import Verif.Data.Psd2
import Verif.Data.Sampling
import Verif.Data.Save
import Verif.Dist.Observation
import Verif.Dist.PropsAcq
import Verif.Dist.PropsFile
import Verif.Dist.PropsHeader
import Verif.Dist.PropsObs
import Verif.Dist.PropsPolicy
import Verif.Fits.Astrometry
import Verif.Fits.AstrometryExamples
import Verif.Fits.Examples
import Verif.Fits.Find
import Verif.Fits.Props
import Verif.Fits.Safe
import Verif.Fits.Strings
import Verif.Geometry.Hull
import Verif.Geometry.LayoutGrid
import Verif.Geometry.PropsIntegration
import Verif.Geometry.PropsPip
import Verif.Geometry.PropsPolygons
import Verif.Geometry.PropsShapes
import Verif.Healpix.Conversions
import Verif.Healpix.Laplacian
import Verif.Healpix.Scenes
import Verif.Healpix.Smoothing
import Verif.Operators.Beams
import Verif.Operators.Blocks
import Verif.Operators.Directions
import Verif.Operators.Interferometry
import Verif.Operators.Spectral
import Verif.Operators.Spherical
import Verif.PackedTable.Computed
import Verif.PackedTable.Instrument
import Verif.PackedTable.Missing
import Verif.PackedTable.Props
import Verif.PackedTable.PropsAttr
import Verif.PackedTable.PropsEquiv
import Verif.PackedTable.PropsMpi
import Verif.Pointing.Props
import Verif.Pointing.Props2
import Verif.Pointing.Roi
import Verif.Signal.PropsFolded
import Verif.Signal.PropsInstrument
import Verif.Signal.PropsInterp
import Verif.Signal.PropsNoise
import Verif.Signal.PropsPsd
import Verif.Signal.PropsRoll
import Verif.Signal.PropsTrexp
import Verif.Sort.Props
import Verif.Sort.Reorder
import Verif.Sort.Where
import Verif.Sparse.Memory
import Verif.Sparse.Props
import Verif.Sparse.PropsCoverage
import Verif.Sparse.PropsCtor
import Verif.Sparse.PropsKernel
import Verif.Sparse.PropsPTp
import Verif.Sparse.PropsRestrict
import Verif.Sparse.PropsThreads
import Verif.Sparse.Shapes
import Verif.Stat.Clip
import Verif.Stat.Kahan
import Verif.Stat.Median
import Verif.Stat.MedianProps
import Verif.Stat.Moment
import Verif.Stat.Shift
import Verif.Units.Pixel
import Verif.Units.PropsBroadcast
import Verif.Units.PropsBroadcast2
import Verif.Units.PropsBroadcast3
import Verif.Units.PropsMemory
import Verif.Units.PropsMemory2
import Verif.Units.PropsNumpy
import Verif.Units.PropsNumpy2
import Verif.Units.PropsQuantity
import Verif.Units.PropsUnits
import Verif.Wcs.Combine
import Verif.Wcs.Operators
import Verif.Wcs.Pmatrix
import Verif.Wcs.PropsDegrees
import Verif.Wcs.PropsGnomonic
import Verif.Wcs.PropsHeader
import Verif.Wcs.PropsPlane
import Verif.Wcs.PropsScale
import Verif.Wcs.PropsSphere
import Verif.Wcs.Rotation

/-! The axioms on which every claimed theorem depends, printed by the build. -/

#print axioms Verif.PackedTable.C01_pack_partial
#print axioms Verif.PackedTable.C01_pack_rejects
#print axioms Verif.PackedTable.C01_violation_negative_ints
#print axioms Verif.PackedTable.C01_violation_empty_table
#print axioms Verif.PackedTable.C02_unpack_partial
#print axioms Verif.PackedTable.C02_unpack_rejects
#print axioms Verif.PackedTable.C02_violation_repeated
#print axioms Verif.PackedTable.C03_pack_unpack_partial
#print axioms Verif.PackedTable.C03_unpack_pack_partial
#print axioms Verif.PackedTable.C03_violation_empty_table
#print axioms Verif.PackedTable.C04_slice_partial
#print axioms Verif.PackedTable.C04_slice_negative_partial
#print axioms Verif.PackedTable.C04_zero_step
#print axioms Verif.PackedTable.C04_violation_stop
#print axioms Verif.PackedTable.C04_violation_array
#print axioms Verif.PackedTable.C05_aligned_partial
#print axioms Verif.PackedTable.C05_violation_descending
#print axioms Verif.PackedTable.C06_compose_partial
#print axioms Verif.PackedTable.C06_violation_repeated
#print axioms Verif.PackedTable.C07_len_partial
#print axioms Verif.PackedTable.C07_total_partial
#print axioms Verif.PackedTable.C07_violation_repeated
#print axioms Verif.PackedTable.C08_ints_iff
#print axioms Verif.PackedTable.C08_ints_partial
#print axioms Verif.PackedTable.C08_violation
#print axioms Verif.PackedTable.C09_ordering
#print axioms Verif.PackedTable.C09_ordering_all
#print axioms Verif.PackedTable.C09_rejects
#print axioms Verif.PackedTable.C10_equivalent_partial
#print axioms Verif.PackedTable.C10_same_index_partial
#print axioms Verif.PackedTable.C10_violation_ordering
#print axioms Verif.PackedTable.C10_violation_tuples
#print axioms Verif.PackedTable.C11_split_partial
#print axioms Verif.PackedTable.C11_distinct
#print axioms Verif.PackedTable.C11_violation_repeated
#print axioms Verif.PackedTable.C12_scatter_gather_partial
#print axioms Verif.PackedTable.C12_distinct
#print axioms Verif.PackedTable.C12_gather_array
#print axioms Verif.PackedTable.C12_violation_comm
#print axioms Verif.PackedTable.C12_violation_repeated
#print axioms Verif.PackedTable.C13_distributed_unpack_partial
#print axioms Verif.PackedTable.C13_violation_empty
#print axioms Verif.PackedTable.C14_removed_partial
#print axioms Verif.PackedTable.C14_violation_empty_table
#print axioms Verif.PackedTable.C15_consistent
#print axioms Verif.PackedTable.C15_reserved
#print axioms Verif.PackedTable.C15_rejects
#print axioms Verif.PackedTable.C16_parent_unchanged_partial
#print axioms Verif.PackedTable.C16_fancy_partial
#print axioms Verif.PackedTable.C16_violation
#print axioms Verif.PackedTable.C17_row_column
#print axioms Verif.PackedTable.C18_violation
#print axioms Verif.Units.C19_exponents
#print axioms Verif.Units.C19_wf
#print axioms Verif.Units.C19_group
#print axioms Verif.Units.C19_neutral
#print axioms Verif.Units.C19_powers
#print axioms Verif.Units.C19_violation_zero
#print axioms Verif.Units.C20_canonical_partial
#print axioms Verif.Units.C20_equality_partial
#print axioms Verif.Units.C20_violation_zero
#print axioms Verif.Units.C21_roundtrip
#print axioms Verif.Units.C21_order
#print axioms Verif.Units.C22_amount_partial
#print axioms Verif.Units.C22_roundtrip_partial
#print axioms Verif.Units.C22_transitive_partial
#print axioms Verif.Units.C22_violation_unitless
#print axioms Verif.Units.C23_inunit_partial
#print axioms Verif.Units.C23_unchanged
#print axioms Verif.Units.C23_iff_partial
#print axioms Verif.Units.C23_violation_unitless
#print axioms Verif.Units.C23_violation_power
#print axioms Verif.Units.C24_rejects
#print axioms Verif.Units.C24_same
#print axioms Verif.Units.C24_add
#print axioms Verif.Units.C24_sub
#print axioms Verif.Units.C24_adopt
#print axioms Verif.Units.C24_compare
#print axioms Verif.Units.C24_less
#print axioms Verif.Units.C24_mul_div
#print axioms Verif.Units.C24_power
#print axioms Verif.Units.C25_amount
#print axioms Verif.Units.C25_symbols
#print axioms Verif.Units.C25_idempotent_partial
#print axioms Verif.Units.C25_violation_idempotent
#print axioms Verif.Sparse.C26_fsr_partial
#print axioms Verif.Sparse.C26_rejects
#print axioms Verif.Sparse.C26_violation_empty
#print axioms Verif.Sparse.C27_fsc_partial
#print axioms Verif.Sparse.C27_rejects
#print axioms Verif.Sparse.C27_violation_empty
#print axioms Verif.Sparse.C28_fsr_partial
#print axioms Verif.Sparse.C28_fsc_partial
#print axioms Verif.Sparse.C28_fsr_block_partial
#print axioms Verif.Sparse.C28_fsc_block_partial
#print axioms Verif.Sparse.C28_fsr_rot2d_partial
#print axioms Verif.Sparse.C28_fsc_rot2d_partial
#print axioms Verif.Sparse.C28_fsr_rot3d_partial
#print axioms Verif.Sparse.C28_fsc_rot3d_partial
#print axioms Verif.Sparse.C28_violation_empty
#print axioms Verif.Sparse.C29_col
#print axioms Verif.Sparse.C30_fsr_partial
#print axioms Verif.Sparse.C30_fsc_partial
#print axioms Verif.Sparse.C30_violation_empty
#print axioms Verif.Sparse.C31_fsr_rot2d_partial
#print axioms Verif.Sparse.C31_fsr_rot3d_partial
#print axioms Verif.Sparse.C31_fsc_rot2d_partial
#print axioms Verif.Sparse.C31_fsc_rot3d_partial
#print axioms Verif.Sparse.C31_violation_empty
#print axioms Verif.Sparse.C32_fsr_partial
#print axioms Verif.Sparse.C32_rot2d
#print axioms Verif.Sparse.C32_rot3d
#print axioms Verif.Sparse.C32_violation
#print axioms Verif.Sparse.C33_restrict_fsr_partial
#print axioms Verif.Sparse.C33_restrict_rot2d_partial
#print axioms Verif.Sparse.C33_restrict_rot3d_partial
#print axioms Verif.Sparse.C33_restrict_block_partial
#print axioms Verif.Sparse.C33_corestrict_fsr
#print axioms Verif.Sparse.C33_rejects
#print axioms Verif.Sparse.C33_violation_empty
#print axioms Verif.Sparse.C33_violation_corestrict
#print axioms Verif.Sparse.C34_fsr_partial
#print axioms Verif.Sparse.C34_rot2d_partial
#print axioms Verif.Sparse.C34_rot3d_partial
#print axioms Verif.Sparse.C34_threads_partial
#print axioms Verif.Sparse.C34_violation_race
#print axioms Verif.Sparse.C34_violation_block
#print axioms Verif.Sparse.C34_violation_trailing
#print axioms Verif.Sparse.C34_violation_rot3d
#print axioms Verif.Sparse.C35_fsr_partial
#print axioms Verif.Sparse.C35_rot3d_partial
#print axioms Verif.Sparse.C35_rot2d_partial
#print axioms Verif.Sparse.C35_violation_rot2d
#print axioms Verif.Sparse.C35_violation_block
#print axioms Verif.Sparse.C36_ctor_partial
#print axioms Verif.Sparse.C36_violation
#print axioms Verif.Pointing.C37_indices
#print axioms Verif.Pointing.C37_project_partial
#print axioms Verif.Pointing.C37_violation_one
#print axioms Verif.Pointing.C38_direct_partial
#print axioms Verif.Pointing.C38_zero_partial
#print axioms Verif.Pointing.C38_transpose
#print axioms Verif.Pointing.C38_adjoint_partial
#print axioms Verif.Pointing.C38_violation_one
#print axioms Verif.Pointing.C38_violation_zero
#print axioms Verif.Pointing.C39_isvalid
#print axioms Verif.Pointing.C39_safe
#print axioms Verif.Pointing.C40_transparent_partial
#print axioms Verif.Pointing.C40_failures_partial
#print axioms Verif.Pointing.C40_violation_failure
#print axioms Verif.Pointing.C41_intersects
#print axioms Verif.Pointing.C41_injective
#print axioms Verif.Pointing.C41_violation_outside
#print axioms Verif.Geometry.C42_winding
#print axioms Verif.Geometry.C42_convex
#print axioms Verif.Geometry.C42_sum_convex
#print axioms Verif.Geometry.C42_sum_partial
#print axioms Verif.Geometry.C42_violation
#print axioms Verif.Geometry.C43_rows
#print axioms Verif.Geometry.C43_complete
#print axioms Verif.Geometry.C43_size
#print axioms Verif.Geometry.C43_memory
#print axioms Verif.Geometry.C44_consistent
#print axioms Verif.Geometry.C44_area
#print axioms Verif.Geometry.C44_centred
#print axioms Verif.Geometry.C44_steps
#print axioms Verif.Geometry.C45_shoelace
#print axioms Verif.Geometry.C45_translate
#print axioms Verif.Geometry.C45_cyclic
#print axioms Verif.Geometry.C45_reverse
#print axioms Verif.Geometry.C45_scale
#print axioms Verif.Geometry.C45_rotate
#print axioms Verif.Geometry.C45_area
#print axioms Verif.Geometry.C46_rotate_partial
#print axioms Verif.Geometry.C46_isometry_partial
#print axioms Verif.Geometry.C46_violation_fortran
#print axioms Verif.Geometry.C46_violation_integer
#print axioms Verif.Dist.C47_roundtrip
#print axioms Verif.Dist.C47_position
#print axioms Verif.Dist.C48_partition_partial
#print axioms Verif.Dist.C48_violation_empty
#print axioms Verif.Dist.C49_file_partial
#print axioms Verif.Dist.C49_rejects
#print axioms Verif.Dist.C49_violation_deadlock
#print axioms Verif.Dist.C50_grid_partial
#print axioms Verif.Dist.C50_rejects
#print axioms Verif.Dist.C50_partition
#print axioms Verif.Dist.C50_violation_both
#print axioms Verif.Dist.C51_blocks
#print axioms Verif.Dist.C51_noise
#print axioms Verif.Dist.C51_violation_zero
#print axioms Verif.Dist.C52_operator_partial
#print axioms Verif.Dist.C52_violation_stale
#print axioms Verif.Dist.C53_accepts
#print axioms Verif.Dist.C53_rejects
#print axioms Verif.Dist.C53_attributes
#print axioms Verif.Dist.C53_array_partial
#print axioms Verif.Dist.C53_violation_constant
#print axioms Verif.Dist.C53_violation_repeated
#print axioms Verif.Signal.C54_unfold
#print axioms Verif.Signal.C54_unfold_short
#print axioms Verif.Signal.C54_fold_partial
#print axioms Verif.Signal.C54_roundtrip_partial
#print axioms Verif.Signal.C54_violation_roundtrip
#print axioms Verif.Signal.C54_violation_power
#print axioms Verif.Signal.C54_violation_short
#print axioms Verif.Signal.C55_line
#print axioms Verif.Signal.C55_nodes
#print axioms Verif.Signal.C55_affine
#print axioms Verif.Signal.C55_rejects
#print axioms Verif.Signal.C56_fftsize
#print axioms Verif.Signal.C57_adjoint
#print axioms Verif.Signal.C57_inplace_direct
#print axioms Verif.Signal.C57_constant
#print axioms Verif.Signal.C57_recurrence
#print axioms Verif.Signal.C57_operator_partial
#print axioms Verif.Signal.C57_constants
#print axioms Verif.Signal.C57_inplace_partial
#print axioms Verif.Signal.C57_violation_inplace
#print axioms Verif.Signal.C58_inverse
#print axioms Verif.Signal.C58_scalar
#print axioms Verif.Signal.C58_adjoint
#print axioms Verif.Signal.C58_shift
#print axioms Verif.Signal.C58_decision
#print axioms Verif.Signal.C58_defaults
#print axioms Verif.Wcs.C59_read_back
#print axioms Verif.Wcs.C59_read_back_scalar
#print axioms Verif.Wcs.C59_same_matrix
#print axioms Verif.Wcs.C59_exists
#print axioms Verif.Wcs.C59_upper_end
#print axioms Verif.Wcs.C59_violation_cd
#print axioms Verif.Wcs.C60_shape_partial
#print axioms Verif.Wcs.C60_nodata
#print axioms Verif.Wcs.C60_exists
#print axioms Verif.Wcs.C60_violation_scalar
#print axioms Verif.Wcs.C60_ndim
#print axioms Verif.Wcs.C61_range
#print axioms Verif.Wcs.C61_exists
#print axioms Verif.Wcs.C61_turns
#print axioms Verif.Wcs.C61_perm
#print axioms Verif.Wcs.C61_minmax
#print axioms Verif.Wcs.C61_minmax_none
#print axioms Verif.Data.C62_getitem
#print axioms Verif.Data.C62_getitem_ok
#print axioms Verif.Data.C62_reshape
#print axioms Verif.Data.C62_assign
#print axioms Verif.Data.C62_history_partial
#print axioms Verif.Data.C62_violation_transpose
#print axioms Verif.Data.C62_violation_new
#print axioms Verif.Data.C62_violation_item
#print axioms Verif.Data.C63_assign
#print axioms Verif.Data.C63_scalar_partial
#print axioms Verif.Data.C63_new
#print axioms Verif.Data.C63_fancy
#print axioms Verif.Data.C63_violation_slice
#print axioms Verif.Data.C63_violation_copy
#print axioms Verif.Data.C64_times
#print axioms Verif.Data.C64_explicit
#print axioms Verif.Data.C64_spaced_partial
#print axioms Verif.Data.C64_violation
#print axioms Verif.Data.C65_blocks
#print axioms Verif.Data.C65_partition
#print axioms Verif.Data.C65_read
#print axioms Verif.Data.C65_filters_partial
#print axioms Verif.Data.C65_violation_filters
#print axioms Verif.Data.C65_violation_length
#print axioms Verif.Data.C66_profile
#print axioms Verif.Data.C66_once
#print axioms Verif.Data.C66_violation_default
#print axioms Verif.Data.C66_violation_negative
#print axioms Verif.Wcs.C67_horizontal
#print axioms Verif.Wcs.C67_convention
#print axioms Verif.Wcs.C67_galactic
#print axioms Verif.Wcs.C67_galactic_matrix
#print axioms Verif.Geometry.C68_boundary
#print axioms Verif.Geometry.C68_parity
#print axioms Verif.Geometry.C68_start
#print axioms Verif.Geometry.C68_orientation
#print axioms Verif.Sparse.C36_violation
#print axioms Verif.Sparse.C69_storage
#print axioms Verif.Sparse.C69_copy_value
#print axioms Verif.Sparse.C69_copy_row
#print axioms Verif.Sparse.C69_copy_col
#print axioms Verif.Sparse.C69_mul_fsr
#print axioms Verif.Sparse.C69_mul_fsc
#print axioms Verif.Sparse.C69_mul_rot2d
#print axioms Verif.Sparse.C69_mul_rot3d
#print axioms Verif.Sparse.C69_mul_block
#print axioms Verif.Sparse.C69_mul_fsc_rot2d
#print axioms Verif.Sparse.C69_mul_fsc_rot3d
#print axioms Verif.Sparse.C69_mul_fsc_block
#print axioms Verif.Sparse.C70_fsc_sizes
#print axioms Verif.Sparse.C70_violation
#print axioms Verif.Sparse.C71_row
#print axioms Verif.Units.C72_accepts
#print axioms Verif.Units.C72_value
#print axioms Verif.Units.C72_rejects
#print axioms Verif.Pointing.C73_mask
#print axioms Verif.Pointing.C73_pack_partial
#print axioms Verif.Pointing.C73_violation_pack
#print axioms Verif.Pointing.C74_kernel_partial
#print axioms Verif.Pointing.C74_rule_partial
#print axioms Verif.Pointing.C74_violation_raises
#print axioms Verif.Pointing.C74_violation_missing
#print axioms Verif.Pointing.C75_attribute
#print axioms Verif.Pointing.C75_violation_argument
#print axioms Verif.Pointing.C76_homothety
#print axioms Verif.Pointing.C76_mask
#print axioms Verif.Pointing.C76_violation_diagonal
#print axioms Verif.Dist.C77_data
#print axioms Verif.Dist.C77_header_partial
#print axioms Verif.Dist.C77_violation
#print axioms Verif.Dist.C78_local_global
#print axioms Verif.Dist.C78_rejects
#print axioms Verif.Dist.C78_violation_ctype
#print axioms Verif.Geometry.C79_outside_partial
#print axioms Verif.Geometry.C79_reported
#print axioms Verif.Geometry.C79_violation
#print axioms Verif.Geometry.C80_rectangle
#print axioms Verif.Geometry.C80_square
#print axioms Verif.Geometry.C80_regular
#print axioms Verif.Geometry.C80_regular_surface
#print axioms Verif.Geometry.C81_distance
#print axioms Verif.Geometry.C81_surface
#print axioms Verif.Geometry.C81_points
#print axioms Verif.Signal.C82_powerlaw
#print axioms Verif.Signal.C82_rejects
#print axioms Verif.Signal.C83_white
#print axioms Verif.Signal.C83_inverse
#print axioms Verif.Signal.C83_operator
#print axioms Verif.Signal.C83_white_psd
#print axioms Verif.Signal.C84_incomplete
#print axioms Verif.Signal.C84_diagonal
#print axioms Verif.Signal.C84_white
#print axioms Verif.Signal.C84_correlated_partial
#print axioms Verif.Signal.C84_violation_detectors
#print axioms Verif.Signal.C84_violation_odd
#print axioms Verif.Signal.C84_violation_ncorr
#print axioms Verif.Signal.C85_rows_partial
#print axioms Verif.Signal.C85_rejects
#print axioms Verif.Signal.C85_violation_single
#print axioms Verif.Signal.C85_violation_broadcast
#print axioms Verif.Signal.C86_mean
#print axioms Verif.Signal.C86_covariance
#print axioms Verif.Wcs.C87_python_fortran
#print axioms Verif.Wcs.C87_pixel
#print axioms Verif.Wcs.C87_crota_iff
#print axioms Verif.Wcs.C87_partial
#print axioms Verif.Wcs.C87_crota_python
#print axioms Verif.Wcs.C87_violation_crota
#print axioms Verif.Wcs.C88_mean_partial
#print axioms Verif.Wcs.C88_minmax_partial
#print axioms Verif.Wcs.C88_violation
#print axioms Verif.Wcs.C89_angle
#print axioms Verif.Wcs.C89_metric
#print axioms Verif.Wcs.C89_zero
#print axioms Verif.Wcs.C89_arrays
#print axioms Verif.Wcs.C89_broadcast
#print axioms Verif.Wcs.Operators.C89_python_partial
#print axioms Verif.Wcs.C89_violation_sizes
#print axioms Verif.Wcs.Operators.C89_violation_shape
#print axioms Verif.Wcs.C90_direction
#print axioms Verif.Wcs.C90_same
#print axioms Verif.Wcs.C90_perm
#print axioms Verif.Wcs.C90_undefined
#print axioms Verif.Wcs.C90_missing
#print axioms Verif.Wcs.C91_plane
#print axioms Verif.Wcs.C91_reference
#print axioms Verif.Wcs.C91_injective
#print axioms Verif.Wcs.C91_surjective
#print axioms Verif.Wcs.C91_scale
#print axioms Verif.Wcs.C91_area
#print axioms Verif.Wcs.C92_edges
#print axioms Verif.Wcs.C92_encloses
#print axioms Verif.Wcs.C92_frame
#print axioms Verif.Wcs.C92_default_scale
#print axioms Verif.Wcs.C92_tight
#print axioms Verif.Wcs.C93_same
#print axioms Verif.Wcs.C93_origin
#print axioms Verif.Wcs.C93_rotation
#print axioms Verif.Wcs.C93_norm
#print axioms Verif.Wcs.C93_injective
#print axioms Verif.Wcs.C93_violation_axis
#print axioms Verif.Wcs.C95_two_axes
#print axioms Verif.Wcs.C95_violation_cube
#print axioms Verif.Wcs.C95_violation_empty
#print axioms Verif.Wcs.C96_reference
#print axioms Verif.Wcs.C96_partial
#print axioms Verif.Wcs.C96_violation
#print axioms Verif.Wcs.C97_smallest_box
#print axioms Verif.Wcs.C97_perm
#print axioms Verif.Wcs.C94_round
#print axioms Verif.Wcs.C94_nearest
#print axioms Verif.Wcs.C94_nearest_out
#print axioms Verif.Wcs.C94_sharp
#print axioms Verif.Wcs.C94_sharp_out
#print axioms Verif.Wcs.C94_sharp_row
#print axioms Verif.Wcs.C94_threads_partial
#print axioms Verif.Wcs.C94_one_thread
#print axioms Verif.Wcs.C94_violation_threads
#print axioms Verif.Data.C98_getitem
#print axioms Verif.Data.C98_reshape
#print axioms Verif.Data.C98_astype
#print axioms Verif.Data.C98_violation
#print axioms Verif.Data.C99_mean
#print axioms Verif.Data.C99_distribution
#print axioms Verif.Data.C100_angles
#print axioms Verif.Data.C100_third_partial
#print axioms Verif.Data.C100_length
#print axioms Verif.Data.C100_violation
#print axioms Verif.Data.C101_integral
#print axioms Verif.Data.C101_violation_abscissae
#print axioms Verif.Data.C102_distance
#print axioms Verif.Data.C102_distance2_partial
#print axioms Verif.Data.C102_violation_distance2
#print axioms Verif.Data.C102_aperture
#print axioms Verif.Data.C102_unit
#print axioms Verif.Data.C102_violation_unit
#print axioms Verif.Data.C103_density
#print axioms Verif.Data.C103_rejects
#print axioms Verif.Data.C103_fwhm
#print axioms Verif.Data.C104_parseval
#print axioms Verif.Data.C104_frequency
#print axioms Verif.Data.C104_violation_profile
#print axioms Verif.Wcs.C105_horizontal
#print axioms Verif.Wcs.C105_zenith
#print axioms Verif.Wcs.C105_lst
#print axioms Verif.Wcs.C105_midnight
#print axioms Verif.Operators.C106_planck
#print axioms Verif.Operators.C106_identity
#print axioms Verif.Operators.C106_chain
#print axioms Verif.Operators.C106_rejects
#print axioms Verif.Operators.C106_violation_beta
#print axioms Verif.Operators.C106_violation_reference
#print axioms Verif.Operators.C107_action
#print axioms Verif.Operators.C107_rejects
#print axioms Verif.Operators.C107_homothety
#print axioms Verif.Operators.C107_chain
#print axioms Verif.Operators.C107_violation_example
#print axioms Verif.Operators.C108_maximum
#print axioms Verif.Operators.C108_fwhm
#print axioms Verif.Operators.C108_solid_angle_partial
#print axioms Verif.Operators.C108_violation_uniform
#print axioms Verif.Operators.C109_dispatch
#print axioms Verif.Operators.C109_exists
#print axioms Verif.Operators.C109_original
#print axioms Verif.Operators.C109_rejects
#print axioms Verif.Operators.C109_chunk_shape
#print axioms Verif.Operators.C109_violation_stack
#print axioms Verif.Operators.C109_violation_shapeout
#print axioms Verif.Operators.C110_action
#print axioms Verif.Operators.C110_inverse
#print axioms Verif.Operators.C110_distance
#print axioms Verif.Operators.C110_conversions
#print axioms Verif.Operators.C110_rejects
#print axioms Verif.Operators.C110_zenith
#print axioms Verif.Healpix.C111_angles
#print axioms Verif.Healpix.C111_inverse
#print axioms Verif.Healpix.C111_rule_partial
#print axioms Verif.Healpix.C111_violation_rule
#print axioms Verif.Healpix.C111_convention
#print axioms Verif.Healpix.C111_rule_exact
#print axioms Verif.Healpix.C111_spelling
#print axioms Verif.Healpix.C112_widths
#print axioms Verif.Healpix.C112_rejects
#print axioms Verif.Healpix.C112_pixels
#print axioms Verif.Healpix.C113_action
#print axioms Verif.Healpix.C113_symmetric
#print axioms Verif.Healpix.C113_constant_partial
#print axioms Verif.Healpix.C113_violation_constant
#print axioms Verif.Healpix.C113_violation_weights
#print axioms Verif.Healpix.C114_scene
#print axioms Verif.Healpix.C114_kinds
#print axioms Verif.Healpix.C114_rejects
#print axioms Verif.Healpix.C115_absolute
#print axioms Verif.Healpix.C115_relative
#print axioms Verif.Units.C116_same
#print axioms Verif.Units.C116_prod
#print axioms Verif.Units.C116_square
#print axioms Verif.Units.C116_each
#print axioms Verif.Units.C116_rejects
#print axioms Verif.Units.C116_sum
#print axioms Verif.Units.C116_var
#print axioms Verif.Units.C116_concatenate
#print axioms Verif.Units.C116_dot
#print axioms Verif.Units.C116_table
#print axioms Verif.Units.C116_degrees
#print axioms Verif.Units.C116_violation_clip
#print axioms Verif.Units.C116_violation_interp
#print axioms Verif.Units.C116_violation_atleast
#print axioms Verif.Units.C116_violation_cov
#print axioms Verif.Units.C116_violation_hstack
#print axioms Verif.Units.C116_violation_derived
#print axioms Verif.Units.C117_si
#print axioms Verif.Units.C117_position
#print axioms Verif.Units.C117_getitem_partial
#print axioms Verif.Units.C117_tounit_partial
#print axioms Verif.Units.C117_violation_ellipsis
#print axioms Verif.Units.C117_violation_list
#print axioms Verif.Units.C117_violation_scalar
#print axioms Verif.Units.C117_violation_recursion
#print axioms Verif.Units.C117_violation_tounit
#print axioms Verif.Units.Mem.C118_si
#print axioms Verif.Units.Mem.C118_inunit_partial
#print axioms Verif.Units.Mem.C118_tounit
#print axioms Verif.Units.Mem.C118_history
#print axioms Verif.Units.Mem.C118_violation_view
#print axioms Verif.Units.Mem.C118_violation_construct
#print axioms Verif.Units.Mem.C118_violation_derived
#print axioms Verif.Operators.Interf.C119_rot2d_partial
#print axioms Verif.Operators.Interf.C119_rot3d_partial
#print axioms Verif.Operators.Interf.C119_weighted_partial
#print axioms Verif.Operators.Interf.C119_outside
#print axioms Verif.Operators.Interf.C119_violation_pole
#print axioms Verif.Operators.Interf.C119_violation_sky
#print axioms Verif.Sort.C120_int
#print axioms Verif.Sort.C120_nomask
#print axioms Verif.Sort.C120_mask
#print axioms Verif.Sort.C120_direct_partial
#print axioms Verif.Sort.C120_violation_direct
#print axioms Verif.Sort.C121_nomask
#print axioms Verif.Sort.C121_mask
#print axioms Verif.Sort.C121_exact
#print axioms Verif.Sort.C121_uniq_partial
#print axioms Verif.Sort.C121_violation_uniq
#print axioms Verif.Sort.C121_uniq_int
#print axioms Verif.Sort.C121_uniq_int_sorted
#print axioms Verif.Sort.C122_histogram
#print axioms Verif.Sort.C122_histogram_nomask
#print axioms Verif.Sort.C122_reorder
#print axioms Verif.Sort.C122_where_1d
#print axioms Verif.Sort.C122_where_2d
#print axioms Verif.Sort.C122_where_3d
#print axioms Verif.Sort.C122_where_2d_1d_partial
#print axioms Verif.Sort.C122_violation_where
#print axioms Verif.Fits.C123_find_partial
#print axioms Verif.Fits.C123_bounds_partial
#print axioms Verif.Fits.C123_violation_z
#print axioms Verif.Fits.C123_violation_empty
#print axioms Verif.Fits.C124_string_partial
#print axioms Verif.Fits.C124_string
#print axioms Verif.Fits.C124_plain
#print axioms Verif.Fits.C124_violation_short
#print axioms Verif.Fits.C125_integer_partial
#print axioms Verif.Fits.C125_integer
#print axioms Verif.Fits.C125_logical
#print axioms Verif.Fits.C125_real
#print axioms Verif.Fits.C125_violation_long
#print axioms Verif.Fits.C126_compress
#print axioms Verif.Fits.C126_split
#print axioms Verif.Fits.C126_join
#print axioms Verif.Fits.C126_integer_partial
#print axioms Verif.Fits.C126_integer
#print axioms Verif.Fits.C126_section_partial
#print axioms Verif.Fits.C126_violation_minimum
#print axioms Verif.Fits.C126_violation_int8
#print axioms Verif.Fits.C127_lines_partial
#print axioms Verif.Fits.C127_violation_end
#print axioms Verif.Fits.C128_matrix_partial
#print axioms Verif.Fits.C128_scales_partial
#print axioms Verif.Fits.C128_refused
#print axioms Verif.Fits.C128_missing
#print axioms Verif.Fits.C128_bounds
#print axioms Verif.Fits.C128_violation_unit
#print axioms Verif.Fits.C128_violation_type
#print axioms Verif.Stat.C129_sum
#print axioms Verif.Stat.C129_rounding
#print axioms Verif.Stat.C129_moment
#print axioms Verif.Stat.C129_mask
#print axioms Verif.Stat.C129_norms
#print axioms Verif.Stat.C129_dot
#print axioms Verif.Stat.C129_planes
#print axioms Verif.Stat.C130_median_partial
#print axioms Verif.Stat.C130_copy_partial
#print axioms Verif.Stat.C130_unique
#print axioms Verif.Stat.C130_even
#print axioms Verif.Stat.C130_violation_nan
#print axioms Verif.Stat.C131_mad_partial
#print axioms Verif.Stat.C131_violation_nan
#print axioms Verif.Stat.C132_clipping_partial
#print axioms Verif.Stat.C132_remaining
#print axioms Verif.Stat.C132_nan
#print axioms Verif.Stat.C132_violation_nitermax
#print axioms Verif.Stat.C133_column
#print axioms Verif.Stat.C133_shift_partial
#print axioms Verif.Stat.C133_violation_offsets
#print axioms Verif.Pointing.C134_minimap
#print axioms Verif.Pointing.C134_masked
#print axioms Verif.Pointing.C134_too_small
#print axioms Verif.Signal.C135_folded_partial
#print axioms Verif.Signal.C135_unfold
#print axioms Verif.Signal.C135_violation_odd
#print axioms Verif.Signal.C135_violation_single
#print axioms Verif.Dist.C136_value
#print axioms Verif.Dist.C136_operation_partial
#print axioms Verif.Dist.C136_buffer
#print axioms Verif.Dist.C136_violation_operation
#print axioms Verif.Units.C137_area_partial
#print axioms Verif.Units.C137_undefined
#print axioms Verif.Units.C137_solid_angle
#print axioms Verif.Units.C137_relative
#print axioms Verif.Units.C137_pixel_partial
#print axioms Verif.Units.C137_violation_pc
#print axioms Verif.Units.C137_violation_incomplete
#print axioms Verif.Data.Save.C138_fits_partial
#print axioms Verif.Data.Save.C138_map_partial
#print axioms Verif.Data.Save.C138_tod_partial
#print axioms Verif.Data.Save.C138_violation_unit
#print axioms Verif.Data.Save.C138_violation_path
#print axioms Verif.Data.Save.C138_violation_integer
#print axioms Verif.Data.Save.C138_violation_extname
#print axioms Verif.Data.Save.C138_violation_pickle
#print axioms Verif.Data.Save.C138_violation_argument
#print axioms Verif.Data.Headers.C139_constructor
#print axioms Verif.Data.Headers.C139_astype_partial
#print axioms Verif.Data.Headers.C139_created_partial
#print axioms Verif.Data.Headers.C139_violation_copy
#print axioms Verif.Data.Headers.C139_violation_slice
#print axioms Verif.Data.Headers.C139_violation_argument
#print axioms Verif.Data.Headers.C139_violation_complex
#print axioms Verif.PackedTable.C140_function_partial
#print axioms Verif.PackedTable.C140_method
#print axioms Verif.PackedTable.C140_restriction
#print axioms Verif.PackedTable.C140_all_partial
#print axioms Verif.PackedTable.C140_violation_object
#print axioms Verif.PackedTable.C140_violation_method
#print axioms Verif.PackedTable.C140_violation_constant
#print axioms Verif.PackedTable.C141_fields_partial
#print axioms Verif.PackedTable.C141_exact
#print axioms Verif.PackedTable.C141_unpack_partial
#print axioms Verif.PackedTable.C141_violation_dates
#print axioms Verif.PackedTable.C141_violation_array
#print axioms Verif.PackedTable.C141_violation_title
#print axioms Verif.Operators.C142_cartesian_partial
#print axioms Verif.Operators.C142_galactic_partial
#print axioms Verif.Operators.C142_equatorial_partial
#print axioms Verif.Operators.C142_galactic_horizontal_partial
#print axioms Verif.Operators.C142_place
#print axioms Verif.Operators.C142_violation_scalar
#print axioms Verif.Operators.C142_violation_single
#print axioms Verif.Geometry.C143_grid_partial
#print axioms Verif.Geometry.C143_squares_partial
#print axioms Verif.Geometry.C143_packed
#print axioms Verif.Geometry.C143_violation_vertex
#print axioms Verif.Geometry.C143_violation_list
#print axioms Verif.PackedTable.C144_init_partial
#print axioms Verif.PackedTable.C144_iter
#print axioms Verif.PackedTable.C144_split_partial
#print axioms Verif.PackedTable.C144_scatter
#print axioms Verif.PackedTable.C144_pack
#print axioms Verif.PackedTable.C144_imager_partial
#print axioms Verif.PackedTable.C144_violation_both
#print axioms Verif.PackedTable.C144_violation_unnamed
#print axioms Verif.Sparse.C145_extra
#print axioms Verif.Sparse.C145_transpose
#print axioms Verif.Sparse.C145_dense_partial
#print axioms Verif.Sparse.C145_broadcastable
#print axioms Verif.Sparse.C145_violation_dense
#print axioms Verif.Sparse.C145_violation_validated
#print axioms Verif.Sparse.C145_violation_shapein
#print axioms Verif.Geometry.Hull.C146_hull
#print axioms Verif.Geometry.Hull.C146_dimension
#print axioms Verif.Data.Attributes.C147_view_partial
#print axioms Verif.Data.Attributes.C147_pickle_partial
#print axioms Verif.Data.Attributes.C147_fields_partial
#print axioms Verif.Data.Attributes.C147_item_partial
#print axioms Verif.Data.Attributes.C147_derived
#print axioms Verif.Data.Attributes.C147_violation_clash
#print axioms Verif.Data.Attributes.C147_violation_pickle
#print axioms Verif.Data.Attributes.C147_violation_property
#print axioms Verif.Data.Attributes.C147_violation_coverage
#print axioms Verif.Data.Attributes.C147_violation_none
#print axioms Verif.Data.Attributes.C147_violation_tuple
#print axioms Verif.Wcs.Operators.C148_direct_partial
#print axioms Verif.Wcs.Operators.C148_shapes
#print axioms Verif.Wcs.Operators.C148_inverse
#print axioms Verif.Wcs.Operators.C148_gnomonic
#print axioms Verif.Wcs.Operators.C148_distortion_partial
#print axioms Verif.Wcs.Operators.C148_scene
#print axioms Verif.Wcs.Operators.C148_dimensions
#print axioms Verif.Wcs.Operators.C148_violation_strided
#print axioms Verif.Wcs.Operators.C148_violation_distortion
#print axioms Verif.Data.MadmapFiles.C149_filter
#print axioms Verif.Data.MadmapFiles.C149_header
#print axioms Verif.Data.MadmapFiles.C149_records
#print axioms Verif.Data.MadmapFiles.C149_files_partial
#print axioms Verif.Data.MadmapFiles.C149_number
#print axioms Verif.Data.MadmapFiles.C149_dots_partial
#print axioms Verif.Data.MadmapFiles.C149_mask_partial
#print axioms Verif.Data.MadmapFiles.C149_violation_dot
#print axioms Verif.Data.MadmapFiles.C149_violation_plus
#print axioms Verif.Data.MadmapFiles.C149_violation_missing
#print axioms Verif.Data.MadmapFiles.C149_violation_truncated
#print axioms Verif.Data.MadmapFiles.C149_violation_infinite
