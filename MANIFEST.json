{
 "claims": [
  {
   "property": "C01",
   "status": "partial",
   "theorems": [
    "Verif.PackedTable.C01_pack_partial",
    "Verif.PackedTable.C01_pack_rejects",
    "Verif.PackedTable.C01_violation_negative_ints",
    "Verif.PackedTable.C01_violation_empty_table"
   ],
   "note": "Proved for every table reachable by the constructor and any chain of supported selections (all slices with in-range stop, non-repeating integer lists, boolean masks); the unsupported selections reach tables for which the property is false (witnesses)."
  },
  {
   "property": "C02",
   "status": "partial",
   "theorems": [
    "Verif.PackedTable.C02_unpack_partial",
    "Verif.PackedTable.C02_unpack_rejects",
    "Verif.PackedTable.C02_violation_repeated"
   ],
   "note": "Proved for non-repeated components, for any content of the uninitialised buffer; with repeated components the code leaves entries of the output uninitialised (witness)."
  },
  {
   "property": "C03",
   "status": "partial",
   "theorems": [
    "Verif.PackedTable.C03_pack_unpack_partial",
    "Verif.PackedTable.C03_unpack_pack_partial",
    "Verif.PackedTable.C03_violation_empty_table"
   ],
   "note": "Both round trips for every reachable table with distinct components; tables reached through unsupported selections (empty slice tables sliced again) violate them (witness)."
  },
  {
   "property": "C04",
   "status": "partial",
   "theorems": [
    "Verif.PackedTable.C04_slice_partial",
    "Verif.PackedTable.C04_slice_negative_partial",
    "Verif.PackedTable.C04_zero_step",
    "Verif.PackedTable.C04_violation_stop",
    "Verif.PackedTable.C04_violation_array"
   ],
   "note": "All positive steps, and descending slices where the normalised stop is in range and the table has not an explicit list; the code fails for the others (witnesses)."
  },
  {
   "property": "C05",
   "status": "partial",
   "theorems": [
    "Verif.PackedTable.C05_aligned_partial",
    "Verif.PackedTable.C05_violation_descending"
   ],
   "note": "Attributes stay aligned for every supported selection; descending slices reaching the first component raise (witness)."
  },
  {
   "property": "C06",
   "status": "partial",
   "theorems": [
    "Verif.PackedTable.C06_compose_partial",
    "Verif.PackedTable.C06_violation_repeated"
   ],
   "note": "Induction over any sequence of supported selections; a repeated integer selection is mis-compressed (witness)."
  },
  {
   "property": "C07",
   "status": "partial",
   "theorems": [
    "Verif.PackedTable.C07_len_partial",
    "Verif.PackedTable.C07_total_partial",
    "Verif.PackedTable.C07_violation_repeated"
   ],
   "note": "Every reachable table; the constructor accepts selections such as [2, 2] whose len() raises (witness)."
  },
  {
   "property": "C08",
   "status": "partial",
   "theorems": [
    "Verif.PackedTable.C08_ints_iff",
    "Verif.PackedTable.C08_ints_partial",
    "Verif.PackedTable.C08_violation"
   ],
   "note": "Exact characterisation (iff) of the selections that are preserved; constant and mixed-sign lists are not (witnesses)."
  },
  {
   "property": "C09",
   "status": "proved",
   "theorems": [
    "Verif.PackedTable.C09_ordering",
    "Verif.PackedTable.C09_ordering_all",
    "Verif.PackedTable.C09_rejects"
   ],
   "note": "Every shape, ordering array and boolean selection."
  },
  {
   "property": "C10",
   "status": "partial",
   "theorems": [
    "Verif.PackedTable.C10_equivalent_partial",
    "Verif.PackedTable.C10_same_index_partial",
    "Verif.PackedTable.C10_violation_ordering",
    "Verif.PackedTable.C10_violation_tuples"
   ],
   "note": "Without ordering, and for tuples of ascending slices; violated with an ordering and for tuples containing full or descending slices (witnesses)."
  },
  {
   "property": "C11",
   "status": "partial",
   "theorems": [
    "Verif.PackedTable.C11_split_partial",
    "Verif.PackedTable.C11_distinct",
    "Verif.PackedTable.C11_violation_repeated"
   ],
   "note": "Every reachable table and every n >= 1 (also larger than the table), unless a group is a single component that is repeated, which has no length (witness)."
  },
  {
   "property": "C12",
   "status": "partial",
   "theorems": [
    "Verif.PackedTable.C12_scatter_gather_partial",
    "Verif.PackedTable.C12_distinct",
    "Verif.PackedTable.C12_gather_array",
    "Verif.PackedTable.C12_violation_comm",
    "Verif.PackedTable.C12_violation_repeated"
   ],
   "note": "Components and attributes, for any number of processes, unless the components of a process are a single one that is repeated (witness); the communicator is not restored by gather (proved for all tables)."
  },
  {
   "property": "C13",
   "status": "partial",
   "theorems": [
    "Verif.PackedTable.C13_distributed_unpack_partial",
    "Verif.PackedTable.C13_violation_empty"
   ],
   "note": "Non-empty tables, at least two processes; an empty slice table raises (witness)."
  },
  {
   "property": "C14",
   "status": "partial",
   "theorems": [
    "Verif.PackedTable.C14_removed_partial",
    "Verif.PackedTable.C14_violation_empty_table"
   ],
   "note": "Every table except wrapping empty slice tables (witness)."
  },
  {
   "property": "C15",
   "status": "proved",
   "theorems": [
    "Verif.PackedTable.C15_consistent",
    "Verif.PackedTable.C15_reserved",
    "Verif.PackedTable.C15_rejects"
   ],
   "note": "Invariant over every finite history, including failing operations."
  },
  {
   "property": "C16",
   "status": "partial",
   "theorems": [
    "Verif.PackedTable.C16_parent_unchanged_partial",
    "Verif.PackedTable.C16_fancy_partial",
    "Verif.PackedTable.C16_violation"
   ],
   "note": "Holds except for scalar assignment through a shared buffer, which writes into the parent (witnesses)."
  },
  {
   "property": "C17",
   "status": "proved",
   "theorems": [
    "Verif.PackedTable.C17_row_column"
   ],
   "note": "Every reachable grid table with at least one column, both numbering origins."
  },
  {
   "property": "C18",
   "status": "partial",
   "theorems": [
    "Verif.PackedTable.C18_violation"
   ],
   "note": "The property is false of the code: copy() raises AttributeError for every table."
  },
  {
   "property": "C19",
   "status": "partial",
   "theorems": [
    "Verif.Units.C19_exponents",
    "Verif.Units.C19_wf",
    "Verif.Units.C19_group",
    "Verif.Units.C19_neutral",
    "Verif.Units.C19_powers",
    "Verif.Units.C19_violation_zero"
   ],
   "note": "Exponents, neutral element and u/u for all dictionaries; commutativity, associativity and power laws for units without zero exponent. A zero exponent written in a string breaks associativity as dictionaries (witness). Missing: that operands are not modified (dictionaries are values in the model)."
  },
  {
   "property": "C20",
   "status": "partial",
   "theorems": [
    "Verif.Units.C20_canonical_partial",
    "Verif.Units.C20_equality_partial",
    "Verif.Units.C20_violation_zero"
   ],
   "note": "Invariant over every history of operations from strings without zero exponent; the string m^0 gives a unit that is not empty (witness)."
  },
  {
   "property": "C21",
   "status": "proved",
   "theorems": [
    "Verif.Units.C21_roundtrip",
    "Verif.Units.C21_order"
   ],
   "note": "All integer exponents, all symbols of the accepted alphabet."
  },
  {
   "property": "C22",
   "status": "partial",
   "theorems": [
    "Verif.Units.C22_amount_partial",
    "Verif.Units.C22_roundtrip_partial",
    "Verif.Units.C22_transitive_partial",
    "Verif.Units.C22_violation_unitless"
   ],
   "note": "All units that are not empty, any local and global tables; a conversion to the empty unit drops the unit without scaling (witness km/m)."
  },
  {
   "property": "C23",
   "status": "partial",
   "theorems": [
    "Verif.Units.C23_inunit_partial",
    "Verif.Units.C23_unchanged",
    "Verif.Units.C23_iff_partial",
    "Verif.Units.C23_violation_unitless",
    "Verif.Units.C23_violation_power",
    "Verif.Units.C24_rejects"
   ],
   "note": "All units that are not empty; conversions between a unit and the empty unit are accepted, and rad^4 to sr^2 is rejected (witnesses)."
  },
  {
   "property": "C24",
   "status": "proved",
   "theorems": [
    "Verif.Units.C24_same",
    "Verif.Units.C24_add",
    "Verif.Units.C24_sub",
    "Verif.Units.C24_adopt",
    "Verif.Units.C24_compare",
    "Verif.Units.C24_less",
    "Verif.Units.C24_mul_div",
    "Verif.Units.C24_power"
   ],
   "note": "Exact arithmetic, any positive valuation that satisfies the definitions of the tables."
  },
  {
   "property": "C25",
   "status": "partial",
   "theorems": [
    "Verif.Units.C25_amount",
    "Verif.Units.C25_symbols",
    "Verif.Units.C25_idempotent_partial",
    "Verif.Units.C25_violation_idempotent"
   ],
   "note": "Amount and symbols for every ranked table; idempotence when no power of a symbol is defined: with the table of the code, SI of deg rad is not idempotent (witness)."
  },
  {
   "property": "C26",
   "status": "partial",
   "theorems": [
    "Verif.Sparse.C26_fsr_partial",
    "Verif.Sparse.C26_rejects",
    "Verif.Sparse.C26_violation_empty"
   ],
   "note": "Every row storage matrix with at least one row and column, compiled and Python paths, with and without trailing dimension and output; exact arithmetic. Zero-size matrices raise ZeroDivisionError (witness)."
  },
  {
   "property": "C27",
   "status": "partial",
   "theorems": [
    "Verif.Sparse.C27_fsc_partial",
    "Verif.Sparse.C27_rejects",
    "Verif.Sparse.C27_violation_empty"
   ],
   "note": "Same as C26 for column storage."
  },
  {
   "property": "C28",
   "status": "partial",
   "theorems": [
    "Verif.Sparse.C28_fsr_partial",
    "Verif.Sparse.C28_fsc_partial",
    "Verif.Sparse.C28_fsr_block_partial",
    "Verif.Sparse.C28_fsc_block_partial",
    "Verif.Sparse.C28_fsr_rot2d_partial",
    "Verif.Sparse.C28_fsc_rot2d_partial",
    "Verif.Sparse.C28_fsr_rot3d_partial",
    "Verif.Sparse.C28_fsc_rot3d_partial",
    "Verif.Sparse.C28_violation_empty"
   ],
   "note": "Adjointness of A and transpose(A) for the eight storage kinds; exact arithmetic; zero-size matrices raise (witness)."
  },
  {
   "property": "C29",
   "status": "proved",
   "theorems": [
    "Verif.Sparse.C29_col"
   ],
   "note": "Interleaving machine with atomic updates, any number of threads and any distribution of the columns; exact arithmetic; an example shows the lost update without atomic."
  },
  {
   "property": "C30",
   "status": "partial",
   "theorems": [
    "Verif.Sparse.C30_fsr_partial",
    "Verif.Sparse.C30_fsc_partial",
    "Verif.Sparse.C30_violation_empty"
   ],
   "note": "Every block size that has a kernel, compiled and Python paths; zero-size matrices raise (witness)."
  },
  {
   "property": "C31",
   "status": "partial",
   "theorems": [
    "Verif.Sparse.C31_fsr_rot2d_partial",
    "Verif.Sparse.C31_fsr_rot3d_partial",
    "Verif.Sparse.C31_fsc_rot2d_partial",
    "Verif.Sparse.C31_fsc_rot3d_partial",
    "Verif.Sparse.C31_violation_empty"
   ],
   "note": "Both storages, compiled and Python paths; zero-size matrices raise (witness)."
  },
  {
   "property": "C32",
   "status": "partial",
   "theorems": [
    "Verif.Sparse.C32_fsr_partial",
    "Verif.Sparse.C32_rot2d",
    "Verif.Sparse.C32_rot3d",
    "Verif.Sparse.C32_violation"
   ],
   "note": "Holds for rotation storages, and for scalars without trailing dimension; with trailing dimensions in shapein the substituted diagonal is wrong (witness)."
  },
  {
   "property": "C33",
   "status": "partial",
   "theorems": [
    "Verif.Sparse.C33_restrict_fsr_partial",
    "Verif.Sparse.C33_restrict_rot2d_partial",
    "Verif.Sparse.C33_restrict_rot3d_partial",
    "Verif.Sparse.C33_restrict_block_partial",
    "Verif.Sparse.C33_corestrict_fsr",
    "Verif.Sparse.C33_rejects",
    "Verif.Sparse.C33_violation_empty",
    "Verif.Sparse.C33_violation_corestrict"
   ],
   "note": "Restriction for every row storage and every mask that keeps something, corestriction of scalar row storage; a mask that keeps nothing gives a matrix whose product raises, and the corestriction of rotations always raises IndexError (witnesses)."
  },
  {
   "property": "C34",
   "status": "partial",
   "theorems": [
    "Verif.Sparse.C34_fsr_partial",
    "Verif.Sparse.C34_rot2d_partial",
    "Verif.Sparse.C34_rot3d_partial",
    "Verif.Sparse.C34_threads_partial",
    "Verif.Sparse.C34_violation_race",
    "Verif.Sparse.C34_violation_block",
    "Verif.Sparse.C34_violation_trailing",
    "Verif.Sparse.C34_violation_rot3d"
   ],
   "note": "Exact for one thread and one-dimensional maps; for any schedule when no zero is stored. The pointer of the compiled kernel is shared, so that the result depends on the schedule (witness executions); blocks raise; trailing dimensions and the Python path of 3d rotations are wrong (witnesses)."
  },
  {
   "property": "C35",
   "status": "partial",
   "theorems": [
    "Verif.Sparse.C35_fsr_partial",
    "Verif.Sparse.C35_rot3d_partial",
    "Verif.Sparse.C35_rot2d_partial",
    "Verif.Sparse.C35_violation_rot2d",
    "Verif.Sparse.C35_violation_block"
   ],
   "note": "Scalars (any trailing dimension) and 3d rotations, assignment and in-place addition; 2d rotations give the sum of norms, wrong pixels for multi-dimensional maps (witness); blocks of one column are wrong (witness)."
  },
  {
   "property": "C36",
   "status": "partial",
   "theorems": [
    "Verif.Sparse.C36_ctor_partial",
    "Verif.Sparse.C36_violation"
   ],
   "note": "Holds except for column storage with non-square blocks (witness)."
  },
  {
   "property": "C37",
   "status": "partial",
   "theorems": [
    "Verif.Pointing.C37_indices",
    "Verif.Pointing.C37_project_partial",
    "Verif.Pointing.C37_violation_one"
   ],
   "note": "Renumbering for every matrix and mask. Equality of the projections for two elements per sample or more, or buffers that contain zeros; with one element per sample the samples that only see masked pixels are not written (witness)."
  },
  {
   "property": "C38",
   "status": "partial",
   "theorems": [
    "Verif.Pointing.C38_direct_partial",
    "Verif.Pointing.C38_zero_partial",
    "Verif.Pointing.C38_transpose",
    "Verif.Pointing.C38_adjoint_partial",
    "Verif.Pointing.C38_violation_one",
    "Verif.Pointing.C38_violation_zero"
   ],
   "note": "Transpose for every matrix. Projection and adjointness when there are two elements per sample or more, one that is present, or an output that contains zeros; otherwise the output is not completely written (witnesses)."
  },
  {
   "property": "C39",
   "status": "proved",
   "theorems": [
    "Verif.Pointing.C39_isvalid",
    "Verif.Pointing.C39_safe"
   ],
   "note": "Every matrix; safety of the projection, transpose, mask and packing."
  },
  {
   "property": "C40",
   "status": "partial",
   "theorems": [
    "Verif.Pointing.C40_transparent_partial",
    "Verif.Pointing.C40_failures_partial",
    "Verif.Pointing.C40_violation_failure"
   ],
   "note": "Every history without failure; with failures an operator never gets the matrix of another one, but it can get None after the failure of another operator (witness)."
  },
  {
   "property": "C41",
   "status": "proved",
   "theorems": [
    "Verif.Pointing.C41_intersects",
    "Verif.Pointing.C41_injective",
    "Verif.Pointing.C41_violation_outside"
   ],
   "note": "Pixels of the map; outside of the map the coordinates can designate the missing elements (witness)."
  },
  {
   "property": "C42",
   "status": "partial",
   "theorems": [
    "Verif.Geometry.C42_winding",
    "Verif.Geometry.C42_convex",
    "Verif.Geometry.C42_sum_convex",
    "Verif.Geometry.C42_sum_partial",
    "Verif.Geometry.C42_violation"
   ],
   "note": "Convex polygons in full (each weight is the Lebesgue measure of the intersection, and the weights add up to the area); other polygons when they turn around all points in the same direction; false for polygons that cross themselves (witness). That simple polygons turn in one direction (Jordan) is not proved."
  },
  {
   "property": "C43",
   "status": "proved",
   "theorems": [
    "Verif.Geometry.C43_rows",
    "Verif.Geometry.C43_complete",
    "Verif.Geometry.C43_size",
    "Verif.Geometry.C43_memory"
   ],
   "note": "Every set of polygons, every initial ncolmax, every scene shape, every contents of uninitialised memory; integers are unbounded."
  },
  {
   "property": "C44",
   "status": "proved",
   "theorems": [
    "Verif.Geometry.C44_consistent",
    "Verif.Geometry.C44_area",
    "Verif.Geometry.C44_centred",
    "Verif.Geometry.C44_steps"
   ],
   "note": "Real arithmetic."
  },
  {
   "property": "C45",
   "status": "proved",
   "theorems": [
    "Verif.Geometry.C45_shoelace",
    "Verif.Geometry.C45_translate",
    "Verif.Geometry.C45_cyclic",
    "Verif.Geometry.C45_reverse",
    "Verif.Geometry.C45_scale",
    "Verif.Geometry.C45_rotate",
    "Verif.Geometry.C45_area"
   ],
   "note": "Any field; rotations and the link with the Lebesgue measure over the reals."
  },
  {
   "property": "C46",
   "status": "partial",
   "theorems": [
    "Verif.Geometry.C46_rotate_partial",
    "Verif.Geometry.C46_isometry_partial",
    "Verif.Geometry.C46_violation_fortran",
    "Verif.Geometry.C46_violation_integer"
   ],
   "note": "Floating-point coordinates; Fortran-ordered coordinates raise ValueError and integer coordinates are rotated with a truncated matrix (witnesses)."
  },
  {
   "property": "C47",
   "status": "proved",
   "theorems": [
    "Verif.Dist.C47_roundtrip",
    "Verif.Dist.C47_position"
   ],
   "note": "Every header that has the keywords NAXIS, NAXIS1 and NAXISn, every number of processes and rank."
  },
  {
   "property": "C48",
   "status": "partial",
   "theorems": [
    "Verif.Dist.C48_partition_partial",
    "Verif.Dist.C48_violation_empty"
   ],
   "note": "At least a good detector and an observation, or one process; otherwise UnboundLocalError (proved). Observations are distinct names."
  },
  {
   "property": "C49",
   "status": "partial",
   "theorems": [
    "Verif.Dist.C49_file_partial",
    "Verif.Dist.C49_rejects",
    "Verif.Dist.C49_violation_deadlock"
   ],
   "note": "Every order of the writes, when each process has rows; with more processes than rows the collective opening blocks (witness)."
  },
  {
   "property": "C50",
   "status": "partial",
   "theorems": [
    "Verif.Dist.C50_grid_partial",
    "Verif.Dist.C50_rejects",
    "Verif.Dist.C50_partition",
    "Verif.Dist.C50_violation_both"
   ],
   "note": "Both counts given: the second one is ignored even if it is inconsistent (witness)."
  },
  {
   "property": "C51",
   "status": "partial",
   "theorems": [
    "Verif.Dist.C51_blocks",
    "Verif.Dist.C51_noise",
    "Verif.Dist.C51_violation_zero"
   ],
   "note": "Blocks for every positive limit (0 raises ZeroDivisionError) and get_noise; the block column operator of pyoperators is not modelled."
  },
  {
   "property": "C52",
   "status": "partial",
   "theorems": [
    "Verif.Dist.C52_operator_partial",
    "Verif.Dist.C52_violation_stale"
   ],
   "note": "Histories in which no acquisition is restricted while its operator is stored; otherwise the restricted acquisition returns the operator of the parent (witness)."
  },
  {
   "property": "C53",
   "status": "partial",
   "theorems": [
    "Verif.Dist.C53_accepts",
    "Verif.Dist.C53_rejects",
    "Verif.Dist.C53_attributes",
    "Verif.Dist.C53_array_partial",
    "Verif.Dist.C53_violation_constant",
    "Verif.Dist.C53_violation_repeated"
   ],
   "note": "Acceptance, exceptions and attributes for all strings; conversion to an array for distinct flags not named as the constants of the class (witnesses otherwise)."
  },
  {
   "property": "C54",
   "status": "partial",
   "theorems": [
    "Verif.Signal.C54_unfold",
    "Verif.Signal.C54_unfold_short",
    "Verif.Signal.C54_fold_partial",
    "Verif.Signal.C54_roundtrip_partial",
    "Verif.Signal.C54_violation_roundtrip",
    "Verif.Signal.C54_violation_power",
    "Verif.Signal.C54_violation_short"
   ],
   "note": "Unfolding in full. Folding reads the element after the Nyquist frequency: the power changes and the round trip loses the last element (exact difference proved, witnesses), and spectra of two elements raise IndexError."
  },
  {
   "property": "C55",
   "status": "proved",
   "theorems": [
    "Verif.Signal.C55_line",
    "Verif.Signal.C55_nodes",
    "Verif.Signal.C55_affine",
    "Verif.Signal.C55_rejects"
   ],
   "note": "Any linearly ordered field, one row."
  },
  {
   "property": "C56",
   "status": "proved",
   "theorems": [
    "Verif.Signal.C56_fftsize"
   ],
   "note": "Every number of samples."
  },
  {
   "property": "C57",
   "status": "partial",
   "theorems": [
    "Verif.Signal.C57_adjoint",
    "Verif.Signal.C57_inplace_direct",
    "Verif.Signal.C57_constant",
    "Verif.Signal.C57_recurrence",
    "Verif.Signal.C57_operator_partial",
    "Verif.Signal.C57_constants",
    "Verif.Signal.C57_inplace_partial",
    "Verif.Signal.C57_violation_inplace"
   ],
   "note": "Out of place for every length, time constants and number of detectors; in place the transpose is not the adjoint, for every positive time constant and length. Real arithmetic."
  },
  {
   "property": "C58",
   "status": "proved",
   "theorems": [
    "Verif.Signal.C58_inverse",
    "Verif.Signal.C58_scalar",
    "Verif.Signal.C58_adjoint",
    "Verif.Signal.C58_shift",
    "Verif.Signal.C58_decision",
    "Verif.Signal.C58_defaults"
   ],
   "note": "Every number of dimensions, shape, offsets and axes."
  },
  {
   "property": "C59",
   "status": "partial",
   "theorems": [
    "Verif.Wcs.C59_read_back",
    "Verif.Wcs.C59_read_back_scalar",
    "Verif.Wcs.C59_same_matrix",
    "Verif.Wcs.C59_exists",
    "Verif.Wcs.C59_upper_end",
    "Verif.Wcs.C59_violation_cd"
   ],
   "note": "Every scale and angle, read back up to the representation of the same matrix; a header cannot be made from a matrix (cd always raises)."
  },
  {
   "property": "C60",
   "status": "partial",
   "theorems": [
    "Verif.Wcs.C60_shape_partial",
    "Verif.Wcs.C60_nodata",
    "Verif.Wcs.C60_exists",
    "Verif.Wcs.C60_violation_scalar",
    "Verif.Wcs.C60_ndim"
   ],
   "note": "Every shape with at least one dimension; a scalar array gets one axis, and more than eight dimensions are refused."
  },
  {
   "property": "C61",
   "status": "proved",
   "theorems": [
    "Verif.Wcs.C61_range",
    "Verif.Wcs.C61_exists",
    "Verif.Wcs.C61_turns",
    "Verif.Wcs.C61_perm",
    "Verif.Wcs.C61_minmax",
    "Verif.Wcs.C61_minmax_none"
   ],
   "note": "Real arithmetic, NaN as missing values."
  },
  {
   "property": "C62",
   "status": "partial",
   "theorems": [
    "Verif.Data.C62_getitem",
    "Verif.Data.C62_getitem_ok",
    "Verif.Data.C62_reshape",
    "Verif.Data.C62_assign",
    "Verif.Data.C62_history_partial",
    "Verif.Data.C62_violation_transpose",
    "Verif.Data.C62_violation_new",
    "Verif.Data.C62_violation_item"
   ],
   "note": "Items, changes of shape, assignments, copies and operations that keep the shape; false for transposes, for masks given to the constructor and for items without dimension."
  },
  {
   "property": "C63",
   "status": "partial",
   "theorems": [
    "Verif.Data.C63_assign",
    "Verif.Data.C63_scalar_partial",
    "Verif.Data.C63_new",
    "Verif.Data.C63_fancy",
    "Verif.Data.C63_violation_slice",
    "Verif.Data.C63_violation_copy"
   ],
   "note": "Everything but a scalar assigned to an array that has a mask, which is written in the shared memory (exact characterisation and witnesses)."
  },
  {
   "property": "C64",
   "status": "partial",
   "theorems": [
    "Verif.Data.C64_times",
    "Verif.Data.C64_explicit",
    "Verif.Data.C64_spaced_partial",
    "Verif.Data.C64_violation"
   ],
   "note": "False for explicit times without period, unless they are spaced by one second."
  },
  {
   "property": "C65",
   "status": "partial",
   "theorems": [
    "Verif.Data.C65_blocks",
    "Verif.Data.C65_partition",
    "Verif.Data.C65_read",
    "Verif.Data.C65_filters_partial",
    "Verif.Data.C65_violation_filters",
    "Verif.Data.C65_violation_length"
   ],
   "note": "Blocks and reading proved; the filters are right with one block only; negative lengths are accepted."
  },
  {
   "property": "C66",
   "status": "partial",
   "theorems": [
    "Verif.Data.C66_profile",
    "Verif.Data.C66_once",
    "Verif.Data.C66_violation_default",
    "Verif.Data.C66_violation_negative"
   ],
   "note": "Any number of bins with a positive width; the default number of bins leaves pixels out and a negative width writes out of bounds (witnesses). One thread per pixel order: the reduction is a sum in exact arithmetic."
  },
  {
   "property": "C67",
   "status": "proved",
   "theorems": [
    "Verif.Wcs.C67_horizontal",
    "Verif.Wcs.C67_convention",
    "Verif.Wcs.C67_galactic",
    "Verif.Wcs.C67_galactic_matrix"
   ],
   "note": "Real arithmetic; the QR factorisation is modelled by the Householder reflections of LAPACK."
  },
  {
   "property": "C68",
   "status": "proved",
   "theorems": [
    "Verif.Geometry.C68_boundary",
    "Verif.Geometry.C68_parity",
    "Verif.Geometry.C68_start",
    "Verif.Geometry.C68_orientation"
   ],
   "note": "Any linearly ordered field."
  },
  {
   "property": "C69",
   "status": "partial",
   "theorems": [
    "Verif.Sparse.C36_violation",
    "Verif.Sparse.C69_storage",
    "Verif.Sparse.C69_copy_value",
    "Verif.Sparse.C69_copy_row",
    "Verif.Sparse.C69_copy_col",
    "Verif.Sparse.C69_mul_fsr",
    "Verif.Sparse.C69_mul_fsc",
    "Verif.Sparse.C69_mul_rot2d",
    "Verif.Sparse.C69_mul_rot3d",
    "Verif.Sparse.C69_mul_block",
    "Verif.Sparse.C69_mul_fsc_rot2d",
    "Verif.Sparse.C69_mul_fsc_rot3d",
    "Verif.Sparse.C69_mul_fsc_block"
   ],
   "note": "Copies are equal, and the products of multiples are multiples, for every storage kind. Copies and multiples share no storage, in any program of copies, multiples, transposes and assignments. Matrices of column blocks that are not square are allocated with a wrong number of lines and cannot be copied (witness, see C36)."
  },
  {
   "property": "C70",
   "status": "partial",
   "theorems": [
    "Verif.Sparse.C70_fsc_sizes",
    "Verif.Sparse.C70_violation"
   ],
   "note": "Holds for column storage; FSRBlockMatrix does not validate the block size (witness)."
  },
  {
   "property": "C71",
   "status": "proved",
   "theorems": [
    "Verif.Sparse.C71_row"
   ],
   "note": "Same machine with unsynchronised read-modify-write on rows; exact arithmetic."
  },
  {
   "property": "C72",
   "status": "proved",
   "theorems": [
    "Verif.Units.C72_accepts",
    "Verif.Units.C72_value",
    "Verif.Units.C72_rejects"
   ],
   "note": "Both directions, all strings; ASCII white space."
  },
  {
   "property": "C73",
   "status": "partial",
   "theorems": [
    "Verif.Pointing.C73_mask",
    "Verif.Pointing.C73_pack_partial",
    "Verif.Pointing.C73_violation_pack"
   ],
   "note": "Mask for every valid matrix; packing under the same condition as C37 (witness)."
  },
  {
   "property": "C74",
   "status": "partial",
   "theorems": [
    "Verif.Pointing.C74_kernel_partial",
    "Verif.Pointing.C74_rule_partial",
    "Verif.Pointing.C74_violation_raises",
    "Verif.Pointing.C74_violation_missing"
   ],
   "note": "The compiled kernel is exact but get_pTp always raises (boolean array), and the rule is exact without missing element and writes out of bounds with one (witness)."
  },
  {
   "property": "C75",
   "status": "partial",
   "theorems": [
    "Verif.Pointing.C75_attribute",
    "Verif.Pointing.C75_violation_argument"
   ],
   "note": "Mask of the input, or no mask; the mask argument raises ValueError."
  },
  {
   "property": "C76",
   "status": "partial",
   "theorems": [
    "Verif.Pointing.C76_homothety",
    "Verif.Pointing.C76_mask",
    "Verif.Pointing.C76_violation_diagonal"
   ],
   "note": "Homotheties and masks; a diagonal operator raises ValueError."
  },
  {
   "property": "C77",
   "status": "partial",
   "theorems": [
    "Verif.Dist.C77_data",
    "Verif.Dist.C77_header_partial",
    "Verif.Dist.C77_violation"
   ],
   "note": "Data for every file; header for two dimensional RA/DEC gnomonic headers, the shift is missing or applied to the wrong axis otherwise (witness)."
  },
  {
   "property": "C78",
   "status": "partial",
   "theorems": [
    "Verif.Dist.C78_local_global",
    "Verif.Dist.C78_rejects",
    "Verif.Dist.C78_violation_ctype"
   ],
   "note": "Recovery and rejection; the projection types are never compared because of a misspelt keyword (witness)."
  },
  {
   "property": "C79",
   "status": "partial",
   "theorems": [
    "Verif.Geometry.C79_outside_partial",
    "Verif.Geometry.C79_reported",
    "Verif.Geometry.C79_violation"
   ],
   "note": "A polygon outside of the scene is always reported; the converse only if the uninitialised variable is false by chance (witness otherwise)."
  },
  {
   "property": "C80",
   "status": "proved",
   "theorems": [
    "Verif.Geometry.C80_rectangle",
    "Verif.Geometry.C80_square",
    "Verif.Geometry.C80_regular",
    "Verif.Geometry.C80_regular_surface"
   ],
   "note": "Real arithmetic; one shape, in double precision, into a new array."
  },
  {
   "property": "C81",
   "status": "proved",
   "theorems": [
    "Verif.Geometry.C81_distance",
    "Verif.Geometry.C81_surface",
    "Verif.Geometry.C81_points"
   ],
   "note": "Real arithmetic, every positive distance."
  },
  {
   "property": "C82",
   "status": "proved",
   "theorems": [
    "Verif.Signal.C82_powerlaw",
    "Verif.Signal.C82_rejects"
   ],
   "note": "Real arithmetic, one row."
  },
  {
   "property": "C83",
   "status": "partial",
   "theorems": [
    "Verif.Signal.C83_white",
    "Verif.Signal.C83_inverse",
    "Verif.Signal.C83_operator",
    "Verif.Signal.C83_white_psd"
   ],
   "note": "White spectra for every correlation length, 1/f model for correlations that are not truncated; the approximation made by the truncation and the band Toeplitz operator of pyoperators (not circulant) are not modelled."
  },
  {
   "property": "C84",
   "status": "partial",
   "theorems": [
    "Verif.Signal.C84_incomplete",
    "Verif.Signal.C84_diagonal",
    "Verif.Signal.C84_white",
    "Verif.Signal.C84_correlated_partial",
    "Verif.Signal.C84_violation_detectors",
    "Verif.Signal.C84_violation_odd",
    "Verif.Signal.C84_violation_ncorr"
   ],
   "note": "Rejections, white noise, and 1/f noise with a scalar standard deviation; get_noise raises for one standard deviation per detector with a knee frequency, and for an odd number of samples with a spectrum; the default correlation length raises TypeError (proved for all such inputs)."
  },
  {
   "property": "C85",
   "status": "partial",
   "theorems": [
    "Verif.Signal.C85_rows_partial",
    "Verif.Signal.C85_rejects",
    "Verif.Signal.C85_violation_single",
    "Verif.Signal.C85_violation_broadcast"
   ],
   "note": "Double precision rows that do not overlap; single precision is rejected or misread, and repeated rows are read out of bounds (witnesses)."
  },
  {
   "property": "C86",
   "status": "proved",
   "theorems": [
    "Verif.Signal.C86_mean",
    "Verif.Signal.C86_covariance"
   ],
   "note": "Two-sided even spectrum of one row; independence and normality of the deviates are represented by the linear map."
  },
  {
   "property": "C87",
   "status": "partial",
   "theorems": [
    "Verif.Wcs.C87_python_fortran",
    "Verif.Wcs.C87_pixel",
    "Verif.Wcs.C87_crota_iff",
    "Verif.Wcs.C87_partial",
    "Verif.Wcs.C87_crota_python",
    "Verif.Wcs.C87_violation_crota"
   ],
   "note": "Headers with a CD matrix; with CROTA2 the Fortran rotation is the opposite one unless the sine vanishes or the scales are equal (equivalence proved)."
  },
  {
   "property": "C88",
   "status": "partial",
   "theorems": [
    "Verif.Wcs.C88_mean_partial",
    "Verif.Wcs.C88_minmax_partial",
    "Verif.Wcs.C88_violation"
   ],
   "note": "Arcs shorter than a quarter of a turn; false for longer arcs (witness)."
  },
  {
   "property": "C89",
   "status": "partial",
   "theorems": [
    "Verif.Wcs.C89_angle",
    "Verif.Wcs.C89_metric",
    "Verif.Wcs.C89_zero",
    "Verif.Wcs.C89_arrays",
    "Verif.Wcs.C89_broadcast",
    "Verif.Wcs.Operators.C89_python_partial",
    "Verif.Wcs.C89_violation_sizes",
    "Verif.Wcs.Operators.C89_violation_shape"
   ],
   "note": "Every position; arrays of different sizes greater than one are read out of bounds, the shape of arrays with several dimensions is lost (witnesses)."
  },
  {
   "property": "C90",
   "status": "proved",
   "theorems": [
    "Verif.Wcs.C90_direction",
    "Verif.Wcs.C90_same",
    "Verif.Wcs.C90_perm",
    "Verif.Wcs.C90_undefined",
    "Verif.Wcs.C90_missing"
   ],
   "note": "Real arithmetic."
  },
  {
   "property": "C91",
   "status": "proved",
   "theorems": [
    "Verif.Wcs.C91_plane",
    "Verif.Wcs.C91_reference",
    "Verif.Wcs.C91_injective",
    "Verif.Wcs.C91_surjective",
    "Verif.Wcs.C91_scale",
    "Verif.Wcs.C91_area"
   ],
   "note": "Real arithmetic."
  },
  {
   "property": "C92",
   "status": "partial",
   "theorems": [
    "Verif.Wcs.C92_edges",
    "Verif.Wcs.C92_encloses",
    "Verif.Wcs.C92_frame",
    "Verif.Wcs.C92_default_scale",
    "Verif.Wcs.C92_tight"
   ],
   "note": "The projection of the dependency (astropy) is modelled by the exact gnomonic projection; containment of the whole map when its corners are in the hemisphere of the combined header."
  },
  {
   "property": "C93",
   "status": "partial",
   "theorems": [
    "Verif.Wcs.C93_same",
    "Verif.Wcs.C93_origin",
    "Verif.Wcs.C93_rotation",
    "Verif.Wcs.C93_norm",
    "Verif.Wcs.C93_injective",
    "Verif.Wcs.C93_violation_axis"
   ],
   "note": "Away from the poles; the first axis is along the increasing right ascensions, contrary to the documentation."
  },
  {
   "property": "C95",
   "status": "partial",
   "theorems": [
    "Verif.Wcs.C95_two_axes",
    "Verif.Wcs.C95_violation_cube",
    "Verif.Wcs.C95_violation_empty"
   ],
   "note": "Two axes; false with three axes, raises without axes."
  },
  {
   "property": "C96",
   "status": "partial",
   "theorems": [
    "Verif.Wcs.C96_reference",
    "Verif.Wcs.C96_partial",
    "Verif.Wcs.C96_violation"
   ],
   "note": "Exact value of what is returned for square pixels; it differs from the pixel area everywhere except at the reference pixel, because the tangent of the pixel scale is used."
  },
  {
   "property": "C97",
   "status": "proved",
   "theorems": [
    "Verif.Wcs.C97_smallest_box",
    "Verif.Wcs.C97_perm"
   ],
   "note": "After the initialisation of the projection; real arithmetic."
  },
  {
   "property": "C94",
   "status": "partial",
   "theorems": [
    "Verif.Wcs.C94_round",
    "Verif.Wcs.C94_nearest",
    "Verif.Wcs.C94_nearest_out",
    "Verif.Wcs.C94_sharp",
    "Verif.Wcs.C94_sharp_out",
    "Verif.Wcs.C94_sharp_row",
    "Verif.Wcs.C94_threads_partial",
    "Verif.Wcs.C94_one_thread",
    "Verif.Wcs.C94_violation_threads"
   ],
   "note": "Convex projections, real arithmetic; the number of pixels per row is exact with one thread and an update can be lost with two (witness)."
  },
  {
   "property": "C98",
   "status": "partial",
   "theorems": [
    "Verif.Data.C98_getitem",
    "Verif.Data.C98_reshape",
    "Verif.Data.C98_astype",
    "Verif.Data.C98_violation"
   ],
   "note": "Selections, changes of shape and type; false for the other operations of numpy and for the constructor."
  },
  {
   "property": "C99",
   "status": "proved",
   "theorems": [
    "Verif.Data.C99_mean",
    "Verif.Data.C99_distribution"
   ],
   "note": "Real arithmetic; the conversion into spherical coordinates is left out."
  },
  {
   "property": "C100",
   "status": "partial",
   "theorems": [
    "Verif.Data.C100_angles",
    "Verif.Data.C100_third_partial",
    "Verif.Data.C100_length",
    "Verif.Data.C100_violation"
   ],
   "note": "The third angle given by keyword after two arguments is ignored (witness)."
  },
  {
   "property": "C101",
   "status": "partial",
   "theorems": [
    "Verif.Data.C101_integral",
    "Verif.Data.C101_violation_abscissae"
   ],
   "note": "Values proved against the upper side of the bin; the returned abscissae are always smaller than it."
  },
  {
   "property": "C102",
   "status": "partial",
   "theorems": [
    "Verif.Data.C102_distance",
    "Verif.Data.C102_distance2_partial",
    "Verif.Data.C102_violation_distance2",
    "Verif.Data.C102_aperture",
    "Verif.Data.C102_unit",
    "Verif.Data.C102_violation_unit"
   ],
   "note": "distance for any number of dimensions, distance2 in one and two dimensions; with three dimensions or more distance2 raises, and its unit is not squared."
  },
  {
   "property": "C103",
   "status": "proved",
   "theorems": [
    "Verif.Data.C103_density",
    "Verif.Data.C103_rejects",
    "Verif.Data.C103_fwhm"
   ],
   "note": "Real arithmetic, any number of dimensions."
  },
  {
   "property": "C104",
   "status": "partial",
   "theorems": [
    "Verif.Data.C104_parseval",
    "Verif.Data.C104_frequency",
    "Verif.Data.C104_violation_profile"
   ],
   "note": "Any shape; the profile is centred one pixel after the zero frequency."
  },
  {
   "property": "C105",
   "status": "proved",
   "theorems": [
    "Verif.Wcs.C105_horizontal",
    "Verif.Wcs.C105_zenith",
    "Verif.Wcs.C105_lst",
    "Verif.Wcs.C105_midnight"
   ],
   "note": "Real arithmetic."
  },
  {
   "property": "C106",
   "status": "partial",
   "theorems": [
    "Verif.Operators.C106_planck",
    "Verif.Operators.C106_identity",
    "Verif.Operators.C106_chain",
    "Verif.Operators.C106_rejects",
    "Verif.Operators.C106_violation_beta",
    "Verif.Operators.C106_violation_reference"
   ],
   "note": "Scalar slopes, real arithmetic; arrays of slopes are documented but rejected, and an array of reference frequencies is not rejected (witnesses)."
  },
  {
   "property": "C107",
   "status": "partial",
   "theorems": [
    "Verif.Operators.C107_action",
    "Verif.Operators.C107_rejects",
    "Verif.Operators.C107_homothety",
    "Verif.Operators.C107_chain",
    "Verif.Operators.C107_violation_example"
   ],
   "note": "Real arithmetic, positive abscissae; the example of the documentation does not hold (witness)."
  },
  {
   "property": "C108",
   "status": "partial",
   "theorems": [
    "Verif.Operators.C108_maximum",
    "Verif.Operators.C108_fwhm",
    "Verif.Operators.C108_solid_angle_partial",
    "Verif.Operators.C108_violation_uniform"
   ],
   "note": "Real arithmetic; the solid angle of the gaussian beam is that of the plane approximation (bounds on the difference), that of the uniform beam is half the integral of its values."
  },
  {
   "property": "C109",
   "status": "partial",
   "theorems": [
    "Verif.Operators.C109_dispatch",
    "Verif.Operators.C109_exists",
    "Verif.Operators.C109_original",
    "Verif.Operators.C109_rejects",
    "Verif.Operators.C109_chunk_shape",
    "Verif.Operators.C109_violation_stack",
    "Verif.Operators.C109_violation_shapeout"
   ],
   "note": "Arguments, number of blocks and input shapes of chunks; the shapes of stacks and the output shapes are wrong (witnesses)."
  },
  {
   "property": "C110",
   "status": "proved",
   "theorems": [
    "Verif.Operators.C110_action",
    "Verif.Operators.C110_inverse",
    "Verif.Operators.C110_distance",
    "Verif.Operators.C110_conversions",
    "Verif.Operators.C110_rejects",
    "Verif.Operators.C110_zenith"
   ],
   "note": "Real arithmetic; the conversions between angles and vectors of pyoperators are part of the trusted base."
  },
  {
   "property": "C111",
   "status": "partial",
   "theorems": [
    "Verif.Healpix.C111_angles",
    "Verif.Healpix.C111_inverse",
    "Verif.Healpix.C111_rule_partial",
    "Verif.Healpix.C111_violation_rule",
    "Verif.Healpix.C111_convention",
    "Verif.Healpix.C111_rule_exact",
    "Verif.Healpix.C111_spelling"
   ],
   "note": "The pixelisation is an arbitrary one whose centres belong to their pixels; the compositions from directions to directions are replaced by the identity although they are not (witness for every resolution)."
  },
  {
   "property": "C112",
   "status": "proved",
   "theorems": [
    "Verif.Healpix.C112_widths",
    "Verif.Healpix.C112_rejects",
    "Verif.Healpix.C112_pixels"
   ],
   "note": "Real arithmetic; the smoothing itself belongs to the library healpy."
  },
  {
   "property": "C113",
   "status": "partial",
   "theorems": [
    "Verif.Healpix.C113_action",
    "Verif.Healpix.C113_symmetric",
    "Verif.Healpix.C113_constant_partial",
    "Verif.Healpix.C113_violation_constant",
    "Verif.Healpix.C113_violation_weights"
   ],
   "note": "Any resolution, with the neighbours of the Healpix library written out; at the corners of the faces where a neighbour is missing the constant maps are not annihilated, and the weights of the sides and of the corners are exchanged (witnesses)."
  },
  {
   "property": "C114",
   "status": "proved",
   "theorems": [
    "Verif.Healpix.C114_scene",
    "Verif.Healpix.C114_kinds",
    "Verif.Healpix.C114_rejects"
   ],
   "note": "Real arithmetic for the solid angle."
  },
  {
   "property": "C115",
   "status": "proved",
   "theorems": [
    "Verif.Healpix.C115_absolute",
    "Verif.Healpix.C115_relative"
   ],
   "note": "Real arithmetic."
  },
  {
   "property": "C116",
   "status": "partial",
   "theorems": [
    "Verif.Units.C116_same",
    "Verif.Units.C116_prod",
    "Verif.Units.C116_square",
    "Verif.Units.C116_each",
    "Verif.Units.C116_rejects",
    "Verif.Units.C116_sum",
    "Verif.Units.C116_var",
    "Verif.Units.C116_concatenate",
    "Verif.Units.C116_dot",
    "Verif.Units.C116_table",
    "Verif.Units.C116_degrees",
    "Verif.Units.C116_violation_clip",
    "Verif.Units.C116_violation_interp",
    "Verif.Units.C116_violation_atleast",
    "Verif.Units.C116_violation_cov",
    "Verif.Units.C116_violation_hstack",
    "Verif.Units.C116_violation_derived"
   ],
   "note": "One-dimensional arrays, no keyword, real arithmetic; clip, interp, atleast_1d of several arguments, cov of one argument, hstack of a quantity and operands with different derived units break the property (witnesses)."
  },
  {
   "property": "C117",
   "status": "partial",
   "theorems": [
    "Verif.Units.C117_si",
    "Verif.Units.C117_position",
    "Verif.Units.C117_getitem_partial",
    "Verif.Units.C117_tounit_partial",
    "Verif.Units.C117_violation_ellipsis",
    "Verif.Units.C117_violation_list",
    "Verif.Units.C117_violation_scalar",
    "Verif.Units.C117_violation_recursion",
    "Verif.Units.C117_violation_tounit"
   ],
   "note": "Any number of dimensions, integers, slices and Ellipsis, derived units that are scalars or arrays of quantities with base units, real arithmetic; the ellipsis in front of a key, lists, keys that leave one value of a derived unit, slices after a conversion and conversions of leftward units break the property (witnesses)."
  },
  {
   "property": "C118",
   "status": "partial",
   "theorems": [
    "Verif.Units.Mem.C118_si",
    "Verif.Units.Mem.C118_inunit_partial",
    "Verif.Units.Mem.C118_tounit",
    "Verif.Units.Mem.C118_history",
    "Verif.Units.Mem.C118_violation_view",
    "Verif.Units.Mem.C118_violation_construct",
    "Verif.Units.Mem.C118_violation_derived"
   ],
   "note": "Any memory and program, one-dimensional arrays, scalar derived units, real arithmetic; the conversion in place of a quantity that has views, the constructor with copy=False and the derived units of derived units break the property (witnesses)."
  },
  {
   "property": "C119",
   "status": "partial",
   "theorems": [
    "Verif.Operators.Interf.C119_rot2d_partial",
    "Verif.Operators.Interf.C119_rot3d_partial",
    "Verif.Operators.Interf.C119_weighted_partial",
    "Verif.Operators.Interf.C119_outside",
    "Verif.Operators.Interf.C119_violation_pole",
    "Verif.Operators.Interf.C119_violation_sky"
   ],
   "note": "Any rotation, directions of the sky and of the instrument that are not the poles, real arithmetic; at the poles the elements are not numbers (witnesses)."
  },
  {
   "property": "C120",
   "status": "partial",
   "theorems": [
    "Verif.Sort.C120_int",
    "Verif.Sort.C120_nomask",
    "Verif.Sort.C120_mask",
    "Verif.Sort.C120_direct_partial",
    "Verif.Sort.C120_violation_direct"
   ],
   "note": "Any array of fewer than 2^1000 elements, any initial values of the variables: termination, absence of out-of-bounds accesses, permutation and order; QSORTID misplaces values when there are NaNs (witness)."
  },
  {
   "property": "C121",
   "status": "partial",
   "theorems": [
    "Verif.Sort.C121_nomask",
    "Verif.Sort.C121_mask",
    "Verif.Sort.C121_exact",
    "Verif.Sort.C121_uniq_partial",
    "Verif.Sort.C121_violation_uniq",
    "Verif.Sort.C121_uniq_int",
    "Verif.Sort.C121_uniq_int_sorted"
   ],
   "note": "Any array, mask and non-negative tolerance, exact arithmetic; uniq returns an index of NaN if there is no value (witness)."
  },
  {
   "property": "C122",
   "status": "partial",
   "theorems": [
    "Verif.Sort.C122_histogram",
    "Verif.Sort.C122_histogram_nomask",
    "Verif.Sort.C122_reorder",
    "Verif.Sort.C122_where_1d",
    "Verif.Sort.C122_where_2d",
    "Verif.Sort.C122_where_3d",
    "Verif.Sort.C122_where_2d_1d_partial",
    "Verif.Sort.C122_violation_where"
   ],
   "note": "Any array and shape; the two-dimensional array seen in one dimension requires the optional argument (witness)."
  },
  {
   "property": "C123",
   "status": "partial",
   "theorems": [
    "Verif.Fits.C123_find_partial",
    "Verif.Fits.C123_bounds_partial",
    "Verif.Fits.C123_violation_z",
    "Verif.Fits.C123_violation_empty"
   ],
   "note": "Any header of at least one card, any keyword without the letter Z, which is not converted by strlowcase (witness); a header that is empty or is followed by a null character is read beyond its end (witness)."
  },
  {
   "property": "C124",
   "status": "partial",
   "theorems": [
    "Verif.Fits.C124_string_partial",
    "Verif.Fits.C124_string",
    "Verif.Fits.C124_plain",
    "Verif.Fits.C124_violation_short"
   ],
   "note": "Any string and card, for keywords as in C123; a string that does not fit in the variable is written beyond its end (witness)."
  },
  {
   "property": "C125",
   "status": "partial",
   "theorems": [
    "Verif.Fits.C125_integer_partial",
    "Verif.Fits.C125_integer",
    "Verif.Fits.C125_logical",
    "Verif.Fits.C125_real",
    "Verif.Fits.C125_violation_long"
   ],
   "note": "Any integer, for keywords as in C123; integers of more than 20 characters are truncated (witness); the conversion of a text to a real belongs to the Fortran library."
  },
  {
   "property": "C126",
   "status": "partial",
   "theorems": [
    "Verif.Fits.C126_compress",
    "Verif.Fits.C126_split",
    "Verif.Fits.C126_join",
    "Verif.Fits.C126_integer_partial",
    "Verif.Fits.C126_integer",
    "Verif.Fits.C126_section_partial",
    "Verif.Fits.C126_violation_minimum",
    "Verif.Fits.C126_violation_int8"
   ],
   "note": "Any string; integers exact in double precision and logarithms of exact arithmetic; the smallest integer fails and large integers of 64 bits have a blank at the end (witnesses)."
  },
  {
   "property": "C127",
   "status": "partial",
   "theorems": [
    "Verif.Fits.C127_lines_partial",
    "Verif.Fits.C127_violation_end"
   ],
   "note": "Any text whose cards do not begin with the letters END (witness); the conversion of a line to a card belongs to pyfits."
  },
  {
   "property": "C128",
   "status": "partial",
   "theorems": [
    "Verif.Fits.C128_matrix_partial",
    "Verif.Fits.C128_scales_partial",
    "Verif.Fits.C128_refused",
    "Verif.Fits.C128_missing",
    "Verif.Fits.C128_bounds",
    "Verif.Fits.C128_violation_unit",
    "Verif.Fits.C128_violation_type"
   ],
   "note": "Any header of at least one card; the units of the header are ignored and only the eight first characters of the types are compared, so that distortions are ignored (witnesses)."
  },
  {
   "property": "C129",
   "status": "proved",
   "theorems": [
    "Verif.Stat.C129_sum",
    "Verif.Stat.C129_rounding",
    "Verif.Stat.C129_moment",
    "Verif.Stat.C129_mask",
    "Verif.Stat.C129_norms",
    "Verif.Stat.C129_dot",
    "Verif.Stat.C129_planes"
   ],
   "note": "Any array and mask, real arithmetic with NaN; for the compensated sum also any rounded addition and subtraction of relative error u: the error of the sum is at most 8 u + 17 n u2 times the sum of the absolute values."
  },
  {
   "property": "C130",
   "status": "partial",
   "theorems": [
    "Verif.Stat.C130_median_partial",
    "Verif.Stat.C130_copy_partial",
    "Verif.Stat.C130_unique",
    "Verif.Stat.C130_even",
    "Verif.Stat.C130_violation_nan"
   ],
   "note": "Any array, mask and linear order: termination, absence of out-of-bounds accesses, rank and rearrangement; if NaN are present and not removed the scans leave the array (witness)."
  },
  {
   "property": "C131",
   "status": "partial",
   "theorems": [
    "Verif.Stat.C131_mad_partial",
    "Verif.Stat.C131_violation_nan"
   ],
   "note": "Any array without NaN; with NaN the elements that replace them are counted twice (witness)."
  },
  {
   "property": "C132",
   "status": "partial",
   "theorems": [
    "Verif.Stat.C132_clipping_partial",
    "Verif.Stat.C132_remaining",
    "Verif.Stat.C132_nan",
    "Verif.Stat.C132_violation_nitermax"
   ],
   "note": "Any array, threshold and maximum, real arithmetic; the maximum is ignored unless it is one (witness)."
  },
  {
   "property": "C133",
   "status": "partial",
   "theorems": [
    "Verif.Stat.C133_column",
    "Verif.Stat.C133_shift_partial",
    "Verif.Stat.C133_violation_offsets"
   ],
   "note": "Any size and offsets, in place or not; the number of offsets must divide that of columns (witnesses)."
  },
  {
   "property": "C134",
   "status": "proved",
   "theorems": [
    "Verif.Pointing.C134_minimap",
    "Verif.Pointing.C134_masked",
    "Verif.Pointing.C134_too_small"
   ],
   "note": "Any frame with indices that are -1 or 32-bit non-negative integers, any field; the weights in the precision of the map."
  },
  {
   "property": "C135",
   "status": "partial",
   "theorems": [
    "Verif.Signal.C135_folded_partial",
    "Verif.Signal.C135_unfold",
    "Verif.Signal.C135_violation_odd",
    "Verif.Signal.C135_violation_single"
   ],
   "note": "Any even number of samples: frequencies, densities, Parseval; with an odd number the last frequency is larger than the sampling frequency and the last density is half of it (any timeline), with one sample the sizes differ."
  },
  {
   "property": "C136",
   "status": "partial",
   "theorems": [
    "Verif.Dist.C136_value",
    "Verif.Dist.C136_operation_partial",
    "Verif.Dist.C136_buffer",
    "Verif.Dist.C136_violation_operation"
   ],
   "note": "Any blocks given by the model of splitting; the noise is added after the operation, so that the contract holds only for operations that commute with the addition (witnesses: subtraction, multiplication)."
  },
  {
   "property": "C137",
   "status": "partial",
   "theorems": [
    "Verif.Units.C137_area_partial",
    "Verif.Units.C137_undefined",
    "Verif.Units.C137_solid_angle",
    "Verif.Units.C137_relative",
    "Verif.Units.C137_pixel_partial",
    "Verif.Units.C137_violation_pc",
    "Verif.Units.C137_violation_incomplete"
   ],
   "note": "Any matrix CD or scales and rotation; Lebesgue measure of the parallelogram; the matrix PC is not read and the missing elements of CD are not zero (witnesses)."
  },
  {
   "property": "C138",
   "status": "partial",
   "theorems": [
    "Verif.Data.Save.C138_fits_partial",
    "Verif.Data.Save.C138_map_partial",
    "Verif.Data.Save.C138_tod_partial",
    "Verif.Data.Save.C138_violation_unit",
    "Verif.Data.Save.C138_violation_path",
    "Verif.Data.Save.C138_violation_integer",
    "Verif.Data.Save.C138_violation_extname",
    "Verif.Data.Save.C138_violation_pickle",
    "Verif.Data.Save.C138_violation_argument"
   ],
   "note": "Any array with dimensions, units with integer exponents (C21), file names that are strings, one process (several: C49, C77); pickle is any pair of functions that are inverse; witnesses for the units of the header, Path, integers, extensions, failures of pickle, and the argument derived_units."
  },
  {
   "property": "C139",
   "status": "partial",
   "theorems": [
    "Verif.Data.Headers.C139_constructor",
    "Verif.Data.Headers.C139_astype_partial",
    "Verif.Data.Headers.C139_created_partial",
    "Verif.Data.Headers.C139_violation_copy",
    "Verif.Data.Headers.C139_violation_slice",
    "Verif.Data.Headers.C139_violation_argument",
    "Verif.Data.Headers.C139_violation_complex"
   ],
   "note": "Any heap of headers; the constructor with copy and astype give independent headers, numpy copies, slices, operations and the header argument share it (any array)."
  },
  {
   "property": "C140",
   "status": "partial",
   "theorems": [
    "Verif.PackedTable.C140_function_partial",
    "Verif.PackedTable.C140_method",
    "Verif.PackedTable.C140_restriction",
    "Verif.PackedTable.C140_all_partial",
    "Verif.PackedTable.C140_violation_object",
    "Verif.PackedTable.C140_violation_method",
    "Verif.PackedTable.C140_violation_constant"
   ],
   "note": "Any callable described by its signature and body; the objects that can be called and the methods of other objects do not receive the table, the functions without argument are not restricted (witnesses)."
  },
  {
   "property": "C141",
   "status": "partial",
   "theorems": [
    "Verif.PackedTable.C141_fields_partial",
    "Verif.PackedTable.C141_exact",
    "Verif.PackedTable.C141_unpack_partial",
    "Verif.PackedTable.C141_violation_dates",
    "Verif.PackedTable.C141_violation_array",
    "Verif.PackedTable.C141_violation_title"
   ],
   "note": "Any nested type; the dates, durations, bytes, fields with a shape and titles have no missing value (exact characterisation and witnesses)."
  },
  {
   "property": "C142",
   "status": "partial",
   "theorems": [
    "Verif.Operators.C142_cartesian_partial",
    "Verif.Operators.C142_galactic_partial",
    "Verif.Operators.C142_equatorial_partial",
    "Verif.Operators.C142_galactic_horizontal_partial",
    "Verif.Operators.C142_place",
    "Verif.Operators.C142_violation_scalar",
    "Verif.Operators.C142_violation_single"
   ],
   "note": "Any angles, dates and place, real arithmetic; a scalar angle with an array of angles has no direction, two scalars give the shape (2,) (witnesses)."
  },
  {
   "property": "C143",
   "status": "partial",
   "theorems": [
    "Verif.Geometry.C143_grid_partial",
    "Verif.Geometry.C143_squares_partial",
    "Verif.Geometry.C143_packed",
    "Verif.Geometry.C143_violation_vertex",
    "Verif.Geometry.C143_violation_list"
   ],
   "note": "Any grid, units of a table with a valuation (C22), real arithmetic; vertices given by the caller are not converted and the unit of their array is changed, a shape given as a list is refused (witnesses)."
  },
  {
   "property": "C144",
   "status": "partial",
   "theorems": [
    "Verif.PackedTable.C144_init_partial",
    "Verif.PackedTable.C144_iter",
    "Verif.PackedTable.C144_split_partial",
    "Verif.PackedTable.C144_scatter",
    "Verif.PackedTable.C144_pack",
    "Verif.PackedTable.C144_imager_partial",
    "Verif.PackedTable.C144_violation_both",
    "Verif.PackedTable.C144_violation_unnamed"
   ],
   "note": "Any reachable layout with distinct detectors for split; image2object is ignored if both transforms are given, an imager without name has no detectors (witnesses)."
  },
  {
   "property": "C145",
   "status": "partial",
   "theorems": [
    "Verif.Sparse.C145_extra",
    "Verif.Sparse.C145_transpose",
    "Verif.Sparse.C145_dense_partial",
    "Verif.Sparse.C145_broadcastable",
    "Verif.Sparse.C145_violation_dense",
    "Verif.Sparse.C145_violation_validated",
    "Verif.Sparse.C145_violation_shapein"
   ],
   "note": "Any matrix and shapes; with two additional dimensions todense returns a matrix of the wrong shape, arrays with the right size and other dimensions are validated and then refused (witnesses)."
  },
  {
   "property": "C146",
   "status": "proved",
   "theorems": [
    "Verif.Geometry.Hull.C146_hull",
    "Verif.Geometry.Hull.C146_dimension"
   ],
   "note": "Any points, order of a set and sort, real arithmetic; the facets of Qhull are a stated hypothesis (ends on supporting lines, distinct, containing the points), with an example."
  },
  {
   "property": "C147",
   "status": "partial",
   "theorems": [
    "Verif.Data.Attributes.C147_view_partial",
    "Verif.Data.Attributes.C147_pickle_partial",
    "Verif.Data.Attributes.C147_fields_partial",
    "Verif.Data.Attributes.C147_item_partial",
    "Verif.Data.Attributes.C147_derived",
    "Verif.Data.Attributes.C147_violation_clash",
    "Verif.Data.Attributes.C147_violation_pickle",
    "Verif.Data.Attributes.C147_violation_property",
    "Verif.Data.Attributes.C147_violation_coverage",
    "Verif.Data.Attributes.C147_violation_none",
    "Verif.Data.Attributes.C147_violation_tuple"
   ],
   "note": "Any class, array and changes of attributes; a field named as an attribute is overwritten with NaN by a view and hidden after pickle, the fields of a map with a plain coverage cannot be read, None is accepted as derived units (witnesses)."
  },
  {
   "property": "C148",
   "status": "partial",
   "theorems": [
    "Verif.Wcs.Operators.C148_direct_partial",
    "Verif.Wcs.Operators.C148_shapes",
    "Verif.Wcs.Operators.C148_inverse",
    "Verif.Wcs.Operators.C148_gnomonic",
    "Verif.Wcs.Operators.C148_distortion_partial",
    "Verif.Wcs.Operators.C148_scene",
    "Verif.Wcs.Operators.C148_dimensions",
    "Verif.Wcs.Operators.C148_violation_strided",
    "Verif.Wcs.Operators.C148_violation_distortion"
   ],
   "note": "Any strided arrays, world coordinate systems, headers and points; nothing is written in an output that cannot be reshaped without a copy, the inverse of a distortion is exact at the points only (witnesses)."
  },
  {
   "property": "C149",
   "status": "partial",
   "theorems": [
    "Verif.Data.MadmapFiles.C149_filter",
    "Verif.Data.MadmapFiles.C149_header",
    "Verif.Data.MadmapFiles.C149_records",
    "Verif.Data.MadmapFiles.C149_files_partial",
    "Verif.Data.MadmapFiles.C149_number",
    "Verif.Data.MadmapFiles.C149_dots_partial",
    "Verif.Data.MadmapFiles.C149_mask_partial",
    "Verif.Data.MadmapFiles.C149_violation_dot",
    "Verif.Data.MadmapFiles.C149_violation_plus",
    "Verif.Data.MadmapFiles.C149_violation_missing",
    "Verif.Data.MadmapFiles.C149_violation_truncated",
    "Verif.Data.MadmapFiles.C149_violation_infinite"
   ],
   "note": "Any contents, byte orders, directories and masks; the name of the file is used as a regular expression (only names without special characters are right), a truncated or missing filter is accepted and both infinities are masked."
  }
 ]
}
