{"id": "C01", "title": "Packing gathers exactly the selected components in table order", "statement": "table.pack(x) has len(table) rows and its k-th row is the row of the flattened x at position table.index[k], whichever internal representation (everything, arithmetic progression, explicit list) the table happens to use, and arrays whose leading dimensions differ from the table shape are rejected.", "quantifier": "every table shape, every splittable ndim, every selection/ordering reachable through the constructor or through restriction, every array x and every trailing shape", "why_tests_cant": "the internal index is compressed into three representations chosen by value; a test fixes a handful of selections and cannot cover every progression, negative stride or size", "anchors": ["src/pysimulators/packedtables/core.py:PackedTable.pack", "src/pysimulators/packedtables/core.py:PackedTable._indexable", "src/pysimulators/packedtables/core.py:PackedTable.index"]}
{"id": "C02", "title": "Unpacking writes the packed values back and fills every other component with the missing value", "statement": "table.unpack(v) puts v[k] (or the broadcast scalar) at position table.index[k] and the missing value everywhere else; in particular the result never depends on uninitialised memory or on the previous content of the out array.", "quantifier": "every table, every packed array or scalar, every missing value, every previous content of the output buffer", "why_tests_cant": "np.empty returns arbitrary memory, which in a test is very often the expected value or zero; the dependence on previous content cannot be observed by sampling", "anchors": ["src/pysimulators/packedtables/core.py:PackedTable.unpack", "src/pysimulators/packedtables/core.py:PackedTable._get_default_missing_value"]}
{"id": "C03", "title": "pack and unpack are inverse of each other", "statement": "pack(unpack(v)) == v for every packed array v of the right length, and unpack(pack(x)) equals x on the selected components; when all components are selected unpack(pack(x)) == x.", "quantifier": "every table with pairwise distinct components, every array", "why_tests_cant": "a round trip on sample arrays does not establish the law for every selection representation and size", "anchors": ["src/pysimulators/packedtables/core.py:PackedTable.pack", "src/pysimulators/packedtables/core.py:PackedTable.unpack"]}
{"id": "C04", "title": "Restricting a table by a slice follows Python slice semantics", "statement": "table[s].index equals table.index[s] computed by the Python definition of slices, for every start, stop and step (None, negative, out of range), and a zero step is rejected.", "quantifier": "every table length n and every slice(start, stop, step) over unbounded integers or None", "why_tests_cant": "the existing test enumerates a length of 4 and bounds up to 5 in absolute value; the rule is over unbounded integers and has boundary cases just outside of that box", "anchors": ["src/pysimulators/packedtables/core.py:PackedTable._normalize_slice", "src/pysimulators/packedtables/core.py:PackedTable.__getitem__"]}
{"id": "C05", "title": "Restriction keeps attributes aligned with the components", "statement": "after table[sel] the k-th value of every table attribute is the value that the same component had in the parent table; attributes with no component dimension are unchanged and the operation succeeds for every selection that numpy would accept.", "quantifier": "every table, every set of attributes, every slice/integer/boolean selection", "why_tests_cant": "alignment is an invariant over all attribute sets and all selection kinds, including the ones that have different code paths (views, fancy indexing)", "anchors": ["src/pysimulators/packedtables/core.py:PackedTable.__getitem__", "src/pysimulators/packedtables/core.py:PackedTable.__setattr__"]}
{"id": "C06", "title": "Successive restrictions compose", "statement": "for every sequence of restrictions s1, s2, ..., sn, table[s1][s2]...[sn] designates the components table.index[s1][s2]...[sn], in that order.", "quantifier": "every initial table and every finite sequence of slice/integer/boolean selections", "why_tests_cant": "the history is of unbounded length and each step may switch the internal representation; only an induction covers every history", "anchors": ["src/pysimulators/packedtables/core.py:PackedTable.__getitem__", "src/pysimulators/packedtables/core.py:PackedTable._normalize_int_selection"]}
{"id": "C07", "title": "The length of a table is the number of its components", "statement": "len(table) equals the number of entries in table.index for every reachable table.", "quantifier": "every table reachable from a constructor by any sequence of restrictions", "why_tests_cant": "len() is computed from slice arithmetic independently of the index; agreement needs an argument over every stride and bound", "anchors": ["src/pysimulators/packedtables/core.py:PackedTable.__len__", "src/pysimulators/packedtables/core.py:PackedTable.index"]}
{"id": "C08", "title": "Compressing an integer selection does not change which components it designates", "statement": "selecting with a list of integers designates exactly these components in this order, whether or not the list happens to be an arithmetic progression.", "quantifier": "every list of integers valid as numpy indices for the table size, including repeated and negative ones", "why_tests_cant": "compression applies only to progressions, an infinite family of lists that sampling hits only by construction", "anchors": ["src/pysimulators/packedtables/core.py:PackedTable._normalize_int_selection", "src/pysimulators/packedtables/core.py:PackedTable._normalize_selection"]}
{"id": "C09", "title": "The ordering keyword defines a stable order of the components", "statement": "with an ordering array, table.index lists exactly the selected components whose ordering value is non-negative, by increasing ordering value, components of equal ordering value being in row-major order.", "quantifier": "every shape, every integer ordering array (with ties and negative values), every boolean selection", "why_tests_cant": "stability under ties and removal of negative values is a statement about all integer arrays", "anchors": ["src/pysimulators/packedtables/core.py:PackedTable._get_index"]}
{"id": "C10", "title": "Equivalent ways of writing a selection give the same table", "statement": "a boolean mask, the increasing list of its True positions, a slice covering the same positions, and a tuple of slices covering the same components all define the same table.index, with or without an ordering keyword.", "quantifier": "every shape and every selection expressible in at least two of these forms", "why_tests_cant": "each form has its own code path and the agreement is a relation between all of them over all shapes", "anchors": ["src/pysimulators/packedtables/core.py:PackedTable._normalize_selection", "src/pysimulators/packedtables/core.py:PackedTable._get_index", "src/pysimulators/packedtables/core.py:PackedTable._selection2bool"]}
{"id": "C11", "title": "Splitting a table partitions it", "statement": "table.split(n) returns n tables whose component lists, concatenated in order, give the component list of table, and whose lengths differ by at most one.", "quantifier": "every table and every number of groups n >= 1 (including n larger than the table)", "why_tests_cant": "a test enumerates a few sizes; the partition must hold for all n, m and all index representations", "anchors": ["src/pysimulators/packedtables/core.py:PackedTable.split"]}
{"id": "C12", "title": "Gathering a scattered table gives the original table back", "statement": "if all the processes of a communicator scatter a table and gather it, every process obtains the original component list and attributes, and gather(array) concatenates the local arrays in rank order.", "quantifier": "every table, every number of processes, every attribute set", "why_tests_cant": "runs are limited to the few process counts available on the test machine", "anchors": ["src/pysimulators/packedtables/core.py:PackedTable.scatter", "src/pysimulators/packedtables/core.py:PackedTable.gather"]}
{"id": "C13", "title": "Unpacking a distributed table gives every process the global array", "statement": "when a table is scattered, unpack called by all processes on their local values returns on every process the array that the undistributed table would have returned for the concatenated values.", "quantifier": "every table with distinct components, every number of processes, every local data", "why_tests_cant": "needs an MPI environment and holds for every process count; the internal representation differs from process to process", "anchors": ["src/pysimulators/packedtables/core.py:PackedTable.unpack", "src/pysimulators/packedtables/core.py:PackedTable.scatter"]}
{"id": "C14", "title": "all.removed is the complement of the selection", "statement": "table.all.removed is False at the components of the table and True everywhere else.", "quantifier": "every table", "why_tests_cant": "universal over selections and index representations", "anchors": ["src/pysimulators/packedtables/core.py:UnpackedTable.removed", "src/pysimulators/packedtables/core.py:PackedTable.unpack"]}
{"id": "C15", "title": "Table attributes keep a consistent shape under any history of assignments", "statement": "after any sequence of constructions, attribute assignments (packed or through .all), restrictions and failed assignments, every component attribute is None, a scalar, or has len(table) rows; reserved attributes never change; a rejected assignment leaves the table as it was.", "quantifier": "every finite sequence of operations with every value", "why_tests_cant": "histories are unbounded; a test exercises one assignment at a time", "anchors": ["src/pysimulators/packedtables/core.py:PackedTable.__setattr__", "src/pysimulators/packedtables/core.py:UnpackedTable.__setattr__", "src/pysimulators/packedtables/core.py:PackedTable.__getitem__"]}
{"id": "C16", "title": "Assigning an attribute of a restricted table does not modify the parent table", "statement": "for sub = table[sel], assigning sub.attr leaves table.attr unchanged.", "quantifier": "every table, every selection kind, every assigned value", "why_tests_cant": "whether memory is shared depends on the selection kind and on the kind of value assigned; tests check values of the restricted table only", "anchors": ["src/pysimulators/packedtables/core.py:PackedTable.__getitem__", "src/pysimulators/packedtables/core.py:PackedTable.__setattr__"]}
{"id": "C17", "title": "Row and column numbers identify the component", "statement": "for a grid layout or scene with ncolumns columns, index == (row - start) * ncolumns + (column - start) and 0 <= column - start < ncolumns for every component, where start is 1 or 0 depending on startswith1; distinct components have distinct (row, column).", "quantifier": "every grid shape with at least one column, every selection and ordering, both numbering origins", "why_tests_cant": "arithmetic identity over all shapes and indices", "anchors": ["src/pysimulators/packedtables/layouts.py:LayoutGrid.row", "src/pysimulators/packedtables/layouts.py:LayoutGrid.column", "src/pysimulators/packedtables/scenes.py:SceneGrid.row"]}
{"id": "C18", "title": "A table can be deep-copied", "statement": "table.copy() returns a table with the same components and attributes that shares no memory with the original.", "quantifier": "every table", "why_tests_cant": "universal over tables; there is no test calling copy()", "anchors": ["src/pysimulators/packedtables/core.py:PackedTable.copy", "src/pysimulators/packedtables/core.py:PackedTable.__setattr__"]}
{"id": "C19", "title": "Units form an abelian group under multiplication", "statement": "the unit of a product (quotient) has, for every base symbol, the sum (difference) of the exponents of the operands; the operation is commutative and associative, the empty unit is neutral and u/u is dimensionless; operands are not modified.", "quantifier": "all units (finite maps from symbols to exponents)", "why_tests_cant": "algebraic laws over all units; tests check a few products", "anchors": ["src/pysimulators/quantities.py:_multiply_unit", "src/pysimulators/quantities.py:_divide_unit", "src/pysimulators/quantities.py:_multiply_unit_inplace", "src/pysimulators/quantities.py:_power_unit"]}
{"id": "C20", "title": "Units are canonical: equal units compare equal", "statement": "no unit reachable through parsing, multiplication, division, powers, conversion stores a symbol with exponent zero, so that two equal units have equal dictionaries and m/m has an empty unit.", "quantifier": "every sequence of unit operations starting from parsed strings", "why_tests_cant": "an invariant over all histories of operations", "anchors": ["src/pysimulators/quantities.py:_extract_unit", "src/pysimulators/quantities.py:_multiply_unit_inplace", "src/pysimulators/quantities.py:_power_unit", "src/pysimulators/quantities.py:_divide_unit"]}
{"id": "C21", "title": "Printing a unit and parsing it back gives the same unit", "statement": "for every unit with non-zero integer exponents, Quantity(1, str_of_unit) has the same unit; the printed form does not depend on the order in which factors were multiplied.", "quantifier": "all units with symbols of the accepted alphabet and integer exponents", "why_tests_cant": "string round trip over all units", "anchors": ["src/pysimulators/quantities.py:_strunit", "src/pysimulators/quantities.py:_extract_unit"]}
{"id": "C22", "title": "Unit conversion preserves the physical value and is reversible", "statement": "q.tounit(u) represents the same physical amount as q; converting to u and back to the original unit returns q; converting to u then v equals converting to v directly.", "quantifier": "every quantity, every compatible units u and v, every unit table with non-zero scale factors", "why_tests_cant": "holds for all values and unit combinations in exact arithmetic; tests check a few with tolerance", "anchors": ["src/pysimulators/quantities.py:Quantity.inunit", "src/pysimulators/quantities.py:Quantity.tounit", "src/pysimulators/quantities.py:Quantity.SI"]}
{"id": "C23", "title": "Incompatible conversions are rejected without modifying the quantity", "statement": "if two units are not dimensionally compatible, tounit/inunit and additions raise UnitError and the operands keep their values and units.", "quantifier": "every pair of incompatible units, every value", "why_tests_cant": "failure atomicity must hold at every exit of the conversion code", "anchors": ["src/pysimulators/quantities.py:Quantity.inunit", "src/pysimulators/quantities.py:Quantity.__array_ufunc__"]}
{"id": "C24", "title": "Arithmetic on quantities is dimensionally consistent", "statement": "a+b and a-b convert b to the unit of a (or adopt the unit of the only operand having one) and represent the sum of the physical amounts; a*b and a/b multiply the values and the units; comparisons give the comparison of the physical amounts.", "quantifier": "every pair of quantities", "why_tests_cant": "dimensional consistency is a homomorphism law over all units and values", "anchors": ["src/pysimulators/quantities.py:Quantity.__array_ufunc__", "src/pysimulators/quantities.py:FUNCTIONS"]}
{"id": "C25", "title": "SI expands to base units and preserves the physical value", "statement": "q.SI has a unit made only of symbols that have no further definition and represents the same physical amount; SI is idempotent.", "quantifier": "every quantity and every well-founded unit table", "why_tests_cant": "repeated expansion has a termination and value-preservation argument over all unit tables", "anchors": ["src/pysimulators/quantities.py:Quantity.SI", "src/pysimulators/quantities.py:units_table"]}
{"id": "C26", "title": "A fixed-sparse-row matrix acts as the dense matrix it denotes", "statement": "FSRMatrix * x equals, row by row, the sum over stored elements with a non-negative column index of value * x[index]; negative indices contribute nothing; repeated indices add up; the fast path for one element per row, the block-homothety path and the pure-Python path all agree.", "quantifier": "every matrix, every vector and every number of trailing components", "why_tests_cant": "universal over matrices and vectors; four implementations must agree", "anchors": ["src/pysimulators/sparse.py:FSRMatrix._matvec", "src/flib/sparse.f90.j2:fsr_matvec", "src/flib/sparse.f90.j2:fsr_homothety_matvec"]}
{"id": "C27", "title": "A fixed-sparse-column matrix acts as the dense matrix it denotes", "statement": "FSCMatrix * x equals the dense product where element (index, i) accumulates the stored values of column i; negative indices contribute nothing; all implementations agree.", "quantifier": "every matrix, every vector and every number of trailing components", "why_tests_cant": "universal over matrices and vectors", "anchors": ["src/pysimulators/sparse.py:FSCMatrix._matvec", "src/flib/sparse.f90.j2:fsc_matvec", "src/flib/sparse.f90.j2:fsc_homothety_matvec"]}
{"id": "C28", "title": "The transpose of a sparse operator is its adjoint", "statement": "<A x, y> == <x, A.T y> for every sparse storage, and A.T.T is A.", "quantifier": "every matrix (row, column, block, rotation storages), every x and y", "why_tests_cant": "tests compare with the dense transpose of sample matrices", "anchors": ["src/pysimulators/sparse.py:SparseOperator._rule_transpose", "src/pysimulators/sparse.py:FSRMatrix._transpose", "src/pysimulators/sparse.py:FSCMatrix._transpose"]}
{"id": "C29", "title": "Parallel accumulation does not depend on the thread schedule", "statement": "the column-storage product, in which threads add atomically into a shared output, gives the sequential result under every interleaving of the updates (in exact arithmetic), and every update is applied exactly once.", "quantifier": "every interleaving of the atomic updates of every number of threads, every matrix", "why_tests_cant": "a run exhibits one schedule", "anchors": ["src/flib/sparse.f90.j2:fsc_matvec", "src/flib/sparse.f90.j2:fsc_rot2d_matvec", "src/flib/sparse.f90.j2:fsc_rot3d_matvec"]}
{"id": "C30", "title": "Block-sparse matrices act as the dense matrix they denote", "statement": "FSRBlockMatrix and FSCBlockMatrix multiply each stored block with the corresponding block of the input, for all supported block sizes, the column storage using the transposed blocks so that it is the adjoint of the row storage.", "quantifier": "every block shape from 1 to 3 (other than 1x1), every matrix and vector", "why_tests_cant": "16 hand-unrolled kernels; each one must agree with the generic formula for every matrix", "anchors": ["src/pysimulators/sparse.py:FSRBlockMatrix", "src/pysimulators/sparse.py:FSCBlockMatrix", "src/flib/module_operators.f90.j2:fsr_block_p_q_matvec", "src/flib/module_operators.f90.j2:fsc_block_p_q_matvec"]}
{"id": "C31", "title": "Rotation-sparse matrices act as the dense rotations they denote", "statement": "each stored element acts on the (Q,U) pair or the (I,Q,U) triplet as [[r11,-r21],[r21,r11]] (resp. diag(r11,[[r22,-r32],[r32,r22]])), and the column storages as the transposed blocks.", "quantifier": "every 2d/3d rotation matrix, every vector", "why_tests_cant": "universal over matrices and vectors; compiled and Python implementations must agree", "anchors": ["src/pysimulators/sparse.py:FSRRotation2dMatrix", "src/pysimulators/sparse.py:FSRRotation3dMatrix", "src/flib/sparse.f90.j2:fsr_rot2d_matvec", "src/flib/sparse.f90.j2:fsr_rot3d_matvec"]}
{"id": "C32", "title": "The product of a transposed projection with itself is simplified correctly", "statement": "when P has one element per row, the diagonal operator substituted for P.T * P gives the same result as applying P and then P.T.", "quantifier": "every such matrix (row, rotation storages), every input shape accepted by the operator including trailing dimensions, every vector", "why_tests_cant": "the algebraic simplification must hold for all matrices and shapes, tests use a few shapes", "anchors": ["src/pysimulators/sparse.py:SparseOperator._rule_pTp", "src/flib/sparse.f90.j2:fsc_fsr_ncolmax1", "src/flib/sparse.f90.j2:fsc_fsr_rot2d_ncolmax1", "src/flib/sparse.f90.j2:fsc_fsr_rot3d_ncolmax1"]}
{"id": "C33", "title": "Restriction and corestriction of a sparse operator agree with masking", "statement": "P.restrict(mask) applied to the kept elements of a map equals P applied to the map zeroed outside the mask; P.corestrict(mask) gives the kept rows of P; renumbered indices are in range.", "quantifier": "every matrix, every mask, every vector", "why_tests_cant": "renumbering must be right for every mask and every index, including missing ones", "anchors": ["src/pysimulators/sparse.py:SparseOperator.restrict", "src/pysimulators/sparse.py:SparseOperator.corestrict", "src/flib/sparse.f90.j2:fsr_restrict"]}
{"id": "C34", "title": "canonical_basis_in_kernel is True exactly for unobserved map pixels", "statement": "canonical_basis_in_kernel()[j] is True if and only if no stored element with index j has a non-zero value, hence the projection of the j-th basis map is zero whenever it is True.", "quantifier": "every projection matrix of every storage and every thread schedule", "why_tests_cant": "the result is computed by concurrent threads through shared pointers; a run exhibits one schedule", "anchors": ["src/pysimulators/operators.py:ProjectionOperator.canonical_basis_in_kernel", "src/flib/sparse.f90.j2:fsr_kernel", "src/pysimulators/operators.py:ProjectionOperator.canonical_basis_in_kernel_old"]}
{"id": "C35", "title": "Coverage and back-projection methods agree with the transpose", "statement": "pT1() equals P.T applied to ones (first Stokes component for 3d rotations) and pTx_pT1(x) equals (P.T(x), P.T(1)), with accumulation when the in-place addition is requested.", "quantifier": "every matrix and every x", "why_tests_cant": "dedicated kernels must agree with the generic transpose for all inputs", "anchors": ["src/pysimulators/operators.py:ProjectionOperator.pT1", "src/pysimulators/operators.py:ProjectionOperator.pTx_pT1", "src/flib/operators.f90.j2:fsr_pT1", "src/flib/operators.f90.j2:fsr_pTx_pT1"]}
{"id": "C36", "title": "Sparse matrix constructors allocate storage consistent with the declared shape", "statement": "a matrix built from a shape and a number of elements per row/column passes the same consistency check as a matrix built from an existing array, and has one storage line per block row (row storage) or block column (column storage).", "quantifier": "every shape, block shape and number of elements accepted by the constructors", "why_tests_cant": "shape arithmetic over all shapes and non-square blocks", "anchors": ["src/pysimulators/sparse.py:_FSMatrix.__init__", "src/pysimulators/sparse.py:FSCBlockMatrix", "src/pysimulators/sparse.py:FSRBlockMatrix"]}
{"id": "C37", "title": "Packing a pointing matrix is equivalent to masking the map", "statement": "after pack(mask), projecting the unmasked pixels of a map equals projecting, with the original matrix, the map set to zero on masked pixels; indices are renumbered without gap and stay below the number of kept pixels.", "quantifier": "every pointing matrix, every mask, every map", "why_tests_cant": "compaction shifts elements within each row; all rows, masks and missing entries must be handled", "anchors": ["src/pysimulators/operators.py:PointingMatrix.pack", "src/flib/module_pointingmatrix.f90:pmatrix_pack"]}
{"id": "C38", "title": "Legacy projection and its transpose are adjoint", "statement": "<P m, t> == <m, P.T t> for the in-memory and on-the-fly projection operators, for any placement of the missing (-1) elements, and P overwrites its output completely.", "quantifier": "every pointing matrix (including -1 entries anywhere), every map, every timeline", "why_tests_cant": "universal over matrices; missing entries may be anywhere in a row", "anchors": ["src/pysimulators/operators.py:ProjectionBaseOperator.direct", "src/pysimulators/operators.py:ProjectionBaseOperator.transpose", "src/flib/module_pointingmatrix.f90:pmatrix_direct", "src/flib/module_pointingmatrix.f90:pmatrix_transpose"]}
{"id": "C39", "title": "isvalid characterises the pointing matrices that are safe to use", "statement": "isvalid() is True if and only if every index is -1 or a pixel of the map, and every access of the projection, transpose, mask and packing then stays inside the map.", "quantifier": "every pointing matrix and map size", "why_tests_cant": "memory safety for all matrices", "anchors": ["src/pysimulators/operators.py:PointingMatrix.isvalid", "src/flib/pointingmatrix_old.f90:isvalid"]}
{"id": "C40", "title": "Caching of on-the-fly pointing matrices is transparent", "statement": "whatever the sequence in which the operators of a group request their pointing matrix, including requests that fail, each successful request returns func(id) for its own id, and at most one matrix is held.", "quantifier": "every finite sequence of requests by any number of operators sharing the place holder, every failure pattern of func", "why_tests_cant": "histories are unbounded and failures can happen at any request", "anchors": ["src/pysimulators/operators.py:ProjectionOnFlyOperator.matrix"]}
{"id": "C41", "title": "intersects reports exactly the observed pixels", "statement": "intersects(pixel) is True if and only if some element of the pointing matrix has this pixel's index, and the per-axis variants report it for each detector or each sample.", "quantifier": "every pointing matrix, every pixel, every axis", "why_tests_cant": "universal over matrices; loops with early exits", "anchors": ["src/pysimulators/operators.py:ProjectionBaseOperator.intersects", "src/flib/pointingmatrix_old.f90:intersects"]}
{"id": "C42", "title": "Integration over a detector polygon conserves its area", "statement": "for a polygon lying inside the scene, the weights of its row of the integration operator add up to the absolute area of the polygon (for a convex polygon, each weight is the area of the intersection with the pixel).", "quantifier": "every polygon with any number of vertices inside any grid", "why_tests_cant": "a conservation law over real-valued vertices; tests check a few polygons with tolerance", "anchors": ["src/flib/projection.f90.j2:matrix_polygon_integration", "src/flib/module_geometry.f90.j2:intersection_polygon_unity_square", "src/flib/module_geometry.f90.j2:intersection_segment_unity_square"]}
{"id": "C43", "title": "The integration operator is well formed", "statement": "every row of the integration operator has pairwise distinct in-range pixel indices followed only by padding, and the automatic sizing of the number of elements per row loses no element and terminates after at most one retry.", "quantifier": "every set of polygons, every initial ncolmax, every scene shape", "why_tests_cant": "sizing is data dependent, overflow happens only for some polygons", "anchors": ["src/pysimulators/packedtables/scenes.py:SceneGrid.get_integration_operator", "src/flib/projection.f90.j2:matrix_polygon_integration"]}
{"id": "C44", "title": "Grids of points and grids of squares are consistent", "statement": "the mean of the four corners of each square of create_grid_squares is the corresponding point of create_grid for the same spacing, angle, reflections and centre; each square has area spacing**2*filling_factor; the grid is centred on the requested centre.", "quantifier": "every grid shape, spacing, filling factor, angle, reflections and centre", "why_tests_cant": "geometric identity over all real parameters and shapes", "anchors": ["src/pysimulators/geometry.py:create_grid", "src/pysimulators/geometry.py:create_grid_squares", "src/flib/geometry.f90:create_grid", "src/flib/geometry.f90:create_grid_squares"]}
{"id": "C45", "title": "The polygon surface is the invariant shoelace area", "statement": "surface_simple_polygon is invariant under translation, rotation and cyclic relabelling of the vertices, changes sign when the orientation is reversed, and scales with the square of a homothety.", "quantifier": "every polygon", "why_tests_cant": "identities over all real-valued polygons", "anchors": ["src/pysimulators/geometry.py:surface_simple_polygon", "src/flib/geometry.f90:surface_simple_polygon"]}
{"id": "C46", "title": "Rotation of coordinates is an isometric group action, in place or not", "statement": "rotate preserves distances, rotate(a) after rotate(b) equals rotate(a+b), and the in-place and out-of-place variants give the same coordinates.", "quantifier": "every set of coordinates and every angles", "why_tests_cant": "identity over all angles and coordinates", "anchors": ["src/pysimulators/geometry.py:rotate", "src/flib/geometry.f90:rotate_2d"]}
{"id": "C47", "title": "Scattering and gathering a FITS header are inverse of each other", "statement": "if every process takes its local header with scatter_fitsheader and gathers it with gather_fitsheader, the global header is recovered, and the reference pixel of each local header designates the same sky position as the global one.", "quantifier": "every header, axis, number of processes and rank", "why_tests_cant": "requires every process count, including more processes than rows", "anchors": ["src/pysimulators/mpiutils.py:scatter_fitsheader", "src/pysimulators/mpiutils.py:gather_fitsheader"]}
{"id": "C48", "title": "Distributing an observation covers every detector and sample exactly once", "statement": "the (detector, pointing block) pieces assigned to the ranks by distribute_observation are a partition of detectors x observations.", "quantifier": "every number of detectors, observations and processes", "why_tests_cant": "runs are limited to a few process counts", "anchors": ["src/pysimulators/mpiutils.py:distribute_observation"]}
{"id": "C49", "title": "Parallel FITS output has no hole and no overlap", "statement": "the byte ranges written by the processes in write_fits are pairwise disjoint, follow the header, cover exactly the data, and the file is padded to a multiple of 2880 bytes.", "quantifier": "every local shape, item size and number of processes", "why_tests_cant": "byte arithmetic for all sizes and process counts", "anchors": ["src/pysimulators/mpiutils.py:write_fits"]}
{"id": "C50", "title": "The process grid of an acquisition uses every process exactly once", "statement": "for every accepted pair of process counts, nprocs_instrument * nprocs_sampling equals the size of the communicator, user-requested counts are honoured, and inconsistent requests are rejected.", "quantifier": "every communicator size and every combination of given/omitted counts", "why_tests_cant": "requires every process count", "anchors": ["src/pysimulators/acquisitions.py:Acquisition.__init__"]}
{"id": "C51", "title": "Sampling blocks partition the sampling", "statement": "the blocks of an acquisition are consecutive, disjoint and cover the sampling for every memory limit, and get_noise/get_operator process every sample once.", "quantifier": "every sampling length and every memory limit", "why_tests_cant": "arithmetic for all sizes", "anchors": ["src/pysimulators/acquisitions.py:Acquisition.__init__", "src/pysimulators/acquisitions.py:Acquisition.get_noise"]}
{"id": "C52", "title": "A restricted acquisition computes its own operator", "statement": "after any sequence of get_operator calls and restrictions, acq.get_operator() returns the operator of acq's current instrument, sampling and scene.", "quantifier": "every finite sequence of get_operator calls and restrictions on any derived acquisition", "why_tests_cant": "caching bugs depend on the history of calls", "anchors": ["src/pysimulators/acquisitions.py:Acquisition.get_operator", "src/pysimulators/acquisitions.py:Acquisition.__getitem__"]}
{"id": "C53", "title": "Mask policies are parsed and validated exactly", "statement": "MaskPolicy maps keep/mask/remove (case and spaces ignored) to 0/1/2 for each named flag, rejects any other value, a wrong number of values and ill-formed names, and exposes the value of every flag under its name.", "quantifier": "every list of flags and values", "why_tests_cant": "decision logic over all strings", "anchors": ["src/pysimulators/acquisitions.py:MaskPolicy"]}
{"id": "C54", "title": "Folding and unfolding a power spectrum density are inverse and preserve power", "statement": "unfolding a one-sided spectrum gives a spectrum symmetric under negation of the frequency with the same total power; folding a two-sided spectrum preserves the total power and folding an unfolded spectrum gives it back.", "quantifier": "every spectrum of every length accepted by the functions", "why_tests_cant": "identity over all lengths and values; the boundary element matters", "anchors": ["src/pysimulators/noises.py:_fold_psd", "src/pysimulators/noises.py:_unfold_psd"]}
{"id": "C55", "title": "Log-log interpolation is the piecewise linear interpolant", "statement": "the interpolated value is, for every abscissa, the value on the line through the bracketing nodes (through the first or last two nodes outside of the range), in particular exact at the nodes.", "quantifier": "every strictly increasing set of at least two nodes, every increasing list of abscissae", "why_tests_cant": "a pointer-advancing loop must be right for all lists", "anchors": ["src/pysimulators/noises.py:_interp"]}
{"id": "C56", "title": "The FFT length is the least sufficient power of two", "statement": "the length used for the noise covariance is a power of two, at least the number of samples, and smaller than twice that number (at least 2).", "quantifier": "every number of samples", "why_tests_cant": "unbounded integer", "anchors": ["src/pysimulators/instruments.py:Instrument.get_invntt_operator"]}
{"id": "C57", "title": "The truncated exponential convolution has a correct transpose", "statement": "the transpose of ConvolutionTruncatedExponentialOperator is the adjoint of the direct application, whether input and output share memory or not, and constant signals are left unchanged by the direct application.", "quantifier": "every signal length, every time constant (zero, positive), every signal, in place or out of place", "why_tests_cant": "adjointness is a law over all signals; in-place execution changes the code path", "anchors": ["src/pysimulators/operators.py:ConvolutionTruncatedExponentialOperator", "src/flib/module_operators.f90.j2:trexp_transpose_inplace"]}
{"id": "C58", "title": "RollOperator is orthogonal", "statement": "the transpose of a RollOperator undoes the direct operation for any number of axes and any offsets, and preserves scalar products.", "quantifier": "every array shape, offsets (negative, larger than the dimension), axes", "why_tests_cant": "universal over shapes and offsets", "anchors": ["src/pysimulators/operators.py:RollOperator"]}
{"id": "C59", "title": "Pixel scale and position angle can be read back from a header", "statement": "get_cdelt_pa(create_fitsheader(..., cdelt=(c1, c2), pa=pa)) returns (c1, c2) and pa.", "quantifier": "every non-zero c1, positive c2 and pa in the principal range", "why_tests_cant": "trigonometric identity over reals", "anchors": ["src/pysimulators/wcsutils.py:create_fitsheader", "src/pysimulators/wcsutils.py:get_cdelt_pa"]}
{"id": "C60", "title": "Header axes and array shape correspond", "statement": "fitsheader2shape(create_fitsheader_for(array)) is the shape of array.", "quantifier": "every shape", "why_tests_cant": "every number of dimensions", "anchors": ["src/pysimulators/wcsutils.py:fitsheader2shape", "src/pysimulators/wcsutils.py:create_fitsheader_for"]}
{"id": "C61", "title": "The mean of angles does not depend on their representation", "statement": "mean_degrees returns a value in [0, 360), unchanged when any multiple of 360 is added to any angle and when the angles are permuted, and minmax_degrees returns bounds that enclose all angles.", "quantifier": "every list of angles", "why_tests_cant": "universal over lists of reals and turns", "anchors": ["src/pysimulators/wcsutils.py:mean_degrees", "src/pysimulators/wcsutils.py:minmax_degrees", "src/flib/wcsutils.f90:mean_degrees"]}
{"id": "C62", "title": "The mask of a time-ordered array stays aligned with its data", "statement": "after any sequence of slicings, reshapes and mask assignments the mask of a Tod is None or has the shape of the data and masks the same samples.", "quantifier": "every finite sequence of operations", "why_tests_cant": "invariant over histories", "anchors": ["src/pysimulators/datatypes.py:Tod.mask", "src/pysimulators/datatypes.py:Tod.__getitem__", "src/pysimulators/datatypes.py:Tod.reshape"]}
{"id": "C63", "title": "Assigning the mask of a sub-array does not alter other arrays", "statement": "setting tod2.mask for a Tod obtained from tod by slicing or copying affects only tod2.", "quantifier": "every pair of related arrays, every assigned mask value", "why_tests_cant": "aliasing depends on the kind of value assigned and on the history", "anchors": ["src/pysimulators/datatypes.py:Tod.mask"]}
{"id": "C64", "title": "The sampling period follows from the sample times", "statement": "a Sampling built from explicit times has the corresponding period; a sampling built from a period has times index*period.", "quantifier": "every sampling", "why_tests_cant": "decision logic over keyword combinations; a default hides the failure", "anchors": ["src/pysimulators/packedtables/samplings.py:Sampling.__init__"]}
{"id": "C65", "title": "Observation blocks of a MADMAP1 data set partition the time line", "statement": "the start/stop bounds of the blocks are consecutive, start at 0 and end at the number of samples, and each block is whitened with its own filters.", "quantifier": "every number of detectors, blocks and block lengths", "why_tests_cant": "bookkeeping over all block structures", "anchors": ["src/pysimulators/interfaces/madmap1.py:MadMap1Observation"]}
{"id": "C66", "title": "Radial profiles average each pixel into exactly one bin", "statement": "profile() returns for each bin the mean of the finite pixels whose distance to the origin lies in [k*bin, (k+1)*bin), each pixel contributing to exactly one bin, with the histogram giving the counts.", "quantifier": "every array, origin, bin size and mask of NaN pixels", "why_tests_cant": "binning with integer truncation over all reals", "anchors": ["src/pysimulators/datautils.py:profile", "src/flib/datautils.f90.j2:profile_axisymmetric_2d"]}
{"id": "C67", "title": "Rotation between equatorial, galactic and horizontal coordinates is invertible", "statement": "the coordinate conversion operators are orthogonal: the transpose undoes the direct conversion and angular distances are preserved, at any date and latitude.", "quantifier": "every position, date, latitude and longitude", "why_tests_cant": "trigonometric identity over reals", "anchors": ["src/pysimulators/operators.py:CartesianEquatorial2HorizontalOperator", "src/pysimulators/operators.py:_CartesianEquatorialGalactic"]}
{"id": "C68", "title": "Point-in-polygon testing agrees with the even-odd rule", "statement": "point_in_polygon returns 1 inside, 0 on the boundary and -1 outside, independently of the starting vertex and orientation.", "quantifier": "every polygon and point", "why_tests_cant": "degenerate alignments (horizontal edges, vertices on the ray) have measure zero and are missed by random tests", "anchors": ["src/flib/module_geometry.f90.j2:point_in_polygon"]}
{"id": "C69", "title": "Copies and scalar multiples of sparse matrices act as expected", "statement": "copy() of a sparse matrix gives the same products as the original and sharing no storage, and (s*A)(x) = s*(A(x)) for every storage kind.", "quantifier": "every matrix, scalar and vector, all storage kinds", "why_tests_cant": "equality of linear maps for all matrices and vectors", "anchors": ["src/pysimulators/sparse.py:_FSMatrix.copy", "src/pysimulators/sparse.py:_FSMatrix.__mul__"]}
{"id": "C70", "title": "Block sparse matrices are only accepted when a kernel exists for their block size", "statement": "a block matrix that is accepted by its constructor has block dimensions between 1 and 3 and not 1x1, so that a compiled kernel exists for it.", "quantifier": "all block shapes, storage kinds and constructor arguments", "why_tests_cant": "the set of block shapes is unbounded and a violation is silent until a product is computed", "anchors": ["src/pysimulators/sparse.py:_FSBlockMatrix.__init__", "src/pysimulators/sparse.py:FSRBlockMatrix.__init__", "src/flib/module_operators.f90.j2:fsr_block_matvec"]}
{"id": "C71", "title": "Row-storage products have no data race", "statement": "the row-storage product, in which the threads share the output without synchronisation, gives the sequential result under every distribution of the rows over the threads and every interleaving of the reads and writes.", "quantifier": "every number of threads, every distribution of the rows, every interleaving, every matrix", "why_tests_cant": "a run exhibits one schedule", "anchors": ["src/flib/sparse.f90.j2:fsr_matvec", "src/flib/sparse.f90.j2:fsr_rot2d_matvec", "src/flib/sparse.f90.j2:fsr_rot3d_matvec"]}
{"id": "C72", "title": "The unit parser accepts exactly its grammar and computes the written exponents", "statement": "a string is accepted exactly when, apart from surrounding white space, it is a sequence of factors (optional * or /, symbol, optional ^number), and then the exponent of each symbol is the sum of its written exponents, counted negatively after a slash; every other string raises ValueError.", "quantifier": "all strings", "why_tests_cant": "the set of strings is infinite and regular expression matching is greedy", "anchors": ["src/pysimulators/quantities.py:_extract_unit", "src/pysimulators/quantities.py:_re_unit"]}
{"id": "C73", "title": "The mask of a pointing matrix marks exactly the unobserved pixels", "statement": "get_mask() is True exactly for the pixels that no sample sees with a non-zero value before its first missing element; with an output argument the pixels already False stay False; packing with this mask does not change the projection of any map.", "quantifier": "every valid pointing matrix, every initial mask, every map", "why_tests_cant": "universal over matrices; missing elements may be anywhere and zero values must be skipped", "anchors": ["src/pysimulators/operators.py:PointingMatrix.get_mask", "src/pysimulators/operators.py:PointingMatrix.pack", "src/flib/module_pointingmatrix.f90:pmatrix_mask"]}
{"id": "C74", "title": "The products of the transpose by a projection are exact", "statement": "get_pTp() and the simplification rule for P.T * P give the dense product of the transpose by the projection, without access outside the arrays.", "quantifier": "every valid pointing matrix (including -1 entries)", "why_tests_cant": "equality of linear maps for all matrices; missing elements must be skipped", "anchors": ["src/pysimulators/operators.py:ProjectionBaseOperator.get_pTp", "src/pysimulators/operators.py:ProjectionInMemoryOperator._rule_ptp", "src/flib/module_pointingmatrix.f90:pmatrix_ptp", "src/flib/pointingmatrix_old.f90:ptp_one"]}
{"id": "C75", "title": "Back projection and coverage are the transpose applied to the data and to one", "statement": "get_pTx_pT1(x) returns P.T(x) and P.T(1), where the samples that are masked, by the argument mask or by the mask of x, are ignored.", "quantifier": "every valid pointing matrix, every timeline, every mask", "why_tests_cant": "universal over matrices, data and masks", "anchors": ["src/pysimulators/operators.py:ProjectionBaseOperator.get_pTx_pT1", "src/flib/module_pointingmatrix.f90:backprojection_weight"]}
{"id": "C76", "title": "Simplification by a diagonal operator and masking of a projection are exact", "statement": "the projection that replaces the composition D * P of a diagonal operator and a projection gives D(P(m)) for every map, and after apply_mask(mask) the projection gives P(m) set to zero on the masked samples.", "quantifier": "every pointing matrix, diagonal, mask and map", "why_tests_cant": "equality of linear maps for all matrices and diagonals", "anchors": ["src/pysimulators/operators.py:ProjectionInMemoryOperator._rule_diagonal", "src/pysimulators/operators.py:ProjectionInMemoryOperator.apply_mask"]}
{"id": "C77", "title": "Reading a FITS file in parallel gives each process its rows and its header", "statement": "read_fits gives the process of rank r the rows of its part of the array, the parts are all the rows in order, and the header of each process is the one of scatter_fitsheader: the number of rows is the local one and the reference pixel is shifted.", "quantifier": "every array, number of processes, rank and header", "why_tests_cant": "requires every process count and every kind of header", "anchors": ["src/pysimulators/mpiutils.py:read_fits"]}
{"id": "C78", "title": "gather_fitsheader_if_needed recovers the global header", "statement": "if every process passes its local header the global header is returned, if every process passes the global header it is returned unchanged, and headers whose coordinate systems are different are rejected.", "quantifier": "every header, number of processes and rank", "why_tests_cant": "requires every process count and combination of headers", "anchors": ["src/pysimulators/mpiutils.py:gather_fitsheader_if_needed"]}
{"id": "C79", "title": "The integration operator reports the polygons that are not inside the scene", "statement": "the attribute outside of the operator returned by get_integration_operator is true exactly when a vertex of one of the polygons is outside of the scene, and it does not depend on the previous contents of the memory.", "quantifier": "every set of polygons, every scene shape, every contents of uninitialised memory", "why_tests_cant": "the value of an uninitialised variable depends on the compiler and on the previous calls, a test that passes says nothing about it", "anchors": ["src/pysimulators/packedtables/scenes.py:SceneGrid.get_integration_operator", "src/flib/projection.f90.j2:matrix_polygon_integration"]}
{"id": "C80", "title": "Rectangles, squares and regular polygons have the requested geometry", "statement": "create_rectangle and create_square return corners with the requested centre, orientation, side lengths, right angles and (signed) area; create_regular_polygon returns vertices on the requested circle, the first one in the requested direction, each vertex being the previous one turned by 360/n degrees, with area n/2 r**2 sin(2 pi/n).", "quantifier": "every size, radius, number of vertices, centre and angle", "why_tests_cant": "geometric identities over all real parameters", "anchors": ["src/pysimulators/geometry.py:create_rectangle", "src/pysimulators/geometry.py:create_square", "src/pysimulators/geometry.py:create_regular_polygon"]}
{"id": "C81", "title": "Segmenting a polygon does not change its shape", "statement": "segment_polygon returns points that are on the sides of the polygon, that include the ends of its sides of positive length and that are not separated by more than the requested distance, also between the last and the first one; the surface of the polygon is unchanged.", "quantifier": "every polygon and every positive distance", "why_tests_cant": "identities and inequalities over all real-valued polygons", "anchors": ["src/pysimulators/geometry.py:segment_polygon"]}
{"id": "C82", "title": "Log-log interpolation reproduces power law spectra", "statement": "a one-sided spectrum that follows a power law is resampled exactly at any increasing frequencies, inside and outside of the range of the input; the zero frequency is copied and the last output, the Nyquist frequency, is half of the power law.", "quantifier": "every amplitude, exponent, resolution, length of at least four elements and list of output frequencies", "why_tests_cant": "real powers and a pointer-advancing loop over all lists", "anchors": ["src/pysimulators/noises.py:_logloginterp_psd", "src/pysimulators/noises.py:_interp"]}
{"id": "C83", "title": "The inverse noise correlation matrix is the inverse of the noise covariance", "statement": "for a white spectrum the matrix returned by get_invntt_operator is diagonal with the inverse of the variance; for a 1/f noise model and a correlation length that is not truncated, the circulant matrix is the inverse of the circulant covariance matrix of the noise of that spectrum.", "quantifier": "every standard deviation, knee frequency, slope, period and number of samples", "why_tests_cant": "a matrix inverse obtained by Fourier transforms, for all lengths and real parameters", "anchors": ["src/pysimulators/instruments.py:Instrument.get_invntt_operator", "src/pysimulators/noises.py:_psd2invntt"]}
{"id": "C84", "title": "Noise functions accept every complete noise specification and reject the others", "statement": "get_noise and get_invntt_operator raise ValueError if the spectrum is given without its resolution or conversely or if there is no noise model, and otherwise return noise for every detector and sample, white noise being scaled by the standard deviation of the detector.", "quantifier": "every combination of arguments, number of detectors and samples", "why_tests_cant": "decision logic over combinations of optional arguments and parity of the number of samples", "anchors": ["src/pysimulators/instruments.py:Instrument.get_noise", "src/pysimulators/instruments.py:Instrument.get_invntt_operator"]}
{"id": "C85", "title": "Strided signals are read by rows", "statement": "the one-dimensional view passed to the compiled convolution contains the element (i, j) of the signal at the position i * stride + j, without reading outside of the view, and other layouts are rejected.", "quantifier": "every shape, stride and item size", "why_tests_cant": "memory layouts are unbounded, and contiguous double precision arrays are the only ones that tests use", "anchors": ["src/pysimulators/operators.py:_ravel_strided"]}
{"id": "C86", "title": "Noise realisations have the requested covariance and a zero mean", "statement": "a realisation is a linear function of independent normal deviates, its mean is exactly zero and its covariance is the one of the requested spectrum without the zero frequency.", "quantifier": "every even spectrum, length and sampling frequency", "why_tests_cant": "the covariance is a statistical statement, tests can only sample it", "anchors": ["src/pysimulators/noises.py:_gaussian_sample"]}
{"id": "C87", "title": "Fortran and Python read the same geometry from a header", "statement": "the pixel scales, the position angle and the pixel of a position are the same whether the header is read by get_cdelt_pa or by the compiled init_astrometry, for headers that hold a CD matrix and for headers that hold CDELT1, CDELT2 and CROTA2.", "quantifier": "every non singular matrix, scales, angle and reference pixel", "why_tests_cant": "two implementations in two languages, the rotation conventions differ for non square or flipped pixels only, and tests use few angles", "anchors": ["src/pysimulators/wcsutils.py:get_cdelt_pa", "src/flib/module_wcs.f90:init_astrometry", "src/flib/module_wcs.f90:cd_info"]}
{"id": "C88", "title": "The mean and the bounds of angles are those of the arc that contains them", "statement": "if the angles lie on an arc shorter than half a turn, mean_degrees returns the angle at the mean position on this arc and minmax_degrees the ends of the smallest such arc.", "quantifier": "every list of angles on such an arc, wherever the arc is", "why_tests_cant": "wrap-around logic over lists of reals of any length", "anchors": ["src/flib/wcsutils.f90:mean_degrees", "src/flib/wcsutils.f90:minmax_degrees"]}
{"id": "C89", "title": "The angular distance is a metric on the sphere", "statement": "angle_lonlat returns the angle between the two directions, element by element or one to many: symmetric, between 0 and 180, zero for equal directions only, satisfying the triangle inequality.", "quantifier": "every pair and triple of positions, every array size", "why_tests_cant": "geometric statement over all real coordinates", "anchors": ["src/pysimulators/wcsutils.py:angle_lonlat", "src/flib/wcsutils.f90:angle_lonlat__inner"]}
{"id": "C90", "title": "The barycenter is the direction of the sum of the directions", "statement": "barycenter_lonlat returns reduced coordinates of the direction of the vector sum of the positions; it does not depend on their order nor on missing positions, and it is undefined when the sum is zero.", "quantifier": "every list of positions with missing values", "why_tests_cant": "lists of any length over real coordinates", "anchors": ["src/pysimulators/wcsutils.py:barycenter_lonlat", "src/flib/wcsutils.f90:barycenter_lonlat"]}
{"id": "C91", "title": "The compiled projection is the gnomonic projection", "statement": "ad2xy_gnomonic maps a position to the pixel of the intersection of its direction with the plane tangent at the reference position; it is one-to-one from the hemisphere onto the plane, and the scale returned by ad2xys_gnomonic is the Jacobian of the map.", "quantifier": "every header and position", "why_tests_cant": "bijectivity and derivative statements over the reals", "anchors": ["src/flib/module_wcs.f90:ad2xy_gnomonic", "src/flib/module_wcs.f90:ad2xys_gnomonic"]}
{"id": "C92", "title": "The combined header contains all the maps and nothing more", "statement": "every point of every map falls inside the map of the header returned by combine_fitsheader, whose sides are reached by the maps to within a pixel, with the requested scale and angle or by default the lowest scale.", "quantifier": "every list of headers, scale and angle", "why_tests_cant": "containment of a continuum of points, for any number of headers", "anchors": ["src/pysimulators/wcsutils.py:combine_fitsheader"]}
{"id": "C93", "title": "The object plane is rotated by the position angle", "statement": "object2ad and RotationBoresightEquatorialOperator are the same function: it maps the origin to the pointing direction and the other points to offsets (along the parallel and the meridian) that are the object coordinates turned by the position angle, without two points having the same position.", "quantifier": "every position in the object plane, pointing direction and position angle", "why_tests_cant": "trigonometric identities over reals, two implementations in two languages", "anchors": ["src/pysimulators/wcsutils.py:RotationBoresightEquatorialOperator", "src/flib/wcsutils.f90:object2ad"]}
{"id": "C95", "title": "A header has a world coordinate system exactly when it was given one", "statement": "has_wcs of a header made by create_fitsheader is true exactly when a scale has been given.", "quantifier": "every header made by create_fitsheader", "why_tests_cant": "universal over shapes and optional arguments", "anchors": ["src/pysimulators/wcsutils.py:has_wcs", "src/pysimulators/wcsutils.py:create_fitsheader"]}
{"id": "C96", "title": "The pixel area follows from the projection", "statement": "the area of a pixel in units of the reference pixel (projection_scale, used to convert units per pixel) is the inverse of the Jacobian of the projection at this pixel.", "quantifier": "every header with square pixels and every pixel", "why_tests_cant": "equality of two formulas over all real positions; the difference is small near the reference pixel, below the tolerance of a test", "anchors": ["src/flib/module_wcs.f90:projection_scale", "src/pysimulators/quantities.py:pixel_to_pixel_reference"]}
{"id": "C97", "title": "The extrema of the projected detectors are the smallest box", "statement": "object2xy_minmax returns the sides of the smallest box of the map that contains the projections of all the coordinates for all the pointings, whatever the order in which the pointings are processed.", "quantifier": "every header, list of coordinates and list of pointings", "why_tests_cant": "lists of any length, and a parallel reduction", "anchors": ["src/flib/wcsutils.f90:object2xy_minmax"]}
{"id": "C94", "title": "The pointing matrix of projected detectors gives the pixels and the areas of the map", "statement": "for each valid pointing the nearest neighbour matrix holds the pixel that contains the projection of the detector and the area of the detector times the local scale of the projection, and the sharp edges matrix holds the intersection area of each pixel with the projected detector; masked pointings have no pixel; projections outside of the map are reported; the largest number of pixels of a row is reported whatever the number of threads.", "quantifier": "every header, detector, pointing, room in the rows and interleaving of the threads", "why_tests_cant": "positions are real numbers, including the ones on the sides of the pixels, and the lost updates depend on the scheduling", "anchors": ["src/flib/module_pointingmatrix.f90:xy2pmatrix", "src/flib/module_pointingmatrix.f90:roi2pmatrix_cartesian", "src/flib/wcsutils.f90:object2pmatrix_nearest_neighbour", "src/flib/wcsutils.f90:object2pmatrix_sharp_edges"]}
{"id": "C98", "title": "The coverage and error maps follow the map", "statement": "after any selection, change of shape or change of type, the coverage and error attributes of a Map have its shape and hold the values of the same pixels.", "quantifier": "every map, every key and shape", "why_tests_cant": "invariant over all the keys and histories", "anchors": ["src/pysimulators/datatypes.py:Map.__getitem__", "src/pysimulators/datatypes.py:Map.reshape", "src/pysimulators/datatypes.py:Map.__array_finalize__"]}
{"id": "C99", "title": "The centre of the pointings is the mean of the valid directions of all the processes", "statement": "get_center averages the directions of the samples that are not masked, over all the MPI processes, independently of their distribution, and raises an error exactly when there is none.", "quantifier": "every distribution of the samples and every mask", "why_tests_cant": "quantified over the distributions over processes", "anchors": ["src/pysimulators/packedtables/samplings.py:SamplingSpherical.get_center"]}
{"id": "C100", "title": "The angles of a pointing are the given ones, by position or by keyword", "statement": "SamplingSpherical stores the angles that the caller gives by position or by keyword (the third one is zero by default), the first two are given together, and the number of samples is the one given or the common length of the arguments.", "quantifier": "every combination of positional and keyword arguments and every shape", "why_tests_cant": "combinations of arguments", "anchors": ["src/pysimulators/packedtables/samplings.py:SamplingSpherical.__init__"]}
{"id": "C101", "title": "The integrated profile counts the finite pixels inside each radius", "statement": "integrated_profile() returns, for each abscissa, the integral of the finite pixels whose distance to the origin is smaller than this abscissa.", "quantifier": "every array, origin, scale, bin size and set of NaN pixels", "why_tests_cant": "partial sums over all the real positions", "anchors": ["src/pysimulators/datautils.py:integrated_profile", "src/pysimulators/datautils.py:profile"]}
{"id": "C102", "title": "The distance maps hold the distances to the centre, in the unit of the scale", "statement": "distance() and distance2() return for each element the (squared) Euclidean distance to the centre, scaled along each dimension, for any number of dimensions, with the (squared) unit of the scale; a circular aperture is the set of the elements nearer than its radius.", "quantifier": "every shape, centre, scale and unit", "why_tests_cant": "any number of dimensions and elements, two implementations", "anchors": ["src/pysimulators/datautils.py:distance", "src/pysimulators/datautils.py:distance2", "src/pysimulators/datautils.py:aperture_circular"]}
{"id": "C103", "title": "The gaussian map is the density of a normal law", "statement": "gaussian() returns at each element the density of the product of normal laws with the given centre and standard deviations, whatever the number of dimensions; a full width at half maximum is the width at which the density is divided by two.", "quantifier": "every shape, centre, standard deviation and width", "why_tests_cant": "real analysis, any number of dimensions", "anchors": ["src/pysimulators/datautils.py:gaussian"]}
{"id": "C104", "title": "The power spectrum of an image conserves its power", "statement": "the integral of psd2() over the frequencies is the mean square of the image, its elements are at the frequencies returned by the axes, and the first bin of the profile of the spectrum holds the zero frequency.", "quantifier": "every image shape and sampling frequency", "why_tests_cant": "Parseval identity over all shapes, parity of the shape", "anchors": ["src/pysimulators/datautils.py:psd2", "src/pysimulators/datautils.py:profile_psd2"]}
{"id": "C105", "title": "The horizontal frame is that of the place and of the sidereal time", "statement": "the conversion into horizontal coordinates maps the pole of the equatorial frame to the north at the altitude given by the latitude, the zenith has for declination the latitude and for right ascension the local sidereal time, and the sidereal time grows by 24.06570982 hours per day modulo 24 hours and is continuous at the change of day up to the precision of the formula.", "quantifier": "every date, latitude and longitude", "why_tests_cant": "real dates, and a change of formula at each midnight", "anchors": ["src/pysimulators/operators.py:_CartesianEquatorialHorizontal"]}
{"id": "C106", "title": "The black body operator changes flux densities like the law of Planck", "statement": "BlackBodyOperator multiplies by the ratio of the (modified) black body at the operating and reference frequencies, given by frequencies or wavelengths; it is the identity when they are equal, a change through an intermediate frequency is the direct change, ambiguous or missing frequencies are rejected, and the documented shapes of the arguments are accepted.", "quantifier": "every temperature, frequency, wavelength and slope", "why_tests_cant": "real analysis and all the combinations of keywords", "anchors": ["src/pysimulators/operators.py:BlackBodyOperator"]}
{"id": "C107", "title": "The power law operator scales by a power of the ratio of the abscissae", "statement": "PowerLawOperator multiplies each element by scalar*(x/x0)**alpha, absorbs homotheties without a change of its action, and composes along an intermediate abscissa.", "quantifier": "every slope or array of slopes, positive abscissae, coefficient and input", "why_tests_cant": "real analysis, all the arrays", "anchors": ["src/pysimulators/operators.py:PowerLawOperator"]}
{"id": "C108", "title": "Beams have the documented width and solid angle", "statement": "a gaussian beam has its maximum one on its axis (theta=0, or pi if backward), half its maximum at half its width from the axis, and the solid angle of a beam is the integral of its values over the sphere.", "quantifier": "every width and direction", "why_tests_cant": "integrals over the sphere", "anchors": ["src/pysimulators/beams.py:BeamGaussian", "src/pysimulators/beams.py:BeamUniformHalfSpace"]}
{"id": "C109", "title": "Partitioned operators give each block its own arguments and shape", "statement": "an operator decorated by block_diagonal is partitioned iff a partition or a sequence of a partition variable is given; there is one block per element of the partition or of the sequences, each block receives its element of the sequences and the other arguments unchanged, the shapes of the blocks are chunks of the given shapes (or the shape without the stack axis), and incompatible lengths are rejected.", "quantifier": "every number of arguments, sequence, partition and shape", "why_tests_cant": "all the lengths and combinations of arguments", "anchors": ["src/pysimulators/operators.py:block_diagonal"]}
{"id": "C110", "title": "Conversions of angles between celestial frames rotate the directions", "statement": "the four Spherical*2*Operator return, for any input and output convention in degrees or radians, the reduced angles of the rotated direction; opposite conversions undo each other away from the poles, angular distances are preserved and unknown conventions are rejected.", "quantifier": "every convention, pair of angles, date and place", "why_tests_cant": "real angles, all the combinations of conventions", "anchors": ["src/pysimulators/operators.py:SphericalEquatorial2GalacticOperator", "src/pysimulators/operators.py:SphericalGalactic2EquatorialOperator", "src/pysimulators/operators.py:SphericalEquatorial2HorizontalOperator", "src/pysimulators/operators.py:SphericalHorizontal2EquatorialOperator"]}
{"id": "C111", "title": "Healpix conversions map pixels to their centres and directions to their pixels", "statement": "for every accepted convention, the angles or the vector of a pixel are those of its centre and the pixel of angles or of a vector is the one containing this direction; the conversion of a pixel number and back is the identity, the compositions that are replaced by the identity are the identity, and unknown conventions are rejected.", "quantifier": "every resolution, scheme, convention, pixel and direction", "why_tests_cant": "all the resolutions and directions of the sphere", "anchors": ["src/pysimulators/interfaces/healpy/operators.py:Healpix2SphericalOperator", "src/pysimulators/interfaces/healpy/operators.py:Spherical2HealpixOperator", "src/pysimulators/interfaces/healpy/operators.py:Healpix2CartesianOperator", "src/pysimulators/interfaces/healpy/operators.py:Cartesian2HealpixOperator"]}
{"id": "C112", "title": "The smoothing of Healpix maps has the requested width and accepts the Healpix maps only", "statement": "HealpixConvolutionGaussianOperator requires exactly one non-negative width, the full width at half maximum and the standard deviation agree, a null width is the identity, and the maps that are accepted are exactly those of one or two dimensions with 12*nside**2 pixels for some nside.", "quantifier": "every width and shape", "why_tests_cant": "unbounded numbers of pixels, rounding of a square root", "anchors": ["src/pysimulators/interfaces/healpy/operators.py:HealpixConvolutionGaussianOperator"]}
{"id": "C113", "title": "The Healpix laplacian is a symmetric 9-point stencil that vanishes on constant maps", "statement": "HealpixLaplacianOperator applies to every pixel the stencil of its eight neighbours, is symmetric as declared, vanishes on constant maps, and is the laplacian on quadratic functions of a flat neighbourhood.", "quantifier": "every resolution, numbering and map", "why_tests_cant": "all the resolutions, including the pixels that have seven neighbours", "anchors": ["src/pysimulators/interfaces/healpy/operators.py:HealpixLaplacianOperator"]}
{"id": "C114", "title": "Healpix scenes cover the sphere with one value per pixel and Stokes parameter", "statement": "the shape of a Healpix scene has 12*nside**2 pixels and as many values as Stokes parameters of its kind, the pixels add up to the solid angle of the sphere, kinds are accepted whatever their case, and the other kinds and conventions are rejected.", "quantifier": "every resolution, kind and convention", "why_tests_cant": "all strings and resolutions", "anchors": ["src/pysimulators/interfaces/healpy/scenes.py:SceneHealpix"]}
{"id": "C115", "title": "The conversion of CMB temperatures follows the law of Planck", "statement": "the absolute conversion is the law of Planck times the solid angle of the pixels; the relative one is linear and is the derivative of the absolute one at the temperature of the scene, in microkelvins.", "quantifier": "every frequency, temperature and solid angle", "why_tests_cant": "a derivative", "anchors": ["src/pysimulators/interfaces/healpy/scenes.py:SceneHealpixCMB.get_unit_conversion_operator"]}
{"id": "C116", "title": "NumPy functions on quantities give the function of the amounts", "statement": "when a NumPy function of the table of quantities.py is applied to quantities, the amounts of the result are the function of the amounts of the operands, whatever the units these are expressed in: the operands are converted to a common unit, the unit of the result follows from those of the operands (same unit, product, square, one unit per output), and incompatible operands are rejected.", "quantifier": "every function homogeneous of the declared degree, every table of derived units, every unit and magnitude", "why_tests_cant": "unbounded number of units and functions; the functions are universally quantified", "anchors": ["src/pysimulators/quantities.py:Quantity.__array_function__", "src/pysimulators/quantities.py:FUNCTIONS"]}
{"id": "C117", "title": "Indexing and converting a quantity whose derived units are arrays keep the amount of each element", "statement": "a derived unit such as detector[rightward] or time[leftward] gives one value per row or per column; the conversion to SI preserves the amount of each element, the amounts of an item are the item of the amounts, and a conversion to another unit preserves the amount of each element.", "quantifier": "every number of dimensions, shape, key, derived unit and magnitude", "why_tests_cant": "unbounded number of dimensions and keys", "anchors": ["src/pysimulators/quantities.py:Quantity.__getitem__", "src/pysimulators/quantities.py:Quantity.SI", "src/pysimulators/quantities.py:Quantity.inunit", "src/pysimulators/quantities.py:Quantity.tounit"]}
{"id": "C118", "title": "Operations on quantities do not change the amounts of the other quantities", "statement": "creating, viewing, copying, multiplying and converting quantities leaves the amounts of every other quantity of the program as they were, although arrays, units and tables of derived units are shared between views, copies and derived units; the conversion in place changes the magnitudes and the unit of the quantity together, and nothing after an exception.", "quantifier": "every memory, every sharing, every sequence of operations", "why_tests_cant": "aliasing: the quantity that is damaged is not the one that is tested", "anchors": ["src/pysimulators/quantities.py:Quantity.__new__", "src/pysimulators/quantities.py:Quantity.inunit", "src/pysimulators/quantities.py:Quantity.tounit", "src/pysimulators/quantities.py:Quantity.SI", "src/pysimulators/quantities.py:_get_du"]}
{"id": "C119", "title": "The matrices of bolometric interferometry rotate the polarisation", "statement": "the element of a detector, a time and a pixel computed by matrix_rot2d, matrix_rot3d and weighted_matrix_rot3d transforms the Stokes parameters of light coming from the sky into those of the rotated light: a polarisation at angle alpha from the North in the sky direction is at angle beta in the instrument frame, where beta is determined by the rotation matrix, and the result is multiplied by the value (and the weight) of the element; the index of the element is kept.", "quantifier": "every rotation, direction, polarisation angle and value", "why_tests_cant": "a continuum of rotations and directions", "anchors": ["src/flib/bi.f90.j2:matrix_rot2d", "src/flib/bi.f90.j2:matrix_rot3d", "src/flib/bi.f90.j2:weighted_matrix_rot3d", "src/flib/bi.f90.j2:eni2rotation", "src/flib/bi.f90.j2:en2etheta_ephi", "src/flib/bi.f90.j2:en2ephi"]}
{"id": "C120", "title": "The Fortran sort returns a permutation of the indices that puts the elements in order", "statement": "for every array, QSORTID and qsorti (integers, reals, masked reals) return, without reading or writing outside the arrays nor overflowing the list of 1000 saved intervals, each index of the array exactly once, and the elements taken in this order are in increasing order, with the NaNs and the masked elements at the end.", "quantifier": "every array of integers or reals, with or without NaNs and mask, and every value of the uninitialised variables", "why_tests_cant": "the control flow of the iterative quicksort (GO TO statements, explicit stack) depends on the order of all the elements: the number of cases is factorial in the size", "anchors": ["src/flib/module_sort.f90:QSORTID", "src/flib/module_sort.f90:QSORTGI", "src/flib/module_sort.f90:qsorti_int", "src/flib/module_sort.f90:qsorti_nomask_double", "src/flib/module_sort.f90:qsorti_mask_double", "src/flib/module_sort.f90:compare_int", "src/flib/module_sort.f90:compare_nomask_double", "src/flib/module_sort.f90:compare_mask_double"]}
{"id": "C121", "title": "reorder and uniq find the distinct values of an array", "statement": "reorder returns an increasing table of values of the array, different by more than the relative tolerance, and for each element the index of the largest value of the table not above it, which is the same within the tolerance (the array is recovered exactly without tolerance); NaNs and masked elements have the largest integer as index. uniq, given the sorting indices, returns indices of elements that have the values of this table; for integers it returns the last index of each run of equal elements.", "quantifier": "every array, mask and non-negative tolerance", "why_tests_cant": "arbitrary arrays with ties, NaNs and values chained by the tolerance", "anchors": ["src/flib/module_sort.f90:reorder_nomask_double", "src/flib/module_sort.f90:reorder_mask_double", "src/flib/module_sort.f90:uniq_double", "src/flib/module_sort.f90:uniq_int", "src/flib/module_math_old.f90:eq_real"]}
{"id": "C122", "title": "histogram counts and where locates", "statement": "histogram(b) is the number of elements equal to b that are not masked; where returns the indices of the true elements, in the order of the memory, for one, two and three dimensions, and the indices of the array seen in one dimension are those of the pairs; the number of elements is returned if it is asked for.", "quantifier": "every array and shape", "why_tests_cant": "arbitrary shapes and contents", "anchors": ["src/flib/module_sort.f90:histogram_nomask_int", "src/flib/module_sort.f90:histogram_mask_int", "src/flib/module_sort.f90:where_1d_1d", "src/flib/module_sort.f90:where_2d_1d", "src/flib/module_sort.f90:where_2d_2d", "src/flib/module_sort.f90:where_3d_3d"]}
{"id": "C123", "title": "A keyword of a FITS header is found in its first card, whatever its case", "statement": "get_keyword returns the value and the comment of the first card of 80 characters whose name is the keyword, where the case of the letters and the blanks at the end are ignored; if there is no such card the keyword is not found, and no character outside the header is read.", "quantifier": "every header and keyword", "why_tests_cant": "headers are arbitrary texts of arbitrary length; the Fortran substrings are not checked", "anchors": ["src/flib/module_fitstools.f90:get_keyword", "src/flib/module_string.f90:strlowcase"]}
{"id": "C124", "title": "The strings of a FITS header are read exactly", "statement": "a string written between quotes, with its quotes doubled, is read back exactly by ft_read_keyword, whatever its characters (slashes, quotes, blanks), its position in the card and the comment that follows, which is also returned; a value without quotes is what precedes the slash.", "quantifier": "every string, comment and header", "why_tests_cant": "strings are infinite in number and the parsing of quotes and slashes depends on the position of each character", "anchors": ["src/flib/module_fitstools.f90:ft_read_keyword_header_character", "src/flib/module_fitstools.f90:get_keyword"]}
{"id": "C125", "title": "The numbers and logical values of a FITS header are read exactly", "statement": "every integer of 32 or 64 bits is read back from its text, and a text that does not fit is an error; T, TRUE, F, FALSE and their beginnings are read as logical values whatever the case, and any other text is an error.", "quantifier": "every integer, logical text and header", "why_tests_cant": "the range of integers is too large to enumerate and the texts are infinite in number", "anchors": ["src/flib/module_fitstools.f90:ft_read_keyword_header_int4", "src/flib/module_fitstools.f90:ft_read_keyword_header_int8", "src/flib/module_fitstools.f90:ft_read_keyword_header_logical", "src/flib/module_fitstools.f90:ft_read_keyword_header_real8"]}
{"id": "C126", "title": "The functions on strings of the Fortran library are exact", "statement": "strcompress removes the blanks and nothing else, strsplit returns the pieces between the delimiters, strjoin concatenates, strinteger and strsection return the decimal text of the integers without blanks.", "quantifier": "every string, delimiter and integer", "why_tests_cant": "the lengths are computed separately from the contents, with logarithms in floating point", "anchors": ["src/flib/module_string.f90:strcompress", "src/flib/module_string.f90:strsplit", "src/flib/module_string.f90:strjoin_trim", "src/flib/module_string.f90:strjoin_opt", "src/flib/module_string.f90:strinteger_int4", "src/flib/module_string.f90:strinteger_int8", "src/flib/module_string.f90:strsection_int4", "src/flib/module_string.f90:strsection_int8"]}
{"id": "C127", "title": "The text of a header is split in its cards until the card END", "statement": "str2fitsheader converts exactly the cards of 80 characters that precede the card END, in order.", "quantifier": "every text", "why_tests_cant": "texts are infinite in number and any keyword may begin with the same letters as END", "anchors": ["src/pysimulators/wcsutils.py:str2fitsheader"]}
{"id": "C128", "title": "The compiled code reads the astrometry from the text of a header", "statement": "init_astrometry returns the size of the map, the direction of the reference and the transformation of the plane which are written in the cards of the header, whatever their order, their comments and the other cards; a header where a keyword is missing, where the matrix is not complete, or whose projection is not the gnomonic one is refused; the units of the header are used; no character out of the header is read.", "quantifier": "every header, matrix and string", "why_tests_cant": "headers are arbitrary texts; a wrong reading gives a plausible map with the pixels at wrong positions", "anchors": ["src/flib/module_wcs.f90:init_astrometry", "src/flib/module_wcs.f90:init_gnomonic", "src/flib/module_wcs.f90:init_rotation"]}
{"id": "C129", "title": "The sums and the moments are those of the elements that are not masked", "statement": "sum_kahan, mean, stddev, moment, dot and the norms return the sum, the mean, the mean deviation, the unbiased variance and its square root, the skewness, the excess kurtosis, the scalar product and the norms L1, L2, Lp and of Huber of the elements that are not masked, whatever the values that are masked; a NaN that is not masked gives a NaN; a result that is not defined is a NaN.", "quantifier": "every array and mask, in exact arithmetic", "why_tests_cant": "the formulas are wrong by factors such as n/(n-1) that a test with one array does not settle, and masked values can be anything", "anchors": ["src/flib/module_math_old.f90:sum_kahan_1d", "src/flib/module_math_old.f90:sum_kahan_2d", "src/flib/module_math_old.f90:sum_kahan_3d", "src/flib/module_math_old.f90:moment", "src/flib/module_math_old.f90:norm_l1", "src/flib/module_math_old.f90:norm_huber", "src/flib/module_math_old.f90:norm2", "src/flib/module_math_old.f90:normp", "src/flib/module_math_old.f90:dot"]}
{"id": "C130", "title": "The quickselect returns the median", "statement": "median_nocopy and median_copy terminate without an access out of bounds and return the median of the elements that are not masked and not NaN, the smaller one of the two if their number is even, and NaN if there is none; the array is a rearrangement of the one given.", "quantifier": "every array and mask, with repeated values and NaN", "why_tests_cant": "the scans of the partition have no test of bounds and rely on sentinels that depend on the order of all the elements", "anchors": ["src/flib/module_math_old.f90:median_nocopy", "src/flib/module_math_old.f90:median_copy", "src/flib/module_math_old.f90:swap"]}
{"id": "C131", "title": "The median absolute deviation is the median of the distances to the median", "statement": "mad returns the median of the absolute differences between the elements that are not NaN and their median.", "quantifier": "every array, with NaN", "why_tests_cant": "the second median uses the array that the first one has modified", "anchors": ["src/flib/module_math_old.f90:mad"]}
{"id": "C132", "title": "The sigma clipping terminates and rejects the outliers", "statement": "sigma_clipping repeats rounds in which the elements further from the mean than a number of standard deviations are rejected, until a round rejects none or the maximum number of iterations is reached; it terminates.", "quantifier": "every array, threshold and maximum number of iterations", "why_tests_cant": "the number of iterations depends on the values and termination cannot be tested", "anchors": ["src/flib/module_math_old.f90:sigma_clipping"]}
{"id": "C133", "title": "The columns are shifted with zeros", "statement": "shift_fast and shift_medium move the elements of each column by the offset of its block, in the two directions, fill the rest with zeros, work in place, and do not access elements out of bounds.", "quantifier": "every size, offsets larger than the columns included", "why_tests_cant": "the order of the loops matters only in place and for one of the directions", "anchors": ["src/flib/module_math_old.f90:shift_fast", "src/flib/module_math_old.f90:shift_medium"]}
{"id": "C134", "title": "A frame is projected on the region that it covers", "statement": "backprojection_weighted_roi returns the smallest region with the pixels of all the elements of a frame and, for each pixel of the region, the mean of the samples of the detectors that are not masked weighted by the elements of the pointing matrix, NaN if the sum of the weights is zero; it does not write outside the map.", "quantifier": "every pointing matrix with missing elements, timeline, mask and width of the map", "why_tests_cant": "the position in the map depends on the whole frame; a wrong width permutes the pixels only for some regions", "anchors": ["src/flib/module_pointingmatrix.f90:backprojection_weighted_roi"]}
{"id": "C135", "title": "The folded spectrum has the variance of the timeline", "statement": "_sampling2psd returns the frequencies k fs/n from 0 to fs/2 and the power spectrum density folded on them: its sum times the step of the frequencies is the variance of the timeline; unfolding it returns the power of each frequency.", "quantifier": "every timeline and sampling frequency", "why_tests_cant": "the parity of the number of samples and the factor two of the frequencies that are folded are checked for one size at most", "anchors": ["src/pysimulators/noises.py:_sampling2psd"]}
{"id": "C136", "title": "The observation is the model plus the noise of each block", "statement": "get_observation returns H map, plus the noise of each block of the sampling at its position unless noiseless; with a buffer the observation is stored in it, with an operation it is combined with the content of the buffer; an operation without buffer is refused.", "quantifier": "every sampling, partition in blocks, noise, buffer and operation", "why_tests_cant": "the operation and the noise are combined in an order that only matters for some operations", "anchors": ["src/pysimulators/acquisitions.py:get_observation"]}
{"id": "C137", "title": "The solid angle of a pixel is the area of its footprint", "statement": "pixel_reference_to_solid_angle returns the area of the parallelogram of the linear part of the projection of the header, in the product of the units of the axes, pixel_to_pixel_reference the relative area of each pixel, and a conversion from pixel to steradian multiplies the two.", "quantifier": "every header and value", "why_tests_cant": "the area of sheared or rotated pixels and headers that describe the same matrix with other keywords are not in the tests", "anchors": ["src/pysimulators/quantities.py:pixel_to_pixel_reference", "src/pysimulators/quantities.py:pixel_reference_to_solid_angle"]}
{"id": "C138", "title": "An array that is saved and read again is the same", "statement": "FitsArray, Map and Tod objects that are written by save and read by their constructor have the same values, type, unit, derived units, coverage, error, origin and mask, and the same header but for the keywords that describe the array.", "quantifier": "every array, unit, header, attribute, derived units and file name", "why_tests_cant": "the stale keywords of a header, the names of the extensions and the types of the file name are combinations that tests do not enumerate", "anchors": ["src/pysimulators/datatypes.py:FitsArray.save", "src/pysimulators/datatypes.py:FitsArray.__new__", "src/pysimulators/datatypes.py:Map.save", "src/pysimulators/datatypes.py:Map.__new__", "src/pysimulators/datatypes.py:Tod.save", "src/pysimulators/datatypes.py:Tod.__new__", "src/pysimulators/mpiutils.py:read_fits", "src/pysimulators/mpiutils.py:write_fits"]}
{"id": "C139", "title": "The header of an array is its own", "statement": "the header of an array describes its shape and type, and changing the header of an array made from another one by a copy, a slice, an operation or a conversion does not change that of the other one.", "quantifier": "every array, header and keyword", "why_tests_cant": "aliasing of objects that can be modified only shows in programs with several references", "anchors": ["src/pysimulators/datatypes.py:FitsArray.header", "src/pysimulators/datatypes.py:FitsArray.__array_finalize__", "src/pysimulators/datatypes.py:FitsArray.astype", "src/pysimulators/datatypes.py:FitsArray.__new__"]}
{"id": "C140", "title": "The computed attributes follow the restrictions of a table", "statement": "an attribute of a packed table given by a callable is its value if it needs no argument, its value for the table if it needs one, and a function of the remaining arguments otherwise; a computed attribute of a restricted table is the restriction of the attribute, and its unpacked form has the computed values at the places of the components.", "quantifier": "every table, selection, callable and number of arguments", "why_tests_cant": "the number of arguments is inspected at run time and depends on the kind of the callable", "anchors": ["src/pysimulators/packedtables/core.py:PackedTable.__getattribute__", "src/pysimulators/packedtables/core.py:PackedTable._get_func_nargin"]}
{"id": "C141", "title": "The components that are not selected are marked", "statement": "an unpacked attribute has, at the places of the components that are not selected, the missing value of its type: NaN, -1, False, the empty string or None, and for a structure the missing value of each of its fields at any depth.", "quantifier": "every data type, nested structures included, and table", "why_tests_cant": "the data types form an infinite recursive family", "anchors": ["src/pysimulators/packedtables/core.py:PackedTable.unpack", "src/pysimulators/packedtables/core.py:PackedTable._get_default_missing_value"]}
{"id": "C142", "title": "The directions of a pointing are those of its angles", "statement": "the cartesian, equatorial and galactic coordinates of a pointing are, for each sample, the direction of the two angles of the sample, at the date of the sample and the place of the observer, with reduced angles.", "quantifier": "every angle, number of samples, date, latitude and longitude", "why_tests_cant": "an error in the association of the dates and samples only shows when both vary", "anchors": ["src/pysimulators/samplings.py:SamplingSpherical", "src/pysimulators/samplings.py:SamplingEquatorial", "src/pysimulators/samplings.py:SamplingHorizontal"]}
{"id": "C143", "title": "The components of a grid are at the documented places whatever the units", "statement": "the centers and the corners of the components of LayoutGrid and LayoutGridSquares are at the places given by the spacing, origin, reflections and angle, the columns along X and the rows along -Y before the reflections and the rotation; the lengths may have different units and those without unit are in the unit of the layout; the component of a row and column is that of the cell, whatever the selection.", "quantifier": "every shape, spacing, origin, angle, reflection, filling factor, unit and selection", "why_tests_cant": "the combinations of units, reflections and selections are not enumerable and the tests use a single unit", "anchors": ["src/pysimulators/packedtables/layouts.py:LayoutGrid.__init__", "src/pysimulators/packedtables/layouts.py:LayoutGridSquares.__init__", "src/pysimulators/packedtables/layouts.py:Layout.__init__", "src/pysimulators/geometry.py:create_grid", "src/pysimulators/geometry.py:create_grid_squares"]}
{"id": "C144", "title": "The parts of an instrument hold its detectors", "statement": "an instrument given by its layout and name, in any order, iterates over its detectors, is split in consecutive balanced groups, and is scattered as these groups unless it is already distributed; the two transforms of an imager are the inverse of each other and the given ones.", "quantifier": "every layout, selection, number of groups and of processes, and transform", "why_tests_cant": "the number of groups, of detectors and of processes are unbounded", "anchors": ["src/pysimulators/instruments.py:Instrument", "src/pysimulators/instruments.py:Imager.__init__"]}
{"id": "C145", "title": "A sparse operator acts on each vector of an array with additional dimensions", "statement": "a sparse operator with a scalar storage accepts every array whose first dimensions are its broadcastable input shape, the other dimensions being those of the result, and multiplies each of the vectors by its matrix; its transpose exchanges the shapes; todense returns the matrix of this operator; the broadcastable shapes are the longest beginnings of the explicit shapes with the sizes of the matrix.", "quantifier": "every matrix, storage, broadcastable shape, list of additional dimensions and values", "why_tests_cant": "the shapes are unbounded lists of dimensions; the tests use at most one additional dimension", "anchors": ["src/pysimulators/sparse.py:SparseOperator.__init__", "src/pysimulators/sparse.py:SparseOperator.todense", "src/pysimulators/sparse.py:SparseOperator.reshapein", "src/pysimulators/sparse.py:SparseOperator.reshapeout", "src/pysimulators/sparse.py:SparseOperator.validatein", "src/pysimulators/sparse.py:SparseOperator.validateout", "src/pysimulators/sparse.py:SparseOperator._rule_transpose"]}
{"id": "C146", "title": "The convex hull is returned counter-clockwise", "statement": "the convex hull of points of the plane, in any order, is made of the ends of the facets, each of them once, sorted counter-clockwise: all the points are on the left of or on each line from a vertex to the next one, the first one coming after the last one, and they are in the convex hull of the vertices.", "quantifier": "every list of points that are not on a line, every order of the elements of a set and every sort, stable or not", "why_tests_cant": "the points are real numbers; the sort of the angles around the mean of the vertices is right only because the mean is inside the hull, which no sample shows", "anchors": ["src/pysimulators/geometry.py:convex_hull"]}
{"id": "C147", "title": "The attributes of an array follow it, and the fields of a structured array are attributes", "statement": "a view of an array has its elements, its unit, its derived units, its header and the other attributes of its class; an array read by pickle has the elements and all the attributes of the array that was written; the fields of a structured array are read and written as attributes, and the field of a map has the field of its coverage and of its error; the derived units are accepted if and only if they are quantities or functions for a symbol, possibly followed by [leftward] or [rightward].", "quantifier": "every array, class, list of fields and sequence of changes of attributes", "why_tests_cant": "the names of the fields and of the attributes are arbitrary strings, and the sequences of changes before pickle are unbounded", "anchors": ["src/pysimulators/quantities.py:Quantity.__reduce__", "src/pysimulators/quantities.py:Quantity.__setstate__", "src/pysimulators/quantities.py:Quantity.derived_units", "src/pysimulators/quantities.py:Quantity.__array_finalize__", "src/pysimulators/datatypes.py:FitsArray.__getattr__", "src/pysimulators/datatypes.py:FitsArray.__setattr__", "src/pysimulators/datatypes.py:Map.__array_finalize__", "src/pysimulators/datatypes.py:Map.__getitem__", "src/pysimulators/datatypes.py:Tod.__array_finalize__"]}
{"id": "C148", "title": "The operators on coordinates convert every position, and the pixels of a scene are the elements of the image", "statement": "the operators between world and pixel coordinates accept the arrays whose last dimension is two and convert each position, also in place; each is the inverse of the other for any origin of the pixels; the distortion operator and its inverse go through the given points; in a scene made from a FITS header the number of the pixel of a position is the index of the element of the image, in agreement with its row and its column.", "quantifier": "every shape, stride, overlap of input and output, operation, world coordinate system, header and list of points", "why_tests_cant": "the shapes, the strides and the headers are unbounded, and the tests use contiguous arrays", "anchors": ["src/pysimulators/wcsutils.py:WCSToPixelOperator.direct", "src/pysimulators/wcsutils.py:WCSToWorldOperator.direct", "src/pysimulators/wcsutils.py:_WCSOperator.validatein", "src/pysimulators/wcsutils.py:WCSKapteynToPixelOperator", "src/pysimulators/wcsutils.py:DistortionOperator", "src/pysimulators/packedtables/scenes.py:SceneGrid.fromfits"]}
{"id": "C149", "title": "The files of a MADMAP1 observation are found and decoded as they were written", "statement": "the filters are read from the files of the directory whose name is the given one followed by a dot and a number, in the order of the numbers, and refused if there is none; the integers, the coefficients, the header and the records are those that were written, in both orders of the bytes; the mask of the map is true for the missing pixels and the number of the others must be that of the file.", "quantifier": "every name, directory, content of the files, order of the bytes, number of records and mask", "why_tests_cant": "the names of the files and the contents are unbounded; the tests have one pair of files with an ordinary name", "anchors": ["src/pysimulators/interfaces/madmap1.py:_read_filters", "src/pysimulators/interfaces/madmap1.py:_read_one_filter", "src/pysimulators/interfaces/madmap1.py:MadMap1Observation.__init__", "src/pysimulators/interfaces/madmap1.py:MadMap1Observation._read_tod_pmatrix"]}
