# Formal model of pysimulators: design and trusted base

The subject is the Python + Fortran sources in `/repo` (read as text, never
executed).  The model is written in Lean 4 (4.33.0) under `lean/Verif`, and is a
*shallow* transcription: each source function becomes a small total function
(loops become folds or structural recursion, in-place updates return the new
value, exceptions are values of an `Except`-like type).  Every model definition
cites the file and the lines it transcribes, and says where it simplifies.

## Trusted base

* the Lean kernel and the three standard axioms `propext`,
  `Classical.choice`, `Quot.sound` (`Verif/Axioms.lean` has a
  `#print axioms` line per claimed theorem, so the build log lists what each theorem uses; no other axiom, no
  `sorry`, no `native_decide`, no `bv_decide`);
* the fidelity of the transcription (the only tie with the code is the cited
  reading of it);
* the semantics assumed for the external libraries, each one written out as an explicit
  definition in the model, never as an axiom:
  - `numpy`: basic slicing, boolean/integer fancy indexing, `where`,
    stable `argsort(kind='mergesort')`, broadcasting of a length one first dimension;
  - LAPACK's Householder QR (`dgeqr2`, `dorg2r`) behind `np.linalg.qr`, and the layout of `np.fft.fftshift`;
  - `pyoperators`: `DiagonalOperator`, `DiagonalNumexprOperator` (element by element products), `Spherical2CartesianOperator` and
    `Cartesian2SphericalOperator` (azimuths in [0, 2 pi)), `BlockDiagonalOperator` receives the list of blocks and the partition;
  - `healpy`: a pixelisation is a finite set of centres and a map from directions to pixels which sends a centre to its pixel; the tables of
    adjacent faces used by `get_all_neighbours` are written out;
  - `pyoperators.utils.split(n, m)`: balanced partition into `m` slices;
  - MPI collectives `Allgatherv`, `Allreduce`, `allgather`: rank ordered
    concatenation / sum, no failure, no message loss;
  - `astropy.io.fits` (C138): a file is a list of HDU in the order they are written, the NAXISn are those of the data, an array without dimension is
    refused, HDU are found by name whatever the case; `pickle`: two functions that are inverse where they are defined;
  - the Fortran intrinsics on strings (`trim`, `adjustl`, comparison with padding, assignment with truncation or padding), the format `I20` and the
    conversion of texts to reals, which is a parameter;
  - OpenMP: `atomic`/`critical` updates are indivisible and may be interleaved arbitrarily;
* floating point numbers are replaced by exact numbers (a commutative ring, ordered field, `ℚ` or `ℝ`
  as needed).  No claim is made on rounding, overflow, NaN propagation (except where
  NaN is modelled explicitly as a separate value), nor on performance;
* machine integers are unbounded `Int`/`Nat`.

## Layout

Each area has a directory `lean/Verif/<Area>/` with
`Model.lean` (transcription), `Spec.lean` (independent specification, where one is needed),
`Lemmas.lean` (helper lemmas) and `Props*.lean` (property theorems and `example`s
showing that hypotheses are satisfiable).

When the code violates a property the property theorem is split in two: a
`..._violation` theorem proving the negation on a concrete witness, and a
`..._partial` theorem proving the property under the weakest guard found.

## Properties

| id | what is modelled | how it is proved |
|----|------------------|------------------|
| C01-C03, C14 | `PackedTable.pack/unpack/index/_indexable`, three index representations | lists of rows; lookup lemmas on gather/scatter; buffer content universally quantified |
| C04, C06-C08 | `_normalize_slice`, `_normalize_int_selection`, `__getitem__`, `__len__` | arithmetic on progressions against the Python definition of `slice.indices`; induction on histories |
| C05, C15, C16 | attribute store of a table, `__setattr__`, `.all.__setattr__`, memory aliasing as a heap | invariant by induction on operations; witnesses for violations |
| C09, C10 | `_get_index`, `_normalize_selection`, `_selection2bool`, stable argsort | stable merge sort specification (sorted by (key, position)) |
| C11-C13 | `split`, `scatter`, `gather`, distributed `unpack` | partition lemmas on `split`; all ranks modelled as a list |
| C17, C18 | row/column arithmetic; `copy` | Euclidean division; evaluation of the attribute guard |
| C19-C21 | unit dictionaries as association lists, parser and printer on characters | exponent function as abstraction; group laws; round trip by induction |
| C72 | regular expression matcher, loop of `_extract_unit` | grammar as an independent specification, soundness and completeness |
| C22-C25 | conversion, ufunc dispatch, SI expansion over a field | abstraction to (SI factor, base exponents) |
| C26-C33, C36 | FSR/FSC/block/rotation kernels over a commutative ring, restrict/corestrict, pTp rule | folds to sums; adjointness by exchanging sums; schedules as permutations/interleavings |
| C69-C71 | copies, multiples, validation of block sizes, unsynchronised row kernels | ring identities; interleaving machine |
| C34, C35 | `fsr_kernel`, `pT1`, `pTx_pT1` | fold characterisation; interleaving model of the shared pointer |
| C37-C41 | legacy pointing matrix kernels, place-holder cache | list induction; state machine over request histories |
| C73-C76 | masks, product with the transpose, coverage, rules of the legacy projections | accumulation lemmas, reduction to the dense matrix |
| C42, C43, C79 | polygon/pixel intersection, integration matrix, automatic sizing, uninitialised memory | values as integrals of clamped lines, then of winding numbers; for convex polygons slices of the convex hull and Lebesgue measure; telescoping over the pixels |
| C68 | point in polygon | parity of crossings, invariance under permutations of the edges |
| C44-C46, C80, C81 | grid generators, shoelace, rotation, elementary polygons, segmentation | ring identities, trigonometry, lists of consecutive points |
| C47-C51, C77, C78 | header arithmetic, work distribution, bytes written and read, process grid, blocks | integer arithmetic on `split`; writes in any order; block search by bounded induction |
| C52, C53 | acquisition cache state machine, mask policy | induction on histories; decision logic |
| C54-C56, C82 | PSD fold/unfold into uninitialised buffers, interpolation loop, FFT length | list identities, loop invariants |
| C83, C84, C86 | Fourier transforms of lists, `get_invntt_operator`, `get_noise`, random deviates as arguments | orthogonality of the roots of unity, circular convolution; decision logic |
| C57, C85 | truncated exponential kernels as writes in memory (in and out of place), strided views | loops to recursive functions, adjointness by induction |
| C58 | `np.roll` on arrays of any number of dimensions | commuting permutations of the index |
| C59, C60, C87, C95 | FITS headers as association lists, `create_fitsheader`, `get_cdelt_pa`, `init_astrometry` | trigonometry over `ℝ`, lookups after a sequence of updates |
| C61, C88 | `mean_degrees`, `minmax_degrees` as folds | floor arithmetic, sums over lists |
| C89, C90 | `angle_lonlat`, `barycenter_lonlat` | unit vectors of the Euclidean space of dimension three |
| C91, C93, C96, C97 | gnomonic projection, object plane, pixel areas, extrema | orthonormal frame of the reference position, partial derivatives, lattice of the extended reals |
| C94 | pointing matrices of projected detectors | the row is the row of the integration operator of C42; interleavings of the threads as sequences of reads and writes |
| C92 | `combine_fitsheader`; the projections of the dependency are exact gnomonic projections | ratios of linear functions on convex combinations of the corners |
| C62, C63, C98 | masks of Tods as views of a heap of boolean buffers, coverage and error maps; a numpy key is any selection that depends on the shape only | invariants by induction on histories of operations; frame properties of the writes; witnesses |
| C64, C99, C100 | sampling times, `get_center` over the processes, arguments of `SamplingSpherical` | list induction, sums over permuted samples, case analysis of the arguments |
| C65 | MADmap1 blocks, filters and records of the file | cumulative sums, induction on the blocks |
| C66, C101 | radial profiles: the loop over the pixels with its bins, the cumulated profile | fold characterisation, sums over the pixels of a bin; witnesses |
| C102, C103 | distance maps and gaussians, compiled (1 and 2 dimensions) and numpy (any) versions, units | sums and products over the dimensions, normal densities of Mathlib |
| C104 | two dimensional power spectrum on top of the discrete Fourier transform of the Signal area | Parseval identity of ZMod, orthogonality of characters for a constant image |
| C67, C105 | rotation matrices of the horizontal frame, sidereal time; QR factorisation by Householder reflections | trigonometric identities, orthogonality of the reflections for every matrix, explicit bounds on the galactic matrix |
| C106, C107 | diagonal of the black body operator, power law operator and its rule with homotheties | comparison with the law of Planck, real powers |
| C108 | values and solid angles of the beams | explicit antiderivatives and `θ - θ³/6 ≤ sin θ ≤ θ` under the integral |
| C109 | `block_diagonal`: dispatch of arguments, partitions and shapes | lists of arguments, exhaustive decision logic for any length |
| C110 | conversions of angles on top of the rotations of C67 | meaning of the conventions as longitudes and latitudes, injectivity of the directions |
| C111 | Healpix conversions between pixels, angles and vectors, rules of composition | comparison with the directions of C110; pigeonhole principle (infinitely many directions, finitely many pixels) |
| C112 | widths and shapes of the smoothing of Healpix maps | real logarithm, exact square roots |
| C113 | Healpix laplacian as a FSR matrix, neighbours from the coordinates inside the faces | product of C28 on the padded rows, symmetry of the relation of neighbourhood by case analysis on the sides of the faces |
| C114, C115 | Healpix scenes, unit conversion of CMB temperatures | decision logic, derivative of the law of Planck |
| C116 | dispatch of NumPy functions on quantities (table of functions, conversion of the operands, unit of the result) | any function homogeneous of the declared degree; the result is compared to the function applied to the amounts |
| C117 | quantities with derived units that are arrays (`[leftward]`, `[rightward]`): conversion to SI, items, in-place conversion | arrays of any number of dimensions as functions on indices; NumPy broadcasting and basic indexing written out; the result is compared to the amounts element by element |
| C118 | the memory of the quantities: buffers, unit dictionaries, tables of derived units, objects that refer to them; constructor, views, products, powers, `SI`, `tounit`, `inunit` | heap with explicit references; `SI` in the heap is shown to compute the `si` of the values and to add to the heap only, except for the derived units of the derived units; programs are lists of operations |
| C119 | bi.f90.j2: tangent vectors, rotation of the polarisation, the three matrices | real vectors, NaN as `none`; North and East vectors written with angles; the rotation preserves cross products (adjugate), so that the tangent basis is turned by one angle, and the element by twice this angle |
| C120 | module_sort.f90: QSORTID, QSORTGI, qsorti and the comparison functions | one definition per block between labels, checked accesses, the stack as a list of at most 1000 entries; loop invariants (elements left of P at most XX, right of Q at least ZZ), then the invariant "pairs in the wrong order are in the same pending interval"; the smaller part is sorted first, so the depth is at most log2 n |
| C121 | module_sort.f90: reorder, uniq; module_math_old.f90: eq_real | loop on the sorting indices, exact ordered field, NaN as `none`; invariant relating the index of every processed element to the table |
| C122 | module_sort.f90: histogram, where | loops as folds; counts as cardinals of sets of positions, `where` characterised by order and membership |
| C123 | module_fitstools.f90: get_keyword; module_string.f90: strlowcase | `Fits/Model.lean` models the strings of Fortran (padding, comparison, checked substrings) and `get_keyword` by its loops; `Fits/Find.lean` proves for every list of cards that the first card of the name is used. Partial: Z, empty header. |
| C124 | module_fitstools.f90: ft_read_keyword_header_character | `Fits/Lemmas.lean` proves what the searches of the quote and of the slash return for every string written with doubled quotes, `Fits/Props.lean` that the copy undoes the doubling. Partial: variables that are too short. |
| C125 | module_fitstools.f90: ft_read_keyword for logicals, integers and reals | `Fits/Props.lean`: the texts are an optional sign and digits, with the value given by `Nat.ofDigitChars`; the edit descriptor I20 is part of the trusted base. Partial: more than 20 characters. |
| C126 | module_string.f90: strcompress, strsplit, strjoin, strinteger, strsection | `Fits/Strings.lean`: the loops that write characters in a string of a length computed beforehand; the logarithm is that of the reals and the conversion to double precision is the nearest number with 53 bits. With the logarithm in floating point, the length is also wrong for the integers just below 10^15, 10^16... |
| C127 | wcsutils.py: str2fitsheader | `Fits/Strings.lean`: the recursion on the lines of 80 characters. Partial: keywords that begin with END. |
| C128 | module_wcs.f90: init_astrometry | `Fits/Astrometry.lean`: the sequence of reads with their statuses on the readers of C123 to C125; `Fits/Safe.lean` proves that these never go out of bounds, `Says` states what the cards of a header hold, and the result is characterised by the equations of the plane. Partial: units and extensions of the types. |
| C129 | module_math_old.f90: sum_kahan, moment, norm_l1, norm_huber, norm2, normp, dot | `Stat/Moment.lean`: the loops with the compensation, on reals and NaN; the same loops with any rounded operations (`Stat/Kahan.lean`) have an error of first order that does not depend on the number of elements; the compensation is shown to be zero in exact arithmetic, so that the results are compared with the usual formulas on the elements that are not masked. The rounding errors are not modelled. |
| C130 | module_math_old.f90: median_nocopy, median_copy, swap | `Stat/Median.lean`: the removal, the median of three, the two scans, the partition and the outer loop on checked arrays; the invariants are the separation of the array at LOW and HIGH + 1 and a permutation of the interval, and the rank is counted. Partial: NaN that are not removed. |
| C131 | module_math_old.f90: mad | `Stat/MedianProps.lean`: the two calls on the same array; the permutation of C130 gives the result. Partial: NaN. |
| C132 | module_math_old.f90: sigma_clipping | `Stat/Clip.lean`: the loop with its fuel; the number of rejected elements increases, so that it terminates, and the result is reached by rounds that are specified by the standard deviation of the remaining elements. Partial: the maximum number of iterations. |
| C133 | module_math_old.f90: shift_fast, shift_medium | `Stat/Shift.lean`: the two loops with the array read while it is written if it is the same; each column is independent of the other ones. Partial: numbers of columns that are not multiples of the number of offsets. |
| C134 | module_pointingmatrix.f90: backprojection_weighted_roi | `Pointing/Roi.lean`: the loop is the one of C75 on the elements with the positions of their pixels in the region, which are distinct and within the map. |
| C135 | `_sampling2psd` on the discrete Fourier transform of C54 (Signal/PropsFolded) | for an even number of samples: frequencies k fs/n, densities and Parseval (the integral of the density is the variance), and unfolding (C54) gives back the power of each frequency; `C135_violation_odd` for any odd timeline, `C135_violation_single` |
| C136 | `get_observation` on the blocks of C51 (Dist/Observation); the operator H is represented by the value of H map, the in-place operations by their function | the noise of each block is at its position (C51); the operation is applied to the observation if it commutes with the addition of noise, `C136_violation_operation` otherwise; operation without buffer refused |
| C137 | `pixel_to_pixel_reference`, `pixel_reference_to_solid_angle` (Units/Pixel) on the table of units of C116; the result of `projection_scale` (C96) is a parameter | the area is the Lebesgue measure of the image of the unit square by the matrix (CD, or scales and any rotation); conversion pixel → pixel_reference → deg² → rad² → sr by the model of `SI`; `C137_violation_pc`, `C137_violation_incomplete` |
| C138 | `FitsArray.save`, `Map.save`, `Tod.save`, their constructors for a file, `read_fits` and `write_fits` for one process (Data/Save): a file is a list of HDU, pickle is a parameter | computation of the list of HDU and of the searches by name; the unit by C21; violations for the unit of the header, Path, signed integers, EXTNAME, pickle, `derived_units` |
| C139 | heap of headers; `header`, `__array_finalize__`, `FitsArray.__new__`, `astype` (Data/Headers) | references that are different are independent; the header made on demand by C60; violations for numpy copies, slices, the argument `header`, complex numbers |
| C140 | callables by signature and body; `__getattribute__`, `_get_func_nargin`, `__getitem__` of computed attributes (PackedTable/Computed) | case analysis on the number of required arguments; restriction by `getitem_spec` (C09), unpacking by C02; violations for callable objects, foreign methods, constant functions |
| C141 | recursive data types; `_get_default_missing_value`, `unpack` without missing value (PackedTable/Missing) | mutual induction on types and fields; the types that have a missing value are characterised; violations for dates, fields with a shape, titles |
| C142 | `SamplingSpherical`, `SamplingEquatorial`, `SamplingHorizontal`: `spherical`, `cartesian`, `equatorial`, `galactic` (Operators/Directions) | sample by sample, by C67, C105 and C110, against the formulas of spherical trigonometry; violations for scalar angles |
| C143 | `LayoutGrid.__init__`, `LayoutGridSquares.__init__`, `Layout.__init__`, wrappers `create_grid`, `create_grid_squares` with quantities (Geometry/LayoutGrid) | conversions by C22, positions scaled to physical lengths and compared with a rotation and translation of a regular grid; packing by C01 and C17; violations for vertices in other units and list shapes |
| C144 | `Instrument` (`__init__`, `__getitem__`, `__iter__`, `pack`, `split`, `scatter`), `Imager.__init__` (PackedTable/Instrument) | by C04, C07, C11 on the detectors, the other attributes being unchanged; violations for two transforms and for unnamed imagers |
| C145 | the shapes accepted and deduced by a sparse operator, its calls, its transpose and its dense form | `Sparse/Shapes.lean`: the product of an array with any additional dimensions (from C26 and C27), the transposed operator, the dense matrix as the images of the canonical basis, the choice of the broadcastable shapes. The call and the dense matrix of an operator are those of pyoperators: validation, allocation of the deduced shape, `direct`; images of the canonical basis. |
| C146 | `convex_hull`: the facets of the Delaunay triangulation, the set of their ends, their angles around their mean, modulo 2π, and the indirect sort (`Geometry/Hull.lean`) | The mean of the vertices is strictly inside every supporting half plane; the vertices have distinct angles; two consecutive ones are less than π apart, otherwise a line through the mean has all the vertices on one side; the left half plane is convex, hence contains all the points. What Qhull returns is a hypothesis (`Facets`). |
| C147 | `__array_finalize__` of Quantity, FitsArray, Map and Tod as lists of attributes, `FitsArray.__getattr__` and `__setattr__`, `__reduce__` and `__setstate__`, `Map.__getitem__` for a field, the setter of `derived_units` (`Data/Attributes.lean`) | Invariant of the arrays made by views and changes of attributes: the keys of `__dict__` are distinct and are not fields; the restored dictionary is compared key by key. The assignment by numpy, the indexing and pickle of the values are parameters. Violations for fields with the name of an attribute, plain coverage, None |
| C148 | `WCSToPixelOperator`, `WCSToWorldOperator` (and Kapteyn), `DistortionOperator`, `SceneGrid.fromfits` (`Wcs/Operators.lean`): memory as a function of the addresses, arrays with strides, the condition of numpy for a reshape without copy | Induction on the list of the indices in the C order; the sums of the F-ordered index by division; the gnomonic projection of C92 as instance. The transforms of astropy, the interpolator of scipy and `To1dOperator` are parameters or stated semantics. Violations for strided outputs and distortions |
| C149 | the names of the files (with the name used as a regular expression, special characters . and +), the decoding of the bytes of the filters, of the header and of the records, the mask of the map (interfaces/madmap1.py 62-89, 165-226); the value of the bits of a float is a parameter | round trip of the bytes for any items followed by anything; induction on the name for the matching; sort of a filter of the directory |

## Wrong programs that no theorem rejects

Two edits of the last series survived and were not followed by a tightening (`seeded/LOG.jsonl`):

* `Data/Headers.lean` `construct`: copying the header also when no copy is asked. C139 requires that the headers be independent, not that they be shared without a copy.
* `Geometry/LayoutGrid.lean` `checkShape`: accepting an origin that has not two coordinates. The theorems of C143 suppose an origin of two coordinates and none states that the others are refused.

Three more edits (`fillDown`, `pixelToReference`, `saveFits`) could not be applied or gave a model that does not compile, and are not in the log.
No edits were tried against C145 to C149.

## Disagreements between the code and the properties

Found while proving; each one has a `..._violation...` theorem with a concrete witness unless noted.

Packed tables (`packedtables/core.py`):

* `_normalize_slice`: descending slice with `stop < -n-1` selects too many components (C04).
* `_normalize_int_selection`: a constant list such as `[2, 2]` becomes a slice of step zero, and `len` / `index`
  raise `ZeroDivisionError`; a list of negative integers is compressed as if it were positive, `[-1, 0, 1]`
  with three components becomes "everything" (C06, C07, C08, C01); a group or the part of a process of the form `[2, 2]` has no length (C11, C12).
* `gather`: the gathered table keeps the communicator of the local one, so that it cannot be scattered again (C12).
* descending slices reaching the first component of a table with an explicit list, or with array attributes, raise
  or select nothing, since the normalised stop `-1` is passed to numpy (C04, C05).
* slicing again an empty slice table can give back components: `t[0:0][0:]`-like tables pack rows, fail to unpack
  and report wrong `removed` (C01, C03, C14).
* with an `ordering`, integer and slice selections apply to the rows of the table instead of the flat components (C10); tuple
  selections with full or descending slices designate other components (C10).
* unpack of a table with repeated components leaves entries of the output uninitialised (C02).
* scalar assignment to an attribute of a slice of a table (or to a scalar attribute of any restriction) writes into the parent (C16).
* `copy()` always raises `AttributeError` (C18).
* scattering an empty slice table and unpacking raises `ValueError` (C13).
* `gather()` leaves the table marked as distributed (`comm`, not modelled); `len(table.all)` is the product of the
  full shape (not modelled).

Sparse matrices (`sparse.py`, `flib/sparse.f90.j2`, `flib/module_operators.f90.j2`):

* products with a matrix without row or without column raise `ZeroDivisionError` (`extra_size` is computed by a division
  by the number of columns) instead of returning zeros (C26, C27, C28, C30, C31).
* `FSCBlockMatrix` of non-square blocks allocates `data` with blocks of the transposed shape, so that the matrix cannot be rebuilt
  from its own data: `copy()` and the transpose raise (C36).
* `FSRBlockMatrix` does not validate its block size: for 1x1 blocks or blocks larger than three the compiled path silently
  returns zeros (C70).
* the rule for `P.T * P` builds the diagonal from `product(shapein)` zeros and the flat indices of the matrix: with trailing
  dimensions in `shapein` it differs from the composition (C32).
* the product of a matrix restricted by a mask that keeps nothing raises; the corestriction of rotation storages always raises
  `IndexError`, because the mask is repeated for each component although the array has one line per block row (C33).
* in `fsr_kernel` the pointer `val` is missing from the `private` clause: with several threads observed pixels can be reported
  in the kernel, and conversely (C34, two executions exhibited).  For blocks `canonical_basis_in_kernel` raises `AttributeError`; with
  trailing dimensions the wrong positions are cleared; the Python fallback of 3d rotations only tests `r11` (C34).
* `pT1` for 2d rotations uses the flat pixel index along the first dimension of the map; for blocks of one column the coverage
  of the first pixel is broadcast (C35).
* the compiled `fsr_pT1`, `fsr_pTx_pT1`, `fsr_kernel` of `operators.f90.j2` are never generated: the template compares the strings
  `combo.rsize` with integers (read in the template, not modelled).

Quantities (`quantities.py`):

* a zero exponent written in a string is stored: `m^0` is not the empty unit, and the product is then not associative as
  dictionaries (C19, C20).
* a conversion from or to the empty unit is always accepted and never scales: `Quantity(1, 'km/m').tounit('')` is 1 (C22, C23).
* definitions of powers are only matched exactly: `rad^4` cannot be converted to `sr^2` (C23), and the SI expansion of `deg rad` gives
  `rad^2`, whose expansion gives `sr` (C25).

Legacy pointing matrices (`operators.py`, `flib/module_pointingmatrix.f90`, `flib/pointingmatrix_old.f90`):

* with one element per sample, a sample whose element is missing is not written by the projection: the output keeps its previous
  content (or the content of `np.empty` for an output that is not contiguous); nothing is written either when the last dimension is
  zero (C37, C38).
* after a call to `func` that raises, the place holder has no matrix but still the identifier of the previous operator, which then
  gets `None` (C40).
* coordinates outside of the map designate other pixels or the missing elements (C41).
* `get_pTp` allocates (and requires) a boolean array, which the compiled function rejects; the rule for `P.T * P` writes at the
  index -1 for missing elements (C74).
* the argument `mask` of `get_pTx_pT1` cannot be used: `mask or ...` raises, and the mask that is read is the attribute of `x` (C75).
* the rule for `D * P` multiplies values of shape `(..., 1)` in place by the diagonal, which raises unless the diagonal is a
  scalar (C76).

Distribution over the processes (`mpiutils.py`, `acquisitions.py`):

* `distribute_observation` raises `UnboundLocalError` with several processes if no detector or no observation is left (C48).
* `write_fits` discards the result of `group.Incl`: with fewer rows than processes, the processes that have rows wait for the others
  in the collective opening of the file (C49).  When the size of the data is a multiple of 2880 a whole block of zeros is appended.
* `read_fits` only shifts the reference pixel of gnomonic RA/DEC headers, and always the second one, also if the array has three
  dimensions (C77).  It loops for ever on an HDU that has axes and no data (read, not modelled).
* `gather_fitsheader_if_needed` compares `CRTYPE1` and `CRTYPE2` instead of `CTYPE1` and `CTYPE2` (C78).
* `Acquisition`: when both process counts are given the second one is ignored (C50); a limit of zero bytes raises
  `ZeroDivisionError` (C51); a restriction made after `get_operator` keeps the operator of the whole acquisition (C52).
* `MaskPolicy`: a flag named as a constant of the class replaces it, and the conversion to an array raises (C53).

Geometry (`geometry.py`, `flib/geometry.f90`, `flib/projection.f90.j2`, `flib/module_geometry.f90.j2`):

* `rotate` raises `ValueError` for coordinates in Fortran order (`np.dot` into an output that is not C-contiguous), and rotates integer
  coordinates with a matrix truncated to integers: 45 degrees sends (1, 0) to the origin (C46).
* the integration operator takes the absolute value pixel by pixel: the weights of a polygon that crosses itself do not add up to the
  absolute value of its area (C42; outside of the documented use if polygons are meant to be simple).
* `matrix_polygon_integration` never sets its output `out` to false: the attribute `outside` of the operator depends on the contents of
  the memory (C79).

Noise and signal processing (`noises.py`, `instruments.py`, `operators.py`, `flib/module_operators.f90.j2`):

* `_fold_psd` reads the element that follows the Nyquist frequency: folding loses power, does not undo `_unfold_psd`, and raises
  `IndexError` for two elements; odd lengths lose half of the power of the last frequency (C54).
* `trexp_transpose_inplace` does not scale the last sample: in place (the operator is declared in place) the transpose is not the adjoint
  (C57).  A negative time constant among positive ones gives zeros, but the operator is the identity if all of them are negative.
* `_ravel_strided` assumes items of 8 bytes: two-dimensional single precision signals are rejected, or misread if every other column
  is taken; rows repeated by broadcasting are read out of bounds (C85).
* `get_noise` raises for an odd number of samples and a given spectrum, and for a standard deviation per detector with a knee
  frequency; the default `ncorr=None` of `get_invntt_operator` raises `TypeError` for correlated noise (C84).

World coordinates (`wcsutils.py`, `flib/wcsutils.f90`, `flib/module_wcs.f90`):

* `create_fitsheader(cd=...)` raises for any matrix: line 284 overwrites the matrix from scales and an angle that are then undefined (C59).
* the header of a scalar array has one axis; more than eight dimensions are refused (C60).
* `init_astrometry` turns headers with `CROTA2` in the opposite sense to `create_fitsheader` and `get_cdelt_pa`, unless the rotation
  vanishes or the two scales are equal; the usual negative first scale is affected (C87).
* the mean of 270 and 0 degrees is 135 degrees (C88).
* `angle_lonlat` reads out of bounds for two arrays of different sizes greater than one (C89).
* `has_wcs` is false for a header of three axes with a two-dimensional coordinate system, and raises without axes (C95).
* the drawings of `RotationBoresightEquatorialOperator` and `object2ad` show the first axis along the decreasing right ascensions: it is along
  the increasing ones (C93).
* `object2pmatrix_sharp_edges` updates `new_npixels_per_sample` in a parallel loop, but the reduction clause names `npixels_per_sample`: an
  update can be lost, and too small a number is then reported (C94).
* `object2pmatrix_nearest_neighbour` writes a nonzero weight in the elements without pixel (index -1).
* `projection_scale` uses the tangent of the pixel scale: away from the reference pixel the area is underestimated (C96).

Tods, maps, samplings and MADmap1 files (`datatypes.py`, `packedtables/samplings.py`, `interfaces/madmap1.py`):

* `Tod.__array_finalize__` gives the mask of the original to any result of numpy, whatever its shape: transposes have a mask of the wrong
  shape; the mask given to the constructor is not compared to the data, and a scalar one stays without dimension (C62).
* `t[..., 0]` of a one-dimensional Tod gets the whole mask and overwrites all of it with its first value (C62).
* assigning a scalar to the mask of a slice, of a copy or of the result of an operation writes in the mask of the original Tod, since the
  memory is shared (C63).
* `Sampling` tests `hasattr(keywords, 'time')`, which is always false for a dictionary: the period is one second whatever the times (C64).
* `get_invntt_operator` gives the filters of all the blocks to each block; negative block lengths are accepted (C65).
* `Map` does not compare the shapes of the coverage and error maps to that of the data, and transposes keep them (C98).
* the third angle of a `SamplingSpherical` given by keyword after two positional arguments is replaced by zero (C100).
* `profile` without `nbins`: the corners of a 4x4 image are in no bin, and the profile is empty with bins larger than 2.5; a negative `bin` writes out of bounds (C66).
* `integrated_profile` returns the mean distance of the pixels of the bin, smaller than the upper side of the bin documented as the strict upper boundary (C101; the repository has an xfail test on it).
* `distance2` raises TypeError for three dimensions or more, and its result carries the unit of the scale instead of its square (C102).
* `profile_psd2` centres the profile at `shape // 2 + 1`, one pixel after the zero frequency of `fftshift` (C104).
* `BlackBodyOperator`: an array of slopes, which the documentation allows, raises TypeError; the dimension of the operating
  frequency is tested twice and that of the reference frequency never (C106).
* the example of `PowerLawOperator` documents the result 2.75e-11 where the formula gives 1.1 (C107).
* the solid angle of `BeamGaussian` is the one of the plane approximation, larger than the integral over the sphere, and
  `BeamUniformHalfSpace` is one over the whole sphere although its solid angle is 2 pi (C108).
* `block_diagonal`: the result of `np.delete` is not used so that the blocks of a stack keep the stack axis, and the output shape is
  partitioned like the input one, whatever its length (C109).
* the composition of `Cartesian2HealpixOperator` followed by `Healpix2CartesianOperator` (and of the spherical ones) is replaced by the
  identity, although it moves the directions to the centres of their pixels (C111).
* `HealpixLaplacianOperator` gives to the neighbours by a side the weight of the neighbours by a corner and conversely (the order of healpy is
  SW, W, NW, N, NE, E, SE, S), which is 3/2 of the laplacian on quadratic functions; the repository's test expects these values; constant maps
  are not annihilated at the pixels which have seven neighbours (C113).
* `__array_function__`: the bounds of `np.clip` are not converted to the unit of the array, `np.interp` returns the unit of the abscissae,
  `np.atleast_1d` of several arguments loses the units, `np.cov` of one argument raises IndexError, `np.hstack` of a one-dimensional quantity
  loses its unit, and operands whose units have the same symbol but different derived units are combined without conversion (C116).
* derived units that are arrays (C117): an ellipsis in front of the other items of a key or a list of indices applies the values of the wrong rows
  or columns; a key that leaves one value of a derived unit makes it a number without unit, which can not be converted any more; after a
  conversion the derived units refer to themselves and slices raise RecursionError; the in-place conversion applies the values of a
  `[leftward]` unit to the first dimension instead of the last one.
* C118: after a conversion in place, the views of the quantity have the new magnitudes with the old unit; `Quantity(q, unit, copy=False)` replaces
  the unit of `q` itself; a conversion gives the derived units of the converted quantity to the quantities used as derived units, which lose
  their own.
* C119: on the axis of the instrument, or when the direction on the sky is a pole, the azimuthal vector is 0/0 and the elements are NaN.
* C120: QSORTID compares reals with NaNs by `.LE.` and `.GE.`, so that finite values are misplaced: (1, 2, NaN) is sorted as 2, NaN, 1.
* C121: `uniq` for reals skips the NaNs except the first element: an array of NaNs has one "unique value" although `reorder` finds none.
* C122: `where_2d_1d` stores the number of elements in its optional argument without testing its presence.
* C123: `strlowcase` and `strupcase` test `ic < 90` and `ic < 122`, so that the letter Z is not converted: a keyword with this letter is found only in the
  case of the header. `ncards` is `(len-1)/80 + 1`: a header followed by a null character, which the comment allows, or an empty header, is read beyond its end.
* C124: `ft_read_keyword` for characters writes the string beyond the end of a variable that is too short, instead of truncating it. All the callers have variables of
  70 characters.
* C125: integers are read with the format I20 from the first character of the value: longer texts, which the standard allows, are silently truncated.
* C126: the length of `strinteger` is that of the rounded integer: 999999999999999999 has a blank at the end; the smallest integer has no absolute value.
* C127: `str2fitsheader` stops at any keyword that begins with END.
* C128: `init_astrometry` reads `CUNIT1` and `CUNIT2` and does not use them; the types are truncated to eight characters, so that `RA---TAN-SIP` is accepted and
  the distortions are ignored.
* C130: `median_nocopy` with `remove_nan` false scans beyond the array if it has NaN: three NaN are enough.
* C131: `mad` computes the deviations of the whole array after `median_nocopy` has removed the NaN by copying the last elements over them: these are counted
  twice.  The deviation of `[NaN, 1, 2]` is 1 instead of 0.
* C132: `sigma_clipping` does not increment `iter`: a maximum of two iterations is not respected.
* C133: `shift_fast` and `shift_medium` read an offset out of bounds if the number of offsets does not divide the number of columns, and divide by zero if it
  exceeds it.
* C135: `_sampling2psd` adds the sampling frequency to the last frequency, which is right only if it is -fs/2: for an odd number of samples the last frequency becomes larger than the sampling frequency, and its density is not doubled as the others; the result for a single sample has more densities than frequencies.
* C136: `get_observation(map, out, operation)` applies the operation to H map and then adds the noise to the buffer: with `operator.isub` or `operator.imul` the noise is not subtracted or multiplied, contrary to the docstring ("equivalent to operation(out, get_observation(x))").
* C137: `pixel_reference_to_solid_angle` ignores the matrix PCi_j, and a matrix CDi_j with some elements absent (zero for the standard) is ignored: the area is that of the CDELTi or is not defined.
* C138: `save` does not remove the BUNIT (or QTTY____) keyword of the header of an array that has no unit any more, so that it has the old unit when it is read again.
* C138: `Map(filename)` and `Tod(filename)` read the coverage, the error, the origin and the mask only if the name is a `str`, not if it is a `Path` (`FitsArray.__new__` accepts both).
* C138: signed integers are read as floating point numbers; the argument `derived_units` is replaced by the units of the file; a map whose header has EXTNAME = Coverage is read with itself as coverage; if the derived units cannot be pickled the file is left without its extensions.
* C139: the method `copy`, the slices and the results of operations share the header of the array (a change is seen in both, and the header of a slice has the shape of the whole array); the header given to the constructor is never copied; `astype(complex)` raises `KeyError` if the header was read before.
* C140: a callable object stored as an attribute has its parameter `self` counted (one without argument receives the table and fails, a function of the table is returned without being evaluated); a method of another object never receives the table; the value of a function without argument is not restricted with the table.
* C141: no missing value for dates and durations (`KeyError`), for the fields of a structure that have a shape (`AttributeError`) and for the fields that have a title (`ValueError`): the attribute can be read but not unpacked.
* C142: a pointing made of a scalar angle and of an array of angles is accepted but has no `spherical`, `cartesian`, `equatorial` or `galactic` coordinates; with two scalars the coordinates have the shape (2,) instead of (1, 2).
* C143: `LayoutGrid(..., vertex=v)` with a unit relabels the vertices with the unit of the spacing without converting them, and changes the unit of the array of the caller in place; a shape given as a list passes the check of the type but is refused by `create_grid` with `TypeError`.
* C144: `Imager(name, layout, image2object=g, object2image=f)` ignores `g`; `Imager(None, layout, ...)` stores the layout as its name and has no detectors.
* C145: `SparseOperator.todense` with an implicit shape removes the last dimension only but multiplies by the size of all the additional ones: with two additional dimensions larger than one the dense matrix has the wrong shape (`C145_violation_dense`, for every such shape).
* C145: an input with the right size and other dimensions ((1, 3) for three columns) passes `validatein` and the product is refused with an error on the output (`C145_violation_validated`); an explicit `shapein` without a beginning of the right size is accepted by the constructor and no product is possible (`C145_violation_shapein`).
* C147: the view as a `Map` of a structured array with a field named `error`, `coverage` or `origin` sets the values of this field to NaN (`__array_finalize__` goes through `__setattr__`); after pickle the attribute hides the field. A field named as a property (`unit`) is written and never read.
* C147: the fields of a structured map cannot be read if its coverage or its error is not structured (`IndexError`). The derived units None are accepted by the setter, and the conversions then raise `TypeError`; an invalid derived unit whose key is a tuple raises `TypeError` instead of `UnitError`.
* C148: `direct` of the WCS operators writes into `output.reshape((-1, 2))`: if the output cannot be reshaped without a copy (a part of a larger array with at least three dimensions) the result is lost. The inverse of a `DistortionOperator` is the interpolation of the exchanged points, exact at the points only.
* C89: the Python function `angle_lonlat` returns a one-dimensional array for arrays with several dimensions and does not broadcast them.
* C149: `_read_filters` uses the name of the file as a regular expression without escaping it: with `inv.ntt` the file `inv_ntt.0` is also read, and with `a+b` the file `a+b.0` is not found; a missing file (`f.0`, `f.2`) is not noticed; a truncated filter is accepted with fewer coefficients than it declares; with an infinite missing value the pixels of the other infinity are also masked.
* C57: the in-place transpose of the truncated exponential does not scale the last input value; the repository's own test expects the
  contrary.
