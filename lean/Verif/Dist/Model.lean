import Verif.Py.Split
import Mathlib.Data.Rat.Defs

/-!
Model of src/pysimulators/mpiutils.py and of the distribution of an acquisition over the processes
(src/pysimulators/acquisitions.py 83-125 and 266-284).

A collective function is modelled by what each process passes (a list indexed by the ranks); MPI delivers the contributions unchanged.
-/
namespace Verif.Dist
open Verif.Py

/-! ### FITS headers -/

/-- The keywords of a FITS header that are used here.  The names that end by the number of an axis are functions of this number; `other`
stands for all the other keywords. -/
structure Header where
  naxis : Option Nat
  naxes : Nat → Option Nat
  crpix : Nat → Option ℚ
  crval : Nat → Option ℚ
  cdelt : Nat → Option ℚ
  ctype : Nat → Option String
  other : String → Option String

/-- `header[key] = value` for the keywords followed by the number of an axis. -/
def upd {α} (f : Nat → Option α) (n : Nat) (x : α) : Nat → Option α := fun k => if k = n then some x else f k

/-- `header[key]`. -/
def get {α} : Option α → Res α
  | none => .error .keyError
  | some x => .ok x

/-- mpiutils.py 34-37 and 88-91: the header with another length of the axis `n` and another reference pixel. -/
def Header.shift (h : Header) (n : Nat) (len : Nat) (d : ℚ) : Header :=
  { h with
    naxes := upd h.naxes n len
    crpix := match h.crpix n with
      | none => h.crpix
      | some c => upd h.crpix n (c + d) }

/-- mpiutils.py 20-37 `gather_fitsheader` on the process `rank`. -/
def gatherHeader (headers : List Header) (rank : Nat) (header : Header) : Res Header :=
  (get header.naxis).bind fun naxis =>
  (get (header.naxes 1)).bind fun _ =>
  (headers.mapM fun h => (get h.naxis).bind fun n => get (h.naxes n)).bind fun nlocals =>
    -- combine(nlocal)
    let nglobal := nlocals.sum
    .ok (header.shift naxis nglobal (splitStart nglobal headers.length rank))

/-- mpiutils.py 77-92 `scatter_fitsheader`. -/
def scatterHeader (header : Header) (size rank : Nat) : Res Header :=
  (get header.naxis).bind fun naxis =>
  (get (header.naxes 1)).bind fun _ =>
  (get (header.naxes naxis)).bind fun nglobal =>
    .ok (header.shift naxis (splitLen nglobal size rank) (-(splitStart nglobal size rank : ℚ)))

/-- wcsutils.py 456-469 `has_wcs` for `n` axes. -/
def Header.hasWcs (h : Header) (n : Nat) : Bool :=
  (List.range n).all fun i => (h.crpix (i + 1)).isSome && (h.crval (i + 1)).isSome && (h.ctype (i + 1)).isSome

/-- mpiutils.py 59-68: the values of a keyword must be the same for all the processes. -/
def sameValue {α} [DecidableEq α] (headers : List Header) (header : Header) (key : Header → Option α) : Res Unit :=
  match key header with
  | none => .ok ()
  | some _ =>
    (headers.mapM fun h => get (key h)).bind fun values =>
      if values.any fun v => some v ≠ values.head? then .error .valueError else .ok ()

/-- mpiutils.py 40-74 `gather_fitsheader_if_needed` on the process `rank`. -/
def gatherHeaderIfNeeded (headers : List Header) (rank : Nat) (header : Header) : Res Header :=
  (get header.naxis).bind fun naxis =>
  (get (header.naxes 1)).bind fun _ =>
    if headers.length = 1 then .ok header
    else if !header.hasWcs naxis then .error .valueError
    else
      (sameValue headers header (·.crval 1)).bind fun _ =>
      (sameValue headers header (·.crval 2)).bind fun _ =>
      -- 'CRTYPE1', 'CRTYPE2': not the names of the keywords of the projection
      (sameValue headers header (·.other "CRTYPE1")).bind fun _ =>
      (sameValue headers header (·.other "CRTYPE2")).bind fun _ =>
      (sameValue headers header (·.cdelt 1)).bind fun _ =>
      (sameValue headers header (·.cdelt 2)).bind fun _ =>
      ((List.range (naxis - 1)).forM fun i => sameValue headers header (·.naxes (i + 1))).bind fun _ =>
      ((List.range (naxis - 1)).forM fun i => sameValue headers header (·.crpix (i + 1))).bind fun _ =>
      (headers.mapM fun h => get (h.crpix naxis)).bind fun crpixs =>
        if crpixs.all fun c => some c = crpixs.head? then .ok header
        else gatherHeader headers rank header

/-- mpiutils.py 190-206: the header returned by `read_fits`. -/
def readHeader (header : Header) (size rank : Nat) : Res Header :=
  (get header.naxis).bind fun naxis =>
  (get (header.naxes naxis)).bind fun n =>
    let start := splitStart n size rank
    let header := { header with naxes := upd header.naxes naxis (splitLen n size rank) }
    if header.ctype 1 = some "RA---TAN" ∧ header.ctype 2 = some "DEC--TAN" then
      match header.crpix 2 with
      | none => .ok header
      | some c => .ok { header with crpix := upd header.crpix 2 (c - start) }
    else .ok header

/-! ### Distribution of an observation -/

/-- `int(np.ceil(a / b))`. -/
def ceilDiv (a b : Nat) : Nat := (a + b - 1) / b

/-- The variables set by the loop of `distribute_observation`. -/
structure Config where
  xblocksize : Nat
  yblocksize : Nat
  nxBlock : Nat
  nyBlock : Nat
  deriving DecidableEq, Repr

/-- mpiutils.py 120-127: the loop over `xblocksize`; `last` are the current values of the variables. -/
def tryBlock (nx ny size blocksize : Nat) : List Nat → Option Config → Option Config
  | [], last => last
  | x :: xs, last =>
    if blocksize % x ≠ 0 then tryBlock nx ny size blocksize xs last
    else
      let y := blocksize / x
      let c : Config := ⟨x, y, ceilDiv nx x, ceilDiv ny y⟩
      if c.nxBlock * c.nyBlock ≤ size then some c else tryBlock nx ny size blocksize xs (some c)

/-- mpiutils.py 115-130: the loop over `blocksize`, with a bound on the number of iterations. -/
def search (nx ny size : Nat) : Nat → Nat → Option Config → Res Config
  | 0, _, _ => .error .recursionError
  | fuel + 1, blocksize, last =>
    match tryBlock nx ny size blocksize ((List.range blocksize).map (· + 1)) last with
    | none => .error .unboundLocalError
    | some c => if c.nxBlock * c.nyBlock ≤ size then .ok c else search nx ny size fuel (blocksize + 1) (some c)

/-- `array[positions] = True`. -/
def setTrue (mask : List Bool) (positions : List Nat) : List Bool := positions.foldl (fun m p => m.set p true) mask

/-- `np.where(~mask)[0]`. -/
def goodPositions (mask : List Bool) : List Nat := (List.range mask.length).filter fun i => mask[i]? = some false

/-- mpiutils.py 95-149 `distribute_observation`: the mask of the detectors and the observations of the process `rank`. -/
def distribute {α} (detectors : List Bool) (observations : List α) (size rank nthreads : Nat) : Res (List Bool × List α) :=
  if size = 1 then .ok (detectors, observations)
  else
    let igood := goodPositions detectors
    let nx := observations.length
    let ny := ceilDiv igood.length nthreads
    (search nx ny size (nx * ny + 1) (ceilDiv (nx * ny) size) none).bind fun c =>
      let ix := rank / c.nyBlock
      let iy := rank % c.nyBlock
      let dstart := if c.nxBlock ≤ ix then 0 else iy * c.yblocksize * nthreads
      let dstop := if c.nxBlock ≤ ix then 0 else (iy + 1) * c.yblocksize * nthreads
      let ostart := if c.nxBlock ≤ ix then 0 else ix * c.xblocksize
      let ostop := if c.nxBlock ≤ ix then 0 else (ix + 1) * c.xblocksize
      .ok (setTrue (setTrue detectors (igood.take dstart)) (igood.drop dstop), (observations.take ostop).drop ostart)

/-! ### Parallel output -/

/-- Write in a file at an offset; a hole is filled with zeros. -/
def writeAt {β} (zero : β) (file : List β) (off : Nat) (bytes : List β) : List β :=
  let file := file ++ List.replicate (off - file.length) zero
  file.take off ++ bytes ++ file.drop (off + bytes.length)

/-- mpiutils.py 234-342 `write_fits` for several processes: `locals` are the first dimension and the bytes of the local arrays, `chunk` the
product of the other dimensions, `head` the file after the header has been written by the first process (its length is `data_loc`), and `order` an
order in which the processes write.  The result of `group.Incl` is not used by the code, so that the new communicator has all the
processes, and the collective opening of the file waits for all of them.  MPI rejects subarrays without element. -/
def writeFits {β} (zero : β) (head : List β) (chunk itemsize : Nat) (locals : List (Nat × List β)) (order : List Nat) : Res (List β) :=
  let size := locals.length
  let nglobal := (locals.map (·.1)).sum
  if locals.zipIdx.any fun p => p.1.1 ≠ splitLen nglobal size p.2 then .error .valueError
  else
    let rankNowork := min size nglobal
    if 0 < rankNowork ∧ rankNowork < size then .error .deadlock
    else if 0 < rankNowork ∧ chunk = 0 then .error .valueError
    else
      let file := if rankNowork = 0 then head else order.foldl (fun file r =>
        writeAt zero file (head.length + splitStart nglobal size r * chunk * itemsize) ((locals.getD r (0, [])).2)) head
      let datasize := nglobal * chunk * itemsize
      if file.length - head.length ≠ datasize then .error .runtimeError
      else .ok (file ++ List.replicate (2880 - datasize % 2880) zero)

/-- mpiutils.py 192-194: the part of the data (bytes after the header) that is read by a process. -/
def readFits {β} (file : List β) (dataLoc n chunk itemsize size rank : Nat) : List β :=
  ((file.drop dataLoc).drop (splitStart n size rank * (chunk * itemsize))).take (splitLen n size rank * (chunk * itemsize))

/-! ### Acquisitions -/

/-- acquisitions.py 85-103: the numbers of processes for the instrument and for the sampling. -/
def processGrid (size : Int) (ninstrument nsampling : Option Int) : Res (Int × Int) :=
  let check (p : Int × Int) : Res (Int × Int) := if p.1 * p.2 ≠ size then .error .valueError else .ok p
  match ninstrument, nsampling with
  | none, none => check (1, size)
  | none, some ns => if ns < 1 ∨ size < ns then .error .valueError else check (Int.fdiv size ns, ns)
  | some ni, _ => if ni < 1 ∨ size < ni then .error .valueError else check (ni, Int.fdiv size ni)

/-- acquisitions.py 105-112: the detectors and the samples of the process `rank` of the grid `[nsampling, ninstrument]` (row major). -/
def gridPart (ninstrument nsampling ndetectors nsamples rank : Nat) : (Nat × Nat) × (Nat × Nat) :=
  let i := rank / ninstrument
  let j := rank % ninstrument
  ((splitStart ndetectors ninstrument j, splitLen ndetectors ninstrument j), (splitStart nsamples nsampling i, splitLen nsamples nsampling i))

/-- acquisitions.py 114-121: the blocks (first and last bounds) of a sampling of `n` samples for an operator of `nbytes` bytes. -/
def blocks (n nbytes : Nat) (maxNbytes : Option Nat) : Res (List (Nat × Nat)) :=
  match maxNbytes with
  | none => .ok [(0, n)]
  | some m =>
    if m < nbytes then
      if m = 0 then .error .zeroDivisionError
      else
        let nblocks := ceilDiv nbytes m
        .ok ((List.range nblocks).map fun r => (splitStart n nblocks r, splitStart n nblocks r + splitLen n nblocks r))
    else .ok [(0, n)]

/-- `a[start:stop]` for bounds that are not negative. -/
def slice {α} (l : List α) (b : Nat × Nat) : List α := (l.take b.2).drop b.1

/-- `out[start:stop] op= x` (the length of `x` is the one of the slice). -/
def updSlice {α} (op : α → α → α) (out : List α) (b : Nat × Nat) (x : List α) : List α :=
  out.take b.1 ++ List.zipWith op (slice out b) x ++ (out.drop b.1).drop (slice out b).length

/-- acquisitions.py 266-284 `get_noise` for one detector: `noise` gives the noise of a part of the sampling. -/
def getNoise {σ α} (op : α → α → α) (noise : List σ → List α) (sampling : List σ) (out : List α) : List (Nat × Nat) → List α
  | [] => out
  | b :: bs => getNoise op noise sampling (updSlice op out b (noise (slice sampling b))) bs

/-! ### The operator of an acquisition -/

/-- An acquisition: what its operator depends on (instrument, sampling, scene, blocks), and the attribute `_operator`. -/
structure Acq (S O : Type) where
  state : S
  operator : Option O
  deriving DecidableEq, Repr

/-- The calls on the acquisitions of a program; the acquisitions are numbered by order of creation. -/
inductive Call (Sel : Type)
  | getOperator (i : Nat)
  /-- `acq[:, :, :]`. -/
  | all (i : Nat)
  /-- `acq[sel]` where `sel` is not made of colons. -/
  | restrict (i : Nat) (sel : Sel)
  deriving Repr

/-- acquisitions.py 148-184 `__getitem__` and 227-245 `get_operator`; `op` is the operator of a state and `res` the restriction
of a state.  Returns the acquisitions and the operator returned by the call, if any. -/
def step {S O Sel : Type} (op : S → O) (res : Sel → S → S) (h : List (Acq S O)) : Call Sel → Res (List (Acq S O) × Option O)
  | .getOperator i =>
    match h[i]? with
    | none => .error .indexError
    | some a =>
      match a.operator with
      | some o => .ok (h, some o)
      | none => .ok (h.set i { a with operator := some (op a.state) }, some (op a.state))
  | .all i =>
    match h[i]? with
    | none => .error .indexError
    | some a => .ok (h ++ [a], none)
  | .restrict i sel =>
    match h[i]? with
    | none => .error .indexError
    | some a =>
      -- out = copy(self), then self._operator = None
      .ok (h.set i { a with operator := none } ++ [{ a with state := res sel a.state }], none)

/-- A sequence of calls. -/
def run {S O Sel : Type} (op : S → O) (res : Sel → S → S) (h : List (Acq S O)) : List (Call Sel) → Res (List (Acq S O))
  | [] => .ok h
  | c :: cs => (step op res h c).bind fun p => run op res p.1 cs

end Verif.Dist
