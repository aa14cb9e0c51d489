import Verif.Py.Basic
import Mathlib.Analysis.SpecialFunctions.Complex.Arg
import Mathlib.Analysis.SpecialFunctions.Trigonometric.Inverse
import Mathlib.Algebra.Order.Floor.Ring

/-!
Model of src/pysimulators/wcsutils.py, src/flib/wcsutils.f90 and src/flib/module_wcs.f90: FITS headers with a world coordinate system,
statistics of angles, positions on the sphere and the gnomonic projection.

Numbers are exact reals; a NaN is `none` where the code tests for it.  `atan2(y, x)` is the argument of the complex number `x + i y`.
-/
namespace Verif.Wcs
open Verif.Py

/-! ### FITS headers -/

/-- The value of a header card. -/
inductive HVal where
  | int (n : Int)
  | real (x : ℝ)
  | str (s : String)
  | bool (b : Bool)

/-- A FITS header: cards in the order they have been written, keywords in upper case (pyfits keywords are case-insensitive).  The comments
of the cards are left out. -/
abbrev Header := List (String × HVal)

/-- `header[key]`. -/
def Header.get? (h : Header) (key : String) : Option HVal := (h.find? fun c => c.1 = key).map (·.2)

/-- `header[key] = value`: the card is replaced, or appended. -/
def Header.put (h : Header) (key : String) (v : HVal) : Header :=
  if h.any fun c => c.1 = key then h.map fun c => if c.1 = key then (c.1, v) else c
  else h ++ [(key, v)]

/-- A keyword argument that may be a scalar or a sequence. -/
inductive ScalarOr (α : Type) where
  | scalar (x : α)
  | seq (xs : List α)

/-- What `create_fitsheader` looks at in a data type. -/
structure DType where
  name : String
  itemsize : Nat
  hasNames : Bool := false

/-- `astropy.io.fits.hdu.image.DTYPE2BITPIX` (a dictionary of the dependency). -/
def dtype2bitpix : List (String × Int) :=
  [("bool", 8), ("uint8", 8), ("int16", 16), ("uint16", 16), ("int32", 32), ("uint32", 32), ("int64", 64), ("uint64", 64),
   ("float32", -32), ("float64", -64)]

/-- The keyword arguments of `create_fitsheader` that describe the world coordinate system, wcsutils.py 156-170. -/
structure WcsArgs where
  crval : List ℝ := [0, 0]
  crpix : Option (List ℝ) := none
  cunit : ScalarOr String := .scalar "deg"
  ctype : Option (List String) := some ["RA---TAN", "DEC--TAN"]
  cd : Option (List (List ℝ)) := none
  cdelt : Option (ScalarOr ℝ) := none
  pa : Option ℝ := none
  radesys : String := "ICRS"
  equinox : Option ℝ := none

/-- `str(dim + 1)` appended to a keyword. -/
def axisKey (key : String) (dim : Nat) : String := key ++ toString (dim + 1)

/-- `np.deg2rad`, `DEG2RAD = PI / 180`. -/
noncomputable def deg2rad (x : ℝ) : ℝ := x * (Real.pi / 180)

/-- `np.rad2deg`, `RAD2DEG = 180 / PI`. -/
noncomputable def rad2deg (x : ℝ) : ℝ := x * (180 / Real.pi)

/-- wcsutils.py 249-267: the cards that do not belong to the world coordinate system. -/
def basicCards (naxes : List Int) (bitpix : Option Int) (extname : Option String) : Header :=
  let h : Header := match extname with
    | none => [("SIMPLE", .bool true)]
    | some _ => [("XTENSION", .str "IMAGE")]
  let h := match bitpix with
    | none => h
    | some b => h.put "BITPIX" (.int b)
  let h := h.put "NAXIS" (.int naxes.length)
  let h := naxes.zipIdx.foldl (fun (h : Header) (n, dim) => h.put (axisKey "NAXIS" dim) (.int n)) h
  match extname with
  | none => h.put "EXTEND" (.bool true)
  | some e => ((h.put "PCOUNT" (.int 0)).put "GCOUNT" (.int 1)).put "EXTNAME" (.str e)

/-- wcsutils.py 276-286: the scale along each axis. -/
def cdeltPair (ctype : Option (List String)) : ScalarOr ℝ → List ℝ
  | .seq xs => xs
  | .scalar c =>
    match ctype with
    | none => [-c, c]
    | some l => if l = ["RA---TAN", "DEC--TAN"] then [-c, c] else [c, c]

/-- wcsutils.py 288-293: `np.diag(cdelt).dot(rotation)`, the matrix of the pixel increments, row by row. -/
noncomputable def cdMatrix (c1 c2 pa : ℝ) : ℝ × ℝ × ℝ × ℝ :=
  let theta := deg2rad (-pa)
  (c1 * Real.cos theta, c1 * Real.sin theta, c2 * -Real.sin theta, c2 * Real.cos theta)

/-- wcsutils.py 299-302: the reference pixel, by default the centre of the image. -/
noncomputable def refPixel (naxes : List Int) : Option (List ℝ) → List ℝ
  | none => naxes.map fun n : Int => ((n : ℝ) + 1) / 2
  | some l => l

/-- wcsutils.py 309-310: the units of the two axes. -/
def unitPair : ScalarOr String → List String
  | .scalar u => [u, u]
  | .seq l => l

/-- wcsutils.py 295-326: the cards of the world coordinate system. -/
noncomputable def wcsCards (h : Header) (naxes : List Int) (a : WcsArgs) (cd : ℝ × ℝ × ℝ × ℝ) : Res Header :=
  match a.crval with
  | [v1, v2] =>
    match refPixel naxes a.crpix with
    | [p1, p2] =>
      match a.ctype with
      | none => .error .typeError
      | some [t1, t2] =>
        match unitPair a.cunit with
        | [u1, u2] =>
          let h := (h.put "CRVAL1" (.real v1)).put "CRVAL2" (.real v2)
          let h := (h.put "CRPIX1" (.real p1)).put "CRPIX2" (.real p2)
          let h := (((h.put "CD1_1" (.real cd.1)).put "CD2_1" (.real cd.2.2.1)).put "CD1_2" (.real cd.2.1)).put
            "CD2_2" (.real cd.2.2.2)
          let h := (h.put "CTYPE1" (.str t1)).put "CTYPE2" (.str t2)
          let h := (h.put "CUNIT1" (.str u1)).put "CUNIT2" (.str u2)
          let h := if t1.toList.take 3 = "RA-".toList ∧ t2.toList.take 3 = "DEC".toList then
              h.put "RADESYS" (.str a.radesys.toUpper) else h
          .ok (match a.equinox with
            | none => h
            | some e => h.put "EQUINOX" (.real e))
        | _ => .error .valueError
      | some _ => .error .valueError
    | _ => .error .valueError
  | _ => .error .valueError

/-- wcsutils.py 269-326: the world coordinate system of `create_fitsheader`.  When `cd` is given the assignment of line 288 is still
executed: `np.diag(cdelt)` raises unless `cdelt` is a sequence, and then `theta` is not defined. -/
noncomputable def addWcs (h : Header) (naxes : List Int) (a : WcsArgs) : Res Header :=
  match a.cd with
  | some cd =>
    if cd.map List.length = [2, 2] then
      match a.cdelt with
      | some (.seq _) => .error .unboundLocalError
      | _ => .error .valueError
    else .error .valueError
  | none =>
    match a.cdelt with
    | none => .ok h
    | some c =>
      match cdeltPair a.ctype c with
      | [c1, c2] => wcsCards h naxes a (cdMatrix c1 c2 (a.pa.getD 0))
      | _ => .error .valueError

/-- wcsutils.py 156-326 `create_fitsheader` without the deprecated argument `fromdata`: `naxes = none` when the argument is not given. -/
noncomputable def createFitsheader (naxes : Option (List Int)) (dtype : Option DType) (extname : Option String) (a : WcsArgs) :
    Res Header :=
  match naxes with
  | none => .error .valueError
  | some naxes =>
    if naxes.length > 8 then .error .valueError
    else
      let typename := (dtype.map DType.name).getD "float64"
      match dtype2bitpix.lookup typename with
      | none => .error .keyError
      | some b => addWcs (basicCards naxes (some b) extname) naxes a

/-- An array as seen by `create_fitsheader_for`. -/
structure ArrayInfo where
  shape : List Nat
  dtype : DType

/-- wcsutils.py 391-409 `create_fitsheader_for`.  `np.array(data, ndmin=1)` gives a scalar one dimension. -/
noncomputable def createFitsheaderFor (data : Option ArrayInfo) (extname : Option String) (a : WcsArgs) : Res Header :=
  match data with
  | none => createFitsheader (some []) (some ⟨"int32", 4, false⟩) extname a
  | some d =>
    let shape := if d.shape = [] then [1] else d.shape
    let dtype := if d.dtype.itemsize = 1 then ⟨"uint8", 1, false⟩ else d.dtype
    createFitsheader (some (shape.reverse.map fun n : Nat => (n : Int))) (some dtype) extname a

/-- `header[key]` for a keyword with an integer value; another type is not usable as an integer. -/
def Header.getInt (h : Header) (key : String) : Res Int :=
  match h.get? key with
  | some (.int n) => .ok n
  | some _ => .error .typeError
  | none => .error .keyError

/-- `header[key]` for a keyword that is converted into a float. -/
def Header.getReal (h : Header) (key : String) : Res ℝ :=
  match h.get? key with
  | some (.int n) => .ok n
  | some (.real x) => .ok x
  | some _ => .error .valueError
  | none => .error .keyError

/-- wcsutils.py 412-414 `fitsheader2shape`. -/
def fitsheader2shape (h : Header) : Res (List Int) := do
  let ndim ← h.getInt "NAXIS"
  ((List.range ndim.toNat).reverse.map fun i => axisKey "NAXIS" i).mapM fun k => h.getInt k

/-- wcsutils.py 444-453: the scale and the position angle of the matrix of the pixel increments.  The quotient by zero when the determinant
vanishes is `none` (NaN, as are the values computed from it). -/
noncomputable def cdeltPaOfCd (c11 c12 c21 c22 : ℝ) : Option ℝ × ℝ × ℝ :=
  let det := c11 * c22 - c12 * c21
  let c1 := if det = 0 then none else some (det / |det| * Real.sqrt (c11 ^ 2 + c12 ^ 2))
  (c1, Real.sqrt (c22 ^ 2 + c21 ^ 2), rad2deg (-(Complex.arg ⟨c22, -c21⟩)))

/-- wcsutils.py 417-453 `get_cdelt_pa`.  The exception handler of line 438 catches a missing keyword only. -/
noncomputable def getCdeltPa (h : Header) : Res (Option ℝ × ℝ × ℝ) :=
  match (do
    let a ← h.getReal "CD1_1"
    let b ← h.getReal "CD1_2"
    let c ← h.getReal "CD2_1"
    let d ← h.getReal "CD2_2"
    pure (a, b, c, d) : Res (ℝ × ℝ × ℝ × ℝ)) with
  | .ok (a, b, c, d) => .ok (cdeltPaOfCd a b c d)
  | .error .keyError => do
    let c1 ← h.getReal "CDELT1"
    let c2 ← h.getReal "CDELT2"
    let r ← h.getReal "CROTA2"
    pure (some c1, c2, -r)
  | .error e => .error e

/-- wcsutils.py 456-469 `has_wcs`; `np.concatenate` of an empty list raises. -/
def hasWcs (h : Header) : Res Bool := do
  let n ← h.getInt "NAXIS"
  if n.toNat = 0 then .error .valueError
  else pure ((List.range n.toNat).all fun i =>
    ["CRPIX", "CRVAL", "CTYPE"].all fun r => (h.get? (axisKey r i)).isSome)

/-! ### Reading a header in Fortran -/

/-- module_wcs.f90 187-200 `cd_info`: (cdelt(1), cdelt(2), crota2). -/
noncomputable def cdInfo (c11 c12 c21 c22 : ℝ) : ℝ × ℝ × ℝ :=
  let det := c11 * c22 - c21 * c12
  let r := |Real.sqrt (c11 ^ 2 + c12 ^ 2)|
  (if 0 ≤ det then r else -r, Real.sqrt (c22 ^ 2 + c21 ^ 2), rad2deg (Complex.arg ⟨c22, -c21⟩))

/-- module_wcs.f90 138-142: the matrix of a header that has the keywords CDELT1, CDELT2 and CROTA2, row by row. -/
noncomputable def cdOfCrota (cdelt1 cdelt2 crota2 : ℝ) : ℝ × ℝ × ℝ × ℝ :=
  let r := deg2rad crota2
  (Real.cos r * cdelt1, Real.sin r * cdelt2, -Real.sin r * cdelt1, Real.cos r * cdelt2)

/-- The content of the common blocks /gnomonic/ and /rotation/ and the size of the map. -/
structure Astrometry where
  nx : Int
  ny : Int
  lambda0 : ℝ
  cosphi1 : ℝ
  sinphi1 : ℝ
  cdinv11 : ℝ
  cdinv12 : ℝ
  cdinv21 : ℝ
  cdinv22 : ℝ
  crpix1 : ℝ
  crpix2 : ℝ

/-- `ft_read_keyword` with the argument `found`: a missing keyword is not an error, a value of the wrong type is. -/
def Header.readReal (h : Header) (key : String) : Res (Option ℝ) :=
  match h.get? key with
  | some (.int n) => .ok (some n)
  | some (.real x) => .ok (some x)
  | some _ => .error .valueError
  | none => .ok none

/-- `ft_read_keyword` for a string without the argument `found`. -/
def Header.readStr (h : Header) (key : String) : Res String :=
  match h.get? key with
  | some (.str s) => .ok s
  | some _ => .error .valueError
  | none => .error .keyError

/-- module_wcs.f90 206-220 `init_gnomonic` and 350-362 `init_rotation`. -/
noncomputable def initProjection (nx ny : Int) (crpix1 crpix2 crval1 crval2 : ℝ) (cd : ℝ × ℝ × ℝ × ℝ) : Astrometry :=
  let (c11, c12, c21, c22) := cd
  let det := c11 * c22 - c21 * c12
  { nx := nx, ny := ny,
    lambda0 := deg2rad crval1, cosphi1 := Real.cos (deg2rad crval2), sinphi1 := Real.sin (deg2rad crval2),
    cdinv11 := c22 / det, cdinv21 := -c21 / det, cdinv12 := -c12 / det, cdinv22 := c11 / det,
    crpix1 := crpix1 - 1, crpix2 := crpix2 - 1 }

/-- module_wcs.f90 37-156 `init_astrometry`; a nonzero status is an error.  The units, which are read and never used, are left out, and
the types are compared without their conversion into upper case. -/
noncomputable def initAstrometry (h : Header) : Res Astrometry := do
  let nx ← h.getInt "NAXIS1"
  let ny ← h.getInt "NAXIS2"
  let crpix1 ← h.getReal "CRPIX1"
  let crpix2 ← h.getReal "CRPIX2"
  let crval1 ← h.getReal "CRVAL1"
  let crval2 ← h.getReal "CRVAL2"
  let c11 ← h.readReal "CD1_1"
  let c21 ← h.readReal "CD2_1"
  let c12 ← h.readReal "CD1_2"
  let c22 ← h.readReal "CD2_2"
  let t1 ← h.readStr "CTYPE1"
  let t2 ← h.readStr "CTYPE2"
  let cd ← (match c11, c12, c21, c22 with
    | some a, some b, some c, some d => pure (a, b, c, d)
    | none, none, none, none => do
      let d1 ← h.readReal "CDELT1"
      let d2 ← h.readReal "CDELT2"
      let r ← h.readReal "CROTA2"
      match d1, d2 with
      | some d1, some d2 => pure (cdOfCrota d1 d2 (r.getD 0))
      | _, _ => .error .runtimeError
    | _, _, _, _ => .error .runtimeError : Res (ℝ × ℝ × ℝ × ℝ))
  if t1 = "RA---TAN" ∧ t2 = "DEC--TAN" then pure (initProjection nx ny crpix1 crpix2 crval1 crval2 cd)
  else .error .runtimeError

/-! ### Statistics of angles in degrees -/

/-- The Fortran function `modulo(x, 360)` for a real x. -/
noncomputable def modulo360 (x : ℝ) : ℝ := x - 360 * (⌊x / 360⌋ : ℝ)

/-- The variables reduced by the loop of `mean_degrees`. -/
structure MeanState where
  mean : ℝ := 0
  zeroMinus : Bool := false
  zeroPlus : Bool := false
  n180 : Nat := 0
  nvalids : Nat := 0

open Classical in
/-- wcsutils.f90 97-104: one iteration of the loop of `mean_degrees`. -/
noncomputable def meanStep (s : MeanState) : Option ℝ → MeanState
  | none => s
  | some x =>
    let val := modulo360 x
    { mean := s.mean + val,
      zeroMinus := s.zeroMinus || decide (val > 270),
      zeroPlus := s.zeroPlus || decide (val ≤ 90),
      n180 := if val ≥ 180 then s.n180 + 1 else s.n180,
      nvalids := s.nvalids + 1 }

/-- wcsutils.f90 107-113: the end of `mean_degrees`. -/
noncomputable def meanEnd (s : MeanState) : Option ℝ :=
  let mean := if s.zeroMinus && s.zeroPlus then s.mean - 360 * s.n180 else s.mean
  if s.nvalids > 0 then some (modulo360 (mean / s.nvalids)) else none

/-- wcsutils.f90 78-115 `mean_degrees` (wcsutils.py 472-477). -/
noncomputable def meanDegrees (xs : List (Option ℝ)) : Option ℝ := meanEnd (xs.foldl meanStep {})

open Classical in
/-- wcsutils.f90 143-148: the representative of an angle that is the nearest to the mean. -/
noncomputable def nearest (meanv x : ℝ) : ℝ :=
  let val := modulo360 x
  if val > meanv then (if |val - 360 - meanv| < |val - meanv| then val - 360 else val)
  else (if |val + 360 - meanv| < |val - meanv| then val + 360 else val)

/-- wcsutils.f90 121-157 `minmax_degrees` (wcsutils.py 480-485).  The infinite starting values of the reductions are `none`. -/
noncomputable def minmaxDegrees (xs : List (Option ℝ)) : Option (ℝ × ℝ) :=
  match meanDegrees xs with
  | none => none
  | some meanv =>
    let (lo, hi) := xs.foldl (fun (s : Option ℝ × Option ℝ) x =>
      match x with
      | none => s
      | some x =>
        let val := nearest meanv x
        (some (match s.1 with | none => val | some m => min m val),
         some (match s.2 with | none => val | some m => max m val))) (none, none)
    match lo, hi with
    | some lo, some hi => some (modulo360 lo, modulo360 hi)
    | _, _ => none

/-! ### Positions on the sphere -/

/-- module_math_old.f90 503-511 `angle_lonlat` for one pair. -/
noncomputable def angleOne (lon1 lat1 lon2 lat2 : ℝ) : ℝ :=
  rad2deg (Real.arccos (Real.cos (deg2rad lat1) * Real.cos (deg2rad lat2) * Real.cos (deg2rad (lon2 - lon1))
    + Real.sin (deg2rad lat1) * Real.sin (deg2rad lat2)))

/-- wcsutils.f90 14-31 `angle_lonlat`: the elemental procedure is called with conformable arrays, or one of them has a single element.
Other sizes do not conform and the call reads out of bounds. -/
noncomputable def angleLonlat (p1 p2 : List (ℝ × ℝ)) : Res (List ℝ) :=
  match p1, p2 with
  | [_], [] => .error .outOfBounds
  | [], [_] => .error .outOfBounds
  | [a], l => .ok (l.map fun b => angleOne a.1 a.2 b.1 b.2)
  | l, [b] => .ok (l.map fun a => angleOne a.1 a.2 b.1 b.2)
  | l1, l2 =>
    if l1.length = l2.length then .ok (List.zipWith (fun a b => angleOne a.1 a.2 b.1 b.2) l1 l2) else .error .outOfBounds

/-- wcsutils.f90 57-66: one iteration of the loop of `barycenter_lonlat`. -/
noncomputable def barycenterStep (s : ℝ × ℝ × ℝ) (p : Option ℝ × Option ℝ) : ℝ × ℝ × ℝ :=
  match p with
  | (some lon, some lat) =>
    let phi := deg2rad lon
    let cotheta := deg2rad lat
    (s.1 + Real.cos cotheta * Real.cos phi, s.2.1 + Real.cos cotheta * Real.sin phi, s.2.2 + Real.sin cotheta)
  | _ => s

/-- wcsutils.f90 38-72 `barycenter_lonlat` (wcsutils.py 69-82).  The quotient 0/0 of line 69 gives a NaN latitude. -/
noncomputable def barycenterLonlat (ps : List (Option ℝ × Option ℝ)) : Option ℝ × Option ℝ :=
  if ps.length = 0 then (none, none)
  else
    let (x, y, z) := ps.foldl barycenterStep (0, 0, 0)
    let lon0 := modulo360 (rad2deg (Complex.arg ⟨x, y⟩) + 360)
    if x ^ 2 + y ^ 2 + z ^ 2 = 0 then (some lon0, none)
    else
      let lat0 := rad2deg (Real.arccos (Real.sqrt ((x ^ 2 + y ^ 2) / (x ^ 2 + y ^ 2 + z ^ 2))))
      (some lon0, some (if 0 ≤ z then |lat0| else -|lat0|))

/-! ### The gnomonic projection -/

/-- module_wcs.f90 368-380 `xy2xy_rotation`. -/
noncomputable def Astrometry.rotate (a : Astrometry) (xsi eta : ℝ) : ℝ × ℝ :=
  (a.cdinv11 * xsi + a.cdinv12 * eta + a.crpix1, a.cdinv21 * xsi + a.cdinv22 * eta + a.crpix2)

/-- module_wcs.f90 225-241 `ad2xy_gnomonic` (278-294 `ad2xy_gnomonic_vect` is the same). -/
noncomputable def ad2xy (a : Astrometry) (ra dec : ℝ) : ℝ × ℝ :=
  let lam := deg2rad ra
  let phi := deg2rad dec
  let invcosc := (180 / Real.pi) / (a.sinphi1 * Real.sin phi + a.cosphi1 * Real.cos phi * Real.cos (lam - a.lambda0))
  let xsi := invcosc * Real.cos phi * Real.sin (lam - a.lambda0)
  let eta := invcosc * (a.cosphi1 * Real.sin phi - a.sinphi1 * Real.cos phi * Real.cos (lam - a.lambda0))
  a.rotate xsi eta

/-- module_wcs.f90 247-272 `ad2xys_gnomonic` for one position: (x, y, scale). -/
noncomputable def ad2xys (a : Astrometry) (ra dec : ℝ) : ℝ × ℝ × ℝ :=
  let lam := deg2rad ra
  let phi := deg2rad dec
  let invcosc := 1 / (a.sinphi1 * Real.sin phi + a.cosphi1 * Real.cos phi * Real.cos (lam - a.lambda0))
  let xsi := (180 / Real.pi) * invcosc * Real.cos phi * Real.sin (lam - a.lambda0)
  let eta := (180 / Real.pi) * invcosc * (a.cosphi1 * Real.sin phi - a.sinphi1 * Real.cos phi * Real.cos (lam - a.lambda0))
  let p := a.rotate xsi eta
  (p.1, p.2, invcosc ^ 3)

/-- module_wcs.f90 386-395 `refpix_area`: in square arc seconds. -/
noncomputable def refpixArea (a : Astrometry) : ℝ :=
  1 / |a.cdinv11 * a.cdinv22 - a.cdinv12 * a.cdinv21| * 3600 ^ 2

/-- wcsutils.f90 191-218 `object2ad` for one position: (ra, dec) in degrees of an offset in arc seconds. -/
noncomputable def object2ad (x1 x2 ra dec pa : ℝ) : ℝ × ℝ :=
  let cospa := Real.cos (deg2rad pa)
  let sinpa := Real.sin (deg2rad pa)
  let c1 := x1 / 3600
  let c2 := x2 / 3600
  let d := dec + (-c1 * sinpa + c2 * cospa)
  (ra + (c1 * cospa + c2 * sinpa) / Real.cos (deg2rad d), d)

/-- wcsutils.py 572-582 `RotationBoresightEquatorialOperator.direct` for one position and one pointing. -/
noncomputable def boresight (x1 x2 ra dec pa : ℝ) : ℝ × ℝ :=
  let pa := deg2rad pa
  let cospa := Real.cos pa / 3600
  let sinpa := Real.sin pa / 3600
  let d := dec + (-x1 * sinpa + x2 * cospa)
  (ra + (x1 * cospa + x2 * sinpa) / Real.cos (deg2rad d), d)

end Verif.Wcs
