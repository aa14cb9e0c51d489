import Verif.Py.Basic
import Mathlib.Algebra.Order.Floor.Ring
import Mathlib.Algebra.Order.Field.Basic
import Mathlib.Analysis.SpecialFunctions.Trigonometric.Basic
import Mathlib.Analysis.SpecialFunctions.Sqrt

/-!
Model of the two-dimensional geometry: src/flib/module_geometry.f90.j2, src/flib/projection.f90.j2 16-77, src/flib/geometry.f90,
src/pysimulators/geometry.py and src/pysimulators/packedtables/scenes.py 180-261.

Simplifications: the floating-point numbers are the elements of an ordered field `K` (real numbers where trigonometric functions
are used), integers do not overflow.
-/
namespace Verif.Geometry
open Verif.Py

variable {K : Type}

/-- A loop `j = n; do i = 1, n; ...; j = i; end do` over the vertices: the pairs (vertex `i`, vertex `j`). -/
def loopPairs (j : K × K) : List (K × K) → List ((K × K) × (K × K))
  | [] => []
  | i :: t => (i, j) :: loopPairs i t

/-- The pairs (vertex `i`, vertex `j`) of the loops over the edges (module_geometry.f90.j2 22-26 and 131-149, geometry.f90 176-181):
`j` starts at the last vertex. -/
def edges (vs : List (K × K)) : List ((K × K) × (K × K)) :=
  match vs.getLast? with
  | none => []
  | some j => loopPairs j vs

section Field
variable [Field K] [LinearOrder K]

/-- module_geometry.f90.j2 51-61: the abscissae clipped to the square, `none` if the edge is not above, inside or below the square. -/
def clipX (x1 x2 : K) : Option (K × K) :=
  if x1 = x2 then none
  else if x1 < x2 then
    if x1 ≥ 1 ∨ x2 ≤ 0 then none else some (max x1 0, min x2 1)
  else
    if x2 ≥ 1 ∨ x1 ≤ 0 then none else some (min x1 1, max x2 0)

/-- module_geometry.f90.j2 71-78: the first end point moved onto the x-axis, or the second one. -/
def cutBelow (a b x1 y1 x2 y2 : K) : K × K × K × K :=
  if y1 < 0 then (-b / a, 0, x2, y2)
  else if y2 < 0 then (x1, y1, -b / a, 0)
  else (x1, y1, x2, y2)

/-- module_geometry.f90.j2 34-100 `intersection_segment_unity_square`: the new value of `out`. -/
def segmentUnitySquare (x1 y1 x2 y2 out : K) : K :=
  match clipX x1 x2 with
  | none => out
  | some (u1, u2) =>
    let a := (y2 - y1) / (x2 - x1)
    let b := y1 - a * x1
    let v1 := a * u1 + b
    let v2 := a * u2 + b
    if v1 ≤ 0 ∧ v2 ≤ 0 then out
    else
      let (u1, v1, u2, v2) := cutBelow a b u1 v1 u2 v2
      if v1 ≥ 1 ∧ v2 ≥ 1 then out + u2 - u1
      else if v1 > 1 then
        let tmp := (1 - b) / a
        (out + tmp - u1) + 1 / 2 * (u2 - tmp) * (1 + v2)
      else if v2 > 1 then
        let tmp := (1 - b) / a
        (out + u2 - tmp) + 1 / 2 * (tmp - u1) * (v1 + 1)
      else out + 1 / 2 * (u2 - u1) * (v1 + v2)

/-- module_geometry.f90.j2 13-28 `intersection_polygon_unity_square`. -/
def polygonUnitySquare (vs : List (K × K)) : K :=
  (edges vs).foldl (fun out e => segmentUnitySquare e.1.1 e.1.2 e.2.1 e.2.2 out) 0

/-- module_geometry.f90.j2 131-149: the loop over the edges from the value `out`. -/
def pipLoop (pt : K × K) : List ((K × K) × (K × K)) → Int → Int
  | [], out => out
  | (i, j) :: rest, out =>
    if decide (i.2 > pt.2) != decide (j.2 > pt.2) then
      let a := pt.1 - i.1
      let b := (j.1 - i.1) * (pt.2 - i.2) / (j.2 - i.2)
      if a = b then 0
      else if a < b then pipLoop pt rest (-out)
      else pipLoop pt rest out
    else if i.2 = j.2 ∧ pt.2 = i.2 ∧ (decide (i.1 > pt.1) != decide (j.1 > pt.1)) = true then 0
    else pipLoop pt rest out

/-- module_geometry.f90.j2 109-151 `point_in_polygon`. -/
def pointInPolygon (pt : K × K) (vs : List (K × K)) : Int :=
  if vs.any (fun v => decide (v = pt)) then 0 else pipLoop pt (edges vs) (-1)

/-- geometry.f90 167-186 `surface_simple_polygon` for one polygon. -/
def surface (vs : List (K × K)) : K :=
  1 / 2 * (edges vs).foldl (fun out e => out + e.2.1 * e.1.2 - e.2.2 * e.1.1) 0

end Field

section Floor
variable [Field K] [LinearOrder K] [FloorRing K]

/-- module_math.f90.j2 26-30 `round_htmi`. -/
def roundHtmi (x : K) : Int := ⌈x - 1 / 2⌉

/-- module_math.f90.j2 36-40 `round_htpi`. -/
def roundHtpi (x : K) : Int := ⌊x + 1 / 2⌋

/-- The Fortran intrinsic `minval`.  For an empty array it is the largest number; 0 is used here and the theorems that depend on it
assume at least one vertex. -/
def minval : List K → K
  | [] => 0
  | x :: t => t.foldl min x

/-- The Fortran intrinsic `maxval`. -/
def maxval : List K → K
  | [] => 0
  | x :: t => t.foldl max x

/-- The Fortran loop `do i = a, b`. -/
def doLoop (a b : Int) : List Int := progression a 1 (b + 1 - a).toNat

/-- The pixels (ix, iy) visited by the loops of projection.f90.j2 40-55, in their order. -/
def pixelsOf (vs : List (K × K)) (nx ny : Nat) : List (Int × Int) :=
  let xmin := roundHtpi (minval (vs.map Prod.fst))
  let xmax := roundHtmi (maxval (vs.map Prod.fst))
  let ymin := roundHtpi (minval (vs.map Prod.snd))
  let ymax := roundHtmi (maxval (vs.map Prod.snd))
  (doLoop (max ymin 0) (min ymax (ny - 1))).flatMap fun iy =>
    (doLoop (max xmin 0) (min xmax (nx - 1))).map fun ix => (ix, iy)

/-- projection.f90.j2 46-48: the condition under which `out` is set. -/
def isOutside (vs : List (K × K)) (nx ny : Nat) : Bool :=
  let xmin := roundHtpi (minval (vs.map Prod.fst))
  let xmax := roundHtmi (maxval (vs.map Prod.fst))
  let ymin := roundHtpi (minval (vs.map Prod.snd))
  let ymax := roundHtmi (maxval (vs.map Prod.snd))
  decide (xmin < 0) || decide (xmax ≥ nx) || decide (ymin < 0) || decide (ymax ≥ ny)

/-- projection.f90.j2 55-57: the value `val` for the pixel (ix, iy). -/
def pixelVal (vs : List (K × K)) (p : Int × Int) : K :=
  polygonUnitySquare (vs.map fun v => (v.1 - ((p.1 : K) - 1 / 2), v.2 - ((p.2 : K) - 1 / 2)))

/-- projection.f90.j2 55-63: one iteration; the state is the number of elements found so far and the row of the matrix. -/
def rowStep (vs : List (K × K)) (nx ncolmax : Nat) (s : Nat × List (Int × K)) (p : Int × Int) : Nat × List (Int × K) :=
  let val := pixelVal vs p
  if val = 0 then s
  else
    let ncols := s.1 + 1
    if ncols ≤ ncolmax then (ncols, s.2.set (ncols - 1) (p.1 + p.2 * nx, |val|)) else (ncols, s.2)

/-- projection.f90.j2 41-73: the number of elements of the row and the row of the matrix, from the initial row `row0` (of length
`ncolmax`). -/
def integrationRow (vs : List (K × K)) (nx ny ncolmax : Nat) (row0 : List (Int × K)) : Nat × List (Int × K) :=
  let s := (pixelsOf vs nx ny).foldl (rowStep vs nx ncolmax) (0, row0)
  (s.1, s.2.mapIdx fun k e => if k + 1 ≥ s.1 + 1 then (-1, 0) else e)

/-- projection.f90.j2 16-77 `matrix_polygon_integration`: the matrix, `min_ncolmax` and `out`.  The argument `out` is never set to
false: `out0` is its arbitrary value when the subroutine is entered. -/
def matrixPolygonIntegration (polys : List (List (K × K))) (nx ny ncolmax : Nat) (mat0 : List (List (Int × K))) (out0 : Bool) :
    List (List (Int × K)) × Nat × Bool :=
  let rows := List.zipWith (fun vs row => integrationRow vs nx ny ncolmax row) polys mat0
  (rows.map Prod.snd, rows.foldl (fun m r => max m r.1) 0, out0 || polys.any fun vs => isOutside vs nx ny)

/-- The contents of memory that is not initialised: the matrix that `np.empty` returns for a number of rows and columns, and the value
of the variable `out` of the Fortran subroutine. -/
structure Garbage (K : Type) where
  mat : Nat → Nat → List (List (Int × K))
  mat_rows : ∀ n c, (mat n c).length = n
  mat_cols : ∀ n c, ∀ r ∈ mat n c, r.length = c
  out : Bool

/-- scenes.py 180-261 `SceneGrid.get_integration_operator` for a scene of `ny` rows and `nx` columns without removed elements: the
matrix, `min_ncolmax`, `outside` and the number of calls.  `g k` is the uninitialised memory met by the k-th call; `fuel` bounds the
recursion (Python raises an error when its limit is reached). -/
def integrationOperator (polys : List (List (K × K))) (nx ny : Nat) :
    (fuel : Nat) → (ncolmax : Nat) → (g : Nat → Garbage K) → Res (List (List (Int × K)) × Nat × Bool × Nat)
  | 0, _, _ => .error .recursionError
  | fuel + 1, ncolmax, g =>
    let r := matrixPolygonIntegration polys nx ny ncolmax ((g 0).mat polys.length ncolmax) (g 0).out
    if r.2.1 > ncolmax then
      (integrationOperator polys nx ny fuel r.2.1 (fun k => g (k + 1))).map fun q => (q.1, q.2.1, q.2.2.1, q.2.2.2 + 1)
    else .ok (r.1, r.2.1, r.2.2, 1)

end Floor

section Real
open Real

/-- module_math_old `DEG2RAD` times the angle. -/
noncomputable def deg2rad (angle : ℝ) : ℝ := π / 180 * angle

/-- geometry.f90 12-52 `create_grid`: the point of row `j` and column `i` (both from 1). -/
noncomputable def createGrid (m n : Nat) (spacing : ℝ) (xrefl yrefl : Bool) (angle : ℝ) (center : ℝ × ℝ) (j i : Nat) : ℝ × ℝ :=
  let r11 := cos (deg2rad angle)
  let r21 := sin (deg2rad angle)
  let r12 := -r21
  let r22 := r11
  let (r11, r21) := if xrefl then (-r11, -r21) else (r11, r21)
  let (r12, r22) := if ¬ yrefl then (-r12, -r22) else (r12, r22)
  let x0 := -(1 / 2 : ℝ) * (n + 1)
  let y0 := -(1 / 2 : ℝ) * (m + 1)
  let y := (y0 + j) * spacing
  let x := (x0 + i) * spacing
  (center.1 + r11 * x + r12 * y, center.2 + r21 * x + r22 * y)

/-- geometry.f90 58-111 `create_grid_squares`: the four corners of the square of row `j` and column `i` (both from 1). -/
noncomputable def createGridSquares (m n : Nat) (spacing ff : ℝ) (xrefl yrefl : Bool) (angle : ℝ) (center : ℝ × ℝ) (j i : Nat) :
    List (ℝ × ℝ) :=
  let size := spacing * √ff
  let r11 := cos (deg2rad angle)
  let r21 := sin (deg2rad angle)
  let r12 := -r21
  let r22 := r11
  let (r11, r21) := if xrefl then (-r11, -r21) else (r11, r21)
  let (r12, r22) := if yrefl then (-r12, -r22) else (r12, r22)
  let x0 := -(1 / 2 : ℝ) * ((n + 1) * spacing + size)
  let y0 := (1 / 2 : ℝ) * ((m + 1) * spacing - size)
  let y := y0 - spacing * j
  let x := x0 + spacing * i
  [(x + size, y + size), (x, y + size), (x, y), (x + size, y)].map fun c =>
    (center.1 + r11 * c.1 + r12 * c.2, center.2 + r21 * c.1 + r22 * c.2)

/-- geometry.f90 117-136 `rotate_2d`: one point. -/
noncomputable def rotate2d (angle : ℝ) (p : ℝ × ℝ) : ℝ × ℝ :=
  (cos (angle * (π / 180)) * p.1 - sin (angle * (π / 180)) * p.2, sin (angle * (π / 180)) * p.1 + cos (angle * (π / 180)) * p.2)

/-- geometry.f90 142-161 `rotate_2d_inplace`: one point; the state is the pair of memory cells, assigned one after the other. -/
noncomputable def rotate2dInplace (angle : ℝ) (p : ℝ × ℝ) : ℝ × ℝ :=
  let tmp := p.1
  let p := (cos (angle * (π / 180)) * p.1 - sin (angle * (π / 180)) * p.2, p.2)
  (p.1, sin (angle * (π / 180)) * tmp + cos (angle * (π / 180)) * p.2)

/-- The data types of coordinates: double precision, other floating-point types, integers. -/
inductive Dtype | double | float | int
  deriving DecidableEq

/-- Truncation towards zero. -/
noncomputable def trunc (x : ℝ) : ℝ := if 0 ≤ x then (⌊x⌋ : ℝ) else (⌈x⌉ : ℝ)

/-- `np.asarray(_, dtype)`: integers are truncated towards zero. -/
noncomputable def Dtype.conv : Dtype → ℝ → ℝ
  | .int, x => trunc x
  | _, x => x

/-- Layouts of an array: C-contiguous, Fortran-contiguous (and not C-contiguous), other strides. -/
inductive Layout | c | fortran | strided
  deriving DecidableEq

/-- Layout of `np.empty_like(_)`: the order of the axes is kept, the gaps are not. -/
def Layout.emptyLike : Layout → Layout
  | .fortran => .fortran
  | _ => .c

/-- The argument `out` of `rotate`: not given, the array `coords` itself, or another array. -/
inductive OutArg | none | same | other (l : Layout)
  deriving DecidableEq

/-- geometry.py 288-328 `rotate`: the coordinates written into `out`.  Fast paths for contiguous double precision arrays (311-322),
otherwise a product by the rotation matrix converted to the data type of the coordinates (323-328); `np.dot` raises an error if its
output is not C-contiguous. -/
noncomputable def rotate (dt : Dtype) (l : Layout) (out : OutArg) (coords : List (ℝ × ℝ)) (angle : ℝ) : Res (List (ℝ × ℝ)) :=
  let lout := match out with
    | .none => l.emptyLike
    | .same => l
    | .other l => l
  if dt = .double ∧ l = .c ∧ lout = .c then
    if out = .same then .ok (coords.map (rotate2dInplace angle)) else .ok (coords.map (rotate2d angle))
  else
    let a := π / 180 * angle
    let m11 := dt.conv (cos a)
    let m12 := dt.conv (-sin a)
    let m21 := dt.conv (sin a)
    let m22 := dt.conv (cos a)
    if lout ≠ .c then .error .valueError
    else .ok (coords.map fun c => (c.1 * m11 + c.2 * m12, c.1 * m21 + c.2 * m22))

/-- geometry.py 159-189 `create_rectangle` for one size, in double precision, into a new array. -/
noncomputable def createRectangle (size : ℝ × ℝ) (center : ℝ × ℝ) (angle : ℝ) : Res (List (ℝ × ℝ)) :=
  let out := [((1 / 2 : ℝ), (1 / 2 : ℝ)), (-1 / 2, 1 / 2), (-1 / 2, -1 / 2), (1 / 2, -1 / 2)].map fun c => (c.1 * size.1, c.2 * size.2)
  (if angle ≠ 0 then rotate .double .c .same out angle else .ok out).map fun out =>
    out.map fun c => (c.1 + center.1, c.2 + center.2)

/-- geometry.py 226-254 `create_square` for one size, in double precision, into a new array. -/
noncomputable def createSquare (size : ℝ) (center : ℝ × ℝ) (angle : ℝ) : Res (List (ℝ × ℝ)) :=
  let out := [((1 / 2 : ℝ), (1 / 2 : ℝ)), (-1 / 2, 1 / 2), (-1 / 2, -1 / 2), (1 / 2, -1 / 2)].map fun c => (c.1 * size, c.2 * size)
  (if angle ≠ 0 then rotate .double .c .same out angle else .ok out).map fun out =>
    out.map fun c => (c.1 + center.1, c.2 + center.2)

/-- geometry.py 192-223 `create_regular_polygon` for one radius. -/
noncomputable def createRegularPolygon (n : Nat) (radius : ℝ) (center : ℝ × ℝ) (angle : ℝ) : List (ℝ × ℝ) :=
  (List.range n).map fun (k : Nat) =>
    let a := 2 * π / n * k + π / 180 * angle
    (radius * cos a + center.1, radius * sin a + center.2)

/-- geometry.py 257-285 `segment_polygon`: the points of one edge (281-283). -/
noncomputable def segmentEdge (maxd : ℝ) (v0 v1 : ℝ × ℝ) : List (ℝ × ℝ) :=
  let d := √((v1.1 - v0.1) ^ 2 + (v1.2 - v0.2) ^ 2)
  let n := ⌈d / maxd⌉.toNat
  (List.range n).map fun (k : Nat) =>
    let alpha : ℝ := k / n
    ((1 - alpha) * v0.1 + alpha * v1.1, (1 - alpha) * v0.2 + alpha * v1.2)

/-- geometry.py 257-285 `segment_polygon` for a two-dimensional array of at least one vertex. -/
noncomputable def segmentPolygon (maxd : ℝ) (vs : List (ℝ × ℝ)) : List (ℝ × ℝ) :=
  match vs with
  | [] => []
  | v :: t => (List.zipWith (segmentEdge maxd) (v :: t) (t ++ [v])).flatten

end Real
end Verif.Geometry
