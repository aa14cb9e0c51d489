import Verif.Sparse.Model

/-!
Model of the legacy pointing matrices: `PointingMatrix`, `ProjectionBaseOperator`, `ProjectionInMemoryOperator` and `ProjectionOnFlyOperator`
of src/pysimulators/operators.py 504-920, with the Fortran code of src/flib/pointingmatrix_old.f90 and
src/flib/module_pointingmatrix.f90.

Simplifications: numbers are elements of a commutative ring; the arrays are flat lists (C order); the OpenMP loops are run in order (the
iterations of `direct`, `mask`, `pack`, `intersects` write to different elements, or all write the same value; the ones of `transpose`, `ptp`
and `backprojection_weight` are atomic additions, see C29 for this pattern).
-/
namespace Verif.Pointing
open Verif.Py Verif.Sparse

/-- operators.py 504-515: a pointing matrix with `npps` elements (last dimension) per sample; `rows` are the elements of the samples. -/
structure PMat (R : Type) where
  npps : Nat
  rows : List (List (Elem R))
  shapeInput : List Nat
  deriving DecidableEq, Repr

section
variable {R : Type} [CommRing R] [DecidableEq R]

/-- `self.size`. -/
def PMat.size (P : PMat R) : Nat := P.rows.length * P.npps

/-- `product(shape_input)`. -/
def PMat.npixels (P : PMat R) : Nat := P.shapeInput.prod

/-- Read in an array declared with lower bound zero. -/
def rd {α} (v : List α) (i : Int) : Res α := if i < 0 then .error .outOfBounds else readAt v i.toNat

/-- `v(i) = v(i) + x`. -/
def addI (v : List R) (i : Int) (x : R) : Res (List R) := if i < 0 then .error .outOfBounds else addAt v i.toNat x

/-- `v(i) = x`. -/
def setI {α} (v : List α) (i : Int) (x : α) : Res (List α) :=
  if i < 0 ∨ (v.length : Int) ≤ i then .error .outOfBounds else .ok (v.set i.toNat x)

/-! ### Projection -/

/-- module_pointingmatrix.f90 312-316: the loop over the elements of a sample. -/
def directRow (map : List R) : List (Elem R) → R → Res R
  | [], acc => .ok acc
  | e :: es, acc =>
    if e.index = -1 then .ok acc
    else (rd map e.index).bind fun x => directRow map es (acc + x * e.value)

/-- module_pointingmatrix.f90 300-321 `pmatrix_direct`. -/
def pmatrixDirect (rows : List (List (Elem R))) (map : List R) : Res (List R) := rows.mapM fun row => directRow map row 0

/-- module_pointingmatrix.f90 327-344 `pmatrix_direct_one_pixel_per_sample`: one sample. -/
def directOne (map : List R) (row : List (Elem R)) (old : R) : Res R :=
  match row with
  | [] => .error .outOfBounds
  | e :: _ => if 0 ≤ e.index then (rd map e.index).map fun x => x * e.value else .ok old

/-- pointingmatrix_old.f90 49-65 `direct`. -/
def direct (P : PMat R) (map timeline : List R) : Res (List R) :=
  if P.rows.length ≠ timeline.length then .error .valueError
  else if P.npps = 1 then (P.rows.zip timeline).mapM fun p => directOne map p.1 p.2
  else pmatrixDirect P.rows map

/-- operators.py 636-650 `ProjectionBaseOperator.direct`: the content of the output after the call.  `garbage` is the content of
`np.empty_like(output)`. -/
def opDirect (P : PMat R) (contiguous : Bool) (garbage map out : List R) : Res (List R) :=
  if P.size = 0 then .ok out
  else if contiguous then direct P map out
  else direct P map garbage

/-- module_pointingmatrix.f90 361-366: the loop over the elements of a sample. -/
def transposeRow (x : R) : List (Elem R) → List R → Res (List R)
  | [], map => .ok map
  | e :: es, map =>
    if e.index = -1 then .ok map
    else (addI map e.index (e.value * x)).bind (transposeRow x es)

/-- module_pointingmatrix.f90 375-393 `pmatrix_transpose_one_pixel_per_sample`: one sample. -/
def transposeOne (x : R) (row : List (Elem R)) (map : List R) : Res (List R) :=
  match row with
  | [] => .error .outOfBounds
  | e :: _ => if 0 ≤ e.index then addI map e.index (e.value * x) else .ok map

/-- pointingmatrix_old.f90 273-289 `transpose`. -/
def transpose (P : PMat R) (signal map : List R) : Res (List R) :=
  if P.rows.length ≠ signal.length then .error .valueError
  else if P.npps = 1 then (P.rows.zip signal).foldlM (fun map p => transposeOne p.2 p.1 map) map
  else (P.rows.zip signal).foldlM (fun map p => transposeRow p.2 p.1 map) map

/-- The reductions accepted by `transpose`: assignment or `operator.iadd`, or another one. -/
inductive Operation
  | assign | iadd | other
  deriving DecidableEq, Repr

/-- operators.py 652-668 `ProjectionBaseOperator.transpose`. -/
def opTranspose (P : PMat R) (op : Operation) (input out : List R) : Res (List R) :=
  match op with
  | .other => .error .valueError
  | .assign =>
    let out := List.replicate out.length (0 : R)
    if P.size = 0 then .ok out else transpose P input out
  | .iadd => if P.size = 0 then .ok out else transpose P input out

/-! ### `isvalid`, `get_mask`, `pack` -/

/-- pointingmatrix_old.f90 186-194: the test of an element. -/
def elemValid (npixels : Nat) (e : Elem R) : Bool :=
  if e.index = -1 then true else !(decide (e.index < 0) || decide ((npixels : Int) ≤ e.index))

/-- operators.py 553-569 `isvalid`, pointingmatrix_old.f90 175-196. -/
def PMat.isvalid (P : PMat R) : Bool :=
  if P.size = 0 then true else P.rows.all fun row => row.all (elemValid P.npixels)

/-- module_pointingmatrix.f90 446-451: the loop over the elements of a sample. -/
def maskRow : List (Elem R) → List Bool → Res (List Bool)
  | [], mask => .ok mask
  | e :: es, mask =>
    if e.index = -1 then .ok mask
    else if e.value = 0 then maskRow es mask
    else (setI mask e.index false).bind (maskRow es)

/-- operators.py 587-602 `get_mask` (True: not observed), module_pointingmatrix.f90 433-455 `pmatrix_mask`. -/
def PMat.getMask (P : PMat R) (out : Option (List Bool)) : Res (List Bool) :=
  let start (o : List Bool) : Res (List Bool) :=
    if P.size = 0 then .ok o else P.rows.foldlM (fun mask row => maskRow row mask) o
  match out with
  | none => start (List.replicate P.npixels true)
  | some o => if o.length ≠ P.npixels then .error .valueError else start o

/-- module_pointingmatrix.f90 472-478: the table of the packed indices.  The entries of the masked pixels are not initialised
(`junk`). -/
def packTable (junk : Int) : Nat → List Bool → List Int
  | _, [] => []
  | ipacked, true :: ms => junk :: packTable junk ipacked ms
  | ipacked, false :: ms => (ipacked : Int) :: packTable junk (ipacked + 1) ms

/-- module_pointingmatrix.f90 485-497: the loop over the elements of a sample, `ipixel` counted from zero.  The first argument bounds the
number of iterations. -/
def packRow (table : List Int) (mask : List Bool) : Nat → Nat → List (Elem R) → Res (List (Elem R))
  | fuel, ipixel, row =>
    match row[ipixel]? with
    | none => .ok row
    | some e =>
      if e.index = -1 then .ok row
      else
        match fuel with
        | 0 => .error .recursionError
        | fuel + 1 =>
          (rd mask e.index).bind fun m =>
            if e.value = 0 ∨ m = true then
              packRow table mask fuel ipixel (row.take ipixel ++ row.drop (ipixel + 1) ++ [⟨-1, 0⟩])
            else
              (rd table e.index).bind fun t =>
                packRow table mask fuel (ipixel + 1) (row.set ipixel ⟨t, e.value⟩)

/-- operators.py 571-585 `pack`, module_pointingmatrix.f90 461-500 `pmatrix_pack`. -/
def PMat.pack (junk : Int) (P : PMat R) (mask : List Bool) : Res (PMat R) :=
  if P.size = 0 then .ok P
  else
    (P.rows.mapM fun row => packRow (packTable junk 0 mask) mask row.length 0 row).map fun rows =>
      { P with rows := rows, shapeInput := [mask.length - mask.countP (· = true)] }

/-! ### Products of the projection with its transpose -/

/-- module_pointingmatrix.f90 415-424: the inner loop. -/
def ptpInner (i : Int) (pi : R) (n : Nat) : List (Elem R) → List R → Res (List R)
  | [], a => .ok a
  | e :: es, a =>
    if e.index = -1 then .ok a
    else (if i < 0 ∨ (n : Int) ≤ i ∨ e.index < 0 ∨ (n : Int) ≤ e.index then .error .outOfBounds
          else addI a (i + e.index * n) (pi * e.value)).bind (ptpInner i pi n es)

/-- module_pointingmatrix.f90 411-424: the loop over the elements of a sample. -/
def ptpRow (n : Nat) (row : List (Elem R)) : List (Elem R) → List R → Res (List R)
  | [], a => .ok a
  | e :: es, a =>
    if e.index = -1 then .ok a
    else (ptpInner e.index e.value n row a).bind (ptpRow n row es)

/-- module_pointingmatrix.f90 399-427 `pmatrix_ptp`: the array `ptp(i,j)` is at the position `i + j n`. -/
def pmatrixPtp (rows : List (List (Elem R))) (n : Nat) (a : List R) : Res (List R) :=
  rows.foldlM (fun a row => ptpRow n row row a) a

/-- operators.py 701-720 `get_pTp` without output: a boolean array is allocated, and f2py rejects it, since the Fortran argument is an
`intent(inout)` array of real numbers. -/
def PMat.getPTp (P : PMat R) : Res (List Bool) :=
  if P.size = 0 then .ok (List.replicate (P.npixels * P.npixels) false) else .error .valueError

/-- pointingmatrix_old.f90 253-267 `ptp_one`. -/
def ptpOne (rows : List (List (Elem R))) (a : List R) : Res (List R) :=
  rows.foldlM (fun a row =>
    match row with
    | [] => .error .outOfBounds
    | e :: _ => addI a e.index (e.value ^ 2)) a

/-- operators.py 848-856 `_rule_ptp`: the diagonal that replaces `P.T * P`, or `None`. -/
def PMat.rulePtp (P : PMat R) : Res (Option (List R)) :=
  if P.npps ≠ 1 then .ok none
  else (ptpOne P.rows (List.replicate P.npixels 0)).map some

/-- numpy: whether `a *= b` is possible for the shapes `a` and `b` (in reverse order): `b` must be broadcastable to `a`. -/
def broadcastInto : List Nat → List Nat → Bool
  | _, [] => true
  | [], _ :: _ => false
  | n :: a, m :: b => (m = n ∨ m = 1) && broadcastInto a b

/-- operators.py 858-866 `_rule_diagonal`: the matrix that replaces `D * P`, or `None`.  The shape of the output of the projection is `shapeout`
and the diagonal has the shape `dshape` (`()` for a homothety). The matrix values have the shape `shapeout + (1,)`; the broadcasting is only
evaluated when the diagonal has one element, or when it has the shape of the values. -/
def PMat.ruleDiagonal (P : PMat R) (shapeout dshape : List Nat) (d : List R) (rightward : Bool) : Res (Option (PMat R)) :=
  if P.npps ≠ 1 ∨ rightward then .ok none
  else if !broadcastInto (1 :: shapeout.reverse) dshape.reverse then .error .valueError
  else if d.length = 1 then
    .ok (some { P with rows := P.rows.map fun row => row.map fun e => ⟨e.index, e.value * d.headD 0⟩ })
  else if dshape = shapeout ++ [1] then
    .ok (some { P with rows := P.rows.zipWith (fun row x => row.map fun e => ⟨e.index, e.value * x⟩) d })
  else .error .notImplementedError

/-- operators.py 838-846 `apply_mask`: the values of the masked samples are set to zero. -/
def PMat.applyMask (P : PMat R) (mask : List Bool) : Res (PMat R) :=
  if mask.length ≠ P.rows.length then .error .valueError
  else .ok { P with rows := P.rows.zipWith (fun row m => row.map fun e => ⟨e.index, e.value * (1 - if m then 1 else 0)⟩) mask }

/-! ### Back projection and coverage -/

/-- module_pointingmatrix.f90 525-533: the loop over the elements of a sample. -/
def backRow (x : R) : List (Elem R) → List R × List R → Res (List R × List R)
  | [], mw => .ok mw
  | e :: es, (m, w) =>
    if e.index = -1 then .ok (m, w)
    else (addI m e.index (e.value * x)).bind fun m => (addI w e.index e.value).bind fun w => backRow x es (m, w)

/-- module_pointingmatrix.f90 506-536 `backprojection_weight`; `mask` is optional. -/
def backprojection (rows : List (List (Elem R))) (data : List R) (mask : Option (List Bool)) (mw : List R × List R) :
    Res (List R × List R) :=
  (rows.zip data).zipIdx.foldlM (fun mw p =>
    if (mask.bind fun m => m[p.2]?) = some true then .ok mw else backRow p.1.2 p.1.1 mw) mw

/-- The `mask` argument of `get_pTx_pT1` and the attribute `mask` of `x`. -/
structure MaskArgs where
  arg : Option (List Bool)
  attr : Option (List Bool)

/-- operators.py 722-756 `get_pTx_pT1` without output.  `mask or ...` raises for an array that has not exactly one element (an empty array
is false, with a deprecation warning). -/
def PMat.getPTx (P : PMat R) (x : List R) (ma : MaskArgs) : Res (List R × List R) :=
  let zero := List.replicate P.npixels (0 : R)
  if P.size = 0 then .ok (zero, zero)
  else
    let run (mask : Option (List Bool)) : Res (List R × List R) :=
      match mask with
      | none => if x.length ≠ P.rows.length then .error .valueError else backprojection P.rows x none (zero, zero)
      | some _ =>
        -- `x.mask.ravel()`
        match ma.attr with
        | none => .error .attributeError
        | some m =>
          if x.length ≠ P.rows.length ∨ m.length ≠ P.rows.length then .error .valueError
          else backprojection P.rows x (some m) (zero, zero)
    match ma.arg with
    | none => run ma.attr
    | some [b] => if b then run (some [b]) else run ma.attr
    | some [] => run ma.attr
    | some _ => .error .valueError

/-! ### `intersects` -/

/-- `np.cumproduct`. -/
def cumprod : Int → List Nat → List Int
  | _, [] => []
  | a, n :: ns => (a * n) :: cumprod (a * n) ns

/-- operators.py 763-766: the index of the pixel (FITS coordinates: reverse order, from one). -/
def fitsIndex (coords : List Int) (shapeInput : List Nat) : Int :=
  -- (1,) + shape_input[:0:-1]
  let axes := 1 :: (shapeInput.drop 1).reverse
  (List.zipWith (fun c a => (c - 1) * a) coords (cumprod 1 axes)).sum

/-- A pointing matrix with three dimensions (detectors, samples, elements). -/
abbrev Mat3 (R : Type) := List (List (List (Elem R)))

/-- pointingmatrix_old.f90 71-84 `intersects`. -/
def intersectsAll (m : Mat3 R) (pixel : Int) : Bool := m.any fun d => d.any fun s => s.any fun e => e.index = pixel

/-- pointingmatrix_old.f90 110-137 `intersects_axis2`: by detector. -/
def intersectsAxis2 (m : Mat3 R) (pixel : Int) : List Bool := m.map fun d => d.any fun s => s.any fun e => e.index = pixel

/-- pointingmatrix_old.f90 143-169 `intersects_axis3`: by sample. -/
def intersectsAxis3 (m : Mat3 R) (nsamples : Nat) (pixel : Int) : List Bool :=
  (List.range nsamples).map fun i => m.any fun d => (d.getD i []).any fun e => e.index = pixel

/-- The value returned by `intersects`. -/
inductive Answer
  | one (b : Bool)
  | many (l : List Bool)
  deriving DecidableEq, Repr

/-- operators.py 758-791 `intersects`. -/
def intersects (m : Mat3 R) (nsamples : Nat) (shapeInput : List Nat) (coords : List Int) (axis : Option Int) : Res Answer :=
  let pixel := fitsIndex coords shapeInput
  match axis with
  | none => .ok (.one (intersectsAll m pixel))
  | some a =>
    if a = 0 ∨ a = -3 then .ok (.many (intersectsAxis3 m nsamples pixel))
    else if a = 1 ∨ a = -2 then .ok (.many (intersectsAxis2 m pixel))
    else .error .valueError

end

/-! ### The place holder of the on-the-fly projections -/

/-- operators.py 904-908: the dictionary shared by the operators of a group.  `Id` is the type of the identifiers, `None` is not
one of them. -/
structure Holder (Id M : Type) where
  id : Option Id
  matrix : Option M
  deriving DecidableEq, Repr

/-- operators.py 913-920: the property `matrix` of the operator `i`.  `result` is what `func(i)` gives: a matrix or an exception.  Returns the
place holder and the value of the property (`none` is Python's `None`). -/
def request {Id M : Type} [DecidableEq Id] (h : Holder Id M) (i : Id) (result : Res M) : Holder Id M × Res (Option M) :=
  if h.id = some i then (h, .ok h.matrix)
  else
    let h : Holder Id M := { h with matrix := none }
    match result with
    | .error e => (h, .error e)
    | .ok m => (⟨some i, some m⟩, .ok (some m))

/-- A sequence of requests; returns the answers. -/
def requests {Id M : Type} [DecidableEq Id] (h : Holder Id M) : List (Id × Res M) → Holder Id M × List (Res (Option M))
  | [] => (h, [])
  | (i, r) :: l =>
    let (h', a) := request h i r
    let (h'', as) := requests h' l
    (h'', a :: as)

end Verif.Pointing
