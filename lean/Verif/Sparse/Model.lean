import Verif.Py.Basic
import Mathlib.Algebra.Ring.Defs
import Mathlib.Algebra.BigOperators.Group.List.Basic

/-!
Model of the fixed-sparse matrices: src/pysimulators/sparse.py and the Fortran kernels of
src/flib/sparse.f90.j2 and src/flib/module_operators.f90.j2.

Simplifications: floating point numbers are elements of a commutative ring (no rounding, the conversions between
real kinds are the identity); machine integers are unbounded; a multi-dimensional structured array is its
flat content (C order).  An access out of the bounds of a Fortran array, undefined behaviour in the code, is the error
`outOfBounds`.
-/
namespace Verif.Sparse
open Verif.Py

/-- One element of the structured array: sparse.py 239-240 (index, value), 486-487 (index, block),
551-552 (index, r11, r21), 690-691 (index, r11, r22, r32). -/
structure Elem (β : Type) where
  index : Int
  value : β
  deriving DecidableEq, Repr

/-- The two values of an element of a 2d rotation, sparse.py 552. -/
structure Rot2d (R : Type) where
  r11 : R
  r21 : R
  deriving DecidableEq, Repr

/-- The three values of an element of a 3d rotation, sparse.py 691. -/
structure Rot3d (R : Type) where
  r11 : R
  r22 : R
  r32 : R
  deriving DecidableEq, Repr

/-- Matrix: shape, shape of the blocks, shape `(nlines, nmax)` and flat content of the structured array (sparse.py
104-110).  The leading dimensions of the structured array are replaced by their product `nlines`: the code only uses that
product and the last dimension. -/
structure Mat (β : Type) where
  nrow : Nat
  ncol : Nat
  bs0 : Nat
  bs1 : Nat
  nlines : Nat
  nmax : Nat
  flat : List (Elem β)
  deriving DecidableEq, Repr

/-! ### Memory -/

/-- Read in a Fortran array. -/
def readAt {R} (v : List R) (p : Nat) : Res R :=
  match v[p]? with
  | some a => .ok a
  | none => .error .outOfBounds

/-- `out(p) = out(p) + x`. -/
def addAt {R} [Add R] (out : List R) (p : Nat) (x : R) : Res (List R) :=
  match out[p]? with
  | some a => .ok (out.set p (a + x))
  | none => .error .outOfBounds

/-- The updates `output(p) = output(p) + x` of a piece of code, in order. -/
def applyAll {R} [Add R] : List (Nat × R) → List R → Res (List R)
  | [], out => .ok out
  | (p, x) :: us, out => (addAt out p x).bind (applyAll us)

/-- The element `matrix(j,i)` (both counted from zero here) of the Fortran array `matrix(nmax, nlines)`. -/
def elemAt {β} (flat : List (Elem β)) (nmax i j : Nat) : Res (Elem β) :=
  match flat[i * nmax + j]? with
  | some e => .ok e
  | none => .error .outOfBounds

/-- `if (col < 0) cycle`. -/
def cycleNeg {β R} (e : Elem β) (f : Nat → Res (List (Nat × R))) : Res (List (Nat × R)) :=
  if e.index < 0 then .ok [] else f e.index.toNat

/-- `do i = 1, nlines; do j = 1, nmax`: the updates of each (i, j) are applied in order. -/
def loops {R} [Add R] (nlines nmax : Nat) (body : Nat → Nat → Res (List (Nat × R))) (out : List R) : Res (List R) :=
  (List.range nlines).foldlM (fun out i =>
    (List.range nmax).foldlM (fun out j => (body i j).bind fun us => applyAll us out) out) out

/-- The single loop of the `nmax == 1` special case. -/
def loop1 {R} [Add R] (nlines : Nat) (body : Nat → Res (List (Nat × R))) (out : List R) : Res (List R) :=
  (List.range nlines).foldlM (fun out i => (body i).bind fun us => applyAll us out) out

/-! ### Fortran kernels: bodies of the loops -/

section
variable {R : Type} [CommRing R]

/-- sparse.f90.j2 49-51 (and 37-40). -/
def fscBody (flat : List (Elem R)) (nmax : Nat) (input : List R) (i j : Nat) : Res (List (Nat × R)) := do
  let e ← elemAt flat nmax i j
  cycleNeg e fun col => do
    let x ← readAt input i
    return [(col, e.value * x)]

/-- sparse.f90.j2 92-95 (and 80-84). -/
def fscHomothetyBody (flat : List (Elem R)) (nmax : Nat) (input : List R) (ext i j : Nat) : Res (List (Nat × R)) := do
  let e ← elemAt flat nmax i j
  cycleNeg e fun col =>
    (List.range ext).mapM fun k => do
      let x ← readAt input (i * ext + k)
      return (col * ext + k, e.value * x)

/-- sparse.f90.j2 127-133. -/
def fscRot2dBody (flat : List (Elem (Rot2d R))) (nmax : Nat) (input : List R) (i j : Nat) :
    Res (List (Nat × R)) := do
  let e ← elemAt flat nmax i j
  cycleNeg e fun col => do
    let x1 ← readAt input (i * 2)
    let x2 ← readAt input (i * 2 + 1)
    return [(col * 2, e.value.r11 * x1 + e.value.r21 * x2),
            (col * 2 + 1, -e.value.r21 * x1 + e.value.r11 * x2)]

/-- sparse.f90.j2 164-172. -/
def fscRot3dBody (flat : List (Elem (Rot3d R))) (nmax : Nat) (input : List R) (i j : Nat) :
    Res (List (Nat × R)) := do
  let e ← elemAt flat nmax i j
  cycleNeg e fun col => do
    let x1 ← readAt input (i * 3)
    let x2 ← readAt input (i * 3 + 1)
    let x3 ← readAt input (i * 3 + 2)
    return [(col * 3, e.value.r11 * x1),
            (col * 3 + 1, e.value.r22 * x2 + e.value.r32 * x3),
            (col * 3 + 2, -e.value.r32 * x2 + e.value.r22 * x3)]

/-- sparse.f90.j2 211-213 (and 203-206). -/
def fsrBody (flat : List (Elem R)) (nmax : Nat) (input : List R) (i j : Nat) : Res (List (Nat × R)) := do
  let e ← elemAt flat nmax i j
  cycleNeg e fun col => do
    let x ← readAt input col
    return [(i, e.value * x)]

/-- sparse.f90.j2 257-259 (and 246-249). -/
def fsrHomothetyBody (flat : List (Elem R)) (nmax : Nat) (input : List R) (ext i j : Nat) : Res (List (Nat × R)) := do
  let e ← elemAt flat nmax i j
  cycleNeg e fun col =>
    (List.range ext).mapM fun k => do
      let x ← readAt input (col * ext + k)
      return (i * ext + k, e.value * x)

/-- sparse.f90.j2 373-379. -/
def fsrRot2dBody (flat : List (Elem (Rot2d R))) (nmax : Nat) (input : List R) (i j : Nat) :
    Res (List (Nat × R)) := do
  let e ← elemAt flat nmax i j
  cycleNeg e fun col => do
    let x1 ← readAt input (col * 2)
    let x2 ← readAt input (col * 2 + 1)
    return [(i * 2, e.value.r11 * x1 - e.value.r21 * x2),
            (i * 2 + 1, e.value.r21 * x1 + e.value.r11 * x2)]

/-- sparse.f90.j2 408-415. -/
def fsrRot3dBody (flat : List (Elem (Rot3d R))) (nmax : Nat) (input : List R) (i j : Nat) :
    Res (List (Nat × R)) := do
  let e ← elemAt flat nmax i j
  cycleNeg e fun col => do
    let x1 ← readAt input (col * 3)
    let x2 ← readAt input (col * 3 + 1)
    let x3 ← readAt input (col * 3 + 2)
    return [(i * 3, e.value.r11 * x1),
            (i * 3 + 1, e.value.r22 * x2 - e.value.r32 * x3),
            (i * 3 + 2, e.value.r32 * x2 + e.value.r22 * x3)]

/-- Fortran element `value(a,b)` (from one) of an array `value(d,:)`: column major. -/
def fval (value : List R) (d a b : Nat) : R := value.getD ((a - 1) + (b - 1) * d) 0

/-- The kernels `fsc_block_m_n_matvec`, module_operators.f90.j2 13-220, by block size (`m` input and `n`
output components, as in the dispatch sparse.f90.j2 283-305).  The dispatch does nothing for other sizes. -/
def fscBlockBody (m n : Nat) (flat : List (Elem (List R))) (nmax : Nat) (input : List R) (i j : Nat) :
    Res (List (Nat × R)) :=
  let go (f : (Nat → Nat → R) → Nat → Res (List (Nat × R))) : Res (List (Nat × R)) := do
    let e ← elemAt flat nmax i j
    cycleNeg e (f (fval e.value n))
  match m, n with
  | 1, 2 => go fun v k => do
      let x1 ← readAt input i
      return [(k * 2, v 1 1 * x1), (k * 2 + 1, v 2 1 * x1)]
  | 1, 3 => go fun v k => do
      let x1 ← readAt input i
      return [(k * 3, v 1 1 * x1), (k * 3 + 1, v 2 1 * x1), (k * 3 + 2, v 3 1 * x1)]
  | 2, 1 => go fun v k => do
      let x1 ← readAt input (i * 2)
      let x2 ← readAt input (i * 2 + 1)
      return [(k, v 1 1 * x1 + v 1 2 * x2)]
  | 2, 2 => go fun v k => do
      let x1 ← readAt input (i * 2)
      let x2 ← readAt input (i * 2 + 1)
      return [(k * 2, v 1 1 * x1 + v 1 2 * x2), (k * 2 + 1, v 2 1 * x1 + v 2 2 * x2)]
  | 2, 3 => go fun v k => do
      let x1 ← readAt input (i * 2)
      let x2 ← readAt input (i * 2 + 1)
      return [(k * 3, v 1 1 * x1 + v 1 2 * x2), (k * 3 + 1, v 2 1 * x1 + v 2 2 * x2),
              (k * 3 + 2, v 3 1 * x1 + v 3 2 * x2)]
  | 3, 1 => go fun v k => do
      let x1 ← readAt input (i * 3)
      let x2 ← readAt input (i * 3 + 1)
      let x3 ← readAt input (i * 3 + 2)
      return [(k, v 1 1 * x1 + v 1 2 * x2 + v 1 3 * x3)]
  | 3, 2 => go fun v k => do
      let x1 ← readAt input (i * 3)
      let x2 ← readAt input (i * 3 + 1)
      let x3 ← readAt input (i * 3 + 2)
      return [(k * 2, v 1 1 * x1 + v 1 2 * x2 + v 1 3 * x3),
              (k * 2 + 1, v 2 1 * x1 + v 2 2 * x2 + v 2 3 * x3)]
  | 3, 3 => go fun v k => do
      let x1 ← readAt input (i * 3)
      let x2 ← readAt input (i * 3 + 1)
      let x3 ← readAt input (i * 3 + 2)
      return [(k * 3, v 1 1 * x1 + v 1 2 * x2 + v 1 3 * x3),
              (k * 3 + 1, v 2 1 * x1 + v 2 2 * x2 + v 2 3 * x3),
              (k * 3 + 2, v 3 1 * x1 + v 3 2 * x2 + v 3 3 * x3)]
  | _, _ => .ok []

/-- The kernels `fsr_block_m_n_matvec`, module_operators.f90.j2 222-432, by block size (`m` output and `n`
input components, as in the dispatch sparse.f90.j2 326-348).  The dispatch does nothing for other sizes. -/
def fsrBlockBody (m n : Nat) (flat : List (Elem (List R))) (nmax : Nat) (input : List R) (i j : Nat) :
    Res (List (Nat × R)) :=
  let go (f : (Nat → Nat → R) → Nat → Res (List (Nat × R))) : Res (List (Nat × R)) := do
    let e ← elemAt flat nmax i j
    cycleNeg e (f (fval e.value n))
  match m, n with
  | 1, 2 => go fun v col => do
      let x1 ← readAt input (col * 2)
      let x2 ← readAt input (col * 2 + 1)
      return [(i, v 1 1 * x1 + v 2 1 * x2)]
  | 1, 3 => go fun v col => do
      let x1 ← readAt input (col * 3)
      let x2 ← readAt input (col * 3 + 1)
      let x3 ← readAt input (col * 3 + 2)
      return [(i, v 1 1 * x1 + v 2 1 * x2 + v 3 1 * x3)]
  | 2, 1 => go fun v col => do
      let x1 ← readAt input col
      return [(i * 2, v 1 1 * x1), (i * 2 + 1, v 1 2 * x1)]
  | 2, 2 => go fun v col => do
      let x1 ← readAt input (col * 2)
      let x2 ← readAt input (col * 2 + 1)
      return [(i * 2, v 1 1 * x1 + v 2 1 * x2), (i * 2 + 1, v 1 2 * x1 + v 2 2 * x2)]
  | 2, 3 => go fun v col => do
      let x1 ← readAt input (col * 3)
      let x2 ← readAt input (col * 3 + 1)
      let x3 ← readAt input (col * 3 + 2)
      return [(i * 2, v 1 1 * x1 + v 2 1 * x2 + v 3 1 * x3),
              (i * 2 + 1, v 1 2 * x1 + v 2 2 * x2 + v 3 2 * x3)]
  | 3, 1 => go fun v col => do
      let x1 ← readAt input col
      return [(i * 3, v 1 1 * x1), (i * 3 + 1, v 1 2 * x1), (i * 3 + 2, v 1 3 * x1)]
  | 3, 2 => go fun v col => do
      let x1 ← readAt input (col * 2)
      let x2 ← readAt input (col * 2 + 1)
      return [(i * 3, v 1 1 * x1 + v 2 1 * x2), (i * 3 + 1, v 1 2 * x1 + v 2 2 * x2),
              (i * 3 + 2, v 1 3 * x1 + v 2 3 * x2)]
  | 3, 3 => go fun v col => do
      let x1 ← readAt input (col * 3)
      let x2 ← readAt input (col * 3 + 1)
      let x3 ← readAt input (col * 3 + 2)
      return [(i * 3, v 1 1 * x1 + v 2 1 * x2 + v 3 1 * x3),
              (i * 3 + 1, v 1 2 * x1 + v 2 2 * x2 + v 3 2 * x3),
              (i * 3 + 2, v 1 3 * x1 + v 2 3 * x2 + v 3 3 * x3)]
  | _, _ => .ok []

/-! ### Pure Python products -/

/-- numpy `a[k]` for a non-negative `k`. -/
def npRead (v : List R) (p : Nat) : Res R :=
  match v[p]? with
  | some a => .ok a
  | none => .error .indexError

/-- numpy in-place addition `out[p] += x`. -/
def npAdd (out : List R) (p : Nat) (x : R) : Res (List R) :=
  match out[p]? with
  | some a => .ok (out.set p (a + x))
  | none => .error .indexError

/-- The in-place additions of a numpy statement. -/
def npAddAll : List (Nat × R) → List R → Res (List R)
  | [], out => .ok out
  | (p, x) :: us, out => (npAdd out p x).bind (npAddAll us)

/-- `data.reshape((-1, nmax))[i]`. -/
def line {β} (flat : List (Elem β)) (nmax i : Nat) : Res (List (Elem β)) :=
  if (i + 1) * nmax ≤ flat.length then .ok ((flat.drop (i * nmax)).take nmax) else .error .indexError

/-- Python loop of a column storage: sparse.py 269-290, 422-437, 582-594, 720-733.  `upd i e idx` are the
in-place additions made for the element `e` of the i-th line. -/
def fscPython {β} (flat : List (Elem β)) (nmax nlines : Nat) (upd : Nat → Elem β → Nat → Res (List (Nat × R)))
    (out : List R) : Res (List R) :=
  (List.range nlines).foldlM (fun out i => (line flat nmax i).bind fun b =>
    b.foldlM (fun out e =>
      if 0 ≤ e.index then (upd i e e.index.toNat).bind fun us => npAddAll us out else .ok out) out) out

/-- Python loop of a row storage: sparse.py 328-345, 479-490, 615-628, 754-767.  `val e idx` are
the components of the contribution of the element `e`; they are summed and added to the components of the i-th
line. -/
def fsrPython {β} (flat : List (Elem β)) (nmax nlines ncomp : Nat) (val : Elem β → Nat → Res (List R))
    (out : List R) : Res (List R) :=
  (List.range nlines).foldlM (fun out i => (line flat nmax i).bind fun b =>
    ((b.filter (fun e => decide (0 ≤ e.index))).mapM fun e => val e e.index.toNat).bind fun vals =>
      npAddAll ((List.range ncomp).map fun r => (i * ncomp + r, (vals.map (fun x => x.getD r 0)).sum)) out) out

/-! ### `_FSMatrix._matvec` -/

/-- sparse.py 216-238 `_validatein` and `_validateout` for the scalar storages: `size % n`. -/
def validScalar (size n : Nat) : Res Unit :=
  if n = 0 then .error .zeroDivisionError else if size % n ≠ 0 then .error .valueError else .ok ()

/-- sparse.py 218-220: the same for block and rotation storages. -/
def validBlock (size n : Nat) : Res Unit := if size = n then .ok () else .error .valueError

/-- sparse.py 113-131: validation of the input and of the optional output. -/
def prepare {β} (valid : Nat → Nat → Res Unit) (M : Mat β) (v : List R) (out : Option (List R)) : Res (List R) :=
  (valid v.length M.ncol).bind fun _ =>
    if M.ncol = 0 then .error .zeroDivisionError
    else
      match out with
      | none => .ok (List.replicate (v.length * M.nrow / M.ncol) 0)
      | some o =>
        if o.length ≠ v.length * M.nrow / M.ncol then .error .valueError
        else (valid o.length M.nrow).map fun _ => o

/-- f2py verifies the size of the structured array `matrix(nmax*s*nlines)`. -/
def f2pyCheck {β} (M : Mat β) (nlines : Nat) (k : Res (List R)) : Res (List R) :=
  if M.flat.length = M.nmax * nlines then k else .error .valueError

/-- sparse.py 268-293 `FSCMatrix._matvec` with sparse.py 112-181; `fast` tells whether the data types have a Fortran
kernel (sparse.py 136). -/
def fscMatvec (fast : Bool) (M : Mat R) (v : List R) (out : Option (List R)) : Res (List R) :=
  (prepare validScalar M v out).bind fun o =>
    let ext := v.length / M.ncol
    if fast then
      if 1 < ext then
        f2pyCheck M M.ncol
          (if M.nmax = 1 then loop1 M.ncol (fun i => fscHomothetyBody M.flat M.nmax v ext i 0) o
           else loops M.ncol M.nmax (fscHomothetyBody M.flat M.nmax v ext) o)
      else
        f2pyCheck M v.length
          (if M.nmax = 1 then loop1 v.length (fun i => fscBody M.flat M.nmax v i 0) o
           else loops v.length M.nmax (fscBody M.flat M.nmax v) o)
    else
      fscPython M.flat M.nmax M.ncol (fun i e idx =>
        (List.range ext).mapM fun k => (npRead v (i * ext + k)).map fun x => (idx * ext + k, e.value * x)) o

/-- sparse.py 327-346 `FSRMatrix._matvec` with sparse.py 112-181. -/
def fsrMatvec (fast : Bool) (M : Mat R) (v : List R) (out : Option (List R)) : Res (List R) :=
  (prepare validScalar M v out).bind fun o =>
    let ext := v.length / M.ncol
    if fast then
      if 1 < ext then
        f2pyCheck M M.nrow
          (if M.nmax = 1 then loop1 M.nrow (fun i => fsrHomothetyBody M.flat M.nmax v ext i 0) o
           else loops M.nrow M.nmax (fsrHomothetyBody M.flat M.nmax v ext) o)
      else
        f2pyCheck M o.length
          (if M.nmax = 1 then loop1 o.length (fun i => fsrBody M.flat M.nmax v i 0) o
           else loops o.length M.nmax (fsrBody M.flat M.nmax v) o)
    else
      fsrPython M.flat M.nmax M.nrow ext (fun e idx =>
        (List.range ext).mapM fun k => (npRead v (idx * ext + k)).map fun x => e.value * x) o

/-- sparse.py 421-438 `FSCBlockMatrix._matvec`: dispatch 158-168 with `bs0` output and `bs1` input
components; pure Python product with the transposed block. -/
def fscBlockMatvec (fast : Bool) (M : Mat (List R)) (v : List R) (out : Option (List R)) : Res (List R) :=
  (prepare validBlock M v out).bind fun o =>
    if fast then
      f2pyCheck M (M.ncol / M.bs1) (loops (M.ncol / M.bs1) M.nmax (fscBlockBody M.bs1 M.bs0 M.flat M.nmax v) o)
    else
      fscPython M.flat M.nmax (M.ncol / M.bs1) (fun i e idx =>
        (List.range M.bs0).mapM fun r =>
          ((List.range M.bs1).mapM fun c => (npRead v (i * M.bs1 + c)).map fun x => e.value.getD (c * M.bs0 + r) 0 * x).map
            fun l => (idx * M.bs0 + r, l.sum)) o

/-- sparse.py 475-490 `FSRBlockMatrix._matvec`. -/
def fsrBlockMatvec (fast : Bool) (M : Mat (List R)) (v : List R) (out : Option (List R)) : Res (List R) :=
  (prepare validBlock M v out).bind fun o =>
    if fast then
      f2pyCheck M (M.nrow / M.bs0) (loops (M.nrow / M.bs0) M.nmax (fsrBlockBody M.bs0 M.bs1 M.flat M.nmax v) o)
    else
      fsrPython M.flat M.nmax (M.nrow / M.bs0) M.bs0 (fun e idx =>
        (List.range M.bs0).mapM fun r =>
          ((List.range M.bs1).mapM fun c => (npRead v (idx * M.bs1 + c)).map fun x => e.value.getD (r * M.bs1 + c) 0 * x).map
            fun l => l.sum) o

/-- sparse.py 577-594 `FSCRotation2dMatrix._matvec`. -/
def fscRot2dMatvec (fast : Bool) (M : Mat (Rot2d R)) (v : List R) (out : Option (List R)) : Res (List R) :=
  (prepare validBlock M v out).bind fun o =>
    if fast then
      f2pyCheck M (v.length / 2) (loops (v.length / 2) M.nmax (fscRot2dBody M.flat M.nmax v) o)
    else
      fscPython M.flat M.nmax (M.ncol / 2) (fun i e idx => do
        let x0 ← npRead v (i * 2)
        let x1 ← npRead v (i * 2 + 1)
        return [(idx * 2, e.value.r11 * x0 + e.value.r21 * x1), (idx * 2 + 1, -e.value.r21 * x0 + e.value.r11 * x1)]) o

/-- sparse.py 611-628 `FSRRotation2dMatrix._matvec`. -/
def fsrRot2dMatvec (fast : Bool) (M : Mat (Rot2d R)) (v : List R) (out : Option (List R)) : Res (List R) :=
  (prepare validBlock M v out).bind fun o =>
    if fast then
      f2pyCheck M (o.length / 2) (loops (o.length / 2) M.nmax (fsrRot2dBody M.flat M.nmax v) o)
    else
      fsrPython M.flat M.nmax (M.nrow / 2) 2 (fun e idx => do
        let x0 ← npRead v (idx * 2)
        let x1 ← npRead v (idx * 2 + 1)
        return [e.value.r11 * x0 - e.value.r21 * x1, e.value.r21 * x0 + e.value.r11 * x1]) o

/-- sparse.py 715-733 `FSCRotation3dMatrix._matvec`. -/
def fscRot3dMatvec (fast : Bool) (M : Mat (Rot3d R)) (v : List R) (out : Option (List R)) : Res (List R) :=
  (prepare validBlock M v out).bind fun o =>
    if fast then
      f2pyCheck M (v.length / 3) (loops (v.length / 3) M.nmax (fscRot3dBody M.flat M.nmax v) o)
    else
      fscPython M.flat M.nmax (M.ncol / 3) (fun i e idx => do
        let x0 ← npRead v (i * 3)
        let x1 ← npRead v (i * 3 + 1)
        let x2 ← npRead v (i * 3 + 2)
        return [(idx * 3, e.value.r11 * x0), (idx * 3 + 1, e.value.r22 * x1 + e.value.r32 * x2),
                (idx * 3 + 2, -e.value.r32 * x1 + e.value.r22 * x2)]) o

/-- sparse.py 750-768 `FSRRotation3dMatrix._matvec` (the pure Python path returns the 2-dimensional view of
the output: same content). -/
def fsrRot3dMatvec (fast : Bool) (M : Mat (Rot3d R)) (v : List R) (out : Option (List R)) : Res (List R) :=
  (prepare validBlock M v out).bind fun o =>
    if fast then
      f2pyCheck M (o.length / 3) (loops (o.length / 3) M.nmax (fsrRot3dBody M.flat M.nmax v) o)
    else
      fsrPython M.flat M.nmax (M.nrow / 3) 3 (fun e idx => do
        let x0 ← npRead v (idx * 3)
        let x1 ← npRead v (idx * 3 + 1)
        let x2 ← npRead v (idx * 3 + 2)
        return [e.value.r11 * x0, e.value.r22 * x1 - e.value.r32 * x2, e.value.r32 * x1 + e.value.r22 * x2]) o

end
end Verif.Sparse
