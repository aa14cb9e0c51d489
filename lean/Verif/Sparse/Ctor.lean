import Verif.Sparse.Model

/-!
Constructors and transposes of the fixed-sparse matrices: src/pysimulators/sparse.py.

Simplifications: the type of the elements (`dtype` checks, sparse.py 70-74 and 91-101) is in the Lean type; the shape
has two dimensions and the block shape too (checks 41-45).
-/
namespace Verif.Sparse
open Verif.Py

/-- `shape[axis]`. -/
def axisOf (s : Nat × Nat) : Nat → Nat
  | 0 => s.1
  | _ => s.2

/-- The structured array given to a constructor: number of lines (product of the leading dimensions), last
dimension, content. -/
structure Data (β : Type) where
  nlines : Nat
  nmax : Nat
  flat : List (Elem β)
  deriving DecidableEq, Repr

/-- The structured array of a matrix. -/
def Mat.data {β} (M : Mat β) : Data β := ⟨M.nlines, M.nmax, M.flat⟩

/-- sparse.py 28-110 `_FSMatrix.__init__`.  `garbage` is the uninitialised content of the array allocated at line
66. -/
def fsInit {β} (garbage : Nat → Elem β) (shape bs : Nat × Nat) (nmax : Option Nat) (sparseAxis : Nat)
    (data : Option (Data β)) : Res (Mat β) :=
  if bs.1 = 0 ∨ bs.2 = 0 then .error .zeroDivisionError                    -- `s % b`
  else if shape.1 % bs.1 ≠ 0 ∨ shape.2 % bs.2 ≠ 0 then .error .valueError
  else
    match data with
    | none =>
      match nmax with
      | none => .error .valueError
      | some k =>
        let nlines := axisOf shape (1 - sparseAxis) / bs.1
        .ok { nrow := shape.1, ncol := shape.2, bs0 := bs.1, bs1 := bs.2, nlines := nlines, nmax := k,
              flat := (List.range (nlines * k)).map garbage }
    | some d =>
      if d.nlines * axisOf bs (1 - sparseAxis) ≠ axisOf shape (1 - sparseAxis) then .error .valueError
      else if nmax ≠ none ∧ nmax ≠ some d.nmax then .error .valueError
      else .ok { nrow := shape.1, ncol := shape.2, bs0 := bs.1, bs1 := bs.2, nlines := d.nlines, nmax := d.nmax,
                 flat := d.flat }

/-- sparse.py 366-377 `_FSBlockMatrix.__init__`: the sizes of blocks that are implemented. -/
def checkBlock (bs : Nat × Nat) : Res Unit :=
  if bs = (1, 1) then .error .valueError
  else if (bs.1 = 1 ∨ bs.1 = 2 ∨ bs.1 = 3) ∧ (bs.2 = 1 ∨ bs.2 = 2 ∨ bs.2 = 3) then .ok ()
  else .error .notImplementedError

/-- The storages. -/
inductive Storage | fsc | fsr | fscBlock | fsrBlock | fscRot2d | fsrRot2d | fscRot3d | fsrRot3d
  deriving DecidableEq, Repr

/-- The `sparse_axis` argument: sparse.py 258-269, 311-322, 412-423, 466-477, 565-574, 600-609, 702-711, 737-746. -/
def Storage.axis : Storage → Nat
  | .fsc | .fscBlock | .fscRot2d | .fscRot3d => 0
  | .fsr | .fsrBlock | .fsrRot2d | .fsrRot3d => 1

/-- The constructors of the eight classes.  `bs` is the `block_shape` keyword of the block matrices or, if there are data,
the shape of the field `value` (reversed for the column storage, sparse.py 411); it is fixed for the other classes.
`FSRBlockMatrix.__init__` (466) calls `_FSMatrix.__init__` and not `_FSBlockMatrix.__init__`. -/
def construct {β} (garbage : Nat → Elem β) (st : Storage) (shape bs : Nat × Nat) (nmax : Option Nat)
    (data : Option (Data β)) : Res (Mat β) :=
  match st with
  | .fsc | .fsr => fsInit garbage shape (1, 1) nmax st.axis data
  | .fscBlock => (checkBlock bs).bind fun _ => fsInit garbage shape bs nmax st.axis data
  | .fsrBlock => fsInit garbage shape bs nmax st.axis data
  | .fscRot2d | .fsrRot2d => fsInit garbage shape (2, 2) nmax st.axis data
  | .fscRot3d | .fsrRot3d => fsInit garbage shape (3, 3) nmax st.axis data

/-- The class of the transpose: sparse.py 295-296, 348-349, 440-441, 493-494, 596-597, 631-632, 735-736, 770-771. -/
def Storage.transpose : Storage → Storage
  | .fsc => .fsr | .fsr => .fsc
  | .fscBlock => .fsrBlock | .fsrBlock => .fscBlock
  | .fscRot2d => .fsrRot2d | .fsrRot2d => .fscRot2d
  | .fscRot3d => .fsrRot3d | .fsrRot3d => .fscRot3d

/-- `_transpose`: `Class(self.shape[::-1], data=self.data)`. -/
def transpose {β} (garbage : Nat → Elem β) (st : Storage) (M : Mat β) : Res (Mat β) :=
  construct garbage st.transpose (M.ncol, M.nrow) (M.bs1, M.bs0) none (some M.data)

/-- sparse.py 201-202 `copy`. -/
def copyMat {β} (garbage : Nat → Elem β) (st : Storage) (M : Mat β) : Res (Mat β) :=
  construct garbage st (M.nrow, M.ncol) (M.bs0, M.bs1) none (some M.data)

/-- sparse.py 183-187, 525-530 and 663-669 `__mul__` by a scalar: `scale` multiplies the fields of one element. -/
def scalarMul {β} (garbage : Nat → Elem β) (st : Storage) (scale : β → β) (M : Mat β) : Res (Mat β) :=
  construct garbage st (M.nrow, M.ncol) (M.bs0, M.bs1) none
    (some { M.data with flat := M.flat.map fun e => { e with value := scale e.value } })

end Verif.Sparse
