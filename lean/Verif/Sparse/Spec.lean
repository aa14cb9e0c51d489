import Verif.Sparse.Model
import Mathlib.Algebra.BigOperators.Ring.Finset

/-! Specification of the fixed-sparse matrices: the dense matrices that they denote. -/
namespace Verif.Sparse
open Finset

variable {R : Type} [CommRing R]

/-- The matrix entry of a number used as a block of one row and one column. -/
def scalarEntry (x : R) (_ _ : Nat) : R := x

/-- The block `[[r11, -r21], [r21, r11]]`. -/
def rot2dEntry (x : Rot2d R) : Nat → Nat → R
  | 0, 0 => x.r11
  | 0, 1 => -x.r21
  | 1, 0 => x.r21
  | 1, 1 => x.r11
  | _, _ => 0

/-- The block `[[r11, 0, 0], [0, r22, -r32], [0, r32, r22]]`. -/
def rot3dEntry (x : Rot3d R) : Nat → Nat → R
  | 0, 0 => x.r11
  | 1, 1 => x.r22
  | 1, 2 => -x.r32
  | 2, 1 => x.r32
  | 2, 2 => x.r22
  | _, _ => 0

/-- The block stored by rows (`ncol` columns). -/
def blockEntry (ncol : Nat) (x : List R) (r c : Nat) : R := x.getD (r * ncol + c) 0

/-- The sum, over the elements of the line `i` whose index is `k`, of their entries `(r, c)`. -/
def lineEntry {β} (entry : β → Nat → Nat → R) (M : Mat β) (i k r c : Nat) : R :=
  ∑ j ∈ range M.nmax, match M.flat[i * M.nmax + j]? with
    | some e => if e.index = (k : Int) then entry e.value r c else 0
    | none => 0

/-- A row storage with `m` lines (one per block row) and `n` blocks per row, whose indices are in the matrix (or negative). -/
structure RowWf {β} (M : Mat β) (m n : Nat) : Prop where
  pos : 0 < M.bs0 ∧ 0 < M.bs1
  nrow : M.nrow = m * M.bs0
  ncol : M.ncol = n * M.bs1
  nlines : M.nlines = m
  flat : M.flat.length = m * M.nmax
  index : ∀ e ∈ M.flat, e.index < n

/-- A column storage with `m` lines (one per block column) and `n` blocks per column, whose indices are in the matrix (or
negative). -/
structure ColWf {β} (M : Mat β) (m n : Nat) : Prop where
  pos : 0 < M.bs0 ∧ 0 < M.bs1
  nrow : M.nrow = n * M.bs0
  ncol : M.ncol = m * M.bs1
  nlines : M.nlines = m
  flat : M.flat.length = m * M.nmax
  index : ∀ e ∈ M.flat, e.index < n

/-- `out'` is `out` to which a product has been added: the component `r` of the block `i` of the product is `g i r`
(`m` blocks of `p` components). -/
def AddsProduct (m p : Nat) (g : Nat → Nat → R) (out out' : List R) : Prop :=
  out'.length = m * p ∧ ∀ i, i < m → ∀ r, r < p → out'[i * p + r]? = (out[i * p + r]?).map (· + g i r)

/-- The initial content of the output: the array that is given, or zeros. -/
def initial (size : Nat) : Option (List R) → List R
  | none => List.replicate size 0
  | some o => o

end Verif.Sparse
