import Verif.Sparse.Ctor

/-!
Model of the methods of `SparseOperator` (src/pysimulators/sparse.py 892-1028) and `ProjectionOperator`
(src/pysimulators/operators.py 923-1196).

Simplifications: arrays are their flat content; the structured array of the matrix has two dimensions.
-/
namespace Verif.Sparse
open Verif.Py

/-- Product of the dimensions. -/
def prodShape (s : List Nat) : Nat := s.foldl (· * ·) 1

/-! ### The rule for `P.T * P` -/

section
variable {R : Type} [CommRing R]

/-- `do i = 1, noutput` over the elements of a matrix that has one element per row. -/
def diagLoop {β} (flat : List (Elem β)) (upd : β → Nat → List (Nat × R)) (data : List R) : Res (List R) :=
  loop1 flat.length (fun i => (elemAt flat 1 i 0).bind fun e => cycleNeg e fun col => .ok (upd e.value col)) data

/-- sparse.f90.j2 428-452 `fsc_fsr_ncolmax1`. -/
def fscFsrNcolmax1 (flat : List (Elem R)) (data : List R) : Res (List R) :=
  diagLoop flat (fun x col => [(col, x ^ 2)]) data

/-- sparse.f90.j2 455-480 `fsc_fsr_rot2d_ncolmax1`. -/
def fscFsrRot2dNcolmax1 (flat : List (Elem (Rot2d R))) (data : List R) : Res (List R) :=
  diagLoop flat (fun x col => [(col * 2, x.r11 ^ 2 + x.r21 ^ 2), (col * 2 + 1, x.r11 ^ 2 + x.r21 ^ 2)]) data

/-- sparse.f90.j2 483-512 `fsc_fsr_rot3d_ncolmax1`. -/
def fscFsrRot3dNcolmax1 (flat : List (Elem (Rot3d R))) (data : List R) : Res (List R) :=
  diagLoop flat (fun x col => [(col * 3, x.r11 ^ 2), (col * 3 + 1, x.r22 ^ 2 + x.r32 ^ 2), (col * 3 + 2, x.r22 ^ 2 + x.r32 ^ 2)])
    data

/-- sparse.py 1000-1028 `_rule_pTp`: `none` if the rule does not apply, otherwise the diagonal.  `types` tells whether the
data types have a kernel. -/
def rulePTp {β} (kernel : List (Elem β) → List R → Res (List R)) (types : Bool) (M : Mat β) (shapein : Option (List Nat)) :
    Option (Res (List R)) :=
  if M.nmax ≠ 1 then none
  else
    match shapein with
    | none => none
    | some s => if types then some (kernel M.flat (List.replicate (prodShape s) 0)) else none

/-- `DiagonalOperator(d)` (pyoperators). -/
def diagonal (d x : List R) : List R := List.zipWith (· * ·) d x

end

/-! ### Restriction and corestriction -/

/-- sparse.f90.j2 557-565: the first loop of `fsr_restrict`: the new indices, and the number of elements that are kept. -/
def newIndices (mask : List Bool) : List Int × Nat :=
  mask.foldl (fun (idx, ncol) b => if b then (idx ++ [(ncol : Int)], ncol + 1) else (idx ++ [-1], ncol)) ([], 0)

/-- sparse.f90.j2 567-577: the renumbering of one element. -/
def renumber {β} (idx : List Int) (e : Elem β) : Res (Elem β) :=
  if e.index < 0 then .ok e
  else match idx[e.index.toNat]? with
    | some k => .ok { e with index := k }
    | none => .error .outOfBounds

/-- sparse.py 971-973: the same in Python: `new_index[index]`, in which negative indices count from the end, and then
`index[undef] = -1`. -/
def renumberPython {β} (idx : List Int) (e : Elem β) : Res (Elem β) :=
  let pos := if e.index < 0 then e.index + idx.length else e.index
  if pos < 0 then .error .indexError
  else match idx[pos.toNat]? with
    | some k => .ok { e with index := if e.index < 0 then -1 else k }
    | none => .error .indexError

/-- sparse.py 923-986 `restrict`.  `nblocks` is the product of the expected shape of the mask.  `fast` tells whether the type of the
indices is int8, int16, int32 or int64; if not, only signed indices (such as `np.longlong`) and one-dimensional masks
are modelled. -/
def restrict {β} (fast : Bool) (M : Mat β) (nblocks : Nat) (mask : List Bool) : Res (Mat β) :=
  if mask.length ≠ nblocks then .error .valueError
  else
    let (idx, ncol) := newIndices mask
    (M.flat.mapM (if fast then renumber idx else renumberPython idx)).map fun flat =>
      { M with flat := flat, ncol := ncol * M.bs1 }

/-- The lines of a structured array selected by a boolean mask (`data[mask]`). -/
def selectLines {β} (nmax : Nat) (flat : List (Elem β)) (mask : List Bool) : List (Elem β) :=
  (List.range mask.length).flatMap fun i => if mask.getD i false then (flat.drop (i * nmax)).take nmax else []

/-- sparse.py 892-921 `corestrict`. -/
def corestrict {β} (garbage : Nat → Elem β) (st : Storage) (M : Mat β) (mask : List Bool) : Res (Mat β) :=
  let nrow := mask.count true
  let mask' := mask.flatMap fun b => List.replicate M.bs0 b               -- `np.repeat(mask, block_shape[0])`
  if mask'.length ≠ M.nlines then .error .indexError
  else construct garbage st (nrow * M.bs0, M.ncol) (M.bs0, M.bs1) none
    (some ⟨mask'.count true, M.nmax, selectLines M.nmax M.flat mask'⟩)

/-! ### The kernel -/

/-- `kernel(k) = .false.` in an array of logicals. -/
def setFalse (kernel : List Bool) (k : Nat) : Res (List Bool) :=
  if k < kernel.length then .ok (kernel.set k false) else .error .outOfBounds

/-- sparse.f90.j2 520-544 `fsr_kernel` executed sequentially: `words` are the values of an element seen as 32 bit
integers. -/
def fsrKernel {β} (words : β → List Int) (flat : List (Elem β)) (kernel : List Bool) : Res (List Bool) :=
  flat.foldlM (fun kernel e =>
    if e.index < 0 then .ok kernel
    else if (words e.value).any (· ≠ 0) then setFalse kernel e.index.toNat else .ok kernel) kernel

/-- operators.py 1051-1058: the indices of the elements that are not zero, and their histogram on `[0, n]` with `n` bins:
the last bin is closed, negative and larger indices are ignored. -/
def histogramKernel {β} (nonzero : β → Bool) (flat : List (Elem β)) (n : Nat) : List Bool :=
  let idx := (flat.filter fun e => nonzero e.value).map (·.index)
  (List.range n).map fun (k : Nat) => !(idx.any fun i => i = (k : Int) ∨ (k + 1 = n ∧ i = (n : Int)))

/-- operators.py 1004-1060 `canonical_basis_in_kernel` with the default arguments for row storages of scalars and
rotations (`nonzero` : the field tested by the Python code, lines 1051-1056).  For blocks the type of the second field is
`np.void`: the Python code is executed and reads the field `r11` (1056), which does not exist. -/
def canonicalKernel {β} (st : Storage) (words : β → List Int) (nonzero : β → Bool) (types : Bool) (M : Mat β) (shape : List Nat) :
    Res (List Bool) :=
  let n := prodShape shape
  if M.nlines * M.nmax = 0 then .ok (List.replicate n true)
  else if st = .fsrBlock then .error .attributeError
  else if types then fsrKernel words M.flat (List.replicate n true)
  else if shape.getLastD 1 ≠ n then .error .valueError                    -- `kernel` is not broadcastable to `out`
  else .ok (histogramKernel nonzero M.flat n)

/-! ### Coverage -/

/-- The reduction operations that are accepted. -/
inductive Op | assign | iadd
  deriving DecidableEq

section
variable {R : Type} [CommRing R]

/-- sparse.py 833-838 `direct`. -/
def direct (matvec : List R → Option (List R) → Res (List R)) (op : Op) (x out : List R) : Res (List R) :=
  matvec x (some (if op = .assign then List.replicate out.length 0 else out))

/-- `operation(out, value)`: sizes must agree (no broadcast). -/
def reduce (op : Op) (out value : List R) : Res (List R) :=
  if value.length ≠ out.length then .error .valueError
  else .ok (match op with
    | .assign => value
    | .iadd => List.zipWith (· + ·) out value)

/-- `y[..., 0]` for an array whose last dimension is `p`. -/
def firstOf (p : Nat) (y : List R) : List R := (List.range (y.length / p)).map fun k => y.getD (k * p) 0

/-- operators.py 1089-1109: `pT1` for a scalar storage.  The compiled function is never available, since the conditions
`combo.isize in [4, 8]` and `combo.rsize in [4, 8]` of operators.f90.j2 compare strings with integers.
`nout` is the size of the output shape of the operator. -/
def pT1Fsr (g : Nat → Elem R) (fast : Bool) (M : Mat R) (nout : Nat) (op : Op) (out : List R) : Res (List R) :=
  (transpose g .fsr M).bind fun Mt => direct (fscMatvec fast Mt) op (List.replicate nout 1) out

/-- operators.py 1120-1122: `pT1` for 3d rotations. -/
def pT1Rot3d (g : Nat → Elem (Rot3d R)) (fast : Bool) (M : Mat (Rot3d R)) (nout : Nat) (op : Op) (out : List R) : Res (List R) :=
  (transpose g .fsrRot3d M).bind fun Mt =>
    (fscRot3dMatvec fast Mt (List.replicate nout 1) none).bind fun y => reduce op out (firstOf 3 y)

/-- operators.py 1110-1119: `pT1` for 2d rotations.  `norm` is `sqrt(r11**2 + r21**2)`, `dims` the shape of the output: `out[i] += d`
adds to all the elements of the slice `i` of the first dimension. -/
def pT1Rot2d (norm : Rot2d R → R) (M : Mat (Rot2d R)) (dims : List Nat) (op : Op) (out : List R) : Res (List R) :=
  let out := if op = .assign then List.replicate out.length 0 else out
  let size := prodShape dims.tail
  M.flat.foldlM (fun out e =>
    if e.index < 0 then .ok out
    else if e.index.toNat < dims.headD 0 then
      applyAll ((List.range size).map fun k => (e.index.toNat * size + k, norm e.value)) out
    else .error .indexError) out

/-- operators.py 1120-1122: `pT1` for blocks: `self.T(x)[..., 0]`.  If the blocks have one column `self.T(x)` is
one-dimensional (sparse.py 815-818), `[..., 0]` is its first element, which is broadcast. -/
def pT1Block (g : Nat → Elem (List R)) (fast : Bool) (M : Mat (List R)) (nout : Nat) (op : Op) (out : List R) : Res (List R) :=
  (transpose g .fsrBlock M).bind fun Mt =>
    (fscBlockMatvec fast Mt (List.replicate nout 1) none).bind fun y =>
      if M.bs1 = 1 then
        match y with
        | [] => .error .indexError
        | a :: _ => reduce op out (List.replicate out.length a)
      else reduce op out (firstOf M.bs1 y)

/-- operators.py 1124-1196: `pTx_pT1` for a scalar storage. -/
def pTxpT1Fsr (g : Nat → Elem R) (fast : Bool) (M : Mat R) (nout : Nat) (op : Op) (x pTx pT1 : List R) : Res (List R × List R) :=
  if x.length ≠ nout then .error .valueError
  else
    (pT1Fsr g fast M nout op pT1).bind fun pT1 =>
      (transpose g .fsr M).bind fun Mt =>
        (direct (fscMatvec fast Mt) op x pTx).map fun pTx => (pTx, pT1)

/-- operators.py 1124-1196: `pTx_pT1` for 3d rotations. -/
def pTxpT1Rot3d (g : Nat → Elem (Rot3d R)) (fast : Bool) (M : Mat (Rot3d R)) (nout : Nat) (op : Op) (x pTx pT1 : List R) :
    Res (List R × List R) :=
  if x.length ≠ nout then .error .valueError
  else
    (pT1Rot3d g fast M nout op pT1).bind fun pT1 =>
      (transpose g .fsrRot3d M).bind fun Mt =>
        (fscRot3dMatvec fast Mt x none).bind fun y =>
          (reduce op pTx (firstOf 3 y)).map fun pTx => (pTx, pT1)

end
end Verif.Sparse
