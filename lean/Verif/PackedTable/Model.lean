import Verif.Py.Basic

/-
Model of the index bookkeeping of `PackedTable`
(/repo/src/pysimulators/packedtables/core.py).

Simplifications:
* only the splittable dimensions of arrays are explicit: an array `x` whose
  leading dimensions are those of the table is a list of rows in row-major
  order, the content of a row (trailing dimensions, dtype) is an arbitrary type `α`;
* Python integers are `Int`, the float division under `np.ceil` (line 758) is exact;
* a tuple selection is a tuple of slices, `Ellipsis` and integers which contains at least one
  slice or `Ellipsis` (a tuple of integers is an integer selection, as in the code);
* views and copies are not distinguished here (see `Verif.PackedTable.Attr` for aliasing).
-/
namespace Verif.PackedTable
open Verif.Py

/-- The attribute `_index` (core.py 149, 170-180): `Ellipsis`, a slice with explicit
integer bounds, or an integer array. -/
inductive Idx
  | all
  | slice (start stop step : Int)
  | arr (l : List Int)
  deriving DecidableEq, Repr

/-- An item of a tuple selection. -/
inductive SelItem
  | ellipsis
  | slice (s : PySlice)
  | int (i : Int)
  deriving DecidableEq, Repr

/-- The selections accepted by the constructor and by `table[...]`. -/
inductive Sel
  | all                                        -- None, Ellipsis, ()
  | scalar (i : Int)
  | slice (s : PySlice)
  | ints (l : List Int)                        -- 1-d integer array, list or tuple
  | bools (shape : List Nat) (flat : List Bool)  -- boolean array
  | tuple (l : List SelItem)                   -- tuple with slices or Ellipsis
  deriving DecidableEq, Repr

/-- An item of a normalised tuple selection (core.py 688-691). -/
inductive NItem
  | ellipsis
  | slice (start stop step : Int)
  | int (i : Int)
  deriving DecidableEq, Repr

/-- Normalised selections (values returned by `_normalize_selection`, core.py 667-709). -/
inductive NSel
  | all
  | slice (start stop step : Int)
  | ints (l : List Int)
  | bools (flat : List Bool)
  | tuple (l : List NItem)
  deriving DecidableEq, Repr

/-- Result of `_normalize_slice`: `Ellipsis` or a slice with integer fields. -/
inductive NSlice
  | all
  | slice (start stop step : Int)
  deriving DecidableEq, Repr

/-- The same value as a normalised selection. -/
def NSlice.toNSel : NSlice → NSel
  | .all => .all
  | .slice a b c => .slice a b c

/-- The same value as an item of a normalised tuple. -/
def NSlice.toNItem : NSlice → NItem
  | .all => .ellipsis
  | .slice a b c => .slice a b c

/-- core.py 732-744: the start bound.  `inl r` is an early `return r`. -/
def normStart (start : Option Int) (step n : Int) : (Int × Int × Int) ⊕ Int :=
  match start with
  | none => .inr (if step > 0 then 0 else n - 1)
  | some start =>
    if start < 0 then
      if n + start < 0 then
        if step < 0 then .inl (0, 0, step) else .inr 0
      else .inr (n + start)
    else if start ≥ n then
      if step > 0 then .inl (n - 1, n - 1, step) else .inr (n - 1)
    else .inr start

/-- core.py 746-752: the stop bound. -/
def normStop (stop : Option Int) (step n : Int) : Int :=
  match stop with
  | none => if step > 0 then n else -1
  | some stop => if stop < 0 then n + stop else if stop > n then n else stop

/-- `int(np.ceil(extent / abs(step)))` for `extent ≥ 0` (core.py 758). -/
def ceilQuot (extent astep : Int) : Int := (extent + astep - 1) / astep

/-- core.py 726-762 `_normalize_slice`. -/
def normalizeSlice (s : PySlice) (n : Int) : Res NSlice :=
  let step := s.step.getD 1
  if step = 0 then .error .valueError
  else
    match normStart s.start step n with
    | .inl (a, b, c) => .ok (.slice a b c)
    | .inr start =>
      let stop := normStop s.stop step n
      let extent := if step > 0 then max (stop - start) 0 else max (start - stop) 0
      let size := ceilQuot extent (step.natAbs : Int)
      if size = n ∧ step = 1 then .ok .all
      else .ok (.slice start (start + size * step) step)

/-- core.py 711-724 `_normalize_int_selection`. -/
def normalizeInt (s : List Int) (n : Nat) : Idx :=
  match s with
  | [] => .arr []
  | [a] => .arr [a]
  | a :: b :: r =>
    let step := b - a
    let size := r.length + 2
    if a :: b :: r = progression a step size then
      if size = n ∧ step = 1 then .all
      else .slice a (a + (size : Int) * step) step
    else .arr (a :: b :: r)

/-- core.py 688-691: normalisation of the items of a tuple, zipped with the shape. -/
def normalizeItems : List SelItem → List Nat → Res (List NItem)
  | [], _ => .ok []
  | _ :: _, [] => .ok []
  | it :: its, n :: ns =>
    (match it with
      | .ellipsis => (.ok .ellipsis : Res NItem)
      | .int i => .ok (.int i)
      | .slice s =>
        (normalizeSlice s n).map NSlice.toNItem).bind fun h =>
    (normalizeItems its ns).map (h :: ·)

/-- core.py 693 `selection[: ilast_is_not(selection, Ellipsis) + 1]`: remove the trailing
`Ellipsis`. -/
def stripEllipsis (l : List NItem) : List NItem :=
  (l.reverse.dropWhile (· == .ellipsis)).reverse

/-- core.py 667-709 `_normalize_selection`. -/
def normalizeSelection (sel : Sel) (shape : List Nat) : Res NSel :=
  match sel with
  | .all => .ok .all
  | .scalar i => .ok (.ints [i])
  | .ints l => .ok (.ints l)
  | .slice s =>
    (normalizeSlice s (shape.prod : Nat)).map NSlice.toNSel
  | .bools sh flat => if sh ≠ shape then .error .valueError else .ok (.bools flat)
  | .tuple l =>
    if l.length > shape.length then .error .valueError
    else (normalizeItems l shape).map fun items =>
      match stripEllipsis items with
      | [] => .all
      | its => .tuple its

/-! ### numpy assignment `out[selection] = True` on a boolean array of shape `dims` -/

/-- Positions designated by an item on an axis of length `n` (numpy semantics: a negative
bound is relative to the end). -/
def itemPositions (n : Nat) : NItem → Res (List Int)
  | .ellipsis => .ok (pyRange 0 n 1)
  | .slice a b c => sliceIndices ⟨some a, some b, some c⟩ n
  | .int i => match wrapIndex n i with
    | some k => .ok [(k : Int)]
    | none => .error .indexError

/-- numpy's expansion of an index tuple: the single `Ellipsis` (appended when absent) stands
for as many full axes as needed; more than one is an `IndexError`, as are too many items. -/
def expandItems (l : List NItem) (ndim : Nat) : Res (List NItem) :=
  let k := (l.filter (· == .ellipsis)).length
  if k > 1 then .error .indexError
  else
    let l := if k = 0 then l ++ [.ellipsis] else l
    if l.length - 1 > ndim then .error .indexError
    else
      let pre := l.takeWhile (· != .ellipsis)
      let post := (l.dropWhile (· != .ellipsis)).drop 1
      .ok (pre ++ List.replicate (ndim + 1 - l.length) .ellipsis ++ post)

/-- Positions along each axis. -/
def axisPositions : List Nat → List NItem → Res (List (List Int))
  | [], _ => .ok []
  | _ :: _, [] => .ok []
  | n :: ns, it :: its =>
    (itemPositions n it).bind fun p => (axisPositions ns its).map (p :: ·)

/-- Membership of a multi-index in a product of axis positions. -/
def inAxes : List Nat → List (List Int) → Bool
  | [], _ => true
  | _ :: _, [] => true
  | i :: is, p :: ps => p.contains (i : Int) && inAxes is ps

/-- core.py 764-767 `_selection2bool`: the boolean array, in row-major order.  An integer list or a
slice acts on the first axis. -/
def selection2bool (dims : List Nat) (sel : NSel) : Res (List Bool) :=
  let size := dims.prod
  match sel with
  | .all => .ok (List.replicate size true)
  | .bools flat => .ok flat
  | .ints l =>
    let n := dims.headD 0
    if l.all (fun i => (wrapIndex n i).isSome) then
      let rows := l.filterMap (wrapIndex n)
      .ok ((List.range size).map fun p => rows.contains ((unravel dims p).headD 0))
    else .error .indexError
  | .slice a b c =>
    (itemPositions (dims.headD 0) (.slice a b c)).map fun rows =>
      (List.range size).map fun p => rows.contains (((unravel dims p).headD 0 : Nat) : Int)
  | .tuple l =>
    (expandItems l dims.length).bind fun l =>
    (axisPositions dims l).map fun axes =>
      (List.range size).map fun p => inAxes (unravel dims p) axes

/-- `np.argsort(values, kind='mergesort')`: stable sort of the positions by value. -/
def argsort (values : List Int) : List Nat :=
  (List.range values.length).mergeSort
    (fun a b => decide (values.getD a 0 ≤ values.getD b 0))

/-- core.py 231-238: the ordering with the non-selected components marked by -1. -/
def maskOrdering (dims : List Nat) (nsel : NSel) (values : List Int) : Res (List Int) :=
  match nsel with
  | .all => .ok values
  | nsel => (selection2bool dims nsel).map fun mask =>
      List.zipWith (fun (v : Int) (m : Bool) => if m then v else -1) values mask

/-- core.py 240-246: the index defined by an ordering. -/
def orderingIndex (values : List Int) (size : Nat) : Idx :=
  let npacked := (values.filter (fun v => decide (0 ≤ v))).length
  if npacked = 0 then .arr []
  else
    let sorted := argsort values
    normalizeInt ((sorted.drop (sorted.length - npacked)).map (fun (k : Nat) => (k : Int))) size

/-- core.py 202-246 `_get_index`.  `dims` is `_shape_actual`; an ordering is given by its shape and
its values in row-major order. -/
def getIndex (dims : List Nat) (sel : Sel) (ordering : Option (List Nat × List Int)) : Res Idx :=
  (normalizeSelection sel dims).bind fun nsel =>
  match ordering with
  | none =>
    match nsel with
    | .all => .ok .all
    | .slice a b c => .ok (.slice a b c)
    | .ints l => .ok (normalizeInt l dims.prod)
    | .bools flat => .ok (normalizeInt (whereTrue flat) dims.prod)
    | .tuple l =>
      let viaBool := (selection2bool dims (.tuple l)).map
        (fun flat => normalizeInt (whereTrue flat) dims.prod)
      match l with
      | .slice a b c :: rest =>
        if dims.length = 1 ∨ (rest = [] ∧ c = 1) then
          let n : Int := ((dims.drop 1).prod : Nat)
          .ok (.slice (a * n) (b * n) c)
        else viaBool
      | _ => viaBool
  | some (oshape, values) =>
    if oshape ≠ dims then .error .valueError
    else (maskOrdering dims nsel values).map fun values => orderingIndex values dims.prod

/-- A table: the unpacked shape, the number of splittable dimensions and `_index`
(core.py 119-149). -/
structure Table where
  shape : List Nat
  ndim : Nat
  idx : Idx
  deriving DecidableEq, Repr

/-- core.py 194-196 `_shape_actual`. -/
def Table.dims (t : Table) : List Nat := t.shape.take t.ndim

/-- core.py 198-200 `_size_actual`. -/
def Table.size (t : Table) : Nat := t.dims.prod

/-- core.py 119-149, constructor without attributes. -/
def Table.make (shape : List Nat) (sel : Sel) (ordering : Option (List Nat × List Int))
    (ndim : Option Int) : Res Table :=
  match ndim with
  | none => (getIndex shape sel ordering).map fun i => ⟨shape, shape.length, i⟩
  | some d =>
    if d < 1 ∨ d > shape.length then .error .valueError
    else (getIndex (shape.take d.toNat) sel ordering).map fun i => ⟨shape, d.toNat, i⟩

/-- core.py 170-180 `index`. -/
def Table.index (t : Table) : Res (List Int) :=
  match t.idx with
  | .all => .ok (pyRange 0 t.size 1)
  | .slice a b c => arange a b c
  | .arr l => .ok l

/-- core.py 248-255 `__len__` (Python raises `ValueError` when `__len__` returns a negative
integer). -/
def Table.len (t : Table) : Res Nat :=
  match t.idx with
  | .all => .ok t.size
  | .slice a b c =>
    if c = 0 then .error .zeroDivisionError
    else
      let n := Int.fdiv (b - a) c
      if n < 0 then .error .valueError else .ok n.toNat
  | .arr l => .ok l.length

/-- core.py 182-188 `_indexable` followed by the numpy indexing of the first axis of an array of rows
(`x_[index]` 447, `np.take` 449, or reshape 436/443). -/
def Table.gatherRows {α} (t : Table) (rows : List α) : Res (List α) :=
  match t.idx with
  | .all => .ok rows
  | .slice a b c =>
    if b < 0 then takeSlice rows ⟨some a, none, some c⟩
    else takeSlice rows ⟨some a, some b, some c⟩
  | .arr l => takeIdx rows l

/-- Arguments and values of `pack` (core.py 411-420): `None`, a 0-dimensional array, or an array given
by its leading dimensions and its rows. -/
inductive PArg (α : Type)
  | none
  | scalar (a : α)
  | array (lead : List Nat) (rows : List α)
  deriving Repr

/-- core.py 377-450 `pack` (the result of an array is its list of rows). -/
def Table.pack {α} (t : Table) (x : PArg α) : Res (PArg α) :=
  match x with
  | .none => .ok .none
  | .scalar a => .ok (.scalar a)
  | .array lead rows =>
    if lead ≠ t.dims then .error .valueError
    else (t.gatherRows rows).map fun r => .array [r.length] r

/-- Assignment `buf[pos] = vals`, one element after the other. -/
def assignAt {α} (buf : List α) : List Nat → List α → List α
  | p :: ps, v :: vs => assignAt (buf.set p v) ps vs
  | _, _ => buf

/-- The positions written by `out_[index]` (core.py 641 with `_indexable`). -/
def Idx.positions (i : Idx) (n : Nat) : Res (List Nat) :=
  match i with
  | .all => .ok (List.range n)
  | .slice a b c =>
    (if b < 0 then sliceIndices ⟨some a, none, some c⟩ n
     else sliceIndices ⟨some a, some b, some c⟩ n).map (·.map Int.toNat)
  | .arr l =>
    if l.all (fun i => (wrapIndex n i).isSome) then .ok (l.filterMap (wrapIndex n))
    else .error .indexError

/-- numpy assignment `buf[index] = x` with broadcasting of a length-one `x` along the first axis. -/
def assignIdx {α} (buf : List α) (i : Idx) (x : List α) : Res (List α) :=
  (i.positions buf.length).bind fun pos =>
    match x with
    | [a] => .ok (assignAt buf pos (List.replicate pos.length a))
    | x => if x.length = pos.length then .ok (assignAt buf pos x) else .error .valueError

/-- core.py 564-648 `unpack` of an undistributed table.  `x` is the list of rows of
`np.atleast_1d(x)`, `buf` is the content of the output buffer before the call (that of the `out`
argument, or the uninitialised memory returned by `np.empty`, line 629).  The short cuts of lines
622-628 and 636-638 return the input rows. -/
def Table.unpack {α} (t : Table) (buf : List α) (missing : α) (x : List α) : Res (List α) :=
  t.len.bind fun n =>
    if x.length ≠ 1 ∧ x.length ≠ n then .error .valueError
    else if t.size > n then assignIdx (List.replicate t.size missing) t.idx x
    else if t.idx = .all ∧ x.length = n then .ok x
    else assignIdx buf t.idx x

/-- core.py 778-782 `UnpackedTable.removed`. -/
def Table.removed (t : Table) (buf : List Bool) : Res (List Bool) := t.unpack buf true [false]

/-- `index[selection]` for a normalised selection on a 1-d array (core.py 329, also `v[selection]`
line 344).  The slice is used as it is: numpy reads its negative bounds relatively to the end. -/
def applyNSel {α} (l : List α) : NSel → Res (List α)
  | .all => .ok l
  | .slice a b c => takeSlice l ⟨some a, some b, some c⟩
  | .ints is => takeIdx l is
  | .bools flat => takeMask l flat
  | .tuple its =>
    (expandItems its 1).bind fun its =>
      match its with
      | [it] => (itemPositions l.length it).bind (takeIdx l)
      | _ => .error .indexError

/-- core.py 314-332: the new `_index` of `table[selection]` for a selection that is not `Ellipsis`. -/
def Table.subIdx (t : Table) (nsel : NSel) : Res Idx :=
  match t.idx, nsel with
  | .all, .slice a b c => .ok (.slice a b c)
  | .all, .ints l => .ok (normalizeInt l t.size)
  | .slice a b c, .slice a' b' c' =>
    if c' = 0 then .error .zeroDivisionError
    else
      let n := Int.fdiv (b' - a') c'
      let start := a + a' * c
      let step := c * c'
      let _ := b
      .ok (.slice start (start + n * step) step)
  | _, nsel =>
    t.index.bind fun index => (applyNSel index nsel).map fun l => normalizeInt l t.size

/-- core.py 309-335 `__getitem__`, index part. -/
def Table.getitem (t : Table) (sel : Sel) : Res Table :=
  t.len.bind fun n =>
  (normalizeSelection sel [n]).bind fun nsel =>
    match nsel with
    | .all => .ok t
    | nsel => (t.subIdx nsel).map fun i => { t with idx := i }

end Verif.PackedTable
