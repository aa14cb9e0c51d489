/-
Python / numpy vocabulary shared by the models: exceptions as values, `range`,
slices and indexing of the first dimension of an array.

These definitions are the *assumed* semantics of the Python language and of
numpy (trusted base, see DESIGN.md); nothing here comes from /repo.
-/
namespace Verif.Py

/-- The exceptions that the modelled code can raise.  `outOfBounds` stands for
an out-of-bounds memory access in Fortran code (undefined behaviour), `deadlock` for
processes that wait for each other. -/
inductive PyErr
  | valueError | typeError | indexError | attributeError | keyError
  | zeroDivisionError | notImplementedError | unitError | outOfBounds | recursionError
  | unboundLocalError | runtimeError | deadlock
  deriving DecidableEq, Repr

/-- Result of a Python call: a value or an exception. -/
abbrev Res (α : Type) := Except PyErr α

instance {α} [DecidableEq α] : DecidableEq (Res α) := fun a b =>
  match a, b with
  | .ok x, .ok y => if h : x = y then isTrue (by rw [h]) else isFalse (by intro e; cases e; exact h rfl)
  | .error x, .error y => if h : x = y then isTrue (by rw [h]) else isFalse (by intro e; cases e; exact h rfl)
  | .ok _, .error _ => isFalse (by intro e; cases e)
  | .error _, .ok _ => isFalse (by intro e; cases e)

/-- `start, start + step, ...`, `n` terms. -/
def progression (start step : Int) (n : Nat) : List Int :=
  (List.range n).map (fun (k : Nat) => start + step * (k : Int))

/-- Number of elements of Python's `range(start, stop, step)` (zero for a zero step, which
Python rejects: the callers test it). -/
def rangeLen (start stop step : Int) : Nat :=
  if 0 < step then ((stop - start + step - 1) / step).toNat
  else if step < 0 then ((start - stop + (-step) - 1) / (-step)).toNat
  else 0

/-- Python's `range(start, stop, step)`. -/
def pyRange (start stop step : Int) : List Int :=
  progression start step (rangeLen start stop step)

/-- `np.arange(start, stop, step)` on integers: a zero step is a division by zero. -/
def arange (start stop step : Int) : Res (List Int) :=
  if step = 0 then .error .zeroDivisionError else .ok (pyRange start stop step)

/-- A Python slice object. -/
structure PySlice where
  start : Option Int
  stop : Option Int
  step : Option Int
  deriving DecidableEq, Repr

/-- Reduction of a given bound of a slice to the valid range, as in the Python language
reference (negative bounds are relative to the end, then bounds are clipped). -/
def clipBound (n : Nat) (step i : Int) : Int :=
  let i := if i < 0 then i + n else i
  if step < 0 then max (-1) (min i ((n : Int) - 1)) else max 0 (min i n)

/-- First bound of a slice of a sequence of length `n`. -/
def sliceStart (n : Nat) (step : Int) : Option Int → Int
  | none => if step < 0 then (n : Int) - 1 else 0
  | some i => clipBound n step i

/-- Second bound of a slice of a sequence of length `n`. -/
def sliceStop (n : Nat) (step : Int) : Option Int → Int
  | none => if step < 0 then -1 else n
  | some i => clipBound n step i

/-- The positions designated by a slice in a sequence of length `n` (Python's
`range(*s.indices(n))`).  A zero step is rejected. -/
def sliceIndices (s : PySlice) (n : Nat) : Res (List Int) :=
  let step := s.step.getD 1
  if step = 0 then .error .valueError
  else .ok (pyRange (sliceStart n step s.start) (sliceStop n step s.stop) step)

/-- numpy index of an axis of length `n`: negative indices count from the end. -/
def wrapIndex (n : Nat) (i : Int) : Option Nat :=
  if 0 ≤ i then (if i < n then some i.toNat else none)
  else if -(n : Int) ≤ i then some (i + n).toNat
  else none

/-- numpy integer indexing `l[idx]` (also `np.take`) along the first axis. -/
def takeIdx {α} (l : List α) : List Int → Res (List α)
  | [] => .ok []
  | i :: is =>
    match (wrapIndex l.length i).bind (fun k => l[k]?) with
    | none => .error .indexError
    | some a => (takeIdx l is).map (a :: ·)

/-- numpy basic slicing `l[s]` along the first axis. -/
def takeSlice {α} (l : List α) (s : PySlice) : Res (List α) :=
  (sliceIndices s l.length).bind (takeIdx l)

/-- numpy boolean indexing `l[mask]` along the first axis. -/
def takeMask {α} (l : List α) (mask : List Bool) : Res (List α) :=
  if mask.length = l.length then
    .ok ((l.zip mask).filterMap (fun p => if p.2 then some p.1 else none))
  else .error .indexError

/-- `np.where(mask)[0]`: increasing list of the positions that are True. -/
def whereTrue (mask : List Bool) : List Int :=
  mask.zipIdx.filterMap (fun p => if p.1 then some (p.2 : Int) else none)

/-- Row-major multi-index of a flat position in an array of shape `dims`. -/
def unravel : List Nat → Nat → List Nat
  | [], _ => []
  | _ :: ds, p => (p / ds.prod) :: unravel ds (p % ds.prod)

end Verif.Py
