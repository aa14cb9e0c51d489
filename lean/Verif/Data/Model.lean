import Verif.Py.Basic
import Mathlib.Algebra.BigOperators.Group.List.Basic
import Mathlib.Tactic

/-!
Time-ordered arrays and their masks: src/pysimulators/datatypes.py 975-1350.

The masks are numpy arrays, which can share their memory: they are views of the buffers of a heap.  The data are lists in C order; their own
sharing is not modelled, and neither are the units and the header.
-/
namespace Verif.Data
open Verif.Py

/-- The boolean buffers: the number of the next one, and the contents. -/
structure Heap where
  next : Nat
  cell : Nat → Nat → Bool

/-- A boolean numpy array: the buffer, the shape, and the positions in the buffer of the elements in C order. -/
structure View where
  buf : Nat
  shape : List Nat
  offs : List Nat
deriving DecidableEq

/-- The values of an array. -/
def Heap.read (h : Heap) (v : View) : List Bool := v.offs.map (h.cell v.buf)

/-- A new array (`np.array(values)`, `np.zeros`, `np.ones`). -/
def Heap.newArray (h : Heap) (shape : List Nat) (values : List Bool) : Heap × View :=
  (⟨h.next + 1, fun b i => if b = h.next then values.getD i false else h.cell b i⟩, ⟨h.next, shape, List.range shape.prod⟩)

/-- `v[:] = b`. -/
def Heap.fill (h : Heap) (v : View) (b : Bool) : Heap :=
  ⟨h.next, fun c i => if c = v.buf ∧ i ∈ v.offs then b else h.cell c i⟩

/-- A selection of elements by numpy (an index, or a change of shape): the shape of the result and the positions, in C order, of the
elements; it only depends on the shape of the array.  `copies` tells the selections whose result does not share the memory of the
array; `isArray` tells those whose result is an array even if it has no dimension (an index that contains an ellipsis, a reshape), instead of a scalar. -/
structure Key where
  sel : List Nat → Res (List Nat × List Nat)
  ok : ∀ s t ps, sel s = .ok (t, ps) → ps.length = t.prod ∧ ∀ p ∈ ps, p < s.prod
  copies : Bool
  isArray : Bool

/-- `v[key]` for a numpy array. -/
def index (h : Heap) (v : View) (k : Key) : Res (Heap × (Bool ⊕ View)) :=
  match k.sel v.shape with
  | .error e => .error e
  | .ok (t, ps) =>
    if t = [] ∧ k.isArray = false then .ok (h, .inl (((ps.map fun p => (h.read v).getD p false).head?).getD false))
    else if k.copies then
      let r := h.newArray t (ps.map fun p => (h.read v).getD p false)
      .ok (r.1, .inr r.2)
    else .ok (h, .inr ⟨v.buf, t, ps.map fun p => v.offs.getD p 0⟩)

/-- A Tod: the shape, the data in C order and the attribute `_mask`. -/
structure Tod (α : Type) where
  shape : List Nat
  data : List α
  mask : Option View

/-- What can be assigned to the mask: None or `np.ma.nomask`; a scalar; an array whose items have one byte, which is not copied; another
sequence or array, which is converted. -/
inductive MaskValue where
  | none
  | scalar (b : Bool)
  | view (v : View)
  | values (shape : List Nat) (bs : List Bool)

variable {α : Type}

/-- datatypes.py 1111-1118: the assignment of an array without dimension. -/
def setScalar (h : Heap) (t : Tod α) (b : Bool) : Res (Heap × Tod α) :=
  match t.mask with
  | none =>
    let r := h.newArray t.shape (List.replicate t.shape.prod b)
    .ok (r.1, { t with mask := some r.2 })
  | some m => if m.shape = [] then .error .indexError else .ok (h.fill m b, t)

/-- datatypes.py 1120-1130: the assignment of an array with dimensions. -/
def setArray (h : Heap) (t : Tod α) (v : View) : Res (Heap × Tod α) :=
  if t.shape ≠ v.shape then .error .valueError else .ok (h, { t with mask := some v })

/-- datatypes.py 1095-1130, the setter of `mask`. -/
def setMask (h : Heap) (t : Tod α) : MaskValue → Res (Heap × Tod α)
  | .none => .ok (h, { t with mask := none })
  | .scalar b => setScalar h t b
  | .view v => if v.shape = [] then setScalar h t ((h.read v).headD false) else setArray h t v
  | .values s bs =>
    let r := h.newArray s bs
    if s = [] then setScalar r.1 t (bs.headD false) else setArray r.1 t r.2

/-- datatypes.py 1132-1134 `__array_finalize__`: an array made by numpy from `t` (a copy, a view, a transpose, the result of an operation,
quantities.py 838-848) has the mask of `t`, whatever its shape. -/
def inherit (t : Tod α) (shape : List Nat) (data : List α) : Tod α := ⟨shape, data, t.mask⟩

/-- datatypes.py 1188-1194 `__getitem__` for a key other than Ellipsis: a scalar or a Tod. -/
def getitem [Inhabited α] (h : Heap) (t : Tod α) (k : Key) : Res (Heap × (α ⊕ Tod α)) :=
  match k.sel t.shape with
  | .error e => .error e
  | .ok (s, ps) =>
    let d := ps.map fun p => t.data.getD p default
    if s = [] ∧ k.isArray = false then .ok (h, .inl (d.headD default))
    else
      let item := inherit t s d
      match t.mask with
      | none => .ok (h, .inr item)
      | some m =>
        match index h m k with
        | .error e => .error e
        | .ok (h, .inl b) => (setMask h item (.scalar b)).map fun r => (r.1, .inr r.2)
        | .ok (h, .inr v) => (setMask h item (.view v)).map fun r => (r.1, .inr r.2)

/-- datatypes.py 1188-1194 and quantities.py 865-866: `t[...]` is `t`, whose mask becomes `mask[...]`, a view of itself. -/
def getEllipsis (h : Heap) (t : Tod α) : Res (Heap × Tod α) :=
  match t.mask with
  | none => .ok (h, t)
  | some m => setMask h t (.view m)

/-- datatypes.py 1316-1327 `ravel` and `reshape`: the same selection for the data and the mask. -/
def reshape [Inhabited α] (h : Heap) (t : Tod α) (k : Key) : Res (Heap × Tod α) :=
  match k.sel t.shape with
  | .error e => .error e
  | .ok (s, ps) =>
    let result := inherit t s (ps.map fun p => t.data.getD p default)
    match t.mask with
    | none => setMask h result .none
    | some m =>
      match index h m k with
      | .error e => .error e
      | .ok (h, .inl b) => setMask h result (.scalar b)
      | .ok (h, .inr v) => setMask h result (.view v)

/-- datatypes.py 1031-1088 `Tod.__new__` for data that are not a Tod, and a mask that is an array of booleans (`view`) or something that is
converted.  The shape of the mask is not compared to that of the data. -/
def new (h : Heap) (shape : List Nat) (data : List α) (mask : MaskValue) (copy : Bool) : Heap × Tod α :=
  match mask with
  | .none => (h, ⟨shape, data, none⟩)
  | .scalar b => let r := h.newArray [] [b]; (r.1, ⟨shape, data, some r.2⟩)
  | .view v =>
    if copy then let r := h.newArray v.shape (h.read v); (r.1, ⟨shape, data, some r.2⟩)
    else (h, ⟨shape, data, some v⟩)
  | .values s bs => let r := h.newArray s bs; (r.1, ⟨shape, data, some r.2⟩)

/-- datatypes.py 1031-1088 `Tod(t, copy=copy)`. -/
def newFrom (h : Heap) (t : Tod α) (copy : Bool) : Heap × Tod α :=
  match t.mask with
  | none => (h, t)
  | some m => new h t.shape t.data (.view m) copy

/-! ### Selections used in the examples -/

/-- `a[i:j]` for an array with dimensions. -/
def Key.rows (i j : Nat) : Key where
  sel s := match s with
    | [] => .error .indexError
    | n :: s => .ok ((min j n - i) :: s, (List.range ((min j n - i) * s.prod)).map fun p => i * s.prod + p)
  ok := by
    intro s t ps h
    match s with
    | [] => cases h
    | n :: s =>
      simp only [Except.ok.injEq, Prod.mk.injEq] at h
      obtain ⟨rfl, rfl⟩ := h
      refine ⟨by simp, ?_⟩
      intro p hp
      obtain ⟨q, hq, rfl⟩ := List.mem_map.1 hp
      rw [List.mem_range, Nat.sub_mul] at hq
      have : min j n * s.prod ≤ n * s.prod := Nat.mul_le_mul_right _ (min_le_right _ _)
      rw [List.prod_cons]
      omega
  copies := false
  isArray := false

/-- `a[..., 0]` for a one-dimensional array: an array without dimension. -/
def Key.firstArray : Key where
  sel s := match s with
    | [n + 1] => .ok ([], [0])
    | _ => .error .indexError
  ok := by
    intro s t ps h
    match s with
    | [] => cases h
    | [0] => cases h
    | [n + 1] =>
      simp only [Except.ok.injEq, Prod.mk.injEq] at h
      obtain ⟨rfl, rfl⟩ := h
      simp
    | _ :: _ :: _ => simp at h
  copies := false
  isArray := true

/-- `a.ravel()` for a contiguous array. -/
def Key.ravel : Key where
  sel s := .ok ([s.prod], List.range s.prod)
  ok := by
    intro s t ps h
    simp only [Except.ok.injEq, Prod.mk.injEq] at h
    obtain ⟨rfl, rfl⟩ := h
    simp
  copies := false
  isArray := true

/-- `a.reshape(shape)` for a contiguous array. -/
def Key.reshapeTo (shape : List Nat) : Key where
  sel s := if s.prod = shape.prod then .ok (shape, List.range s.prod) else .error .valueError
  ok := by
    intro s t ps h
    split at h
    · rename_i h1
      simp only [Except.ok.injEq, Prod.mk.injEq] at h
      obtain ⟨rfl, rfl⟩ := h
      simp [h1]
    · cases h
  copies := false
  isArray := true

end Verif.Data
