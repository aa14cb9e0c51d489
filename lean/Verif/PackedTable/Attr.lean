import Verif.PackedTable.Restrict

/-!
Model of the attributes of packed tables: storage, views and copies
(/repo/src/pysimulators/packedtables/core.py 119-157, 257-279, 309-345, 368-375, 770-818).

An array is a view on a buffer: the identifier of the buffer and the positions of its rows.  Basic slicing
(`v[slice]`) shares the buffer, integer and boolean indexing allocate a new one.
Simplifications: rows are opaque; attributes that are callables are not evaluated; only the attributes in
`_special_attributes` are stored, other Python attributes are ignored; a value assigned by the user is
an array that no table already holds; dtype conversion errors are not modelled.
-/
namespace Verif.PackedTable
open Verif.Py

/-- A numpy array (core.py: the values found in `__dict__`). -/
structure View where
  buf : Nat
  pos : List Nat
  deriving DecidableEq, Repr

/-- The value of an attribute. -/
inductive AVal
  | none
  | callable
  | scalar (v : View)   -- 0-dimensional array
  | rows (v : View)     -- array with at least one dimension
  deriving DecidableEq, Repr

/-- The buffers. -/
abbrev Heap (α : Type) := List (List α)

/-- A table and its attributes (`__dict__` restricted to the keys in `_special_attributes`). -/
structure Obj where
  tab : Table
  special : List String
  attrs : String → Option AVal

/-- core.py 155 `_reserved_attributes`. -/
def reserved : List String := ["all", "comm", "index", "ndim", "removed", "shape"]

/-- The rows of an array. -/
def View.read {α} (h : Heap α) (v : View) : List (Option α) :=
  v.pos.map fun p => (h[v.buf]?.getD [])[p]?

/-- `v[...] = a`. -/
def View.fill {α} (h : Heap α) (v : View) (a : α) : Heap α :=
  h.set v.buf (assignAt (h[v.buf]?.getD []) v.pos (List.replicate v.pos.length a))

/-- A new array. -/
def alloc {α} (h : Heap α) (l : List α) : Heap α × View := (h ++ [l], ⟨h.length, List.range l.length⟩)

/-- Values assigned by the user. -/
inductive Val (α : Type)
  | none
  | callable
  | scalar (a : α)
  | rows (l : List α)

/-- Rebinding of an attribute. -/
def Obj.bind (o : Obj) (key : String) (v : AVal) : Obj :=
  { o with attrs := fun k => if k = key then some v else o.attrs k }

/-- core.py 257-279 `__setattr__`. -/
def Obj.setattr {α} (h : Heap α) (o : Obj) (key : String) (val : Val α) : Res (Heap α × Obj) :=
  if key ∈ reserved then .error .attributeError
  else if key ∉ o.special then .ok (h, o)
  else
    match val with
    | .none => .ok (h, o.bind key .none)
    | .callable => .ok (h, o.bind key .callable)
    | .rows l =>
      o.tab.len.bind fun n =>
        if l.length ≠ n then .error .valueError
        else .ok ((alloc h l).1, o.bind key (.rows (alloc h l).2))
    | .scalar a =>
      match o.attrs key with
      | some (.scalar v) => .ok (v.fill h a, o)
      | some (.rows v) => .ok (v.fill h a, o)
      | _ => .ok ((alloc h [a]).1, o.bind key (.scalar (alloc h [a]).2))

/-- core.py 377-450 `pack(x, copy=True)`: the rows are copied into a new array of `len(self)` rows,
with numpy broadcasting. -/
def Table.packCopy {α} (t : Table) (x : PArg α) : Res (PArg α) :=
  (t.pack x).bind fun r =>
    match r with
    | .array _ rows =>
      t.len.bind fun n =>
        if rows.length = n then .ok (.array [n] rows)
        else match rows with
          | [a] => .ok (.array [n] (List.replicate n a))
          | _ => .error .valueError
    | r => .ok r

/-- `object.__setattr__(p, key, p.pack(value, copy=True))` (core.py 818). -/
def Obj.bindPacked {α} (h : Heap α) (o : Obj) (key : String) : PArg α → Heap α × Obj
  | .none => (h, o.bind key .none)
  | .scalar a => ((alloc h [a]).1, o.bind key (.scalar (alloc h [a]).2))
  | .array _ l => ((alloc h l).1, o.bind key (.rows (alloc h l).2))

/-- core.py 810-818 `UnpackedTable.__setattr__` (`table.all.key = value`); `none` is a callable value. -/
def Obj.setattrAll {α} (h : Heap α) (o : Obj) (key : String) (val : Option (PArg α)) : Res (Heap α × Obj) :=
  if key ∉ o.special then .error .attributeError
  else if key ∈ reserved then .error .attributeError
  else
    match val with
    | none => .error .typeError
    | some x => (o.tab.packCopy x).map fun r => o.bindPacked h key r

/-- Does numpy return a view for this selection? -/
def NSel.isView : NSel → Bool
  | .ints _ => false
  | .bools _ => false
  | _ => true

/-- The array `v[selection]`. -/
def View.select {α} (h : Heap α) (v : View) (nsel : NSel) : Res (Heap α × View) :=
  (applyNSel v.pos nsel).map fun pos =>
    if nsel.isView then (h, ⟨v.buf, pos⟩)
    else (h ++ [pos.filterMap fun p => (h[v.buf]?.getD [])[p]?], ⟨h.length, List.range pos.length⟩)

/-- core.py 336-344: the loop on the attributes.  `src` is the table being restricted. -/
def selectAttrs {α} (src : Obj) (nsel : NSel) : List String → Heap α → Obj → Res (Heap α × Obj)
  | [], h, out => .ok (h, out)
  | k :: ks, h, out =>
    if k ∈ reserved then selectAttrs src nsel ks h out
    else
      match src.attrs k with
      | some (.rows v) =>
        (v.select h nsel).bind fun (h, v') =>
        out.tab.len.bind fun n =>
          if v'.pos.length ≠ n then .error .valueError
          else selectAttrs src nsel ks h (out.bind k (.rows v'))
      | _ => selectAttrs src nsel ks h out

/-- core.py 309-345 `__getitem__`.  When the selection is `Ellipsis` the table itself is returned. -/
def Obj.getitem {α} (h : Heap α) (o : Obj) (sel : Sel) : Res (Heap α × Obj) :=
  o.tab.len.bind fun n =>
  (normalizeSelection sel [n]).bind fun nsel =>
    match nsel with
    | .all => .ok (h, o)
    | nsel =>
      (o.tab.subIdx nsel).bind fun i =>
        selectAttrs o nsel o.special h { o with tab := { o.tab with idx := i } }

/-- core.py 119-157: the attributes given to the constructor; `none` is a callable. -/
def Obj.addAttrs {α} : List (String × Option (PArg α)) → Heap α → Obj → Res (Heap α × Obj)
  | [], h, o => .ok (h, o)
  | (k, x) :: r, h, o =>
    let o := { o with special := o.special ++ [k] }
    (match x with
      | none => o.setattr h k .callable
      | some x => (o.tab.packCopy x).bind fun y =>
        match y with
        | .none => o.setattr h k .none
        | .scalar a => o.setattr h k (.scalar a)
        | .array _ l => o.setattr h k (.rows l)).bind fun (h, o) =>
    Obj.addAttrs r h o

/-- core.py 119-157 constructor. -/
def Obj.make {α} (h : Heap α) (shape : List Nat) (sel : Sel) (ordering : Option (List Nat × List Int))
    (ndim : Option Int) (kws : List (String × Option (PArg α))) : Res (Heap α × Obj) :=
  (Table.make shape sel ordering ndim).bind fun t =>
    Obj.addAttrs kws h ⟨t, ["index", "removed"], fun _ => none⟩

/-- core.py 368-375 `copy`: all the arrays are duplicated, then `out.comm = ...` goes through `__setattr__`. -/
def Obj.copy {α} (h : Heap α) (o : Obj) : Res (Heap α × Obj) :=
  let shift : AVal → AVal
    | .scalar v => .scalar ⟨v.buf + h.length, v.pos⟩
    | .rows v => .rows ⟨v.buf + h.length, v.pos⟩
    | x => x
  let out : Obj := { o with attrs := fun k => (o.attrs k).map shift }
  out.setattr (h ++ h) "comm" .none

/-! ### Histories -/

/-- The operations of a history. -/
inductive Op (α : Type)
  | set (key : String) (val : Val α)
  | setAll (key : String) (val : Option (PArg α))
  | restrict (sel : Sel)      -- table = table[sel]

/-- One operation. -/
def Op.run {α} (op : Op α) (h : Heap α) (o : Obj) : Res (Heap α × Obj) :=
  match op with
  | .set k v => o.setattr h k v
  | .setAll k v => o.setattrAll h k v
  | .restrict s => o.getitem h s

/-- A history in which the exceptions are caught. -/
def runOps {α} : List (Op α) → Heap α → Obj → Heap α × Obj
  | [], h, o => (h, o)
  | op :: ops, h, o =>
    match op.run h o with
    | .ok (h', o') => runOps ops h' o'
    | .error _ => runOps ops h o

end Verif.PackedTable
