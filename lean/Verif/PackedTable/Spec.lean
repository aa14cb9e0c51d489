import Verif.PackedTable.Model

/-!
Specification vocabulary for packed tables: what a user expects, written without the index
compression of the code.
-/
namespace Verif.PackedTable
open Verif.Py

/-- The selection of a list by numpy's rules: what `table.index[selection]` means. -/
def numpySelect {α} (l : List α) : Sel → Res (List α)
  | .all => .ok l
  | .scalar i => takeIdx l [i]
  | .ints is => takeIdx l is
  | .slice s => takeSlice l s
  | .bools sh flat => if sh = [l.length] then takeMask l flat else .error .indexError
  | .tuple [.slice s] => takeSlice l s
  | .tuple [.int i] => takeIdx l [i]
  | .tuple [.ellipsis] => .ok l
  | .tuple [] => .ok l
  | .tuple _ => .error .indexError

/-- Successive numpy selections. -/
def numpySelects {α} (l : List α) : List Sel → Res (List α)
  | [] => .ok l
  | s :: ss => (numpySelect l s).bind fun r => numpySelects r ss

/-- Successive restrictions of a table, `table[s1][s2]...`. -/
def Table.getitems (t : Table) : List Sel → Res Table
  | [] => .ok t
  | s :: ss => (t.getitem s).bind fun r => r.getitems ss

/-- `out` is obtained by picking in `rows` the rows at the positions `index`, in order. -/
def PicksRows {α} (rows : List α) (index : List Int) (out : List α) : Prop :=
  out.length = index.length ∧
  ∀ (k : Nat) (i : Int), index[k]? = some i → 0 ≤ i ∧ out[k]? = rows[i.toNat]?

/-- The value given to the component of rank `k` by a packed array `x` (an array of length one
is broadcast). -/
def packedValue {α} (x : List α) (k : Nat) : Option α :=
  match x with
  | [a] => some a
  | x => x[k]?

/-- `out` holds the packed values at the positions of the components and the missing value
elsewhere. -/
def UnpacksTo {α} (size : Nat) (index : List Int) (missing : α) (x out : List α) : Prop :=
  out.length = size ∧
  (∀ (k : Nat) (i : Int), index[k]? = some i → out[i.toNat]? = packedValue x k) ∧
  (∀ p : Nat, p < size → (p : Int) ∉ index → out[p]? = some missing)

/-- A list that repeats a single component at least twice. -/
def Repeats (l : List Int) : Prop := ∃ (m : Nat) (a : Int), l = List.replicate (m + 2) a

/-- Restrictions on slices under which `_normalize_slice` follows Python: see C04. -/
def SliceStopOk (s : PySlice) (n : Nat) : Prop :=
  0 < s.step.getD 1 ∨ ∀ b, s.stop = some b → -(n : Int) - 1 ≤ b

/-- Constructor selections on which the code does what it announces.  The excluded ones are the
subject of the `_violation` theorems. -/
def SelOk (dims : List Nat) : Sel → Prop
  | .all => True
  | .scalar i => 0 ≤ i ∧ i < (dims.prod : Nat)
  | .ints l => (∀ i ∈ l, 0 ≤ i ∧ i < (dims.prod : Nat)) ∧ ¬ Repeats l
  | .slice s => SliceStopOk s dims.prod
  | .bools sh flat => flat.length = sh.prod
  | .tuple l => ∀ s r, l = .slice s :: r → dims.length = 1 → SliceStopOk s dims.prod

/-- The ordering keyword is a well-formed array. -/
def OrderingOk : Option (List Nat × List Int) → Prop
  | none => True
  | some (sh, values) => values.length = sh.prod

/-- Restrictions `table[sel]` on which the code does what it announces, for a table of `n` components. -/
def Supported (t : Table) (n : Nat) (index : List Int) : Sel → Prop
  | .all => True
  | .scalar i => -(n : Int) ≤ i ∧ i < n ∧ (t.idx = .all → 0 ≤ i)
  | .ints l => (∀ i ∈ l, -(n : Int) ≤ i ∧ i < n) ∧ (t.idx = .all → ∀ i ∈ l, 0 ≤ i) ∧
      ∀ r, takeIdx index l = .ok r → ¬ Repeats r
  | .bools sh flat => sh = [n] ∧ flat.length = n ∧ ∀ r, takeMask index flat = .ok r → ¬ Repeats r
  | .slice s => s.step.getD 1 ≠ 0 ∧ SliceStopOk s n ∧
      match t.idx with
      | .all => True
      | .slice _ _ _ => n = 0 → t.size = 0 ∨
          (s.start = none ∧ 0 < s.step.getD 1) ∨ (∃ i, s.start = some i ∧ i < 0)
      | .arr _ => (0 < s.step.getD 1 ∨
          ∀ r, sliceIndices s n = .ok r → ∀ i ∈ r, 0 ≤ i + s.step.getD 1) ∧
          ∀ r, takeSlice index s = .ok r → ¬ Repeats r
  | .tuple _ => False

/-- The tables that can be built by the constructor and by successive restrictions, using the
selections above. -/
inductive Reachable : Table → Prop
  | make {shape sel ordering ndim t} :
      Table.make shape sel ordering ndim = .ok t → SelOk t.dims sel → OrderingOk ordering →
      Reachable t
  | getitem {t n index sel t'} :
      Reachable t → t.len = .ok n → t.index = .ok index → Supported t n index sel →
      t.getitem sel = .ok t' → Reachable t'

end Verif.PackedTable
