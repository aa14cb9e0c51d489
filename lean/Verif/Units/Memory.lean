import Verif.Units.Model

/-!
Model of the memory of the quantities: buffers, unit dictionaries and objects are shared by the views, the copies and the derived units
(quantities.py 447-484, 732-856, 929-1123, 1208-1252).

Simplifications: the arrays have one dimension, and the derived units are scalars with an optional `[rightward]` suffix, which are not functions.
-/
namespace Verif.Units.Mem
open Verif.Py

/-- A table of derived units: the values are `None` or quantities, known by their index in the memory. -/
abbrev RefTable := List (DKey × Bool × Option Nat)

/-- quantities.py 389, 480-484: a quantity is an array, i.e. elements of a buffer, with references to a dictionary (its unit) and to a table of
derived units. -/
structure Obj where
  buf : Nat
  pos : List Nat
  unit : Nat
  derived : RefTable

instance : Inhabited Obj := ⟨⟨0, [], 0, []⟩⟩

/-- The memory; `globals` is the table `units` (quantities.py 1304-1369). -/
structure Heap (K : Type) where
  bufs : List (List K)
  dicts : List UnitD
  objs : List Obj
  globals : RefTable

variable {K : Type}

/-- Code that reads and modifies the memory, and returns a value or raises an exception. -/
abbrev M (K α : Type) := Heap K → Heap K × Res α

def ret {α : Type} (a : α) : M K α := fun h => (h, .ok a)

def throw {α : Type} (e : PyErr) : M K α := fun h => (h, .error e)

def M.then {α β : Type} (m : M K α) (f : α → M K β) : M K β := fun h =>
  match m h with
  | (h', .ok a) => f a h'
  | (h', .error e) => (h', .error e)

/-- An object of the memory. -/
def Heap.obj (h : Heap K) (i : Nat) : Obj := h.objs.getD i default

/-- `q._unit`: the dictionary. -/
def Heap.unit (h : Heap K) (i : Nat) : UnitD := h.dicts.getD (h.obj i).unit []

/-- quantities.py 929-936 `magnitude`. -/
def Heap.mags [Zero K] (h : Heap K) (i : Nat) : List K := (h.obj i).pos.map fun p => (h.bufs.getD (h.obj i).buf []).getD p 0

/-- A new dictionary. -/
def newDict (u : UnitD) : M K Nat := fun h => ({ h with dicts := h.dicts ++ [u] }, .ok h.dicts.length)

/-- A new array with its own buffer. -/
def newObj (xs : List K) (unit : Nat) (derived : RefTable) : M K Nat := fun h =>
  ({ h with bufs := h.bufs ++ [xs], objs := h.objs ++ [⟨h.bufs.length, List.range xs.length, unit, derived⟩] }, .ok h.objs.length)

/-- Modification of an object. -/
def setObj (i : Nat) (f : Obj → Obj) : M K Unit := fun h => ({ h with objs := h.objs.modify i f }, .ok ())

/-- quantities.py 447-478: `Quantity(xs, unit)` where the unit is a string. -/
def create (xs : List K) (unit : UnitD) (derived : RefTable) : M K Nat :=
  (newDict unit).then fun d => newObj xs d derived

/-- quantities.py 447-478: `Quantity(q, unit, copy=True)`; without unit, the dictionary is shared (480-484). -/
def copyOf [Zero K] (i : Nat) (unit : Option UnitD) : M K Nat := fun h =>
  match unit with
  | none => newObj (h.mags i) (h.obj i).unit (h.obj i).derived h
  | some u => create (h.mags i) u (h.obj i).derived h

/-- quantities.py 447-478: `Quantity(q, unit, copy=False)`: `np.array` returns its argument, whose unit is replaced (469-470). -/
def sameAs (i : Nat) (unit : Option UnitD) : M K Nat :=
  match unit with
  | none => ret i
  | some u => (newDict u).then fun d => (setObj i fun o => { o with unit := d }).then fun _ => ret i

/-- quantities.py 858-917 `q[start:stop:step]` (without broadcastable derived unit): an array with the same buffer, the same unit and the same
derived units; `sel` are the selected positions (those that do not exist are ignored). -/
def view (i : Nat) (sel : List Nat) : M K Nat := fun h =>
  ({ h with objs := h.objs ++ [{ h.obj i with pos := sel.filterMap fun p => (h.obj i).pos[p]? }] }, .ok h.objs.length)

/-- quantities.py 838-848 `_process_ufunc_result`: the result of a function has its own buffer, the derived units of `self` and a new dictionary
(quantities.py 268-330). -/
def result (self : Nat) (xs : List K) (unit : UnitD) : M K Nat := fun h => create xs unit (h.obj self).derived h

section
variable [Field K] [RatPow K]

/-- quantities.py 804-805, 823-836: `q1 * q2` for arrays of the same size (299-313). -/
def mul (i j : Nat) : M K Nat := fun h =>
  if (h.mags i).length = (h.mags j).length then result i (List.zipWith (· * ·) (h.mags i) (h.mags j)) (mulUnit (h.unit i) (h.unit j)) h
  else (h, .error .valueError)

/-- quantities.py 807-808: `q1 / q2` for arrays of the same size (316-330). -/
def div (i j : Nat) : M K Nat := fun h =>
  if (h.mags i).length = (h.mags j).length then result i (List.zipWith (· / ·) (h.mags i) (h.mags j)) (divUnit (h.unit i) (h.unit j)) h
  else (h, .error .valueError)

/-- `1 / q`. -/
def recip (i : Nat) : M K Nat := fun h => result i ((h.mags i).map fun x => 1 / x) (divUnit [] (h.unit i)) h

/-- quantities.py 796-802: `q**val` (286-296). -/
def pow (i : Nat) (val : ℚ) : M K Nat := fun h => result i ((h.mags i).map fun x => RatPow.rpow x val) (powUnit (h.unit i) val) h

/-- `q * x` for a number without unit. -/
def scale (i : Nat) (x : K) : M K Nat := fun h => result i ((h.mags i).map fun y => y * x) (mulUnit (h.unit i) []) h

/-- quantities.py 268-283 `_multiply_unit_inplace` on the unit of a quantity. -/
def multiplyInplace (i : Nat) (key : Sym) (val : ℚ) : M K Unit := fun h =>
  ({ h with dicts := h.dicts.modify (h.obj i).unit fun u => mulInplace u key val }, .ok ())

/-- quantities.py 1227-1252 `_get_du` and `_check_in_du`: the derived unit receives the derived units of the input (1239). -/
def getDuM (input : Nat) (T : RefTable) (key : DKey) : M K (Option (Nat × Bool)) := fun h =>
  match T.find? fun e => e.1 = key with
  | some (_, b, some du) => ((setObj du fun o => { o with derived := (h.obj input).derived }).then fun _ => ret (some (du, b))) h
  | _ => (h, .ok none)

/-- quantities.py 1208-1224 `_check_du`; `SI` is the recursive call. -/
def checkDuM (SI : Nat → M K Nat) (input : Nat) (T : RefTable) (key : Sym) (val : ℚ) : M K (Option (Nat × Bool)) :=
  if T.length = 0 then ret none
  else if T.any fun e => e.1 = .pow key val then
    (getDuM input T (.pow key val)).then fun
      | none => ret none
      | some (du, b) => (SI du).then fun d => ret (some (d, b))
  else if T.any fun e => e.1 = .pow key (-val) then
    (getDuM input T (.pow key (-val))).then fun
      | none => ret none
      | some (du, b) => (recip du).then fun du => (SI du).then fun d => ret (some (d, b))
  else
    (getDuM input T (.sym key)).then fun
      | none => ret none
      | some (du, b) => (if val = 1 then ret du else if val = -1 then recip du else pow du val).then fun du =>
        (SI du).then fun d => ret (some (d, b))

/-- quantities.py 1102-1109: local, then global derived units. -/
def defineM (SI : Nat → M K Nat) (input : Nat) (key : Sym) (val : ℚ) : M K (Option (Nat × Bool)) := fun h =>
  ((checkDuM SI input (h.obj input).derived key val).then fun
    | some d => ret (some d)
    | none => checkDuM SI input h.globals key val) h

/-- quantities.py 1100-1119: the loop on the symbols of the unit; `slow` and `fast` are the accumulated factors. -/
def loopM (SI : Nat → M K Nat) (input : Nat) : UnitD → Nat → Nat → M K (Nat × Nat)
  | [], slow, fast => ret (slow, fast)
  | (key, val) :: u, slow, fast =>
    (defineM SI input key val).then fun
      | none => (multiplyInplace slow key val).then fun _ => loopM SI input u slow fast
      | some (d, false) => (mul slow d).then fun slow => loopM SI input u slow fast
      | some (d, true) => (mul fast d).then fun fast => loopM SI input u slow fast

/-- The magnitude of a scalar. -/
def Heap.mag (h : Heap K) (i : Nat) : K := (h.mags i).headD 0

/-- quantities.py 1082-1123 `SI`: without unit the object itself is returned; `fuel` bounds the depth of the recursion. -/
def siM : Nat → Nat → M K Nat
  | 0, _ => throw .recursionError
  | fuel + 1, self => fun h =>
    if (h.unit self).length = 0 then (h, .ok self)
    else ((create [1] [] []).then fun fast => (create [1] [] []).then fun slow =>
      (loopM (siM fuel) self (h.unit self) slow fast).then fun (slow, fast) => fun h' =>
        ((scale self (h'.mag slow)).then fun r => (scale r (h'.mag fast)).then fun r =>
          (newDict (mulUnit (h'.unit slow) (h'.unit fast))).then fun d => (setObj r fun o => { o with unit := d }).then fun _ => ret r) h') h

/-- Assignment of the elements of an array. -/
def assign (i : Nat) (f : K → K) : M K Unit := fun h =>
  ({ h with bufs := h.bufs.modify (h.obj i).buf fun b => b.mapIdx fun p x => if p ∈ (h.obj i).pos then f x else x }, .ok ())

/-- quantities.py 1028-1080 `inunit` (without header): the two scalars of 1066-1067 share the dictionary of the unit. -/
def inunitM (fuel self : Nat) (newunit : UnitD) : M K Unit := fun h =>
  ((newDict newunit).then fun d =>
    if (h.unit self).length = 0 ∨ newunit.length = 0 then setObj self fun o => { o with unit := d }
    else
      (newObj [1] (h.obj self).unit (h.obj self).derived).then fun a => (siM fuel a).then fun q1 =>
        (newObj [1] d (h.obj self).derived).then fun b => (siM fuel b).then fun q2 => fun h' =>
          if !dictEq (h'.unit q1) (h'.unit q2) then (h', .error .unitError)
          else ((assign self fun x => x * (h'.mag q1 / h'.mag q2)).then fun _ => setObj self fun o => { o with unit := d }) h') h

/-- quantities.py 1001-1026 `tounit`: conversion of a copy. -/
def tounitM (fuel self : Nat) (newunit : UnitD) : M K Nat :=
  (copyOf self none).then fun r => (inunitM fuel r newunit).then fun _ => ret r

/-- What a program does with the quantities: it creates, views, copies, combines and converts them. -/
inductive Op (K : Type)
  | create (xs : List K) (unit : UnitD)
  | view (i : Nat) (sel : List Nat)
  | copy (i : Nat) (unit : Option UnitD)
  | mul (i j : Nat)
  | div (i j : Nat)
  | pow (i : Nat) (val : ℚ)
  | si (i : Nat)
  | tounit (i : Nat) (unit : UnitD)

/-- The operands. -/
def Op.args : Op K → List Nat
  | .create _ _ => []
  | .view i _ | .copy i _ | .pow i _ | .si i | .tounit i _ => [i]
  | .mul i j | .div i j => [i, j]

/-- One operation; the operands must exist. -/
def step (fuel : Nat) (op : Op K) : M K Nat := fun h =>
  if ¬ ∀ i ∈ op.args, i < h.objs.length then (h, .error .unboundLocalError)
  else match op with
    | .create xs u => create xs u [] h
    | .view i sel => view i sel h
    | .copy i u => copyOf i u h
    | .mul i j => mul i j h
    | .div i j => div i j h
    | .pow i val => pow i val h
    | .si i => siM fuel i h
    | .tounit i u => tounitM fuel i u h

/-- A program; the exceptions are caught. -/
def run (fuel : Nat) : List (Op K) → Heap K → Heap K
  | [], h => h
  | o :: l, h => run fuel l (step fuel o h).1

end
end Verif.Units.Mem
