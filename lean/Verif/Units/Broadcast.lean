import Verif.Units.Model

/-!
Model of the quantities that have broadcastable derived units in src/pysimulators/quantities.py: indexing, conversion to SI units and
in-place conversion of arrays of any number of dimensions.

Simplifications: the derived units are given in base units, and the symbols that have no definition among them are base units (the recursion of
the definitions is in Model.lean); no derived unit is a function or has a key that is a pair (symbol, exponent); keys are made of integers, slices and
ellipses, or are lists of integers (no `np.newaxis`, no array).
-/
namespace Verif.Units
open Verif.Py

/-! ### NumPy arrays -/

/-- An array: its shape, and the element at an index (one number per dimension). -/
structure NArr (K : Type) where
  shape : List Nat
  get : List Nat → K

variable {K : Type}

/-- The array without dimension. -/
def NArr.scalar (x : K) : NArr K := ⟨[], fun _ => x⟩

/-- `a.T`. -/
def NArr.T (a : NArr K) : NArr K := ⟨a.shape.reverse, fun i => a.get i.reverse⟩

/-- A function applied to the elements. -/
def NArr.map (f : K → K) (a : NArr K) : NArr K := ⟨a.shape, fun i => f (a.get i)⟩

/-- The broadcast shape; the last dimension comes first. -/
def bshapeRev : List Nat → List Nat → Res (List Nat)
  | [], t => .ok t
  | s, [] => .ok s
  | a :: s, b :: t =>
    (if a = b then .ok a else if a = 1 then .ok b else if b = 1 then .ok a else .error .valueError : Res Nat).bind fun d =>
      (bshapeRev s t).map fun r => d :: r

/-- The index in a broadcast array. -/
def fit (s i : List Nat) : List Nat := List.zipWith (fun d x => if d = 1 then 0 else x) s i

/-- The element that corresponds to an index of the broadcast shape: the last dimensions are aligned. -/
def NArr.at (a : NArr K) (i : List Nat) : K := a.get (fit a.shape (i.drop (i.length - a.shape.length)))

/-- A binary operation of NumPy. -/
def bop (f : K → K → K) (a b : NArr K) : Res (NArr K) :=
  (bshapeRev a.shape.reverse b.shape.reverse).map fun s => ⟨s.reverse, fun i => f (a.at i) (b.at i)⟩

/-! ### Keys -/

/-- An item of a key; a slice is the function that gives the selected positions of a dimension. -/
inductive KElem where
  | int (i : Int)
  | slice (sel : Nat → List Nat)
  | ellipsis

/-- `slice(None)`. -/
def KElem.all : KElem := .slice List.range

/-- The selection of a dimension. -/
inductive Axis where
  | at (p : Nat)
  | sel (ps : List Nat)

/-- The position of an integer index, that may be negative. -/
def position (d : Nat) (i : Int) : Res Nat :=
  if 0 ≤ i ∧ i < d then .ok i.toNat else if i < 0 ∧ -(d : Int) ≤ i then .ok (i + d).toNat else .error .indexError

/-- The selection of a dimension by an item. -/
def resolve (d : Nat) : KElem → Res Axis
  | .int i => (position d i).map .at
  | .slice f => .ok (.sel (f d))
  | .ellipsis => .error .indexError

/-- One item per dimension. -/
def axesOf : List Nat → List KElem → Res (List Axis)
  | [], [] => .ok []
  | d :: s, k :: ks => (resolve d k).bind fun a => (axesOf s ks).map fun as => a :: as
  | _, _ => .error .indexError

/-- The shape of the item. -/
def outShape : List Axis → List Nat
  | [] => []
  | .at _ :: as => outShape as
  | .sel ps :: as => ps.length :: outShape as

/-- The index in the array of an element of the item. -/
def mergeAxes : List Axis → List Nat → List Nat
  | [], _ => []
  | .at p :: as, j => p :: mergeAxes as j
  | .sel ps :: as, j :: js => ps.getD j 0 :: mergeAxes as js
  | .sel _ :: _, [] => []

/-- Whether an item is an ellipsis. -/
def KElem.isEllipsis : KElem → Bool
  | .ellipsis => true
  | _ => false

/-- Whether an item is an integer. -/
def KElem.isInt : KElem → Bool
  | .int _ => true
  | _ => false

/-- What precedes and what follows the first ellipsis. -/
def splitEllipsis : List KElem → Option (List KElem × List KElem)
  | [] => none
  | .ellipsis :: ks => some ([], ks)
  | k :: ks => (splitEllipsis ks).map fun p => (k :: p.1, p.2)

/-- The key that NumPy understands, one item per dimension: the ellipsis stands for the dimensions that are not given. -/
def npExpand (n : Nat) (key : List KElem) : Res (List KElem) :=
  match splitEllipsis key with
  | none => if key.length ≤ n then .ok (key ++ List.replicate (n - key.length) .all) else .error .indexError
  | some (a, b) =>
    if b.any KElem.isEllipsis then .error .indexError
    else if a.length + b.length ≤ n then .ok (a ++ List.replicate (n - (a.length + b.length)) .all ++ b)
    else .error .indexError

/-- `np.ndarray.__getitem__(a, key)` for a tuple, as an array. -/
def npIndex (a : NArr K) (key : List KElem) : Res (NArr K) :=
  (npExpand a.shape.length key).bind fun ks => (axesOf a.shape ks).map fun as => ⟨outShape as, fun j => a.get (mergeAxes as j)⟩

/-- Whether `np.ndarray.__getitem__(a, key)` is a number instead of an array. -/
def npIsScalar (a : NArr K) (key : List KElem) : Bool := key.all KElem.isInt ∧ key.length = a.shape.length

/-- `np.ndarray.__getitem__(a, key)` for a list of integers: a selection along the first dimension. -/
def npTake (a : NArr K) (l : List Int) : Res (NArr K) :=
  match a.shape with
  | [] => .error .indexError
  | d :: s => (l.mapM fun i => position d i).map fun as =>
      ⟨l.length :: s, fun j => a.get ((as.getD (j.headD 0) 0) :: j.tail)⟩

/-! ### Quantities -/

/-- The side along which a derived unit is broadcast. -/
inductive Side where
  | left
  | right
deriving DecidableEq

/-- The value of a derived unit: a quantity, or a number (`np.float64`) once `__getitem__` has replaced it by one of its elements.  `linked` tells whether
the attribute `_derived_units` of the quantity is the dictionary the quantity belongs to (quantities.py 1239). -/
inductive DVal (K : Type) where
  | quantity (v : NArr K) (unit : UnitD) (linked : Bool)
  | number (x : K)

/-- A derived unit of a quantity: the name, the suffix (`[leftward]`, `[rightward]`), the value. -/
structure BEntry (K : Type) where
  name : Sym
  bracket : Option Side
  val : DVal K

/-- quantities.py 389: a quantity with its derived units. -/
structure BQ (K : Type) where
  mag : NArr K
  unit : UnitD
  derived : List (BEntry K)

/-- quantities.py 1243-1252 `_check_in_du`. -/
def checkIn (D : List (BEntry K)) (key : Sym) : Option (BEntry K) := D.find? fun e => e.name = key

section
variable [Field K] [RatPow K]

/-- quantities.py 1220-1224: the power of a magnitude. -/
def powElem (val : ℚ) (x : K) : K := if val = 1 then x else if val = -1 then 1 / x else RatPow.rpow x val

/-- quantities.py 1220-1224: the power of a unit. -/
def powFactor (val : ℚ) (u : UnitD) : UnitD := if val = 1 then u else if val = -1 then divUnit [] u else powUnit u val

/-- quantities.py 1208-1240 `_check_du` and `_get_du`: the factor of a symbol of the unit.  The attribute `_derived_units` of a number cannot be set. -/
def factorOf (D : List (BEntry K)) (key : Sym) (val : ℚ) : Res (Option (NArr K × UnitD × Side)) :=
  match checkIn D key with
  | none => .ok none
  | some e =>
    match e.val with
    | .number _ => .error .attributeError
    | .quantity v u _ => .ok (some (v.map (powElem val), powFactor val u, e.bracket.getD .left))

/-- The factors of quantities.py 1097-1098: `fslow` and `ffast`. -/
structure Factors (K : Type) where
  slow : NArr K
  slowUnit : UnitD
  fast : NArr K
  fastUnit : UnitD

/-- quantities.py 1099-1117: the loop on the symbols. -/
def siLoop (D : List (BEntry K)) (u : UnitD) : Res (Factors K) :=
  u.foldlM (fun (f : Factors K) (p : Sym × ℚ) =>
    (factorOf D p.1 p.2).bind fun r => match r with
      | none => .ok { f with slowUnit := mulInplace f.slowUnit p.1 p.2 }
      | some (v, w, .left) => (bop (· * ·) f.slow v).map fun s => { f with slow := s, slowUnit := mulUnit f.slowUnit w }
      | some (v, w, .right) => (bop (· * ·) f.fast.T v.T).map fun s => { f with fast := s.T, fastUnit := mulUnit f.fastUnit w })
    ⟨.scalar 1, [], .scalar 1, []⟩

/-- quantities.py 1082-1123 `SI`. -/
def siB (q : BQ K) : Res (BQ K) :=
  if q.unit.length = 0 then .ok q
  else (siLoop q.derived q.unit).bind fun f =>
    (bop (· * ·) q.mag f.slow).bind fun a =>
      (bop (· * ·) a.T f.fast.T).map fun b => ⟨b.T, mulUnit f.slowUnit f.fastUnit, q.derived⟩

/-- quantities.py 1239: a conversion that looks up the symbols `syms` sets the derived units of their definitions. -/
def link (syms : List Sym) (D : List (BEntry K)) : List (BEntry K) :=
  D.map fun e => { e with val := match e.val with
    | .quantity v u l => .quantity v u (l || syms.contains e.name)
    | .number x => .number x }

/-- The quantity `q` after the evaluation of `q.SI`. -/
def afterSI (q : BQ K) : BQ K := { q with derived := link (q.unit.map (·.1)) q.derived }

/-- `a *= b` in place: the broadcast shape is that of `a`. -/
def imul (a b : NArr K) : Res (NArr K) :=
  (bop (· * ·) a b).bind fun c => if c.shape = a.shape then .ok c else .error .valueError

/-- quantities.py 1046-1080 `inunit` (and `tounit`, 1002-1026): the quantity in the new unit. -/
def tounitB (q : BQ K) (newunit : UnitD) : Res (BQ K) :=
  if q.unit.length = 0 ∨ newunit.length = 0 then .ok { q with unit := newunit }
  else
    (siB ⟨.scalar 1, q.unit, q.derived⟩).bind fun q1 =>
      (siB ⟨.scalar 1, newunit, q.derived⟩).bind fun q2 =>
        if !dictEq q1.unit q2.unit then .error .unitError
        else (bop (· / ·) q1.mag q2.mag).bind fun factor =>
          if q.mag.shape.length = 0 then (imul q.mag factor).map fun m => { q with mag := m, unit := newunit }
          else (imul q.mag.T factor.T).map fun m => { q with mag := m.T, unit := newunit }

end

/-! ### Indexing -/

/-- quantities.py 880-887: the key of the derived units. -/
def codeKey (n : Nat) (key : List KElem) : List KElem :=
  let key := match splitEllipsis key with
    | some (a, b) => a ++ List.replicate (n - key.length) .all ++ b
    | none => key
  key ++ List.replicate (n - key.length) .all

/-- quantities.py 899-902: the part of the key that is used for a derived unit (`key[-0:]` is the whole key). -/
def partKey (side : Side) (k : Nat) (key : List KElem) : List KElem :=
  match side with
  | .left => if k = 0 then key else key.drop (key.length - k)
  | .right => key.take k

/-- quantities.py 899-902: the derived unit of the item.  The item of a quantity that contains itself in its derived units is never found. -/
def itemVal (side : Side) (key : List KElem) : DVal K → Res (DVal K)
  | .number _ => .error .indexError
  | .quantity v u linked =>
    let k := partKey side v.shape.length key
    (npIndex v k).bind fun w =>
      if npIsScalar v k then .ok (.number (w.get []))
      else if linked then .error .recursionError
      else .ok (.quantity w u false)

/-- quantities.py 891-902: the entry of the item. -/
def itemEntry (key : List KElem) (e : BEntry K) : Res (BEntry K) :=
  match e.bracket with
  | none => .ok e
  | some side => (itemVal side key e.val).map fun v => { e with val := v }

/-- Whether the entry has become a scalar. -/
def BEntry.isScalar (e : BEntry K) : Bool := match e.bracket, e.val with
  | some _, .number _ => true
  | _, _ => false

/-- `du[name] = number`. -/
def setNumber (D : List (BEntry K)) (name : Sym) (v : DVal K) : List (BEntry K) :=
  if D.any fun e => e.name = name ∧ e.bracket = none then D.map fun e => if e.name = name ∧ e.bracket = none then ⟨name, none, v⟩ else e
  else D ++ [⟨name, none, v⟩]

/-- quantities.py 889-915: the derived units of the item. -/
def itemDerived (key : List KElem) (D : List (BEntry K)) : Res (List (BEntry K)) :=
  (D.mapM (itemEntry key)).map fun D =>
    (D.filter (·.isScalar)).foldl (fun du e => setNumber du e.name e.val) (D.filter fun e => !e.isScalar)

/-- The keys of `__getitem__`. -/
inductive QKey where
  | ellipsis
  | tuple (l : List KElem)
  | list (l : List Int)

/-- quantities.py 858-917 `__getitem__` (a key other than a tuple, a list or the ellipsis is the tuple that contains it, 877-878): a number or a quantity. -/
def getitemB (q : BQ K) (key : QKey) : Res (K ⊕ BQ K) :=
  match key with
  | .ellipsis => .ok (.inr q)
  | .tuple l =>
    (npIndex q.mag l).bind fun item =>
      if npIsScalar q.mag l then .ok (.inl (item.get []))
      else (itemDerived (codeKey q.mag.shape.length l) q.derived).map fun D => .inr ⟨item, q.unit, D⟩
  | .list l =>
    (npTake q.mag l).bind fun item =>
      (itemDerived (codeKey q.mag.shape.length (l.map .int)) q.derived).map fun D => .inr ⟨item, q.unit, D⟩

end Verif.Units
