import Verif.Py.Basic
import Verif.Units.Model

/-!
Model of `MaskPolicy` (src/pysimulators/acquisitions.py 313-357).  The strings are lists of characters; `str.strip` and `str.lower` are
those of ASCII strings.
-/
namespace Verif.Dist
open Verif.Py Verif.Units

/-- What can be passed as flags and as values. -/
inductive PolicyArg
  | str (s : List Char)
  | list (l : List (List Char))
  /-- A scalar that is not a string. -/
  | scalar
  deriving Repr

/-- `s.split(',')`. -/
def splitComma : List Char → List (List Char)
  | [] => [[]]
  | c :: s =>
    match splitComma s with
    | [] => [[]]
    | p :: ps => if c = ',' then [] :: p :: ps else (c :: p) :: ps

/-- acquisitions.py 320-325 and 326-331: the list of the strings; a scalar has no method `strip`. -/
def PolicyArg.strings : PolicyArg → Res (List (List Char))
  | .str s => .ok ((splitComma s).map strip)
  | .list l => .ok (l.map strip)
  | .scalar => .error .attributeError

/-- `str.lower`. -/
def lower (s : List Char) : List Char := s.map Char.toLower

/-- The values of the attributes. -/
inductive PolicyVal
  | int (n : Int)
  | str (s : List Char)
  deriving DecidableEq, Repr

/-- The attributes of the object (the last assignment is the first one), and `_flags`. -/
structure Policy where
  attrs : List (List Char × PolicyVal)
  flags : List (List Char)
  deriving DecidableEq, Repr

/-- acquisitions.py 344: `choices`. -/
def choices : List (List Char) := ["keep".toList, "mask".toList, "remove".toList]

/-- acquisitions.py 339-350: the loop. -/
def policyLoop : List (List Char × List Char) → List (List Char × PolicyVal) → Res (List (List Char × PolicyVal))
  | [], attrs => .ok attrs
  | (flag, value) :: ps, attrs =>
    match flag with
    | [] => .error .indexError
    | c :: _ =>
      if c = '_' then .error .valueError
      else if value ∉ choices then .error .keyError
      else policyLoop ps ((flag, .str value) :: attrs)

/-- acquisitions.py 318-351 `MaskPolicy.__init__`. -/
def mkPolicy (flags values : PolicyArg) : Res Policy :=
  flags.strings.bind fun fs =>
  values.strings.bind fun vs =>
    let vs := vs.map lower
    if fs.length ≠ vs.length then .error .valueError
    else (policyLoop (fs.zip vs) []).bind fun attrs => .ok ⟨attrs, fs⟩

/-- acquisitions.py 314-316: the attributes of the class. -/
def classAttrs : List (List Char × PolicyVal) := [("KEEP".toList, .int 0), ("MASK".toList, .int 1), ("REMOVE".toList, .int 2)]

/-- `getattr(self, name)`: the attributes of the object, then those of the class. -/
def Policy.getattr (p : Policy) (name : List Char) : Res PolicyVal :=
  match (p.attrs ++ classAttrs).find? (·.1 = name) with
  | some a => .ok a.2
  | none => .error .attributeError

/-- acquisitions.py 353-357 `MaskPolicy.__array__`; NumPy rejects strings that are not numbers. -/
def Policy.array (p : Policy) : Res (List Int) :=
  (p.getattr "KEEP".toList).bind fun keep =>
  (p.getattr "MASK".toList).bind fun mask =>
  (p.getattr "REMOVE".toList).bind fun remove =>
  (p.flags.mapM fun f => (p.getattr f).bind fun v =>
    if v = .str "keep".toList then .ok keep else if v = .str "mask".toList then .ok mask else if v = .str "remove".toList then .ok remove
    else .error .keyError).bind fun l =>
  l.mapM fun
    | .int n => .ok n
    | .str _ => .error .valueError

end Verif.Dist
