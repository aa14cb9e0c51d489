import Verif.Py.Basic
import Mathlib.Data.List.Sort
import Mathlib.Algebra.Order.Field.Rat
import Mathlib.Algebra.Field.Basic
import Mathlib.Data.Rat.Floor

/-!
Model of src/pysimulators/quantities.py: units as dictionaries, their parser and printer, SI expansion, conversion and arithmetic.

Simplifications: a quantity is a number (the operations act element by element on arrays; broadcastable derived units are numbers, too);
exponents are rational numbers (`float` in the code); a magnitude is an element of a field (`float64`), raised to a rational
power by `RatPow.rpow`; the functions of the unit table (`pixel`, `pixel_reference`) are replaced by the value that
they return for the quantity that is converted.
-/
namespace Verif.Units
open Verif.Py

/-- A symbol such as `kg`. -/
abbrev Sym := List Char

/-- A unit: a dictionary of symbols and exponents, in insertion order. -/
abbrev UnitD := List (Sym × ℚ)

/-! ### Dictionaries -/

/-- `unit.get(key)`. -/
def lookup : UnitD → Sym → Option ℚ
  | [], _ => none
  | (k, v) :: u, key => if k = key then some v else lookup u key

/-- `del unit[key]`. -/
def del (u : UnitD) (key : Sym) : UnitD := u.filter fun p => p.1 ≠ key

/-- `unit[key] = val` for a key that is in the dictionary. -/
def update (u : UnitD) (key : Sym) (val : ℚ) : UnitD := u.map fun p => if p.1 = key then (key, val) else p

/-- `u == v` for dictionaries. -/
def dictEq (u v : UnitD) : Bool := u.length = v.length ∧ u.all fun p => lookup v p.1 = some p.2

/-- quantities.py 268-283 `_multiply_unit_inplace`. -/
def mulInplace (u : UnitD) (key : Sym) (val : ℚ) : UnitD :=
  match lookup u key with
  | some w => if w = -val then del u key else update u key (w + val)
  | none => u ++ [(key, val)]

/-- quantities.py 299-313 `_multiply_unit`. -/
def mulUnit (u1 u2 : UnitD) : UnitD :=
  u2.foldl (fun u p =>
    match lookup u p.1 with
    | some w => if w = -p.2 then del u p.1 else update u p.1 (w + p.2)
    | none => u ++ [(p.1, p.2)]) u1

/-- quantities.py 316-330 `_divide_unit`. -/
def divUnit (u1 u2 : UnitD) : UnitD :=
  u2.foldl (fun u p =>
    match lookup u p.1 with
    | some w => if w = p.2 then del u p.1 else update u p.1 (w - p.2)
    | none => u ++ [(p.1, -p.2)]) u1

/-- quantities.py 286-296 `_power_unit`. -/
def powUnit (u : UnitD) (power : ℚ) : UnitD :=
  if u.length = 0 ∨ power = 0 then []
  else u.map fun p => (p.1, p.2 * power)

/-! ### Parser -/

/-- `[a-zA-Z_"']` of quantities.py 33. -/
def isSymChar (c : Char) : Bool :=
  (65 ≤ c.toNat ∧ c.toNat ≤ 90) ∨ (97 ≤ c.toNat ∧ c.toNat ≤ 122) ∨ c = '_' ∨ c = '"' ∨ c = '\''

/-- `[0-9]`. -/
def isDig (c : Char) : Bool := 48 ≤ c.toNat ∧ c.toNat ≤ 57

/-- The characters removed by `str.strip` (ASCII). -/
def isSpace (c : Char) : Bool := c = ' ' ∨ (9 ≤ c.toNat ∧ c.toNat ≤ 13) ∨ (28 ≤ c.toNat ∧ c.toNat ≤ 31)

/-- `str.strip`. -/
def strip (s : List Char) : List Char := ((s.dropWhile isSpace).reverse.dropWhile isSpace).reverse

/-- `' *'`. -/
def skip (s : List Char) : List Char := s.dropWhile (· = ' ')

/-- The number written by decimal digits. -/
def natVal (s : List Char) : Nat := s.foldl (fun n c => 10 * n + (c.toNat - 48)) 0

/-- `([/*])?`. -/
def matchOp : List Char → Option Char × List Char
  | '/' :: s => (some '/', s)
  | '*' :: s => (some '*', s)
  | s => (none, s)

/-- `([a-zA-Z_"']+|\?+)`. -/
def matchSym (s : List Char) : Option (Sym × List Char) :=
  match s with
  | [] => none
  | c :: _ =>
    if isSymChar c then some (s.takeWhile isSymChar, s.dropWhile isSymChar)
    else if c = '?' then some (s.takeWhile (· = '?'), s.dropWhile (· = '?'))
    else none

/-- `-?[0-9]+(\.[0-9]*)?`, read as a number by `float`. -/
def matchNum (s : List Char) : Option (ℚ × List Char) :=
  let (sign, s1) : ℚ × List Char := match s with
    | '-' :: t => (-1, t)
    | _ => (1, s)
  let ip := s1.takeWhile isDig
  if ip = [] then none
  else
    match s1.dropWhile isDig with
    | '.' :: t =>
      let fp := t.takeWhile isDig
      some (sign * ((natVal ip : ℚ) + (natVal fp : ℚ) / 10 ^ fp.length), t.dropWhile isDig)
    | t => some (sign * (natVal ip : ℚ), t)

/-- `(\^-?[0-9]+(\.[0-9]*)?)?`. -/
def matchExp (s : List Char) : Option ℚ × List Char :=
  match s with
  | '^' :: t => match matchNum t with
    | some (x, r) => (some x, r)
    | none => (none, s)
  | _ => (none, s)

/-- quantities.py 33: a match of `_RE_UNIT` at the beginning of a string: operator, symbol, exponent and rest of the string.
The regular expression is deterministic: backtracking cannot give another match. -/
def matchUnit (s : List Char) : Option (Option Char × Sym × Option ℚ × List Char) :=
  let (op, s1) := matchOp (skip s)
  match matchSym (skip s1) with
  | none => none
  | some (u, s2) =>
    let (e, s3) := matchExp s2
    some (op, u, e, skip s3)

/-- quantities.py 250-264: the loop of `_extract_unit`.  The first argument bounds the number of iterations. -/
def extractLoop : Nat → List Char → UnitD → Res UnitD
  | 0, s, result => if s = [] then .ok result else .error .valueError
  | n + 1, s, result =>
    if s = [] then .ok result
    else match matchUnit s with
      | none => .error .valueError
      | some (op, u, e, rest) =>
        let x := e.getD 1
        let x := if op = some '/' then -x else x
        extractLoop n rest (mulInplace result u x)

/-- quantities.py 229-265 `_extract_unit` for a string (`None` gives the empty unit, a dictionary is returned as it is). -/
def extract (s : List Char) : Res UnitD :=
  let s := strip s
  extractLoop s.length s []

/-! ### Printer -/

/-- Order of the Python strings. -/
def symLe : Sym → Sym → Bool
  | [], _ => true
  | _ :: _, [] => false
  | c :: s, d :: t => if c.toNat < d.toNat then true else if d.toNat < c.toNat then false else symLe s t

/-- `sorted(unit.items())` (the keys are different). -/
def sortedItems (u : UnitD) : UnitD := u.insertionSort fun p q => symLe p.1 q.1 = true

/-- Decimal digits of a natural number (the first argument bounds the recursion). -/
def digitsAux : Nat → Nat → List Char
  | 0, _ => []
  | fuel + 1, n => if n < 10 then [Char.ofNat (48 + n)] else digitsAux fuel (n / 10) ++ [Char.ofNat (48 + n % 10)]

/-- `str(n)` for an integer. -/
def strInt (n : Int) : List Char :=
  if n < 0 then '-' :: digitsAux (n.natAbs + 1) n.natAbs else digitsAux (n.natAbs + 1) n.natAbs

/-- `int(x)`: truncation. -/
def trunc (x : ℚ) : Int := if 0 ≤ x then ⌊x⌋ else -⌊-x⌋

/-- quantities.py 352-356: the exponent.  `repr` is `str` for floating point numbers. -/
def strExp (repr : ℚ → List Char) (val : ℚ) : List Char :=
  if val ≠ 1 then
    '^' :: (if |val - trunc val| ≤ 1 / 10000000 * |val| then strInt (trunc val) else repr val)
  else []

/-- quantities.py 333-372 `_strunit`. -/
def strunit (repr : ℚ → List Char) (u : UnitD) : List Char :=
  if u.length = 0 then []
  else
    let hasPos := u.any fun p => 0 ≤ p.2
    let r := (sortedItems u).flatMap fun p =>
      if p.2 < 0 ∧ hasPos then [] else ' ' :: p.1 ++ strExp repr p.2
    if !hasPos then r.drop 1
    else
      let r' := (sortedItems u).flatMap fun p =>
        if 0 ≤ p.2 then [] else ' ' :: '/' :: ' ' :: p.1 ++ strExp repr (-p.2)
      (r ++ r').drop 1

/-! ### Quantities -/

/-- Power with a rational exponent: `magnitude**val` in floating point. -/
class RatPow (K : Type) where
  rpow : K → ℚ → K

/-- quantities.py 389: a quantity. -/
structure Q (K : Type) where
  mag : K
  unit : UnitD
  deriving DecidableEq

/-- The keys of the tables of derived units: a symbol, or a symbol with an exponent (such as `('rad', 2)`, quantities.py
1346). -/
inductive DKey
  | sym (s : Sym)
  | pow (s : Sym) (e : ℚ)
  deriving DecidableEq

/-- An entry: its value is `None` for the base units, or a quantity; `rightward` is the suffix of the key. -/
structure DEntry (K : Type) where
  key : DKey
  rightward : Bool
  value : Option (Q K)
  deriving DecidableEq

/-- A table of derived units. -/
abbrev DTable (K : Type) := List (DEntry K)

section
variable {K : Type} [Field K] [RatPow K]

/-- A unit written in the table of quantities.py 1304-1358. -/
def parsed (s : String) : UnitD := match extract s.toList with
  | .ok u => u
  | .error _ => []

/-- A base unit of the table. -/
def baseUnit (s : String) : DEntry K := ⟨.sym s.toList, false, none⟩

/-- A derived unit of the table. -/
def derivedUnit (s : String) (x : K) (u : String) : DEntry K := ⟨.sym s.toList, false, some ⟨x, parsed u⟩⟩

/-- quantities.py 1304-1369 `units_table`.  `pi` is `np.pi`; `scale` and `reference` are the values returned by
`pixel_to_pixel_reference` and `pixel_reference_to_solid_angle` (1 and `None` for an input without header). -/
def unitsTable (pi scale : K) (reference : Option (Q K)) : DTable K :=
  [baseUnit "A", baseUnit "cd", baseUnit "K", baseUnit "kg", baseUnit "m", baseUnit "mol", baseUnit "rad", baseUnit "s",
   baseUnit "sr",
   derivedUnit "'" 1 "arcmin", derivedUnit "\"" 1 "arcsec", derivedUnit "arcmin" (1 / 60) "deg",
   derivedUnit "arcsec" (1 / 3600) "deg", derivedUnit "deg" (pi / 180) "rad",
   derivedUnit "uJy" (1 / 10 ^ 6) "Jy", derivedUnit "mJy" (1 / 10 ^ 3) "Jy", derivedUnit "Jy" (1 / 10 ^ 26) "W/Hz/m^2",
   derivedUnit "MJy" (10 ^ 6) "Jy", derivedUnit "N" 1 "kg m / s^2", derivedUnit "Hz" 1 "s^-1",
   derivedUnit "J" 1 "kg m^2 / s^2", derivedUnit "AU" 149597870700 "m", derivedUnit "km" 1000 "m",
   derivedUnit "mm" (1 / 10 ^ 3) "m", derivedUnit "um" (1 / 10 ^ 6) "m", derivedUnit "pc" (30857 * 10 ^ 12) "m",
   derivedUnit "W" 1 "kg m^2 / s^3", derivedUnit "atm" 101325 "Pa", derivedUnit "bar" (10 ^ 5) "Pa",
   derivedUnit "mmHg" (1 / 760) "atm", derivedUnit "cmHg" 10 "mmHg", derivedUnit "Pa" 1 "kg / m / s^2",
   derivedUnit "Torr" 1 "mmHg", derivedUnit "Ohm" 1 "V/A",
   ⟨.pow "rad".toList 2, false, some ⟨1, parsed "sr"⟩⟩,
   ⟨.sym "pixel".toList, false, some ⟨scale, parsed "pixel_reference"⟩⟩,
   ⟨.sym "pixel_reference".toList, false, reference⟩,
   derivedUnit "ms" (1 / 10 ^ 3) "s", derivedUnit "us" (1 / 10 ^ 6) "s", derivedUnit "C" 1 "A s",
   derivedUnit "V" 1 "kg m^2 / A / s^3"]

/-- quantities.py 1227-1252 `_get_du` and `_check_in_du`: the first entry with the key. -/
def getDu (T : DTable K) (key : DKey) : Option (Q K × Bool) :=
  match T.find? fun e => e.key = key with
  | none => none
  | some e => e.value.map fun v => (v, e.rightward)

/-- `key in derived_units`. -/
def hasKey (T : DTable K) (key : DKey) : Bool := T.any fun e => e.key = key

/-- `1 / du`. -/
def recip (q : Q K) : Q K := ⟨1 / q.mag, divUnit [] q.unit⟩

/-- `du**val`. -/
def powQ (q : Q K) (val : ℚ) : Q K := ⟨RatPow.rpow q.mag val, powUnit q.unit val⟩

/-- `q1 * q2`. -/
def mulQ (q1 q2 : Q K) : Q K := ⟨q1.mag * q2.mag, mulUnit q1.unit q2.unit⟩

/-- `q1 / q2`. -/
def divQ (q1 q2 : Q K) : Q K := ⟨q1.mag / q2.mag, divUnit q1.unit q2.unit⟩

/-- quantities.py 1208-1224 `_check_du` before the expansion in SI units. -/
def checkDu (T : DTable K) (key : Sym) (val : ℚ) : Option (Q K × Bool) :=
  if T.length = 0 then none
  else if hasKey T (.pow key val) then getDu T (.pow key val)
  else if hasKey T (.pow key (-val)) then (getDu T (.pow key (-val))).map fun (du, b) => (recip du, b)
  else (getDu T (.sym key)).map fun (du, b) =>
    (if val = 1 then du else if val = -1 then recip du else powQ du val, b)

/-- quantities.py 1099-1109: the definition of a factor of a unit, in the local table or in the global one. -/
def define (L G : DTable K) (key : Sym) (val : ℚ) : Option (Q K × Bool) :=
  match checkDu L key val with
  | some d => some d
  | none => checkDu G key val

/-- quantities.py 1082-1123 `SI`.  The first argument bounds the depth of the recursion. -/
def si : Nat → DTable K → DTable K → Q K → Res (Q K)
  | 0, _, _, _ => .error .recursionError
  | n + 1, L, G, q =>
    if q.unit.length = 0 then .ok q
    else
      (q.unit.foldlM (fun (f : Q K × Q K) (p : Sym × ℚ) =>
        match define L G p.1 p.2 with
        | none => (.ok ({ f.1 with unit := mulInplace f.1.unit p.1 p.2 }, f.2) : Res (Q K × Q K))
        | some (du, rightward) => (si n L G du).map fun d =>
            if rightward then (f.1, mulQ f.2 d) else (mulQ f.1 d, f.2)) (⟨1, []⟩, ⟨1, []⟩)).map fun (f : Q K × Q K) =>
        ⟨q.mag * f.1.mag * f.2.mag, mulUnit f.1.unit f.2.unit⟩

/-- quantities.py 1028-1080 `inunit` (without header): the quantity after the call, and the exception if any. -/
def inunit (n : Nat) (L G : DTable K) (q : Q K) (newunit : UnitD) : Q K × Option PyErr :=
  if q.unit.length = 0 ∨ newunit.length = 0 then ({ q with unit := newunit }, none)
  else
    match si n L G ⟨1, q.unit⟩ with
    | .error e => (q, some e)
    | .ok q1 =>
      match si n L G ⟨1, newunit⟩ with
      | .error e => (q, some e)
      | .ok q2 =>
        if !dictEq q1.unit q2.unit then (q, some .unitError)
        else ({ mag := q.mag * (q1.mag / q2.mag), unit := newunit }, none)

/-- quantities.py 1001-1026 `tounit`: conversion of a copy. -/
def tounit (n : Nat) (L G : DTable K) (q : Q K) (newunit : UnitD) : Res (Q K) :=
  match inunit n L G q newunit with
  | (q', none) => .ok q'
  | (_, some e) => .error e

/-- quantities.py 718-730 `_get_inputs_with_common_units`; the arrays without unit and the numbers have the empty
unit. -/
def commonInputs (n : Nat) (L G : DTable K) (qs : List (Q K)) : Res (List (Q K) × UnitD) :=
  let common := ((qs.map (·.unit)).find? fun u => u.length ≠ 0).getD []
  (qs.mapM fun q =>
    if q.unit.length ≠ 0 ∧ !dictEq q.unit common then tounit n L G q common else .ok q).map fun qs => (qs, common)

/-- quantities.py 739-748: the ufuncs of two arguments whose operands are converted: `add`, `subtract`, `maximum`, `minimum`, `hypot`,
`fmod`; `f` is the function. -/
def ufuncSame (n : Nat) (L G : DTable K) (f : K → K → K) (a b : Q K) : Res (Q K) :=
  (commonInputs n L G [a, b]).bind fun (qs, common) =>
    match qs with
    | [a', b'] => .ok ⟨f a'.mag b'.mag, common⟩
    | _ => .error .typeError

/-- quantities.py 750-759: the comparisons. -/
def ufuncCompare (n : Nat) (L G : DTable K) (f : K → K → Bool) (a b : Q K) : Res Bool :=
  (commonInputs n L G [a, b]).bind fun (qs, _) =>
    match qs with
    | [a', b'] => .ok (f a'.mag b'.mag)
    | _ => .error .typeError

/-- quantities.py 761-776: the functions that keep the unit of `self` (the first operand that is a quantity): `copysign`, `fmax`,
`fmin`, `float_power`... -/
def ufuncSelf (f : K → K → K) (a b : Q K) (self : UnitD) : Q K := ⟨f a.mag b.mag, self⟩

/-- quantities.py 778-797: `reciprocal`, `cbrt`, `sqrt`, `square`, `power`. -/
def ufuncPower (f : K → K) (power : ℚ) (a : Q K) : Q K := ⟨f a.mag, powUnit a.unit power⟩

end
end Verif.Units
