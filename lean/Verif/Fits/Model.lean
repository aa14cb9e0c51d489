/-
The text of FITS headers, as it is read by the Fortran library: /repo/src/flib/module_fitstools.f90, with the strings of
/repo/src/flib/module_string.f90.
-/
import Verif.Py.Basic
import Verif.Py.Lemmas
import Mathlib.Data.List.DropRight
import Mathlib.Tactic

namespace Verif.Fits
open Verif.Py

/-! ### The strings of Fortran

A variable of type `character(len=n)` is a list of n characters.  These definitions are those of the language: they are part of the trusted base. -/

abbrev Str := List Char

/-- The assignment to a variable of n characters: the string is truncated or padded with blanks. -/
def pad (n : Nat) (s : Str) : Str := s.take n ++ List.replicate (n - s.length) ' '

/-- `trim`. -/
def trim (s : Str) : Str := s.rdropWhile (· = ' ')

/-- `adjustl`. -/
def adjustl (s : Str) : Str := pad s.length (s.dropWhile (· = ' '))

/-- The comparison `==`: the shortest string is padded with blanks. -/
def same (a b : Str) : Bool := trim a = trim b

/-- The character s(i:i). -/
def ch (s : Str) (i : Nat) : Res Char :=
  if 1 ≤ i then (match s[i - 1]? with | some c => .ok c | none => .error .outOfBounds) else .error .outOfBounds

/-- The substring s(i:j), which is empty if j < i. -/
def sub (s : Str) (i j : Nat) : Res Str :=
  if j < i then .ok []
  else if 1 ≤ i ∧ j ≤ s.length then .ok ((s.drop (i - 1)).take (j + 1 - i)) else .error .outOfBounds

/-! ### The model -/

/-- One iteration of `strlowcase` (module_string.f90 46-47). -/
def lowChar (c : Char) : Char := if 65 ≤ c.toNat ∧ c.toNat < 90 then Char.ofNat (c.toNat + 32) else c

/-- `strlowcase` (module_string.f90 37-50). -/
def strlowcase (input : Str) : Str := input.map lowChar

/-- One iteration of `strupcase` (module_string.f90 66-67). -/
def upChar (c : Char) : Char := if 97 ≤ c.toNat ∧ c.toNat < 122 then Char.ofNat (c.toNat - 32) else c

/-- `strupcase` (module_string.f90 57-70). -/
def strupcase (input : Str) : Str := input.map upChar

/-- The search of the card (module_fitstools.f90 66-71), from the card `ikeyword`, for a number of cards: the number of the card. -/
def findCard (header keyword : Str) : Nat → Nat → Res (Option Nat)
  | 0, _ => .ok none
  | n + 1, ikeyword => do
    let name ← sub header ((ikeyword - 1) * 80 + 1) ((ikeyword - 1) * 80 + 8)
    if same (strlowcase name) keyword then return some ikeyword else findCard header keyword n (ikeyword + 1)

/-- The search of the quote (module_fitstools.f90 95-103): the index, and whether the program jumps to the label 999. -/
def findQuote (buffer : Str) (i : Nat) : Res (Nat × Bool) :=
  if h : i ≤ 70 then do
    let c ← ch buffer i
    if c = '\'' then
      if i + 1 = 71 then return (i + 1, true)
      let c ← ch buffer (i + 1)
      if c ≠ '\'' then return (i + 1, false)
      findQuote buffer (i + 2)
    else findQuote buffer (i + 1)
  else .ok (i, false)
termination_by 71 - i

/-- The search of the slash (module_fitstools.f90 106-109). -/
def findSlash (buffer : Str) (i : Nat) : Res Nat :=
  if h : i ≤ 70 then do
    let c ← ch buffer i
    if c = '/' then return i else findSlash buffer (i + 1)
  else .ok i
termination_by 71 - i

/-- The position of the slash if there are no quotes (module_fitstools.f90 88-91). -/
def slashIndex (buffer : Str) : Nat := match buffer.findIdx? (· = '/') with | some k => k + 1 | none => 71

/-- The value and the comment of a card from its eleventh character (module_fitstools.f90 85-113): VALUE has 70 characters and COMMENT 72. -/
def valueComment (field : Str) : Res (Str × Str) := do
  let buffer := pad 70 (adjustl field)
  let c ← ch buffer 1
  let i ← if c ≠ '\'' then
      (.ok (slashIndex buffer) : Res Nat)
    else do
      let (i, jump) ← findQuote buffer 2
      if jump then return (pad 70 (← sub buffer 1 (i - 1)), pad 72 (← sub buffer (i + 1) 70))
      findSlash buffer i
  return (pad 70 (← sub buffer 1 (i - 1)), pad 72 (← sub buffer (i + 1) 70))

/-- What is returned by `get_keyword`. -/
structure Keyword where
  value : Str
  found : Bool
  comment : Str
  status : Nat
  deriving DecidableEq

/-- `get_keyword` (module_fitstools.f90 43-115). -/
def getKeyword (header keyword : Str) (mustExist : Bool) : Res Keyword := do
  let ncards := ((header.length : Int) - 1).tdiv 80 + 1
  let r ← findCard header (pad 71 (strlowcase keyword)) ncards.toNat 1
  match r with
  | none => return ⟨pad 70 [], false, pad 72 [], if mustExist then 202 else 0⟩
  | some ikeyword =>
    let field ← sub header ((ikeyword - 1) * 80 + 11) (ikeyword * 80)
    let (value, comment) ← valueComment field
    return ⟨value, true, comment, 0⟩

/-- What is returned by `ft_read_keyword`: `value` is what the variable holds. -/
structure Read (α : Type) where
  value : α
  found : Bool
  comment : Str
  status : Nat
  deriving DecidableEq

/-- `ft_read_keyword_header_logical` (module_fitstools.f90 121-150); `present` is whether the argument FOUND is present. -/
def readLogical (header keyword : Str) (present : Bool) : Res (Read Bool) := do
  let k ← getKeyword header keyword (!present)
  if k.status ≠ 0 ∨ k.found = false then return ⟨false, k.found, k.comment, k.status⟩
  let charvalue := strupcase k.value
  let n := (trim charvalue).length
  if ¬same charvalue ("FALSE".toList.take (min 5 n)) ∧ ¬same charvalue ("TRUE".toList.take (min 4 n)) then
    return ⟨false, true, k.comment, 404⟩
  let c ← ch charvalue 1
  return ⟨c = 'T', true, k.comment, 0⟩

/-- The value of digits. -/
def digitsValue : Str → Nat → Option Nat
  | [], n => some n
  | c :: s, n => if '0' ≤ c ∧ c ≤ '9' then digitsValue s (10 * n + (c.toNat - 48)) else none

/-- The edit descriptor I20 for a variable of a number of bits: the blanks are ignored, a blank field is zero, and it is an error if the field is not
an integer or if it does not fit. -/
def readI20 (bits : Nat) (s : Str) : Option Int :=
  let fits (v : Int) : Option Int := if -2 ^ (bits - 1) ≤ v ∧ v < 2 ^ (bits - 1) then some v else none
  match (s.take 20).filter (· ≠ ' ') with
  | [] => some 0
  | '-' :: d :: ds => (digitsValue (d :: ds) 0).bind fun n => fits (-(n : Int))
  | '+' :: d :: ds => (digitsValue (d :: ds) 0).bind fun n => fits n
  | ds => (digitsValue ds 0).bind fun n => fits n

/-- `ft_read_keyword_header_int4` and `ft_read_keyword_header_int8` (module_fitstools.f90 155-182, 187-214), for 32 and 64 bits.  What the variable holds after
an error of the conversion is left to the system: it is zero here. -/
def readInt (bits : Nat) (header keyword : Str) (present : Bool) : Res (Read Int) := do
  let k ← getKeyword header keyword (!present)
  if k.status ≠ 0 ∨ k.found = false then return ⟨0, k.found, k.comment, k.status⟩
  match readI20 bits k.value with
  | some v => return ⟨v, true, k.comment, 0⟩
  | none => return ⟨0, true, k.comment, 407⟩

/-- `ft_read_keyword_header_real8` (module_fitstools.f90 239-266): `real` is the list directed conversion. -/
def readReal {F : Type} [Zero F] (real : Str → Option F) (header keyword : Str) (present : Bool) : Res (Read F) := do
  let k ← getKeyword header keyword (!present)
  if k.status ≠ 0 ∨ k.found = false then return ⟨0, k.found, k.comment, k.status⟩
  match real k.value with
  | some v => return ⟨v, true, k.comment, 0⟩
  | none => return ⟨0, true, k.comment, 409⟩

/-- The assignment value(i:i) = c. -/
def setCh (value : Str) (i : Nat) (c : Char) : Res Str := if 1 ≤ i ∧ i ≤ value.length then .ok (value.set (i - 1) c) else .error .outOfBounds

/-- The copy of a quoted string (module_fitstools.f90 318-334); n is NCHARVALUE.  The next character is read even where the program does not: CHARVALUE always has one. -/
def unquote (charvalue : Str) (n i j : Nat) (value : Str) : Res Str :=
  if h : j ≤ n then do
    let c ← ch charvalue j
    let next ← ch charvalue (j + 1)
    if c = '\'' ∧ (j = n ∨ next ≠ '\'') then return value
    let value ← setCh value i c
    if j ≠ n ∧ c = '\'' ∧ next = '\'' then unquote charvalue n (i + 1) (j + 2) value
    else unquote charvalue n (i + 1) (j + 1) value
  else .ok value
termination_by n + 1 - j

/-- `ft_read_keyword_header_character` (module_fitstools.f90 292-336), for a variable which holds `old`. -/
def readCharacter (header keyword : Str) (present : Bool) (old : Str) : Res (Read Str) := do
  let k ← getKeyword header keyword (!present)
  if k.status ≠ 0 ∨ k.found = false then return ⟨old, k.found, k.comment, k.status⟩
  let c ← ch k.value 1
  if c ≠ '\'' then return ⟨pad old.length k.value, true, k.comment, 0⟩
  let charvalue := pad 70 (← sub k.value 2 (trim k.value).length)
  let value ← unquote charvalue (trim charvalue).length 1 1 (pad old.length [])
  return ⟨value, true, k.comment, 0⟩

end Verif.Fits
