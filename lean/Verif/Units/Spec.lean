import Verif.Units.Model
import Mathlib.Algebra.Order.Field.Basic
import Mathlib.Data.Nat.Digits.Defs

/-!
Vocabulary of the properties of units and quantities, independent of the functions of the model.
-/
namespace Verif.Units
open Verif.Py

/-- The exponent of a symbol in a unit. -/
def expo (u : UnitD) (s : Sym) : ℚ := ((u.filter fun p => p.1 = s).map Prod.snd).sum

/-- A Python dictionary: no duplicate key. -/
def Wf (u : UnitD) : Prop := (u.map Prod.fst).Nodup

instance (u : UnitD) : Decidable (Wf u) := inferInstanceAs (Decidable (List.Nodup _))

/-- No symbol is stored with exponent zero. -/
def NoZero (u : UnitD) : Prop := ∀ p ∈ u, p.2 ≠ 0

/-- A canonical unit. -/
def Canonical (u : UnitD) : Prop := Wf u ∧ NoZero u

/-! ### Amounts -/

/-- Rational powers of the positive numbers. -/
class LawfulRatPow (K : Type) [Field K] [LinearOrder K] [IsStrictOrderedRing K] extends RatPow K where
  rpow_pos : ∀ (x : K) (a : ℚ), 0 < x → 0 < rpow x a
  rpow_zero : ∀ x : K, 0 < x → rpow x 0 = 1
  rpow_one : ∀ x : K, 0 < x → rpow x 1 = x
  rpow_add : ∀ (x : K) (a b : ℚ), 0 < x → rpow x (a + b) = rpow x a * rpow x b
  rpow_mul : ∀ (x : K) (a b : ℚ), 0 < x → rpow x (a * b) = rpow (rpow x a) b
  mul_rpow : ∀ (x y : K) (a : ℚ), 0 < x → 0 < y → rpow (x * y) a = rpow x a * rpow y a

section
variable {K : Type} [Field K] [RatPow K]

/-- The value of a unit, given the value of each symbol. -/
def value (v : Sym → K) (u : UnitD) : K := (u.map fun p => RatPow.rpow (v p.1) p.2).prod

/-- The physical amount of a quantity, given the value of each symbol. -/
def amount (v : Sym → K) (q : Q K) : K := q.mag * value v q.unit

/-- The symbol of a key. -/
def DKey.symbol : DKey → Sym
  | .sym s => s
  | .pow s _ => s

/-- The values of the symbols satisfy the equation of a table entry. -/
def EntryOk (v : Sym → K) (e : DEntry K) : Prop :=
  match e.value, e.key with
  | none, _ => True
  | some d, .sym s => v s = amount v d
  | some d, .pow s x => RatPow.rpow (v s) x = amount v d

/-- The local table has a definition that takes precedence over the entry of the global table. -/
def Shadowed (L : DTable K) (e : DEntry K) : Prop :=
  ∃ e' ∈ L, e'.key = .sym e.key.symbol ∨ ∃ x y, e.key = .pow e.key.symbol x ∧ e'.key = .pow e.key.symbol y ∧ (y = x ∨ y = -x)

/-- The values of the symbols are positive and satisfy the equations of the tables. -/
structure Valuation [LinearOrder K] (L G : DTable K) (v : Sym → K) : Prop where
  pos : ∀ s, 0 < v s
  loc : ∀ e ∈ L, EntryOk v e
  glob : ∀ e ∈ G, ¬ Shadowed L e → EntryOk v e

/-- The scale factors are positive, the units are dictionaries and the entries of the local table are definitions. -/
structure GoodTables [LinearOrder K] (L G : DTable K) : Prop where
  defined : ∀ e ∈ L, e.value ≠ none
  pos : ∀ e ∈ L ++ G, ∀ d ∈ e.value, 0 < d.mag
  wf : ∀ e ∈ L ++ G, ∀ d ∈ e.value, Wf d.unit

/-- The definitions are well-founded: a symbol is defined by symbols of smaller rank. -/
def Ranked (L G : DTable K) (rank : Sym → Nat) : Prop :=
  ∀ e ∈ L ++ G, ∀ d ∈ e.value, ∀ p ∈ d.unit, rank p.1 < rank e.key.symbol

/-- No definition for powers of symbols. -/
def NoPow (T : DTable K) : Prop := ∀ e ∈ T, ∃ s, e.key = .sym s

/-- The symbol has no definition. -/
def IsBase (L G : DTable K) (s : Sym) : Prop :=
  ∀ e ∈ L ++ G, e.key = .sym s → e.value = none

/-- The global table is a dictionary, whose entries for powers of symbols are definitions. -/
structure GoodGlobal (G : DTable K) : Prop where
  unique : (G.map (·.key)).Nodup
  pow : ∀ e ∈ G, ∀ s x, e.key = .pow s x → e.value ≠ none

/-- The ratio of two units depends on the values of the symbols: they are not commensurable. -/
def Incompatible [LinearOrder K] (L G : DTable K) (u w : UnitD) : Prop :=
  ∃ v v' : Sym → K, Valuation L G v ∧ Valuation L G v' ∧ value v u / value v w ≠ value v' u / value v' w

end

/-! ### Grammar of the unit strings -/

/-- A written number: sign, digits, digits after the decimal point. -/
structure Numeral where
  neg : Bool
  int : List Char
  frac : Option (List Char)

/-- The value of decimal digits. -/
def digitsValue (s : List Char) : Nat := Nat.ofDigits 10 (s.map fun c => c.toNat - '0'.toNat).reverse

/-- The value of a written number. -/
def Numeral.value (x : Numeral) : ℚ :=
  let a : ℚ := digitsValue x.int + (match x.frac with
    | none => 0
    | some f => (digitsValue f : ℚ) / 10 ^ f.length)
  if x.neg then -a else a

def Numeral.chars (x : Numeral) : List Char :=
  (if x.neg then ['-'] else []) ++ x.int ++ (match x.frac with
    | none => []
    | some f => '.' :: f)

def Numeral.Good (x : Numeral) : Prop :=
  x.int ≠ [] ∧ (∀ c ∈ x.int, '0' ≤ c ∧ c ≤ '9') ∧ ∀ f ∈ x.frac, ∀ c ∈ f, '0' ≤ c ∧ c ≤ '9'

/-- The operator before a symbol. -/
inductive UOp
  | none | times | over
  deriving DecidableEq

/-- A factor of a unit: operator, spaces, symbol, exponent, spaces. -/
structure Factor where
  op : UOp
  spaces : Nat
  sym : Sym
  exp : Option Numeral
  trail : Nat

/-- The characters of an exponent. -/
def expChars : Option Numeral → List Char
  | none => []
  | some x => '^' :: x.chars

/-- The characters of a factor. -/
def Factor.chars (t : Factor) : List Char :=
  (match t.op with
    | .none => []
    | .times => '*' :: List.replicate t.spaces ' '
    | .over => '/' :: List.replicate t.spaces ' ') ++ t.sym ++ expChars t.exp ++ List.replicate t.trail ' '

/-- A letter, an underscore or a quote. -/
def Letter (c : Char) : Prop := ('a' ≤ c ∧ c ≤ 'z') ∨ ('A' ≤ c ∧ c ≤ 'Z') ∨ c = '_' ∨ c = '"' ∨ c = '\''

/-- A symbol made of letters. -/
def Word (s : Sym) : Prop := s ≠ [] ∧ ∀ c ∈ s, Letter c

/-- A symbol made of question marks. -/
def Marks (s : Sym) : Prop := s ≠ [] ∧ ∀ c ∈ s, c = '?'

def Factor.Good (t : Factor) : Prop := (Word t.sym ∨ Marks t.sym) ∧ ∀ x ∈ t.exp, x.Good

/-- The exponent of a factor. -/
def Factor.expo (t : Factor) : ℚ :=
  let x := match t.exp with
    | none => 1
    | some x => x.value
  if t.op = .over then -x else x

/-- Two successive factors cannot be mistaken for a single one. -/
def Separated (t t' : Factor) : Prop :=
  0 < t.trail ∨ t'.op ≠ .none ∨ t.exp.isSome ∨ ¬ (Word t.sym ↔ Word t'.sym)

/-- A unit string. -/
structure Grammar (ts : List Factor) : Prop where
  good : ∀ t ∈ ts, t.Good
  separated : ts.IsChain Separated

/-- The total exponent of a symbol in a unit string. -/
def factorsExpo (ts : List Factor) (s : Sym) : ℚ := ((ts.filter fun t => t.sym = s).map Factor.expo).sum

/-- The unit string. -/
def factorsChars (ts : List Factor) : List Char := ts.flatMap Factor.chars

/-- White space (ASCII). -/
def White (c : Char) : Prop := c = ' ' ∨ ('\t' ≤ c ∧ c ≤ '\r') ∨ (Char.ofNat 28 ≤ c ∧ c ≤ Char.ofNat 31)

/-- `t` is `s` without the surrounding white space. -/
def IsStrip (s t : List Char) : Prop :=
  ∃ a b, s = a ++ t ++ b ∧ (∀ c ∈ a, White c) ∧ (∀ c ∈ b, White c) ∧ (∀ c ∈ t.head?, ¬ White c) ∧ ∀ c ∈ t.getLast?, ¬ White c

end Verif.Units
