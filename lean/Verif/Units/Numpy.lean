import Verif.Units.PropsQuantity

/-!
Model of the functions of NumPy applied to quantities (`Quantity.__array_function__`).

Arrays are one-dimensional (a two-dimensional quantity given to `concatenate` is the sequence of its rows); the values
returned by a function of NumPy are given by an arbitrary Lean function on arrays without units, which may raise an
exception.  Keyword arguments and the modification in place of the first argument by `fill_diagonal` are left out.
-/
namespace Verif.Units
open Verif.Py

/-- quantities.py 43-53 `ConversionInput`. -/
inductive Input
  | first | second | sequence | sequenceExceptFirst | firstSequence | firstNested | secondSequence | firstAndSecond
  | firstAndThird | secondAndThird
  deriving DecidableEq

/-- quantities.py 56-63 `ConversionOutput`. -/
inductive Output
  | default | sequence | firstIfSequence | firstInSequence | none
  deriving DecidableEq

/-- quantities.py 66-73 `ConversionAction`. -/
inductive Action
  | same | each | square | prod | unitless
  deriving DecidableEq

/-- quantities.py 76-80 `ConversionType`. -/
structure Conv where
  input : Input := .first
  output : Output := .default
  action : Action := .same
  deriving DecidableEq

/-- quantities.py 85-226 `FUNCTIONS`, with the functions of NumPy 2.1. -/
def functions : List (String × Conv) :=
  [("amax", {}), ("amin", {}), ("append", { input := .firstAndSecond }), ("around", {}),
   ("array_split", { output := .sequence }), ("atleast_1d", {}), ("atleast_2d", {}), ("atleast_3d", {}), ("average", {}),
   ("broadcast_arrays", { input := .sequence, output := .sequence, action := .each }), ("broadcast_to", {}),
   ("choose", { input := .secondSequence }), ("clip", {}), ("column_stack", { input := .firstSequence }),
   ("compress", { input := .second }), ("concat", { input := .firstSequence }),
   ("concatenate", { input := .firstSequence }), ("convolve", { input := .firstAndSecond, action := .prod }),
   ("copy", {}), ("correlate", { input := .firstAndSecond, action := .prod }),
   ("cov", { input := .firstAndSecond, action := .prod }), ("cross", { input := .firstAndSecond, action := .prod }),
   ("cumsum", {}), ("cumulative_sum", {}), ("delete", {}), ("diag", {}), ("diagflat", {}), ("diagonal", {}), ("diff", {}),
   ("dot", { input := .firstAndSecond, action := .prod }), ("dsplit", { output := .sequence }),
   ("dstack", { input := .firstSequence }), ("einsum", { input := .sequenceExceptFirst, action := .prod }),
   ("expand_dims", {}), ("extract", { input := .second }),
   ("fill_diagonal", { input := .firstAndSecond, output := .none }), ("fix", {}), ("flip", {}), ("fliplr", {}),
   ("flipud", {}), ("hsplit", { output := .sequence }), ("hstack", { input := .firstSequence }), ("imag", {}),
   ("inner", { input := .firstAndSecond, action := .prod }), ("insert", { input := .firstAndThird }), ("interp", {}),
   ("intersect1d", { input := .firstAndSecond }), ("kron", { input := .firstAndSecond, action := .prod }), ("max", {}),
   ("mean", {}), ("median", {}), ("min", {}), ("moveaxis", {}), ("nan_to_num", {}), ("nancumsum", {}), ("nanmax", {}),
   ("nanmean", {}), ("nanmedian", {}), ("nanmin", {}), ("nanstd", {}), ("nansum", {}),
   ("nanvar", { action := .square }), ("outer", { input := .firstAndSecond, action := .prod }), ("pad", {}),
   ("partition", {}), ("permute_dims", {}), ("ptp", {}), ("ravel", {}), ("real", {}), ("real_if_close", {}),
   ("repeat", {}), ("reshape", {}), ("resize", {}), ("roll", {}), ("rollaxis", {}), ("rot90", {}), ("round", {}),
   ("row_stack", { input := .firstSequence }), ("select", { input := .secondSequence }),
   ("setdiff1d", { input := .firstAndSecond }), ("setxor1d", { input := .firstAndSecond }), ("sort", {}),
   ("sort_complex", {}), ("split", { output := .sequence }), ("squeeze", {}), ("stack", { input := .firstSequence }),
   ("std", {}), ("sum", {}), ("swapaxes", {}), ("take", {}), ("take_along_axis", {}),
   ("tensordot", { input := .firstAndSecond, action := .prod }), ("tile", {}), ("trace", {}), ("transpose", {}),
   ("trim_zeros", {}), ("union1d", { input := .firstAndSecond }), ("unique", { output := .firstIfSequence }),
   ("unique_all", { output := .firstInSequence }), ("unique_values", {}), ("unstack", { output := .sequence }),
   ("unwrap", {}), ("var", { action := .square }), ("vdot", { input := .firstAndSecond, action := .prod }),
   ("vsplit", { output := .sequence }), ("vstack", { input := .firstSequence }),
   ("where", { input := .secondAndThird })]

/-- quantities.py 497 `FUNCTIONS.get(func)`. -/
def conversionOf (name : String) : Option Conv := (functions.find? fun p => p.1 == name).map Prod.snd

section
variable (K : Type)

/-- An array: a quantity with its unit and its own derived units, or a plain array (without unit). -/
structure Arr where
  isQ : Bool
  mags : List K
  unit : UnitD
  derived : DTable K

/-- An argument of a function: an array, a sequence of arrays, or another object such as an axis. -/
inductive Arg
  | arr (a : Arr K)
  | seq (l : List (Arr K))
  | other (n : Int)

/-- An argument without units. -/
inductive Raw
  | arr (x : List K)
  | seq (l : List (List K))
  | other (n : Int)
  deriving DecidableEq

/-- The value returned by a function of NumPy. -/
inductive Out
  | one (x : List K)
  | many (l : List (List K))
  | none
  deriving DecidableEq

/-- The value returned by a function on quantities. -/
inductive Result
  | one (a : Arr K)
  | many (l : List (Arr K))
  | none

/-- A function of NumPy on plain arrays. -/
abbrev NpFunc := List (Raw K) → Res (Out K)

end

section
variable {K : Type} [Field K] [RatPow K]

/-- `args[i]`. -/
def item {α : Type} (args : List α) (i : Nat) : Res α := match args[i]? with
  | some a => .ok a
  | none => .error .indexError

/-- quantities.py 713-717 `_get_units`. -/
def Arr.units (a : Arr K) : UnitD := if a.isQ then a.unit else []

/-- quantities.py 713-717 `_get_units` of an argument that is an array, a sequence or another object. -/
def Arg.units : Arg K → UnitD
  | .arr a => a.units
  | .seq _ => []
  | .other _ => []

/-- The elements of an argument when it is iterated over: those of a one-dimensional array are plain numbers. -/
def Arg.elements : Arg K → Res (List (Arr K))
  | .arr a => .ok (a.mags.map fun x => ⟨false, [x], [], []⟩)
  | .seq l => .ok l
  | .other _ => .error .typeError

/-- quantities.py 516-540 `_get_function_input_units`. -/
def inputUnits (args : List (Arg K)) : Input → Res (List UnitD)
  | .first => (item args 0).map fun a => [a.units]
  | .second => (item args 1).map fun a => [a.units]
  | .sequence => .ok (args.map Arg.units)
  | .sequenceExceptFirst => .ok ((args.drop 1).map Arg.units)
  | .firstAndSecond => (item args 0).bind fun a => (item args 1).map fun b => [a.units, b.units]
  | .secondAndThird => (item args 1).bind fun a => (item args 2).map fun b => [a.units, b.units]
  | .firstAndThird => (item args 0).bind fun a => (item args 2).map fun b => [a.units, b.units]
  | .firstSequence => ((item args 0).bind Arg.elements).map fun l => l.map Arr.units
  | .secondSequence => ((item args 1).bind Arg.elements).map fun l => l.map Arr.units
  | .firstNested => .error .runtimeError

/-- A dictionary, or a tuple of dictionaries. -/
inductive OutUnits
  | unit (u : UnitD)
  | tuple (l : List UnitD)

/-- quantities.py 542-560 `_get_function_output_units`. -/
def outputUnits (us : List UnitD) : Action → Res OutUnits
  | .same => .ok (.unit ((us.find? fun u => u.length ≠ 0).getD []))
  | .each => .ok (.tuple us)
  | .square => (item us 0).map fun u => .unit (powUnit u 2)
  | .prod => match us with
    | [] => .error .indexError
    | u :: us => .ok (.unit (us.foldl mulUnit u))
  | .unitless => .error .runtimeError

/-- `array.tounit(common_unit)`. -/
def tounitArr (n : Nat) (G : DTable K) (a : Arr K) (u : UnitD) : Res (Arr K) :=
  (tounit n a.derived G ⟨1, a.unit⟩ u).map fun r => { a with mags := a.mags.map (· * r.mag), unit := u }

/-- quantities.py 593-600 and 622-628: conversion of an array into the common unit. -/
def convertArr (n : Nat) (G : DTable K) (u : UnitD) (a : Arr K) : Res (Arr K) :=
  if a.isQ ∧ a.unit.length ≠ 0 ∧ !dictEq a.unit u then tounitArr n G a u else .ok a

/-- quantities.py 587-592 and 638-643: the argument is a sequence of arrays. -/
def isSequence (mode : Input) (i : Nat) : Bool :=
  i == 0 && mode = .firstSequence || i == 1 && mode = .secondSequence

/-- quantities.py 601-621: the argument is an array to be converted. -/
def isConverted (mode : Input) (i : Nat) : Bool :=
  i == 0 && (mode = .first || mode = .firstAndSecond || mode = .firstAndThird) ||
  i == 1 && (mode = .second || mode = .firstAndSecond || mode = .secondAndThird) ||
  i == 2 && (mode = .firstAndThird || mode = .secondAndThird) ||
  i > 0 && mode = .sequenceExceptFirst || mode = .sequence

/-- quantities.py 587-629: conversion of an argument into the common unit. -/
def convertArg (n : Nat) (G : DTable K) (u : UnitD) (mode : Input) (i : Nat) (a : Arg K) : Res (Arg K) :=
  if isSequence mode i then (a.elements.bind fun l => l.mapM (convertArr n G u)).map .seq
  else if isConverted mode i then
    match a with
    | .arr a => (convertArr n G u a).map .arr
    | a => .ok a
  else .ok a

/-- `enumerate` with the conversion of each argument. -/
def convertAll (n : Nat) (G : DTable K) (u : UnitD) (mode : Input) : Nat → List (Arg K) → Res (List (Arg K))
  | _, [] => .ok []
  | i, a :: args => (convertArg n G u mode i a).bind fun a =>
      (convertAll n G u mode (i + 1) args).map fun args => a :: args

/-- quantities.py 562-630 `_convert_function_inputs`. -/
def convertInputs (n : Nat) (G : DTable K) (args : List (Arg K)) (units : OutUnits) (conv : Conv) : Res (List (Arg K)) :=
  if conv.action ≠ .same ∨ conv.input = .first ∨ conv.input = .second then .ok args
  else
    match units with
    | .tuple _ => .error .runtimeError
    | .unit u => if u.length = 0 then .ok args else convertAll n G u conv.input 0 args

/-- quantities.py 638-658: the values of an argument. -/
def viewArg (mode : Input) (i : Nat) (a : Arg K) : Res (Raw K) :=
  if isSequence mode i then a.elements.map fun l => .seq (l.map (·.mags))
  else
    match a with
    | .arr a => .ok (.arr a.mags)
    | .seq l => .ok (.seq (l.map (·.mags)))
    | .other n => .ok (.other n)

/-- quantities.py 632-648 `_view_function_inputs`, from the argument number `i`. -/
def viewAll (mode : Input) : Nat → List (Arg K) → Res (List (Raw K))
  | _, [] => .ok []
  | i, a :: args => (viewArg mode i a).bind fun a => (viewAll mode (i + 1) args).map fun args => a :: args

/-- quantities.py 689-697: the output number `i` is converted to a quantity. -/
def isOutput (mode : Output) (i : Nat) : Bool :=
  i == 0 && (mode = .firstIfSequence || mode = .firstInSequence) || mode = .sequence

/-- quantities.py 687-701: the outputs from the output number `i`. -/
def wrapAll (self : Arr K) (mode : Output) : Nat → List (List K) → List UnitD → List (Arr K)
  | i, x :: xs, u :: us =>
    (if isOutput mode i then ⟨true, x, u, self.derived⟩ else ⟨false, x, [], []⟩) :: wrapAll self mode (i + 1) xs us
  | _, _, _ => []

/-- quantities.py 660-707 `_convert_function_outputs`. -/
def convertOutputs (self : Arr K) (out : Out K) (units : OutUnits) (conv : Conv) : Res (Result K) :=
  match out, units with
  | .none, _ => .error .typeError
  | .one x, .unit u => .ok (.one ⟨true, x, u, self.derived⟩)
  | .one _, .tuple _ => .error .typeError
  | .many l, .unit u => .ok (.many (wrapAll self conv.output 0 l (List.replicate l.length u)))
  | .many l, .tuple us => .ok (.many (wrapAll self conv.output 0 l us))

/-- quantities.py 490-514 `__array_function__`, for a function of the table; `self` is the quantity whose method is
called. -/
def arrayFunction (n : Nat) (G : DTable K) (self : Arr K) (conv : Conv) (f : NpFunc K) (args : List (Arg K)) : Res (Result K) :=
  (inputUnits args conv.input).bind fun us =>
  (outputUnits us conv.action).bind fun units =>
  (convertInputs n G args units conv).bind fun args' =>
  (viewAll conv.input 0 args').bind fun raw =>
  (f raw).bind fun out =>
    if conv.output = .none then .ok .none else convertOutputs self out units conv

end
end Verif.Units
