import Verif.PackedTable.Props
import Mathlib.Tactic

/-!
The attributes of a table that are computed by functions (C140): src/pysimulators/packedtables/core.py 281-307 and 787-799.
-/
namespace Verif.PackedTable
open Verif.Py

/-! ### Model -/

/-- An actual argument of a call: a table, or something else. -/
inductive Actual (β : Type)
  | table (t : Table)
  | user (b : β)

/-- The kinds of callables: a function, a function of the class (a method once it is read from the table), the method of another object, an
object (or a class) that can be called. -/
inductive Kind (β : Type)
  | function
  | method
  | boundMethod (b : β)
  | object (b : β)

/-- A callable: its kind, the number of its positional parameters (`self` included), how many of them have a default value, whether it has a
parameter `*args`, the number of keyword-only parameters without default, and what it returns for the positional arguments that it receives. -/
structure Fn (α β : Type) where
  kind : Kind β
  nargs : Nat
  ndefaults : Nat
  varargs : Bool
  nkwonly : Nat
  body : List (Actual β) → Res (List α)

variable {α β : Type}

/-- The argument that Python inserts before the others, when the callable is read from the table `t`. -/
def Fn.self (f : Fn α β) (t : Table) : List (Actual β) :=
  match f.kind with
  | .function => []
  | .method => [.table t]
  | .boundMethod b => [.user b]
  | .object b => [.user b]

/-- A call with positional arguments only (Python language). -/
def Fn.call (f : Fn α β) (t : Table) (args : List (Actual β)) : Res (List α) :=
  let args := f.self t ++ args
  if f.nkwonly > 0 then .error .typeError
  else if args.length + f.ndefaults < f.nargs then .error .typeError
  else if args.length > f.nargs ∧ f.varargs = false then .error .typeError
  else f.body args

/-- What is stored in the table or in its class under a name. -/
inductive Stored (α β : Type)
  | none
  | data (x : PArg α)
  | fn (f : Fn α β)

/-- What the user reads. -/
inductive Read (α β : Type)
  | none
  | data (x : PArg α)
  | fn (g : List (Actual β) → Res (List α))

/-- A table, the names of its special attributes, and what is found under a name. -/
structure CObj (α β : Type) where
  tab : Table
  special : List String
  look : String → Option (Stored α β)

/-- The tests of `types.MethodType` (core.py 299). -/
def Kind.isMethod : Kind β → Bool
  | .method => true
  | .boundMethod _ => true
  | _ => false

/-- core.py 295-307: the number of arguments without default is compared with one or zero. -/
def evaluate (f : Fn α β) (t : Table) : Res (Read α β) :=
  let nargs := f.nargs - f.ndefaults
  if f.kind.isMethod then
    if nargs = 1 then (f.call t []).map fun l => .data (.array [l.length] l)
    else .ok (.fn (f.call t))
  else if nargs = 0 then (f.call t []).map fun l => .data (.array [l.length] l)
  else if nargs = 1 then (f.call t [.table t]).map fun l => .data (.array [l.length] l)
  else .ok (.fn fun args => f.call t (.table t :: args))

/-- core.py 281-307 `__getattribute__` (without the obsolete name `packed`).  The functions are supposed to return arrays of rows. -/
def CObj.getattr (o : CObj α β) (key : String) : Res (Read α β) :=
  match o.look key with
  | none => .error .attributeError
  | some .none => .ok .none
  | some (.data x) => .ok (.data x)
  | some (.fn f) => if key ∈ o.special then evaluate f o.tab else .ok (.fn (f.call o.tab))

/-- core.py 787-799 `UnpackedTable.__getattribute__`: `buf` and `missing` are the arguments of `unpack`. -/
def CObj.getattrAll (o : CObj α β) (buf : List α) (missing : α) (key : String) : Res (Read α β) :=
  if key ∉ o.special then .error .attributeError
  else (o.getattr key).bind fun r =>
    match r with
    | .none => .ok .none
    | .fn g => .ok (.fn fun args => (g args).bind (o.tab.unpack buf missing))
    | .data x =>
      match x with
      | .none => .ok .none
      | .scalar a => (o.tab.unpack buf missing [a]).map fun l => .data (.array o.tab.dims l)
      | .array _ rows => (o.tab.unpack buf missing rows).map fun l => .data (.array o.tab.dims l)

/-- core.py 309-345 `__getitem__`: the functions are kept.  The stored arrays are supposed to be restricted as the table (see C05). -/
def CObj.getitem (o : CObj α β) (sel : Sel) : Res (CObj α β) :=
  (o.tab.getitem sel).map fun t =>
    { o with
      tab := t
      look := fun k => match o.look k with
        | some (.data (.array _ rows)) => match numpySelect rows sel with
          | .ok r => some (.data (.array [r.length] r))
          | .error _ => none
        | x => x }

/-! ### Specification -/

/-- The number of arguments that the caller has to give. -/
def required (f : Fn α β) : Nat := f.nargs - f.ndefaults - (match f.kind with | .function => 0 | _ => 1)

/-- What an attribute given by a function is expected to be: its value if it needs nothing, its value for the table if it is a function of the
table, otherwise a function of the remaining arguments. -/
def Meaning (f : Fn α β) (t : Table) (r : Res (Read α β)) : Prop :=
  match required f with
  | 0 => r = (f.call t []).map fun l => .data (.array [l.length] l)
  | 1 => r = (f.call t [.table t]).map fun l => .data (.array [l.length] l)
  | _ => r = .ok (.fn fun args => f.call t (.table t :: args))

/-- A well formed callable: a method has the parameter `self`, which has no default. -/
def Fn.WF (f : Fn α β) : Prop :=
  f.ndefaults ≤ f.nargs ∧ match f.kind with | .function => True | _ => f.ndefaults + 1 ≤ f.nargs

/-- The function computes the attribute one component after the other. -/
def Pointwise (f : Fn α β) (g : Int → α) : Prop :=
  ∀ t index, t.index = .ok index →
    (f.kind = .function → f.body [.table t] = .ok (index.map g)) ∧ (f.kind = .method → f.body [.table t] = .ok (index.map g))

/-! ### Lemmas -/

theorem takeIdx_map {γ : Type} (g : α → γ) (l : List α) (is : List Int) : takeIdx (l.map g) is = (takeIdx l is).map (List.map g) := by
  induction is with
  | nil => rfl
  | cons i is ih =>
    simp only [takeIdx, List.length_map, List.getElem?_map]
    cases wrapIndex l.length i with
    | none => rfl
    | some k =>
      simp only [Option.bind_some]
      cases l[k]? with
      | none => rfl
      | some a =>
        simp only [Option.map_some]
        rw [ih]
        cases takeIdx l is <;> rfl

theorem takeSlice_map {γ : Type} (g : α → γ) (l : List α) (s : PySlice) : takeSlice (l.map g) s = (takeSlice l s).map (List.map g) := by
  unfold takeSlice
  rw [List.length_map]
  cases sliceIndices s l.length with
  | error e => rfl
  | ok is => exact takeIdx_map g l is

theorem takeMask_map {γ : Type} (g : α → γ) (l : List α) (m : List Bool) : takeMask (l.map g) m = (takeMask l m).map (List.map g) := by
  unfold takeMask
  rw [List.length_map]
  split
  · simp only [Except.map, Except.ok.injEq]
    rw [List.zip_map_left, List.filterMap_map, List.map_filterMap]
    congr 1
    funext p
    simp only [Function.comp, Prod.map]
    cases p.2 <;> rfl
  · rfl

theorem numpySelect_map {γ : Type} (g : α → γ) (l : List α) (sel : Sel) :
    numpySelect (l.map g) sel = (numpySelect l sel).map (List.map g) := by
  unfold numpySelect
  cases sel with
  | all => rfl
  | scalar i => exact takeIdx_map g l _
  | ints is => exact takeIdx_map g l _
  | slice s => exact takeSlice_map g l _
  | bools sh flat =>
    dsimp only
    rw [List.length_map]
    split
    · exact takeMask_map g l _
    · rfl
  | tuple its =>
    rcases its with _ | ⟨a, _ | ⟨b, r⟩⟩
    · rfl
    · cases a with
      | slice s => exact takeSlice_map g l _
      | int i => exact takeIdx_map g l _
      | ellipsis => rfl
    · cases a <;> rfl

theorem evaluate_pointwise {f : Fn α β} {g : Int → α} (hp : Pointwise f g) {t : Table} {index : List Int} (hi : t.index = .ok index)
    (hk : (f.kind = .function ∨ f.kind = .method)) (hn : f.nargs = 1 ∧ f.ndefaults = 0 ∧ f.nkwonly = 0) :
    evaluate f t = .ok (.data (.array [index.length] (index.map g))) := by
  obtain ⟨h1, h2, h3⟩ := hn
  rcases hk with hk | hk
  · have := (hp t index hi).1 hk
    unfold evaluate Fn.call Fn.self
    simp only [hk, Kind.isMethod, h1, h2, h3, List.nil_append, List.length_singleton]
    simp [this, Except.map]
  · have := (hp t index hi).2 hk
    unfold evaluate Fn.call Fn.self
    simp only [hk, Kind.isMethod, h1, h2, h3, List.append_nil, List.length_singleton]
    simp [this, Except.map]

/-! ### Theorems -/

/-- C140, partial: a function stored as an attribute has the expected meaning.  Full statement: for every callable; it is false for the objects
that can be called and for the methods of other objects, see `C140_violation_object` and
`C140_violation_method`. -/
theorem C140_function_partial (f : Fn α β) (hk : f.kind = .function) (t : Table) : Meaning f t (evaluate f t) := by
  unfold Meaning required evaluate
  simp only [hk, Kind.isMethod, Nat.sub_zero]
  match h : f.nargs - f.ndefaults with
  | 0 => simp
  | 1 => simp
  | n + 2 => simp

/-- C140: a method that has no other parameter without default than the table is evaluated; the others become functions of their arguments. -/
theorem C140_method (f : Fn α β) (hw : f.WF) (hk : f.kind = .method) (t : Table) :
    (required f = 0 → evaluate f t = (f.call t []).map fun l => .data (.array [l.length] l)) ∧
    (required f ≠ 0 → evaluate f t = .ok (.fn (f.call t))) := by
  have hd : f.ndefaults + 1 ≤ f.nargs := by
    have := hw.2
    rw [hk] at this
    exact this
  unfold required evaluate
  simp only [hk, Kind.isMethod]
  constructor
  · intro h
    simp only [if_true]
    rw [if_pos (by omega)]
  · intro h
    simp only [if_true]
    rw [if_neg (by omega)]

/-- C140: the value of an attribute computed component by component follows the restrictions of the table. -/
theorem C140_restriction {o o' : CObj α β} {key : String} {f : Fn α β} {g : Int → α} (hr : Reachable o.tab) {n : Nat} {index : List Int}
    (hlen : o.tab.len = .ok n) (hi : o.tab.index = .ok index) {sel : Sel} (hs : Supported o.tab n index sel)
    (hget : o.getitem sel = .ok o') (hsp : key ∈ o.special) (hlook : o.look key = some (.fn f)) (hp : Pointwise f g) (hk : f.kind = .function ∨ f.kind = .method)
    (hn : f.nargs = 1 ∧ f.ndefaults = 0 ∧ f.nkwonly = 0) :
    ∃ v v' : List α, o.getattr key = .ok (.data (.array [n] v)) ∧ v.length = n ∧ numpySelect v sel = .ok v' ∧
      o'.getattr key = .ok (.data (.array [v'.length] v')) ∧ o'.tab.len = .ok v'.length := by
  obtain ⟨r, t', h1, h2, h3⟩ := getitem_spec hr.wf hlen hi hs
  unfold CObj.getitem at hget
  obtain ⟨t'', hg, ho⟩ := map_eq_ok.1 hget
  have hlook' : o'.look key = some (.fn f) := by
    rw [← ho]
    dsimp only
    rw [hlook]
  have hsp' : o'.special = o.special := by rw [← ho]
  have htab : t'' = o'.tab := by rw [← ho]
  rw [htab] at hg
  rw [hg] at h2
  injection h2 with h2
  subst h2
  have hl : index.length = n := by
    have := C07_len_partial hr hi
    rw [hlen] at this
    injection this with this
    exact this.symm
  have hr' : Reachable o'.tab := .getitem hr hlen hi hs hg
  refine ⟨index.map g, r.map g, ?_, by rw [List.length_map, hl], ?_, ?_, ?_⟩
  · unfold CObj.getattr
    rw [hlook]
    dsimp only
    rw [if_pos hsp, evaluate_pointwise hp hi hk hn, hl]
  · rw [numpySelect_map, h1]
    rfl
  · unfold CObj.getattr
    rw [hlook']
    dsimp only
    rw [if_pos (hsp' ▸ hsp), evaluate_pointwise hp h3.2.2.2 hk hn, List.length_map]
  · rw [List.length_map]
    exact C07_len_partial hr' h3.2.2.2

/-- C140: the unpacked attribute holds the computed values at the places of the components and the missing value elsewhere. -/
theorem C140_all_partial {o : CObj α β} {key : String} {f : Fn α β} {g : Int → α} (hr : Reachable o.tab) {index : List Int}
    (hi : o.tab.index = .ok index) (hd : index.Nodup) (hsp : key ∈ o.special) (hlook : o.look key = some (.fn f)) (hp : Pointwise f g)
    (hk : f.kind = .function ∨ f.kind = .method) (hn : f.nargs = 1 ∧ f.ndefaults = 0 ∧ f.nkwonly = 0) (buf : List α)
    (hb : buf.length = o.tab.size) (missing : α) :
    ∃ out, o.getattrAll buf missing key = .ok (.data (.array o.tab.dims out)) ∧ out.length = o.tab.size ∧
      (∀ i ∈ index, out[i.toNat]? = some (g i)) ∧ ∀ p : Nat, p < o.tab.size → (p : Int) ∉ index → out[p]? = some missing := by
  obtain ⟨out, h1, h2, h3, h4⟩ := C02_unpack_partial hr hi hd buf hb missing (index.map g) (Or.inr (by rw [List.length_map]))
  refine ⟨out, ?_, h2, ?_, h4⟩
  · unfold CObj.getattrAll CObj.getattr
    rw [if_neg (not_not.2 hsp), hlook]
    dsimp only
    rw [if_pos hsp, evaluate_pointwise hp hi hk hn]
    simp only [Except.bind]
    rw [h1]
    rfl
  · intro i hm
    obtain ⟨k, hk', he⟩ := List.mem_iff_getElem.1 hm
    rw [h3 k i (by rw [List.getElem?_eq_getElem hk', he])]
    unfold packedValue
    split
    · rename_i a ha
      have : index.length = 1 := by
        have := congrArg List.length ha
        simpa using this
      have hk0 : k = 0 := by omega
      subst hk0
      have := congrArg (·[0]?) ha
      simp only [List.getElem?_map, List.getElem?_cons_zero] at this
      rw [List.getElem?_eq_getElem hk', he] at this
      simpa using this.symm
    · rw [List.getElem?_map, List.getElem?_eq_getElem hk', he]
      rfl

/-- C140 does not hold for the objects that can be called: the parameter `self` is counted, an object called without argument receives the table,
and one that is a function of the table is not evaluated. -/
theorem C140_violation_object (f : Fn α β) (b : β) (hk : f.kind = .object b) (hd : f.ndefaults = 0) (hv : f.varargs = false)
    (hq : f.nkwonly = 0) (t : Table) :
    (f.nargs = 1 → evaluate f t = .error .typeError ∧ f.call t [] = f.body [.user b]) ∧
    (f.nargs = 2 → (∃ g, evaluate f t = .ok (.fn g)) ∧ f.call t [.table t] = f.body [.user b, .table t]) := by
  constructor
  · intro h
    constructor
    · unfold evaluate Fn.call Fn.self
      simp [hk, Kind.isMethod, h, hd, hv, hq, Except.map]
    · unfold Fn.call Fn.self
      simp [hk, h, hd, hq]
  · intro h
    constructor
    · unfold evaluate
      simp only [hk, Kind.isMethod, h, hd]
      exact ⟨_, rfl⟩
    · unfold Fn.call Fn.self
      simp [hk, h, hd, hq]

/-- C140 does not hold for the method of another object that is a function of the table: it is returned without having received the table. -/
theorem C140_violation_method (f : Fn α β) (b : β) (hk : f.kind = .boundMethod b) (hn : f.nargs = 2) (hd : f.ndefaults = 0)
    (hq : f.nkwonly = 0) (t : Table) :
    f.call t [.table t] = f.body [.user b, .table t] ∧ evaluate f t = .ok (.fn (f.call t)) ∧ f.call t [] = .error .typeError := by
  refine ⟨?_, ?_, ?_⟩
  · unfold Fn.call Fn.self
    simp [hk, hn, hd, hq]
  · unfold evaluate
    simp [hk, Kind.isMethod, hn, hd]
  · unfold Fn.call Fn.self
    simp [hk, hn, hd, hq]

/-- C140 does not hold for the functions without argument: the attribute of a restricted table is not restricted. -/
theorem C140_violation_constant (f : Fn α β) (l : List α) (hk : f.kind = .function) (hn : f.nargs = 0) (hq : f.nkwonly = 0)
    (hf : f.body [] = .ok l) (t : Table) (sel : Sel) (t' : Table) (_ : t.getitem sel = .ok t') :
    evaluate f t' = .ok (.data (.array [l.length] l)) := by
  unfold evaluate Fn.call Fn.self
  simp [hk, Kind.isMethod, hn, hq, hf, Except.map]

/-- The attribute `time` of a sampling of period two (samplings.py 50-51): a method, whose parameter is the sampling. -/
def timeFn : Fn Int Unit :=
  ⟨.method, 1, 0, false, 0, fun args => match args with
    | [.table t] => t.index.map (·.map (2 * ·))
    | _ => .error .typeError⟩

/-- A function of a table and of another argument. -/
def addFn : Fn Int Int :=
  ⟨.function, 2, 0, false, 0, fun args => match args with
    | [.table t, .user b] => t.index.map (·.map (b + ·))
    | _ => .error .typeError⟩

example : Pointwise timeFn (fun i => 2 * i) ∧ timeFn.WF ∧ addFn.WF ∧ required addFn = 2 := by
  refine ⟨?_, ⟨by decide, Nat.le_refl 1⟩, ⟨by decide, trivial⟩, rfl⟩
  intro t index hi
  refine And.intro (fun h => by cases h) (fun _ => ?_)
  show t.index.map _ = _
  rw [hi]
  rfl

example : (match (⟨t23, ["index", "removed", "time"], fun _ => some (.fn timeFn)⟩ : CObj Int Unit).getattr "time" with
    | .ok (.data (.array _ l)) => l | _ => []) = [10, 0, 8] ∧
    (match (⟨t23, ["time"], fun _ => some (.fn timeFn)⟩ : CObj Int Unit).getattrAll [0, 0, 0, 0, 0, 0] (-1) "time" with
    | .ok (.data (.array _ l)) => l | _ => []) = [0, -1, -1, -1, 8, 10] ∧
    (match evaluate addFn t23 with | .ok (.fn g) => (g [.user 3] : Res (List Int)) | _ => .error .typeError) = .ok [8, 3, 7] := by
  decide

end Verif.PackedTable
