import Verif.Units.PropsUnits

/-!
C138: the arrays that are saved in a FITS file and read again: src/pysimulators/datatypes.py 298-326, 939-948, 1308-1315 (save) and 100-159, 629-700, 1033-1088 (constructors), with
mpiutils.py 152-342 for one process.

A file is a list of HDU.  Of the headers, only the keywords that are read or written by these functions are distinguished.  The numbers of an array are those of any type; `kind` is the
kind of its data type for numpy.  The pickled form of a dictionary of units is any function `dumps` to bytes, which is not defined for the dictionaries that cannot be pickled, with `loads`.
-/
namespace Verif.Data.Save
open Verif.Py Verif.Units

/-! ### The model -/

/-- The kinds of data types that can be saved. -/
inductive Kind | float | unsigned | signed
  deriving DecidableEq

/-- An array. -/
structure Arr (α : Type) where
  kind : Kind
  shape : List Nat
  data : List α
  deriving DecidableEq

/-- A header. -/
structure Cards where
  naxes : List Nat
  bunit : Option (List Char)
  qtty : Option (List Char)
  disporig : Option (List Char)
  extname : Option (List Char)
  other : List (List Char × List Char)
  deriving DecidableEq

/-- The data of a HDU: an array, or bytes (a mask, a pickled dictionary). -/
inductive Content (α : Type)
  | numbers (a : Arr α)
  | bytes (shape : List Nat) (b : List Nat)
  deriving DecidableEq

def Content.shape {α : Type} : Content α → List Nat
  | .numbers a => a.shape
  | .bytes s _ => s

structure Hdu (α : Type) where
  primary : Bool
  header : Cards
  content : Content α
  deriving DecidableEq

/-- The name of a HDU, in capitals. -/
def Hdu.name {α : Type} (h : Hdu α) : List Char := (h.header.extname.getD (if h.primary then "PRIMARY".toList else [])).map Char.toUpper

/-- A FitsArray: its header, unit and derived units. -/
structure Fits (α D : Type) where
  arr : Arr α
  header : Cards
  unit : UnitD
  derived : List D

/-- The header made by `create_fitsheader_for` for an extension. -/
def newHeader {α : Type} (c : Content α) (extname : List Char) : Cards := ⟨c.shape.reverse, none, none, none, some extname, []⟩

variable {α D : Type}

/-- mpiutils.py 211-276 `write_fits` for one process: the new file, and the exception.  The shape is that of the data; an array without dimension is refused, after the file was removed. -/
def writeFits (file : Option (List (Hdu α))) (c : Content α) (header : Option Cards) (extension : Bool) (extname : Option (List Char)) : Option (List (Hdu α)) × Option PyErr :=
  let header := match header with
    | none => newHeader c (extname.getD [])
    | some h => h
  let header := match extname with
    | some e => { header with extname := some e }
    | none => header
  let file := if extension then file else none
  if c.shape = [] then (file, some .typeError)
  else
    let header := { header with naxes := c.shape.reverse }
    match file with
    | none => (some [⟨true, header, c⟩], none)
    | some l => (some (l ++ [⟨false, header, c⟩]), none)

/-- datatypes.py 298-326 `FitsArray.save` (one process).  `repr` is `str` for the exponents that are not integers. -/
def saveFits (repr : ℚ → List Char) (dumps : List D → Option (List Nat)) (a : Fits α D) (file : Option (List (Hdu α))) : Option (List (Hdu α)) × Option PyErr :=
  let header := if a.unit.length ≠ 0 then { a.header with bunit := some (strunit repr a.unit) } else a.header
  match writeFits file (.numbers a.arr) (some header) false none with
  | (file, some e) => (file, some e)
  | (file, none) =>
    if a.derived = [] then (file, none)
    else match dumps a.derived with
      | none => (file, some .attributeError)
      | some b => writeFits file (.bytes [b.length] b) none true (some "derived_units".toList)

/-- `pyfits.open(filename)[key]`. -/
def findHdu (file : List (Hdu α)) (key : List Char) : Option (Hdu α) := file.find? fun h => h.name = key.map Char.toUpper

/-- mpiutils.py 179-189: the first HDU with data. -/
def firstHdu : List (Hdu α) → Option (Hdu α)
  | [] => none
  | h :: l => if h.header.naxes.length = 0 then firstHdu l else some h

/-- The name of a file. -/
inductive FileName | str | path
  deriving DecidableEq

/-- The arguments of the constructors. -/
structure Args (D : Type) where
  unit : Option (List Char)
  derived : Option (List D)

/-- datatypes.py 120-124: the derived units. -/
def loadDerived (loads : List Nat → Option (List D)) (file : List (Hdu α)) (arg : Option (List D)) : Res (Option (List D)) :=
  match findHdu file "derived_units".toList with
  | none => .ok arg
  | some ⟨_, _, .bytes _ b⟩ =>
    match loads b with
    | some d => .ok (some d)
    | none => .error .valueError
  | some _ => .error .valueError

/-- datatypes.py 129-135 and quantities.py 470-472: the unit. -/
def loadUnit (header : Cards) (arg : Option (List Char)) : Res UnitD :=
  let unit := match arg with
    | some u => some u
    | none =>
      match header.bunit with
      | some u => some u
      | none =>
        match header.qtty with
        | some u => some (if u = "1".toList then [] else u)
        | none => none
  match unit with
  | some u => extract u
  | none => .ok []

/-- datatypes.py 100-159 `FitsArray.__new__` for a file, quantities.py 446-480. -/
def loadFits (loads : List Nat → Option (List D)) (file : List (Hdu α)) (args : Args D) : Res (Fits α D) := do
  let derived ← loadDerived loads file args.derived
  match firstHdu file with
  | some ⟨_, header, .numbers a⟩ =>
    let a := if a.kind = .signed then { a with kind := .float } else a
    let unit ← loadUnit header args.unit
    .ok ⟨a, header, unit, derived.getD []⟩
  | _ => .error .valueError

/-- A Map. -/
structure MapA (α D : Type) where
  base : Fits α D
  coverage : Option (Arr α)
  error : Option (Arr α)
  origin : List Char

/-- The extension of an attribute. -/
def saveExt (file : Option (List (Hdu α))) (c : Option (Content α)) (name : String) : Option (List (Hdu α)) × Option PyErr :=
  match c with
  | none => (file, none)
  | some c => writeFits file c none true (some name.toList)

/-- datatypes.py 939-948 `Map.save`. -/
def saveMap (repr : ℚ → List Char) (dumps : List D → Option (List Nat)) (m : MapA α D) (file : Option (List (Hdu α))) : Option (List (Hdu α)) × Option PyErr :=
  match saveFits repr dumps { m.base with header := { m.base.header with disporig := some m.origin } } file with
  | (file, some e) => (file, some e)
  | (file, none) =>
    match saveExt file (m.coverage.map .numbers) "Coverage" with
    | (file, some e) => (file, some e)
    | (file, none) => saveExt file (m.error.map .numbers) "Error"

/-- The array of an extension, as read by `read_fits`; `KeyError` if it is absent. -/
def readExt (file : List (Hdu α)) (name : String) : Option (Arr α) :=
  match findHdu file name.toList with
  | some ⟨_, _, .numbers a⟩ => some a
  | _ => none

/-- datatypes.py 629-700 `Map.__new__` for a file; the origin is 'lower' unless it is in the header (702-706). -/
def loadMap (loads : List Nat → Option (List D)) (file : List (Hdu α)) (name : FileName) (args : Args D) : Res (MapA α D) := do
  let base ← loadFits loads file args
  if name = .str then
    let origin := match base.header.disporig with
      | none => "lower".toList
      | some o => (strip o).map Char.toLower
    if origin ≠ "lower".toList ∧ origin ≠ "upper".toList then .error .valueError
    else .ok ⟨base, readExt file "Coverage", readExt file "Error", origin⟩
  else .ok ⟨base, none, none, "lower".toList⟩

/-- A Tod. -/
structure TodA (α D : Type) where
  base : Fits α D
  mask : Option (List Nat × List Bool)

/-- datatypes.py 1308-1315 `Tod.save`: the booleans are seen as bytes. -/
def saveTod (repr : ℚ → List Char) (dumps : List D → Option (List Nat)) (t : TodA α D) (file : Option (List (Hdu α))) : Option (List (Hdu α)) × Option PyErr :=
  match saveFits repr dumps t.base file with
  | (file, some e) => (file, some e)
  | (file, none) => saveExt file (t.mask.map fun m => .bytes m.1 (m.2.map fun b => if b then 1 else 0)) "Mask"

/-- datatypes.py 1033-1088 `Tod.__new__` for a file: the bytes are seen as booleans. -/
def loadTod (loads : List Nat → Option (List D)) (file : List (Hdu α)) (name : FileName) (args : Args D) : Res (TodA α D) := do
  let base ← loadFits loads file args
  if name = .str then
    match findHdu file "mask".toList with
    | some ⟨_, _, .bytes s b⟩ => .ok ⟨base, some (s, b.map fun x => x ≠ 0)⟩
    | _ => .ok ⟨base, none⟩
  else .ok ⟨base, none⟩

/-! ### Specification -/

/-- Two arrays with the same values, unit (the order of its factors does not matter), derived units; the header of the second one has the keywords of the first one and the shape of the array. -/
structure Same (a b : Fits α D) : Prop where
  arr : b.arr = a.arr
  unit : dictEq b.unit a.unit = true
  derived : b.derived = a.derived
  naxes : b.header.naxes = a.arr.shape.reverse
  other : b.header.other = a.header.other
  extname : b.header.extname = a.header.extname

/-- The arrays to which C138 applies: at least one dimension; not signed integers; units with words as symbols and integer exponents; no unit in the header if the array has none; a header that is
not that of one of the extensions; derived units that can be pickled. -/
structure Savable (dumps : List D → Option (List Nat)) (loads : List Nat → Option (List D)) (a : Fits α D) : Prop where
  shape : a.arr.shape ≠ []
  kind : a.arr.kind ≠ .signed
  wf : Wf a.unit
  symbols : ∀ p ∈ a.unit, Word p.1 ∨ Marks p.1
  exponents : ∀ p ∈ a.unit, ∃ z : Int, p.2 = z
  stale : a.unit = [] → a.header.bunit = none ∧ a.header.qtty = none
  extname : ∀ e, a.header.extname = some e → e.map Char.toUpper ∉ ["DERIVED_UNITS".toList, "COVERAGE".toList, "ERROR".toList, "MASK".toList]
  pickle : a.derived ≠ [] → ∃ b, dumps a.derived = some b ∧ loads b = some a.derived

/-! ### C138 -/

/-- The HDU written by `FitsArray.save`. -/
def primaryHdu (repr : ℚ → List Char) (a : Fits α D) : Hdu α :=
  ⟨true, { (if a.unit.length ≠ 0 then { a.header with bunit := some (strunit repr a.unit) } else a.header) with naxes := a.arr.shape.reverse }, .numbers a.arr⟩

def extHdu (c : Content α) (name : String) : Hdu α := ⟨false, newHeader c name.toList, c⟩

theorem writeFits_ext (l : List (Hdu α)) (c : Content α) (name : String) (hc : c.shape ≠ []) :
    writeFits (some l) c none true (some name.toList) = (some (l ++ [extHdu c name]), none) := by
  unfold writeFits
  simp only [if_true]
  rw [if_neg hc]
  rfl

theorem saveFits_ok {dumps : List D → Option (List Nat)} {loads : List Nat → Option (List D)} (repr : ℚ → List Char) {a : Fits α D} (h : Savable dumps loads a) (file : Option (List (Hdu α))) :
    ∃ dh : List (Hdu α), saveFits repr dumps a file = (some (primaryHdu repr a :: dh), none) ∧
      (a.derived = [] ∧ dh = [] ∨ ∃ b, a.derived ≠ [] ∧ loads b = some a.derived ∧ dh = [extHdu (.bytes [b.length] b) "derived_units"]) := by
  have hw : writeFits file (.numbers a.arr) (some (if a.unit.length ≠ 0 then { a.header with bunit := some (strunit repr a.unit) } else a.header)) false none =
      (some [primaryHdu repr a], none) := by
    unfold writeFits
    simp only [Bool.false_eq_true, if_false]
    rw [if_neg (show ¬ (Content.numbers a.arr).shape = [] from h.shape)]
    rfl
  unfold saveFits
  dsimp only
  rw [hw]
  dsimp only
  by_cases hd : a.derived = []
  · rw [if_pos hd]
    exact ⟨[], rfl, .inl ⟨hd, rfl⟩⟩
  · obtain ⟨b, h1, h2⟩ := h.pickle hd
    rw [if_neg hd, h1]
    dsimp only
    rw [writeFits_ext _ _ _ (by simp [Content.shape])]
    exact ⟨_, rfl, .inr ⟨b, hd, h2, rfl⟩⟩

theorem primaryHdu_name {dumps : List D → Option (List Nat)} {loads : List Nat → Option (List D)} (repr : ℚ → List Char) {a : Fits α D} (h : Savable dumps loads a) :
    (primaryHdu repr a).name ∉ ["DERIVED_UNITS".toList, "COVERAGE".toList, "ERROR".toList, "MASK".toList] := by
  have : (primaryHdu repr a).header.extname = a.header.extname := by
    unfold primaryHdu
    dsimp only
    split_ifs <;> rfl
  rw [Hdu.name, this]
  cases he : a.header.extname with
  | none => simp only [primaryHdu, Option.getD_none, if_true]; decide
  | some e => exact h.extname e he

theorem find_skip {file : List (Hdu α)} {h : Hdu α} {key : List Char} (hn : h.name ≠ key.map Char.toUpper) : findHdu (h :: file) key = findHdu file key := by
  rw [findHdu, List.find?_cons_of_neg (by simpa using hn)]
  rfl

theorem find_hit {file : List (Hdu α)} {h : Hdu α} {key : List Char} (hn : h.name = key.map Char.toUpper) : findHdu (h :: file) key = some h := by
  rw [findHdu, List.find?_cons_of_pos (by simpa using hn)]

theorem extHdu_name (c : Content α) (name : String) : (extHdu c name).name = name.toList.map Char.toUpper := rfl

theorem loadFits_ok {dumps : List D → Option (List Nat)} {loads : List Nat → Option (List D)} (repr : ℚ → List Char) {a : Fits α D} (h : Savable dumps loads a) {dh rest : List (Hdu α)}
    (hdh : a.derived = [] ∧ dh = [] ∨ ∃ b, a.derived ≠ [] ∧ loads b = some a.derived ∧ dh = [extHdu (.bytes [b.length] b) "derived_units"])
    (hrest : ∀ h ∈ rest, h.name ≠ "DERIVED_UNITS".toList) :
    ∃ b, loadFits loads (primaryHdu repr a :: (dh ++ rest)) ⟨none, none⟩ = .ok b ∧ Same a b ∧ b.header = (primaryHdu repr a).header := by
  have hn := primaryHdu_name repr h
  have hder : loadDerived loads (primaryHdu repr a :: (dh ++ rest)) none = .ok (if a.derived = [] then none else some a.derived) := by
    unfold loadDerived
    rw [find_skip (by intro he; rw [he] at hn; revert hn; decide)]
    rcases hdh with ⟨h1, rfl⟩ | ⟨b, h1, h2, rfl⟩
    · have : findHdu ([] ++ rest) "derived_units".toList = none := by
        rw [findHdu, List.find?_eq_none]
        intro x hx
        simp only [decide_eq_true_eq]
        intro he
        exact hrest x hx (he.trans (by decide))
      rw [this, if_pos h1]
    · rw [List.singleton_append, find_hit (extHdu_name _ _), if_neg h1]
      simp only [extHdu, h2]
  have hfirst : firstHdu (primaryHdu repr a :: (dh ++ rest)) = some (primaryHdu repr a) := by
    rw [firstHdu, if_neg]
    simpa [primaryHdu] using h.shape
  have hu : ∃ w, loadUnit (primaryHdu repr a).header none = .ok w ∧ dictEq w a.unit = true := by
    unfold loadUnit
    by_cases hu : a.unit = []
    · obtain ⟨h1, h2⟩ := h.stale hu
      refine ⟨[], ?_, by rw [hu]; rfl⟩
      simp only [primaryHdu, hu, List.length_nil, ne_eq, not_true_eq_false, if_false, h1, h2]
    · obtain ⟨w, h1, h2⟩ := C21_roundtrip repr a.unit h.wf h.symbols h.exponents
      refine ⟨w, ?_, h2⟩
      have : a.unit.length ≠ 0 := by simpa using hu
      simp only [primaryHdu, this, ne_eq, not_false_eq_true, if_true, h1]
  obtain ⟨w, hw1, hw2⟩ := hu
  refine ⟨⟨a.arr, (primaryHdu repr a).header, w, a.derived⟩, ?_, ⟨rfl, hw2, rfl, rfl, ?_, ?_⟩, rfl⟩
  · unfold loadFits
    dsimp only
    rw [hder, hfirst]
    show (do
      let unit ← loadUnit (primaryHdu repr a).header none
      .ok ⟨if a.arr.kind = .signed then _ else a.arr, (primaryHdu repr a).header, unit, _⟩ : Res (Fits α D)) = _
    rw [hw1, if_neg h.kind]
    show Except.ok (Fits.mk _ _ _ _) = Except.ok _
    by_cases hd : a.derived = []
    · rw [if_pos hd, hd]; rfl
    · rw [if_neg hd]; rfl
  · simp only [primaryHdu]; split_ifs <;> rfl
  · simp only [primaryHdu]; split_ifs <;> rfl

/-- C138: an array that is saved and read again is the same. -/
theorem C138_fits_partial {dumps : List D → Option (List Nat)} {loads : List Nat → Option (List D)} (repr : ℚ → List Char) (a : Fits α D) (h : Savable dumps loads a)
    (old : Option (List (Hdu α))) : ∃ file b, saveFits repr dumps a old = (some file, none) ∧ loadFits loads file ⟨none, none⟩ = .ok b ∧ Same a b := by
  obtain ⟨dh, h1, h2⟩ := saveFits_ok repr h old
  obtain ⟨b, h3, h4, -⟩ := loadFits_ok repr h h2 (rest := []) (by simp)
  exact ⟨_, b, h1, by rw [← h3, List.append_nil], h4⟩

theorem strip_origin (o : List Char) (h : o = "lower".toList ∨ o = "upper".toList) : (strip o).map Char.toLower = o := by
  rcases h with rfl | rfl <;> decide

theorem saveExt_ok (l : List (Hdu α)) (c : Option (Content α)) (name : String) (hc : ∀ x, c = some x → x.shape ≠ []) :
    saveExt (some l) c name = (some (l ++ (c.map fun x => extHdu x name).toList), none) := by
  cases c with
  | none => simp [saveExt]
  | some x => rw [saveExt, writeFits_ext _ _ _ (hc x rfl)]; rfl

/-- C138: a map that is saved and read again, with the name of the file as a string, is the same: the coverage and error maps and the origin included. -/
theorem C138_map_partial {dumps : List D → Option (List Nat)} {loads : List Nat → Option (List D)} (repr : ℚ → List Char) (m : MapA α D) (h : Savable dumps loads m.base)
    (hc : ∀ c, m.coverage = some c → c.shape ≠ []) (he : ∀ e, m.error = some e → e.shape ≠ []) (ho : m.origin = "lower".toList ∨ m.origin = "upper".toList)
    (old : Option (List (Hdu α))) : ∃ file m', saveMap repr dumps m old = (some file, none) ∧ loadMap loads file .str ⟨none, none⟩ = .ok m' ∧
      Same m.base m'.base ∧ m'.coverage = m.coverage ∧ m'.error = m.error ∧ m'.origin = m.origin := by
  obtain ⟨a, ha⟩ : ∃ a : Fits α D, a = { m.base with header := { m.base.header with disporig := some m.origin } } := ⟨_, rfl⟩
  have hs : Savable dumps loads a := by
    subst ha
    exact ⟨h.shape, h.kind, h.wf, h.symbols, h.exponents, h.stale, h.extname, h.pickle⟩
  obtain ⟨dh, h1, h2⟩ := saveFits_ok repr hs old
  obtain ⟨ce, hce⟩ : ∃ ce : List (Hdu α), ce = (m.coverage.map fun c => extHdu (.numbers c) "Coverage").toList := ⟨_, rfl⟩
  obtain ⟨ee, hee⟩ : ∃ ee : List (Hdu α), ee = (m.error.map fun c => extHdu (.numbers c) "Error").toList := ⟨_, rfl⟩
  have hcn : ∀ x ∈ ce, x.name = "COVERAGE".toList := by
    intro x hx
    rw [hce] at hx
    obtain ⟨c, -, rfl⟩ := Option.map_eq_some_iff.1 (Option.mem_toList.1 hx)
    rw [extHdu_name]; decide
  have hen : ∀ x ∈ ee, x.name = "ERROR".toList := by
    intro x hx
    rw [hee] at hx
    obtain ⟨c, -, rfl⟩ := Option.map_eq_some_iff.1 (Option.mem_toList.1 hx)
    rw [extHdu_name]; decide
  obtain ⟨b, h3, h4, h5⟩ := loadFits_ok repr hs h2 (rest := ce ++ ee) (by
    intro x hx
    rcases List.mem_append.1 hx with hx | hx
    · rw [hcn x hx]; decide
    · rw [hen x hx]; decide)
  have hname := primaryHdu_name repr hs
  have hdn : ∀ x ∈ dh, x.name = "DERIVED_UNITS".toList := by
    rcases h2 with ⟨-, rfl⟩ | ⟨b, -, -, rfl⟩
    · simp
    · simp only [List.mem_singleton, forall_eq]; rw [extHdu_name]; decide
  have skips : ∀ (l : List (Hdu α)) (key : List Char) (r : List (Hdu α)), (∀ x ∈ l, x.name ≠ key.map Char.toUpper) → findHdu (l ++ r) key = findHdu r key := by
    intro l key r hl
    induction l with
    | nil => rfl
    | cons x l ih => rw [List.cons_append, find_skip (hl x List.mem_cons_self), ih fun y hy => hl y (List.mem_cons_of_mem _ hy)]
  have hfile : ∃ file, file = primaryHdu repr a :: (dh ++ (ce ++ ee)) := ⟨_, rfl⟩
  obtain ⟨file, hfile⟩ := hfile
  refine ⟨file, ⟨b, m.coverage, m.error, m.origin⟩, ?_, ?_, ?_, rfl, rfl, rfl⟩
  · unfold saveMap
    rw [← ha, h1]
    dsimp only
    rw [saveExt_ok _ _ _ (by
      intro x hx
      obtain ⟨c, h6, rfl⟩ := Option.map_eq_some_iff.1 hx
      exact hc c h6)]
    dsimp only
    rw [saveExt_ok _ _ _ (by
      intro x hx
      obtain ⟨c, h6, rfl⟩ := Option.map_eq_some_iff.1 hx
      exact he c h6)]
    rw [hfile, hce, hee]
    simp [Option.map_map, Function.comp_def]
  · have hcov : readExt file "Coverage" = m.coverage := by
      rw [readExt, hfile, find_skip (by intro h6; rw [h6] at hname; revert hname; decide), skips dh _ _ (fun x hx => by rw [hdn x hx]; decide)]
      cases hm : m.coverage with
      | none =>
        rw [hm] at hce
        rw [hce]
        show (match findHdu ([] ++ ee) _ with | some ⟨_, _, .numbers a⟩ => some a | _ => none) = none
        have : findHdu ([] ++ ee) "Coverage".toList = none := by
          rw [findHdu, List.find?_eq_none]
          intro x hx
          simp only [decide_eq_true_eq]
          rw [hen x hx]; decide
        rw [this]
      | some c =>
        rw [hm] at hce
        rw [hce]
        rw [Option.map_some, Option.toList_some, List.singleton_append, find_hit (extHdu_name _ _)]
        rfl
    have herr : readExt file "Error" = m.error := by
      rw [readExt, hfile, find_skip (by intro h6; rw [h6] at hname; revert hname; decide), skips dh _ _ (fun x hx => by rw [hdn x hx]; decide),
        skips ce _ _ (fun x hx => by rw [hcn x hx]; decide), hee]
      cases hm : m.error with
      | none => rfl
      | some c =>
        rw [Option.map_some, Option.toList_some, find_hit (extHdu_name _ _)]
        rfl
    have hor : b.header.disporig = some m.origin := by
      rw [h5, ha]
      simp only [primaryHdu]
      split_ifs <;> rfl
    unfold loadMap
    rw [hfile, h3, ← hfile]
    simp only [bind, Except.bind]
    rw [if_pos trivial, hor]
    dsimp only
    simp only [strip_origin _ ho]
    rw [if_neg (by rcases ho with h | h <;> simp [h]), hcov, herr]
  · rw [ha] at h4
    exact ⟨h4.arr, h4.unit, h4.derived, h4.naxes, h4.other, h4.extname⟩

/-- C138: a Tod that is saved and read again, with the name of the file as a string, is the same, the mask included. -/
theorem C138_tod_partial {dumps : List D → Option (List Nat)} {loads : List Nat → Option (List D)} (repr : ℚ → List Char) (t : TodA α D) (h : Savable dumps loads t.base)
    (hm : ∀ m, t.mask = some m → m.1 ≠ []) (old : Option (List (Hdu α))) :
    ∃ file t', saveTod repr dumps t old = (some file, none) ∧ loadTod loads file .str ⟨none, none⟩ = .ok t' ∧ Same t.base t'.base ∧ t'.mask = t.mask := by
  obtain ⟨dh, h1, h2⟩ := saveFits_ok repr h old
  obtain ⟨me, hme⟩ : ∃ me : List (Hdu α), me = (t.mask.map fun m => extHdu (.bytes m.1 (m.2.map fun b => if b then 1 else 0)) "Mask").toList := ⟨_, rfl⟩
  have hmn : ∀ x ∈ me, x.name = "MASK".toList := by
    intro x hx
    rw [hme] at hx
    obtain ⟨c, -, rfl⟩ := Option.map_eq_some_iff.1 (Option.mem_toList.1 hx)
    rw [extHdu_name]; decide
  obtain ⟨b, h3, h4, h5⟩ := loadFits_ok repr h h2 (rest := me) (by intro x hx; rw [hmn x hx]; decide)
  have hname := primaryHdu_name repr h
  refine ⟨primaryHdu repr t.base :: (dh ++ me), ⟨b, t.mask⟩, ?_, ?_, h4, rfl⟩
  · unfold saveTod
    rw [h1]
    dsimp only
    rw [saveExt_ok _ _ _ (by
      intro x hx
      obtain ⟨c, h6, rfl⟩ := Option.map_eq_some_iff.1 hx
      exact hm c h6), hme]
    simp [Option.map_map, Function.comp_def]
  · have hfind : findHdu (primaryHdu repr t.base :: (dh ++ me)) "mask".toList = findHdu me "mask".toList := by
      rw [find_skip (by intro h6; rw [h6] at hname; revert hname; decide)]
      rcases h2 with ⟨-, rfl⟩ | ⟨b, -, -, rfl⟩
      · rfl
      · rw [List.singleton_append, find_skip (by rw [extHdu_name]; decide)]
    unfold loadTod
    rw [h3]
    simp only [bind, Except.bind]
    rw [if_pos trivial, hfind, hme]
    cases hmm : t.mask with
    | none => rfl
    | some m =>
      rw [Option.map_some, Option.toList_some, find_hit (by rw [extHdu_name]; decide)]
      show (Except.ok _ : Res _) = _
      congr 2
      refine congrArg some (Prod.ext rfl ?_)
      show List.map _ (List.map _ _) = _
      rw [List.map_map]
      conv_rhs => rw [← List.map_id m.2]
      refine List.map_congr_left fun x _ => ?_
      cases x <;> rfl

/-! ### A map -/

/-- A header without unit. -/
def plain : Cards := ⟨[], none, none, none, none, []⟩

/-- A map of 2 by 1 pixels in kg m / s^2, read from a file in another unit, with a coverage map. -/
def sample : MapA Int Nat :=
  ⟨⟨⟨.float, [2, 1], [5, 7]⟩, { plain with bunit := some "Jy".toList, other := [("TELESCOP".toList, "X".toList)] }, [("s".toList, -2), ("kg".toList, 1), ("m".toList, 1)], [3]⟩,
    some ⟨.signed, [2, 1], [1, 4]⟩, none, "upper".toList⟩

theorem sample_savable : Savable (fun d => some d) (fun b => some b) sample.base where
  shape := by decide
  kind := by decide
  wf := by decide
  symbols := by
    intro p hp
    left
    simp only [sample, List.mem_cons, List.not_mem_nil, or_false] at hp
    rcases hp with rfl | rfl | rfl <;> (refine ⟨by decide, ?_⟩; unfold Letter; decide)
  exponents := by
    intro p hp
    simp only [sample, List.mem_cons, List.not_mem_nil, or_false] at hp
    rcases hp with rfl | rfl | rfl
    · exact ⟨-2, by norm_num⟩
    · exact ⟨1, by norm_num⟩
    · exact ⟨1, by norm_num⟩
  stale := by intro h; simp [sample] at h
  extname := by intro e h; simp [sample, plain] at h
  pickle := fun _ => ⟨_, rfl, rfl⟩

example : ∃ file m', saveMap (fun _ => []) (fun d => some d) sample (some []) = (some file, none) ∧ loadMap (fun b => some b) file .str ⟨none, none⟩ = .ok m' ∧
    Same sample.base m'.base ∧ m'.coverage = sample.coverage ∧ m'.error = none ∧ m'.origin = "upper".toList :=
  C138_map_partial _ sample sample_savable (by intro c h; cases h; decide) (by intro c h; cases h) (.inr rfl) _

/-! ### What is lost -/

/-- C138 fails for an array without unit whose header has one (it was read from a file, and divided by a quantity with this unit): the unit of the header is given to the array when it is read. -/
theorem C138_violation_unit : ∃ (a b : Fits Int Nat) (file : List (Hdu Int)), a.unit = [] ∧ saveFits (fun _ => []) (fun d => some d) a none = (some file, none) ∧
    loadFits (fun b => some b) file ⟨none, none⟩ = .ok b ∧ b.unit = [("Jy".toList, 1)] :=
  ⟨⟨⟨.float, [1], [5]⟩, { plain with bunit := some "Jy".toList }, [], []⟩, _, _, rfl, rfl, rfl, by decide +kernel⟩

/-- C138 fails if the name of the file is a Path: the coverage, the error, the origin of any map and the mask of any Tod are not read. -/
theorem C138_violation_path (loads : List Nat → Option (List D)) (file : List (Hdu α)) (args : Args D) :
    (∀ m, loadMap loads file .path args = .ok m → m.coverage = none ∧ m.error = none ∧ m.origin = "lower".toList) ∧
    ∀ t, loadTod loads file .path args = .ok t → t.mask = none := by
  constructor
  · intro m h
    unfold loadMap at h
    cases hb : loadFits loads file args with
    | error e => rw [hb] at h; cases h
    | ok b => rw [hb] at h; cases h; exact ⟨rfl, rfl, rfl⟩
  · intro m h
    unfold loadTod at h
    cases hb : loadFits loads file args with
    | error e => rw [hb] at h; cases h
    | ok b => rw [hb] at h; cases h; rfl

/-- Such a map: its coverage is in the file. -/
example : ∃ file m, saveMap (fun _ => []) (fun d => some d) sample none = (some file, none) ∧ readExt file "Coverage" = sample.coverage ∧
    loadMap (fun b => some b) file .path ⟨none, none⟩ = .ok m ∧ m.coverage = none := by
  obtain ⟨file, m', h1, h2, h3, h4, -⟩ := C138_map_partial (fun _ => []) sample sample_savable (by intro c h; cases h; decide) (by intro c h; cases h) (.inr rfl) none
  unfold loadMap at h2
  cases hb : loadFits (fun b => some b) file (⟨none, none⟩ : Args Nat) with
  | error e => rw [hb] at h2; cases h2
  | ok b =>
    rw [hb] at h2
    simp only [bind, Except.bind] at h2
    rw [if_pos trivial] at h2
    split_ifs at h2
    cases h2
    refine ⟨file, ⟨b, none, none, "lower".toList⟩, h1, h4, ?_, rfl⟩
    unfold loadMap
    rw [hb]
    rfl

/-- C138 fails for the signed integers, which become floating point numbers. -/
theorem C138_violation_integer : ∃ (a b : Fits Int Nat) (file : List (Hdu Int)), a.arr.kind = .signed ∧ saveFits (fun _ => []) (fun d => some d) a none = (some file, none) ∧
    loadFits (fun b => some b) file ⟨none, none⟩ = .ok b ∧ b.arr.kind = .float :=
  ⟨⟨⟨.signed, [1], [5]⟩, plain, [], []⟩, _, _, rfl, rfl, rfl, rfl⟩

/-- C138 fails for a map whose header is that of an extension with the coverage (to save the coverage as a map): the map is its own coverage. -/
theorem C138_violation_extname : ∃ (m m' : MapA Int Nat) (file : List (Hdu Int)), m.coverage = none ∧ saveMap (fun _ => []) (fun d => some d) m none = (some file, none) ∧
    loadMap (fun b => some b) file .str ⟨none, none⟩ = .ok m' ∧ m'.coverage = some m.base.arr :=
  ⟨⟨⟨⟨.float, [1], [5]⟩, { plain with extname := some "Coverage".toList }, [], []⟩, none, none, "lower".toList⟩, _, _, rfl, rfl, rfl, rfl⟩

/-- C138 fails if the derived units cannot be pickled (anonymous functions): the previous file is replaced by one without the coverage before the exception. -/
theorem C138_violation_pickle : ∃ (m m' : MapA Int Nat) (old file : List (Hdu Int)), saveMap (fun _ => []) (fun _ => none) m (some old) = (some file, some .attributeError) ∧
    m.coverage ≠ none ∧ m.base.derived ≠ [] ∧ loadMap (fun b => some b) file .str ⟨none, none⟩ = .ok m' ∧ m'.coverage = none ∧ m'.base.derived = [] :=
  ⟨⟨⟨⟨.float, [1], [5]⟩, plain, [], [3]⟩, some ⟨.float, [1], [5]⟩, none, "lower".toList⟩, _, [], _, rfl, by simp, by simp, rfl, rfl, rfl⟩

/-- The derived units given to the constructor are replaced by those of the file, if there are. -/
theorem C138_violation_argument (loads : List Nat → Option (List D)) (file : List (Hdu α)) (h : Hdu α) (hf : findHdu file "derived_units".toList = some h) (u : Option (List Char))
    (d d' : Option (List D)) : loadFits loads file ⟨u, d⟩ = loadFits loads file ⟨u, d'⟩ := by
  unfold loadFits loadDerived
  dsimp only
  rw [hf]
  obtain ⟨p, c, x⟩ := h
  cases x <;> rfl

/-- Such a file. -/
example : ∃ file : List (Hdu Int), (saveMap (fun _ => []) (fun d => some d) sample none).1 = some file ∧ ∃ h, findHdu file "derived_units".toList = some h :=
  ⟨_, rfl, _, rfl⟩

end Verif.Data.Save
