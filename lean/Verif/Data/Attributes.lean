import Verif.Py.Lemmas

/-!
C147: the attributes of the arrays, their copies made by pickle and the fields of the structured arrays: src/pysimulators/quantities.py 480-484, 970-1000, 1125-1144 and
1208-1210, src/pysimulators/datatypes.py 161-174, 703-724 and 1131-1133.

The values of the attributes are of any type `V`, the elements of the arrays of any type `E`.  The attributes that numpy and the class define (methods, properties) are the
parameter `attrs` of a class.
-/
namespace Verif.Data.Attributes
open Verif.Py

variable {V E : Type}

/-! ### The model -/

/-- The array of numpy: the names of the fields of its data type (none if it is not structured), the values of each field, and the values of an array that is not structured. -/
structure Nd (E : Type) where
  names : List String
  cols : String → List E
  plain : List E

/-- An array with its attributes (`__dict__`). -/
structure Obj (V E : Type) where
  nd : Nd E
  dict : List (String × V)

/-- A class of arrays.  `fits` is true for `FitsArray` and its subclasses; `finals` is the list of the attributes set by `__array_finalize__`, with the name of the attribute of
the other array and the default; `attrs` are the attributes found in the class. -/
structure Cls (V E : Type) where
  fits : Bool
  finals : List (String × String × V)
  attrs : String → Option (Obj V E → V)

/-- quantities.py 480-484 `Quantity.__array_finalize__`. -/
def quantityFinals (emptyUnit emptyDerived : V) : List (String × String × V) := [("_unit", "_unit", emptyUnit), ("_derived_units", "_derived_units", emptyDerived)]

/-- datatypes.py 161-163 `FitsArray.__array_finalize__`. -/
def fitsFinals (emptyUnit emptyDerived none : V) : List (String × String × V) := quantityFinals emptyUnit emptyDerived ++ [("_header", "_header", none)]

/-- datatypes.py 703-707 `Map.__array_finalize__`. -/
def mapFinals (emptyUnit emptyDerived none lower : V) : List (String × String × V) :=
  fitsFinals emptyUnit emptyDerived none ++ [("coverage", "coverage", none), ("error", "error", none), ("origin", "origin", lower)]

/-- datatypes.py 1131-1133 `Tod.__array_finalize__`. -/
def todFinals (emptyUnit emptyDerived none : V) : List (String × String × V) := fitsFinals emptyUnit emptyDerived none ++ [("_mask", "mask", none)]

/-- `d[k] = v` for a dictionary. -/
def put (d : List (String × V)) (k : String) (v : V) : List (String × V) := (k, v) :: d.filter fun e => e.1 ≠ k

/-- datatypes.py 170-174 `FitsArray.__setattr__`; the other arrays have the one of the objects.  `assign v l` is the assignment by numpy of `v` to the elements `l` of an array. -/
def setattr (assign : V → List E → Res (List E)) (C : Cls V E) (o : Obj V E) (k : String) (v : V) : Res (Obj V E) :=
  if C.fits ∧ k ∈ o.nd.names then
    (assign v (o.nd.cols k)).map fun l => { o with nd := { o.nd with cols := fun j => if j = k then l else o.nd.cols j } }
  else .ok { o with dict := put o.dict k v }

/-- datatypes.py 165-168 `FitsArray.__getattr__`, which is called if the attribute is neither in the class nor in `__dict__`; `column l` is the array of the values of a field. -/
def getattr (column : List E → V) (C : Cls V E) (o : Obj V E) (k : String) : Res V :=
  match C.attrs k with
  | some f => .ok (f o)
  | none =>
    match o.dict.lookup k with
    | some v => .ok v
    | none => if C.fits ∧ k ∈ o.nd.names then .ok (column (o.nd.cols k)) else .error .attributeError

/-- A sequence of `setattr`. -/
def setattrs (assign : V → List E → Res (List E)) (C : Cls V E) : Obj V E → List (String × V) → Res (Obj V E)
  | o, [] => .ok o
  | o, e :: l => (setattr assign C o e.1 e.2).bind fun o => setattrs assign C o l

/-- `__array_finalize__`: `src` are the attributes of the other array. -/
def finalize (assign : V → List E → Res (List E)) (C : Cls V E) (src : String → Option V) (o : Obj V E) : Res (Obj V E) :=
  setattrs assign C o (C.finals.map fun e => (e.1, (src e.2.1).getD e.2.2))

/-- `view(cls)` of numpy: the elements are shared, `__array_finalize__` is called with the other array. -/
def view (assign : V → List E → Res (List E)) (C : Cls V E) (src : String → Option V) (nd : Nd E) : Res (Obj V E) := finalize assign C src ⟨nd, []⟩

/-- quantities.py 1125-1138 `__reduce__`: the state of the array and its attributes (no class of the package has `__slots__`). -/
def reduce (o : Obj V E) : Nd E × List (String × V) := (o.nd, o.dict)

/-- quantities.py 1140-1144 `__setstate__`. -/
def setstate (assign : V → List E → Res (List E)) (C : Cls V E) (o : Obj V E) (s : Nd E × List (String × V)) : Res (Obj V E) := setattrs assign C { o with nd := s.1 } s.2

/-- `pickle.loads(pickle.dumps(o))`: `numpy._reconstruct` makes an empty array of the class, with `__array_finalize__(None)`, whose state is then set. -/
def unpickle (assign : V → List E → Res (List E)) (C : Cls V E) (s : Nd E × List (String × V)) : Res (Obj V E) :=
  (view assign C (fun _ => none) ⟨[], fun _ => [], []⟩).bind fun o => setstate assign C o s

/-- datatypes.py 719-723: `item.coverage = item.coverage[key]` for the attribute `a` of the item; `index v key` is `v[key]`, and `isNone` is true for None. -/
def indexAttr (assign : V → List E → Res (List E)) (index : V → String → Res V) (isNone : V → Bool) (C : Cls V E) (key a : String) (o : Obj V E) : Res (Obj V E) :=
  match o.dict.lookup a with
  | none => .error .attributeError
  | some v => if isNone v then .ok o else (index v key).bind fun w => setattr assign C o a w

/-- datatypes.py 716-724 `Map.__getitem__` where the key is the name of a field. -/
def mapField (assign : V → List E → Res (List E)) (index : V → String → Res V) (isNone : V → Bool) (C : Cls V E) (o : Obj V E) (key : String) : Res (Obj V E) :=
  if key ∈ o.nd.names then
    (view assign C (fun k => o.dict.lookup k) ⟨[], fun _ => [], o.nd.cols key⟩).bind fun item =>
      (indexAttr assign index isNone C key "coverage" item).bind fun item => indexAttr assign index isNone C key "error" item
  else .error .valueError

/-- The key of a dictionary of derived units: a string or a tuple such as `('pixel', 2)`. -/
inductive Key
  | str (s : List Char)
  | tuple (s : List Char) (n : Int)

/-- The values that can be put in such a dictionary. -/
inductive Kind
  | quantity | callable | other
deriving DecidableEq

/-- What can be given as derived units. -/
inductive Units
  | none
  | dict (l : List (Key × Kind))
  | other

/-- quantities.py 980-999: the checks of an entry.  The message of the `UnitError` of 986 cannot be made if the key is a tuple. -/
def checkEntry : Key × Kind → Res Unit
  | (.str s, v) =>
    if v = .other then .error .unitError
    else if '[' ∈ s then
      (if s.dropWhile (· ≠ '[') = "[leftward]".toList ∨ s.dropWhile (· ≠ '[') = "[rightward]".toList then .ok () else .error .unitError)
    else .ok ()
  | (.tuple _ _, v) => if v = .other then .error .typeError else .ok ()

/-- The loop of quantities.py 980-999. -/
def checkEntries : List (Key × Kind) → Res Unit
  | [] => .ok ()
  | e :: l => (checkEntry e).bind fun _ => checkEntries l

/-- quantities.py 975-1000: the setter of `derived_units`; the result is the new value of `_derived_units`. -/
def setDerived : Units → Res Units
  | .none => .ok .none
  | .other => .error .typeError
  | .dict l => (checkEntries l).map fun _ => .dict l

/-- quantities.py 1208-1210: the beginning of `_check_du`, called by `SI` for each symbol of the unit: `len(derived_units)`. -/
def lenDerived : Units → Res Nat
  | .dict l => .ok l.length
  | _ => .error .typeError

/-! ### Specification -/

/-- The arrays that are made by a view of an array and by changes of their attributes. -/
inductive Made (assign : V → List E → Res (List E)) (C : Cls V E) : Obj V E → Prop
  | view (src nd o) : view assign C src nd = .ok o → Made assign C o
  | set (o k v o') : Made assign C o → setattr assign C o k v = .ok o' → Made assign C o'

/-- No field of the array has the name of an attribute that is set when an array is made. -/
def NoClash (C : Cls V E) (nd : Nd E) : Prop := C.fits = true → ∀ e ∈ C.finals, e.1 ∉ nd.names

/-- Two arrays with the same elements and the same attributes. -/
def Same (o o' : Obj V E) : Prop := o'.nd = o.nd ∧ ∀ k, o'.dict.lookup k = o.dict.lookup k

/-- The valid entries: a Quantity or a function, for a tuple or for a symbol followed by nothing, `[leftward]` or `[rightward]`. -/
def ValidEntry : Key × Kind → Prop
  | (.str s, v) => v ≠ .other ∧ ∃ sym suffix, s = sym ++ suffix ∧ '[' ∉ sym ∧ (suffix = [] ∨ suffix = "[leftward]".toList ∨ suffix = "[rightward]".toList)
  | (.tuple _ _, v) => v ≠ .other

/-! ### Lemmas -/

theorem lookup_put (d : List (String × V)) (k : String) (v : V) (j : String) : (put d k v).lookup j = if j = k then some v else d.lookup j := by
  unfold put
  rw [List.lookup_cons]
  by_cases h : j = k
  · simp [h]
  · rw [if_neg h]
    simp only [beq_eq_false_iff_ne.2 h]
    induction d with
    | nil => rfl
    | cons e d ih =>
      by_cases he : e.1 = k
      · have : ¬ j = e.1 := fun hc => h (hc.trans he)
        rw [List.filter_cons_of_neg (by simpa using he), List.lookup_cons, beq_eq_false_iff_ne.2 this]
        exact ih
      · rw [List.filter_cons_of_pos (by simpa using he), List.lookup_cons, List.lookup_cons]
        cases j == e.1
        · exact ih
        · rfl

theorem put_keys {d : List (String × V)} {k : String} {v : V} (hn : (d.map (·.1)).Nodup) : ((put d k v).map (·.1)).Nodup := by
  unfold put
  rw [List.map_cons, List.nodup_cons]
  refine ⟨?_, (hn.sublist ((List.filter_sublist).map _))⟩
  intro h
  obtain ⟨e, he, rfl⟩ := List.mem_map.1 h
  simpa using (List.mem_filter.1 he).2

variable {assign : V → List E → Res (List E)} {C : Cls V E}

theorem setattr_names {o o' : Obj V E} {k : String} {v : V} (h : setattr assign C o k v = .ok o') : o'.nd.names = o.nd.names := by
  unfold setattr at h
  split at h
  · obtain ⟨l, -, rfl⟩ := map_eq_ok.1 h
    rfl
  · cases h; rfl

theorem setattrs_names : ∀ {l : List (String × V)} {o o' : Obj V E}, setattrs assign C o l = .ok o' → o'.nd.names = o.nd.names
  | [], o, o', h => by cases h; rfl
  | e :: l, o, o', h => by
    obtain ⟨o1, h1, h2⟩ := bind_eq_ok.1 h
    rw [setattrs_names h2, setattr_names h1]

/-- Without a field of this name the attributes are set. -/
theorem setattrs_ok : ∀ {l : List (String × V)} {o : Obj V E}, (C.fits = true → ∀ e ∈ l, e.1 ∉ o.nd.names) → (l.map (·.1)).Nodup →
    ∃ o', setattrs assign C o l = .ok o' ∧ o'.nd = o.nd ∧ ∀ k, o'.dict.lookup k = (l.lookup k).or (o.dict.lookup k)
  | [], o, _, _ => ⟨o, rfl, rfl, fun k => by simp⟩
  | e :: l, o, h, hn => by
    have h1 : setattr assign C o e.1 e.2 = .ok { o with dict := put o.dict e.1 e.2 } := by
      unfold setattr
      rw [if_neg fun hc => h hc.1 e (by simp) hc.2]
    rw [List.map_cons, List.nodup_cons] at hn
    obtain ⟨o', h2, h3, h4⟩ := setattrs_ok (l := l) (o := { o with dict := put o.dict e.1 e.2 }) (fun hf e' he' => h hf e' (by simp [he'])) hn.2
    refine ⟨o', by rw [setattrs, h1]; exact h2, h3, fun k => ?_⟩
    rw [h4]
    dsimp only
    rw [lookup_put, List.lookup_cons]
    by_cases hk : k = e.1
    · subst hk
      have : l.lookup e.1 = none := by
        rw [List.lookup_eq_none_iff]
        intro p hp
        exact bne_iff_ne.2 fun hc => hn.1 (List.mem_map.2 ⟨p, hp, hc.symm⟩)
      simp [this]
    · rw [if_neg hk]
      simp [beq_eq_false_iff_ne.2 hk]

/-- What holds for all the arrays: the keys of `__dict__` are distinct and none of them is a field, the attributes of the class are there. -/
structure Inv (C : Cls V E) (o : Obj V E) : Prop where
  nodup : (o.dict.map (·.1)).Nodup
  fields : C.fits = true → ∀ e ∈ o.dict, e.1 ∉ o.nd.names

theorem Inv.setattr {o o' : Obj V E} {k : String} {v : V} (hi : Inv C o) (h : Attributes.setattr assign C o k v = .ok o') : Inv C o' := by
  have hn := setattr_names h
  unfold Attributes.setattr at h
  split at h
  · obtain ⟨l, -, rfl⟩ := map_eq_ok.1 h
    exact ⟨hi.nodup, hi.fields⟩
  · rename_i hc
    cases h
    refine ⟨put_keys hi.nodup, fun hf e he => ?_⟩
    unfold put at he
    rcases List.mem_cons.1 he with rfl | he
    · exact fun hm => hc ⟨hf, hm⟩
    · exact hi.fields hf e (List.mem_filter.1 he).1

theorem Inv.setattrs : ∀ {l : List (String × V)} {o o' : Obj V E}, Inv C o → Attributes.setattrs assign C o l = .ok o' → Inv C o'
  | [], o, o', hi, h => by cases h; exact hi
  | e :: l, o, o', hi, h => by
    obtain ⟨o1, h1, h2⟩ := bind_eq_ok.1 h
    exact (hi.setattr h1).setattrs h2

theorem Made.inv {o : Obj V E} (h : Made assign C o) : Inv C o := by
  induction h with
  | view src nd o h => exact Inv.setattrs ⟨by simp, by simp⟩ h
  | set o k v o' _ h ih => exact ih.setattr h

/-! ### C147 -/

/-- C147: a view has the elements of the array and its attributes, or their default values. -/
theorem C147_view_partial (src : String → Option V) (nd : Nd E) (hf : (C.finals.map (·.1)).Nodup) (hc : NoClash C nd) :
    ∃ o, view assign C src nd = .ok o ∧ o.nd = nd ∧ ∀ e ∈ C.finals, o.dict.lookup e.1 = some ((src e.2.1).getD e.2.2) := by
  obtain ⟨o, h1, h2, h3⟩ := setattrs_ok (assign := assign) (C := C) (l := C.finals.map fun e => (e.1, (src e.2.1).getD e.2.2)) (o := ⟨nd, []⟩)
    (fun hfits e he => by
      obtain ⟨e', he', rfl⟩ := List.mem_map.1 he
      exact hc hfits e' he') (by rw [List.map_map]; exact hf)
  refine ⟨o, h1, h2, fun e he => ?_⟩
  rw [h3]
  have : ∀ {l : List (String × String × V)}, (l.map (·.1)).Nodup → e ∈ l → (l.map fun e => (e.1, (src e.2.1).getD e.2.2)).lookup e.1 = some ((src e.2.1).getD e.2.2) := by
    intro l
    induction l with
    | nil => intro _ h; cases h
    | cons a l ih =>
      intro hn he
      rw [List.map_cons, List.nodup_cons] at hn
      rw [List.map_cons, List.lookup_cons]
      rcases List.mem_cons.1 he with rfl | he
      · simp
      · have : ¬ e.1 = a.1 := fun h => hn.1 (List.mem_map.2 ⟨e, he, h⟩)
        simp only [beq_eq_false_iff_ne.2 this]
        exact ih hn.2 he
  rw [this hf he]
  rfl

/-- The attributes of the class are those of every array. -/
theorem Made.finals {o : Obj V E} (h : Made assign C o) (hf : (C.finals.map (·.1)).Nodup) (hc : NoClash C o.nd) : ∀ e ∈ C.finals, ∃ v, o.dict.lookup e.1 = some v := by
  induction h with
  | view src nd o h =>
    have hn : o.nd.names = nd.names := setattrs_names h
    obtain ⟨o', h1, -, h3⟩ := C147_view_partial (assign := assign) src nd hf (by intro hfits e he; rw [← hn]; exact hc hfits e he)
    rw [h] at h1
    cases h1
    exact fun e he => ⟨_, h3 e he⟩
  | set o k v o' _ h ih =>
    have hn := setattr_names h
    have ih := ih (by intro hfits e he; rw [← hn]; exact hc hfits e he)
    intro e he
    obtain ⟨w, hw⟩ := ih e he
    unfold Attributes.setattr at h
    split at h
    · obtain ⟨l, -, rfl⟩ := map_eq_ok.1 h
      exact ⟨w, hw⟩
    · cases h
      dsimp only
      rw [lookup_put]
      split
      · exact ⟨_, rfl⟩
      · exact ⟨w, hw⟩

/-- C147: an array read by pickle has the elements and the attributes of the array that was written, whatever was done to it. -/
theorem C147_pickle_partial {o : Obj V E} (h : Made assign C o) (hf : (C.finals.map (·.1)).Nodup) (hc : NoClash C o.nd) : ∃ o', unpickle assign C (reduce o) = .ok o' ∧ Same o o' := by
  obtain ⟨o1, h1, h2, h3⟩ := setattrs_ok (assign := assign) (C := C) (l := C.finals.map fun e => (e.1, ((fun _ => none : String → Option V) e.2.1).getD e.2.2))
    (o := ⟨⟨[], fun _ => [], []⟩, []⟩) (fun _ e _ => by simp) (by rw [List.map_map]; exact hf)
  obtain ⟨o2, h4, h5, h6⟩ := setattrs_ok (assign := assign) (C := C) (l := o.dict) (o := { o1 with nd := o.nd }) h.inv.fields h.inv.nodup
  refine ⟨o2, ?_, h5, fun k => ?_⟩
  · unfold unpickle view finalize
    rw [h1]
    exact h4
  · rw [h6]
    dsimp only
    rw [h3]
    cases hk : o.dict.lookup k with
    | some v => rfl
    | none =>
      rw [Option.none_or]
      have : (C.finals.map fun e => (e.1, ((fun _ => none : String → Option V) e.2.1).getD e.2.2)).lookup k = none := by
        rw [List.lookup_eq_none_iff]
        intro p hp
        refine bne_iff_ne.2 fun hc' => ?_
        obtain ⟨e, he, rfl⟩ := List.mem_map.1 hp
        obtain ⟨v, hv⟩ := h.finals hf hc e he
        have e1 : k = e.1 := hc'
        rw [← e1, hk] at hv
        cases hv
      rw [this]
      rfl

/-- C147: the fields of a structured array are read and written as attributes, unless the class defines an attribute of this name. -/
theorem C147_fields_partial (column : List E → V) {o : Obj V E} (h : Made assign C o) (hC : C.fits = true) {k : String} (hk : k ∈ o.nd.names) (ha : C.attrs k = none) :
    getattr column C o k = .ok (column (o.nd.cols k)) ∧
    ∀ v l, assign v (o.nd.cols k) = .ok l → ∃ o', setattr assign C o k v = .ok o' ∧ getattr column C o' k = .ok (column l) ∧ o'.dict = o.dict ∧ o'.nd.names = o.nd.names ∧
      ∀ j, j ≠ k → o'.nd.cols j = o.nd.cols j := by
  have hd : o.dict.lookup k = none := by
    rw [List.lookup_eq_none_iff]
    intro p hp
    exact bne_iff_ne.2 fun hc => h.inv.fields hC p hp (hc ▸ hk)
  have hg : ∀ nd : Nd E, k ∈ nd.names → getattr column C ⟨nd, o.dict⟩ k = .ok (column (nd.cols k)) := by
    intro nd hnd
    unfold getattr
    rw [ha]
    dsimp only
    rw [hd]
    dsimp only
    rw [if_pos ⟨hC, hnd⟩]
  refine ⟨hg o.nd hk, fun v l hv => ?_⟩
  refine ⟨{ o with nd := { o.nd with cols := fun j => if j = k then l else o.nd.cols j } }, ?_, ?_, rfl, rfl, fun j hj => if_neg hj⟩
  · unfold setattr
    rw [if_pos ⟨hC, hk⟩, hv]
    rfl
  · exact (hg { o.nd with cols := fun j => if j = k then l else o.nd.cols j } hk).trans (by simp)

/-- C147: the item of a field of a map has the values of this field, and the fields of the coverage and of the error. -/
theorem C147_item_partial (index : V → String → Res V) (isNone : V → Bool) (eu ed none lower : V) (attrs : String → Option (Obj V E → V)) {o : Obj V E}
    (hm : Made assign ⟨true, mapFinals eu ed none lower, attrs⟩ o) (hn : NoClash ⟨true, mapFinals eu ed none lower, attrs⟩ o.nd) {key : String} (hk : key ∈ o.nd.names)
    {cov err cov' err' : V} (hc : o.dict.lookup "coverage" = some cov) (he : o.dict.lookup "error" = some err) (hcov : isNone cov = false ∧ index cov key = .ok cov' ∨ isNone cov = true ∧ cov' = cov)
    (herr : isNone err = false ∧ index err key = .ok err' ∨ isNone err = true ∧ err' = err) :
    ∃ item, mapField assign index isNone ⟨true, mapFinals eu ed none lower, attrs⟩ o key = .ok item ∧ item.nd.names = [] ∧ item.nd.plain = o.nd.cols key ∧
      item.dict.lookup "coverage" = some cov' ∧ item.dict.lookup "error" = some err' ∧ item.dict.lookup "_unit" = o.dict.lookup "_unit" := by
  have hf : ((mapFinals eu ed none lower).map (·.1)).Nodup := by
    simp [mapFinals, fitsFinals, quantityFinals]
  obtain ⟨item, h1, h2, h3⟩ := C147_view_partial (assign := assign) (C := ⟨true, mapFinals eu ed none lower, attrs⟩) (fun k => o.dict.lookup k) ⟨[], fun _ => [], o.nd.cols key⟩ hf
    (by intro _ e _; simp)
  obtain ⟨u, hu⟩ := hm.finals hf hn ("_unit", "_unit", eu) (by simp [mapFinals, fitsFinals, quantityFinals])
  have c1 := h3 ("coverage", "coverage", none) (by simp [mapFinals, fitsFinals, quantityFinals])
  have c2 := h3 ("error", "error", none) (by simp [mapFinals, fitsFinals, quantityFinals])
  have c3 := h3 ("_unit", "_unit", eu) (by simp [mapFinals, fitsFinals, quantityFinals])
  dsimp only at c1 c2 c3 hu
  rw [hc] at c1
  rw [he] at c2
  rw [hu] at c3
  have step : ∀ (it : Obj V E) (a : String) (v v' : V), it.nd.names = [] → it.dict.lookup a = some v → (isNone v = false ∧ index v key = .ok v' ∨ isNone v = true ∧ v' = v) →
      ∃ it', indexAttr assign index isNone ⟨true, mapFinals eu ed none lower, attrs⟩ key a it = .ok it' ∧ it'.nd = it.nd ∧
        ∀ j, it'.dict.lookup j = if j = a then some v' else it.dict.lookup j := by
    intro it a v v' hnames hv hcase
    unfold indexAttr
    rw [hv]
    dsimp only
    rcases hcase with ⟨h, hi⟩ | ⟨h, rfl⟩
    · rw [if_neg (by simp [h]), hi]
      refine ⟨{ it with dict := put it.dict a v' }, ?_, rfl, fun j => lookup_put _ _ _ _⟩
      show setattr _ _ _ _ _ = _
      unfold setattr
      rw [if_neg (by simp [hnames])]
    · rw [if_pos h]
      refine ⟨it, rfl, rfl, fun j => ?_⟩
      split
      · rename_i hj; rw [hj, hv]
      · rfl
  obtain ⟨it1, a1, a2, a3⟩ := step item "coverage" cov cov' (by rw [h2]) c1 hcov
  obtain ⟨it2, b1, b2, b3⟩ := step it1 "error" err err' (by rw [a2, h2]) (by rw [a3]; simpa using c2) herr
  refine ⟨it2, ?_, by rw [b2, a2, h2], by rw [b2, a2, h2], ?_, ?_, ?_⟩
  · unfold mapField
    rw [if_pos hk, h1]
    show (indexAttr _ _ _ _ _ _ _).bind _ = _
    rw [a1]
    exact b1
  · rw [b3, a3]; simp
  · rw [b3]; simp
  · rw [b3, a3, hu]; simpa using c3

/-- C147: the derived units that are accepted. -/
theorem C147_derived (l : List (Key × Kind)) : (setDerived (.dict l) = .ok (.dict l) ↔ ∀ e ∈ l, ValidEntry e) ∧ (¬ (∀ e ∈ l, ValidEntry e) → (setDerived (.dict l)).isOk = false) := by
  have entry : ∀ e, (checkEntry e = .ok () ∧ ValidEntry e) ∨ ((checkEntry e).isOk = false ∧ ¬ ValidEntry e) := by
    rintro ⟨k, v⟩
    cases k with
    | tuple s n =>
      by_cases h : v = .other
      · right
        simp [checkEntry, ValidEntry, h, Except.isOk, Except.toBool]
      · left
        simp [checkEntry, ValidEntry, h]
    | str s =>
      unfold checkEntry ValidEntry
      dsimp only
      by_cases h : v = .other
      · right
        rw [if_pos h]
        exact ⟨rfl, fun hc => hc.1 h⟩
      rw [if_neg h]
      by_cases hb : '[' ∈ s
      · rw [if_pos hb]
        have hs : s.takeWhile (· ≠ '[') ++ s.dropWhile (· ≠ '[') = s := List.takeWhile_append_dropWhile
        have htw : '[' ∉ s.takeWhile (· ≠ '[') := fun hm => by simpa using List.all_eq_true.1 (List.all_takeWhile (p := (· ≠ '[')) (l := s)) _ hm
        by_cases hd : s.dropWhile (· ≠ '[') = "[leftward]".toList ∨ s.dropWhile (· ≠ '[') = "[rightward]".toList
        · rw [if_pos hd]
          exact .inl ⟨rfl, h, _, _, hs.symm, htw, .inr hd⟩
        · rw [if_neg hd]
          refine .inr ⟨rfl, ?_⟩
          rintro ⟨-, sym, suffix, e, hsym, hsuf⟩
          have key : ∀ t : List Char, s = sym ++ '[' :: t → s.dropWhile (· ≠ '[') = '[' :: t := by
            intro t ht
            rw [ht, List.dropWhile_append_of_pos (by
              intro x hx
              have : x ≠ '[' := fun hc => hsym (hc ▸ hx)
              simpa using this)]
            simp
          rcases hsuf with rfl | rfl | rfl
          · rw [List.append_nil] at e
            exact hsym (e ▸ hb)
          · exact hd (.inl (key _ e))
          · exact hd (.inr (key _ e))
      · rw [if_neg hb]
        exact .inl ⟨rfl, h, s, [], by simp, hb, .inl rfl⟩
  have all : ∀ l : List (Key × Kind), (checkEntries l = .ok () ∧ ∀ e ∈ l, ValidEntry e) ∨ ((checkEntries l).isOk = false ∧ ¬ ∀ e ∈ l, ValidEntry e) := by
    intro l
    induction l with
    | nil => exact .inl ⟨rfl, by simp⟩
    | cons e l ih =>
      rw [checkEntries]
      rcases entry e with ⟨h1, h2⟩ | ⟨h1, h2⟩
      · rw [h1]
        rcases ih with ⟨h3, h4⟩ | ⟨h3, h4⟩
        · exact .inl ⟨h3, by simpa using ⟨h2, fun a b => h4 (a, b)⟩⟩
        · refine .inr ⟨h3, fun hc => h4 fun e' he' => hc e' (by simp [he'])⟩
      · refine .inr ⟨?_, fun hc => h2 (hc e (by simp))⟩
        cases he : checkEntry e with
        | ok u => rw [he] at h1; cases h1
        | error er => rfl
  unfold setDerived
  dsimp only
  rcases all l with ⟨h1, h2⟩ | ⟨h1, h2⟩
  · rw [h1]
    exact ⟨⟨fun _ => h2, fun _ => rfl⟩, fun hc => absurd h2 hc⟩
  · cases hl : checkEntries l with
    | ok u => rw [hl] at h1; cases h1
    | error er => exact ⟨⟨fun hc => (nomatch hc), fun hc => absurd hc h2⟩, fun _ => rfl⟩

/-! ### Where it fails -/

/-- The assignment by numpy of a value to an array of floating point numbers: None is NaN (here -1), an array is copied. -/
def assignFloat : Option (List Int) → List Int → Res (List Int)
  | none, l => .ok (l.map fun _ => -1)
  | some v, l => if v.length = l.length then .ok v else .error .valueError

/-- The class Map, the units and the origin being represented by the empty list. -/
def mapClass : Cls (Option (List Int)) Int := ⟨true, mapFinals (some []) (some []) none (some []), fun k => if k = "unit" then some fun _ => some [] else none⟩

/-- C147 fails if a field of a structured map has the name of one of its attributes: the view of an array sets the values of this field to NaN. -/
theorem C147_violation_clash : ∃ (nd : Nd Int) (o : Obj (Option (List Int)) Int), nd.names = ["flux", "error"] ∧ nd.cols "error" = [1, 2] ∧
    view assignFloat mapClass (fun _ => none) nd = .ok o ∧ o.nd.cols "error" = [-1, -1] := by
  refine ⟨⟨["flux", "error"], fun k => if k = "flux" then [5, 6] else [1, 2], []⟩, _, rfl, rfl, rfl, rfl⟩

/-- C147 fails if a field of a structured map has the name of one of its attributes: after pickle the attribute is None instead of the field. -/
theorem C147_violation_pickle : ∃ (o o' : Obj (Option (List Int)) Int), Made assignFloat mapClass o ∧ unpickle assignFloat mapClass (reduce o) = .ok o' ∧
    getattr some mapClass o "error" = .ok (some [7, 8]) ∧ getattr some mapClass o' "error" = .ok none := by
  refine ⟨_, _, .set _ "error" (some [7, 8]) _ (.view (fun _ => none) ⟨["flux", "error"], fun k => if k = "flux" then [5, 6] else [1, 2], []⟩ _ rfl) rfl, rfl, rfl, rfl⟩

/-- C147 fails if a field has the name of a property: it is written, but the property is read. -/
theorem C147_violation_property : ∃ (o o' : Obj (Option (List Int)) Int), Made assignFloat mapClass o ∧ setattr assignFloat mapClass o "unit" (some [7, 8]) = .ok o' ∧
    o'.nd.cols "unit" = [7, 8] ∧ getattr some mapClass o' "unit" = .ok (some []) := by
  refine ⟨_, _, .view (fun _ => none) ⟨["unit"], fun _ => [1, 2], []⟩ _ rfl, rfl, rfl, rfl⟩

/-- C147 fails if the coverage of a structured map is not structured: its fields cannot be read, neither as items nor as attributes. -/
theorem C147_violation_coverage : ∃ (o : Obj (Option (List Int)) Int), Made assignFloat mapClass o ∧ "flux" ∈ o.nd.names ∧
    mapField assignFloat (fun _ _ => .error .indexError) (fun v => v.isNone) mapClass o "flux" = .error .indexError := by
  refine ⟨_, .set _ "coverage" (some [1, 1]) _ (.view (fun _ => none) ⟨["flux", "var"], fun k => if k = "flux" then [5, 6] else [1, 2], []⟩ _ rfl) rfl, ?_, rfl⟩
  show "flux" ∈ ["flux", "var"]
  simp

/-- C147 fails for the derived units None: they are accepted, and no unit can be converted any more. -/
theorem C147_violation_none : setDerived .none = .ok .none ∧ lenDerived .none = .error .typeError := ⟨rfl, rfl⟩

/-- C147 fails for a tuple: the exception is not the documented one. -/
theorem C147_violation_tuple (s : List Char) (n : Int) : setDerived (.dict [(.tuple s n, .other)]) = .error .typeError ∧ setDerived (.dict [(.str s, .other)]) = .error .unitError := ⟨rfl, rfl⟩

/-! ### Examples -/

/-- A map with two fields, a structured coverage and an attribute. -/
example : ∃ o, Made assignFloat mapClass o ∧ NoClash mapClass o.nd ∧ o.dict.lookup "coverage" = some (some [3, 4]) ∧ o.dict.lookup "comment" = some (some [9]) ∧ "flux" ∈ o.nd.names := by
  refine ⟨_, .set _ "comment" (some [9]) _ (.set _ "coverage" (some [3, 4]) _
    (.view (fun _ => none) ⟨["flux", "var"], fun k => if k = "flux" then [5, 6] else [1, 2], []⟩ _ rfl) rfl) rfl, ?_, rfl, rfl, ?_⟩
  · intro _ e he
    have : e.1 ∈ mapClass.finals.map (·.1) := List.mem_map.2 ⟨e, he, rfl⟩
    simp [mapClass, mapFinals, fitsFinals, quantityFinals] at this
    show e.1 ∉ ["flux", "var"]
    rcases this with h | h | h | h | h | h <;> rw [h] <;> simp
  · show "flux" ∈ ["flux", "var"]
    simp

example : (mapClass.finals.map (·.1)).Nodup := by decide

example : ValidEntry (.str "detector[rightward]".toList, .quantity) ∧ ¬ ValidEntry (.str "detector[upward]".toList, .quantity) := by
  refine ⟨⟨by simp, "detector".toList, "[rightward]".toList, rfl, by decide, by simp⟩, ?_⟩
  intro h
  have := ((C147_derived [(.str "detector[upward]".toList, .quantity)]).1).2 (by simpa using h)
  have h2 : setDerived (.dict [(.str "detector[upward]".toList, .quantity)]) = .error .unitError := rfl
  rw [h2] at this
  cases this

end Verif.Data.Attributes
