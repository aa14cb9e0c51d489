import Verif.PackedTable.Props
import Mathlib.Tactic

/-!
The value given to the components that are not selected (C141): src/pysimulators/packedtables/core.py 630-643 and 650-665.
-/
namespace Verif.PackedTable
open Verif.Py

/-! ### Model -/

mutual
/-- The numpy types. `sub` is an array of fixed shape inside a structure, `void` the bytes without structure. -/
inductive DType
  | bool | int | uint | float | complex | bytes | str | object | datetime | timedelta
  | void
  | sub (d : DType) (shape : List Nat)
  | struct (fs : Fields)
/-- The fields of a structure: name, presence of a title, type. -/
inductive Fields
  | nil
  | cons (name : String) (title : Bool) (d : DType) (rest : Fields)
end

mutual
/-- The values. -/
inductive MVal
  | bool (b : Bool) | int (i : Int) | nan | empty | none
  | struct (fs : MFields)
/-- The fields of a value of structured type. -/
inductive MFields
  | nil
  | cons (name : String) (v : MVal) (rest : MFields)
end

mutual
/-- core.py 650-665 `_get_default_missing_value`.  `dtype.fields` is None for the types `void` and `sub`, whose kind is V too (line 653);
its values have three elements for the fields that have a title; the kinds M and m are not in the dictionary. -/
def missingValue : DType → Res MVal
  | .bool => .ok (.bool false)
  | .int => .ok (.int (-1))
  | .uint => .ok (.int 0)
  | .float => .ok .nan
  | .complex => .ok .nan
  | .bytes => .ok .empty
  | .str => .ok .empty
  | .object => .ok .none
  | .datetime => .error .keyError
  | .timedelta => .error .keyError
  | .void => .error .attributeError
  | .sub _ _ => .error .attributeError
  | .struct fs => (missingFields fs).map .struct
/-- core.py 653-655: the loop on the fields. -/
def missingFields : Fields → Res MFields
  | .nil => .ok .nil
  | .cons name title d rest =>
    if title then .error .valueError
    else (missingValue d).bind fun v => (missingFields rest).map fun r => .cons name v r
end

/-- core.py 564-648 `unpack` without `missing_value`: the default value is computed when there are components that are not selected
(lines 630-633).  `emb` turns the default value into a row. -/
def Table.unpackDefault {α : Type} (t : Table) (emb : MVal → α) (buf : List α) (d : DType) (x : List α) : Res (List α) :=
  t.len.bind fun n =>
    if x.length ≠ 1 ∧ x.length ≠ n then .error .valueError
    else if t.size > n then (missingValue d).bind fun v => t.unpack buf (emb v) x
    else t.unpack buf (emb .none) x

/-! ### Specification -/

mutual
/-- The type found by following the names of the fields. -/
def DType.at : DType → List String → Option DType
  | d, [] => some d
  | .struct fs, name :: path => fs.at name path
  | _, _ :: _ => none
/-- The same among fields. -/
def Fields.at : Fields → String → List String → Option DType
  | .nil, _, _ => none
  | .cons n _ d rest, name, path => if n = name then d.at path else rest.at name path
end

mutual
/-- The value found by following the names of the fields. -/
def MVal.at : MVal → List String → Option MVal
  | v, [] => some v
  | .struct fs, name :: path => fs.at name path
  | _, _ :: _ => none
/-- The same among fields. -/
def MFields.at : MFields → String → List String → Option MVal
  | .nil, _, _ => none
  | .cons n v rest, name, path => if n = name then v.at path else rest.at name path
end

/-- The missing value of a type that is not a structure. -/
def Marks : DType → MVal → Prop
  | .bool, v => v = .bool false
  | .int, v => v = .int (-1)
  | .uint, v => v = .int 0
  | .float, v => v = .nan
  | .complex, v => v = .nan
  | .bytes, v => v = .empty
  | .str, v => v = .empty
  | .object, v => v = .none
  | .struct _, v => ∃ fs, v = .struct fs
  | _, _ => False

mutual
/-- The types without dates, without durations, without bytes, without arrays in a structure and without titles. -/
def Plain : DType → Prop
  | .datetime => False
  | .timedelta => False
  | .void => False
  | .sub _ _ => False
  | .struct fs => PlainFields fs
  | _ => True
/-- The same for the fields. -/
def PlainFields : Fields → Prop
  | .nil => True
  | .cons _ title d rest => title = false ∧ Plain d ∧ PlainFields rest
end

/-! ### Theorems -/

mutual
theorem missing_iff : ∀ (d : DType), Plain d ↔ ∃ v, missingValue d = .ok v
  | .bool => by simp [Plain, missingValue]
  | .int => by simp [Plain, missingValue]
  | .uint => by simp [Plain, missingValue]
  | .float => by simp [Plain, missingValue]
  | .complex => by simp [Plain, missingValue]
  | .bytes => by simp [Plain, missingValue]
  | .str => by simp [Plain, missingValue]
  | .object => by simp [Plain, missingValue]
  | .datetime => by simp [Plain, missingValue]
  | .timedelta => by simp [Plain, missingValue]
  | .void => by simp [Plain, missingValue]
  | .sub _ _ => by simp [Plain, missingValue]
  | .struct fs => by
    rw [Plain, missingFields_iff fs, missingValue]
    constructor
    · rintro ⟨v, h⟩
      exact ⟨_, by rw [h]; rfl⟩
    · rintro ⟨v, h⟩
      obtain ⟨w, hw, _⟩ := map_eq_ok.1 h
      exact ⟨w, hw⟩
theorem missingFields_iff : ∀ (fs : Fields), PlainFields fs ↔ ∃ v, missingFields fs = .ok v
  | .nil => by simp [PlainFields, missingFields]
  | .cons name title d rest => by
    rw [PlainFields, missing_iff d, missingFields_iff rest, missingFields]
    cases title with
    | true => simp
    | false =>
      simp only [true_and, Bool.false_eq_true, if_false]
      constructor
      · rintro ⟨⟨v, hv⟩, w, hw⟩
        exact ⟨_, by rw [hv]; simp only [Except.bind]; rw [hw]; rfl⟩
      · rintro ⟨v, h⟩
        obtain ⟨a, ha, h⟩ := bind_eq_ok.1 h
        obtain ⟨b, hb, _⟩ := map_eq_ok.1 h
        exact ⟨⟨a, ha⟩, b, hb⟩
end

mutual
theorem missing_at : ∀ (d : DType) (v : MVal), missingValue d = .ok v → ∀ (path : List String),
    (∀ leaf, d.at path = some leaf → ∃ w, v.at path = some w ∧ Marks leaf w) ∧ (d.at path = none → v.at path = none)
  | .bool, v, h, path => by
    simp only [missingValue, Except.ok.injEq] at h; subst h
    cases path <;> simp [DType.at, MVal.at, Marks]
  | .int, v, h, path => by
    simp only [missingValue, Except.ok.injEq] at h; subst h
    cases path <;> simp [DType.at, MVal.at, Marks]
  | .uint, v, h, path => by
    simp only [missingValue, Except.ok.injEq] at h; subst h
    cases path <;> simp [DType.at, MVal.at, Marks]
  | .float, v, h, path => by
    simp only [missingValue, Except.ok.injEq] at h; subst h
    cases path <;> simp [DType.at, MVal.at, Marks]
  | .complex, v, h, path => by
    simp only [missingValue, Except.ok.injEq] at h; subst h
    cases path <;> simp [DType.at, MVal.at, Marks]
  | .bytes, v, h, path => by
    simp only [missingValue, Except.ok.injEq] at h; subst h
    cases path <;> simp [DType.at, MVal.at, Marks]
  | .str, v, h, path => by
    simp only [missingValue, Except.ok.injEq] at h; subst h
    cases path <;> simp [DType.at, MVal.at, Marks]
  | .object, v, h, path => by
    simp only [missingValue, Except.ok.injEq] at h; subst h
    cases path <;> simp [DType.at, MVal.at, Marks]
  | .datetime, v, h, _ => by cases h
  | .timedelta, v, h, _ => by cases h
  | .void, v, h, _ => by cases h
  | .sub _ _, v, h, _ => by cases h
  | .struct fs, v, h, path => by
    rw [missingValue] at h
    obtain ⟨w, hw, rfl⟩ := map_eq_ok.1 h
    cases path with
    | nil => simp [DType.at, MVal.at, Marks]
    | cons name path =>
      simp only [DType.at, MVal.at]
      exact missingFields_at fs w hw name path
theorem missingFields_at : ∀ (fs : Fields) (v : MFields), missingFields fs = .ok v → ∀ (name : String) (path : List String),
    (∀ leaf, fs.at name path = some leaf → ∃ w, v.at name path = some w ∧ Marks leaf w) ∧ (fs.at name path = none → v.at name path = none)
  | .nil, v, h, name, path => by
    simp only [missingFields, Except.ok.injEq] at h; subst h
    simp [Fields.at, MFields.at]
  | .cons n title d rest, v, h, name, path => by
    rw [missingFields] at h
    cases title with
    | true => cases h
    | false =>
      simp only [Bool.false_eq_true, if_false] at h
      obtain ⟨a, ha, h⟩ := bind_eq_ok.1 h
      obtain ⟨b, hb, rfl⟩ := map_eq_ok.1 h
      simp only [Fields.at, MFields.at]
      by_cases hn : n = name
      · simp only [hn, if_true]
        exact missing_at d a ha path
      · simp only [hn, if_false]
        exact missingFields_at rest b hb name path
end

/-- C141, partial: in a type without dates, bytes, inner arrays nor titles, every field, at any depth, receives the missing value of its own type,
and there are no other fields.  Full statement: for every type; it is false, see `C141_exact` and the violations. -/
theorem C141_fields_partial (d : DType) (hp : Plain d) :
    ∃ v, missingValue d = .ok v ∧ ∀ (path : List String),
      (∀ leaf, d.at path = some leaf → ∃ w, v.at path = some w ∧ Marks leaf w) ∧ (d.at path = none → v.at path = none) := by
  obtain ⟨v, hv⟩ := (missing_iff d).1 hp
  exact ⟨v, hv, missing_at d v hv⟩

/-- C141: these types are the only ones that have a missing value. -/
theorem C141_exact (d : DType) : (∃ v, missingValue d = .ok v) ↔ Plain d := (missing_iff d).symm

/-- C141, partial: an array of such a type can be unpacked, and the components that are not selected are marked.  Full statement: for every type
and for tables with repeated components. -/
theorem C141_unpack_partial {α : Type} {t : Table} (h : Reachable t) {index : List Int} (hi : t.index = .ok index) (hn : index.Nodup)
    (emb : MVal → α) (buf : List α) (hb : buf.length = t.size) (d : DType) (hp : Plain d) (x : List α)
    (hx : x.length = 1 ∨ x.length = index.length) :
    ∃ v out, missingValue d = .ok v ∧ t.unpackDefault emb buf d x = .ok out ∧ UnpacksTo t.size index (emb v) x out := by
  obtain ⟨v, hv⟩ := (missing_iff d).1 hp
  have hl := C07_len_partial h hi
  obtain ⟨out, h1, h2⟩ := C02_unpack_partial h hi hn buf hb (emb v) x hx
  refine ⟨v, ?_⟩
  unfold Table.unpackDefault
  rw [hl]
  simp only [Except.bind]
  rw [if_neg (by rintro ⟨a, b⟩; rcases hx with hx | hx <;> contradiction)]
  split
  · exact ⟨out, hv, by rw [hv]; exact h1, h2⟩
  · rename_i hs
    obtain ⟨out', h1', h2'⟩ := C02_unpack_partial h hi hn buf hb (emb .none) x hx
    refine ⟨out', hv, h1', h2'.1, h2'.2.1, fun p hp hm => ?_⟩
    exfalso
    -- all the components are selected
    have hsub : index.map Int.toNat ⊆ List.range t.size := by
      intro a ha
      obtain ⟨i, him, rfl⟩ := List.mem_map.1 ha
      have := h.wf.bounds i (by
        have := index_of_wf h.wf
        rw [hi] at this
        injection this with this
        rwa [← this])
      rw [List.mem_range]
      omega
    have hnd : (index.map Int.toNat).Nodup := nodup_map_toNat hn (fun i him => by
      have := index_of_wf h.wf
      rw [hi] at this
      injection this with this
      rw [this] at him
      exact (h.wf.bounds i him).1)
    have hperm : (index.map Int.toNat).Perm (List.range t.size) :=
      (List.subperm_of_subset hnd hsub).perm_of_length_le (by rw [List.length_map, List.length_range]; omega)
    have hmem := (hperm.mem_iff (a := p)).2 (List.mem_range.2 hp)
    obtain ⟨i, him, hip⟩ := List.mem_map.1 hmem
    have := h.wf.bounds i (by
      have := index_of_wf h.wf
      rw [hi] at this
      injection this with this
      rwa [← this])
    apply hm
    have he : (p : Int) = i := by omega
    rwa [he]

/-- C141 does not hold for dates: an attribute made of dates can be read, but not unpacked as soon as a component is not selected. -/
theorem C141_violation_dates {α : Type} {t : Table} {n : Nat} (hn : t.len = .ok n) (hs : n < t.size) (emb : MVal → α) (buf x : List α)
    (hx : x.length = n) (d : DType) (hd : d = .datetime ∨ d = .timedelta) : t.unpackDefault emb buf d x = .error .keyError := by
  unfold Table.unpackDefault
  rw [hn]
  simp only [Except.bind]
  rw [if_neg (by rintro ⟨_, b⟩; exact b hx), if_pos hs]
  rcases hd with rfl | rfl <;> rfl

/-- C141 does not hold for a structure that has an array among its fields, for instance the positions: its type has no `fields`. -/
theorem C141_violation_array (name : String) (d : DType) (shape : List Nat) (rest : Fields) :
    missingValue (.struct (.cons name false (.sub d shape) rest)) = .error .attributeError := by
  simp [missingValue, missingFields, Except.bind, Except.map]

/-- C141 does not hold for a structure whose first field has a title. -/
theorem C141_violation_title (name : String) (d : DType) (rest : Fields) :
    missingValue (.struct (.cons name true d rest)) = .error .valueError := by
  simp [missingValue, missingFields, Except.map]

/-- A structure with a nested structure. -/
def nestedType : DType :=
  .struct (.cons "id" false .int (.cons "position" false (.struct (.cons "x" false .float (.cons "name" false .str .nil))) .nil))

example : Plain nestedType ∧ nestedType.at ["position", "x"] = some .float ∧ nestedType.at ["x"] = none ∧
    (∃ v, missingValue nestedType = .ok v ∧ v.at ["id"] = some (.int (-1)) ∧ v.at ["position", "name"] = some .empty) := by
  refine ⟨?_, ?_, ?_, _, rfl, ?_, ?_⟩
  · simp [nestedType, Plain, PlainFields]
  all_goals simp [nestedType, DType.at, Fields.at, MVal.at, MFields.at]

example : t23.len = .ok 3 ∧ 3 < t23.size := by decide

end Verif.PackedTable
