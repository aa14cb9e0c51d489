import Verif.PackedTable.Equiv

/-! Property C10: equivalent selections. -/
namespace Verif.PackedTable
open Verif.Py

/-- The selections of the components that are True in a mask, in the forms covered by C10. -/
inductive Denotes (shape : List Nat) (mask : List Bool) : Sel → Prop
  /-- the mask itself -/
  | bools : Denotes shape mask (.bools shape mask)
  /-- the increasing list of the flat positions -/
  | ints {l : List Int} : l.Pairwise (· < ·) → (∀ i : Int, i ∈ l ↔ ∃ p : Nat, i = p ∧ mask[p]? = some true) →
      Denotes shape mask (.ints l)
  /-- an ascending slice of flat positions -/
  | slice {s : PySlice} {l : List Int} : 0 < s.step.getD 1 → sliceIndices s shape.prod = .ok l →
      (∀ i : Int, i ∈ l ↔ ∃ p : Nat, i = p ∧ mask[p]? = some true) → Denotes shape mask (.slice s)
  /-- a tuple of ascending slices along the axes -/
  | tuple {ss : List PySlice} : ss ≠ [] → ss.length ≤ shape.length → (∀ s ∈ ss, 0 < s.step.getD 1) →
      BoxOk shape ss → mask = boxMask shape ss → Denotes shape mask (.tuple (ss.map .slice))

/-- C10: without ordering, all the forms define the same component list: the increasing list of the
selected positions.  (Not covered: descending slices, tuples with full slices in the middle, and orderings,
see the violations.) -/
theorem C10_equivalent_partial {shape : List Nat} {mask : List Bool} (hm : mask.length = shape.prod)
    {sel : Sel} (h : Denotes shape mask sel) :
    ∃ t, Table.make shape sel none none = .ok t ∧ t.shape = shape ∧
      ∃ index, t.index = .ok index ∧ index.Pairwise (· < ·) ∧
        ∀ i : Int, i ∈ index ↔ ∃ p : Nat, i = p ∧ mask[p]? = some true := by
  have key : ∃ i, getIndex shape sel none = .ok i ∧ i.WF shape.prod ∧ i.comps shape.prod = whereTrue mask := by
    cases h with
    | bools =>
      refine ⟨normalizeInt (whereTrue mask) shape.prod, ?_, whereTrue_wf hm⟩
      simp [getIndex, normalizeSelection, Except.bind]
    | ints hs hmem =>
      rename_i l
      have : l = whereTrue mask := sorted_ext hs (whereTrue_sorted _) (fun i => by rw [hmem, mem_whereTrue])
      subst this
      exact ⟨normalizeInt (whereTrue mask) shape.prod, rfl, whereTrue_wf hm⟩
    | slice hc hsi hmem =>
      rename_i s l
      obtain ⟨r, h1, h2⟩ := normalizeSlice_pos (n := shape.prod) hc
      have hl : l = whereTrue mask := by
        apply sorted_ext _ (whereTrue_sorted _) (fun i => by rw [hmem, mem_whereTrue])
        unfold sliceIndices at hsi
        dsimp only at hsi
        rw [if_neg (by omega)] at hsi
        injection hsi with hsi
        rw [← hsi]
        exact progression_sorted hc _
      unfold getIndex normalizeSelection
      simp only [h1]
      cases r with
      | all =>
        refine ⟨.all, rfl, trivial, ?_⟩
        have : sliceIndices s shape.prod = .ok (progression 0 1 shape.prod) := h2
        rw [hsi] at this; injection this with this
        rw [← hl, this]; rfl
      | slice a b c =>
        obtain ⟨hwf, hsi'⟩ := h2.wf (by omega)
        rw [hsi] at hsi'; injection hsi' with hsi'
        exact ⟨.slice a b c, rfl, hwf, by rw [← hsi', hl]⟩
    | tuple h1 h2 h3 h4 h5 =>
      subst h5
      exact getIndex_box h1 h2 h3 h4
  obtain ⟨i, h1, h2, h3⟩ := key
  refine ⟨⟨shape, shape.length, i⟩, ?_, rfl, whereTrue mask, ?_, whereTrue_sorted _, fun i => mem_whereTrue⟩
  · simp [Table.make, h1, Except.map]
  · have := index_of_wf (t := ⟨shape, shape.length, i⟩) (by simpa [Table.size, Table.dims] using h2)
    simpa [Table.size, Table.dims, h3] using this

/-- Two equivalent selections give the same component list. -/
theorem C10_same_index_partial {shape : List Nat} {mask : List Bool} (hm : mask.length = shape.prod)
    {sel sel' : Sel} (h : Denotes shape mask sel) (h' : Denotes shape mask sel') :
    ∃ t t' index, Table.make shape sel none none = .ok t ∧ Table.make shape sel' none none = .ok t' ∧
      t.index = .ok index ∧ t'.index = .ok index := by
  obtain ⟨t, h1, _, index, h2, h3, h4⟩ := C10_equivalent_partial hm h
  obtain ⟨t', h1', _, index', h2', h3', h4'⟩ := C10_equivalent_partial hm h'
  have : index = index' := sorted_ext h3 h3' (fun i => by rw [h4, h4'])
  subst this
  exact ⟨t, t', index, h1, h1', h2, h2'⟩

/-- With an ordering, integers and slices act on the rows instead of the flat positions: the same selection
designates different components with and without an ordering. -/
theorem C10_violation_ordering :
    (Table.make [2, 2] (.ints [1]) none none).bind Table.index = .ok [1] ∧
    (Table.make [2, 2] (.ints [1]) (some ([2, 2], [0, 1, 2, 3])) none).bind Table.index = .ok [2, 3] ∧
    (Table.make [2, 2] (.slice ⟨some 0, some 1, none⟩) none none).bind Table.index = .ok [0] ∧
    (Table.make [2, 2] (.slice ⟨some 0, some 1, none⟩) (some ([2, 2], [0, 1, 2, 3])) none).bind Table.index
      = .ok [0, 1] := by
  have h1 : argsort [-1, -1, 2, 3] = [0, 1, 2, 3] := by
    simp [argsort, List.mergeSort, List.MergeSort.Internal.splitInTwo, List.range, List.range.loop]
  have h2 : argsort [0, 1, -1, -1] = [2, 3, 0, 1] := by
    simp [argsort, List.mergeSort, List.MergeSort.Internal.splitInTwo, List.range, List.range.loop]
  have h1' : orderingIndex [-1, -1, 2, 3] 4 = .slice 2 4 1 := by unfold orderingIndex; rw [h1]; decide
  have h2' : orderingIndex [0, 1, -1, -1] 4 = .slice 0 2 1 := by unfold orderingIndex; rw [h2]; decide
  have e1 : Table.make [2, 2] (.ints [1]) (some ([2, 2], [0, 1, 2, 3])) none
      = .ok ⟨[2, 2], 2, orderingIndex [-1, -1, 2, 3] 4⟩ := rfl
  have e2 : Table.make [2, 2] (.slice ⟨some 0, some 1, none⟩) (some ([2, 2], [0, 1, 2, 3])) none
      = .ok ⟨[2, 2], 2, orderingIndex [0, 1, -1, -1] 4⟩ := rfl
  rw [e1, e2, h1', h2']
  decide

/-- Descending slices in tuples select nothing; a full slice in the middle of a short tuple shifts the
following ones; two full slices before another one are rejected. -/
theorem C10_violation_tuples :
    (Table.make [2, 3] (.tuple [.slice ⟨none, none, some (-1)⟩]) none none).bind Table.index = .ok [] ∧
    ((Table.make [2, 2, 2] (.tuple [.slice ⟨none, none, none⟩, .slice ⟨some 0, some 1, none⟩]) none none).bind
        Table.index = .ok [0, 2, 4, 6] ∧
      whereTrue (boxMask [2, 2, 2] [⟨none, none, none⟩, ⟨some 0, some 1, none⟩]) = [0, 1, 4, 5]) ∧
    (Table.make [2, 2, 2]
      (.tuple [.slice ⟨none, none, none⟩, .slice ⟨none, none, none⟩, .slice ⟨some 0, some 1, none⟩]) none none)
        = .error .indexError := by decide

example : Denotes [2, 3] (boxMask [2, 3] [⟨none, none, none⟩, ⟨some 1, none, none⟩])
    (.tuple ([⟨none, none, none⟩, ⟨some 1, none, none⟩].map .slice)) :=
  .tuple (by decide) (by decide) (by decide) ⟨[.ellipsis, .slice 1 3 1], by decide, by decide⟩ rfl

example : boxMask [2, 3] [⟨none, none, none⟩, ⟨some 1, none, none⟩] = [false, true, true, false, true, true] ∧
    (Table.make [2, 3] (.tuple ([⟨none, none, none⟩, ⟨some 1, none, none⟩].map .slice)) none none).bind Table.index
      = .ok [1, 2, 4, 5] := by decide

end Verif.PackedTable
