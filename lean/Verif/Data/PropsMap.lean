import Verif.Data.Model

set_option linter.unusedSectionVars false

/-!
The coverage and error maps of a Map (C98): src/pysimulators/datatypes.py 559-972.  These attributes are plain: they are assigned and never
written in place, so that the arrays are modelled by their values.
-/
namespace Verif.Data
open Verif.Py

variable {α : Type} [Inhabited α]

/-- An array: its shape and its elements in C order. -/
structure Arr (α : Type) where
  shape : List Nat
  data : List α

/-- `a[key]`, `a.reshape(...)`, `a.ravel()` for a numpy array; a selection without dimension that is a scalar is an array without dimension. -/
def Arr.index (a : Arr α) (k : Key) : Res (Arr α) :=
  match k.sel a.shape with
  | .error e => .error e
  | .ok (s, ps) => .ok ⟨s, ps.map fun p => a.data.getD p default⟩

/-- A map and its attributes. -/
structure Map (α : Type) where
  array : Arr α
  coverage : Option (Arr α)
  error : Option (Arr α)

/-- datatypes.py 702-706 `__array_finalize__`: an array made by numpy from a map has its coverage and error maps. -/
def Map.inherit (m : Map α) (array : Arr α) : Map α := ⟨array, m.coverage, m.error⟩

/-- The selection of an attribute that can be None. -/
def indexAttr (a : Option (Arr α)) (k : Key) : Res (Option (Arr α)) :=
  match a with
  | none => .ok none
  | some a => (a.index k).map some

/-- datatypes.py 715-723 `Map.__getitem__`: a scalar or a map. -/
def Map.getitem (m : Map α) (k : Key) : Res (α ⊕ Map α) := do
  let a ← m.array.index k
  if a.shape = [] ∧ k.isArray = false then return .inl (a.data.headD default)
  let item := m.inherit a
  let c ← indexAttr item.coverage k
  let e ← indexAttr item.error k
  return .inr ⟨a, c, e⟩

/-- datatypes.py 950-972 `Map.ravel` and `Map.reshape`. -/
def Map.reshape (m : Map α) (k : Key) : Res (Map α) := do
  let a ← m.array.index k
  let c ← indexAttr m.coverage k
  let e ← indexAttr m.error k
  return ⟨a, c, e⟩

/-- datatypes.py 725-755 `Map.astype`. -/
def Map.astype {β : Type} (m : Map α) (cast : α → β) : Map β :=
  ⟨⟨m.array.shape, m.array.data.map cast⟩, m.coverage.map fun c => ⟨c.shape, c.data.map cast⟩, m.error.map fun c => ⟨c.shape, c.data.map cast⟩⟩

/-- datatypes.py 629-700 `Map.__new__` for data that are not a file: the shapes of the attributes are not compared to that of the data. -/
def Map.new (array : Arr α) (coverage error : Option (Arr α)) : Map α := ⟨array, coverage, error⟩

/-! ### Properties -/

/-- Each attribute has the shape of the map. -/
def Map.Aligned {α : Type} (m : Map α) : Prop := (∀ c, m.coverage = some c → c.shape = m.array.shape) ∧ ∀ c, m.error = some c → c.shape = m.array.shape

/-- The elements at some positions. -/
def Arr.at (a : Arr α) (shape : List Nat) (ps : List Nat) : Arr α := ⟨shape, ps.map fun p => a.data.getD p default⟩

theorem indexAttr_ok {a : Option (Arr α)} {k : Key} {shape s ps : List Nat} (ha : ∀ c, a = some c → c.shape = shape)
    (hs : k.sel shape = .ok (s, ps)) : indexAttr a k = .ok (a.map fun c => c.at s ps) := by
  cases a with
  | none => rfl
  | some c =>
    simp only [indexAttr, Arr.index, ha c rfl, hs]
    rfl

/-- C98: if the map can be selected, the coverage and the errors of the selection are those of the selected pixels, whatever the key, and
they have the shape of the selection. -/
theorem C98_getitem {m : Map α} {k : Key} (ha : m.Aligned) {s ps : List Nat} (hs : k.sel m.array.shape = .ok (s, ps))
    (hk : s ≠ [] ∨ k.isArray = true) : ∃ u, m.getitem k = .ok (.inr u) ∧ u.Aligned ∧ u.array = m.array.at s ps ∧
      u.coverage = (m.coverage.map fun c => c.at s ps) ∧ u.error = (m.error.map fun c => c.at s ps) := by
  refine ⟨⟨m.array.at s ps, m.coverage.map fun c => c.at s ps, m.error.map fun c => c.at s ps⟩, ?_, ?_, rfl, rfl, rfl⟩
  · unfold Map.getitem
    simp only [Arr.index, hs]
    have hn : ¬ (s = [] ∧ k.isArray = false) := by
      rintro ⟨h1, h2⟩
      rcases hk with h | h
      · exact h h1
      · rw [h2] at h; cases h
    simp only [bind, Except.bind, if_neg hn, Map.inherit, indexAttr_ok ha.1 hs, indexAttr_ok ha.2 hs, pure, Except.pure]
    rfl
  · constructor <;> intro c hc <;> simp only [Option.map_eq_some_iff] at hc <;> obtain ⟨c', -, rfl⟩ := hc <;> rfl

/-- C98: the same for the changes of shape. -/
theorem C98_reshape {m : Map α} {k : Key} (ha : m.Aligned) {s ps : List Nat} (hs : k.sel m.array.shape = .ok (s, ps)) :
    ∃ u, m.reshape k = .ok u ∧ u.Aligned ∧ u.array = m.array.at s ps ∧
      u.coverage = (m.coverage.map fun c => c.at s ps) ∧ u.error = (m.error.map fun c => c.at s ps) := by
  refine ⟨⟨m.array.at s ps, m.coverage.map fun c => c.at s ps, m.error.map fun c => c.at s ps⟩, ?_, ?_, rfl, rfl, rfl⟩
  · unfold Map.reshape
    simp only [Arr.index, hs, bind, Except.bind, indexAttr_ok ha.1 hs, indexAttr_ok ha.2 hs, pure, Except.pure]
    rfl
  · constructor <;> intro c hc <;> simp only [Option.map_eq_some_iff] at hc <;> obtain ⟨c', -, rfl⟩ := hc <;> rfl

/-- C98: and for the changes of type, which convert the three arrays. -/
theorem C98_astype {β : Type} {m : Map α} (cast : α → β) (ha : m.Aligned) : (m.astype cast).Aligned ∧
    (m.astype cast).array.data = m.array.data.map cast ∧
    ((m.astype cast).coverage.map Arr.data) = (m.coverage.map fun c => c.data.map cast) ∧
    ((m.astype cast).error.map Arr.data) = (m.error.map fun c => c.data.map cast) := by
  refine ⟨⟨?_, ?_⟩, rfl, ?_, ?_⟩
  · intro c hc
    obtain ⟨c', h', rfl⟩ := Option.map_eq_some_iff.1 hc
    exact ha.1 c' h'
  · intro c hc
    obtain ⟨c', h', rfl⟩ := Option.map_eq_some_iff.1 hc
    exact ha.2 c' h'
  · cases m with | mk a c e => cases c <;> rfl
  · cases m with | mk a c e => cases e <;> rfl

/-- C98 does not hold for the operations of numpy that change the shape (`m.T`), which keep the coverage and error maps, nor for the maps
given to the constructor. -/
theorem C98_violation (m : Map α) (a c : Arr α) (hc : m.coverage = some c) (hs : a.shape ≠ c.shape) (e : Option (Arr α)) :
    ¬ (m.inherit a).Aligned ∧ ¬ (Map.new a (some c) e).Aligned :=
  ⟨fun h => hs (h.1 c hc).symm, fun h => hs (h.1 c rfl).symm⟩

/-- A map of two rows and two columns with a coverage: its second row. -/
example : let m : Map Nat := ⟨⟨[2, 2], [1, 2, 3, 4]⟩, some ⟨[2, 2], [5, 6, 7, 8]⟩, none⟩
    m.Aligned ∧ m.getitem (Key.rows 1 2) = .ok (.inr ⟨⟨[1, 2], [3, 4]⟩, some ⟨[1, 2], [7, 8]⟩, none⟩) ∧
    ¬ (m.inherit ⟨[4], [1, 3, 2, 4]⟩).Aligned := by
  intro m
  refine ⟨⟨?_, ?_⟩, rfl, (C98_violation m ⟨[4], [1, 3, 2, 4]⟩ ⟨[2, 2], [5, 6, 7, 8]⟩ rfl (by decide) none).1⟩
  · intro c hc
    simp only [m, Option.some.injEq] at hc
    rw [← hc]
  · intro c hc
    simp [m] at hc

end Verif.Data
