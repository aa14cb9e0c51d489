import Verif.PackedTable.PropsMpi
import Mathlib.Data.List.Forall2

/-! C144: instruments. -/
namespace Verif.PackedTable
open Verif.Py

/-! ### The model -/

/-- The values of the two arguments of an instrument: a table, a string or `None`. -/
inductive IArg where
  | table (t : Table)
  | str (s : String)
  | none
  deriving DecidableEq

/-- An instrument; `name` is `none` if the attribute does not exist, `comm` is the number of processes of the communicator of the detectors.  The other
attributes, of any type, are copied by reference. -/
structure Instr (ω : Type) where
  name : Option IArg
  detector : IArg
  comm : Nat
  others : ω

variable {ω : Type}

/-- instruments.py 35-41 `Instrument.__init__`. -/
def Instr.init (layout name : IArg) (others : ω) : Instr ω :=
  let (layout, name) := match layout with
    | .str _ => (name, layout)
    | _ => (layout, name)
  ⟨if name = .none then none else some name, layout, 1, others⟩

/-- instruments.py 57-58 `__len__`: `None` and strings: the length of a string would be returned. -/
def Instr.len (i : Instr ω) : Res Nat :=
  match i.detector with
  | .table t => t.len
  | .str s => .ok s.length
  | .none => .error .typeError

/-- instruments.py 43-51 `__getitem__`. -/
def Instr.getitem (i : Instr ω) (sel : Sel) : Res (Instr ω) :=
  match i.detector with
  | .table t => (t.getitem sel).map fun t' => { i with detector := .table t' }
  | _ => .error .typeError

/-- The selections one after the other (instruments.py 53-55, 104). -/
def Instr.select (i : Instr ω) : List Sel → Res (List (Instr ω))
  | [] => .ok []
  | s :: l => (i.getitem s).bind fun j => (i.select l).map (j :: ·)

/-- instruments.py 53-55 `__iter__`, until the end. -/
def Instr.iter (i : Instr ω) : Res (List (Instr ω)) := i.len.bind fun n => i.select ((List.range n).map fun (k : Nat) => .scalar (k : Int))

/-- instruments.py 93-104 `split`. -/
def Instr.split (i : Instr ω) (m : Nat) : Res (List (Instr ω)) := i.len.bind fun n => i.select ((Verif.Py.split n m).map .slice)

/-- instruments.py 74-91 `scatter`, for the process `rank` among `size`, and core.py 450-481 `PackedTable.scatter`. -/
def Instr.scatter (i : Instr ω) (size rank : Nat) : Res (Instr ω) :=
  if i.comm > 1 then .error .valueError
  else if size = 1 then .ok i
  else i.len.bind fun n => (i.getitem (.slice (splitSlice n size rank))).map fun j => { j with comm := size }

/-- instruments.py 65-66 `pack`. -/
def Instr.pack {α : Type} (i : Instr ω) (lead : List Nat) (rows : List α) : Res (List α) :=
  match i.detector with
  | .table t => match t.pack (.array lead rows) with
    | .ok (.array _ out) => .ok out
    | .ok _ => .error .typeError
    | .error e => .error e
  | _ => .error .attributeError

/-- A transform of the coordinates and its inverse. -/
structure Transform (P : Type) where
  run : P → P
  back : P → P

/-- The attribute `I` of an operator. -/
def Transform.inv {P : Type} (f : Transform P) : Transform P := ⟨f.back, f.run⟩

/-- The transforms of an imager. -/
structure Planes (P : Type) where
  object2image : Transform P
  image2object : Transform P

/-- instruments.py 354-366 `Imager.__init__`. -/
def imager {P : Type} (name layout : IArg) (image2object object2image : Option (Transform P)) : Res (Instr (Planes P)) :=
  match object2image, image2object with
  | none, none => .error .valueError
  | some f, _ => .ok (Instr.init name layout ⟨f, f.inv⟩)
  | none, some g => .ok (Instr.init name layout ⟨g.inv, g⟩)

/-! ### Specification -/

/-- The detectors of an instrument, in order. -/
def Has (i : Instr ω) (index : List Int) : Prop := ∃ t, i.detector = .table t ∧ t.index = .ok index

/-- Two instruments differ by their detectors only. -/
def SameBut (i j : Instr ω) : Prop := i.name = j.name ∧ i.comm = j.comm ∧ i.others = j.others

/-! ### Lemmas -/

theorem getitem_has {i : Instr ω} {t t' : Table} (hd : i.detector = .table t) {sel : Sel} {p : List Int} (h : t.getitem sel = .ok t') (hp : t'.index = .ok p) :
    ∃ j, i.getitem sel = .ok j ∧ Has j p ∧ SameBut j i := by
  refine ⟨{ i with detector := .table t' }, ?_, ⟨t', rfl, hp⟩, rfl, rfl, rfl⟩
  unfold Instr.getitem
  rw [hd]
  simp only [h, Except.map]

theorem select_has {i : Instr ω} {t : Table} (hd : i.detector = .table t) :
    ∀ (sels : List Sel) (parts : List (List Int)), List.Forall₂ (fun s p => ∃ t', t.getitem s = .ok t' ∧ t'.index = .ok p) sels parts →
      ∃ l, i.select sels = .ok l ∧ List.Forall₂ Has l parts ∧ ∀ j ∈ l, SameBut j i
  | [], _, .nil => ⟨[], rfl, .nil, by simp⟩
  | s :: sels, _, .cons (b := p) (l₂ := parts) h1 h2 => by
    obtain ⟨l, e1, e2, e3⟩ := select_has hd sels parts h2
    obtain ⟨t', g1, g2⟩ := h1
    obtain ⟨j, f2, f3, f4⟩ := getitem_has hd g1 g2
    refine ⟨j :: l, ?_, .cons f3 e2, ?_⟩
    · unfold Instr.select
      rw [f2]
      simp only [Except.bind]
      rw [e1]
      rfl
    · intro k hk
      rcases List.mem_cons.1 hk with rfl | hk
      · exact f4
      · exact e3 k hk

theorem forall₂_of_get {A B : Type} {R : A → B → Prop} : ∀ {l : List A} {l' : List B}, l.length = l'.length →
    (∀ (k : Nat) a b, l[k]? = some a → l'[k]? = some b → R a b) → List.Forall₂ R l l'
  | [], [], _, _ => .nil
  | [], _ :: _, h, _ => by simp at h
  | _ :: _, [], h, _ => by simp at h
  | _ :: _, _ :: _, h, hr => .cons (hr 0 _ _ rfl rfl) (forall₂_of_get (by simpa using h) (fun k a b e1 e2 => hr (k + 1) a b e1 e2))

/-! ### Theorems -/

/-- C144, partial: the two calling sequences define the same instrument, with the given layout and name.  Full statement: also for imagers; see
`C144_violation_unnamed`. -/
theorem C144_init_partial (t : Table) (s : String) (o : ω) :
    Instr.init (.table t) (.str s) o = Instr.init (.str s) (.table t) o ∧
    (Instr.init (.table t) (.str s) o).detector = .table t ∧ (Instr.init (.table t) (.str s) o).name = some (.str s) ∧
    (Instr.init (.table t) .none o).detector = .table t ∧ (Instr.init (.table t) .none o).name = none ∧
    (Instr.init (.table t) (.str s) o).others = o := by
  simp [Instr.init]

/-- C144: the instruments given by an iteration are the detectors one by one, in order. -/
theorem C144_iter {i : Instr ω} {t : Table} (hd : i.detector = .table t) (hr : Reachable t) {index : List Int} (hi : t.index = .ok index) :
    ∃ l, i.iter = .ok l ∧ List.Forall₂ Has l (index.map fun a => [a]) ∧ ∀ j ∈ l, SameBut j i := by
  have hl : i.len = .ok index.length := by
    unfold Instr.len
    rw [hd]
    exact C07_len_partial hr hi
  unfold Instr.iter
  rw [hl]
  simp only [Except.bind]
  refine select_has hd _ _ (forall₂_of_get (by simp) (fun k sel p h1 h2 => ?_))
  simp only [List.getElem?_map, Option.map_eq_some_iff] at h1 h2
  obtain ⟨k', e, rfl⟩ := h1
  obtain ⟨a, ha, rfl⟩ := h2
  have hk : k < index.length := by
    rw [List.getElem?_eq_some_iff] at ha
    exact ha.1
  rw [List.getElem?_range hk] at e
  injection e with e
  subst e
  obtain ⟨r, t', g1, g2, g3⟩ := getitem_spec (sel := .scalar (k : Int)) hr.wf (C07_len_partial hr hi) hi
    ⟨by omega, by omega, fun _ => by omega⟩
  refine ⟨t', g2, ?_⟩
  rw [g3.2.2.2]
  simp only [numpySelect, takeIdx] at g1
  have hw : wrapIndex index.length (k : Int) = some k := by
    unfold wrapIndex
    simp [hk]
  rw [hw] at g1
  simp only [Option.bind_some, ha] at g1
  injection g1 with g1
  rw [← g1]

theorem not_repeats_part {index : List Int} (hn : index.Nodup) {m r : Nat} (hr : r < m) :
    ∀ p, takeSlice index (splitSlice index.length m r) = .ok p → ¬ Repeats p := by
  intro p hp ⟨k, a, e⟩
  rw [takeSlice_split hr] at hp
  injection hp with hp
  have : p.Nodup := by
    rw [← hp]
    exact (hn.sublist (List.drop_sublist _ _)).sublist (List.take_sublist _ _)
  rw [e] at this
  simp [List.replicate_succ] at this

theorem getitem_group {t : Table} (hr : Reachable t) {index : List Int} (hi : t.index = .ok index) (hn : index.Nodup) {m r : Nat} (h : r < m) :
    ∃ t', t.getitem (.slice (splitSlice index.length m r)) = .ok t' ∧ t'.index = .ok (part index m r) := by
  obtain ⟨q, t', h1, h2, h3, _⟩ := C04_slice_partial hr hi (splitSlice index.length m r) (not_repeats_part hn h) (by simp [splitSlice])
  refine ⟨t', h2, ?_⟩
  rw [h3, ← h1, takeSlice_split h]
  rfl

/-- C144, partial: the groups given by `split` are consecutive, hold all the detectors and have the same number of them up to one.  Full
statement: also for the detectors that are repeated, see C11. -/
theorem C144_split_partial {i : Instr ω} {t : Table} (hd : i.detector = .table t) (hr : Reachable t) {index : List Int} (hi : t.index = .ok index)
    {m : Nat} (hm : 0 < m) (hn : index.Nodup) :
    ∃ l parts, i.split m = .ok l ∧ l.length = m ∧ List.Forall₂ Has l parts ∧ parts.flatten = index ∧
      (∀ a ∈ parts, ∀ b ∈ parts, a.length ≤ b.length + 1) ∧ ∀ j ∈ l, SameBut j i := by
  have hl : i.len = .ok index.length := by
    unfold Instr.len
    rw [hd]
    exact C07_len_partial hr hi
  have hsel : List.Forall₂ (fun s p => ∃ t', t.getitem s = .ok t' ∧ t'.index = .ok p) ((Verif.Py.split index.length m).map .slice)
      ((List.range m).map (part index m)) := by
    refine forall₂_of_get (by simp [Verif.Py.split]) (fun k sel p h1 h2 => ?_)
    simp only [Verif.Py.split, List.map_map, List.getElem?_map, Option.map_eq_some_iff] at h1 h2
    obtain ⟨k1, e1, rfl⟩ := h1
    obtain ⟨k2, e2, rfl⟩ := h2
    rw [e1] at e2
    injection e2 with e2
    subst e2
    exact getitem_group hr hi hn (List.mem_range.1 (List.mem_of_getElem? e1))
  obtain ⟨l, e1, e2, e3⟩ := select_has hd _ _ hsel
  refine ⟨l, (List.range m).map (part index m), ?_, ?_, e2, ?_, ?_, e3⟩
  · unfold Instr.split
    rw [hl]
    exact e1
  · rw [e2.length_eq, List.length_map, List.length_range]
  · have := split_concat index hm
    rw [List.flatMap_def] at this
    exact this
  · intro a ha b hb
    rw [List.mem_map] at ha hb
    obtain ⟨r, hr, rfl⟩ := ha
    obtain ⟨r', hr', rfl⟩ := hb
    have h1 := splitStop_le (n := index.length) (List.mem_range.1 hr)
    have h2 := splitStop_le (n := index.length) (List.mem_range.1 hr')
    have h3 := splitLen_balanced index.length m r r'
    simp only [part, List.length_take, List.length_drop]
    omega

theorem select_get {i : Instr ω} : ∀ (sels : List Sel) (l : List (Instr ω)), i.select sels = .ok l → ∀ (k : Nat) (s : Sel), sels[k]? = some s →
    ∃ j, l[k]? = some j ∧ i.getitem s = .ok j
  | [], _, _, k, s, h => by simp at h
  | s' :: sels, l, h, k, s, hk => by
    unfold Instr.select at h
    obtain ⟨j, h1, h⟩ := bind_eq_ok.1 h
    obtain ⟨l', h2, rfl⟩ := map_eq_ok.1 h
    cases k with
    | zero =>
      simp only [List.getElem?_cons_zero, Option.some.injEq] at hk
      subst hk
      exact ⟨j, rfl, h1⟩
    | succ k =>
      simp only [List.getElem?_cons_succ] at hk
      exact select_get sels l' h2 k s hk

/-- C144: the part of a process is the group of its rank; an instrument that is already distributed is refused. -/
theorem C144_scatter {i : Instr ω} {l : List (Instr ω)} {size : Nat} (h : i.split size = .ok l) :
    (i.comm > 1 → ∀ rank, i.scatter size rank = .error .valueError) ∧ (i.comm ≤ 1 → i.scatter 1 0 = .ok i) ∧
    (i.comm ≤ 1 → 1 < size → ∀ rank, rank < size → ∃ j, l[rank]? = some j ∧ i.scatter size rank = .ok { j with comm := size }) := by
  refine ⟨fun hc rank => ?_, fun hc => ?_, fun hc hs rank hr => ?_⟩
  · unfold Instr.scatter
    rw [if_pos hc]
  · unfold Instr.scatter
    rw [if_neg (by omega), if_pos rfl]
  · unfold Instr.split at h
    obtain ⟨n, hn, h⟩ := bind_eq_ok.1 h
    obtain ⟨j, h1, h2⟩ := select_get _ _ h rank (.slice (splitSlice n size rank)) (by
      simp only [Verif.Py.split, List.map_map, List.getElem?_map, List.getElem?_range hr]
      rfl)
    refine ⟨j, h1, ?_⟩
    unfold Instr.scatter
    rw [if_neg (by omega), if_neg (by omega), hn]
    simp only [Except.bind]
    rw [h2]
    rfl

/-- C144: the values packed by an instrument are those of its detectors. -/
theorem C144_pack {α : Type} {i : Instr ω} {t : Table} (hd : i.detector = .table t) (hr : Reachable t) (rows : List α) (hl : rows.length = t.size) :
    ∃ index out, t.index = .ok index ∧ i.pack t.dims rows = .ok out ∧ PicksRows rows index out := by
  obtain ⟨index, out, h1, -, ⟨sh, h2, -⟩, h3⟩ := C01_pack_partial hr rows hl
  refine ⟨index, out, h1, ?_, h3⟩
  unfold Instr.pack
  rw [hd]
  simp only [h2]

/-- C144, partial: an imager needs a transform; it has the given one, and the other one is its inverse.  Full statement: also when the two of them are given,
see `C144_violation_both`. -/
theorem C144_imager_partial {P : Type} (t : Table) (s : String) (i2o o2i : Option (Transform P)) :
    ((∃ im, imager (.str s) (.table t) i2o o2i = .ok im) ↔ (i2o ≠ none ∨ o2i ≠ none)) ∧
    (∀ im, imager (.str s) (.table t) i2o o2i = .ok im → im.detector = .table t ∧ im.name = some (.str s) ∧
      im.others.image2object.run = im.others.object2image.back ∧ im.others.image2object.back = im.others.object2image.run ∧
      (∀ f, o2i = some f → im.others.object2image = f) ∧ (∀ g, o2i = none → i2o = some g → im.others.image2object = g)) := by
  cases i2o <;> cases o2i <;> simp [imager, Instr.init, Transform.inv]

/-- C144 does not hold when the two transforms are given: `image2object` is ignored. -/
theorem C144_violation_both {P : Type} (t : Table) (s : String) (f g : Transform P) (h : g.run ≠ f.back) :
    ∃ im, imager (.str s) (.table t) (some g) (some f) = .ok im ∧ im.others.image2object.run ≠ g.run := by
  refine ⟨_, rfl, ?_⟩
  simp only [Instr.init, Transform.inv]
  exact fun e => h e.symm

/-- C144 does not hold for an imager without name: the layout becomes its name, and it has no detectors. -/
theorem C144_violation_unnamed {P : Type} (t : Table) (i2o : Option (Transform P)) (f : Transform P) :
    ∃ im, imager .none (.table t) i2o (some f) = .ok im ∧ im.detector = .none ∧ im.name = some (.table t) ∧ im.len = .error .typeError := by
  refine ⟨_, rfl, ?_, ?_, ?_⟩ <;> simp [Instr.init, Instr.len]

/-- An instrument of three detectors. -/
def demoInstr : Instr Nat := Instr.init (.table t23) (.str "demo") 7

example : demoInstr.detector = .table t23 ∧ Reachable t23 ∧ t23.index = .ok [5, 0, 4] ∧ [5, 0, 4].Nodup := ⟨rfl, t23_reachable, by decide, by decide⟩

example : (demoInstr.split 2).map (·.map fun j => match j.detector with | .table t => t.index | _ => .error .typeError) = .ok [.ok [5, 0], .ok [4]] := by decide

example : (⟨fun x => x + 1, fun x => x - 1⟩ : Transform Int).run ≠ (⟨fun x => x + 2, fun x => x - 2⟩ : Transform Int).back := by
  intro h
  have := congrFun h 0
  simp at this

end Verif.PackedTable
