import Verif.Units.Memory
import Verif.Units.SI

/-!
What the operations on quantities leave unchanged in the memory.
-/
namespace Verif.Units.Mem
open Verif.Py

variable {K : Type}

/-- The quantities of a table of derived units. -/
def refs (T : RefTable) : List Nat := T.filterMap (·.2.2)

/-- The references of a table are scalars of the memory. -/
def GoodTable (h : Heap K) (T : RefTable) : Prop := ∀ r ∈ refs T, r < h.objs.length ∧ (h.obj r).pos.length = 1

/-- A memory without dangling reference. -/
structure Valid (h : Heap K) : Prop where
  buf : ∀ i < h.objs.length, (h.obj i).buf < h.bufs.length
  pos : ∀ i < h.objs.length, ∀ p ∈ (h.obj i).pos, p < (h.bufs.getD (h.obj i).buf []).length
  unit : ∀ i < h.objs.length, (h.obj i).unit < h.dicts.length
  derived : ∀ i < h.objs.length, GoodTable h (h.obj i).derived
  globals : GoodTable h h.globals

/-- The quantity is a derived unit of the table `D` or of the global table. -/
def Used (h : Heap K) (D : RefTable) (i : Nat) : Prop := i ∈ refs D ∨ i ∈ refs h.globals

/-- The memory has grown: the existing buffers, dictionaries and objects are unchanged, except for the derived units, which may have been linked
to the table `D`. -/
structure Ext (D : RefTable) (h h' : Heap K) : Prop where
  bufs : h.bufs <+: h'.bufs
  dicts : h.dicts <+: h'.dicts
  len : h.objs.length ≤ h'.objs.length
  globals : h'.globals = h.globals
  objs : ∀ i < h.objs.length, h'.obj i = h.obj i ∨ (Used h D i ∧ h'.obj i = { h.obj i with derived := D })

theorem Ext.refl (D : RefTable) (h : Heap K) : Ext D h h :=
  ⟨List.prefix_refl _, List.prefix_refl _, le_rfl, rfl, fun _ _ => .inl rfl⟩

theorem Ext.trans {D : RefTable} {h h' h'' : Heap K} (a : Ext D h h') (b : Ext D h' h'') : Ext D h h'' := by
  refine ⟨a.bufs.trans b.bufs, a.dicts.trans b.dicts, a.len.trans b.len, b.globals.trans a.globals, fun i hi => ?_⟩
  have hu : Used h' D i → Used h D i := by
    unfold Used
    rw [a.globals]
    exact id
  rcases a.objs i hi with e | ⟨u, e⟩ <;> rcases b.objs i (hi.trans_le a.len) with e' | ⟨u', e'⟩
  · exact .inl (e'.trans e)
  · exact .inr ⟨hu u', by rw [e', e]⟩
  · exact .inr ⟨u, by rw [e', e]⟩
  · exact .inr ⟨u, by rw [e', e]⟩

theorem getD_prefix {α : Type} {l l' : List α} (h : l <+: l') {i : Nat} (hi : i < l.length) (d : α) : l'.getD i d = l.getD i d := by
  obtain ⟨t, rfl⟩ := h
  simp only [List.getD_eq_getElem?_getD, List.getElem?_append_left hi]

section
variable {D : RefTable} {h h' : Heap K}

theorem Ext.fields (a : Ext D h h') {i : Nat} (hi : i < h.objs.length) :
    (h'.obj i).buf = (h.obj i).buf ∧ (h'.obj i).pos = (h.obj i).pos ∧ (h'.obj i).unit = (h.obj i).unit := by
  rcases a.objs i hi with e | ⟨-, e⟩ <;> rw [e] <;> exact ⟨rfl, rfl, rfl⟩

theorem Ext.unit (a : Ext D h h') (v : Valid h) {i : Nat} (hi : i < h.objs.length) : h'.unit i = h.unit i := by
  unfold Heap.unit
  rw [(a.fields hi).2.2, getD_prefix a.dicts (v.unit i hi)]

theorem Ext.mags [Zero K] (a : Ext D h h') (v : Valid h) {i : Nat} (hi : i < h.objs.length) : h'.mags i = h.mags i := by
  unfold Heap.mags
  rw [(a.fields hi).1, (a.fields hi).2.1, getD_prefix a.bufs (v.buf i hi)]

theorem Ext.good (a : Ext D h h') {T : RefTable} (g : GoodTable h T) : GoodTable h' T := fun r hr =>
  ⟨(g r hr).1.trans_le a.len, by rw [(a.fields (g r hr).1).2.1]; exact (g r hr).2⟩

theorem Ext.same (a : Ext D h h') {i : Nat} (hi : i < h.objs.length) (hd : (h.obj i).derived = D) : h'.obj i = h.obj i := by
  rcases a.objs i hi with e | ⟨-, e⟩
  · exact e
  · rw [e, ← hd]

end

/-! ### The table read in the memory -/

section
variable [Field K]

/-- The derived units of a table. -/
def Heap.table (h : Heap K) (T : RefTable) : DTable K := T.map fun e => ⟨e.1, e.2.1, e.2.2.map fun i => ⟨h.mag i, h.unit i⟩⟩

theorem Ext.table {D : RefTable} {h h' : Heap K} (a : Ext D h h') (v : Valid h) {T : RefTable} (g : GoodTable h T) : h'.table T = h.table T := by
  unfold Heap.table
  apply List.map_congr_left
  intro e he
  cases hr : e.2.2 with
  | none => rfl
  | some i =>
    have hi := (g i (List.mem_filterMap.2 ⟨e, he, hr⟩)).1
    simp only [Option.map_some, Heap.mag, a.mags v hi, a.unit v hi]

omit [Field K] in
theorem mags_length [Zero K] (h : Heap K) (i : Nat) : (h.mags i).length = (h.obj i).pos.length := by simp [Heap.mags]

theorem mags_single {h : Heap K} {i : Nat} (hi : (h.obj i).pos.length = 1) : h.mags i = [h.mag i] := by
  have := mags_length h i
  rw [hi, List.length_eq_one_iff] at this
  obtain ⟨x, hx⟩ := this
  rw [Heap.mag, hx, List.headD_cons]

end

/-! ### Allocation -/

theorem obj_append {h : Heap K} {bufs : List (List K)} {dicts : List UnitD} {o : Obj} {g : RefTable} {i : Nat} (hi : i < h.objs.length) :
    (⟨bufs, dicts, h.objs ++ [o], g⟩ : Heap K).obj i = h.obj i := by
  unfold Heap.obj
  simp only [List.getD_eq_getElem?_getD, List.getElem?_append_left hi]

theorem obj_last {h : Heap K} {bufs : List (List K)} {dicts : List UnitD} {o : Obj} {g : RefTable} :
    (⟨bufs, dicts, h.objs ++ [o], g⟩ : Heap K).obj h.objs.length = o := by
  unfold Heap.obj
  simp

theorem newDict_ext (D : RefTable) (u : UnitD) (h : Heap K) : Ext D h (newDict u h).1 :=
  ⟨List.prefix_refl _, List.prefix_append _ _, le_rfl, rfl, fun _ _ => .inl rfl⟩

theorem newDict_valid {h : Heap K} (v : Valid h) (u : UnitD) : Valid (newDict u h).1 :=
  ⟨v.buf, v.pos, fun i hi => (v.unit i hi).trans_le (by simp [newDict]), v.derived, v.globals⟩

theorem newObj_ext (D : RefTable) (xs : List K) (d : Nat) (T : RefTable) (h : Heap K) : Ext D h (newObj xs d T h).1 :=
  ⟨List.prefix_append _ _, List.prefix_refl _, by simp [newObj], rfl, fun _ hi => .inl (obj_append hi)⟩

theorem newObj_valid {h : Heap K} (v : Valid h) (xs : List K) {d : Nat} (hd : d < h.dicts.length) {T : RefTable} (hT : GoodTable h T) :
    Valid (newObj xs d T h).1 := by
  have e := newObj_ext [] xs d T h
  have hl : (newObj xs d T h).1.objs.length = h.objs.length + 1 := by simp [newObj]
  have key : ∀ i < (newObj xs d T h).1.objs.length, (i < h.objs.length ∧ (newObj xs d T h).1.obj i = h.obj i) ∨
      (newObj xs d T h).1.obj i = ⟨h.bufs.length, List.range xs.length, d, T⟩ := by
    intro i hi
    rw [hl] at hi
    rcases Nat.lt_succ_iff_lt_or_eq.1 hi with hi | rfl
    · exact .inl ⟨hi, obj_append hi⟩
    · exact .inr obj_last
  refine ⟨fun i hi => ?_, fun i hi p hp => ?_, fun i hi => ?_, fun i hi => ?_, e.good v.globals⟩
  · rcases key i hi with ⟨a, b⟩ | b <;> rw [b]
    · exact (v.buf i a).trans_le e.bufs.length_le
    · simp [newObj]
  · rcases key i hi with ⟨a, b⟩ | b <;> rw [b] at hp ⊢
    · rw [getD_prefix e.bufs (v.buf i a)]
      exact v.pos i a p hp
    · simpa [newObj] using hp
  · rcases key i hi with ⟨a, b⟩ | b <;> rw [b]
    · exact v.unit i a
    · exact hd
  · rcases key i hi with ⟨a, b⟩ | b <;> rw [b]
    · exact e.good (v.derived i a)
    · exact e.good hT

theorem newObj_obj (xs : List K) (d : Nat) (T : RefTable) (h : Heap K) :
    (newObj xs d T h).1.obj h.objs.length = ⟨h.bufs.length, List.range xs.length, d, T⟩ := obj_last

theorem newObj_mags [Zero K] (xs : List K) (d : Nat) (T : RefTable) (h : Heap K) : (newObj xs d T h).1.mags h.objs.length = xs := by
  unfold Heap.mags
  rw [newObj_obj]
  simp only [newObj]
  apply List.ext_getElem
  · simp
  · intro i h1 h2
    simp [List.getD_eq_getElem?_getD, h2]

theorem newObj_unit (xs : List K) (d : Nat) (T : RefTable) (h : Heap K) : (newObj xs d T h).1.unit h.objs.length = h.dicts.getD d [] := by
  unfold Heap.unit
  rw [newObj_obj]
  rfl

theorem create_eq (xs : List K) (u : UnitD) (T : RefTable) (h : Heap K) :
    create xs u T h = ((newObj xs h.dicts.length T (newDict u h).1).1, .ok h.objs.length) := rfl

/-- A new quantity, with its own buffer and its own dictionary. -/
structure Fresh (D T : RefTable) (h h' : Heap K) (r : Nat) : Prop where
  ext : Ext D h h'
  valid : Valid h'
  index : r = h.objs.length
  lt : r < h'.objs.length
  buf : (h'.obj r).buf = h.bufs.length
  dict : h.dicts.length ≤ (h'.obj r).unit
  derived : (h'.obj r).derived = T

theorem create_fresh (D : RefTable) {h : Heap K} (v : Valid h) (xs : List K) (u : UnitD) {T : RefTable} (hT : GoodTable h T) :
    Fresh D T h (create xs u T h).1 h.objs.length := by
  have e1 := newDict_ext D u h
  have e2 := newObj_ext D xs h.dicts.length T (newDict u h).1
  have ho := newObj_obj xs h.dicts.length T (newDict u h).1
  rw [create_eq]
  refine ⟨e1.trans e2, newObj_valid (newDict_valid v u) xs (by simp [newDict]) (e1.good hT), rfl, by simp [newObj, newDict], ?_, ?_, ?_⟩
  · exact congrArg Obj.buf ho
  · exact (congrArg Obj.unit ho).ge
  · exact congrArg Obj.derived ho

theorem create_mags [Zero K] (xs : List K) (u : UnitD) (T : RefTable) (h : Heap K) : (create xs u T h).1.mags h.objs.length = xs :=
  newObj_mags xs h.dicts.length T (newDict u h).1

theorem create_unit (xs : List K) (u : UnitD) (T : RefTable) (h : Heap K) : (create xs u T h).1.unit h.objs.length = u := by
  refine (newObj_unit xs h.dicts.length T (newDict u h).1).trans ?_
  simp [newDict]

/-! ### Modification of an object -/

theorem setObj_obj (j : Nat) (f : Obj → Obj) (h : Heap K) (i : Nat) (hi : i < h.objs.length) :
    (setObj j f h).1.obj i = if j = i then f (h.obj i) else h.obj i := by
  unfold Heap.obj setObj
  simp only [List.getD_eq_getElem?_getD, List.getElem?_modify, List.getElem?_eq_getElem hi]
  split <;> simp

theorem setObj_length (j : Nat) (f : Obj → Obj) (h : Heap K) : (setObj j f h).1.objs.length = h.objs.length := by
  simp [setObj]

/-- The link of a derived unit. -/
theorem link_ext {D : RefTable} {h : Heap K} {du : Nat} (hu : Used h D du) :
    Ext D h (setObj du (fun o => { o with derived := D }) h).1 := by
  refine ⟨List.prefix_refl _, List.prefix_refl _, (setObj_length _ _ _).ge, rfl, fun i hi => ?_⟩
  rw [setObj_obj _ _ _ _ hi]
  split
  · rename_i e
    subst e
    exact .inr ⟨hu, rfl⟩
  · exact .inl rfl

theorem link_valid {D : RefTable} {h : Heap K} (v : Valid h) (hD : GoodTable h D) (du : Nat) :
    Valid (setObj du (fun o => { o with derived := D }) h).1 := by
  have g : ∀ {T : RefTable}, GoodTable h T → GoodTable (setObj du (fun o => { o with derived := D }) h).1 T := by
    intro T hT r hr
    refine ⟨(hT r hr).1.trans_le (setObj_length _ _ _).ge, ?_⟩
    rw [setObj_obj _ _ _ _ (hT r hr).1]
    split <;> exact (hT r hr).2
  refine ⟨fun i hi => ?_, fun i hi p hp => ?_, fun i hi => ?_, fun i hi => ?_, g v.globals⟩
  all_goals rw [setObj_length] at hi
  · rw [setObj_obj _ _ _ _ hi]
    split <;> exact v.buf i hi
  · rw [setObj_obj _ _ _ _ hi] at hp ⊢
    revert hp
    split <;> exact v.pos i hi p
  · rw [setObj_obj _ _ _ _ hi]
    split <;> exact v.unit i hi
  · rw [setObj_obj _ _ _ _ hi]
    split
    · exact g hD
    · exact g (v.derived i hi)

/-- A new dictionary for a quantity created after the memory `h0`. -/
theorem retag_ext {D : RefTable} {h0 h : Heap K} (e : Ext D h0 h) {j d : Nat} (hj : h0.objs.length ≤ j) :
    Ext D h0 (setObj j (fun o => { o with unit := d }) h).1 := by
  refine ⟨e.bufs, e.dicts, e.len.trans (setObj_length _ _ _).ge, e.globals, fun i hi => ?_⟩
  rw [setObj_obj _ _ _ _ (hi.trans_le e.len), if_neg (by omega)]
  exact e.objs i hi

theorem retag_valid {h : Heap K} (v : Valid h) {j d : Nat} (hd : d < h.dicts.length) :
    Valid (setObj j (fun o => { o with unit := d }) h).1 := by
  have g : ∀ {T : RefTable}, GoodTable h T → GoodTable (setObj j (fun o => { o with unit := d }) h).1 T := by
    intro T hT r hr
    refine ⟨(hT r hr).1.trans_le (setObj_length _ _ _).ge, ?_⟩
    rw [setObj_obj _ _ _ _ (hT r hr).1]
    split <;> exact (hT r hr).2
  refine ⟨fun i hi => ?_, fun i hi p hp => ?_, fun i hi => ?_, fun i hi => ?_, g v.globals⟩
  all_goals rw [setObj_length] at hi
  · rw [setObj_obj _ _ _ _ hi]
    split <;> exact v.buf i hi
  · rw [setObj_obj _ _ _ _ hi] at hp ⊢
    revert hp
    split <;> exact v.pos i hi p
  · rw [setObj_obj _ _ _ _ hi]
    split
    · exact hd
    · exact v.unit i hi
  · rw [setObj_obj _ _ _ _ hi]
    split <;> exact g (v.derived i hi)

end Verif.Units.Mem
