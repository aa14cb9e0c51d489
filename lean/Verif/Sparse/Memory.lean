import Verif.Sparse.PropsCtor

/-! The memory of the fixed-sparse matrices: copies and multiples own their elements, transposes are views (sparse.py 85-110, 183-202, 295-296, 348-349). -/
namespace Verif.Sparse
open Verif.Py

/-! ### The model -/

/-- A matrix: its class, its sizes and the place of its elements in the memory. -/
structure Obj where
  st : Storage
  nrow : Nat
  ncol : Nat
  bs0 : Nat
  bs1 : Nat
  nlines : Nat
  nmax : Nat
  loc : Nat

/-- The memory, a list of arrays, and the matrices that have been created. -/
structure Mem (β : Type) where
  heap : List (List (Elem β))
  objs : List Obj

/-- The matrix, as a value. -/
def Mem.load {β} (s : Mem β) (i : Nat) : Option (Mat β) :=
  (s.objs[i]?).bind fun o => (s.heap[o.loc]?).map fun l =>
    { nrow := o.nrow, ncol := o.ncol, bs0 := o.bs0, bs1 := o.bs1, nlines := o.nlines, nmax := o.nmax, flat := l }

/-- `Class(shape, data=data)`: the constructor keeps a view of the array at `loc` (sparse.py 105, `self.data = data.view(np.recarray)`). -/
def Mem.create {β} (g : Nat → Elem β) (s : Mem β) (st : Storage) (shape bs : Nat × Nat) (nlines nmax loc : Nat) : Res (Mem β) :=
  match s.heap[loc]? with
  | none => .error .indexError
  | some l =>
    (construct g st shape bs none (some ⟨nlines, nmax, l⟩)).bind fun M =>
      .ok { s with objs := s.objs ++ [⟨st, M.nrow, M.ncol, M.bs0, M.bs1, M.nlines, M.nmax, loc⟩] }

/-- `self.data.copy()`: a new array. -/
def Mem.copyData {β} (s : Mem β) (loc : Nat) (f : List (Elem β) → List (Elem β)) : Mem β × Nat :=
  ({ s with heap := s.heap ++ [f ((s.heap[loc]?).getD [])] }, s.heap.length)

/-- The operations on matrices. -/
inductive MemOp (β : Type) where
  | copy (i : Nat)
  | mul (scale : β → β) (i : Nat)
  | transpose (i : Nat)
  | write (i p : Nat) (e : Elem β)

/-- sparse.py 201-202, 183-187, 295-296 (and the same methods of the other classes), and an assignment `m.data[p] = e`. -/
def Mem.step {β} (g : Nat → Elem β) (s : Mem β) : MemOp β → Res (Mem β)
  | .copy i =>
    match s.objs[i]? with
    | none => .error .indexError
    | some o =>
      let (s, loc) := s.copyData o.loc id
      s.create g o.st (o.nrow, o.ncol) (o.bs0, o.bs1) o.nlines o.nmax loc
  | .mul scale i =>
    match s.objs[i]? with
    | none => .error .indexError
    | some o =>
      let (s, loc) := s.copyData o.loc (List.map fun e => { e with value := scale e.value })
      s.create g o.st (o.nrow, o.ncol) (o.bs0, o.bs1) o.nlines o.nmax loc
  | .transpose i =>
    match s.objs[i]? with
    | none => .error .indexError
    | some o => s.create g o.st.transpose (o.ncol, o.nrow) (o.bs1, o.bs0) o.nlines o.nmax o.loc
  | .write i p e =>
    match s.objs[i]? with
    | none => .error .indexError
    | some o => .ok { s with heap := s.heap.modify o.loc (fun l => l.set p e) }

/-- A program. -/
def Mem.run {β} (g : Nat → Elem β) (s : Mem β) : List (MemOp β) → Res (Mem β)
  | [] => .ok s
  | op :: ops => (s.step g op).bind fun s => s.run g ops

/-! ### The specification -/

/-- The owners of the elements: for each matrix, the matrix which its elements come from. A copy and a multiple own theirs, a transpose shares those of the
matrix. -/
def owners {β} : List Nat → List (MemOp β) → List Nat
  | w, [] => w
  | w, .copy _ :: ops => owners (w ++ [w.length]) ops
  | w, .mul _ _ :: ops => owners (w ++ [w.length]) ops
  | w, .transpose i :: ops => owners (w ++ [w.getD i 0]) ops
  | w, .write _ _ _ :: ops => owners w ops

/-! ### The properties -/

/-- The matrices with the same owner are those with the same array. -/
structure Owned {β} (w : List Nat) (s : Mem β) : Prop where
  length : w.length = s.objs.length
  lt : ∀ (i a : Nat), w[i]? = some a → a < w.length
  loc : ∀ (i : Nat) (o : Obj), s.objs[i]? = some o → o.loc < s.heap.length
  iff : ∀ (i j a b : Nat) (o o' : Obj), w[i]? = some a → w[j]? = some b → s.objs[i]? = some o → s.objs[j]? = some o' → (a = b ↔ o.loc = o'.loc)

theorem create_eq {β} {g : Nat → Elem β} {s s' : Mem β} {st : Storage} {shape bs : Nat × Nat} {nlines nmax loc : Nat}
    (h : s.create g st shape bs nlines nmax loc = .ok s') : s'.heap = s.heap ∧ loc < s.heap.length ∧ ∃ o : Obj, o.loc = loc ∧ s'.objs = s.objs ++ [o] := by
  unfold Mem.create at h
  split at h
  · cases h
  · rename_i l hl
    obtain ⟨hlt, -⟩ := List.getElem?_eq_some_iff.1 hl
    cases hc : construct g st shape bs none (some ⟨nlines, nmax, l⟩) with
    | error e => rw [hc] at h; cases h
    | ok M =>
      rw [hc] at h
      simp only [Except.bind, Except.ok.injEq] at h
      subst h
      exact ⟨rfl, hlt, _, rfl, rfl⟩

theorem Owned.fresh {β} {w : List Nat} {s : Mem β} (h : Owned w s) {s' : Mem β} {l : List (Elem β)} {o : Obj} (ho : o.loc = s.heap.length)
    (hh : s'.heap = s.heap ++ [l]) (hobj : s'.objs = s.objs ++ [o]) : Owned (w ++ [w.length]) s' := by
  refine ⟨by simp [hobj, h.length], ?_, ?_, ?_⟩
  · intro i a hi
    rw [List.getElem?_append] at hi
    split at hi
    · have := h.lt i a hi
      simp only [List.length_append, List.length_cons, List.length_nil]
      omega
    · rw [List.getElem?_singleton] at hi
      split at hi
      · cases hi
        simp
      · cases hi
  · intro i o' hi
    rw [hobj, List.getElem?_append] at hi
    rw [hh, List.length_append, List.length_singleton]
    split at hi
    · have := h.loc i o' hi
      omega
    · rw [List.getElem?_singleton] at hi
      split at hi
      · cases hi
        omega
      · cases hi
  · intro i j a b o1 o2 hi hj ho1 ho2
    rw [hobj] at ho1 ho2
    rw [List.getElem?_append] at hi hj ho1 ho2
    rw [h.length] at hi hj
    by_cases hil : i < s.objs.length <;> by_cases hjl : j < s.objs.length
    · rw [if_pos hil] at hi ho1
      rw [if_pos hjl] at hj ho2
      exact h.iff i j a b o1 o2 hi hj ho1 ho2
    · rw [if_pos hil] at hi ho1
      rw [if_neg hjl, List.getElem?_singleton] at hj ho2
      have h1 := h.lt i a hi
      have h2 := h.loc i o1 ho1
      split at hj
      · rename_i h0
        rw [if_pos h0] at ho2
        injection hj with hj
        injection ho2 with ho2
        subst ho2
        have := h.length
        exact ⟨fun hab => by omega, fun hab => by omega⟩
      · cases hj
    · rw [if_neg hil, List.getElem?_singleton] at hi ho1
      rw [if_pos hjl] at hj ho2
      have h1 := h.lt j b hj
      have h2 := h.loc j o2 ho2
      split at hi
      · rename_i h0
        rw [if_pos h0] at ho1
        injection hi with hi
        injection ho1 with ho1
        subst ho1
        have := h.length
        exact ⟨fun hab => by omega, fun hab => by omega⟩
      · cases hi
    · rw [if_neg hil, List.getElem?_singleton] at hi ho1
      rw [if_neg hjl, List.getElem?_singleton] at hj ho2
      split at hi <;> split at hj <;> simp_all

theorem Owned.shared {β} {w : List Nat} {s : Mem β} (h : Owned w s) {s' : Mem β} {i : Nat} {o0 o : Obj} (hi0 : s.objs[i]? = some o0) (ho : o.loc = o0.loc)
    (hh : s'.heap = s.heap) (hobj : s'.objs = s.objs ++ [o]) : Owned (w ++ [w.getD i 0]) s' := by
  obtain ⟨hil0, -⟩ := List.getElem?_eq_some_iff.1 hi0
  have hw : w[i]? = some (w.getD i 0) := by
    rw [List.getD_eq_getElem?_getD, List.getElem?_eq_getElem (by rw [h.length]; exact hil0)]
    rfl
  generalize w.getD i 0 = wi at hw ⊢
  have key : ∀ (j b : Nat) (o' : Obj), w[j]? = some b → s.objs[j]? = some o' → (wi = b ↔ o.loc = o'.loc) := fun j b o' hj ho' => by
    rw [ho]
    exact h.iff i j wi b o0 o' hw hj hi0 ho'
  refine ⟨by simp [hobj, h.length], ?_, ?_, ?_⟩
  · intro j a hj
    rw [List.length_append, List.length_singleton]
    rw [List.getElem?_append] at hj
    split at hj
    · have := h.lt j a hj
      omega
    · rw [List.getElem?_singleton] at hj
      split at hj
      · cases hj
        have := h.lt i wi hw
        omega
      · cases hj
  · intro j o' hj
    rw [hobj, List.getElem?_append] at hj
    rw [hh]
    split at hj
    · exact h.loc j o' hj
    · rw [List.getElem?_singleton] at hj
      split at hj
      · cases hj
        rw [ho]
        exact h.loc i o0 hi0
      · cases hj
  · intro j k a b o1 o2 hj hk ho1 ho2
    rw [hobj] at ho1 ho2
    rw [List.getElem?_append] at hj hk ho1 ho2
    rw [h.length] at hj hk
    by_cases hjl : j < s.objs.length <;> by_cases hkl : k < s.objs.length
    · rw [if_pos hjl] at hj ho1
      rw [if_pos hkl] at hk ho2
      exact h.iff j k a b o1 o2 hj hk ho1 ho2
    · rw [if_pos hjl] at hj ho1
      rw [if_neg hkl, List.getElem?_singleton] at hk ho2
      split at hk
      · rename_i h0
        rw [if_pos h0] at ho2
        cases hk
        cases ho2
        rw [eq_comm, key j a o1 hj ho1, eq_comm]
      · cases hk
    · rw [if_neg hjl, List.getElem?_singleton] at hj ho1
      rw [if_pos hkl] at hk ho2
      split at hj
      · rename_i h0
        rw [if_pos h0] at ho1
        cases hj
        cases ho1
        exact key k b o2 hk ho2
      · cases hj
    · rw [if_neg hjl, List.getElem?_singleton] at hj ho1
      rw [if_neg hkl, List.getElem?_singleton] at hk ho2
      split at hj <;> split at hk <;> simp_all

theorem Owned.step {β} {g : Nat → Elem β} {w : List Nat} {s : Mem β} (h : Owned w s) {op : MemOp β} {s' : Mem β} (hs : s.step g op = .ok s') :
    Owned (owners w [op]) s' := by
  cases op with
  | copy i =>
    simp only [Mem.step] at hs
    split at hs
    · cases hs
    · rename_i o ho
      obtain ⟨h1, -, o', h3, h4⟩ := create_eq hs
      exact h.fresh h3 h1 h4
  | mul scale i =>
    simp only [Mem.step] at hs
    split at hs
    · cases hs
    · rename_i o ho
      obtain ⟨h1, -, o', h3, h4⟩ := create_eq hs
      exact h.fresh h3 h1 h4
  | transpose i =>
    simp only [Mem.step] at hs
    split at hs
    · cases hs
    · rename_i o ho
      obtain ⟨h1, -, o', h3, h4⟩ := create_eq hs
      exact h.shared ho h3 h1 h4
  | write i p e =>
    simp only [Mem.step] at hs
    split at hs
    · cases hs
    · simp only [Except.ok.injEq] at hs
      subst hs
      exact ⟨h.length, h.lt, fun j o hj => by simpa using h.loc j o hj, h.iff⟩

theorem owners_cons {β} (w : List Nat) (op : MemOp β) (ops : List (MemOp β)) : owners w (op :: ops) = owners (owners w [op]) ops := by
  cases op <;> rfl

theorem Owned.run {β} {g : Nat → Elem β} {w : List Nat} {s : Mem β} (h : Owned w s) {ops : List (MemOp β)} {s' : Mem β} (hs : s.run g ops = .ok s') :
    Owned (owners w ops) s' := by
  induction ops generalizing w s with
  | nil =>
    simp only [Mem.run, Except.ok.injEq] at hs
    subst hs
    exact h
  | cons op ops ih =>
    rw [Mem.run] at hs
    cases h1 : s.step g op with
    | error e => rw [h1] at hs; cases hs
    | ok s1 =>
      rw [h1] at hs
      rw [owners_cons]
      exact ih (h.step h1) hs

theorem owned_range {β} {s : Mem β} (hl : ∀ (i : Nat) (o : Obj), s.objs[i]? = some o → o.loc < s.heap.length)
    (hd : ∀ (i j : Nat) (o o' : Obj), s.objs[i]? = some o → s.objs[j]? = some o' → o.loc = o'.loc → i = j) : Owned (List.range s.objs.length) s := by
  have hr : ∀ (i a : Nat), (List.range s.objs.length)[i]? = some a → a = i ∧ i < s.objs.length := by
    intro i a hi
    obtain ⟨h1, h2⟩ := List.getElem?_eq_some_iff.1 hi
    rw [List.getElem_range] at h2
    exact ⟨h2.symm, by simpa using h1⟩
  refine ⟨by simp, ?_, hl, ?_⟩
  · intro i a hi
    obtain ⟨rfl, h⟩ := hr i a hi
    simpa using h
  · intro i j a b o o' hi hj ho ho'
    obtain ⟨rfl, -⟩ := hr i a hi
    obtain ⟨rfl, -⟩ := hr j b hj
    refine ⟨?_, hd a b o o' ho ho'⟩
    rintro rfl
    rw [ho] at ho'
    cases ho'
    rfl

/-- C69: starting from matrices that do not share their elements, after any program, an assignment in a matrix changes the matrices that have the same owner, in the same way, and no other one: the
copies and the multiples share no storage with the matrix they come from. -/
theorem C69_storage {β} {g : Nat → Elem β} {s : Mem β} (hl : ∀ (i : Nat) (o : Obj), s.objs[i]? = some o → o.loc < s.heap.length)
    (hd : ∀ (i j : Nat) (o o' : Obj), s.objs[i]? = some o → s.objs[j]? = some o' → o.loc = o'.loc → i = j) {ops : List (MemOp β)} {s' : Mem β}
    (hr : s.run g ops = .ok s') {i p : Nat} {e : Elem β} {s'' : Mem β} (hw : s'.step g (.write i p e) = .ok s'') :
    ∀ (j a b : Nat), (owners (List.range s.objs.length) ops)[i]? = some a → (owners (List.range s.objs.length) ops)[j]? = some b →
      s''.load j = if a = b then (s'.load j).map fun M => { M with flat := M.flat.set p e } else s'.load j := by
  intro j a b ha hb
  have h := (owned_range hl hd).run hr
  simp only [Mem.step] at hw
  split at hw
  · cases hw
  · rename_i o ho
    simp only [Except.ok.injEq] at hw
    subst hw
    obtain ⟨hjl, -⟩ := List.getElem?_eq_some_iff.1 hb
    rw [h.length] at hjl
    have hj := List.getElem?_eq_getElem hjl
    have hiff := h.iff i j a b o _ ha hb ho hj
    simp only [Mem.load, hj, Option.bind_some, List.getElem?_modify]
    have hloc := h.loc j _ hj
    rw [List.getElem?_eq_getElem hloc]
    by_cases hab : a = b
    · simp only [if_pos hab, if_pos (hiff.1 hab)]
      rfl
    · simp only [if_neg hab, if_neg fun h' => hab (hiff.2 h')]
      rfl

/-- C69: a copy has the value of the matrix. -/
theorem C69_copy_value {β} {g : Nat → Elem β} {s s' : Mem β} {i : Nat} {o : Obj} (ho : s.objs[i]? = some o) {M : Mat β} (hM : s.load i = some M)
    (hs : s.step g (.copy i) = .ok s') : s'.load s.objs.length = (copyMat g o.st M).toOption ∧ ∀ j < s.objs.length, (∀ o', s.objs[j]? = some o' → o'.loc < s.heap.length) →
      s'.load j = s.load j := by
  simp only [Mem.load, ho, Option.bind_some, Option.map_eq_some_iff] at hM
  obtain ⟨l, hl, rfl⟩ := hM
  simp only [Mem.step, ho, Mem.copyData, Mem.create, hl, Option.getD_some, id] at hs
  rw [List.getElem?_concat_length] at hs
  simp only at hs
  unfold copyMat
  cases hc : construct g o.st (o.nrow, o.ncol) (o.bs0, o.bs1) none (some ⟨o.nlines, o.nmax, l⟩) with
  | error e => rw [hc] at hs; cases hs
  | ok M =>
    rw [hc] at hs
    simp only [Except.bind, Except.ok.injEq] at hs
    subst hs
    constructor
    · simp only [Mem.load, List.getElem?_concat_length, Option.bind_some, Option.map_some, Mat.data, hc, Except.toOption]
      have hfl : M.flat = l := by
        have : ∀ {sh bs : Nat × Nat} {ax : Nat}, fsInit g sh bs none ax (some ⟨o.nlines, o.nmax, l⟩) = .ok M → M.flat = l := by
          intro sh bs ax hf
          unfold fsInit at hf
          split_ifs at hf
          simp only at hf
          split_ifs at hf
          simp only [Except.ok.injEq] at hf
          rw [← hf]
        unfold construct at hc
        split at hc
        all_goals first
          | exact this hc
          | (cases hb : checkBlock (o.bs0, o.bs1) with
             | error e => rw [hb] at hc; cases hc
             | ok u => rw [hb] at hc; exact this hc)
      rw [← hfl]
    · intro j hj hlt
      simp only [Mem.load]
      rw [List.getElem?_append_left hj]
      cases hoj : s.objs[j]? with
      | none => rfl
      | some o' =>
        simp only [Option.bind_some]
        rw [List.getElem?_append_left (hlt o' hoj)]

/-- A memory with the matrix [[0, 5], [7, 0]]. -/
def mem1 : Mem Int := ⟨[[⟨1, 5⟩, ⟨0, 7⟩]], [⟨.fsr, 2, 2, 1, 1, 2, 1, 0⟩]⟩

example : ∃ s, mem1.run (fun _ => ⟨0, 0⟩) [.copy 0, .transpose 0, .mul (· * 2) 2, .write 2 1 ⟨0, 9⟩] = .ok s ∧
    (s.load 0).map Mat.flat = some [⟨1, 5⟩, ⟨0, 9⟩] ∧ (s.load 1).map Mat.flat = some [⟨1, 5⟩, ⟨0, 7⟩] ∧
    (s.load 2).map Mat.flat = some [⟨1, 5⟩, ⟨0, 9⟩] ∧ (s.load 3).map Mat.flat = some [⟨1, 10⟩, ⟨0, 14⟩] :=
  ⟨_, rfl, by decide, by decide, by decide, by decide⟩

example {s' s'' : Mem Int} (hr : mem1.run (fun _ => ⟨0, 0⟩) [.copy 0, .transpose 0] = .ok s') (hw : s'.step (fun _ => ⟨0, 0⟩) (.write 1 0 ⟨1, 8⟩) = .ok s'') :
    s''.load 0 = s'.load 0 ∧ s''.load 2 = s'.load 2 := by
  have h := C69_storage (s := mem1)
    (fun i o h => by match i, h with | 0, h => cases h; decide)
    (fun i j o o' h h' _ => by match i, j, h, h' with | 0, 0, _, _ => rfl) hr hw
  exact ⟨h 0 1 0 rfl rfl, h 2 1 0 rfl rfl⟩

example : owners (β := Int) [0] [.copy 0, .transpose 0, .mul (· * 2) 2] = [0, 1, 0, 3] := by decide

end Verif.Sparse
