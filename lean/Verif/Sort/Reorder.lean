/-
The distinct values of an array: `uniq` and `reorder` of /repo/src/flib/module_sort.f90 498-670, with the comparison `eq_real` of
/repo/src/flib/module_math_old.f90 761-801.
-/
import Verif.Sort.Props

namespace Verif.Sort
open Verif.Py

variable {F : Type} [Field F] [LinearOrder F] [IsStrictOrderedRing F]

/-! ### The model -/

/-- `eq_real` (module_math_old.f90 761-787); `none` is a NaN.  The default tolerance is left to the caller. -/
def eqReal (rtol : F) : Option F → Option F → Bool
  | none, b => b.isNone
  | some _, none => false
  | some a, some b => |a - b| ≤ rtol * max |a| |b|

/-- `huge(index)`, the largest default integer. -/
def huge : Int := 2 ^ 31 - 1

/-- The variables of the loop of `reorder` (module_sort.f90 592-593, 638-639): `table` is TMPTABLE(1:NUNIQS). -/
structure RO (F : Type) where
  val : Option F
  table : List F
  index : Int → Int

def RO.set (st : RO F) (j v : Int) : RO F := { st with index := fun i => if i = j then v else st.index i }

/-- One iteration of `reorder` (module_sort.f90 606-618, 652-664), for the index `isort(i)`.  Without mask nothing is masked. -/
def reorderStep (array : List (Option F)) (mask : Int → Res Bool) (rtol : F) (st : RO F) (j : Int) : Res (RO F) := do
  let val2 ← elem array j
  let m ← mask j
  match (if m then none else val2) with
  | none => return st.set j huge
  | some v =>
    if eqReal rtol st.val (some v) then return st.set j st.table.length
    else if st.table.length + 1 ≤ array.length then
      return ({ st with val := some v, table := st.table ++ [v] } : RO F).set j (st.table.length + 1)
    else .error .outOfBounds

def reorderLoop (array : List (Option F)) (mask : Int → Res Bool) (rtol : F) : List Int → RO F → Res (RO F)
  | [], st => .ok st
  | j :: isort, st => do
    let st ← reorderStep array mask rtol st j
    reorderLoop array mask rtol isort st

/-- `reorder` after the sort (module_sort.f90 604-624, 650-670): INDEX and TABLE, from arbitrary contents of INDEX. -/
def reorderSorted (array : List (Option F)) (mask : Int → Res Bool) (rtol : F) (isort : List Int) (index : Int → Int) : Res (List Int × List F) := do
  let st ← reorderLoop array mask rtol isort ⟨none, [], index⟩
  return (listOf array.length st.index, st.table)

/-- What follows the sort, when it has returned. -/
def after {A B : Type} (r : Option (Res A)) (f : A → Res B) : Option (Res B) := r.map fun r => r.bind f

/-- `reorder_nomask_double` (module_sort.f90 579-624). -/
def reorderNomask (array : List (Option F)) (rtol : F) (index : Int → Int) (s : St Int) (fuel : Nat) : Option (Res (List Int × List F)) :=
  if array.length = 0 then some (.ok ([], []))
  else after (qsortiNomask array s fuel) fun isort => reorderSorted array (fun _ => .ok false) rtol isort index

/-- `reorder_mask_double` (module_sort.f90 630-670). -/
def reorderMask (array : List (Option F)) (mask : List Bool) (rtol : F) (index : Int → Int) (s : St Int) (fuel : Nat) : Option (Res (List Int × List F)) :=
  if array.length = 0 then some (.ok ([], []))
  else after (qsortiMask array mask s fuel) fun isort => reorderSorted array (elem mask) rtol isort index

/-- The loop of `uniq_double` (module_sort.f90 561-568). -/
def uniqLoop (array : List (Option F)) (rtol : F) : List Int → Option F → List Int → Res (List Int)
  | [], _, out => .ok out
  | j :: l, val, out => do
    let v ← elem array j
    if v = none then uniqLoop array rtol l val out
    else if eqReal rtol v val then uniqLoop array rtol l val out
    else uniqLoop array rtol l v (out ++ [j])

/-- `uniq_double` (module_sort.f90 542-573); ININDEX has the size of the array. -/
def uniqDouble (array : List (Option F)) (inindex : List Int) (rtol : F) : Res (List Int) :=
  if array.length = 0 then .ok []
  else match inindex with
    | [] => .error .outOfBounds
    | j :: l => do
      let val ← elem array j
      uniqLoop array rtol l val [j]

/-- The loop of `uniq_int` (module_sort.f90 516-522) at the element i, for the elements that follow. -/
def uniqIntLoop : List Int → Nat → Int → List Nat → List Nat
  | [], i, _, out => out ++ [i - 1]
  | a :: l, i, val, out => if a ≠ val then uniqIntLoop l (i + 1) a (out ++ [i - 1]) else uniqIntLoop l (i + 1) val out

/-- `uniq_int` (module_sort.f90 498-535). -/
def uniqInt (array : List Int) : List Nat :=
  match array with
  | [] => []
  | a :: l => uniqIntLoop l 2 a []

/-! ### The specification -/

/-- Two values are the same within the tolerance. -/
def Close (rtol a b : F) : Prop := |a - b| ≤ rtol * max |a| |b|

/-- The array (with `none` for what has no value) is described by an index in a table: the table is increasing, its elements are values of the array
and consecutive ones are different; the element of the table for a value is the largest one that is not above and it is the same within the tolerance;
what has no value has the largest integer as index. -/
structure Reordered (rtol : F) (values : List (Option F)) (index : List Int) (table : List F) : Prop where
  length : index.length = values.length
  nan : ∀ (i : Nat), values[i]? = some none → index[i]? = some huge
  value : ∀ (i : Nat) (v : F), values[i]? = some (some v) → ∃ (r : Nat) (t : F), index[i]? = some ((r : Int) + 1) ∧ table[r]? = some t ∧ t ≤ v ∧ Close rtol t v ∧
    ∀ t', table[r + 1]? = some t' → v < t'
  increasing : table.Pairwise (· < ·)
  member : ∀ t ∈ table, some t ∈ values
  different : ∀ (r : Nat) (t t' : F), table[r]? = some t → table[r + 1]? = some t' → ¬Close rtol t t'

/-! ### The properties -/

omit [IsStrictOrderedRing F] in
theorem eqReal_some (rtol a b : F) : eqReal rtol (some a) (some b) = true ↔ Close rtol a b := by simp [eqReal, Close]

theorem Close.refl {rtol : F} (h : 0 ≤ rtol) (a : F) : Close rtol a a := by
  simp only [Close, sub_self, abs_zero, max_self]
  positivity

omit [IsStrictOrderedRing F] in
theorem Close.symm {rtol a b : F} (h : Close rtol a b) : Close rtol b a := by
  rw [Close, abs_sub_comm, max_comm]
  exact h

/-- The value at an index. -/
def key (values : List (Option F)) (j : Int) : Option F := values.getD (j - 1).toNat none

/-- What is known after some iterations. -/
structure ROInv (rtol : F) (values : List (Option F)) (pre : List Int) (st : RO F) : Prop where
  val : st.val = st.table.getLast?
  length : st.table.length ≤ pre.length
  nan : ∀ j ∈ pre, key values j = none → st.index j = huge
  value : ∀ j ∈ pre, ∀ v, key values j = some v → ∃ (r : Nat) (t : F), st.index j = (r : Int) + 1 ∧ st.table[r]? = some t ∧ t ≤ v ∧ Close rtol t v ∧
    ∀ t', st.table[r + 1]? = some t' → v < t'
  increasing : st.table.Pairwise (· < ·)
  member : ∀ t ∈ st.table, ∃ j ∈ pre, key values j = some t
  different : ∀ (r : Nat) (t t' : F), st.table[r]? = some t → st.table[r + 1]? = some t' → ¬Close rtol t t'

theorem getLast?_eq_getElem {β : Type} (l : List β) : l.getLast? = l[l.length - 1]? := List.getLast?_eq_getElem?

theorem reorderLoop_spec {array values : List (Option F)} {mask : Int → Res Bool} {rtol : F} (hr : 0 ≤ rtol)
    (hstep : ∀ j : Int, 1 ≤ j → j ≤ array.length → ∃ a m, elem array j = .ok a ∧ mask j = .ok m ∧ (if m then none else a) = key values j) :
    ∀ (post pre : List Int) (st : RO F), ROInv rtol values pre st → (pre ++ post).Nodup → (∀ j ∈ pre ++ post, 1 ≤ j ∧ j ≤ array.length) →
      (pre ++ post).length ≤ array.length → (pre ++ post).Pairwise (fun i j => NanLast (key values i) (key values j)) →
      ∃ st', reorderLoop array mask rtol post st = .ok st' ∧ ROInv rtol values (pre ++ post) st' := by
  intro post
  induction post with
  | nil =>
    intro pre st h _ _ _ _
    exact ⟨st, rfl, by simpa using h⟩
  | cons j post ih =>
    intro pre st h hnd hb hn hs
    obtain ⟨hj1, hj2⟩ := hb j (by simp)
    obtain ⟨a, m, ha, hm, hk⟩ := hstep j hj1 hj2
    have happ : pre ++ j :: post = (pre ++ [j]) ++ post := by simp
    have hjpre : j ∉ pre := by
      intro hh
      have := List.nodup_append.1 hnd
      exact this.2.2 j hh j (by simp) rfl
    have hne : ∀ i ∈ pre, i ≠ j := fun i hi e => hjpre (e ▸ hi)
    have hle : ∀ i ∈ pre, NanLast (key values i) (key values j) := by
      intro i hi
      exact (List.pairwise_append.1 hs).2.2 i hi j (by simp)
    have hlenpre : pre.length + 1 ≤ array.length := by
      simp only [List.length_append, List.length_cons] at hn
      omega
    -- one iteration
    obtain ⟨st1, e1, h1⟩ : ∃ st1, reorderStep array mask rtol st j = .ok st1 ∧ ROInv rtol values (pre ++ [j]) st1 := by
      rcases hv : key values j with _ | v
      · refine ⟨st.set j huge, ?_, ?_⟩
        · simp only [reorderStep, ha, hm, bind, Except.bind, hk, hv]; rfl
        · constructor
          · exact h.val
          · have := h.length
            simp only [RO.set, List.length_append, List.length_singleton]; omega
          · intro i hi hn'
            rcases List.mem_append.1 hi with hi | hi
            · simp only [RO.set, if_neg (hne i hi)]; exact h.nan i hi hn'
            · rw [List.mem_singleton] at hi; simp [RO.set, hi]
          · intro i hi v hv'
            rcases List.mem_append.1 hi with hi | hi
            · simp only [RO.set, if_neg (hne i hi)]; exact h.value i hi v hv'
            · rw [List.mem_singleton] at hi; rw [hi, hv] at hv'; simp at hv'
          · exact h.increasing
          · intro t ht
            obtain ⟨i, hi, e⟩ := h.member t ht
            exact ⟨i, by simp [hi], e⟩
          · exact h.different
      · -- the last element of the table is a previous value
        have hlast : ∀ t, st.table.getLast? = some t → t ≤ v := by
          intro t ht
          obtain ⟨i, hi, e⟩ := h.member t (List.mem_of_getLast? ht)
          have := hle i hi
          rw [e, hv] at this
          exact this
        by_cases hc : eqReal rtol st.val (some v) = true
        · -- same value as the last one of the table
          rcases hg : st.table.getLast? with _ | t
          · rw [h.val, hg] at hc; simp [eqReal] at hc
          · have hcl : Close rtol t v := by rw [h.val, hg] at hc; exact (eqReal_some _ _ _).1 hc
            have hg' := hg
            rw [getLast?_eq_getElem] at hg'
            have hpos : st.table.length ≠ 0 := by
              intro e
              rw [List.length_eq_zero_iff] at e
              rw [e] at hg
              simp at hg
            refine ⟨st.set j st.table.length, ?_, ?_⟩
            · simp only [reorderStep, ha, hm, bind, Except.bind, hk, hv, hc, if_true]; rfl
            · constructor
              · exact h.val
              · have := h.length
                simp only [RO.set, List.length_append, List.length_singleton]; omega
              · intro i hi hn'
                rcases List.mem_append.1 hi with hi | hi
                · simp only [RO.set, if_neg (hne i hi)]; exact h.nan i hi hn'
                · rw [List.mem_singleton] at hi; rw [hi, hv] at hn'; simp at hn'
              · intro i hi v' hv'
                rcases List.mem_append.1 hi with hi | hi
                · simp only [RO.set, if_neg (hne i hi)]; exact h.value i hi v' hv'
                · rw [List.mem_singleton] at hi
                  subst hi
                  rw [hv] at hv'
                  injection hv' with hv'
                  subst hv'
                  refine ⟨st.table.length - 1, t, ?_, hg', hlast t hg, hcl, ?_⟩
                  · simp only [RO.set, if_true]; omega
                  · intro t' ht'
                    exfalso
                    rw [show st.table.length - 1 + 1 = st.table.length by omega] at ht'
                    simp [RO.set] at ht'
              · exact h.increasing
              · intro t ht
                obtain ⟨i, hi, e⟩ := h.member t ht
                exact ⟨i, by simp [hi], e⟩
              · exact h.different
        · -- a new value
          have hnew : ∀ t, st.table.getLast? = some t → ¬Close rtol t v ∧ t < v := by
            intro t ht
            have hcl : ¬Close rtol t v := by
              intro e
              apply hc
              rw [h.val, ht]
              exact (eqReal_some _ _ _).2 e
            refine ⟨hcl, lt_of_le_of_ne (hlast t ht) ?_⟩
            rintro rfl
            exact hcl (.refl hr _)
          have hall : ∀ t ∈ st.table, t < v := by
            intro t ht
            rcases hg : st.table.getLast? with _ | t'
            · rw [List.getLast?_eq_none_iff] at hg; rw [hg] at ht; simp at ht
            · obtain ⟨ys, hys⟩ := List.getLast?_eq_some_iff.1 hg
              have hp := h.increasing
              rw [hys] at ht hp
              rcases List.mem_append.1 ht with ht | ht
              · exact lt_trans ((List.pairwise_append.1 hp).2.2 t ht t' (by simp)) (hnew t' hg).2
              · rw [List.mem_singleton] at ht; rw [ht]; exact (hnew t' hg).2
          have hlt : st.table.length + 1 ≤ array.length := by have := h.length; omega
          refine ⟨({ st with val := some v, table := st.table ++ [v] } : RO F).set j (st.table.length + 1), ?_, ?_⟩
          · simp only [reorderStep, ha, hm, bind, Except.bind, hk, hv]
            rw [if_neg hc, if_pos hlt]
            rfl
          · constructor
            · simp [RO.set]
            · have := h.length
              simp only [RO.set, List.length_append, List.length_singleton]; omega
            · intro i hi hn'
              rcases List.mem_append.1 hi with hi | hi
              · simp only [RO.set, if_neg (hne i hi)]; exact h.nan i hi hn'
              · rw [List.mem_singleton] at hi; rw [hi, hv] at hn'; simp at hn'
            · intro i hi v' hv'
              rcases List.mem_append.1 hi with hi | hi
              · obtain ⟨r, t, g1, g2, g3, g4, g5⟩ := h.value i hi v' hv'
                have hrl : r < st.table.length := (List.getElem?_eq_some_iff.1 g2).1
                refine ⟨r, t, by simp only [RO.set, if_neg (hne i hi)]; exact g1, ?_, g3, g4, ?_⟩
                · simp only [RO.set]; rw [List.getElem?_append_left hrl]; exact g2
                · intro t' ht'
                  simp only [RO.set] at ht'
                  by_cases hr1 : r + 1 < st.table.length
                  · rw [List.getElem?_append_left hr1] at ht'; exact g5 t' ht'
                  · have hr2 : r + 1 = st.table.length := by omega
                    rw [List.getElem?_append_right (by omega), hr2, Nat.sub_self, List.getElem?_cons_zero] at ht'
                    injection ht' with ht'
                    subst ht'
                    have hg : st.table.getLast? = some t := by rw [getLast?_eq_getElem, ← hr2, Nat.add_sub_cancel]; exact g2
                    have h2 := hle i hi
                    rw [hv', hv] at h2
                    refine lt_of_le_of_ne h2 ?_
                    rintro rfl
                    exact (hnew t hg).1 g4
              · rw [List.mem_singleton] at hi
                subst hi
                rw [hv] at hv'
                injection hv' with hv'
                subst hv'
                refine ⟨st.table.length, v, by simp [RO.set], by simp [RO.set], le_rfl, .refl hr _, ?_⟩
                intro t' ht'
                simp [RO.set] at ht'
            · simp only [RO.set]
              refine List.pairwise_append.2 ⟨h.increasing, List.pairwise_singleton _ _, ?_⟩
              intro t ht t' ht'
              rw [List.mem_singleton] at ht'
              rw [ht']
              exact hall t ht
            · intro t ht
              simp only [RO.set, List.mem_append, List.mem_singleton] at ht
              rcases ht with ht | rfl
              · obtain ⟨i, hi, e⟩ := h.member t ht
                exact ⟨i, by simp [hi], e⟩
              · exact ⟨j, by simp, hv⟩
            · intro r t t' ht ht'
              simp only [RO.set] at ht ht'
              by_cases hr1 : r + 1 < st.table.length
              · rw [List.getElem?_append_left (by omega)] at ht
                rw [List.getElem?_append_left hr1] at ht'
                exact h.different r t t' ht ht'
              · have hlen2 : r + 1 < (st.table ++ [v]).length := (List.getElem?_eq_some_iff.1 ht').1
                simp only [List.length_append, List.length_singleton] at hlen2
                have hr2 : r + 1 = st.table.length := by omega
                rw [List.getElem?_append_left (by omega)] at ht
                rw [List.getElem?_append_right (by omega), hr2, Nat.sub_self, List.getElem?_cons_zero] at ht'
                injection ht' with ht'
                subst ht'
                exact (hnew t (by rw [getLast?_eq_getElem, ← hr2, Nat.add_sub_cancel]; exact ht)).1
    obtain ⟨st', e2, h2⟩ := ih (pre ++ [j]) st1 h1 (happ ▸ hnd) (happ ▸ hb) (happ ▸ hn) (happ ▸ hs)
    refine ⟨st', ?_, happ ▸ h2⟩
    simp only [reorderLoop, e1, bind, Except.bind]
    exact e2

theorem reorderSorted_spec {array values : List (Option F)} {mask : Int → Res Bool} {rtol : F} (hr : 0 ≤ rtol) (hlen : values.length = array.length)
    (hstep : ∀ j : Int, 1 ≤ j → j ≤ array.length → ∃ a m, elem array j = .ok a ∧ mask j = .ok m ∧ (if m then none else a) = key values j)
    {isort : List Int} (hs : Sorts NanLast values isort) (index : Int → Int) :
    ∃ idx table, reorderSorted array mask rtol isort index = .ok (idx, table) ∧ Reordered rtol values idx table := by
  obtain ⟨hp, vs, hl, hv, hperm, hpw⟩ := hs
  have hmem : ∀ j, j ∈ isort ↔ ∃ m : Nat, m < values.length ∧ j = m + 1 := by
    intro j
    rw [hp.mem_iff, List.mem_map]
    constructor
    · rintro ⟨m, hm, rfl⟩; exact ⟨m, List.mem_range.1 hm, rfl⟩
    · rintro ⟨m, hm, rfl⟩; exact ⟨m, List.mem_range.2 hm, rfl⟩
  have hkey : isort.map (key values) = vs := by
    apply List.ext_getElem?
    intro i
    rw [List.getElem?_map]
    rcases hi : isort[i]? with _ | j
    · rw [List.getElem?_eq_none_iff] at hi
      rw [List.getElem?_eq_none (by omega)]
      rfl
    · obtain ⟨m, rfl, e⟩ := hv i j hi
      have hi' : i < vs.length := by rw [← hl]; exact (List.getElem?_eq_some_iff.1 hi).1
      rw [← e]
      have : (((m : Int) + 1) - 1).toNat = m := by omega
      rw [Option.map_some, key, this, List.getD]
      have : m < values.length := by
        by_contra hcon
        rw [List.getElem?_eq_none (by omega), List.getElem?_eq_getElem hi'] at e
        simp at e
      rw [List.getElem?_eq_getElem this]
      rfl
  obtain ⟨st, e, h⟩ := reorderLoop_spec hr hstep isort [] ⟨none, [], index⟩
    (by constructor <;> simp)
    (by
      rw [List.nil_append, hp.nodup_iff]
      exact List.Nodup.map (fun a b h => by simpa using h) List.nodup_range)
    (by
      intro j hj
      obtain ⟨m, hm, rfl⟩ := (hmem j).1 (by simpa using hj)
      omega)
    (by
      have := hp.length_eq
      simp only [List.length_map, List.length_range] at this
      simp only [List.nil_append]
      omega)
    (by
      rw [List.nil_append, ← List.pairwise_map (f := key values), hkey]
      exact hpw)
  rw [List.nil_append] at h
  have hget : ∀ (i : Nat), i < values.length → (listOf array.length st.index)[i]? = some (st.index ((i : Int) + 1)) := by
    intro i hi
    simp [listOf, hlen ▸ hi]
  have hk : ∀ (i : Nat) a, values[i]? = some a → i < values.length ∧ key values ((i : Int) + 1) = a := by
    intro i a hi
    refine ⟨(List.getElem?_eq_some_iff.1 hi).1, ?_⟩
    have : (((i : Int) + 1) - 1).toNat = i := by omega
    rw [key, this, List.getD, hi]
    rfl
  refine ⟨listOf array.length st.index, st.table, ?_, ?_⟩
  · simp only [reorderSorted, e, bind, Except.bind]; rfl
  · constructor
    · simp [listOf, hlen]
    · intro i hi
      obtain ⟨h1, h2⟩ := hk i _ hi
      rw [hget i h1]
      exact congrArg some (h.nan _ ((hmem _).2 ⟨i, h1, rfl⟩) h2)
    · intro i v hi
      obtain ⟨h1, h2⟩ := hk i _ hi
      obtain ⟨r, t, g1, g2⟩ := h.value _ ((hmem _).2 ⟨i, h1, rfl⟩) v h2
      exact ⟨r, t, by rw [hget i h1, g1], g2⟩
    · exact h.increasing
    · intro t ht
      obtain ⟨j, hj, e⟩ := h.member t ht
      obtain ⟨m, hm, rfl⟩ := (hmem j).1 hj
      have : (((m : Int) + 1) - 1).toNat = m := by omega
      rw [key, this, List.getD, List.getElem?_eq_getElem hm] at e
      exact List.mem_of_getElem (h := hm) e
    · exact h.different

omit [IsStrictOrderedRing F] in
theorem empty_reordered (rtol : F) : Reordered rtol [] [] [] := by constructor <;> simp

/-- C121: `reorder` describes the array by an index in a table of the distinct values in order; the NaNs have the largest integer as index. -/
theorem C121_nomask (array : List (Option F)) (hn : array.length < 2 ^ 1000) {rtol : F} (hr : 0 ≤ rtol) (index : Int → Int) (s : St Int) :
    ∃ idx table, (∃ N, ∀ fuel ≥ N, reorderNomask array rtol index s fuel = some (.ok (idx, table))) ∧ Reordered rtol array idx table := by
  by_cases h0 : array.length = 0
  · refine ⟨[], [], ⟨0, fun fuel _ => by rw [reorderNomask, if_pos h0]⟩, ?_⟩
    rw [List.length_eq_zero_iff.1 h0]
    exact empty_reordered rtol
  · obtain ⟨o, ⟨N, hN⟩, hs⟩ := C120_nomask array hn s
    obtain ⟨idx, table, e, h⟩ := reorderSorted_spec (mask := fun _ => .ok false) hr rfl (by
      intro j h1 h2
      exact ⟨_, _, elem_ok array h1 h2 none, rfl, rfl⟩) hs index
    refine ⟨idx, table, ⟨N, fun fuel hf => ?_⟩, h⟩
    rw [reorderNomask, if_neg h0, hN fuel hf]
    exact congrArg some e

/-- C121: with a mask, the masked elements have no value. -/
theorem C121_mask (array : List (Option F)) (mask : List Bool) (hm : mask.length = array.length) (hn : array.length < 2 ^ 1000) {rtol : F} (hr : 0 ≤ rtol)
    (index : Int → Int) (s : St Int) :
    ∃ idx table, (∃ N, ∀ fuel ≥ N, reorderMask array mask rtol index s fuel = some (.ok (idx, table))) ∧ Reordered rtol (masked array mask) idx table := by
  by_cases h0 : array.length = 0
  · refine ⟨[], [], ⟨0, fun fuel _ => by rw [reorderMask, if_pos h0]⟩, ?_⟩
    rw [List.length_eq_zero_iff.1 h0]
    exact empty_reordered rtol
  · obtain ⟨o, ⟨N, hN⟩, hs⟩ := C120_mask array mask hm hn s
    obtain ⟨idx, table, e, h⟩ := reorderSorted_spec (array := array) (mask := elem mask) hr (by simp [masked, hm]) (by
      intro j h1 h2
      refine ⟨_, _, elem_ok array h1 h2 none, elem_ok mask h1 (by omega) false, ?_⟩
      have h5 : (j - 1).toNat < array.length := by omega
      have h6 : (j - 1).toNat < mask.length := by omega
      rw [key]
      generalize (j - 1).toNat = m at h5 h6 ⊢
      simp [masked, List.getD, h5, h6]) hs index
    refine ⟨idx, table, ⟨N, fun fuel hf => ?_⟩, h⟩
    rw [reorderMask, if_neg h0, hN fuel hf]
    exact congrArg some e

/-- C121: without tolerance the array is recovered from the index and the table, which contains its values and nothing else. -/
theorem C121_exact {values : List (Option F)} {index : List Int} {table : List F} (h : Reordered 0 values index table) :
    (∀ (i : Nat) (v : F), values[i]? = some (some v) → ∃ r : Nat, index[i]? = some ((r : Int) + 1) ∧ table[r]? = some v) ∧
    ∀ v, v ∈ table ↔ some v ∈ values := by
  have h1 : ∀ (i : Nat) (v : F), values[i]? = some (some v) → ∃ r : Nat, index[i]? = some ((r : Int) + 1) ∧ table[r]? = some v := by
    intro i v hi
    obtain ⟨r, t, e1, e2, -, e3, -⟩ := h.value i v hi
    refine ⟨r, e1, ?_⟩
    rw [Close, zero_mul] at e3
    have : t - v = 0 := abs_eq_zero.1 (le_antisymm e3 (abs_nonneg _))
    rw [e2, sub_eq_zero.1 this]
  refine ⟨h1, fun v => ⟨h.member v, fun hv => ?_⟩⟩
  obtain ⟨i, hi⟩ := List.mem_iff_getElem?.1 hv
  obtain ⟨r, -, e⟩ := h1 i v hi
  exact List.mem_of_getElem? e

omit [IsStrictOrderedRing F] in
/-- The iterations of `uniq_double` are those of `reorder`. -/
theorem uniqLoop_reorder {array : List (Option F)} {rtol : F} : ∀ (l : List Int) (st : RO F) (out : List Int),
    st.val ≠ none → out.map (key array) = st.table.map some → (∀ j ∈ l, 1 ≤ j ∧ j ≤ array.length) → ∀ st', reorderLoop array (fun _ => .ok false) rtol l st = .ok st' →
    ∃ out', uniqLoop array rtol l st.val out = .ok out' ∧ out'.map (key array) = st'.table.map some ∧ ∀ i ∈ out', i ∈ out ∨ i ∈ l := by
  intro l
  induction l with
  | nil =>
    intro st out _ h _ st' e
    simp only [reorderLoop, Except.ok.injEq] at e
    subst e
    exact ⟨out, rfl, h, fun i hi => Or.inl hi⟩
  | cons j l ih =>
    intro st out h0 h hb st' e
    obtain ⟨h1, h2⟩ := hb j (by simp)
    have ha := elem_ok array h1 h2 none
    have hb' : ∀ j ∈ l, 1 ≤ j ∧ j ≤ array.length := fun i hi => hb i (by simp [hi])
    simp only [reorderLoop, reorderStep, ha, bind, Except.bind, Bool.false_eq_true, if_false] at e
    simp only [uniqLoop, ha, bind, Except.bind]
    change ∃ out', (if key array j = none then _ else _) = _ ∧ _
    have hkey : array.getD (j - 1).toNat none = key array j := rfl
    rw [hkey] at e ⊢
    rcases hv : key array j with _ | v
    · rw [hv] at e
      simp only [if_true]
      obtain ⟨o, e1, e2, e3⟩ := ih (st.set j huge) out h0 h hb' st' e
      exact ⟨o, e1, e2, fun i hi => (e3 i hi).imp id (List.mem_cons_of_mem _)⟩
    · rw [hv] at e
      simp only [reduceCtorEq, if_false]
      obtain ⟨w, hw⟩ := Option.ne_none_iff_exists'.1 h0
      have hsym : eqReal rtol (some v) st.val = eqReal rtol st.val (some v) := by
        rw [hw, Bool.eq_iff_iff, eqReal_some, eqReal_some]
        exact ⟨Close.symm, Close.symm⟩
      rw [hsym]
      by_cases hc : eqReal rtol st.val (some v) = true
      · simp only [hc, if_true] at e ⊢
        obtain ⟨o, e1, e2, e3⟩ := ih (st.set j _) out h0 h hb' st' e
        exact ⟨o, e1, e2, fun i hi => (e3 i hi).imp id (List.mem_cons_of_mem _)⟩
      · simp only [hc] at e ⊢
        by_cases hl : st.table.length + 1 ≤ array.length
        · simp only [hl, if_true, Bool.false_eq_true, if_false] at e ⊢
          obtain ⟨o, e1, e2, e3⟩ := ih (({ st with val := some v, table := st.table ++ [v] } : RO F).set j (st.table.length + 1)) (out ++ [j]) (by simp [RO.set])
            (by simp only [RO.set, List.map_append, h, List.map_cons, List.map_nil, hv]) hb' st' e
          refine ⟨o, e1, e2, fun i hi => ?_⟩
          have := e3 i hi
          simp only [List.mem_append, List.mem_cons, List.not_mem_nil, or_false] at this ⊢
          tauto
        · simp only [hl, if_false, Bool.false_eq_true] at e
          exact absurd e (by simp)

/-- C121: the indices returned by `uniq` for a sorted array with at least one value are those of the table of `reorder`, which are increasing and
different; every value is the same as one of them within the tolerance. -/
theorem C121_uniq_partial (array : List (Option F)) {rtol : F} (hr : 0 ≤ rtol) {inindex : List Int} (hs : Sorts NanLast array inindex) {v0 : F} (hv : some v0 ∈ array) :
    ∃ out idx table, uniqDouble array inindex rtol = .ok out ∧ Reordered rtol array idx table ∧ out.length = table.length ∧
      ∀ (r : Nat) (j : Int), out[r]? = some j → ∃ m : Nat, j = m + 1 ∧ ∃ t, array[m]? = some (some t) ∧ table[r]? = some t := by
  have hstep : ∀ j : Int, 1 ≤ j → j ≤ array.length → ∃ a m, elem array j = .ok a ∧ (fun _ : Int => (.ok false : Res Bool)) j = .ok m ∧ (if m then none else a) = key array j :=
    fun j h1 h2 => ⟨_, _, elem_ok array h1 h2 none, rfl, rfl⟩
  obtain ⟨idx, table, e, h⟩ := reorderSorted_spec (mask := fun _ => .ok false) hr rfl hstep hs (fun _ => 0)
  have hb : ∀ j ∈ inindex, 1 ≤ j ∧ j ≤ array.length := by
    intro j hj
    obtain ⟨m, hm, rfl⟩ := List.mem_map.1 (hs.1.subset hj)
    rw [List.mem_range] at hm
    omega
  have hpos : array.length ≠ 0 := by
    intro e0
    rw [List.length_eq_zero_iff] at e0
    rw [e0] at hv
    simp at hv
  obtain ⟨hp, vs, hl, hvs, hperm, hpw⟩ := hs
  have hlen := hp.length_eq
  simp only [List.length_map, List.length_range] at hlen
  rcases hin : inindex with _ | ⟨j, l⟩
  · rw [hin] at hlen; simp only [List.length_nil] at hlen; omega
  · rw [hin] at e hb hvs hl
    obtain ⟨h1, h2⟩ := hb j (by simp)
    have ha := elem_ok array h1 h2 none
    -- the first value is not a NaN
    have hfirst : ∃ v, key array j = some v := by
      rcases hk : key array j with _ | v
      · exfalso
        obtain ⟨m, rfl, em⟩ := hvs 0 j (by simp)
        have hm : (((m : Int) + 1) - 1).toNat = m := by omega
        rcases vs with _ | ⟨w, vs⟩
        · simp at hl
        · rw [key, hm, List.getD, em] at hk
          simp only [List.getElem?_cons_zero, Option.getD_some] at hk
          subst hk
          have := hperm.symm.subset hv
          rcases List.mem_cons.1 this with e' | e'
          · simp at e'
          · exact (List.pairwise_cons.1 hpw).1 _ e'
      · exact ⟨v, rfl⟩
    obtain ⟨v, hk⟩ := hfirst
    simp only [reorderSorted, reorderLoop, bind, Except.bind] at e
    have hst : reorderStep array (fun _ => .ok false) rtol ⟨none, [], fun _ => 0⟩ j = .ok (({ val := some v, table := [v], index := fun _ => 0 } : RO F).set j (0 + 1)) := by
      have hkey : array.getD (j - 1).toNat none = key array j := rfl
      simp only [reorderStep, ha, bind, Except.bind, Bool.false_eq_true, if_false, hkey, hk, eqReal, Option.isNone_some, List.length_nil]
      rw [if_pos (by omega)]
      rfl
    rw [hst] at e
    rcases hloop : reorderLoop array (fun _ => .ok false) rtol l (({ val := some v, table := [v], index := fun _ => 0 } : RO F).set j (0 + 1)) with err | st'
    · simp only [hloop] at e; simp at e
    · simp only [hloop] at e
      have et : st'.table = table := by
        injection e with e
        exact congrArg Prod.snd e
      obtain ⟨out, ho, hm, hmemo⟩ := uniqLoop_reorder l (({ val := some v, table := [v], index := fun _ => 0 } : RO F).set j (0 + 1)) [j] (by simp [RO.set]) (by simp [RO.set, hk])
        (fun i hi => hb i (by simp [hi])) st' hloop
      refine ⟨out, idx, table, ?_, h, ?_, ?_⟩
      · simp only [uniqDouble, if_neg hpos, ha, bind, Except.bind]
        have hkey : array.getD (j - 1).toNat none = key array j := rfl
        rw [hkey, hk]
        exact ho
      · have := congrArg List.length hm
        simpa [et] using this
      · intro r i hi
        have hh := congrArg (fun l => l[r]?) hm
        simp only [List.getElem?_map, hi, Option.map_some, et] at hh
        rcases ht : table[r]? with _ | t
        · rw [ht] at hh; simp at hh
        · rw [ht] at hh
          simp only [Option.map_some, Option.some.injEq] at hh
          have hi1 : 1 ≤ i ∧ i ≤ array.length := by
            rcases hmemo i (List.mem_of_getElem? hi) with g | g
            · exact hb i (by simp at g; simp [g])
            · exact hb i (by simp [g])
          refine ⟨(i - 1).toNat, by omega, t, ?_, rfl⟩
          rw [key, List.getD] at hh
          have hlt : (i - 1).toNat < array.length := by omega
          rw [List.getElem?_eq_getElem hlt] at hh ⊢
          exact congrArg some hh

/-- C121 is false for `uniq` when there is no value: an index of a NaN is returned, although the NaNs are skipped when there are values. -/
theorem C121_violation_uniq : Sorts NanLast [(none : Option ℚ)] [1] ∧ uniqDouble [(none : Option ℚ)] [1] 0 = .ok [1] ∧
    uniqDouble [some (2 : ℚ), none] [1, 2] 0 = .ok [1] := by
  refine ⟨sorts_of none (by decide) (List.pairwise_singleton _ _), by decide +kernel, by decide +kernel⟩

theorem uniqIntLoop_spec : ∀ (l : List Int) (k : Nat) (val : Int) (out : List Nat), uniqIntLoop l (k + 2) val out =
    out ++ (List.range' (k + 1) (l.length + 1)).filter fun m => (val :: l)[m - (k + 1) + 1]? ≠ (val :: l)[m - (k + 1)]? := by
  intro l
  induction l with
  | nil =>
    intro k val out
    simp [uniqIntLoop]
  | cons a l ih =>
    intro k val out
    have hrange : List.range' (k + 1) ((a :: l).length + 1) = (k + 1) :: List.range' (k + 2) (l.length + 1) := rfl
    have hrest : (List.range' (k + 2) (l.length + 1)).filter (fun m => (val :: a :: l)[m - (k + 1) + 1]? ≠ (val :: a :: l)[m - (k + 1)]?) =
        (List.range' (k + 2) (l.length + 1)).filter fun m => (a :: l)[m - (k + 2) + 1]? ≠ (a :: l)[m - (k + 2)]? := by
      apply List.filter_congr
      intro m hm
      rw [List.mem_range'_1] at hm
      have : m - (k + 1) = (m - (k + 2)) + 1 := by omega
      rw [this]
      simp only [List.getElem?_cons_succ]
    rw [hrange, List.filter_cons, hrest]
    by_cases h : a = val
    · subst h
      rw [uniqIntLoop, if_neg (by simp), ih (k + 1) a out]
      simp
    · rw [uniqIntLoop, if_pos h, ih (k + 1) a (out ++ [k + 2 - 1])]
      simp [h]

/-- C121: the indices returned by `uniq` for integers are those of the elements that differ from the next one, in order. -/
theorem C121_uniq_int (array : List Int) : uniqInt array = (List.range' 1 array.length).filter fun m => array[m]? ≠ array[m - 1]? := by
  rcases array with _ | ⟨a, l⟩
  · rfl
  · have := uniqIntLoop_spec l 0 a []
    simp only [Nat.zero_add, List.nil_append] at this
    rw [uniqInt, this]
    apply List.filter_congr
    intro m hm
    rw [List.mem_range'_1] at hm
    rw [show m - 1 + 1 = m by omega]

/-- C121: for sorted integers, the values at the indices are the values of the array, once each. -/
theorem C121_uniq_int_sorted {array : List Int} (hs : array.Pairwise (· ≤ ·)) :
    (uniqInt array).Pairwise (fun i j => array.getD (i - 1) 0 < array.getD (j - 1) 0) ∧
    ∀ v, v ∈ array ↔ ∃ i ∈ uniqInt array, array[i - 1]? = some v := by
  have hmono : ∀ i j : Nat, i ≤ j → j < array.length → array.getD i 0 ≤ array.getD j 0 := by
    intro i j hij hj
    rcases hij.lt_or_eq with h | rfl
    · have := List.pairwise_iff_getElem.1 hs i j (by omega) hj h
      simpa [List.getD, hj, show i < array.length by omega] using this
    · exact le_rfl
  have hmem : ∀ m, m ∈ uniqInt array ↔ (1 ≤ m ∧ m ≤ array.length) ∧ array[m]? ≠ array[m - 1]? := by
    intro m
    rw [C121_uniq_int, List.mem_filter, List.mem_range'_1, decide_eq_true_iff]
    constructor
    · rintro ⟨⟨h1, h2⟩, h3⟩; exact ⟨⟨h1, by omega⟩, h3⟩
    · rintro ⟨⟨h1, h2⟩, h3⟩; exact ⟨⟨h1, by omega⟩, h3⟩
  constructor
  · have hpw : (uniqInt array).Pairwise (· < ·) := by
      rw [C121_uniq_int]
      exact List.Pairwise.sublist List.filter_sublist (List.pairwise_lt_range' (s := 1) (n := array.length))
    refine hpw.imp_of_mem ?_
    intro i j hi hj hij
    obtain ⟨⟨h1, h2⟩, h3⟩ := (hmem i).1 hi
    obtain ⟨⟨h4, h5⟩, -⟩ := (hmem j).1 hj
    refine lt_of_lt_of_le ?_ (hmono i (j - 1) (by omega) (by omega))
    refine lt_of_le_of_ne (hmono (i - 1) i (by omega) (by omega)) ?_
    intro e
    apply h3
    have hi1 : i < array.length := by omega
    have hi2 : i - 1 < array.length := by omega
    simp only [List.getD, List.getElem?_eq_getElem hi1, List.getElem?_eq_getElem hi2, Option.getD_some] at e ⊢
    rw [e]
  · intro v
    constructor
    · intro hv
      -- the last position of the value
      have hex : ∃ m, m < array.length ∧ array[m]? = some v := by
        obtain ⟨m, hm⟩ := List.mem_iff_getElem?.1 hv
        exact ⟨m, (List.getElem?_eq_some_iff.1 hm).1, hm⟩
      have hlast : ∃ m, (m < array.length ∧ array[m]? = some v) ∧ ∀ m', m < m' → ¬(m' < array.length ∧ array[m']? = some v) := by
        obtain ⟨m0, hm0⟩ := hex
        have hb : ∀ m, (m < array.length ∧ array[m]? = some v) → m ≤ array.length := fun m h => h.1.le
        exact ⟨Nat.findGreatest (fun m => m < array.length ∧ array[m]? = some v) array.length, Nat.findGreatest_spec (P := fun m => m < array.length ∧ array[m]? = some v) (hb m0 hm0) hm0,
          fun m' h1 h2 => absurd (Nat.le_findGreatest (P := fun m => m < array.length ∧ array[m]? = some v) (hb m' h2) h2) (by omega)⟩
      obtain ⟨m, ⟨h1, h2⟩, h3⟩ := hlast
      refine ⟨m + 1, (hmem _).2 ⟨by omega, ?_⟩, by simpa using h2⟩
      intro e
      rw [Nat.add_sub_cancel, h2] at e
      exact h3 (m + 1) (by omega) ⟨(List.getElem?_eq_some_iff.1 e).1, e⟩
    · rintro ⟨i, -, h⟩
      exact List.mem_of_getElem? h

example : reorderNomask [some (3 : ℚ), none, some 1, some 3] 0 (fun _ => 0) (zeros 0) 60 = some (.ok ([2, huge, 1, 2], [1, 3])) := by decide +kernel
example : reorderMask [some (3 : ℚ), some 2, some 1, some 3] [false, true, false, false] (1 / 2) (fun _ => 0) (zeros 0) 60 = some (.ok ([2, huge, 1, 2], [1, 3])) := by decide +kernel
example : uniqDouble [some (3 : ℚ), none, some 1, some 3] [3, 1, 4, 2] 0 = .ok [3, 1] := by decide +kernel
example : uniqInt [1, 1, 2, 5, 5] = [2, 3, 5] := by decide
example : Sorts NanLast [some (3 : ℚ), none, some 1] [3, 1, 2] := sorts_of none (by decide) (by simp [NanLast, List.getD])

end Verif.Sort
