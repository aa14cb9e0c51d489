/-
The subroutines qsorti of /repo/src/flib/module_sort.f90 375-492 and QSORTID 67-213: the indices returned sort the array.
-/
import Verif.Sort.Sorted

namespace Verif.Sort
open Verif.Py

/-! ### The model -/

variable {α : Type} [LinearOrder α]

/-- The element of an array of Fortran. -/
def elem {β : Type} (array : List β) (i : Int) : Res β := if 1 ≤ i then (match array[(i - 1).toNat]? with | some x => .ok x | none => .error .outOfBounds) else .error .outOfBounds

/-- `compare_int` (module_sort.f90 391-404). -/
def compareInt (array : List Int) (first second : Int) : Res Int := do
  let a ← elem array first
  let b ← elem array second
  if a < b then return 1 else if a ≠ b then return -1 else return 0

/-- `compare_nomask_double` (module_sort.f90 447-467); `none` is a NaN, which is different from itself. -/
def compareNomask (array : List (Option α)) (first second : Int) : Res Int := do
  let a ← elem array first
  let b ← elem array second
  match a, b with
  | none, none => return 0
  | none, some _ => return -1
  | some _, none => return 1
  | some x, some y => if x < y then return 1 else if x ≠ y then return -1 else return 0

/-- `compare_mask_double` (module_sort.f90 473-492). -/
def compareMask (array : List (Option α)) (mask : List Bool) (first second : Int) : Res Int := do
  let a ← elem array first
  let ma ← elem mask first
  let b ← elem array second
  let mb ← elem mask second
  match (if ma then none else a), (if mb then none else b) with
  | none, none => return 0
  | none, some _ => return -1
  | some _, none => return 1
  | some x, some y => if x < y then return 1 else if x ≠ y then return -1 else return 0

/-- QSORTGI (module_sort.f90 215-368): the comparisons are those of the function. -/
def general (compare : Int → Int → Res Int) : Cmp Int where
  load := .ok
  le x z := (compare x z).map fun r => 0 ≤ r
  ge x z := (compare x z).map fun r => r ≤ 0
  ne x z := (compare x z).map fun r => r ≠ 0

/-- QSORTID (module_sort.f90 67-213): the comparisons are those of the reals, where the NaNs are not ordered. -/
def direct (array : List (Option α)) : Cmp (Option α) where
  load := elem array
  le x z := .ok (match x, z with | some x, some z => decide (x ≤ z) | _, _ => false)
  ge x z := .ok (match x, z with | some x, some z => decide (z ≤ x) | _, _ => false)
  ne x z := .ok (match x, z with | some x, some z => decide (x ≠ z) | _, _ => true)

/-- `qsorti_int` (module_sort.f90 375-384). -/
def qsortiInt (array : List Int) := qsort (general (compareInt array)) array.length

/-- `qsorti_nomask_double` (module_sort.f90 411-420). -/
def qsortiNomask (array : List (Option α)) := qsort (general (compareNomask array)) array.length

/-- `qsorti_mask_double` (module_sort.f90 427-440). -/
def qsortiMask (array : List (Option α)) (mask : List Bool) := qsort (general (compareMask array mask)) array.length

/-- QSORTID (module_sort.f90 67-213). -/
def qsortid (array : List (Option α)) := qsort (direct array) array.length

/-! ### The specification -/

/-- The indices sort the array: each index appears once, and the elements taken in this order are in order. -/
def Sorts {β : Type} (le : β → β → Prop) (array : List β) (o : List Int) : Prop :=
  o.Perm ((List.range array.length).map fun (i : Nat) => (i : Int) + 1) ∧
  ∃ values : List β, o.length = values.length ∧ (∀ (i : Nat) (j : Int), o[i]? = some j → ∃ m : Nat, j = m + 1 ∧ array[m]? = values[i]?) ∧
    values.Perm array ∧ values.Pairwise le

/-- The order of the reals with the NaNs last. -/
def NanLast : Option α → Option α → Prop
  | _, none => True
  | none, some _ => False
  | some x, some y => x ≤ y

/-! ### The properties -/

theorem elem_ok {β : Type} (array : List β) {i : Int} (h1 : 1 ≤ i) (h2 : i ≤ array.length) (d : β) : elem array i = .ok (array.getD (i - 1).toNat d) := by
  have : (i - 1).toNat < array.length := by omega
  rw [elem, if_pos h1]
  generalize (i - 1).toNat = m at this ⊢
  simp [this, List.getD]

theorem sorts_of {β : Type} {le : β → β → Prop} {array : List β} {o : List Int} (d : β) (h1 : o.Perm ((List.range array.length).map fun (i : Nat) => (i : Int) + 1))
    (h2 : o.Pairwise fun i j => le (array.getD (i - 1).toNat d) (array.getD (j - 1).toNat d)) : Sorts le array o := by
  refine ⟨h1, o.map fun i => array.getD (i - 1).toNat d, by simp, ?_, ?_, List.pairwise_map.2 h2⟩
  · intro i j hi
    have hj : j ∈ o := List.mem_of_getElem? hi
    obtain ⟨m, hm, rfl⟩ := List.mem_map.1 (h1.subset hj)
    rw [List.mem_range] at hm
    refine ⟨m, rfl, ?_⟩
    rw [List.getElem?_map, hi]
    simp [List.getD, hm]
  · refine (h1.map _).trans (List.Perm.of_eq ?_)
    apply List.ext_getElem?
    intro i
    rw [List.map_map, List.getElem?_map]
    by_cases hi : i < array.length
    · simp [hi, List.getD]
    · simp [hi]

/-- The comparison functions that are those of a total preorder of keys. -/
theorem good_general {κ : Type} [LinearOrder κ] {compare : Int → Int → Res Int} {n : Int} (key : Int → κ)
    (h : ∀ i j, 1 ≤ i → i ≤ n → 1 ≤ j → j ≤ n → compare i j = .ok (if key i < key j then 1 else if key i ≠ key j then -1 else 0)) :
    Good (general compare) n (fun i => i) fun i j => key i ≤ key j := by
  constructor
  · intros; rfl
  · intro i j h1 h2 h3 h4 hr
    simp only [general, h i j h1 h2 h3 h4, Except.map]
    rcases hr.lt_or_eq with e | e <;> simp [e]
  · intro i j h1 h2 h3 h4 hr
    simp only [general, h i j h1 h2 h3 h4, Except.map]
    rw [not_le] at hr
    simp [hr.ne', not_lt.2 hr.le]
  · intro i j h1 h2 h3 h4 hr
    simp only [general, h i j h1 h2 h3 h4, Except.map]
    rcases hr.lt_or_eq with e | e
    · simp [not_lt.2 e.le, e.ne']
    · simp [e]
  · intro i j h1 h2 h3 h4 hr
    simp only [general, h i j h1 h2 h3 h4, Except.map]
    rw [not_le] at hr
    simp [hr]
  · intro i j h1 h2 h3 h4 hr
    simp only [general, h i j h1 h2 h3 h4, Except.map]
    have : key i ≠ key j := fun e => hr ⟨e.le, e.ge⟩
    rcases lt_or_gt_of_ne this with e | e
    · simp [e]
    · simp [not_lt.2 e.le, this]
  · intro i j h1 h2 h3 h4 hr hr'
    simp only [general, h i j h1 h2 h3 h4, Except.map]
    simp [le_antisymm hr hr']
  · intro i j _ _ _ _; exact le_total _ _
  · intro i j m _ _ _ _ _ _ h1 h2; exact le_trans h1 h2

theorem returns_general {κ : Type} [LinearOrder κ] {compare : Int → Int → Res Int} {n : Nat} (hn : n < 2 ^ 1000) (key : Int → κ)
    (h : ∀ i j, 1 ≤ i → i ≤ (n : Int) → 1 ≤ j → j ≤ (n : Int) → compare i j = .ok (if key i < key j then 1 else if key i ≠ key j then -1 else 0)) (s : St Int) :
    ∃ o, o.Perm ((List.range n).map fun (i : Nat) => (i : Int) + 1) ∧ o.Pairwise (fun i j => key i ≤ key j) ∧
      ∃ N, ∀ fuel ≥ N, qsort (general compare) n s fuel = some (.ok o) :=
  qsort_sorts (good_general key h) hn s

/-- C120: the indices returned for an array of integers sort it; the program returns and accesses no element that does not exist. -/
theorem C120_int (array : List Int) (hn : array.length < 2 ^ 1000) (s : St Int) :
    ∃ o, (∃ N, ∀ fuel ≥ N, qsortiInt array s fuel = some (.ok o)) ∧ Sorts (· ≤ ·) array o := by
  obtain ⟨o, h1, h2, h3⟩ := returns_general hn (fun i => array.getD (i - 1).toNat 0) (compare := compareInt array) (by
    intro i j h1 h2 h3 h4
    simp only [compareInt, elem_ok array h1 h2 0, elem_ok array h3 h4 0, bind, Except.bind]
    split_ifs <;> rfl) s
  exact ⟨o, h3, sorts_of 0 h1 h2⟩

/-- The value of an element or NaN if it is masked. -/
def masked {β : Type} (array : List (Option β)) (mask : List Bool) : List (Option β) := List.zipWith (fun a m => if m then none else a) array mask

/-- The keys with the NaNs last. -/
def rank (a : Option α) : WithTop α := a

theorem rank_le (a b : Option α) : rank a ≤ rank b ↔ NanLast a b := by
  rcases a with _ | x <;> rcases b with _ | y
  · exact ⟨fun _ => trivial, fun _ => le_refl (⊤ : WithTop α)⟩
  · refine ⟨fun h => ?_, fun h => h.elim⟩
    exact absurd h (not_le.2 (WithTop.coe_lt_top y))
  · exact ⟨fun _ => trivial, fun _ => le_top (a := ((x : α) : WithTop α))⟩
  · exact WithTop.coe_le_coe

theorem compare_rank (a b : Option α) : (match a, b with
    | none, none => return 0
    | none, some _ => return -1
    | some _, none => return 1
    | some x, some y => if x < y then return 1 else if x ≠ y then return -1 else return 0 : Res Int) =
    .ok (if rank a < rank b then 1 else if rank a ≠ rank b then -1 else 0) := by
  rcases a with _ | x <;> rcases b with _ | y
  · simp; rfl
  · have h : ¬rank (none : Option α) < rank (some y) := not_lt.2 (le_top (a := ((y : α) : WithTop α)))
    have h2 : rank (none : Option α) ≠ rank (some y) := (WithTop.coe_ne_top (a := y)).symm
    rw [if_neg h, if_pos h2]; rfl
  · have h : rank (some x) < rank (none : Option α) := WithTop.coe_lt_top x
    rw [if_pos h]; rfl
  · have h : rank (some x) < rank (some y) ↔ x < y := WithTop.coe_lt_coe
    have h2 : rank (some x) ≠ rank (some y) ↔ x ≠ y := not_congr WithTop.coe_inj
    simp only [h, h2]
    split_ifs <;> rfl

/-- C120: the indices returned for an array of reals sort it with the NaNs last. -/
theorem C120_nomask (array : List (Option α)) (hn : array.length < 2 ^ 1000) (s : St Int) :
    ∃ o, (∃ N, ∀ fuel ≥ N, qsortiNomask array s fuel = some (.ok o)) ∧ Sorts NanLast array o := by
  obtain ⟨o, h1, h2, h3⟩ := returns_general hn (fun i => rank (array.getD (i - 1).toNat none)) (compare := compareNomask array) (by
    intro i j h1 h2 h3 h4
    simp only [compareNomask, elem_ok array h1 h2 none, elem_ok array h3 h4 none, bind, Except.bind]
    exact compare_rank _ _) s
  exact ⟨o, h3, sorts_of none h1 (h2.imp fun h => (rank_le _ _).1 h)⟩

/-- C120: the indices returned for a masked array of reals sort it with the NaNs and the masked elements last. -/
theorem C120_mask (array : List (Option α)) (mask : List Bool) (hm : mask.length = array.length) (hn : array.length < 2 ^ 1000) (s : St Int) :
    ∃ o, (∃ N, ∀ fuel ≥ N, qsortiMask array mask s fuel = some (.ok o)) ∧ Sorts NanLast (masked array mask) o := by
  have hlen : (masked array mask).length = array.length := by simp [masked, hm]
  obtain ⟨o, h1, h2, h3⟩ := returns_general hn (fun i => rank ((masked array mask).getD (i - 1).toNat none)) (compare := compareMask array mask) (by
    intro i j h1 h2 h3 h4
    have e : ∀ i : Int, 1 ≤ i → i ≤ array.length → (masked array mask).getD (i - 1).toNat none = if mask.getD (i - 1).toNat false then none else array.getD (i - 1).toNat none := by
      intro i h1 h2
      have h5 : (i - 1).toNat < array.length := by omega
      have h6 : (i - 1).toNat < mask.length := by omega
      generalize (i - 1).toNat = m at h5 h6 ⊢
      simp [masked, List.getD, h5, h6]
    simp only [compareMask, elem_ok array h1 h2 none, elem_ok array h3 h4 none, elem_ok mask h1 (by omega) false, elem_ok mask h3 (by omega) false, bind, Except.bind, ← e i h1 h2, ← e j h3 h4]
    exact compare_rank _ _) s
  exact ⟨o, h3, sorts_of none (by rw [hlen]; exact h1) (h2.imp fun h => (rank_le _ _).1 h)⟩

/-- C120: QSORTID sorts the arrays without NaN. -/
theorem C120_direct_partial (array : List α) (hn : array.length < 2 ^ 1000) (s : St (Option α)) :
    ∃ o, (∃ N, ∀ fuel ≥ N, qsortid (array.map some) s fuel = some (.ok o)) ∧ Sorts (· ≤ ·) array o := by
  rcases h0 : array with _ | ⟨d, t⟩
  · refine ⟨[], ⟨1, fun fuel hf => ?_⟩, ?_⟩
    · obtain ⟨m, rfl⟩ : ∃ m, fuel = m + 1 := ⟨fuel - 1, by omega⟩
      cases m <;> rfl
    · exact ⟨by simp, [], by simp, by simp, by simp, .nil⟩
  · rw [← h0]
    have g : Good (direct (array.map some)) array.length (fun i => some (array.getD (i - 1).toNat d))
        (fun i j => array.getD (i - 1).toNat d ≤ array.getD (j - 1).toNat d) := by
      constructor
      · intro i h1 h2
        have : (i - 1).toNat < array.length := by omega
        simp only [direct, elem, if_pos h1]
        generalize (i - 1).toNat = m at this ⊢
        simp [List.getD, this]
      · intro i j _ _ _ _ hr; simp only [direct, hr, decide_true]
      · intro i j _ _ _ _ hr; simp only [direct, hr, decide_false]
      · intro i j _ _ _ _ hr; simp only [direct, hr, decide_true]
      · intro i j _ _ _ _ hr; simp only [direct, hr, decide_false]
      · intro i j _ _ _ _ hr
        simp only [direct]
        congr 1
        exact decide_eq_true fun e => hr ⟨e.le, e.ge⟩
      · intro i j _ _ _ _ hr hr'
        simp only [direct]
        congr 1
        exact decide_eq_false fun e => e (le_antisymm hr hr')
      · intro i j _ _ _ _; exact le_total _ _
      · intro i j m _ _ _ _ _ _ h1 h2; exact le_trans h1 h2
    obtain ⟨o, h1, h2, h3⟩ := qsort_sorts g hn s
    refine ⟨o, ?_, sorts_of d h1 h2⟩
    rw [show qsortid (array.map some) = qsort (direct (array.map some)) array.length by rw [qsortid, List.length_map]]
    exact h3

/-- Variables that are not initialised. -/
def zeros {K : Type} (x : K) : St K := ⟨fun _ => 0, 0, 0, 0, 0, 0, 0, 0, 0, x, x, x, x, []⟩

/-- C120 is false for QSORTID with NaNs: the values of (1, 2, NaN) are returned in the order 2, NaN, 1. -/
theorem C120_violation_direct : qsortid [some 1, some 2, (none : Option Int)] (zeros none) 40 = some (.ok [2, 3, 1]) ∧
    ¬∃ le : Option Int → Option Int → Prop, (∀ x y : Int, le (some x) (some y) → x ≤ y) ∧ Sorts le [some 1, some 2, none] [2, 3, 1] := by
  refine ⟨by decide +kernel, ?_⟩
  rintro ⟨le, h1, -, values, h2, h3, -, h4⟩
  obtain ⟨m, e1, e2⟩ := h3 0 2 rfl
  obtain ⟨m', e3, e4⟩ := h3 2 1 rfl
  have : m = 1 := by omega
  subst this
  have : m' = 0 := by omega
  subst this
  simp only [List.length_cons, List.length_nil] at h2
  match values, h2 with
  | [a, b, d], _ =>
    simp at e2 e4
    subst e2 e4
    simp at h4
    have := h1 _ _ h4.1.2
    omega

example : qsortiInt [3, 1, 2] (zeros 0) 40 = some (.ok [2, 3, 1]) := by decide +kernel
example : qsortiNomask [some 1, some 2, (none : Option Int)] (zeros 0) 40 = some (.ok [1, 2, 3]) := by decide +kernel
example : qsortiMask [some 3, some 2, (none : Option Int), some 1] [false, true, false, false] (zeros 0) 40 = some (.ok [4, 1, 3, 2]) := by decide +kernel
example : Sorts (· ≤ ·) [(3 : Int), 1, 2] [2, 3, 1] := sorts_of 0 (by decide) (by decide)

end Verif.Sort
