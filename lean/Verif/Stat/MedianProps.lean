/-
Properties of the median and of the median absolute deviation (/repo/src/flib/module_math_old.f90 545-720).
-/
import Verif.Stat.Median

namespace Verif.Stat
open Verif.Py

variable {α : Type} [LinearOrder α]

/-- C130: there is only one median. -/
theorem C130_unique {l : List α} {v w : α} (hv : IsMedian l v) (hw : IsMedian l w) : v = w := by
  have key : ∀ {v w : α}, IsMedian l v → IsMedian l w → ¬ v < w := by
    intro v w hv hw h
    have h1 : l.length = (l.countP fun x => decide (v < x)) + l.countP fun x => !decide (v < x) := by
      rw [List.length_eq_countP_add_countP (fun x => decide (v < x))]
      congr 2
      funext x
      rw [← decide_not]
      simp
    have h2 : (l.countP fun x => !decide (v < x)) ≤ l.countP fun x => decide (x < w) := by
      refine List.countP_mono_left fun x _ hx => ?_
      simp at hx ⊢
      exact hx.trans_lt h
    have := hv.above
    have := hw.below
    omega
  exact le_antisymm (not_lt.1 (key hw hv)) (not_lt.1 (key hv hw))

/-- The median does not depend on the order of the elements. -/
theorem IsMedian.perm {l l' : List α} {v : α} (h : IsMedian l v) (hp : l.Perm l') : IsMedian l' v :=
  ⟨hp.mem_iff.1 h.mem, by rw [← hp.countP_eq, ← hp.length_eq]; exact h.below, by rw [← hp.countP_eq, ← hp.length_eq]; exact h.above⟩

omit [LinearOrder α] in
theorem wanted_none (xs : List (Option α)) : wanted xs none = xs.filterMap id := rfl

omit [LinearOrder α] in
theorem packed_ok (xs : List (Option α)) (rn : Bool) (mask : Option (List Bool)) (hm : ∀ m, mask = some m → m.length = xs.length)
    (hrn : rn = true ∨ none ∉ unmasked xs mask) : ∃ ys, packed xs rn mask = .ok ys ∧ none ∉ ys ∧ wanted ys none = wanted xs mask := by
  cases mask with
  | some mask =>
    refine ⟨_, by unfold packed; dsimp only; rw [if_neg (by rw [hm mask rfl]; simp)], ?_, ?_⟩
    · intro h
      rw [List.mem_map] at h
      obtain ⟨⟨x, c⟩, h1, h2⟩ := h
      rw [List.mem_filter] at h1
      have h3 : x = none := h2
      rcases hrn with h4 | h4
      · simp [bad, h4, h3] at h1
      · refine h4 ?_
        unfold unmasked
        dsimp only
        rw [List.mem_map]
        refine ⟨(x, c), ?_, h2⟩
        rw [List.mem_filter]
        refine ⟨h1.1, ?_⟩
        simp [bad] at h1 ⊢
        exact h1.2.2
    · rw [wanted_none]
      unfold wanted unmasked
      dsimp only
      clear hrn hm
      induction xs.zip mask with
      | nil => rfl
      | cons z l ih =>
        obtain ⟨x, c⟩ := z
        cases c with
        | true => simpa [bad] using ih
        | false =>
          cases x with
          | none => cases rn <;> (simp [bad] at ih ⊢; try exact ih)
          | some x => simpa [bad] using ih
  | none =>
    have hw : ∀ l : List (Option α), (l.filter fun x => x.isSome).filterMap id = l.filterMap id := by
      intro l
      induction l with
      | nil => rfl
      | cons x l ih => cases x <;> simp at ih ⊢; exact ih; exact ih
    refine ⟨_, rfl, ?_, ?_⟩
    · cases rn with
      | true => simp
      | false => simpa [unmasked] using hrn
    · rw [wanted_none, wanted_none]
      cases rn with
      | true => exact hw xs
      | false => rfl

/-- C130: the median of a copy, which does not modify its argument. -/
theorem C130_copy_partial (xs : List (Option α)) (rn : Bool) (mask : Option (List Bool)) (hm : ∀ m, mask = some m → m.length = xs.length)
    (hrn : rn = true ∨ none ∉ unmasked xs mask) :
    ∃ r, medianCopy xs rn mask = .ok r ∧ (wanted xs mask = [] → r = none) ∧ (wanted xs mask ≠ [] → ∃ v, r = some v ∧ IsMedian (wanted xs mask) v) := by
  obtain ⟨ys, e, h1, h2⟩ := packed_ok xs rn mask hm hrn
  obtain ⟨r, e', h3, h4, -⟩ := C130_median_partial ys false none (fun m h => by cases h) (.inr h1)
  rw [h2] at h3 h4
  refine ⟨r.1, ?_, h3, h4⟩
  unfold medianCopy
  rw [e]
  dsimp only [bind, Except.bind]
  rw [e']
  rfl

/-- C130: the array is read and written out of its bounds if there are NaN that are not removed. -/
theorem C130_violation_nan : medianNocopy (α := Int) [none, none, none] false none = .error .outOfBounds ∧ medianCopy (α := Int) [none, none, none] false none = .error .outOfBounds := by
  decide +kernel

/-- The median of an even number of elements is the smaller one of the two in the middle, and is not their mean. -/
theorem C130_even : medianNocopy (α := Int) [some 4, some 1, some 3, some 2] true none = .ok (some 2, [some 1, some 2, some 3, some 4]) := by decide +kernel

/-- The hypotheses of `C130_median_partial` are met: three elements are left. -/
example : ∃ v, IsMedian [3, 1, 2] v ∧ ∃ l, medianNocopy (α := Int) [some 3, none, some 1, some 5, some 2] true (some [false, false, false, true, false]) = .ok (some v, l) := by
  obtain ⟨r, e, -, h, -⟩ := C130_median_partial (α := Int) [some 3, none, some 1, some 5, some 2] true (some [false, false, false, true, false]) (by simp) (.inl rfl)
  obtain ⟨v, h1, h2⟩ := h (by simp [wanted, unmasked])
  refine ⟨v, by simpa [wanted, unmasked] using h2, r.2, ?_⟩
  rw [e, ← h1]

/-- The hypotheses of `C130_unique` are met. -/
example : IsMedian [3, 1, 2, 5] 2 := ⟨by simp, by decide, by decide⟩

/-! ### The median absolute deviation -/

section
variable {α : Type} [AddCommGroup α] [LinearOrder α]

/-- C131: the median absolute deviation of numbers without NaN. -/
theorem C131_mad_partial (xs : List α) :
    (xs = [] → mad (xs.map some) = .ok (none, none)) ∧
    (xs ≠ [] → ∃ m d, mad (xs.map some) = .ok (some d, some m) ∧ IsMedian xs m ∧ IsMedian (xs.map fun x => |x - m|) d) := by
  have hw : ∀ l : List α, wanted (l.map some) none = l := by
    intro l
    rw [wanted_none, List.filterMap_map]
    simp
  obtain ⟨r, e, h1, h2, -, h3⟩ := C130_median_partial (xs.map some) true none (fun m h => by cases h) (.inl rfl)
  rw [hw] at h1 h2
  have hp := h3 rfl (by simp)
  refine ⟨fun hx => by subst hx; rfl, fun hx => ?_⟩
  obtain ⟨m, h4, h5⟩ := h2 hx
  obtain ⟨s, e', -, h6, -⟩ := C130_median_partial (deviations r.2 r.1) true none (fun m h => by cases h) (.inl rfl)
  have hd : (wanted (deviations r.2 r.1) none).Perm (xs.map fun x => |x - m|) := by
    rw [wanted_none]
    have : (deviations r.2 r.1).Perm ((xs.map fun x => |x - m|).map some) := by
      unfold deviations
      refine (hp.map _).trans (List.Perm.of_eq ?_)
      rw [h4, List.map_map, List.map_map]
      rfl
    refine (this.filterMap id).trans (List.Perm.of_eq ?_)
    exact hw _
  obtain ⟨d, h7, h8⟩ := h6 (by
    intro hnil
    rw [hnil] at hd
    have := hd.length_eq
    rw [List.length_map] at this
    exact hx (List.eq_nil_of_length_eq_zero this.symm))
  refine ⟨m, d, ?_, h5, h8.perm hd⟩
  unfold mad
  rw [e]
  dsimp only [bind, Except.bind]
  rw [e']
  dsimp only
  rw [h7, h4]
  rfl

end

/-- C131: with a NaN, an element of the array is counted twice in the median of the deviations. -/
theorem C131_violation_nan : mad (α := Int) [none, some 1, some 2] = .ok (some 1, some 1) ∧ IsMedian [1, 2] (1 : Int) ∧ IsMedian (([1, 2] : List Int).map fun x => |x - 1|) 0 :=
  ⟨by decide +kernel, ⟨by simp, by decide, by decide⟩, ⟨by simp, by decide, by decide⟩⟩

/-- The hypotheses of `C131_mad_partial` are met. -/
example : mad (α := Int) [some 7, some 1, some 2] = .ok (some 1, some 2) := by decide +kernel

end Verif.Stat
