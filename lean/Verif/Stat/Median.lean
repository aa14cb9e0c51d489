/-
The median and the median absolute deviation: /repo/src/flib/module_math_old.f90 545-720.
-/
import Verif.Stat.Moment
import Mathlib.Algebra.BigOperators.Group.Finset.Basic
import Mathlib.Algebra.Order.BigOperators.Group.Finset
import Mathlib.Algebra.BigOperators.Group.Finset.Defs
import Mathlib.Data.Int.Interval
import Mathlib.Order.Interval.Finset.Nat

namespace Verif.Stat
open Verif.Py

variable {α : Type} [LinearOrder α]

/-! ### The model

The elements are those of a linear order or NaN, which is `none`.  An array is a function of its index, the accesses are checked.  The loops have a fuel, and the
error `runtimeError` if there is none left: the theorems show that it does not happen. -/

/-- `x <= y`, false if one of them is NaN. -/
def leN : Option α → Option α → Bool
  | some x, some y => decide (x ≤ y)
  | _, _ => false

/-- `x > y`, false if one of them is NaN. -/
def gtN : Option α → Option α → Bool
  | some x, some y => decide (y < x)
  | _, _ => false

/-- `arr(i)` for an array `arr(0:n-1)`. -/
def geti {β : Type} (n : Int) (a : Int → β) (i : Int) : Res β := if 0 ≤ i ∧ i < n then .ok (a i) else .error .outOfBounds

/-- `swap` (module_math_old.f90 545-554) of two elements. -/
def swapi {β : Type} (n : Int) (a : Int → β) (i j : Int) : Res (Int → β) := do
  let x ← geti n a i
  let y ← geti n a j
  return fun k => if k = j then x else if k = i then y else a k

/-- `if (arr(i) > arr(j)) call swap(arr(i), arr(j))` (module_math_old.f90 657, 664-666). -/
def condSwap (n : Int) (a : Int → Option α) (i j : Int) : Res (Int → Option α) := do
  let x ← geti n a i
  let y ← geti n a j
  if gtN x y then swapi n a i j else return a

/-- The search upwards (module_math_old.f90 675-678). -/
def scanUp (n : Int) (a : Int → Option α) (low : Int) : Nat → Int → Res Int
  | 0, _ => .error .runtimeError
  | fuel + 1, ll => do
    let p ← geti n a low
    let x ← geti n a (ll + 1)
    if leN p x then return ll + 1 else scanUp n a low fuel (ll + 1)

/-- The search downwards (module_math_old.f90 680-683). -/
def scanDown (n : Int) (a : Int → Option α) (low : Int) : Nat → Int → Res Int
  | 0, _ => .error .runtimeError
  | fuel + 1, hh => do
    let x ← geti n a (hh - 1)
    let p ← geti n a low
    if leN x p then return hh - 1 else scanDown n a low fuel (hh - 1)

/-- The loop of the partition (module_math_old.f90 674-689): the array, LL and HH. -/
def partLoop (n : Int) (low : Int) : Nat → (Int → Option α) → Int → Int → Res ((Int → Option α) × Int × Int)
  | 0, _, _, _ => .error .runtimeError
  | fuel + 1, a, ll, hh => do
    let ll ← scanUp n a low (n.toNat + 1) ll
    let hh ← scanDown n a low (n.toNat + 1) hh
    if hh < ll then return (a, ll, hh) else
      let a ← swapi n a ll hh
      partLoop n low fuel a ll hh

/-- One iteration of the loop for more than two elements (module_math_old.f90 662-692): the array, LL and HH. -/
def partition (n : Int) (a : Int → Option α) (low high : Int) : Res ((Int → Option α) × Int × Int) := do
  let middle := (low + high).tdiv 2
  let a ← condSwap n a middle high
  let a ← condSwap n a low high
  let a ← condSwap n a middle low
  let a ← swapi n a middle (low + 1)
  let r ← partLoop n low (n.toNat + 1) a (low + 1) high
  let a ← swapi n r.1 low r.2.2
  return (a, r.2.1, r.2.2)

/-- The loop of `median_nocopy` (module_math_old.f90 649-698): the median and the array. -/
def select (n imed : Int) : Nat → (Int → Option α) → Int → Int → Res (Option α × (Int → Option α))
  | 0, _, _, _ => .error .runtimeError
  | fuel + 1, a, low, high =>
    if high ≤ low then do
      let m ← geti n a imed
      return (m, a)
    else if high = low + 1 then do
      let a ← condSwap n a low high
      let m ← geti n a imed
      return (m, a)
    else do
      let r ← partition n a low high
      select n imed fuel r.1 (if r.2.2 ≤ imed then r.2.1 else low) (if imed ≤ r.2.2 then r.2.2 - 1 else high)

/-- The element is removed (module_math_old.f90 627-630). -/
def bad (removeNan : Bool) (x : Option α) (masked : Bool) : Bool := (removeNan && x.isNone) || masked

/-- The loop that removes elements (module_math_old.f90 624-640): the array, the mask and HIGH.  The mask is false everywhere if it is not present. -/
def removeLoop (n : Int) (removeNan : Bool) : Nat → (Int → Option α) → (Int → Bool) → Int → Int → Res ((Int → Option α) × (Int → Bool) × Int)
  | 0, _, _, _, _ => .error .runtimeError
  | fuel + 1, a, m, ll, high =>
    if high < ll then return (a, m, high) else do
      let x ← geti n a ll
      let b ← geti n m ll
      if bad removeNan x b then do
        let y ← geti n a high
        let c ← geti n m high
        removeLoop n removeNan fuel (fun k => if k = ll then y else a k) (fun k => if k = ll then c else m k) ll (high - 1)
      else removeLoop n removeNan fuel a m (ll + 1) high

/-- The elements of an array given by a list. -/
def ofList {β : Type} (d : β) (l : List β) : Int → β := fun i => l.getD i.toNat d

/-- The array from which elements are removed (module_math_old.f90 618-642): the array and HIGH.  The mask is an argument with the size of the array. -/
def remaining (arr : List (Option α)) (removeNan : Bool) (mask : Option (List Bool)) : Res ((Int → Option α) × (Int → Bool) × Int) :=
  match mask with
  | some mask =>
    if mask.length ≠ arr.length then .error .valueError
    else removeLoop arr.length removeNan (arr.length + 1) (ofList none arr) (ofList false mask) 0 ((arr.length : Int) - 1)
  | none =>
    if removeNan then removeLoop arr.length removeNan (arr.length + 1) (ofList none arr) (fun _ => false) 0 ((arr.length : Int) - 1)
    else .ok (ofList none arr, fun _ => false, (arr.length : Int) - 1)

/-- The elements of an array. -/
def toList {β : Type} (n : Nat) (a : Int → β) : List β := (List.range n).map fun (i : Nat) => a i

/-- `median_nocopy` (module_math_old.f90 608-698): the median and the array, which is modified. -/
def medianNocopy (arr : List (Option α)) (removeNan : Bool) (mask : Option (List Bool)) : Res (Option α × List (Option α)) := do
  let r ← remaining arr removeNan mask
  if r.2.2 < 0 then return (none, toList arr.length r.1) else
    let s ← select arr.length ((0 + r.2.2).tdiv 2) (arr.length + 1) r.1 0 r.2.2
    return (s.1, toList arr.length s.2)

/-- The elements of which `median_copy` makes a copy (module_math_old.f90 583-593). -/
def packed (arr : List (Option α)) (removeNan : Bool) : Option (List Bool) → Res (List (Option α))
  | some mask =>
    if mask.length ≠ arr.length then .error .valueError
    else .ok (((arr.zip mask).filter fun q => !bad removeNan q.1 q.2).map (·.1))
  | none => .ok (if removeNan then arr.filter fun x => x.isSome else arr)

/-- `median_copy` (module_math_old.f90 560-597). -/
def medianCopy (arr : List (Option α)) (removeNan : Bool) (mask : Option (List Bool)) : Res (Option α) := do
  let copy ← packed arr removeNan mask
  let r ← medianNocopy copy false none
  return r.1

/-- The absolute deviations (module_math_old.f90 714). -/
def deviations {α : Type} [AddCommGroup α] [LinearOrder α] (x : List (Option α)) (m : Option α) : List (Option α) :=
  x.map fun x => Option.map₂ (fun x m => |x - m|) x m

/-- `mad` (module_math_old.f90 703-720): the deviation and the median. -/
def mad {α : Type} [AddCommGroup α] [LinearOrder α] (x : List (Option α)) : Res (Option α × Option α) := do
  let r ← medianNocopy x true none
  let s ← medianNocopy (deviations r.2 r.1) true none
  return (s.1, r.1)

/-! ### The specification -/

/-- The elements of which the median is wanted. -/
def wanted (xs : List (Option α)) (mask : Option (List Bool)) : List α := (unmasked xs mask).filterMap id

/-- The median of numbers: an element with at most half of them before it, and at most half of them after it.  It is the smaller one if there are two. -/
structure IsMedian (l : List α) (v : α) : Prop where
  mem : v ∈ l
  below : 2 * (l.countP fun x => decide (x < v)) < l.length
  above : 2 * (l.countP fun x => decide (v < x)) ≤ l.length

/-! ### Facts about the comparisons -/

theorem leN_trans {x y z : Option α} (h1 : leN x y = true) (h2 : leN y z = true) : leN x z = true := by
  cases x <;> cases y <;> cases z <;> simp [leN] at *
  exact h1.trans h2

theorem leN_refl {x : Option α} (h : x ≠ none) : leN x x = true := by
  cases x <;> simp [leN] at *

theorem leN_total {x y : Option α} (hx : x ≠ none) (hy : y ≠ none) (h : ¬ leN x y = true) : leN y x = true := by
  cases x <;> cases y <;> simp [leN] at *
  exact h.le

theorem gtN_le {x y : Option α} (h : gtN x y = true) : leN y x = true := by
  cases x <;> cases y <;> simp [leN, gtN] at *
  exact h.le

theorem not_gtN_le {x y : Option α} (hx : x ≠ none) (hy : y ≠ none) (h : ¬ gtN x y = true) : leN x y = true := by
  cases x <;> cases y <;> simp [leN, gtN] at *
  exact h

/-! ### Rearrangements -/

/-- The elements of an interval are rearranged. -/
def Shuf {β : Type} (lo hi : Int) (a b : Int → β) : Prop := ∃ σ : Equiv.Perm Int, (∀ i, ¬ (lo ≤ i ∧ i ≤ hi) → σ i = i) ∧ ∀ i, b i = a (σ i)

variable {β : Type} {lo hi : Int} {a b c : Int → β}

theorem Shuf.refl (lo hi : Int) (a : Int → β) : Shuf lo hi a a := ⟨1, fun _ _ => rfl, fun _ => rfl⟩

theorem Shuf.trans (h1 : Shuf lo hi a b) (h2 : Shuf lo hi b c) : Shuf lo hi a c := by
  obtain ⟨s, hs, hb⟩ := h1
  obtain ⟨t, ht, hc⟩ := h2
  refine ⟨s * t, fun i hi => ?_, fun i => ?_⟩
  · rw [Equiv.Perm.mul_apply, ht i hi, hs i hi]
  · rw [Equiv.Perm.mul_apply, hc, hb]

theorem Shuf.mono {lo' hi' : Int} (h : Shuf lo hi a b) (h1 : lo' ≤ lo) (h2 : hi ≤ hi') : Shuf lo' hi' a b := by
  obtain ⟨s, hs, hb⟩ := h
  exact ⟨s, fun i hi => hs i (by omega), hb⟩

theorem Shuf.outside (h : Shuf lo hi a b) {i : Int} (hi' : ¬ (lo ≤ i ∧ i ≤ hi)) : b i = a i := by
  obtain ⟨s, hs, hb⟩ := h
  rw [hb, hs i hi']

theorem Shuf.inside (h : Shuf lo hi a b) {i : Int} (hi' : lo ≤ i ∧ i ≤ hi) : ∃ j, lo ≤ j ∧ j ≤ hi ∧ b i = a j := by
  obtain ⟨s, hs, hb⟩ := h
  by_cases hj : lo ≤ s i ∧ s i ≤ hi
  · exact ⟨s i, hj.1, hj.2, hb i⟩
  · have := s.injective (hs (s i) hj)
    rw [this] at hj
    exact absurd hi' hj

theorem Shuf.sum {M : Type} [AddCommMonoid M] (h : Shuf lo hi a b) {H : Int} (h1 : 0 ≤ lo) (h2 : hi ≤ H) (f : β → M) :
    ∑ i ∈ Finset.Icc 0 H, f (b i) = ∑ i ∈ Finset.Icc 0 H, f (a i) := by
  obtain ⟨s, hs, hb⟩ := h.mono h1 h2
  refine Finset.sum_equiv s (fun i => ?_) (fun i _ => by rw [hb])
  rw [Finset.mem_Icc, Finset.mem_Icc]
  constructor
  · intro hi'
    by_contra hj
    have := s.injective (hs (s i) hj)
    rw [this] at hj
    exact hj hi'
  · intro hi'
    by_contra hj
    rw [hs i hj] at hi'
    exact hj hi'

/-- An exchange of two elements of an array succeeds. -/
theorem swapi_ok {n i j : Int} (hi' : 0 ≤ i ∧ i < n) (hj : 0 ≤ j ∧ j < n) :
    ∃ b, swapi n a i j = .ok b ∧ b i = a j ∧ b j = a i ∧ (∀ k, k ≠ i → k ≠ j → b k = a k) ∧ (∀ lo hi, lo ≤ i → i ≤ hi → lo ≤ j → j ≤ hi → Shuf lo hi a b) := by
  refine ⟨_, by unfold swapi geti; rw [if_pos hi', if_pos hj]; rfl, ?_, ?_, ?_, ?_⟩
  · by_cases h : i = j
    · simp [h]
    · simp [h]
  · simp
  · intro k h1 h2
    simp [h1, h2]
  · intro lo hi h1 h2 h3 h4
    refine ⟨Equiv.swap i j, fun k hk => Equiv.swap_apply_of_ne_of_ne (by rintro rfl; omega) (by rintro rfl; omega), fun k => ?_⟩
    dsimp only
    by_cases h5 : k = j
    · rw [if_pos h5, h5, Equiv.swap_apply_right]
    · rw [if_neg h5]
      by_cases h6 : k = i
      · rw [if_pos h6, h6, Equiv.swap_apply_left]
      · rw [if_neg h6, Equiv.swap_apply_of_ne_of_ne h6 h5]

theorem condSwap_ok {a : Int → Option α} {n i j : Int} (hi' : 0 ≤ i ∧ i < n) (hj : 0 ≤ j ∧ j < n) (ha : a i ≠ none) (hb : a j ≠ none) :
    ∃ b, condSwap n a i j = .ok b ∧ leN (b i) (b j) = true ∧ ((b i = a i ∧ b j = a j) ∨ (b i = a j ∧ b j = a i ∧ leN (a j) (a i) = true)) ∧
      (∀ k, k ≠ i → k ≠ j → b k = a k) ∧ (∀ lo hi, lo ≤ i → i ≤ hi → lo ≤ j → j ≤ hi → Shuf lo hi a b) := by
  have e : condSwap n a i j = if gtN (a i) (a j) then swapi n a i j else .ok a := by
    unfold condSwap geti
    rw [if_pos hi', if_pos hj]; rfl
  rw [e]
  by_cases h : gtN (a i) (a j) = true
  · rw [if_pos h]
    obtain ⟨b, e, h1, h2, h3, h4⟩ := swapi_ok (a := a) hi' hj
    exact ⟨b, e, by rw [h1, h2]; exact gtN_le h, .inr ⟨h1, h2, gtN_le h⟩, h3, h4⟩
  · rw [if_neg h]
    exact ⟨a, rfl, not_gtN_le ha hb h, .inl ⟨rfl, rfl⟩, fun _ _ _ => rfl, fun _ _ _ _ _ _ => .refl _ _ _⟩

/-! ### The partition -/

theorem scanUp_ok {a : Int → Option α} {n low : Int} (hl : 0 ≤ low ∧ low < n) :
    ∀ (fuel : Nat) (ll s : Int), 0 ≤ ll → ll < s → s < n → leN (a low) (a s) = true → (s - ll).toNat ≤ fuel →
    ∃ l, scanUp n a low fuel ll = .ok l ∧ ll < l ∧ l ≤ s ∧ leN (a low) (a l) = true ∧ ∀ i, ll < i → i < l → ¬ leN (a low) (a i) = true := by
  intro fuel
  induction fuel with
  | zero => intro ll s h0 h1 h2 h3 h4; omega
  | succ f ih =>
    intro ll s h0 h1 h2 h3 h4
    have e : scanUp n a low (f + 1) ll = if leN (a low) (a (ll + 1)) then .ok (ll + 1) else scanUp n a low f (ll + 1) := by
      conv_lhs => unfold scanUp geti
      rw [if_pos hl, if_pos (by omega)]; rfl
    rw [e]
    by_cases h : leN (a low) (a (ll + 1)) = true
    · rw [if_pos h]
      exact ⟨ll + 1, rfl, by omega, by omega, h, fun i h5 h6 => by omega⟩
    · rw [if_neg h]
      have hne : ll + 1 ≠ s := by rintro rfl; exact h h3
      obtain ⟨l, e1, h5, h6, h7, h8⟩ := ih (ll + 1) s (by omega) (by omega) h2 h3 (by omega)
      refine ⟨l, e1, by omega, h6, h7, fun i h9 h10 => ?_⟩
      by_cases h11 : i = ll + 1
      · rw [h11]; exact h
      · exact h8 i (by omega) h10

theorem scanDown_ok {a : Int → Option α} {n low : Int} (hl : 0 ≤ low ∧ low < n) :
    ∀ (fuel : Nat) (hh s : Int), hh ≤ n → s < hh → 0 ≤ s → leN (a s) (a low) = true → (hh - s).toNat ≤ fuel →
    ∃ h, scanDown n a low fuel hh = .ok h ∧ h < hh ∧ s ≤ h ∧ leN (a h) (a low) = true ∧ ∀ i, h < i → i < hh → ¬ leN (a i) (a low) = true := by
  intro fuel
  induction fuel with
  | zero => intro hh s h0 h1 h2 h3 h4; omega
  | succ f ih =>
    intro hh s h0 h1 h2 h3 h4
    have e : scanDown n a low (f + 1) hh = if leN (a (hh - 1)) (a low) then .ok (hh - 1) else scanDown n a low f (hh - 1) := by
      conv_lhs => unfold scanDown geti
      rw [if_pos hl, if_pos (by omega)]; rfl
    rw [e]
    by_cases h : leN (a (hh - 1)) (a low) = true
    · rw [if_pos h]
      exact ⟨hh - 1, rfl, by omega, by omega, h, fun i h5 h6 => by omega⟩
    · rw [if_neg h]
      have hne : hh - 1 ≠ s := by rintro rfl; exact h h3
      obtain ⟨l, e1, h5, h6, h7, h8⟩ := ih (hh - 1) s (by omega) (by omega) h2 h3 (by omega)
      refine ⟨l, e1, by omega, h6, h7, fun i h9 h10 => ?_⟩
      by_cases h11 : i = hh - 1
      · rw [h11]; exact h
      · exact h8 i (by omega) (by omega)

/-- The elements up to HH are at most the pivot, those from LL are at least it, and those in between are equal to it. -/
structure Parted (a : Int → Option α) (low high ll hh : Int) (p : Option α) : Prop where
  hl : hh < ll
  lo : low ≤ hh
  hi : ll ≤ high
  left : ∀ i, low ≤ i → i < ll → leN (a i) p = true
  right : ∀ i, hh < i → i ≤ high → leN p (a i) = true

theorem partLoop_ok {n low high : Int} (h0 : 0 ≤ low) (hn : high < n) :
    ∀ (fuel : Nat) (a : Int → Option α) (ll hh : Int), (∀ i, low ≤ i → i ≤ high → a i ≠ none) → low < ll → hh ≤ high →
      (ll < hh ∨ (ll = hh ∧ hh < high)) →
      (∀ i, low ≤ i → i ≤ ll → leN (a i) (a low) = true) → (∀ i, hh ≤ i → i ≤ high → leN (a low) (a i) = true) → (hh - ll).toNat < fuel →
    ∃ b l h, partLoop n low fuel a ll hh = .ok (b, l, h) ∧ b low = a low ∧ Shuf low high a b ∧ Parted b low high l h (a low) := by
  intro fuel
  induction fuel with
  | zero => intro a ll hh _ _ _ _ _ _ h; omega
  | succ f ih =>
    intro a ll hh hv h1 h2 h3 h4 h5 h6
    obtain ⟨l, e1, h7, h8, h9, h10⟩ := scanUp_ok (a := a) (n := n) (low := low) ⟨h0, by omega⟩ (n.toNat + 1) ll (if ll < hh then hh else hh + 1) (by omega)
      (by split_ifs <;> omega) (by split_ifs <;> omega) (h5 _ (by split_ifs <;> omega) (by split_ifs <;> omega)) (by split_ifs <;> omega)
    obtain ⟨h, e2, h11, h12, h13, h14⟩ := scanDown_ok (a := a) (n := n) (low := low) ⟨h0, by omega⟩ (n.toNat + 1) hh (if ll < hh then ll else hh - 1) (by omega)
      (by split_ifs <;> omega) (by split_ifs <;> omega) (h4 _ (by split_ifs <;> omega) (by split_ifs <;> omega)) (by split_ifs <;> omega)
    have hl1 : l ≤ high := by split_ifs at h8 <;> omega
    have hh1 : low ≤ h := by split_ifs at h12 <;> omega
    have hp : a low ≠ none := hv low le_rfl (by omega)
    have left : ∀ i, low ≤ i → i < l → leN (a i) (a low) = true := by
      intro i hi1 hi2
      by_cases hi3 : i ≤ ll
      · exact h4 i hi1 hi3
      · exact leN_total hp (hv i hi1 (by omega)) (h10 i (by omega) hi2)
    have right : ∀ i, h < i → i ≤ high → leN (a low) (a i) = true := by
      intro i hi1 hi2
      by_cases hi3 : hh ≤ i
      · exact h5 i hi3 hi2
      · exact leN_total (hv i (by omega) hi2) hp (h14 i hi1 (by omega))
    have e : partLoop n low (f + 1) a ll hh = if h < l then .ok (a, l, h) else (swapi n a l h).bind fun a => partLoop n low f a l h := by
      conv_lhs => unfold partLoop
      rw [e1]
      dsimp only [bind, Except.bind]
      rw [e2]
      rfl
    rw [e]
    by_cases hc : h < l
    · rw [if_pos hc]
      exact ⟨a, l, h, rfl, rfl, .refl _ _ _, hc, hh1, hl1, left, right⟩
    · rw [if_neg hc]
      obtain ⟨b, e3, b1, b2, b3, b4⟩ := swapi_ok (a := a) (n := n) (i := l) (j := h) ⟨by omega, by omega⟩ ⟨by omega, by omega⟩
      rw [e3]
      have hs : Shuf low high a b := b4 low high (by omega) (by omega) (by omega) (by omega)
      have bl : b low = a low := b3 low (by omega) (by omega)
      obtain ⟨b', l', h', e4, c1, c2, c3⟩ := ih b l h
        (fun i hi1 hi2 => by obtain ⟨j, hj1, hj2, hj⟩ := hs.inside ⟨hi1, hi2⟩; rw [hj]; exact hv j hj1 hj2) (by omega) (by omega) (by omega)
        (fun i hi1 hi2 => by
          rw [bl]
          by_cases hi3 : i = l
          · rw [hi3, b1]; exact h13
          · rw [b3 i hi3 (by omega)]; exact left i hi1 (by omega))
        (fun i hi1 hi2 => by
          rw [bl]
          by_cases hi3 : i = h
          · rw [hi3, b2]; exact h9
          · rw [b3 i (by omega) hi3]; exact right i (by omega) hi2)
        (by omega)
      refine ⟨b', l', h', e4, c1.trans bl, hs.trans c2, ?_⟩
      rw [← bl]; exact c3

/-- The partition succeeds. -/
theorem partition_ok {a : Int → Option α} {n low high : Int} (h0 : 0 ≤ low) (hn : high < n) (h1 : low + 2 ≤ high) (hv : ∀ i, low ≤ i → i ≤ high → a i ≠ none) :
    ∃ b l h, partition n a low high = .ok (b, l, h) ∧ Shuf low high a b ∧ b h ≠ none ∧ Parted b low high l h (b h) := by
  have hmid : (low + high).tdiv 2 = (low + high) / 2 := Int.tdiv_eq_ediv_of_nonneg (by omega)
  obtain ⟨m, hm⟩ : ∃ m, m = (low + high) / 2 := ⟨_, rfl⟩
  have hv' : ∀ b, Shuf low high a b → ∀ i, low ≤ i → i ≤ high → b i ≠ none := by
    intro b hs i hi1 hi2
    obtain ⟨j, hj1, hj2, hj⟩ := hs.inside ⟨hi1, hi2⟩
    rw [hj]; exact hv j hj1 hj2
  obtain ⟨b1, e1, o1, c1, u1, s1⟩ := condSwap_ok (a := a) (n := n) (i := m) (j := high) ⟨by omega, by omega⟩ ⟨by omega, by omega⟩ (hv _ (by omega) (by omega)) (hv _ (by omega) (by omega))
  have t1 := s1 low high (by omega) (by omega) (by omega) (by omega)
  obtain ⟨b2, e2, o2, c2, u2, s2⟩ := condSwap_ok (a := b1) (n := n) (i := low) (j := high) ⟨by omega, by omega⟩ ⟨by omega, by omega⟩ (hv' _ t1 _ (by omega) (by omega))
    (hv' _ t1 _ (by omega) (by omega))
  have t2 := t1.trans (s2 low high (by omega) (by omega) (by omega) (by omega))
  obtain ⟨b3, e3, o3, c3, u3, s3⟩ := condSwap_ok (a := b2) (n := n) (i := m) (j := low) ⟨by omega, by omega⟩ ⟨by omega, by omega⟩ (hv' _ t2 _ (by omega) (by omega))
    (hv' _ t2 _ (by omega) (by omega))
  have t3 := t2.trans (s3 low high (by omega) (by omega) (by omega) (by omega))
  obtain ⟨b4, e4, v1, v2, u4, s4⟩ := swapi_ok (a := b3) (n := n) (i := m) (j := low + 1) ⟨by omega, by omega⟩ ⟨by omega, by omega⟩
  have t4 := t3.trans (s4 low high (by omega) (by omega) (by omega) (by omega))
  -- the element in the middle is at most the last one after the first two exchanges
  have g2 : leN (b2 m) (b2 high) = true := by
    rw [u2 m (by omega) (by omega)]
    rcases c2 with ⟨-, h⟩ | ⟨-, h, hle⟩
    · rw [h]; exact o1
    · rw [h]; exact leN_trans o1 hle
  have g3 : leN (b3 low) (b3 high) = true := by
    rw [u3 high (by omega) (by omega)]
    rcases c3 with ⟨-, h⟩ | ⟨-, h, -⟩
    · rw [h]; exact o2
    · rw [h]; exact g2
  have p4 : b4 low = b3 low := u4 low (by omega) (by omega)
  obtain ⟨b5, l, h, e5, w1, w2, w3⟩ := partLoop_ok (n := n) (low := low) (high := high) h0 hn (n.toNat + 1) b4 (low + 1) high (hv' _ t4) (by omega) le_rfl (.inl (by omega))
    (fun i hi1 hi2 => by
      by_cases hi3 : i = low
      · rw [hi3]; exact leN_refl (hv' _ t4 _ (by omega) (by omega))
      · rw [show i = low + 1 by omega, v2, p4]; exact o3)
    (fun i hi1 hi2 => by rw [show i = high by omega, p4, u4 high (by omega) (by omega)]; exact g3)
    (by omega)
  have t5 := t4.trans w2
  have hlo := w3.lo
  have hhi := w3.hi
  have hhl := w3.hl
  obtain ⟨b6, e6, x1, x2, u6, s6⟩ := swapi_ok (a := b5) (n := n) (i := low) (j := h) ⟨by omega, by omega⟩ ⟨by omega, by omega⟩
  have t6 := t5.trans (s6 low high (by omega) (by omega) (by omega) (by omega))
  refine ⟨b6, l, h, ?_, t6, hv' _ t6 _ (by omega) (by omega), hhl, hlo, hhi, fun i hi1 hi2 => ?_, fun i hi1 hi2 => ?_⟩
  · unfold partition
    rw [hmid, ← hm]
    dsimp only
    rw [e1]
    dsimp only [bind, Except.bind]
    rw [e2]
    dsimp only
    rw [e3]
    dsimp only
    rw [e4]
    dsimp only
    rw [e5]
    dsimp only
    rw [e6]
    rfl
  · rw [x2, w1]
    by_cases hi3 : i = low
    · rw [hi3, x1]; exact w3.left h hlo (by omega)
    · by_cases hi4 : i = h
      · rw [hi4, x2, w1]; exact leN_refl (hv' _ t4 _ (by omega) (by omega))
      · rw [u6 i hi3 hi4]; exact w3.left i hi1 hi2
  · rw [x2, w1, u6 i (by omega) (by omega)]
    exact w3.right i hi1 hi2

/-! ### The selection -/

/-- The elements before an index are at most those from it. -/
def Sep (H : Int) (a : Int → Option α) (c : Int) : Prop := ∀ i j, 0 ≤ i → i < c → c ≤ j → j ≤ H → leN (a i) (a j) = true

theorem Sep.shuf {a b : Int → Option α} {H c low high : Int} (h : Sep H a c) (hs : Shuf low high a b) (h0 : 0 ≤ low) (hH : high ≤ H) (hc : c ≤ low ∨ high < c) : Sep H b c := by
  intro i j hi1 hi2 hj1 hj2
  have hi : ∃ i', 0 ≤ i' ∧ i' < c ∧ b i = a i' := by
    by_cases hin : low ≤ i ∧ i ≤ high
    · obtain ⟨k, k1, k2, e⟩ := hs.inside hin
      exact ⟨k, by omega, by omega, e⟩
    · exact ⟨i, hi1, hi2, hs.outside hin⟩
  have hj : ∃ j', c ≤ j' ∧ j' ≤ H ∧ b j = a j' := by
    by_cases hin : low ≤ j ∧ j ≤ high
    · obtain ⟨k, k1, k2, e⟩ := hs.inside hin
      exact ⟨k, by omega, by omega, e⟩
    · exact ⟨j, hj1, hj2, hs.outside hin⟩
  obtain ⟨i', i1, i2, ei⟩ := hi
  obtain ⟨j', j1, j2, ej⟩ := hj
  rw [ei, ej]
  exact h i' j' i1 i2 j1 j2

theorem Parted.sep {b : Int → Option α} {H low high l h c : Int} (hp : Parted b low high l h (b h)) (hv : b h ≠ none) (h1 : Sep H b low) (h2 : Sep H b (high + 1))
    (c1 : h ≤ c) (c2 : c ≤ l) : Sep H b c := by
  have hlo := hp.lo
  have hhi := hp.hi
  have hhl := hp.hl
  intro i j hi1 hi2 hj1 hj2
  by_cases hi3 : i < low
  · exact h1 i j hi1 hi3 (by omega) hj2
  by_cases hj3 : high < j
  · exact h2 i j hi1 (by omega) (by omega) hj2
  refine leN_trans (hp.left i (by omega) (by omega)) ?_
  by_cases hj4 : j = h
  · rw [hj4]; exact leN_refl hv
  · exact hp.right j (by omega) (by omega)

theorem select_ok {n H imed : Int} (hn : H < n) (hm : 0 ≤ imed ∧ imed ≤ H) :
    ∀ (fuel : Nat) (a : Int → Option α) (low high : Int), (∀ i, 0 ≤ i → i ≤ H → a i ≠ none) → 0 ≤ low → high ≤ H → Sep H a low → Sep H a (high + 1) →
      ((low ≤ imed ∧ imed ≤ high) ∨ (imed < low ∧ Sep H a imed ∧ Sep H a (imed + 1))) → (high - low).toNat < fuel →
    ∃ b, select n imed fuel a low high = .ok (b imed, b) ∧ Shuf 0 H a b ∧ Sep H b imed ∧ Sep H b (imed + 1) := by
  intro fuel
  induction fuel with
  | zero => intro a low high _ _ _ _ _ _ h; omega
  | succ f ih =>
    intro a low high hv h0 hH s1 s2 hor hf
    unfold select
    have hget : ∀ b : Int → Option α, geti n b imed = .ok (b imed) := fun b => by unfold geti; rw [if_pos ⟨by omega, by omega⟩]
    by_cases hc1 : high ≤ low
    · rw [if_pos hc1, hget]
      refine ⟨a, rfl, .refl _ _ _, ?_⟩
      rcases hor with h | ⟨-, h⟩
      · rw [show imed = low by omega]
        exact ⟨s1, by rw [show low + 1 = high + 1 by omega]; exact s2⟩
      · exact h
    rw [if_neg hc1]
    by_cases hc2 : high = low + 1
    · rw [if_pos hc2]
      obtain ⟨b, e, o, -, u, s⟩ := condSwap_ok (a := a) (n := n) (i := low) (j := high) ⟨by omega, by omega⟩ ⟨by omega, by omega⟩ (hv _ (by omega) (by omega)) (hv _ (by omega) (by omega))
      rw [e]
      dsimp only [bind, Except.bind]
      rw [hget]
      have hs := s low high (by omega) (by omega) (by omega) (by omega)
      refine ⟨b, rfl, hs.mono h0 hH, ?_⟩
      have t1 : Sep H b low := s1.shuf hs h0 hH (.inl le_rfl)
      have t2 : Sep H b (high + 1) := s2.shuf hs h0 hH (.inr (by omega))
      rcases hor with h | ⟨h1, h2, h3⟩
      · have t3 : Sep H b high := by
          intro i j hi1 hi2 hj1 hj2
          by_cases hi3 : i < low
          · exact t1 i j hi1 hi3 (by omega) hj2
          by_cases hj3 : high < j
          · exact t2 i j hi1 (by omega) (by omega) hj2
          rw [show i = low by omega, show j = high by omega]; exact o
        by_cases h4 : imed = low
        · rw [h4]
          exact ⟨t1, by rw [← hc2]; exact t3⟩
        · rw [show imed = high by omega]
          exact ⟨t3, t2⟩
      · exact ⟨h2.shuf hs h0 hH (.inl h1.le), h3.shuf hs h0 hH (.inl (by omega))⟩
    · rw [if_neg hc2]
      obtain ⟨b, l, h, e, hs, hb, hp⟩ := partition_ok (a := a) (n := n) (low := low) (high := high) h0 (by omega) (by omega) (fun i h1 h2 => hv i (by omega) (by omega))
      rw [e]
      dsimp only [bind, Except.bind]
      have hlo := hp.lo
      have hhi := hp.hi
      have hhl := hp.hl
      have t1 : Sep H b low := s1.shuf hs h0 hH (.inl le_rfl)
      have t2 : Sep H b (high + 1) := s2.shuf hs h0 hH (.inr (by omega))
      have ts : ∀ c, h ≤ c → c ≤ l → Sep H b c := fun c => hp.sep hb t1 t2
      have hv' : ∀ i, 0 ≤ i → i ≤ H → b i ≠ none := by
        intro i hi1 hi2
        obtain ⟨j, hj1, hj2, hj⟩ := (hs.mono h0 hH).inside ⟨hi1, hi2⟩
        rw [hj]; exact hv j hj1 hj2
      obtain ⟨b', e', hs', r1, r2⟩ := ih b (if h ≤ imed then l else low) (if imed ≤ h then h - 1 else high) hv' (by split_ifs <;> omega) (by split_ifs <;> omega)
        (by split_ifs
            · exact ts l (by omega) le_rfl
            · exact t1)
        (by split_ifs
            · rw [show h - 1 + 1 = h by omega]; exact ts h le_rfl (by omega)
            · exact t2)
        (by
          rcases hor with h1 | ⟨h1, h2, h3⟩
          · by_cases c1 : h ≤ imed
            · rw [if_pos c1]
              by_cases c2 : imed < l
              · exact .inr ⟨c2, ts _ c1 c2.le, ts _ (by omega) (by omega)⟩
              · exact .inl ⟨by omega, by rw [if_neg (by omega)]; exact h1.2⟩
            · rw [if_neg c1]
              exact .inl ⟨h1.1, by rw [if_pos (by omega)]; omega⟩
          · refine .inr ⟨?_, h2.shuf hs h0 hH (.inl h1.le), h3.shuf hs h0 hH (.inl (by omega))⟩
            rw [if_neg (by omega)]; exact h1)
        (by split_ifs <;> omega)
      exact ⟨b', e', (hs.mono h0 hH).trans hs', r1, r2⟩

/-! ### The elements that are removed -/

theorem sum_Icc_succ {M : Type} [AddCommMonoid M] (f : Int → M) {high : Int} (h : 0 ≤ high) : ∑ i ∈ Finset.Icc 0 high, f i = f high + ∑ i ∈ Finset.Icc 0 (high - 1), f i := by
  have : Finset.Icc 0 high = insert high (Finset.Icc 0 (high - 1)) := by
    ext i
    rw [Finset.mem_insert, Finset.mem_Icc, Finset.mem_Icc]
    omega
  rw [this, Finset.sum_insert]
  rw [Finset.mem_Icc]
  omega

omit [LinearOrder α] in
theorem removeLoop_ok {n : Int} (rn : Bool) :
    ∀ (fuel : Nat) (a : Int → Option α) (m : Int → Bool) (ll high : Int), 0 ≤ ll → high < n → ll ≤ high + 1 → (∀ i, 0 ≤ i → i < ll → bad rn (a i) (m i) = false) →
      (high + 1 - ll).toNat < fuel →
    ∃ b m' h, removeLoop n rn fuel a m ll high = .ok (b, m', h) ∧ -1 ≤ h ∧ h ≤ high ∧ (∀ i, 0 ≤ i → i ≤ h → bad rn (b i) (m' i) = false) ∧
      (∀ (f : Option α → Bool → Multiset (Option α)), (∀ x c, bad rn x c = true → f x c = 0) → ∑ i ∈ Finset.Icc 0 h, f (b i) (m' i) = ∑ i ∈ Finset.Icc 0 high, f (a i) (m i)) ∧
      ((∀ i, 0 ≤ i → i ≤ high → bad rn (a i) (m i) = false) → b = a ∧ h = high) := by
  intro fuel
  induction fuel with
  | zero => intro a m ll high _ _ _ _ h; omega
  | succ f ih =>
    intro a m ll high h0 hn h1 hb hf
    by_cases hc : high < ll
    · refine ⟨a, m, high, by unfold removeLoop; rw [if_pos hc]; rfl, by omega, le_rfl, fun i hi1 hi2 => hb i hi1 (by omega), fun _ _ => rfl, fun _ => ⟨rfl, rfl⟩⟩
    have e : removeLoop n rn (f + 1) a m ll high = if bad rn (a ll) (m ll) then
        removeLoop n rn f (fun k => if k = ll then a high else a k) (fun k => if k = ll then m high else m k) ll (high - 1)
      else removeLoop n rn f a m (ll + 1) high := by
      conv_lhs => unfold removeLoop geti
      rw [if_neg hc, if_pos (show 0 ≤ ll ∧ ll < n by omega), if_pos (show 0 ≤ ll ∧ ll < n by omega), if_pos (show 0 ≤ high ∧ high < n by omega), if_pos (show 0 ≤ high ∧ high < n by omega)]
      rfl
    rw [e]
    by_cases hbad : bad rn (a ll) (m ll) = true
    · rw [if_pos hbad]
      obtain ⟨b, m', h, e1, r1, r2, r3, r4, -⟩ := ih (fun k => if k = ll then a high else a k) (fun k => if k = ll then m high else m k) ll (high - 1) h0 (by omega) (by omega)
        (fun i hi1 hi2 => by rw [if_neg (by omega), if_neg (by omega)]; exact hb i hi1 hi2) (by omega)
      refine ⟨b, m', h, e1, r1, by omega, r3, fun g hg => ?_, fun hall => ?_⟩
      · rw [r4 g hg, sum_Icc_succ (fun i => g (a i) (m i)) (by omega)]
        by_cases hlast : ll = high
        · rw [show g (a high) (m high) = 0 from by rw [← hlast]; exact hg _ _ hbad, zero_add]
          refine Finset.sum_congr rfl fun i hi => ?_
          rw [Finset.mem_Icc] at hi
          rw [if_neg (by omega), if_neg (by omega)]
        · have hmem : ll ∈ Finset.Icc 0 (high - 1) := by rw [Finset.mem_Icc]; omega
          rw [← Finset.add_sum_erase _ _ hmem, ← Finset.add_sum_erase _ (fun i => g (a i) (m i)) hmem, hg _ _ hbad, zero_add, if_pos rfl, if_pos rfl]
          congr 1
          refine Finset.sum_congr rfl fun i hi => ?_
          rw [if_neg (Finset.ne_of_mem_erase hi), if_neg (Finset.ne_of_mem_erase hi)]
      · rw [hall ll h0 (by omega)] at hbad
        exact absurd hbad (by simp)
    · rw [if_neg hbad]
      refine ih a m (ll + 1) high (by omega) hn (by omega) (fun i hi1 hi2 => ?_) (by omega)
      by_cases hi3 : i = ll
      · rw [hi3]; exact Bool.eq_false_iff.2 hbad
      · exact hb i hi1 (by omega)

/-! ### Lists -/

theorem sum_range_getD {M β : Type} [AddCommMonoid M] (d : β) (f : β → M) (l : List β) : ∑ k ∈ Finset.range l.length, f (l.getD k d) = (l.map f).sum := by
  induction l with
  | nil => rfl
  | cons x l ih =>
    rw [List.length_cons, Finset.sum_range_succ', List.map_cons, List.sum_cons, add_comm, ← ih]
    rfl

theorem sum_ofList {M β : Type} [AddCommMonoid M] (d : β) (f : β → M) (l : List β) : ∑ i ∈ Finset.Icc 0 ((l.length : Int) - 1), f (ofList d l i) = (l.map f).sum := by
  rw [← sum_range_getD d]
  refine Finset.sum_nbij' Int.toNat (fun (k : ℕ) => (k : ℤ)) ?_ ?_ ?_ ?_ ?_
  · intro i hi
    rw [Finset.mem_Icc] at hi
    rw [Finset.mem_range]; omega
  · intro k hk
    rw [Finset.mem_range] at hk
    rw [Finset.mem_Icc]; omega
  · intro i hi
    rw [Finset.mem_Icc] at hi
    omega
  · intro k hk
    omega
  · intro i hi
    rfl

theorem toList_length {β : Type} (n : Nat) (a : Int → β) : (toList n a).length = n := by simp [toList]

theorem ofList_toList {β : Type} (d : β) (n : Nat) (a : Int → β) {i : Int} (h : 0 ≤ i ∧ i < n) : ofList d (toList n a) i = a i := by
  unfold ofList toList
  rw [List.getD_eq_getElem?_getD, List.getElem?_map, List.getElem?_range (by omega)]
  simp [h.1]

/-- The elements of an array as a multiset. -/
theorem toList_multiset {β : Type} (n : Nat) (a : Int → β) : (toList n a : Multiset β) = ∑ i ∈ Finset.Icc 0 ((n : Int) - 1), {a i} := by
  have hsum : ∀ l : List β, (l.map fun x => ({x} : Multiset β)).sum = (l : Multiset β) := by
    intro l
    induction l with
    | nil => rfl
    | cons x l ih => rw [List.map_cons, List.sum_cons, ih, Multiset.singleton_add, Multiset.cons_coe]
  rcases Nat.eq_zero_or_pos n with h | h
  · subst h; simp [toList]
  have := sum_ofList (a 0) (fun x => ({x} : Multiset β)) (toList n a)
  rw [hsum, toList_length] at this
  rw [← this]
  refine Finset.sum_congr rfl fun i hi => ?_
  rw [Finset.mem_Icc] at hi
  rw [ofList_toList _ _ _ ⟨hi.1, by omega⟩]

omit [LinearOrder α] in
theorem kept_sum {rn : Bool} (zs : List (Option α × Bool)) (h : rn = true ∨ none ∉ (zs.filter fun p => !p.2).map (·.1)) :
    (zs.map fun z => if bad rn z.1 z.2 then (0 : Multiset (Option α)) else {z.1}).sum = (((((zs.filter fun p => !p.2).map (·.1)).filterMap id).map some : List (Option α)) : Multiset (Option α)) := by
  induction zs with
  | nil => rfl
  | cons z zs ih =>
    obtain ⟨x, c⟩ := z
    rw [List.map_cons, List.sum_cons]
    cases c with
    | true =>
      rw [ih (by simpa using h)]
      simp [bad]
    | false =>
      rw [ih (by
        rcases h with h | h
        · exact .inl h
        · refine .inr fun h' => h ?_
          simp at h' ⊢
          exact .inr h')]
      cases x with
      | none =>
        rcases h with h | h
        · simp [bad, h]
        · simp at h
      | some x => simp [bad]

/-- The array after the elements are removed. -/
theorem remaining_ok (xs : List (Option α)) (rn : Bool) (mask : Option (List Bool)) (hm : ∀ m, mask = some m → m.length = xs.length)
    (hrn : rn = true ∨ none ∉ unmasked xs mask) :
    ∃ b m h, remaining xs rn mask = .ok (b, m, h) ∧ -1 ≤ h ∧ h < xs.length ∧ ∑ i ∈ Finset.Icc 0 h, {b i} = (((wanted xs mask).map some : List (Option α)) : Multiset (Option α)) ∧
      (mask = none → none ∉ xs → b = ofList none xs ∧ h = (xs.length : Int) - 1) := by
  have key : ∀ (m : Int → Bool) (zs : List (Option α × Bool)), zs.length = xs.length → (∀ (i : Int), 0 ≤ i → i < xs.length → ofList (none, false) zs i = (ofList none xs i, m i)) →
      (rn = true ∨ none ∉ (zs.filter fun p => !p.2).map (·.1)) →
      ∃ b m' h, removeLoop xs.length rn (xs.length + 1) (ofList none xs) m 0 ((xs.length : Int) - 1) = .ok (b, m', h) ∧ -1 ≤ h ∧ h < xs.length ∧
      ∑ i ∈ Finset.Icc 0 h, {b i} = (((((zs.filter fun p => !p.2).map (·.1)).filterMap id).map some : List (Option α)) : Multiset (Option α)) ∧
      ((∀ i, 0 ≤ i → i ≤ (xs.length : Int) - 1 → bad rn (ofList none xs i) (m i) = false) → b = ofList none xs ∧ h = (xs.length : Int) - 1) := by
    intro m zs hlen hz hno
    obtain ⟨b, m', h, e, r1, r2, r3, r4, r5⟩ := removeLoop_ok (n := xs.length) rn (xs.length + 1) (ofList none xs) m 0 ((xs.length : Int) - 1) le_rfl (by omega) (by omega)
      (fun i _ _ => by omega) (by omega)
    refine ⟨b, m', h, e, r1, by omega, ?_, r5⟩
    rw [← kept_sum zs hno, ← sum_ofList (none, false), hlen]
    have := r4 (fun x c => if bad rn x c then 0 else {x}) (fun x c hx => if_pos hx)
    have e2 : ∑ i ∈ Finset.Icc 0 h, ({b i} : Multiset (Option α)) = ∑ i ∈ Finset.Icc 0 h, if bad rn (b i) (m' i) = true then 0 else {b i} := by
      refine Finset.sum_congr rfl fun i hi => ?_
      rw [Finset.mem_Icc] at hi
      rw [r3 i hi.1 hi.2]; rfl
    rw [e2, this]
    refine Finset.sum_congr rfl fun i hi => ?_
    rw [Finset.mem_Icc] at hi
    rw [hz i hi.1 (by omega)]
  have hzip : ∀ (l : List Bool) (i : Int), l.length = xs.length → 0 ≤ i → i < xs.length → ofList (none, false) (xs.zip l) i = (ofList none xs i, ofList false l i) := by
    intro l i hl h1 h2
    unfold ofList
    rw [List.getD_eq_getElem?_getD, List.getD_eq_getElem?_getD, List.getD_eq_getElem?_getD, List.getElem?_eq_getElem (by rw [List.length_zip]; omega),
      List.getElem?_eq_getElem (by omega), List.getElem?_eq_getElem (by omega), List.getElem_zip]
    rfl
  cases mask with
  | some mask =>
    obtain ⟨b, m', h, e, r1, r2, r3, -⟩ := key (ofList false mask) (xs.zip mask) (by rw [List.length_zip, hm mask rfl, min_self]) (fun i h1 h2 => hzip mask i (hm mask rfl) h1 h2) hrn
    refine ⟨b, m', h, ?_, r1, r2, r3, fun h => by cases h⟩
    unfold remaining
    dsimp only
    rw [if_neg (by rw [hm mask rfl]; simp), e]
  | none =>
    have hz : ((xs.map fun x => (x, false)).filter fun p : Option α × Bool => !p.2).map (·.1) = xs := by
      rw [List.filter_map, List.map_map]
      simp [Function.comp_def]
    obtain ⟨b, m', h, e, r1, r2, r3, r4⟩ := key (fun _ => false) (xs.map fun x => (x, false)) (by simp) (fun i h1 h2 => by
        unfold ofList
        rw [List.getD_eq_getElem?_getD, List.getD_eq_getElem?_getD, List.getElem?_map, List.getElem?_eq_getElem (by omega)]
        rfl) (by rw [hz]; exact hrn)
    rw [hz] at r3
    have hnone : none ∉ xs → ∀ i, 0 ≤ i → i ≤ (xs.length : Int) - 1 → bad rn (ofList none xs i) false = false := by
      intro hx i h1 h2
      have : ofList none xs i ≠ none := by
        intro h3
        refine hx ?_
        rw [← h3]
        unfold ofList
        rw [List.getD_eq_getElem?_getD, List.getElem?_eq_getElem (by omega)]
        exact List.getElem_mem _
      rw [bad, Bool.or_false]
      cases h3 : ofList none xs i with
      | none => exact absurd h3 this
      | some x => simp
    cases rn with
    | true => exact ⟨b, m', h, e, r1, r2, r3, fun _ hx => r4 (hnone hx)⟩
    | false =>
      have hx : none ∉ xs := by simpa [unmasked] using hrn
      obtain ⟨rfl, rfl⟩ := r4 (hnone hx)
      exact ⟨_, _, _, rfl, by omega, by omega, r3, fun _ _ => ⟨rfl, rfl⟩⟩

theorem countP_sum {β : Type} (p : β → Bool) (b : Int → β) (s : Finset Int) : Multiset.countP (fun x => p x = true) (∑ i ∈ s, ({b i} : Multiset β)) = (s.filter fun i => p (b i) = true).card := by
  classical
  rw [← Multiset.coe_countPAddMonoidHom, map_sum, Finset.card_filter]
  refine Finset.sum_congr rfl fun i _ => ?_
  rw [Multiset.coe_countPAddMonoidHom, Multiset.countP_eq_card_filter, Multiset.filter_singleton]
  split_ifs <;> rfl

/-- C130: the median. -/
theorem C130_median_partial (xs : List (Option α)) (rn : Bool) (mask : Option (List Bool)) (hm : ∀ m, mask = some m → m.length = xs.length)
    (hrn : rn = true ∨ none ∉ unmasked xs mask) :
    ∃ r, medianNocopy xs rn mask = .ok r ∧ (wanted xs mask = [] → r.1 = none) ∧ (wanted xs mask ≠ [] → ∃ v, r.1 = some v ∧ IsMedian (wanted xs mask) v) ∧
      r.2.length = xs.length ∧ (mask = none → none ∉ xs → r.2.Perm xs) := by
  obtain ⟨b, m, h, e, r1, r2, r3, r4⟩ := remaining_ok xs rn mask hm hrn
  obtain ⟨w, hw⟩ : ∃ w, w = wanted xs mask := ⟨_, rfl⟩
  rw [← hw] at r3 ⊢
  have hcard : (h + 1).toNat = w.length := by
    have := congrArg Multiset.card r3
    rw [Multiset.card_sum] at this
    simpa using this
  have hmem : ∀ i, 0 ≤ i → i ≤ h → b i ≠ none := by
    intro i h1 h2 h3
    have : b i ∈ ∑ i ∈ Finset.Icc 0 h, ({b i} : Multiset (Option α)) := by
      rw [Multiset.mem_sum]
      exact ⟨i, Finset.mem_Icc.2 ⟨h1, h2⟩, Multiset.mem_singleton_self _⟩
    rw [r3, Multiset.mem_coe, h3] at this
    simp at this
  have hperm : ∀ b', Shuf 0 h b b' → mask = none → none ∉ xs → (toList xs.length b').Perm xs := by
    intro b' hs h1 h2
    obtain ⟨e1, e2⟩ := r4 h1 h2
    rw [← Multiset.coe_eq_coe, toList_multiset, ← e2, hs.sum le_rfl le_rfl (fun x => ({x} : Multiset (Option α))), r3, Multiset.coe_eq_coe, hw, wanted, h1]
    rw [show unmasked xs none = xs from rfl]
    have : ∀ l : List (Option α), none ∉ l → (l.filterMap id).map some = l := by
      intro l
      induction l with
      | nil => intro _; rfl
      | cons x l ih =>
        intro hl
        cases x with
        | none => simp at hl
        | some x => simp at hl ⊢; exact ih hl
    rw [this xs h2]
  by_cases hneg : h < 0
  · have : w = [] := by
      apply List.eq_nil_of_length_eq_zero
      omega
    refine ⟨(none, toList xs.length b), ?_, fun _ => rfl, fun hne => absurd this hne, toList_length _ _, hperm b (.refl _ _ _)⟩
    unfold medianNocopy
    rw [e]
    dsimp only [bind, Except.bind]
    rw [if_pos hneg]
    rfl
  · have himed : (0 + h).tdiv 2 = h / 2 := by rw [zero_add, Int.tdiv_eq_ediv_of_nonneg (by omega)]
    obtain ⟨imed, hi⟩ : ∃ imed, imed = h / 2 := ⟨_, rfl⟩
    obtain ⟨b', e', hs, s1, s2⟩ := select_ok (n := xs.length) (H := h) (imed := imed) r2 ⟨by omega, by omega⟩ (xs.length + 1) b 0 h hmem le_rfl le_rfl
      (fun i j _ _ _ _ => by omega) (fun i j _ _ _ _ => by omega) (.inl ⟨by omega, by omega⟩) (by omega)
    refine ⟨(b' imed, toList xs.length b'), ?_, fun hnil => ?_, fun _ => ?_, toList_length _ _, hperm b' hs⟩
    · unfold medianNocopy
      rw [e]
      dsimp only [bind, Except.bind]
      rw [if_neg hneg, himed, ← hi, e']
      rfl
    · rw [hnil] at hcard
      simp at hcard
      omega
    · have hsum : ∑ i ∈ Finset.Icc 0 h, ({b' i} : Multiset (Option α)) = ((w.map some : List (Option α)) : Multiset (Option α)) := by
        rw [hs.sum le_rfl le_rfl (fun x => ({x} : Multiset (Option α))), r3]
      obtain ⟨v, hv⟩ : ∃ v, b' imed = some v := by
        obtain ⟨j, j1, j2, ej⟩ := hs.inside (i := imed) ⟨by omega, by omega⟩
        exact Option.ne_none_iff_exists'.1 (by rw [ej]; exact hmem j j1 j2)
      have hcount : ∀ p : α → Bool, w.countP p = ((Finset.Icc 0 h).filter fun i => (b' i).any p = true).card := by
        intro p
        rw [← countP_sum (fun o : Option α => o.any p), hsum, Multiset.coe_countP, List.countP_map]
        congr 1
        funext x
        simp
      refine ⟨v, hv, ?_, ?_, ?_⟩
      · have : b' imed ∈ ((w.map some : List (Option α)) : Multiset (Option α)) := by
          rw [← hsum, Multiset.mem_sum]
          exact ⟨imed, Finset.mem_Icc.2 ⟨by omega, by omega⟩, Multiset.mem_singleton_self _⟩
        rw [Multiset.mem_coe, hv] at this
        simpa using this
      · rw [hcount]
        have : ((Finset.Icc 0 h).filter fun i => (b' i).any (fun x => decide (x < v)) = true) ⊆ Finset.Icc 0 (imed - 1) := by
          intro i hi'
          rw [Finset.mem_filter, Finset.mem_Icc] at hi'
          rw [Finset.mem_Icc]
          refine ⟨hi'.1.1, ?_⟩
          by_contra hc
          obtain ⟨x, hx, hlt⟩ := (Option.any_eq_true _ _).1 hi'.2
          have hlt : x < v := by simpa using hlt
          by_cases hieq : i = imed
          · rw [hieq, hv] at hx
            cases hx
            exact lt_irrefl _ hlt
          · have := s2 imed i (by omega) (by omega) (by omega) hi'.1.2
            rw [hv, hx] at this
            simp [leN] at this
            exact absurd hlt (not_lt.2 this)
        have := Finset.card_le_card this
        rw [Int.card_Icc] at this
        omega
      · rw [hcount]
        have : ((Finset.Icc 0 h).filter fun i => (b' i).any (fun x => decide (v < x)) = true) ⊆ Finset.Icc (imed + 1) h := by
          intro i hi'
          rw [Finset.mem_filter, Finset.mem_Icc] at hi'
          rw [Finset.mem_Icc]
          refine ⟨?_, hi'.1.2⟩
          by_contra hc
          obtain ⟨x, hx, hlt⟩ := (Option.any_eq_true _ _).1 hi'.2
          have hlt : v < x := by simpa using hlt
          by_cases hieq : i = imed
          · rw [hieq, hv] at hx
            cases hx
            exact lt_irrefl _ hlt
          · have := s1 i imed hi'.1.1 (by omega) le_rfl (by omega)
            rw [hv, hx] at this
            simp [leN] at this
            exact absurd hlt (not_lt.2 this)
        have := Finset.card_le_card this
        rw [Int.card_Icc] at this
        omega

end Verif.Stat
