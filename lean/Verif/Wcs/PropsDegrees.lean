import Verif.Wcs.Model
import Mathlib.Tactic.Ring
import Mathlib.Tactic.FieldSimp
import Mathlib.Tactic.Linarith
import Mathlib.Tactic.NormNum
import Mathlib.Tactic.Push
import Mathlib.Algebra.Order.Floor.Ring
import Mathlib.Algebra.BigOperators.Group.List.Basic
import Mathlib.Algebra.Order.BigOperators.Group.List

set_option linter.unusedSimpArgs false

/-!
The mean and the bounds of angles do not depend on their representation (C61), and the mean lies among the angles (C88).
-/
namespace Verif.Wcs
open Verif.Py

/-! ### Angles modulo 360 degrees -/

theorem modulo360_nonneg (x : ℝ) : 0 ≤ modulo360 x := by
  have := Int.floor_le (x / 360)
  unfold modulo360
  linarith

theorem modulo360_lt (x : ℝ) : modulo360 x < 360 := by
  have := Int.lt_floor_add_one (x / 360)
  unfold modulo360
  linarith

theorem modulo360_add_int (x : ℝ) (k : ℤ) : modulo360 (x + 360 * k) = modulo360 x := by
  unfold modulo360
  rw [show (x + 360 * (k : ℝ)) / 360 = x / 360 + k by ring, Int.floor_add_intCast]
  push_cast
  ring

theorem modulo360_spec (x : ℝ) : ∃ k : ℤ, x = modulo360 x + 360 * k := ⟨⌊x / 360⌋, by unfold modulo360; ring⟩

theorem modulo360_unique {x v : ℝ} {k : ℤ} (h : x = v + 360 * k) (h0 : 0 ≤ v) (h1 : v < 360) : modulo360 x = v := by
  rw [h, modulo360_add_int]
  unfold modulo360
  rw [Int.floor_eq_zero_iff.2 ⟨by positivity, by linarith⟩]
  simp

theorem modulo360_of_mem {v : ℝ} (h0 : 0 ≤ v) (h1 : v < 360) : modulo360 v = v :=
  modulo360_unique (k := 0) (by simp) h0 h1

/-! ### The mean -/

/-- The values accumulated by `mean_degrees`. -/
noncomputable def reduced (xs : List (Option ℝ)) : List ℝ := (xs.filterMap id).map modulo360

open Classical in
theorem foldl_meanStep (xs : List (Option ℝ)) (s : MeanState) :
    xs.foldl meanStep s =
      { mean := s.mean + (reduced xs).sum,
        zeroMinus := s.zeroMinus || (reduced xs).any fun v => decide (v > 270),
        zeroPlus := s.zeroPlus || (reduced xs).any fun v => decide (v ≤ 90),
        n180 := s.n180 + (reduced xs).countP fun v => decide (v ≥ 180),
        nvalids := s.nvalids + (reduced xs).length } := by
  induction xs generalizing s with
  | nil => simp [reduced]
  | cons x xs ih =>
    rw [List.foldl_cons, ih]
    cases x with
    | none => simp [meanStep, reduced]
    | some x =>
      have hr : reduced (some x :: xs) = modulo360 x :: reduced xs := by simp [reduced]
      rw [hr]
      simp only [meanStep, List.sum_cons, List.any_cons, List.countP_cons, List.length_cons, Bool.or_assoc, decide_eq_true_eq]
      congr 1
      · ring
      · split <;> omega
      · omega

open Classical in
/-- `mean_degrees` as a function of the reduced angles. -/
theorem meanDegrees_eq (xs : List (Option ℝ)) :
    meanDegrees xs = if reduced xs = [] then none else
      some (modulo360 (((reduced xs).sum - (if (∃ v ∈ reduced xs, v > 270) ∧ (∃ v ∈ reduced xs, v ≤ 90) then
        360 * ((reduced xs).countP fun v => decide (v ≥ 180) : ℝ) else 0)) / (reduced xs).length)) := by
  unfold meanDegrees meanEnd
  rw [foldl_meanStep]
  simp only [zero_add, Bool.false_or, Bool.and_eq_true, List.any_eq_true, decide_eq_true_eq, List.length_pos_iff]
  by_cases h : reduced xs = []
  · simp [h]
  · rw [if_pos h, if_neg h]
    split <;> simp

/-- Two representations of the same angle (a NaN is the same as a NaN). -/
def SameAngle : Option ℝ → Option ℝ → Prop
  | none, none => True
  | some x, some y => ∃ k : ℤ, y = x + 360 * k
  | _, _ => False

theorem reduced_same {xs ys : List (Option ℝ)} (h : List.Forall₂ SameAngle xs ys) : reduced xs = reduced ys := by
  induction h with
  | nil => rfl
  | @cons x y xs ys hxy _ ih =>
    unfold reduced at ih ⊢
    cases x <;> cases y <;> simp_all [SameAngle]
    obtain ⟨k, hk⟩ := hxy
    rw [hk, modulo360_add_int]

/-- C61: the mean is in [0, 360). -/
theorem C61_range {xs : List (Option ℝ)} {m : ℝ} (h : meanDegrees xs = some m) : 0 ≤ m ∧ m < 360 := by
  rw [meanDegrees_eq] at h
  split at h
  · exact absurd h (by simp)
  · simp only [Option.some.injEq] at h
    rw [← h]
    exact ⟨modulo360_nonneg _, modulo360_lt _⟩

/-- C61: the mean exists unless all the angles are NaN. -/
theorem C61_exists (xs : List (Option ℝ)) : (meanDegrees xs).isSome ↔ ∃ x : ℝ, some x ∈ xs := by
  rw [meanDegrees_eq]
  constructor
  · intro h
    split at h
    · exact absurd h (by simp)
    · rename_i hne
      obtain ⟨v, hv⟩ := List.exists_mem_of_ne_nil _ hne
      simp only [reduced, List.mem_map, List.mem_filterMap, id] at hv
      obtain ⟨x, ⟨o, ho, rfl⟩, -⟩ := hv
      exact ⟨x, ho⟩
  · rintro ⟨x, hx⟩
    rw [if_neg]
    · rfl
    · intro h
      have : modulo360 x ∈ reduced xs := List.mem_map.2 ⟨x, List.mem_filterMap.2 ⟨some x, hx, rfl⟩, rfl⟩
      rw [h] at this
      simp at this

/-- C61: adding turns to any of the angles does not change their mean. -/
theorem C61_turns {xs ys : List (Option ℝ)} (h : List.Forall₂ SameAngle xs ys) : meanDegrees xs = meanDegrees ys := by
  rw [meanDegrees_eq, meanDegrees_eq, reduced_same h]

/-- C61: the mean does not depend on the order of the angles. -/
theorem C61_perm {xs ys : List (Option ℝ)} (h : xs.Perm ys) : meanDegrees xs = meanDegrees ys := by
  have hr : (reduced xs).Perm (reduced ys) := (h.filterMap id).map _
  rw [meanDegrees_eq, meanDegrees_eq, hr.sum_eq, hr.length_eq, hr.countP_eq]
  have e1 : (reduced xs = []) ↔ (reduced ys = []) := ⟨fun h => by rw [h] at hr; exact List.nil_perm.1 hr,
    fun h => by rw [h] at hr; exact List.perm_nil.1 hr⟩
  simp only [hr.mem_iff, e1]

/-! ### The bounds -/

theorem nearest_spec (m x : ℝ) : ∃ k : ℤ, nearest m x = x + 360 * k := by
  obtain ⟨k, hk⟩ := modulo360_spec x
  unfold nearest
  dsimp only
  split <;> split
  · exact ⟨-k - 1, by push_cast; linarith⟩
  · exact ⟨-k, by push_cast; linarith⟩
  · exact ⟨-k + 1, by push_cast; linarith⟩
  · exact ⟨-k, by push_cast; linarith⟩

theorem nearest_bounds {m : ℝ} (h0 : 0 ≤ m) (h1 : m < 360) (x : ℝ) :
    m - 180 ≤ nearest m x ∧ nearest m x ≤ m + 180 ∧ (m < 180 → m - 180 < nearest m x) ∧ (180 ≤ m → nearest m x < m + 180) := by
  have a0 := modulo360_nonneg x
  have a1 := modulo360_lt x
  unfold nearest
  dsimp only
  set v := modulo360 x
  split
  · rename_i hv
    rw [abs_of_neg (show v - 360 - m < 0 by linarith), abs_of_pos (show 0 < v - m by linarith)]
    split <;> refine ⟨?_, ?_, ?_, ?_⟩ <;> intros <;> linarith
  · rename_i hv
    push Not at hv
    rw [abs_of_pos (show 0 < v + 360 - m by linarith), abs_of_nonpos (show v - m ≤ 0 by linarith)]
    split <;> refine ⟨?_, ?_, ?_, ?_⟩ <;> intros <;> linarith

/-- The representative within half a turn of the mean is the one that is used. -/
theorem nearest_eq {m : ℝ} (h0 : 0 ≤ m) (h1 : m < 360) {x v : ℝ} {k : ℤ} (h : v = x + 360 * k) (hv : |v - m| < 180) :
    nearest m x = v := by
  obtain ⟨b1, b2, -, -⟩ := nearest_bounds h0 h1 x
  obtain ⟨j, hj⟩ := nearest_spec m x
  rw [abs_lt] at hv
  have : ((j - k : ℤ) : ℝ) * 360 = nearest m x - v := by push_cast; rw [hj, h]; ring
  have hlt : |((j - k : ℤ) : ℝ)| < 1 := by
    rw [abs_lt]
    constructor <;> nlinarith
  have : j - k = 0 := by
    rw [← Int.cast_abs] at hlt
    have : |j - k| < 1 := by exact_mod_cast hlt
    rwa [Int.abs_lt_one_iff] at this
  rw [hj, h, show j = k by omega]

/-- The bounds of the values seen by the loop. -/
theorem foldl_minmax (m : ℝ) (xs : List (Option ℝ)) (s : Option ℝ × Option ℝ) (hs : s.1.isSome = s.2.isSome) :
    let r := xs.foldl (fun (s : Option ℝ × Option ℝ) x =>
      match x with
      | none => s
      | some x =>
        let val := nearest m x
        (some (match s.1 with | none => val | some m => min m val),
         some (match s.2 with | none => val | some m => max m val))) s
    let l := s.1.toList ++ (xs.filterMap id).map (nearest m)
    let u := s.2.toList ++ (xs.filterMap id).map (nearest m)
    r.1.isSome = r.2.isSome ∧ (r.1.isSome = !l.isEmpty) ∧
    (∀ lo, r.1 = some lo → lo ∈ l ∧ ∀ v ∈ l, lo ≤ v) ∧ (∀ hi, r.2 = some hi → hi ∈ u ∧ ∀ v ∈ u, v ≤ hi) := by
  induction xs generalizing s with
  | nil =>
    obtain ⟨s1, s2⟩ := s
    cases s1 <;> cases s2 <;> simp_all
  | cons x xs ih =>
    cases x with
    | none => simpa using ih s hs
    | some x =>
      simp only [List.foldl_cons, List.filterMap_cons_some (f := id) (b := x) rfl, List.map_cons]
      have := ih (some (match s.1 with | none => nearest m x | some m' => min m' (nearest m x)),
        some (match s.2 with | none => nearest m x | some m' => max m' (nearest m x))) rfl
      dsimp only at this ⊢
      obtain ⟨c1, c2, c3, c4⟩ := this
      refine ⟨c1, ?_, ?_, ?_⟩
      · rw [c2]
        simp
      · intro lo hlo
        obtain ⟨d1, d2⟩ := c3 lo hlo
        obtain ⟨s1, s2⟩ := s
        cases s1 with
        | none => exact ⟨d1, d2⟩
        | some a =>
          simp only [Option.toList_some, List.cons_append, List.nil_append, List.mem_cons] at d1 d2 ⊢
          constructor
          · rcases d1 with d1 | d1
            · rcases min_choice a (nearest m x) with h | h <;> simp [d1, h]
            · exact Or.inr (Or.inr d1)
          · have := d2 _ (Or.inl rfl)
            rintro v (rfl | rfl | hv)
            · exact this.trans (min_le_left _ _)
            · exact this.trans (min_le_right _ _)
            · exact d2 v (Or.inr hv)
      · intro hi hhi
        obtain ⟨d1, d2⟩ := c4 hi hhi
        obtain ⟨s1, s2⟩ := s
        cases s2 with
        | none => exact ⟨d1, d2⟩
        | some a =>
          simp only [Option.toList_some, List.cons_append, List.nil_append, List.mem_cons] at d1 d2 ⊢
          constructor
          · rcases d1 with d1 | d1
            · rcases max_choice a (nearest m x) with h | h <;> simp [d1, h]
            · exact Or.inr (Or.inr d1)
          · have := d2 _ (Or.inl rfl)
            rintro v (rfl | rfl | hv)
            · exact (le_max_left _ _).trans this
            · exact (le_max_right _ _).trans this
            · exact d2 v (Or.inr hv)

/-- The bounds before their reduction modulo 360. -/
theorem minmax_spec {xs : List (Option ℝ)} {m : ℝ} (hm : meanDegrees xs = some m) :
    ∃ lo hi, minmaxDegrees xs = some (modulo360 lo, modulo360 hi) ∧ (∃ x, some x ∈ xs ∧ lo = nearest m x) ∧
      (∃ x, some x ∈ xs ∧ hi = nearest m x) ∧ ∀ x, some x ∈ xs → lo ≤ nearest m x ∧ nearest m x ≤ hi := by
  obtain ⟨x0, hx0⟩ := (C61_exists xs).1 (by rw [hm]; rfl)
  have hmem : ∀ x, some x ∈ xs ↔ x ∈ xs.filterMap id := fun x => by simp
  obtain ⟨c1, c2, c3, c4⟩ := foldl_minmax m xs (none, none) rfl
  have hne : (xs.filterMap id).map (nearest m) ≠ [] := by
    intro h
    have := (hmem x0).1 hx0
    rw [List.map_eq_nil_iff.1 h] at this
    simp at this
  simp only [Option.toList_none, List.nil_append] at c2 c3 c4
  unfold minmaxDegrees
  rw [hm]
  dsimp only at c1 c2 c3 c4 ⊢
  generalize List.foldl _ _ xs = r at *
  obtain ⟨r1, r2⟩ := r
  cases r1 with
  | none => exact absurd (List.isEmpty_iff.1 (by simpa using c2.symm)) hne
  | some lo =>
    cases r2 with
    | none => simp at c1
    | some hi =>
      obtain ⟨d1, d2⟩ := c3 lo rfl
      obtain ⟨e1, e2⟩ := c4 hi rfl
      refine ⟨lo, hi, rfl, ?_, ?_, ?_⟩
      · obtain ⟨x, hx, rfl⟩ := List.mem_map.1 d1
        exact ⟨x, (hmem x).2 hx, rfl⟩
      · obtain ⟨x, hx, rfl⟩ := List.mem_map.1 e1
        exact ⟨x, (hmem x).2 hx, rfl⟩
      · intro x hx
        have := List.mem_map_of_mem (f := nearest m) ((hmem x).1 hx)
        exact ⟨d2 _ this, e2 _ this⟩

/-- C61: the bounds exist unless all the angles are NaN; each is one of the angles, and all the angles are on the arc that goes from the
first one to the second one. -/
theorem C61_minmax {xs : List (Option ℝ)} (hne : ∃ x : ℝ, some x ∈ xs) :
    ∃ lo hi, minmaxDegrees xs = some (lo, hi) ∧ (∃ x, some x ∈ xs ∧ lo = modulo360 x) ∧ (∃ x, some x ∈ xs ∧ hi = modulo360 x) ∧
      ∀ x, some x ∈ xs → modulo360 (x - lo) ≤ modulo360 (hi - lo) := by
  obtain ⟨m, hm⟩ := Option.isSome_iff_exists.1 ((C61_exists xs).2 hne)
  obtain ⟨h0, h1⟩ := C61_range hm
  obtain ⟨lo, hi, he, ⟨xl, hxl, rfl⟩, ⟨xh, hxh, rfl⟩, hall⟩ := minmax_spec hm
  have hred : ∀ x, modulo360 (nearest m x) = modulo360 x := fun x => by
    obtain ⟨k, hk⟩ := nearest_spec m x
    rw [hk, modulo360_add_int]
  refine ⟨_, _, he, ⟨xl, hxl, hred xl⟩, ⟨xh, hxh, hred xh⟩, ?_⟩
  intro x hx
  obtain ⟨kl, hkl⟩ := modulo360_spec (nearest m xl)
  obtain ⟨kh, hkh⟩ := modulo360_spec (nearest m xh)
  obtain ⟨k, hk⟩ := nearest_spec m x
  obtain ⟨a1, a2⟩ := hall x hx
  obtain ⟨l1, l2, l3, l4⟩ := nearest_bounds h0 h1 xl
  obtain ⟨u1, u2, u3, u4⟩ := nearest_bounds h0 h1 xh
  have hspread : nearest m xh - nearest m xl < 360 := by
    rcases lt_or_ge m 180 with h | h
    · have := l3 h
      linarith
    · have := u4 h
      linarith
  rw [modulo360_unique (x := x - modulo360 (nearest m xl)) (v := nearest m x - nearest m xl) (k := kl - k)
      (by push_cast; linarith) (by linarith) (by linarith),
    modulo360_unique (x := modulo360 (nearest m xh) - modulo360 (nearest m xl)) (v := nearest m xh - nearest m xl) (k := kl - kh)
      (by push_cast; linarith) (by linarith) hspread]
  linarith

/-- C61: without valid angle there are no bounds. -/
theorem C61_minmax_none {xs : List (Option ℝ)} (h : ∀ x : ℝ, some x ∉ xs) : minmaxDegrees xs = none := by
  unfold minmaxDegrees
  have : meanDegrees xs = none := by
    rw [← Option.not_isSome_iff_eq_none, C61_exists]
    rintro ⟨x, hx⟩
    exact h x hx
  rw [this]

/-! ### The mean of angles that are close -/

theorem sum_map_add (c : ℝ) (ds : List ℝ) : (ds.map fun d => c + d).sum = ds.length * c + ds.sum := by
  induction ds with
  | nil => simp
  | cons d ds ih =>
    simp only [List.map_cons, List.sum_cons, ih, List.length_cons]
    push_cast
    ring

open Classical in
theorem sum_sub_count (b : ℝ) (ds : List ℝ) (f : ℝ → ℝ)
    (h : ∀ d ∈ ds, (f d = b + d ∧ 180 ≤ f d) ∨ (f d = b - 360 + d ∧ f d < 180)) :
    (ds.map f).sum - 360 * ((ds.map f).countP fun v => decide (v ≥ 180) : ℝ) = (ds.map fun d => b - 360 + d).sum := by
  induction ds with
  | nil => simp
  | cons d ds ih =>
    have ih := ih fun d hd => h d (List.mem_cons_of_mem _ hd)
    simp only [List.map_cons, List.sum_cons, List.countP_cons, decide_eq_true_eq]
    rcases h d List.mem_cons_self with ⟨h1, h2⟩ | ⟨h1, h2⟩
    · rw [if_pos h2]
      push_cast
      linarith
    · rw [if_neg (not_le.2 h2)]
      push_cast
      linarith

/-- C88: the mean of angles that lie on an arc shorter than a quarter of a turn is the angle at the mean position on the arc. -/
theorem C88_mean_partial (a : ℝ) {ds : List ℝ} (hne : ds ≠ []) (hd : ∀ d ∈ ds, 0 ≤ d ∧ d < 90) :
    meanDegrees (ds.map fun d => some (a + d)) = some (modulo360 (a + ds.sum / ds.length)) := by
  classical
  have hn : (0 : ℝ) < ds.length := by exact_mod_cast List.length_pos_iff.2 hne
  obtain ⟨k, hk⟩ := modulo360_spec a
  set b := modulo360 a with hb
  have hb0 : 0 ≤ b := modulo360_nonneg a
  have hb1 : b < 360 := modulo360_lt a
  have hred : reduced (ds.map fun d => some (a + d)) = ds.map fun d => modulo360 (a + d) := by
    unfold reduced
    rw [List.filterMap_map, show (id ∘ fun d => some (a + d)) = fun d => some (a + d) from rfl]
    rw [show (fun d : ℝ => some (a + d)) = some ∘ fun d => a + d from rfl, List.filterMap_eq_map, List.map_map]
    rfl
  have hval1 : ∀ d ∈ ds, b + d < 360 → modulo360 (a + d) = b + d := fun d hdm h =>
    modulo360_unique (k := k) (by linarith) (by linarith [(hd d hdm).1]) h
  have hval2 : ∀ d ∈ ds, 360 ≤ b + d → modulo360 (a + d) = b - 360 + d := fun d hdm h =>
    modulo360_unique (k := k + 1) (by push_cast; linarith) (by linarith) (by linarith [(hd d hdm).2])
  -- it suffices to find the sum up to a number of turns for each angle
  have finish : ∀ (S : ℝ) (c : ℝ) (j : ℤ), c = a + 360 * j → S = (ds.map fun d => c + d).sum →
      some (modulo360 (S / ds.length)) = some (modulo360 (a + ds.sum / ds.length)) := by
    intro S c j hc hS
    rw [hS, sum_map_add, hc, show (ds.length * (a + 360 * (j : ℝ)) + ds.sum) / ds.length = a + ds.sum / ds.length + 360 * j by
      field_simp
      ring, modulo360_add_int]
  rw [meanDegrees_eq, hred, if_neg (by simpa using hne), List.length_map]
  by_cases hA : ∀ d ∈ ds, b + d < 360
  · have hm : ds.map (fun d => modulo360 (a + d)) = ds.map fun d => b + d :=
      List.map_congr_left fun d hdm => hval1 d hdm (hA d hdm)
    rw [hm, if_neg, sub_zero]
    · exact finish _ b (-k) (by push_cast; linarith) rfl
    · rintro ⟨⟨v, hv, hv1⟩, ⟨w, hw, hw1⟩⟩
      obtain ⟨d, hdm, rfl⟩ := List.mem_map.1 hv
      obtain ⟨d', hdm', rfl⟩ := List.mem_map.1 hw
      linarith [(hd d hdm).2, (hd d' hdm').1]
  · push Not at hA
    obtain ⟨d0, hd0, hA⟩ := hA
    have hb2 : 270 < b := by linarith [(hd d0 hd0).2]
    by_cases hB : ∃ d ∈ ds, b + d < 360
    · obtain ⟨d1, hd1, hB⟩ := hB
      rw [if_pos]
      · refine finish _ (b - 360) (-k - 1) (by push_cast; linarith) (sum_sub_count b ds _ ?_)
        intro d hdm
        rcases lt_or_ge (b + d) 360 with h | h
        · exact Or.inl ⟨hval1 d hdm h, by rw [hval1 d hdm h]; linarith [(hd d hdm).1]⟩
        · exact Or.inr ⟨hval2 d hdm h, by rw [hval2 d hdm h]; linarith [(hd d hdm).2]⟩
      · exact ⟨⟨_, List.mem_map.2 ⟨d1, hd1, rfl⟩, by rw [hval1 d1 hd1 hB]; linarith [(hd d1 hd1).1]⟩,
          ⟨_, List.mem_map.2 ⟨d0, hd0, rfl⟩, by rw [hval2 d0 hd0 hA]; linarith [(hd d0 hd0).2]⟩⟩
    · push Not at hB
      have hm : ds.map (fun d => modulo360 (a + d)) = ds.map fun d => b - 360 + d :=
        List.map_congr_left fun d hdm => hval2 d hdm (hB d hdm)
      rw [hm, if_neg, sub_zero]
      · exact finish _ (b - 360) (-k - 1) (by push_cast; linarith) rfl
      · rintro ⟨⟨v, hv, hv1⟩, -⟩
        obtain ⟨d, hdm, rfl⟩ := List.mem_map.1 hv
        linarith [(hd d hdm).2]

theorem sum_bounds {ds : List ℝ} (hne : ds ≠ []) {lo hi : ℝ} (hd : ∀ d ∈ ds, lo ≤ d ∧ d ≤ hi) :
    lo ≤ ds.sum / ds.length ∧ ds.sum / ds.length ≤ hi := by
  have hn : (0 : ℝ) < ds.length := by exact_mod_cast List.length_pos_iff.2 hne
  rw [le_div_iff₀ hn, div_le_iff₀ hn]
  clear hn hne
  induction ds with
  | nil => simp
  | cons d ds ih =>
    obtain ⟨i1, i2⟩ := ih fun d hd' => hd d (List.mem_cons_of_mem _ hd')
    obtain ⟨h1, h2⟩ := hd d List.mem_cons_self
    simp only [List.sum_cons, List.length_cons]
    push_cast
    constructor <;> linarith

/-- C88: the bounds of angles that lie on an arc shorter than a quarter of a turn are the ends of the smallest such arc. -/
theorem C88_minmax_partial (a : ℝ) {ds : List ℝ} {lo hi : ℝ} (hlo : lo ∈ ds) (hhi : hi ∈ ds) (hd : ∀ d ∈ ds, lo ≤ d ∧ d ≤ hi)
    (h0 : 0 ≤ lo) (h90 : hi < 90) :
    minmaxDegrees (ds.map fun d => some (a + d)) = some (modulo360 (a + lo), modulo360 (a + hi)) := by
  have hne : ds ≠ [] := List.ne_nil_of_mem hlo
  have hm := C88_mean_partial a hne fun d hdm => ⟨h0.trans (hd d hdm).1, (hd d hdm).2.trans_lt h90⟩
  obtain ⟨b1, b2⟩ := sum_bounds hne hd
  set avg := ds.sum / ds.length
  set m := modulo360 (a + avg) with hmdef
  obtain ⟨k, hk⟩ := modulo360_spec (a + avg)
  rw [← hmdef] at hk
  have hnear : ∀ d ∈ ds, nearest m (a + d) = a + d + 360 * ((-k : ℤ) : ℝ) := by
    intro d hdm
    apply nearest_eq (modulo360_nonneg _) (modulo360_lt _) (k := -k) rfl
    rw [abs_lt]
    push_cast
    obtain ⟨d1, d2⟩ := hd d hdm
    constructor <;> linarith
  have hmem : ∀ x, some x ∈ (ds.map fun d => some (a + d)) ↔ ∃ d ∈ ds, x = a + d := by
    intro x
    simp only [List.mem_map, Option.some.injEq]
    exact ⟨fun ⟨d, h, e⟩ => ⟨d, h, e.symm⟩, fun ⟨d, h, e⟩ => ⟨d, h, e.symm⟩⟩
  obtain ⟨l, u, he, ⟨xl, hxl, hl⟩, ⟨xu, hxu, hu⟩, hall⟩ := minmax_spec hm
  obtain ⟨dl, hdl, rfl⟩ := (hmem xl).1 hxl
  obtain ⟨du, hdu, rfl⟩ := (hmem xu).1 hxu
  rw [hnear dl hdl] at hl
  rw [hnear du hdu] at hu
  have a1 := (hall _ ((hmem _).2 ⟨lo, hlo, rfl⟩)).1
  have a2 := (hall _ ((hmem _).2 ⟨hi, hhi, rfl⟩)).2
  rw [hnear lo hlo] at a1
  rw [hnear hi hhi] at a2
  have el : l = a + lo + 360 * ((-k : ℤ) : ℝ) := by linarith [(hd dl hdl).1]
  have eu : u = a + hi + 360 * ((-k : ℤ) : ℝ) := by linarith [(hd du hdu).2]
  rw [he, el, eu, modulo360_add_int, modulo360_add_int]

/-- C88 does not hold for longer arcs: the mean of 270 degrees and 0 degree, a quarter of a turn apart, is opposite to them. -/
theorem C88_violation : meanDegrees [some 270, some 0] = some 135 := by
  classical
  rw [meanDegrees_eq]
  have h : reduced [some 270, some 0] = [270, 0] := by
    have e1 : modulo360 270 = 270 := modulo360_of_mem (by norm_num) (by norm_num)
    have e2 : modulo360 0 = 0 := modulo360_of_mem (by norm_num) (by norm_num)
    simp [reduced, e1, e2]
  rw [h]
  norm_num
  exact ⟨by simp, modulo360_of_mem (v := 135) (by norm_num) (by norm_num)⟩

example : meanDegrees [some 350, none, some 20] = some 5 := by
  have := C88_mean_partial 350 (ds := [0, 30]) (by simp) (by norm_num)
  have e1 : meanDegrees [some 350, none, some 20] = meanDegrees [none, some 350, some 20] :=
    C61_perm (List.Perm.swap _ _ _)
  have e2 : meanDegrees [none, some 350, some 20] = meanDegrees [some 350, some 20] := rfl
  have e3 : meanDegrees [some 350, some 20] = meanDegrees [some (350 + 0), some (350 + 30)] :=
    C61_turns (.cons ⟨0, by norm_num⟩ (.cons ⟨1, by norm_num⟩ .nil))
  rw [e1, e2, e3]
  simp only [List.map_cons, List.map_nil] at this
  rw [this]
  congr 1
  exact modulo360_unique (k := 1) (by norm_num) (by norm_num) (by norm_num)

example : minmaxDegrees [some 350, some 380] = some (350, 20) := by
  have := C88_minmax_partial 350 (ds := [0, 30]) (lo := 0) (hi := 30) (by simp) (by simp) (by norm_num) (by norm_num) (by norm_num)
  simp only [List.map_cons, List.map_nil, add_zero] at this
  norm_num at this
  rw [this]
  rw [modulo360_of_mem (by norm_num) (by norm_num), modulo360_unique (k := 1) (v := 20) (by norm_num) (by norm_num) (by norm_num)]

end Verif.Wcs
