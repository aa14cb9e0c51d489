import Verif.Geometry.PropsShapes
import Mathlib.MeasureTheory.Integral.IntervalIntegral.Basic
import Mathlib.Analysis.SpecialFunctions.Integrals.Basic

/-! The contribution of an edge to a pixel is the integral of the edge clamped to the pixel. -/
namespace Verif.Geometry
open Verif.Py MeasureTheory intervalIntegral

/-- A number brought back to [0, 1]. -/
noncomputable def clamp (y : ℝ) : ℝ := max 0 (min 1 y)

/-- The ordinate at `x` of the line through `p` and `q`. -/
noncomputable def lineAt (p q : ℝ × ℝ) (x : ℝ) : ℝ := p.2 + (q.2 - p.2) / (q.1 - p.1) * (x - p.1)

theorem clamp_of_nonpos {y : ℝ} (h : y ≤ 0) : clamp y = 0 := by
  unfold clamp; rw [min_eq_right (by linarith), max_eq_left h]

theorem clamp_of_ge {y : ℝ} (h : 1 ≤ y) : clamp y = 1 := by
  unfold clamp; rw [min_eq_left h, max_eq_right (by norm_num)]

theorem clamp_of_mem {y : ℝ} (h0 : 0 ≤ y) (h1 : y ≤ 1) : clamp y = y := by
  unfold clamp; rw [min_eq_right h1, max_eq_right h0]

theorem clamp_nonneg (y : ℝ) : 0 ≤ clamp y := le_max_left _ _

theorem clamp_le (y : ℝ) : clamp y ≤ 1 := max_le zero_le_one (min_le_left _ _)

theorem continuous_clamp : Continuous clamp := by unfold clamp; fun_prop

theorem clamp_mono {x y : ℝ} (h : x ≤ y) : clamp x ≤ clamp y :=
  max_le_max (le_refl _) (min_le_min (le_refl _) h)

theorem ii (a b p q : ℝ) : IntervalIntegrable (fun x => clamp (a * x + b)) volume p q :=
  (continuous_clamp.comp (by fun_prop)).intervalIntegrable p q

/-- Between two abscissae, an affine function lies between its values. -/
theorem affine_le {a b p q x c : ℝ} (hx : x ∈ Set.uIcc p q) (h1 : a * p + b ≤ c) (h2 : a * q + b ≤ c) : a * x + b ≤ c := by
  rw [Set.mem_uIcc] at hx
  rcases le_total 0 a with ha | ha <;> rcases hx with ⟨hx1, hx2⟩ | ⟨hx1, hx2⟩ <;> nlinarith

theorem le_affine {a b p q x c : ℝ} (hx : x ∈ Set.uIcc p q) (h1 : c ≤ a * p + b) (h2 : c ≤ a * q + b) : c ≤ a * x + b := by
  rw [Set.mem_uIcc] at hx
  rcases le_total 0 a with ha | ha <;> rcases hx with ⟨hx1, hx2⟩ | ⟨hx1, hx2⟩ <;> nlinarith

theorem int_below {a b p q : ℝ} (h1 : a * p + b ≤ 0) (h2 : a * q + b ≤ 0) : ∫ x in p..q, clamp (a * x + b) = 0 := by
  rw [integral_congr (g := fun _ => (0 : ℝ)) (fun x hx => clamp_of_nonpos (affine_le hx h1 h2))]
  simp

theorem int_above {a b p q : ℝ} (h1 : 1 ≤ a * p + b) (h2 : 1 ≤ a * q + b) : ∫ x in p..q, clamp (a * x + b) = q - p := by
  rw [integral_congr (g := fun _ => (1 : ℝ)) (fun x hx => clamp_of_ge (le_affine hx h1 h2))]
  simp

theorem int_affine (a b p q : ℝ) : ∫ x in p..q, (a * x + b) = 1 / 2 * (q - p) * ((a * p + b) + (a * q + b)) := by
  rw [intervalIntegral.integral_add (Continuous.intervalIntegrable (by fun_prop) _ _) (Continuous.intervalIntegrable (by fun_prop) _ _),
    intervalIntegral.integral_const_mul, integral_id, intervalIntegral.integral_const, smul_eq_mul]
  ring

theorem int_inside {a b p q : ℝ} (h1 : 0 ≤ a * p + b) (h2 : 0 ≤ a * q + b) (h3 : a * p + b ≤ 1) (h4 : a * q + b ≤ 1) :
    ∫ x in p..q, clamp (a * x + b) = 1 / 2 * (q - p) * ((a * p + b) + (a * q + b)) := by
  rw [integral_congr (g := fun x => a * x + b) (fun x hx => clamp_of_mem (le_affine hx h1 h2) (affine_le hx h3 h4))]
  exact int_affine a b p q

/-- The part of the computation after the bounds are adjusted to the x-axis. -/
theorem int_upper {a b u1 u2 : ℝ} (out : ℝ) (h1 : 0 ≤ a * u1 + b) (h2 : 0 ≤ a * u2 + b) :
    (if a * u1 + b ≥ 1 ∧ a * u2 + b ≥ 1 then out + u2 - u1
      else if a * u1 + b > 1 then (out + (1 - b) / a - u1) + 1 / 2 * (u2 - (1 - b) / a) * (1 + (a * u2 + b))
      else if a * u2 + b > 1 then (out + u2 - (1 - b) / a) + 1 / 2 * ((1 - b) / a - u1) * ((a * u1 + b) + 1)
      else out + 1 / 2 * (u2 - u1) * ((a * u1 + b) + (a * u2 + b)))
      = out + ∫ x in u1..u2, clamp (a * x + b) := by
  split
  · rename_i h
    rw [int_above h.1 h.2]; ring
  rename_i hnot
  push Not at hnot
  split
  · rename_i h
    have h' := hnot h.le
    have ha : a ≠ 0 := by rintro rfl; linarith
    have ht : a * ((1 - b) / a) + b = 1 := by field_simp; ring
    rw [← integral_add_adjacent_intervals (ii a b u1 ((1 - b) / a)) (ii a b ((1 - b) / a) u2),
      int_above h.le (by rw [ht]), int_inside (by rw [ht]; norm_num) h2 (by rw [ht]) h'.le, ht]
    ring
  rename_i h3
  push Not at h3
  split
  · rename_i h
    have h' : a * u1 + b < 1 := by
      rcases lt_or_ge (a * u1 + b) 1 with h' | h'
      · exact h'
      · have := hnot h'; linarith
    have ha : a ≠ 0 := by rintro rfl; linarith
    have ht : a * ((1 - b) / a) + b = 1 := by field_simp; ring
    rw [← integral_add_adjacent_intervals (ii a b u1 ((1 - b) / a)) (ii a b ((1 - b) / a) u2),
      int_above (by rw [ht]) h.le, int_inside h1 (by rw [ht]; norm_num) h'.le (by rw [ht]), ht]
    ring
  rename_i h4
  push Not at h4
  rw [int_inside h1 h2 h3 h4]

theorem clipX_some {x1 x2 u1 u2 : ℝ} (h : clipX x1 x2 = some (u1, u2)) : u1 = clamp x1 ∧ u2 = clamp x2 ∧ x1 ≠ x2 := by
  unfold clipX at h
  split at h
  · exact absurd h (by simp)
  rename_i hne
  split at h
  · split at h
    · exact absurd h (by simp)
    rename_i hlt hn
    push Not at hn
    simp only [Option.some.injEq, Prod.mk.injEq] at h
    refine ⟨?_, ?_, hne⟩
    · rw [← h.1]; unfold clamp; rw [min_eq_right (by linarith [hn.1]), max_comm]
    · rw [← h.2]; unfold clamp; rw [min_comm, max_eq_right (le_min (by norm_num) hn.2.le)]
  · split at h
    · exact absurd h (by simp)
    rename_i hlt hn
    push Not at hn
    simp only [Option.some.injEq, Prod.mk.injEq] at h
    refine ⟨?_, ?_, hne⟩
    · rw [← h.1]; unfold clamp; rw [min_comm, max_eq_right (le_min (by norm_num) hn.2.le)]
    · rw [← h.2]; unfold clamp; rw [min_eq_right (by linarith [hn.1]), max_comm]

theorem clipX_none {x1 x2 : ℝ} (h : clipX x1 x2 = none) : clamp x1 = clamp x2 := by
  unfold clipX at h
  split at h
  · rename_i e; rw [e]
  split at h
  · split at h
    · rename_i hlt hn
      rcases hn with hn | hn
      · rw [clamp_of_ge hn, clamp_of_ge (by linarith)]
      · rw [clamp_of_nonpos hn, clamp_of_nonpos (by linarith)]
    · exact absurd h (by simp)
  · rename_i hne hlt
    split at h
    · rename_i hn
      have : x2 < x1 := lt_of_le_of_ne (not_lt.1 hlt) (Ne.symm hne)
      rcases hn with hn | hn
      · rw [clamp_of_ge hn, clamp_of_ge (by linarith)]
      · rw [clamp_of_nonpos hn, clamp_of_nonpos (by linarith)]
    · exact absurd h (by simp)

/-- `intersection_segment_unity_square` adds the signed integral, between the clamped abscissae, of the clamped ordinate of the edge. -/
theorem segment_integral (x1 y1 x2 y2 out : ℝ) :
    segmentUnitySquare x1 y1 x2 y2 out
      = out + ∫ x in (clamp x1)..(clamp x2), clamp (lineAt (x1, y1) (x2, y2) x) := by
  unfold segmentUnitySquare
  cases hc : clipX x1 x2 with
  | none => simp only; rw [clipX_none hc]; simp
  | some u =>
    obtain ⟨u1, u2⟩ := u
    obtain ⟨e1, e2, hne⟩ := clipX_some hc
    simp only
    rw [← e1, ← e2]
    have hline : (fun x => clamp (lineAt (x1, y1) (x2, y2) x))
        = fun x => clamp ((y2 - y1) / (x2 - x1) * x + (y1 - (y2 - y1) / (x2 - x1) * x1)) := by
      funext x; unfold lineAt; congr 1; simp only; ring
    rw [hline]
    generalize (y2 - y1) / (x2 - x1) = a
    generalize y1 - a * x1 = b
    split
    · rename_i h; rw [int_below h.1 h.2, add_zero]
    rename_i hnot
    push Not at hnot
    unfold cutBelow
    split
    · rename_i h
      have h' := hnot h.le
      have ha : a ≠ 0 := by rintro rfl; linarith
      have ht : a * (-b / a) + b = 0 := by field_simp; ring
      have := int_upper (a := a) (b := b) (u1 := -b / a) (u2 := u2) out (by rw [ht]) h'.le
      rw [ht] at this
      simp only
      rw [this, ← integral_add_adjacent_intervals (ii a b u1 (-b / a)) (ii a b (-b / a) u2), int_below h.le (by rw [ht]), zero_add]
    split
    · rename_i h0 h
      push Not at h0
      have ha : a ≠ 0 := by rintro rfl; linarith
      have ht : a * (-b / a) + b = 0 := by field_simp; ring
      have := int_upper (a := a) (b := b) (u1 := u1) (u2 := -b / a) out h0 (by rw [ht])
      rw [ht] at this
      simp only
      rw [this, ← integral_add_adjacent_intervals (ii a b u1 (-b / a)) (ii a b (-b / a) u2), int_below (by rw [ht]) h.le, add_zero]
    · rename_i h0 h
      push Not at h0 h
      exact int_upper out h0 h

/-- `intersection_polygon_unity_square` is the sum over the edges of these integrals. -/
theorem polygon_integral (vs : List (ℝ × ℝ)) :
    polygonUnitySquare vs
      = ((edges vs).map fun e => ∫ x in (clamp e.1.1)..(clamp e.2.1), clamp (lineAt e.1 e.2 x)).sum := by
  unfold polygonUnitySquare
  have : (fun (out : ℝ) (e : (ℝ × ℝ) × (ℝ × ℝ)) => segmentUnitySquare e.1.1 e.1.2 e.2.1 e.2.2 out)
      = fun out e => out + ∫ x in (clamp e.1.1)..(clamp e.2.1), clamp (lineAt e.1 e.2 x) := by
    funext out e; exact segment_integral _ _ _ _ _
  rw [this, foldl_add_eq, zero_add]

end Verif.Geometry
