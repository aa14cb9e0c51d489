import Verif.Wcs.PropsScale
import Verif.Wcs.PropsDegrees
import Mathlib.Analysis.InnerProductSpace.PiL2
import Mathlib.Geometry.Euclidean.Angle.Unoriented.TriangleInequality

set_option linter.unusedSimpArgs false

/-!
Positions on the sphere: the angular distance of `angle_lonlat` (C89) and the barycenter of `barycenter_lonlat` (C90).
-/
namespace Verif.Wcs
open Verif.Py

/-- The unit vector of a longitude and a latitude in degrees. -/
noncomputable def direction (lon lat : ℝ) : EuclideanSpace ℝ (Fin 3) :=
  !₂[Real.cos (lat * (Real.pi / 180)) * Real.cos (lon * (Real.pi / 180)),
     Real.cos (lat * (Real.pi / 180)) * Real.sin (lon * (Real.pi / 180)), Real.sin (lat * (Real.pi / 180))]

theorem norm_direction (lon lat : ℝ) : ‖direction lon lat‖ = 1 := by
  rw [EuclideanSpace.norm_eq, Fin.sum_univ_three]
  simp only [direction, Real.norm_eq_abs, sq_abs, PiLp.toLp_apply, Matrix.cons_val]
  set a := lat * (Real.pi / 180)
  set b := lon * (Real.pi / 180)
  rw [show (Real.cos a * Real.cos b) ^ 2 + (Real.cos a * Real.sin b) ^ 2 + Real.sin a ^ 2 = 1 by
    linear_combination (Real.cos a) ^ 2 * Real.cos_sq_add_sin_sq b + Real.cos_sq_add_sin_sq a, Real.sqrt_one]

theorem inner_direction (lon1 lat1 lon2 lat2 : ℝ) : inner ℝ (direction lon1 lat1) (direction lon2 lat2) =
    Real.cos (deg2rad lat1) * Real.cos (deg2rad lat2) * Real.cos (deg2rad (lon2 - lon1))
      + Real.sin (deg2rad lat1) * Real.sin (deg2rad lat2) := by
  simp only [PiLp.inner_apply, Fin.sum_univ_three, direction, PiLp.toLp_apply, Matrix.cons_val, RCLike.inner_apply, conj_trivial]
  rw [show deg2rad (lon2 - lon1) = lon2 * (Real.pi / 180) - lon1 * (Real.pi / 180) by unfold deg2rad; ring, Real.cos_sub]
  unfold deg2rad
  ring

/-- C89: the value of `angle_lonlat` is the angle between the two directions, in degrees. -/
theorem C89_angle (lon1 lat1 lon2 lat2 : ℝ) :
    angleOne lon1 lat1 lon2 lat2 = InnerProductGeometry.angle (direction lon1 lat1) (direction lon2 lat2) * (180 / Real.pi) := by
  unfold angleOne InnerProductGeometry.angle rad2deg
  rw [norm_direction, norm_direction, mul_one, div_one, inner_direction]

/-- C89: the angular distance is between 0 and 180 degrees and symmetric, it is zero for two representations of the same direction only,
and satisfies the triangle inequality. -/
theorem C89_metric (lon1 lat1 lon2 lat2 lon3 lat3 : ℝ) :
    0 ≤ angleOne lon1 lat1 lon2 lat2 ∧ angleOne lon1 lat1 lon2 lat2 ≤ 180 ∧
    angleOne lon1 lat1 lon2 lat2 = angleOne lon2 lat2 lon1 lat1 ∧
    (angleOne lon1 lat1 lon2 lat2 = 0 ↔ direction lon1 lat1 = direction lon2 lat2) ∧
    angleOne lon1 lat1 lon3 lat3 ≤ angleOne lon1 lat1 lon2 lat2 + angleOne lon2 lat2 lon3 lat3 := by
  have hpi := Real.pi_pos
  have hc : 0 < 180 / Real.pi := by positivity
  simp only [C89_angle]
  refine ⟨mul_nonneg (InnerProductGeometry.angle_nonneg _ _) hc.le, ?_, by rw [InnerProductGeometry.angle_comm], ?_, ?_⟩
  · have := InnerProductGeometry.angle_le_pi (direction lon1 lat1) (direction lon2 lat2)
    calc _ ≤ Real.pi * (180 / Real.pi) := mul_le_mul_of_nonneg_right this hc.le
      _ = 180 := by field_simp
  · rw [mul_eq_zero, or_iff_left hc.ne', InnerProductGeometry.angle_eq_zero_iff]
    constructor
    · rintro ⟨-, r, hr, h⟩
      have := congrArg norm h
      rw [norm_smul, norm_direction, norm_direction, mul_one, Real.norm_eq_abs, abs_of_pos hr] at this
      rw [h, ← this, one_smul]
    · intro h
      refine ⟨fun h0 => ?_, 1, one_pos, by rw [h, one_smul]⟩
      have := norm_direction lon1 lat1
      rw [h0, norm_zero] at this
      exact zero_ne_one this
  · rw [← add_mul]
    exact mul_le_mul_of_nonneg_right (InnerProductGeometry.angle_le_angle_add_angle _ _ _) hc.le

/-- The latitude and the longitude of a direction, away from the poles. -/
theorem direction_inj {lon1 lat1 lon2 lat2 : ℝ} (h : direction lon1 lat1 = direction lon2 lat2) (h1 : -90 < lat1 ∧ lat1 < 90)
    (h2 : -90 ≤ lat2 ∧ lat2 ≤ 90) (h3 : 0 ≤ lon1 ∧ lon1 < 360) (h4 : 0 ≤ lon2 ∧ lon2 < 360) : lon1 = lon2 ∧ lat1 = lat2 := by
  have hpi := Real.pi_pos
  have e0 := congrFun (congrArg (WithLp.ofLp) h) 0
  have e1 := congrFun (congrArg (WithLp.ofLp) h) 1
  have e2 := congrFun (congrArg (WithLp.ofLp) h) 2
  simp only [direction, Matrix.cons_val] at e0 e1 e2
  have hlat : lat1 * (Real.pi / 180) = lat2 * (Real.pi / 180) := by
    apply Real.injOn_sin _ _ e2
    · constructor <;> nlinarith
    · constructor <;> nlinarith
  have hl : lat1 = lat2 := mul_right_cancel₀ (by positivity) hlat
  refine ⟨?_, hl⟩
  rw [← hlat] at e0 e1
  have hc : Real.cos (lat1 * (Real.pi / 180)) ≠ 0 := (Real.cos_pos_of_mem_Ioo ⟨by nlinarith, by nlinarith⟩).ne'
  have c1 := mul_left_cancel₀ hc e0
  have c2 := mul_left_cancel₀ hc e1
  have hcos : Real.cos ((lon1 - lon2) * (Real.pi / 180)) = 1 := by
    rw [sub_mul, Real.cos_sub, c1, c2]
    linear_combination Real.cos_sq_add_sin_sq (lon2 * (Real.pi / 180))
  obtain ⟨n, hn⟩ := (Real.cos_eq_one_iff _).1 hcos
  have hn' : lon1 - lon2 = 360 * n := by
    have : (n : ℝ) * (2 * Real.pi) = (lon1 - lon2) * Real.pi / 180 := by rw [hn]; ring
    field_simp at this
    linarith
  have : |(n : ℝ)| < 1 := by
    rw [abs_lt]
    constructor <;> linarith
  rw [← Int.cast_abs] at this
  have : |n| < 1 := by exact_mod_cast this
  rw [Int.abs_lt_one_iff] at this
  subst this
  push_cast at hn'
  linarith

/-- C89: away from the poles, with reduced longitudes, the distance vanishes for equal coordinates only. -/
theorem C89_zero {lon1 lat1 lon2 lat2 : ℝ} (h : angleOne lon1 lat1 lon2 lat2 = 0) (h1 : -90 < lat1 ∧ lat1 < 90)
    (h2 : -90 ≤ lat2 ∧ lat2 ≤ 90) (h3 : 0 ≤ lon1 ∧ lon1 < 360) (h4 : 0 ≤ lon2 ∧ lon2 < 360) : lon1 = lon2 ∧ lat1 = lat2 :=
  direction_inj (((C89_metric lon1 lat1 lon2 lat2 0 0).2.2.2.1).1 h) h1 h2 h3 h4

/-- C89: element by element. -/
theorem C89_arrays {p1 p2 : List (ℝ × ℝ)} (h : p1.length = p2.length) :
    angleLonlat p1 p2 = .ok (List.zipWith (fun a b => angleOne a.1 a.2 b.1 b.2) p1 p2) := by
  match p1, p2, h with
  | [], [], _ => rfl
  | [a], [b], _ => rfl
  | a :: a' :: p1, b :: b' :: p2, h =>
    unfold angleLonlat
    simp only [List.length_cons] at h
    simp [h]

/-- C89: a single position is compared with each of the others. -/
theorem C89_broadcast (a : ℝ × ℝ) {p : List (ℝ × ℝ)} (h : p ≠ []) :
    angleLonlat [a] p = .ok (p.map fun b => angleOne a.1 a.2 b.1 b.2) ∧ angleLonlat p [a] = .ok (p.map fun b => angleOne a.1 a.2 b.1 b.2) := by
  have hs : ∀ b : ℝ × ℝ, angleOne b.1 b.2 a.1 a.2 = angleOne a.1 a.2 b.1 b.2 := fun b => (C89_metric b.1 b.2 a.1 a.2 0 0).2.2.1
  match p, h with
  | [b], _ => exact ⟨rfl, by simp [angleLonlat, hs]⟩
  | b :: b' :: p, _ => exact ⟨rfl, by simp [angleLonlat, hs]⟩

/-- C89 does not hold for arrays of other sizes, which are not refused: positions are read out of bounds. -/
theorem C89_violation_sizes : angleLonlat [(0, 0), (1, 0), (2, 0)] [(0, 0), (1, 0)] = .error .outOfBounds := rfl

example : angleOne 0 0 90 0 = 90 ∧ angleOne 0 0 90 0 ≤ angleOne 0 0 45 45 + angleOne 45 45 90 0 := by
  refine ⟨?_, (C89_metric 0 0 45 45 90 0).2.2.2.2⟩
  have : deg2rad (90 - 0) = Real.pi / 2 := by unfold deg2rad; ring
  unfold angleOne
  rw [this]
  have e : deg2rad 0 = 0 := by unfold deg2rad; ring
  simp only [e, Real.cos_pi_div_two, Real.sin_zero, mul_zero, add_zero, Real.arccos_zero]
  unfold rad2deg
  field_simp
  norm_num

/-! ### The barycenter -/

/-- The sum of the directions of the valid positions. -/
noncomputable def sumDirections (ps : List (Option ℝ × Option ℝ)) : EuclideanSpace ℝ (Fin 3) :=
  (ps.filterMap fun p => match p with | (some lon, some lat) => some (direction lon lat) | _ => none).sum

theorem foldl_barycenter (ps : List (Option ℝ × Option ℝ)) (s : ℝ × ℝ × ℝ) :
    ps.foldl barycenterStep s = (s.1 + sumDirections ps 0, s.2.1 + sumDirections ps 1, s.2.2 + sumDirections ps 2) := by
  induction ps generalizing s with
  | nil => simp [sumDirections]
  | cons p ps ih =>
    rw [List.foldl_cons, ih]
    obtain ⟨lon, lat⟩ := p
    cases lon with
    | none => simp [barycenterStep, sumDirections]
    | some lon =>
      cases lat with
      | none => simp [barycenterStep, sumDirections]
      | some lat =>
        have : sumDirections ((some lon, some lat) :: ps) = direction lon lat + sumDirections ps := by
          simp [sumDirections]
        rw [this]
        simp only [barycenterStep, direction, PiLp.add_apply, PiLp.toLp_apply, Matrix.cons_val, deg2rad, add_assoc]

theorem barycenterLonlat_eq {ps : List (Option ℝ × Option ℝ)} (hne : ps ≠ []) :
    let S := sumDirections ps
    barycenterLonlat ps =
      (some (modulo360 (rad2deg (Complex.arg ⟨S 0, S 1⟩) + 360)),
       if S 0 ^ 2 + S 1 ^ 2 + S 2 ^ 2 = 0 then none else
        some (let l := rad2deg (Real.arccos (Real.sqrt ((S 0 ^ 2 + S 1 ^ 2) / (S 0 ^ 2 + S 1 ^ 2 + S 2 ^ 2))))
          if 0 ≤ S 2 then |l| else -|l|)) := by
  unfold barycenterLonlat
  rw [if_neg (by simpa using hne), foldl_barycenter]
  dsimp only
  simp only [zero_add]
  split <;> rfl

theorem sumDirections_ne (ps : List (Option ℝ × Option ℝ)) (h : sumDirections ps ≠ 0) : ps ≠ [] := by
  rintro rfl
  exact h rfl

/-- The longitude and the latitude computed by `barycenter_lonlat` from a vector. -/
theorem polar {S : EuclideanSpace ℝ (Fin 3)} (h : S ≠ 0) :
    S 0 ^ 2 + S 1 ^ 2 + S 2 ^ 2 ≠ 0 ∧
    let lon := modulo360 (rad2deg (Complex.arg ⟨S 0, S 1⟩) + 360)
    let l := rad2deg (Real.arccos (Real.sqrt ((S 0 ^ 2 + S 1 ^ 2) / (S 0 ^ 2 + S 1 ^ 2 + S 2 ^ 2))))
    let lat := if 0 ≤ S 2 then |l| else -|l|
    S = ‖S‖ • direction lon lat ∧ 0 ≤ lon ∧ lon < 360 ∧ -90 ≤ lat ∧ lat ≤ 90 := by
  have hpi := Real.pi_pos
  have hR2 : ‖S‖ ^ 2 = S 0 ^ 2 + S 1 ^ 2 + S 2 ^ 2 := by
    rw [EuclideanSpace.norm_sq_eq, Fin.sum_univ_three]
    simp [sq_abs]
  have hR : 0 < ‖S‖ := norm_pos_iff.2 h
  have hpos : 0 < S 0 ^ 2 + S 1 ^ 2 + S 2 ^ 2 := by rw [← hR2]; positivity
  refine ⟨hpos.ne', ?_⟩
  set q := (S 0 ^ 2 + S 1 ^ 2) / (S 0 ^ 2 + S 1 ^ 2 + S 2 ^ 2) with hq
  have hq0 : 0 ≤ q := by positivity
  have hq1 : q ≤ 1 := by rw [hq, div_le_one hpos]; nlinarith [sq_nonneg (S 2)]
  set α := Real.arccos (Real.sqrt q) with hα
  have hα0 : 0 ≤ α := Real.arccos_nonneg _
  have hα1 : α ≤ Real.pi / 2 := Real.arccos_le_pi_div_two.2 (Real.sqrt_nonneg _)
  have hcosα : Real.cos α = Real.sqrt q := Real.cos_arccos (by linarith [Real.sqrt_nonneg q]) (Real.sqrt_le_one.2 hq1)
  have hsinα : Real.sin α = |S 2| / ‖S‖ := by
    rw [hα, Real.sin_arccos, Real.sq_sqrt hq0]
    rw [show 1 - q = (S 2 / ‖S‖) ^ 2 by rw [div_pow, hR2, hq]; field_simp; ring, Real.sqrt_sq_eq_abs, abs_div, abs_of_pos hR]
  -- the norm of the horizontal part
  set ρ := ‖(⟨S 0, S 1⟩ : ℂ)‖ with hρ
  have hρ2 : ρ ^ 2 = S 0 ^ 2 + S 1 ^ 2 := by rw [hρ, Complex.sq_norm, Complex.normSq_mk]; ring
  have hcosα' : Real.cos α * ‖S‖ = ρ := by
    rw [hcosα, ← Real.sqrt_sq hR.le, ← Real.sqrt_mul hq0, hR2, hq, div_mul_cancel₀ _ hpos.ne', ← hρ2, Real.sqrt_sq (norm_nonneg _)]
  have hl0 : 0 ≤ rad2deg α := by unfold rad2deg; positivity
  have hl1 : rad2deg α ≤ 90 := by
    unfold rad2deg
    rw [mul_div_assoc', div_le_iff₀ hpi]
    linarith
  dsimp only
  rw [abs_of_nonneg hl0]
  refine ⟨?_, modulo360_nonneg _, modulo360_lt _, ?_, ?_⟩
  · obtain ⟨k, hk⟩ := modulo360_spec (rad2deg (Complex.arg ⟨S 0, S 1⟩) + 360)
    set lon := modulo360 (rad2deg (Complex.arg ⟨S 0, S 1⟩) + 360)
    have hlon : lon * (Real.pi / 180) = Complex.arg ⟨S 0, S 1⟩ + ((1 - k : ℤ) : ℝ) * (2 * Real.pi) := by
      have : lon = rad2deg (Complex.arg ⟨S 0, S 1⟩) + 360 - 360 * k := by linarith
      rw [this]
      unfold rad2deg
      push_cast
      field_simp
      ring
    have hcl : ρ * Real.cos (lon * (Real.pi / 180)) = S 0 := by
      rw [hlon, Real.cos_add_int_mul_two_pi]
      by_cases h0 : (⟨S 0, S 1⟩ : ℂ) = 0
      · have e := congrArg Complex.re h0
        simp only [Complex.zero_re] at e
        rw [hρ, h0, norm_zero, e]
        simp
      · rw [Complex.cos_arg h0, ← hρ]
        have : ρ ≠ 0 := norm_ne_zero_iff.2 h0
        field_simp
    have hsl : ρ * Real.sin (lon * (Real.pi / 180)) = S 1 := by
      rw [hlon, Real.sin_add_int_mul_two_pi, Complex.sin_arg, ← hρ]
      by_cases h0 : (⟨S 0, S 1⟩ : ℂ) = 0
      · have e := congrArg Complex.im h0
        simp only [Complex.zero_im] at e
        rw [hρ, h0, norm_zero, e]
        simp
      · have : ρ ≠ 0 := norm_ne_zero_iff.2 h0
        field_simp
    set lat := if 0 ≤ S 2 then rad2deg α else -rad2deg α with hlat
    have hclat : Real.cos (lat * (Real.pi / 180)) = Real.cos α := by
      have e : rad2deg α * (Real.pi / 180) = α := deg2rad_rad2deg α
      rw [hlat]
      split
      · rw [e]
      · rw [neg_mul, Real.cos_neg, e]
    have hslat : Real.sin (lat * (Real.pi / 180)) * ‖S‖ = S 2 := by
      have e : rad2deg α * (Real.pi / 180) = α := deg2rad_rad2deg α
      rw [hlat]
      split
      · rename_i hz
        rw [e, hsinα, abs_of_nonneg hz]
        field_simp
      · rename_i hz
        rw [neg_mul, Real.sin_neg, e, hsinα, abs_of_neg (not_le.1 hz)]
        field_simp
    ext i
    fin_cases i
    · simp only [direction, PiLp.smul_apply, smul_eq_mul, PiLp.toLp_apply, Fin.zero_eta, Matrix.cons_val, hclat]
      rw [← hcl, ← hcosα']
      ring
    · simp only [direction, PiLp.smul_apply, smul_eq_mul, PiLp.toLp_apply, Fin.mk_one, Matrix.cons_val, hclat]
      rw [← hsl, ← hcosα']
      ring
    · simp only [direction, PiLp.smul_apply, smul_eq_mul, PiLp.toLp_apply, Fin.reduceFinMk, Matrix.cons_val]
      rw [← hslat]
      ring
  · split <;> linarith
  · split <;> linarith

/-- C90: the barycenter is the direction of the sum of the directions, with reduced coordinates. -/
theorem C90_direction {ps : List (Option ℝ × Option ℝ)} (h : sumDirections ps ≠ 0) :
    ∃ lon lat, barycenterLonlat ps = (some lon, some lat) ∧ sumDirections ps = ‖sumDirections ps‖ • direction lon lat ∧
      0 ≤ lon ∧ lon < 360 ∧ -90 ≤ lat ∧ lat ≤ 90 := by
  obtain ⟨h0, hp⟩ := polar h
  rw [barycenterLonlat_eq (sumDirections_ne ps h)]
  dsimp only
  rw [if_neg h0]
  exact ⟨_, _, rfl, hp⟩

/-- C90: the barycenter of positions that are all the same is this position. -/
theorem C90_same {lon lat : ℝ} (h1 : -90 < lat ∧ lat < 90) (h2 : 0 ≤ lon ∧ lon < 360) (n : Nat) :
    barycenterLonlat (List.replicate (n + 1) (some lon, some lat)) = (some lon, some lat) := by
  have hS : sumDirections (List.replicate (n + 1) (some lon, some lat)) = ((n : ℝ) + 1) • direction lon lat := by
    unfold sumDirections
    rw [show List.filterMap (fun p : Option ℝ × Option ℝ =>
        match p with | (some lon, some lat) => some (direction lon lat) | _ => none) (List.replicate (n + 1) (some lon, some lat))
        = List.replicate (n + 1) (direction lon lat) by simp [List.filterMap_replicate], List.sum_replicate, ← Nat.cast_smul_eq_nsmul ℝ]
    push_cast
    rfl
  have hn : (0 : ℝ) < (n : ℝ) + 1 := by positivity
  have hne : sumDirections (List.replicate (n + 1) (some lon, some lat)) ≠ 0 := by
    intro h0
    have := congrArg norm h0
    rw [hS, norm_smul, norm_direction, norm_zero, mul_one, Real.norm_eq_abs, abs_of_pos hn] at this
    linarith
  obtain ⟨lon', lat', he, hd, b1, b2, b3, b4⟩ := C90_direction hne
  rw [hS, norm_smul, norm_direction, mul_one, Real.norm_eq_abs, abs_of_pos hn] at hd
  have := smul_right_injective _ hn.ne' hd
  obtain ⟨e1, e2⟩ := direction_inj this h1 ⟨b3, b4⟩ h2 ⟨b1, b2⟩
  rw [he, e1, e2]

/-- C90: the barycenter does not depend on the order of the positions. -/
theorem C90_perm {ps qs : List (Option ℝ × Option ℝ)} (h : ps.Perm qs) : barycenterLonlat ps = barycenterLonlat qs := by
  have hS : sumDirections ps = sumDirections qs := (h.filterMap _).sum_eq
  by_cases hne : ps = []
  · subst hne
    rw [List.nil_perm.1 h]
  · rw [barycenterLonlat_eq hne, barycenterLonlat_eq (fun h0 => hne (by subst h0; exact List.perm_nil.1 h)), hS]

/-- C90: positions whose sum is zero, such as two opposite ones, have no barycenter. -/
theorem C90_undefined {ps : List (Option ℝ × Option ℝ)} (h : sumDirections ps = 0) : (barycenterLonlat ps).2 = none := by
  by_cases hne : ps = []
  · subst hne
    rfl
  · rw [barycenterLonlat_eq hne, h]
    simp

/-- C90: the missing positions do not count. -/
theorem C90_missing {ps qs : List (Option ℝ × Option ℝ)} (h1 : ps ≠ []) (h2 : ps.filter (fun p => p.1.isSome && p.2.isSome) = qs)
    (h3 : qs ≠ []) : barycenterLonlat ps = barycenterLonlat qs := by
  have hS : sumDirections ps = sumDirections qs := by
    subst h2
    unfold sumDirections
    congr 1
    clear h1 h3
    induction ps with
    | nil => rfl
    | cons p ps ih =>
      obtain ⟨a, b⟩ := p
      cases a <;> cases b <;> simp [ih]
  rw [barycenterLonlat_eq h1, barycenterLonlat_eq h3, hS]

example : barycenterLonlat [(some 10, some 20), (none, some 0), (some 10, some 20)] = (some 10, some 20) := by
  rw [C90_missing (qs := [(some 10, some 20), (some 10, some 20)]) (by simp) rfl (by simp)]
  exact C90_same (lon := 10) (lat := 20) (by norm_num) (by norm_num) 1

end Verif.Wcs
