import Verif.Wcs.PropsSphere
import Mathlib.Analysis.SpecialFunctions.Trigonometric.Deriv

set_option linter.unusedSimpArgs false

/-!
The gnomonic projection in Fortran (C91): a position is taken to the intersection of its direction with the plane that is tangent to the
sphere at the reference position.
-/
namespace Verif.Wcs
open Verif.Py

abbrev E3 := EuclideanSpace ℝ (Fin 3)

/-- The direction of increasing longitudes at a position. -/
noncomputable def east (lon : ℝ) : E3 := !₂[-Real.sin (lon * (Real.pi / 180)), Real.cos (lon * (Real.pi / 180)), 0]

/-- The direction of increasing latitudes at a position. -/
noncomputable def north (lon lat : ℝ) : E3 :=
  !₂[-Real.sin (lat * (Real.pi / 180)) * Real.cos (lon * (Real.pi / 180)),
     -Real.sin (lat * (Real.pi / 180)) * Real.sin (lon * (Real.pi / 180)), Real.cos (lat * (Real.pi / 180))]

theorem inner3 (u v : E3) : inner ℝ u v = u 0 * v 0 + u 1 * v 1 + u 2 * v 2 := by
  simp only [PiLp.inner_apply, Fin.sum_univ_three, RCLike.inner_apply, conj_trivial]
  ring

/-- The three directions make an orthonormal frame. -/
theorem frame_expand (lon lat : ℝ) (v : E3) :
    v = inner ℝ (direction lon lat) v • direction lon lat + inner ℝ (east lon) v • east lon + inner ℝ (north lon lat) v • north lon lat := by
  have h1 := Real.cos_sq_add_sin_sq (lon * (Real.pi / 180))
  have h2 := Real.cos_sq_add_sin_sq (lat * (Real.pi / 180))
  simp only [inner3]
  ext i
  fin_cases i
  · simp only [direction, east, north, PiLp.add_apply, PiLp.smul_apply, smul_eq_mul, PiLp.toLp_apply, Fin.zero_eta, Matrix.cons_val]
    generalize Real.cos (lon * (Real.pi / 180)) = cl at *
    generalize Real.sin (lon * (Real.pi / 180)) = sl at *
    generalize Real.cos (lat * (Real.pi / 180)) = cb at *
    generalize Real.sin (lat * (Real.pi / 180)) = sb at *
    linear_combination (-v 0) * h1 - (cl * (cl * v 0 + sl * v 1)) * h2
  · simp only [direction, east, north, PiLp.add_apply, PiLp.smul_apply, smul_eq_mul, PiLp.toLp_apply, Fin.mk_one, Matrix.cons_val]
    generalize Real.cos (lon * (Real.pi / 180)) = cl at *
    generalize Real.sin (lon * (Real.pi / 180)) = sl at *
    generalize Real.cos (lat * (Real.pi / 180)) = cb at *
    generalize Real.sin (lat * (Real.pi / 180)) = sb at *
    linear_combination (-v 1) * h1 - (sl * (cl * v 0 + sl * v 1)) * h2
  · simp only [direction, east, north, PiLp.add_apply, PiLp.smul_apply, smul_eq_mul, PiLp.toLp_apply, Fin.reduceFinMk, Matrix.cons_val]
    generalize Real.cos (lon * (Real.pi / 180)) = cl at *
    generalize Real.sin (lon * (Real.pi / 180)) = sl at *
    generalize Real.cos (lat * (Real.pi / 180)) = cb at *
    generalize Real.sin (lat * (Real.pi / 180)) = sb at *
    linear_combination (-v 2) * h2

theorem inner_east (lon0 lon lat : ℝ) : inner ℝ (east lon0) (direction lon lat) =
    Real.cos (deg2rad lat) * Real.sin (deg2rad lon - deg2rad lon0) := by
  rw [inner3, Real.sin_sub]
  simp only [direction, east, PiLp.toLp_apply, Matrix.cons_val, deg2rad]
  ring

theorem inner_north (lon0 lat0 lon lat : ℝ) : inner ℝ (north lon0 lat0) (direction lon lat) =
    Real.cos (deg2rad lat0) * Real.sin (deg2rad lat)
      - Real.sin (deg2rad lat0) * Real.cos (deg2rad lat) * Real.cos (deg2rad lon - deg2rad lon0) := by
  rw [inner3, Real.cos_sub]
  simp only [direction, north, PiLp.toLp_apply, Matrix.cons_val, deg2rad]
  ring

theorem inner_ref (lon0 lat0 lon lat : ℝ) : inner ℝ (direction lon0 lat0) (direction lon lat) =
    Real.sin (deg2rad lat0) * Real.sin (deg2rad lat)
      + Real.cos (deg2rad lat0) * Real.cos (deg2rad lat) * Real.cos (deg2rad lon - deg2rad lon0) := by
  rw [inner_direction, show deg2rad (lon - lon0) = deg2rad lon - deg2rad lon0 by unfold deg2rad; ring]
  ring

theorem inner_ref_ref (lon lat : ℝ) : inner ℝ (direction lon lat) (direction lon lat) = (1 : ℝ) := by
  rw [real_inner_self_eq_norm_sq, norm_direction, one_pow]

/-- C91: the offset of the pixel of a position, from the reference pixel, is taken by the matrix of the header to the coordinates, in
degrees, of the intersection of the direction with the plane tangent to the sphere at the reference position. -/
theorem C91_plane {nx ny : Int} {p1 p2 v1 v2 c11 c12 c21 c22 : ℝ} (hdet : c11 * c22 - c12 * c21 ≠ 0) (ra dec : ℝ) :
    let m := initProjection nx ny p1 p2 v1 v2 (c11, c12, c21, c22)
    let x := (ad2xy m ra dec).1
    let y := (ad2xy m ra dec).2
    let d := direction ra dec
    c11 * (x - (p1 - 1)) + c12 * (y - (p2 - 1)) = (180 / Real.pi) * (inner ℝ (east v1) d / inner ℝ (direction v1 v2) d) ∧
    c21 * (x - (p1 - 1)) + c22 * (y - (p2 - 1)) = (180 / Real.pi) * (inner ℝ (north v1 v2) d / inner ℝ (direction v1 v2) d) := by
  have hdet' : c11 * c22 - c21 * c12 ≠ 0 := by rwa [mul_comm c21 c12]
  dsimp only [initProjection, ad2xy, Astrometry.rotate]
  rw [inner_east, inner_north, inner_ref]
  generalize Real.sin (deg2rad v2) * Real.sin (deg2rad dec)
      + Real.cos (deg2rad v2) * Real.cos (deg2rad dec) * Real.cos (deg2rad ra - deg2rad v1) = D
  generalize Real.cos (deg2rad v2) * Real.sin (deg2rad dec)
      - Real.sin (deg2rad v2) * Real.cos (deg2rad dec) * Real.cos (deg2rad ra - deg2rad v1) = N
  constructor
  · rw [show c11 * (c22 / (c11 * c22 - c21 * c12) * (180 / Real.pi / D * Real.cos (deg2rad dec) * Real.sin (deg2rad ra - deg2rad v1))
        + -c12 / (c11 * c22 - c21 * c12) * (180 / Real.pi / D * N) + (p1 - 1) - (p1 - 1))
      + c12 * (-c21 / (c11 * c22 - c21 * c12) * (180 / Real.pi / D * Real.cos (deg2rad dec) * Real.sin (deg2rad ra - deg2rad v1))
        + c11 / (c11 * c22 - c21 * c12) * (180 / Real.pi / D * N) + (p2 - 1) - (p2 - 1))
      = (c11 * c22 - c21 * c12) / (c11 * c22 - c21 * c12) *
        (180 / Real.pi / D * Real.cos (deg2rad dec) * Real.sin (deg2rad ra - deg2rad v1)) by ring, div_self hdet']
    ring
  · rw [show c21 * (c22 / (c11 * c22 - c21 * c12) * (180 / Real.pi / D * Real.cos (deg2rad dec) * Real.sin (deg2rad ra - deg2rad v1))
        + -c12 / (c11 * c22 - c21 * c12) * (180 / Real.pi / D * N) + (p1 - 1) - (p1 - 1))
      + c22 * (-c21 / (c11 * c22 - c21 * c12) * (180 / Real.pi / D * Real.cos (deg2rad dec) * Real.sin (deg2rad ra - deg2rad v1))
        + c11 / (c11 * c22 - c21 * c12) * (180 / Real.pi / D * N) + (p2 - 1) - (p2 - 1))
      = (c11 * c22 - c21 * c12) / (c11 * c22 - c21 * c12) * (180 / Real.pi / D * N) by ring, div_self hdet']
    ring

/-- C91: the reference position falls on the reference pixel (counted from zero). -/
theorem C91_reference (nx ny : Int) (p1 p2 v1 v2 : ℝ) (cd : ℝ × ℝ × ℝ × ℝ) :
    ad2xy (initProjection nx ny p1 p2 v1 v2 cd) v1 v2 = (p1 - 1, p2 - 1) := by
  obtain ⟨c11, c12, c21, c22⟩ := cd
  dsimp only [initProjection, ad2xy, Astrometry.rotate]
  rw [sub_self, Real.sin_zero, Real.cos_zero]
  apply Prod.ext <;> dsimp only <;> ring

/-- C91: two positions of the hemisphere of the reference position that fall on the same point of the map have the same direction. -/
theorem C91_injective {nx ny : Int} {p1 p2 v1 v2 c11 c12 c21 c22 : ℝ} (hdet : c11 * c22 - c12 * c21 ≠ 0) {ra dec ra' dec' : ℝ}
    (h : ad2xy (initProjection nx ny p1 p2 v1 v2 (c11, c12, c21, c22)) ra dec
      = ad2xy (initProjection nx ny p1 p2 v1 v2 (c11, c12, c21, c22)) ra' dec')
    (hf : 0 < inner ℝ (direction v1 v2) (direction ra dec)) (hf' : 0 < inner ℝ (direction v1 v2) (direction ra' dec')) :
    direction ra dec = direction ra' dec' := by
  obtain ⟨e1, e2⟩ := C91_plane (nx := nx) (ny := ny) (p1 := p1) (p2 := p2) (v1 := v1) (v2 := v2) hdet ra dec
  obtain ⟨e1', e2'⟩ := C91_plane (nx := nx) (ny := ny) (p1 := p1) (p2 := p2) (v1 := v1) (v2 := v2) hdet ra' dec'
  rw [h] at e1 e2
  have hpi : (180 : ℝ) / Real.pi ≠ 0 := by have := Real.pi_pos; positivity
  have q1 := mul_left_cancel₀ hpi (e1.symm.trans e1')
  have q2 := mul_left_cancel₀ hpi (e2.symm.trans e2')
  set d := direction ra dec
  set d' := direction ra' dec'
  have key : d' = (inner ℝ (direction v1 v2) d' / inner ℝ (direction v1 v2) d) • d := by
    conv_lhs => rw [frame_expand v1 v2 d']
    have hd := frame_expand v1 v2 d
    generalize hr : inner ℝ (direction v1 v2) d' / inner ℝ (direction v1 v2) d = r
    conv_rhs => rw [hd]
    rw [smul_add, smul_add, smul_smul, smul_smul, smul_smul, ← hr, div_mul_cancel₀ _ hf.ne']
    congr 2
    · congr 1
      rw [div_eq_div_iff hf.ne' hf'.ne'] at q1
      rw [div_mul_eq_mul_div, eq_div_iff hf.ne']
      linarith
    · rw [div_eq_div_iff hf.ne' hf'.ne'] at q2
      rw [div_mul_eq_mul_div, eq_div_iff hf.ne']
      linarith
  have hr := congrArg norm key
  rw [norm_smul, show ‖d'‖ = 1 from norm_direction _ _, show ‖d‖ = 1 from norm_direction _ _, mul_one, Real.norm_eq_abs,
    abs_of_pos (div_pos hf' hf)] at hr
  rw [key, ← hr, one_smul]

/-- C91: every point of the map is the projection of a position of the hemisphere. -/
theorem C91_surjective {nx ny : Int} {p1 p2 v1 v2 c11 c12 c21 c22 : ℝ} (hdet : c11 * c22 - c12 * c21 ≠ 0) (x y : ℝ) :
    ∃ ra dec, 0 < inner ℝ (direction v1 v2) (direction ra dec) ∧
      ad2xy (initProjection nx ny p1 p2 v1 v2 (c11, c12, c21, c22)) ra dec = (x, y) := by
  have hpi := Real.pi_pos
  set xi := (c11 * (x - (p1 - 1)) + c12 * (y - (p2 - 1))) * (Real.pi / 180) with hxi
  set eta := (c21 * (x - (p1 - 1)) + c22 * (y - (p2 - 1))) * (Real.pi / 180) with heta
  set S : E3 := direction v1 v2 + xi • east v1 + eta • north v1 v2 with hS
  have h1 := Real.cos_sq_add_sin_sq (v1 * (Real.pi / 180))
  have h2 := Real.cos_sq_add_sin_sq (v2 * (Real.pi / 180))
  have i0 : inner ℝ (direction v1 v2) S = (1 : ℝ) := by
    rw [hS, inner3]
    simp only [direction, east, north, PiLp.add_apply, PiLp.smul_apply, smul_eq_mul, PiLp.toLp_apply, Matrix.cons_val]
    generalize Real.cos (v1 * (Real.pi / 180)) = cl at *
    generalize Real.sin (v1 * (Real.pi / 180)) = sl at *
    generalize Real.cos (v2 * (Real.pi / 180)) = cb at *
    generalize Real.sin (v2 * (Real.pi / 180)) = sb at *
    linear_combination (cb ^ 2 - cb * sb * eta) * h1 + h2
  have i1 : inner ℝ (east v1) S = xi := by
    rw [hS, inner3]
    simp only [direction, east, north, PiLp.add_apply, PiLp.smul_apply, smul_eq_mul, PiLp.toLp_apply, Matrix.cons_val]
    linear_combination xi * h1
  have i2 : inner ℝ (north v1 v2) S = eta := by
    rw [hS, inner3]
    simp only [direction, east, north, PiLp.add_apply, PiLp.smul_apply, smul_eq_mul, PiLp.toLp_apply, Matrix.cons_val]
    generalize Real.cos (v1 * (Real.pi / 180)) = cl at *
    generalize Real.sin (v1 * (Real.pi / 180)) = sl at *
    generalize Real.cos (v2 * (Real.pi / 180)) = cb at *
    generalize Real.sin (v2 * (Real.pi / 180)) = sb at *
    linear_combination (eta * sb ^ 2 - cb * sb) * h1 + eta * h2
  have hS0 : S ≠ 0 := by
    intro h
    rw [h, inner_zero_right] at i0
    exact zero_ne_one i0
  obtain ⟨-, hp, -⟩ := polar hS0
  have hR : 0 < ‖S‖ := norm_pos_iff.2 hS0
  set lon := modulo360 (rad2deg (Complex.arg ⟨S 0, S 1⟩) + 360)
  set lat := if 0 ≤ S 2 then |rad2deg (Real.arccos (Real.sqrt ((S 0 ^ 2 + S 1 ^ 2) / (S 0 ^ 2 + S 1 ^ 2 + S 2 ^ 2))))|
    else -|rad2deg (Real.arccos (Real.sqrt ((S 0 ^ 2 + S 1 ^ 2) / (S 0 ^ 2 + S 1 ^ 2 + S 2 ^ 2))))|
  have j : ∀ e : E3, inner ℝ e S = ‖S‖ * inner ℝ e (direction lon lat) := fun e => by
    conv_lhs => rw [hp]
    rw [real_inner_smul_right]
  have k0 : inner ℝ (direction v1 v2) (direction lon lat) = 1 / ‖S‖ := by
    rw [eq_div_iff hR.ne', mul_comm, ← j, i0]
  have k1 : inner ℝ (east v1) (direction lon lat) = xi / ‖S‖ := by
    rw [eq_div_iff hR.ne', mul_comm, ← j, i1]
  have k2 : inner ℝ (north v1 v2) (direction lon lat) = eta / ‖S‖ := by
    rw [eq_div_iff hR.ne', mul_comm, ← j, i2]
  refine ⟨lon, lat, by rw [k0]; positivity, ?_⟩
  obtain ⟨e1, e2⟩ := C91_plane (nx := nx) (ny := ny) (p1 := p1) (p2 := p2) (v1 := v1) (v2 := v2) hdet lon lat
  rw [k1, k0, div_div_div_cancel_right₀ hR.ne', div_one, hxi] at e1
  rw [k2, k0, div_div_div_cancel_right₀ hR.ne', div_one, heta] at e2
  set X := (ad2xy (initProjection nx ny p1 p2 v1 v2 (c11, c12, c21, c22)) lon lat)
  have f1 : c11 * (X.1 - x) + c12 * (X.2 - y) = 0 := by
    field_simp at e1
    linarith
  have f2 : c21 * (X.1 - x) + c22 * (X.2 - y) = 0 := by
    field_simp at e2
    linarith
  have g1 : (c11 * c22 - c12 * c21) * (X.1 - x) = 0 := by linear_combination c22 * f1 - c12 * f2
  have g2 : (c11 * c22 - c12 * c21) * (X.2 - y) = 0 := by linear_combination c11 * f2 - c21 * f1
  apply Prod.ext
  · rcases mul_eq_zero.1 g1 with h | h
    · exact absurd h hdet
    · linarith
  · rcases mul_eq_zero.1 g2 with h | h
    · exact absurd h hdet
    · linarith

/-- C91: the version that also returns the scale computes the same point, and the scale is the inverse of the cube of the cosine of the
angular distance to the reference position. -/
theorem C91_scale (nx ny : Int) (p1 p2 v1 v2 : ℝ) (cd : ℝ × ℝ × ℝ × ℝ) (ra dec : ℝ) :
    let m := initProjection nx ny p1 p2 v1 v2 cd
    ((ad2xys m ra dec).1, (ad2xys m ra dec).2.1) = ad2xy m ra dec ∧
    (ad2xys m ra dec).2.2 = 1 / Real.cos (deg2rad (angleOne v1 v2 ra dec)) ^ 3 := by
  obtain ⟨c11, c12, c21, c22⟩ := cd
  dsimp only [initProjection, ad2xy, ad2xys, Astrometry.rotate]
  constructor
  · apply Prod.ext <;> dsimp only <;> ring
  · rw [one_div, inv_pow, one_div]
    congr 2
    rw [C89_angle]
    have : deg2rad (InnerProductGeometry.angle (direction v1 v2) (direction ra dec) * (180 / Real.pi))
      = InnerProductGeometry.angle (direction v1 v2) (direction ra dec) := deg2rad_rad2deg _
    rw [this, InnerProductGeometry.cos_angle, norm_direction, norm_direction, mul_one, div_one, inner_ref]

/-- The derivatives of the plane coordinates, in radians, and their determinant. -/
theorem plane_deriv {l0 b0 l b : ℝ}
    (hD : Real.sin b0 * Real.sin b + Real.cos b0 * Real.cos b * Real.cos (l - l0) ≠ 0) :
    let D : ℝ → ℝ → ℝ := fun l b => Real.sin b0 * Real.sin b + Real.cos b0 * Real.cos b * Real.cos (l - l0)
    let xsi : ℝ → ℝ → ℝ := fun l b => Real.cos b * Real.sin (l - l0) / D l b
    let eta : ℝ → ℝ → ℝ := fun l b => (Real.cos b0 * Real.sin b - Real.sin b0 * Real.cos b * Real.cos (l - l0)) / D l b
    ∃ xl xb el eb, HasDerivAt (fun l => xsi l b) xl l ∧ HasDerivAt (fun b => xsi l b) xb b ∧ HasDerivAt (fun l => eta l b) el l ∧
      HasDerivAt (fun b => eta l b) eb b ∧ xl * eb - xb * el = (1 / D l b) ^ 3 * Real.cos b := by
  dsimp only
  have hsl : HasDerivAt (fun l => Real.sin (l - l0)) (Real.cos (l - l0)) l := by
    simpa using (Real.hasDerivAt_sin (l - l0)).comp_sub_const l l0
  have hcl : HasDerivAt (fun l => Real.cos (l - l0)) (-Real.sin (l - l0)) l := by
    simpa using (Real.hasDerivAt_cos (l - l0)).comp_sub_const l l0
  have hsb := Real.hasDerivAt_sin b
  have hcb := Real.hasDerivAt_cos b
  have hDl : HasDerivAt (fun l => Real.sin b0 * Real.sin b + Real.cos b0 * Real.cos b * Real.cos (l - l0))
      (Real.cos b0 * Real.cos b * -Real.sin (l - l0)) l := by
    simpa using (hcl.const_mul (Real.cos b0 * Real.cos b)).const_add (Real.sin b0 * Real.sin b)
  have hDb : HasDerivAt (fun b => Real.sin b0 * Real.sin b + Real.cos b0 * Real.cos b * Real.cos (l - l0))
      (Real.sin b0 * Real.cos b + Real.cos b0 * -Real.sin b * Real.cos (l - l0)) b :=
    (hsb.const_mul _).add ((hcb.const_mul _).mul_const _)
  have hNl : HasDerivAt (fun l => Real.cos b0 * Real.sin b - Real.sin b0 * Real.cos b * Real.cos (l - l0))
      (-(Real.sin b0 * Real.cos b * -Real.sin (l - l0))) l := by
    simpa using (hcl.const_mul (Real.sin b0 * Real.cos b)).const_sub (Real.cos b0 * Real.sin b)
  have hNb : HasDerivAt (fun b => Real.cos b0 * Real.sin b - Real.sin b0 * Real.cos b * Real.cos (l - l0))
      (Real.cos b0 * Real.cos b - Real.sin b0 * -Real.sin b * Real.cos (l - l0)) b :=
    (hsb.const_mul _).sub ((hcb.const_mul _).mul_const _)
  refine ⟨_, _, _, _, (hsl.const_mul (Real.cos b)).div hDl hD, (hcb.mul_const (Real.sin (l - l0))).div hDb hD,
    hNl.div hDl hD, hNb.div hDb hD, ?_⟩
  have h1 := Real.cos_sq_add_sin_sq (l - l0)
  have h2 := Real.cos_sq_add_sin_sq b
  have h3 := Real.cos_sq_add_sin_sq b0
  generalize Real.cos (l - l0) = cl at *
  generalize Real.sin (l - l0) = sl at *
  generalize Real.cos b = cb at *
  generalize Real.sin b = sb at *
  generalize Real.cos b0 = c0 at *
  generalize Real.sin b0 = s0 at *
  have fA : cb * cl * (s0 * sb + c0 * cb * cl) - cb * sl * (c0 * cb * -sl) = cb * (cl * s0 * sb + c0 * cb) := by
    linear_combination cb ^ 2 * c0 * h1
  have fB : (c0 * cb - s0 * -sb * cl) * (s0 * sb + c0 * cb * cl) - (c0 * sb - s0 * cb * cl) * (s0 * cb + c0 * -sb * cl) = cl := by
    linear_combination cl * (cb ^ 2 + sb ^ 2) * h3 + cl * h2
  have fC : -sb * sl * (s0 * sb + c0 * cb * cl) - cb * sl * (s0 * cb + c0 * -sb * cl) = -(sl * s0) := by
    linear_combination -(sl * s0) * h2
  have fE : -(s0 * cb * -sl) * (s0 * sb + c0 * cb * cl) - (c0 * sb - s0 * cb * cl) * (c0 * cb * -sl) = cb * sl * sb := by
    linear_combination cb * sl * sb * h3
  rw [fA, fB, fC, fE]
  obtain ⟨D, hDe⟩ : ∃ D, D = s0 * sb + c0 * cb * cl := ⟨_, rfl⟩
  rw [← hDe] at hD ⊢
  have num : cb * (cl * s0 * sb + c0 * cb) * cl - -(sl * s0) * (cb * sl * sb) = cb * D := by
    linear_combination cb * s0 * sb * h1 - cb * hDe
  rw [div_mul_div_comm, div_mul_div_comm, ← sub_div, num]
  field_simp

/-- C91: the scale is the ratio of the areas: the Jacobian determinant of the pixel coordinates, with respect to the longitude and the
latitude in degrees, is the scale times the cosine of the latitude (the area of the sphere covered by unit increments of the coordinates),
in units of the area of the reference pixel. -/
theorem C91_area {nx ny : Int} {p1 p2 v1 v2 c11 c12 c21 c22 : ℝ} (hdet : c11 * c22 - c12 * c21 ≠ 0) {ra dec : ℝ}
    (hf : inner ℝ (direction v1 v2) (direction ra dec) ≠ (0 : ℝ)) :
    let m := initProjection nx ny p1 p2 v1 v2 (c11, c12, c21, c22)
    deriv (fun ra => (ad2xy m ra dec).1) ra * deriv (fun dec => (ad2xy m ra dec).2) dec
      - deriv (fun dec => (ad2xy m ra dec).1) dec * deriv (fun ra => (ad2xy m ra dec).2) ra
      = (ad2xys m ra dec).2.2 * Real.cos (dec * (Real.pi / 180)) / (c11 * c22 - c12 * c21) := by
  have hpi := Real.pi_pos
  have hdet' : c11 * c22 - c21 * c12 ≠ 0 := by rwa [mul_comm c21 c12]
  rw [inner_ref] at hf
  obtain ⟨xl, xb, el, eb, hxl, hxb, hel, heb, hj⟩ := plane_deriv hf
  have hd : ∀ t : ℝ, HasDerivAt deg2rad (Real.pi / 180) t := fun t => by
    have := (hasDerivAt_id t).mul_const (Real.pi / 180)
    rw [one_mul] at this
    exact this
  have gxl := HasDerivAt.comp ra hxl (hd ra)
  have gxb := HasDerivAt.comp dec hxb (hd dec)
  have gel := HasDerivAt.comp ra hel (hd ra)
  have geb := HasDerivAt.comp dec heb (hd dec)
  dsimp only [initProjection, ad2xy, ad2xys, Astrometry.rotate]
  set δ := c11 * c22 - c21 * c12 with hδ
  set κ := 180 / Real.pi with hκ
  have lin : ∀ {f g : ℝ → ℝ} {f' g' t : ℝ} (a b c : ℝ), HasDerivAt f f' t → HasDerivAt g g' t →
      HasDerivAt (fun t => a * (κ * f t) + b * (κ * g t) + c) (a * (κ * f') + b * (κ * g')) t := fun a b c hf hg =>
    (((hf.const_mul κ).const_mul a).add ((hg.const_mul κ).const_mul b)).add_const c
  have e : ∀ q N : ℝ, ∀ D : ℝ, κ / D * q = κ * (q / D) ∧ κ / D * N = κ * (N / D) := fun q N D => ⟨by ring, by ring⟩
  rw [show (fun ra => c22 / δ * (κ / (Real.sin (deg2rad v2) * Real.sin (deg2rad dec)
        + Real.cos (deg2rad v2) * Real.cos (deg2rad dec) * Real.cos (deg2rad ra - deg2rad v1)) * Real.cos (deg2rad dec)
        * Real.sin (deg2rad ra - deg2rad v1)) + -c12 / δ * (κ / (Real.sin (deg2rad v2) * Real.sin (deg2rad dec)
        + Real.cos (deg2rad v2) * Real.cos (deg2rad dec) * Real.cos (deg2rad ra - deg2rad v1)) * (Real.cos (deg2rad v2)
        * Real.sin (deg2rad dec) - Real.sin (deg2rad v2) * Real.cos (deg2rad dec) * Real.cos (deg2rad ra - deg2rad v1))) + (p1 - 1))
      = _ from funext fun t => by rw [mul_assoc (κ / _), (e _ 0 _).1, (e _ 0 _).1],
    show (fun dec => c22 / δ * (κ / (Real.sin (deg2rad v2) * Real.sin (deg2rad dec)
        + Real.cos (deg2rad v2) * Real.cos (deg2rad dec) * Real.cos (deg2rad ra - deg2rad v1)) * Real.cos (deg2rad dec)
        * Real.sin (deg2rad ra - deg2rad v1)) + -c12 / δ * (κ / (Real.sin (deg2rad v2) * Real.sin (deg2rad dec)
        + Real.cos (deg2rad v2) * Real.cos (deg2rad dec) * Real.cos (deg2rad ra - deg2rad v1)) * (Real.cos (deg2rad v2)
        * Real.sin (deg2rad dec) - Real.sin (deg2rad v2) * Real.cos (deg2rad dec) * Real.cos (deg2rad ra - deg2rad v1))) + (p1 - 1))
      = _ from funext fun t => by rw [mul_assoc (κ / _), (e _ 0 _).1, (e _ 0 _).1],
    show (fun ra => -c21 / δ * (κ / (Real.sin (deg2rad v2) * Real.sin (deg2rad dec)
        + Real.cos (deg2rad v2) * Real.cos (deg2rad dec) * Real.cos (deg2rad ra - deg2rad v1)) * Real.cos (deg2rad dec)
        * Real.sin (deg2rad ra - deg2rad v1)) + c11 / δ * (κ / (Real.sin (deg2rad v2) * Real.sin (deg2rad dec)
        + Real.cos (deg2rad v2) * Real.cos (deg2rad dec) * Real.cos (deg2rad ra - deg2rad v1)) * (Real.cos (deg2rad v2)
        * Real.sin (deg2rad dec) - Real.sin (deg2rad v2) * Real.cos (deg2rad dec) * Real.cos (deg2rad ra - deg2rad v1))) + (p2 - 1))
      = _ from funext fun t => by rw [mul_assoc (κ / _), (e _ 0 _).1, (e _ 0 _).1],
    show (fun dec => -c21 / δ * (κ / (Real.sin (deg2rad v2) * Real.sin (deg2rad dec)
        + Real.cos (deg2rad v2) * Real.cos (deg2rad dec) * Real.cos (deg2rad ra - deg2rad v1)) * Real.cos (deg2rad dec)
        * Real.sin (deg2rad ra - deg2rad v1)) + c11 / δ * (κ / (Real.sin (deg2rad v2) * Real.sin (deg2rad dec)
        + Real.cos (deg2rad v2) * Real.cos (deg2rad dec) * Real.cos (deg2rad ra - deg2rad v1)) * (Real.cos (deg2rad v2)
        * Real.sin (deg2rad dec) - Real.sin (deg2rad v2) * Real.cos (deg2rad dec) * Real.cos (deg2rad ra - deg2rad v1))) + (p2 - 1))
      = _ from funext fun t => by rw [mul_assoc (κ / _), (e _ 0 _).1, (e _ 0 _).1]]
  have d1 := (lin (c22 / δ) (-c12 / δ) (p1 - 1) gxl gel).deriv
  have d2 := (lin (c22 / δ) (-c12 / δ) (p1 - 1) gxb geb).deriv
  have d3 := (lin (-c21 / δ) (c11 / δ) (p2 - 1) gxl gel).deriv
  have d4 := (lin (-c21 / δ) (c11 / δ) (p2 - 1) gxb geb).deriv
  simp only [Function.comp_def] at d1 d2 d3 d4
  rw [d1, d2, d3, d4]
  have hk : κ * (Real.pi / 180) = 1 := by rw [hκ]; field_simp
  rw [show c11 * c22 - c12 * c21 = δ by rw [hδ]; ring, show dec * (Real.pi / 180) = deg2rad dec from rfl, ← hj]
  have hsplit : ∀ u : ℝ, κ * (u * (Real.pi / 180)) = u := fun u => by linear_combination u * hk
  simp only [hsplit]
  field_simp
  rw [hδ]
  ring

example : ad2xy (initProjection 10 10 1 1 0 0 (-1, 0, 0, 1)) 45 0 = (-(180 / Real.pi), 0) := by
  have h0 : deg2rad 0 = 0 := by unfold deg2rad; ring
  have h1 : deg2rad 45 = Real.pi / 4 := by unfold deg2rad; ring
  have h2 : Real.sqrt 2 ≠ 0 := by positivity
  dsimp only [initProjection, ad2xy, Astrometry.rotate]
  simp only [h0, h1, Real.sin_zero, Real.cos_zero, sub_zero, Real.cos_pi_div_four, Real.sin_pi_div_four, mul_zero, zero_mul, mul_one,
    zero_add, one_mul, sub_self, add_zero, neg_zero, zero_div]
  refine Prod.ext ?_ ?_
  · dsimp only
    field_simp
  · dsimp only

example : (0 : ℝ) < inner ℝ (direction 0 0) (direction 10 0) := by
  rw [inner_ref]
  have h0 : deg2rad 0 = 0 := by unfold deg2rad; ring
  simp only [h0, Real.sin_zero, Real.cos_zero, sub_zero, mul_zero, zero_add, mul_one, one_mul]
  apply Real.cos_pos_of_mem_Ioo
  have := Real.pi_pos
  unfold deg2rad
  constructor <;> linarith

end Verif.Wcs
