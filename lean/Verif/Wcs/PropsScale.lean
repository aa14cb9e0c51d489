import Verif.Wcs.PropsHeader
import Mathlib.Analysis.SpecialFunctions.Trigonometric.Angle

set_option linter.unusedSimpArgs false

/-!
The scale and the position angle of a header can be read back (C59), in Python and in Fortran (C87); the presence of a world coordinate
system (C95).
-/
namespace Verif.Wcs
open Verif.Py

theorem rad2deg_deg2rad (x : ℝ) : rad2deg (deg2rad x) = x := by
  unfold rad2deg deg2rad
  field_simp

theorem deg2rad_rad2deg (x : ℝ) : deg2rad (rad2deg x) = x := by
  unfold rad2deg deg2rad
  field_simp

theorem deg2rad_neg (x : ℝ) : deg2rad (-x) = -deg2rad x := by
  unfold deg2rad
  ring

theorem rad2deg_neg (x : ℝ) : rad2deg (-x) = -rad2deg x := by
  unfold rad2deg
  ring

/-- The polar form of the last row of a matrix made from a scale and an angle. -/
theorem arg_mul_cos_sin {c t : ℝ} (hc : 0 < c) (ht : t ∈ Set.Ioc (-Real.pi) Real.pi) :
    Complex.arg ⟨c * Real.cos t, c * Real.sin t⟩ = t := by
  have : (⟨c * Real.cos t, c * Real.sin t⟩ : ℂ) = (c : ℂ) * (Complex.cos t + Complex.sin t * Complex.I) := by
    apply Complex.ext <;> simp [← Complex.ofReal_cos, ← Complex.ofReal_sin]
  rw [this]
  exact Complex.arg_mul_cos_add_sin_mul_I hc ht

theorem cdeltPaOfCd_cdMatrix {c1 c2 pa : ℝ} (h1 : c1 ≠ 0) (h2 : 0 < c2) (hpa : -180 ≤ pa ∧ pa < 180) :
    let m := cdMatrix c1 c2 pa
    cdeltPaOfCd m.1 m.2.1 m.2.2.1 m.2.2.2 = (some c1, c2, pa) := by
  dsimp only [cdMatrix]
  unfold cdeltPaOfCd
  dsimp only
  have hcs := Real.cos_sq_add_sin_sq (deg2rad (-pa))
  have hdet : c1 * Real.cos (deg2rad (-pa)) * (c2 * Real.cos (deg2rad (-pa)))
      - c1 * Real.sin (deg2rad (-pa)) * (c2 * -Real.sin (deg2rad (-pa))) = c1 * c2 := by
    linear_combination c1 * c2 * hcs
  have hr1 : (c1 * Real.cos (deg2rad (-pa))) ^ 2 + (c1 * Real.sin (deg2rad (-pa))) ^ 2 = c1 ^ 2 := by
    linear_combination c1 ^ 2 * hcs
  have hr2 : (c2 * Real.cos (deg2rad (-pa))) ^ 2 + (c2 * -Real.sin (deg2rad (-pa))) ^ 2 = c2 ^ 2 := by
    linear_combination c2 ^ 2 * hcs
  rw [hdet, hr1, hr2, if_neg (mul_ne_zero h1 h2.ne'), Real.sqrt_sq_eq_abs, Real.sqrt_sq h2.le, mul_neg, neg_neg]
  rw [arg_mul_cos_sin h2]
  · congr 1
    · congr 1
      rw [abs_mul, abs_of_pos h2]
      have : |c1| ≠ 0 := abs_ne_zero.2 h1
      have := h2.ne'
      field_simp
    · congr 1
      rw [deg2rad_neg, neg_neg, rad2deg_deg2rad]
  · have := Real.pi_pos
    unfold deg2rad
    constructor <;> nlinarith

/-- The values of the cards of the world coordinate system. -/
theorem wcsCards_get {h h' : Header} {naxes : List Int} {a : WcsArgs} {cd : ℝ × ℝ × ℝ × ℝ} (hok : wcsCards h naxes a cd = .ok h') :
    h'.get? "CD1_1" = some (.real cd.1) ∧ h'.get? "CD1_2" = some (.real cd.2.1) ∧ h'.get? "CD2_1" = some (.real cd.2.2.1) ∧
    h'.get? "CD2_2" = some (.real cd.2.2.2) ∧
    (∃ v1 v2, a.crval = [v1, v2] ∧ h'.get? "CRVAL1" = some (.real v1) ∧ h'.get? "CRVAL2" = some (.real v2)) ∧
    (∃ p1 p2, refPixel naxes a.crpix = [p1, p2] ∧
      h'.get? "CRPIX1" = some (.real p1) ∧ h'.get? "CRPIX2" = some (.real p2)) ∧
    (∃ t1 t2, a.ctype = some [t1, t2] ∧ h'.get? "CTYPE1" = some (.str t1) ∧ h'.get? "CTYPE2" = some (.str t2)) ∧
    (∃ u1 u2, h'.get? "CUNIT1" = some (.str u1) ∧ h'.get? "CUNIT2" = some (.str u2)) := by
  unfold wcsCards at hok
  split at hok
  · rename_i v1 v2 hv
    dsimp only at hok
    split at hok
    · rename_i p1 p2 hp
      split at hok
      · exact absurd hok (by simp)
      · rename_i t1 t2 ht
        split at hok
        · rename_i u1 u2 hu
          simp only [Except.ok.injEq] at hok
          refine ⟨?_, ?_, ?_, ?_, ⟨v1, v2, hv, ?_, ?_⟩, ⟨p1, p2, hp, ?_, ?_⟩, ⟨t1, t2, ht, ?_, ?_⟩, ⟨u1, u2, ?_, ?_⟩⟩ <;>
            (subst hok; split <;> split <;> simp [get?_put_ne, get?_put_self])
        · exact absurd hok (by simp)
      · exact absurd hok (by simp)
    · exact absurd hok (by simp)
  · exact absurd hok (by simp)

theorem createFitsheader_wcs {naxes : List Int} {d : Option DType} {e : Option String} {a : WcsArgs} {h : Header}
    (hcd : a.cd = none) {c : ScalarOr ℝ} (hc : a.cdelt = some c) (hok : createFitsheader (some naxes) d e a = .ok h) :
    ∃ c1 c2 h0, cdeltPair a.ctype c = [c1, c2] ∧ wcsCards h0 naxes a (cdMatrix c1 c2 (a.pa.getD 0)) = .ok h := by
  unfold createFitsheader at hok
  dsimp only at hok
  split at hok
  · exact absurd hok (by simp)
  · split at hok
    · exact absurd hok (by simp)
    · unfold addWcs at hok
      rw [hcd, hc] at hok
      dsimp only at hok
      split at hok
      · rename_i c1 c2 hp
        exact ⟨c1, c2, _, hp, hok⟩
      · exact absurd hok (by simp)

theorem getReal_real {h : Header} {k : String} {x : ℝ} (hk : h.get? k = some (.real x)) : h.getReal k = .ok x := by
  unfold Header.getReal
  rw [hk]

theorem readReal_real {h : Header} {k : String} {x : ℝ} (hk : h.get? k = some (.real x)) : h.readReal k = .ok (some x) := by
  unfold Header.readReal
  rw [hk]

theorem readStr_str {h : Header} {k s : String} (hk : h.get? k = some (.str s)) : h.readStr k = .ok s := by
  unfold Header.readStr
  rw [hk]

theorem getInt_int {h : Header} {k : String} {n : Int} (hk : h.get? k = some (.int n)) : h.getInt k = .ok n := by
  unfold Header.getInt
  rw [hk]

theorem getCdeltPa_cd {h : Header} {a b c d : ℝ} (h1 : h.get? "CD1_1" = some (.real a)) (h2 : h.get? "CD1_2" = some (.real b))
    (h3 : h.get? "CD2_1" = some (.real c)) (h4 : h.get? "CD2_2" = some (.real d)) : getCdeltPa h = .ok (cdeltPaOfCd a b c d) := by
  unfold getCdeltPa
  rw [getReal_real h1, getReal_real h2, getReal_real h3, getReal_real h4]
  rfl

/-- C59: the scale along each axis and the position angle given to `create_fitsheader` are returned by `get_cdelt_pa`. -/
theorem C59_read_back {naxes : List Int} {d : Option DType} {e : Option String} {a : WcsArgs} {h : Header} {c1 c2 pa : ℝ}
    (hcd : a.cd = none) (hc : a.cdelt = some (.seq [c1, c2])) (hpa : a.pa = some pa)
    (hok : createFitsheader (some naxes) d e a = .ok h) (h1 : c1 ≠ 0) (h2 : 0 < c2) (hr : -180 ≤ pa ∧ pa < 180) :
    getCdeltPa h = .ok (some c1, c2, pa) := by
  obtain ⟨x1, x2, h0, hp, hw⟩ := createFitsheader_wcs hcd hc hok
  simp only [cdeltPair, List.cons.injEq, and_true] at hp
  obtain ⟨rfl, rfl⟩ := hp
  obtain ⟨e1, e2, e3, e4, -⟩ := wcsCards_get hw
  rw [getCdeltPa_cd e1 e2 e3 e4, hpa, Option.getD_some, cdeltPaOfCd_cdMatrix h1 h2 hr]

/-- C59: a scalar scale is the scale of the second axis, and of the first one towards the decreasing right ascensions. -/
theorem C59_read_back_scalar {naxes : List Int} {d : Option DType} {e : Option String} {a : WcsArgs} {h : Header} {c : ℝ}
    (hcd : a.cd = none) (hc : a.cdelt = some (.scalar c)) (hok : createFitsheader (some naxes) d e a = .ok h) (h0 : 0 < c)
    (hr : -180 ≤ a.pa.getD 0 ∧ a.pa.getD 0 < 180) :
    getCdeltPa h = .ok (some (if a.ctype = some ["RA---TAN", "DEC--TAN"] then -c else c), c, a.pa.getD 0) := by
  obtain ⟨x1, x2, h1, hp, hw⟩ := createFitsheader_wcs hcd hc hok
  obtain ⟨e1, e2, e3, e4, -, -, ⟨t1, t2, ht, -⟩, -⟩ := wcsCards_get hw
  rw [getCdeltPa_cd e1 e2 e3 e4]
  rw [ht] at hp ⊢
  unfold cdeltPair at hp
  dsimp only at hp
  simp only [Option.some.injEq]
  split at hp
  · rename_i hl
    simp only [List.cons.injEq, and_true] at hp
    rw [← hp.1, ← hp.2, cdeltPaOfCd_cdMatrix (neg_ne_zero.2 h0.ne') h0 hr, if_pos hl]
  · rename_i hl
    simp only [List.cons.injEq, and_true] at hp
    rw [← hp.1, ← hp.2, cdeltPaOfCd_cdMatrix h0.ne' h0 hr, if_neg hl]

/-- C59: for any scales and any angle, the values read back describe the same matrix; the second scale is positive and the angle is in the
principal range. -/
theorem C59_same_matrix {c1 c2 : ℝ} (pa : ℝ) (h1 : c1 ≠ 0) (h2 : c2 ≠ 0) {r : Option ℝ × ℝ × ℝ}
    (hr : r = cdeltPaOfCd (cdMatrix c1 c2 pa).1 (cdMatrix c1 c2 pa).2.1 (cdMatrix c1 c2 pa).2.2.1 (cdMatrix c1 c2 pa).2.2.2) :
    (∃ x, r.1 = some x ∧ cdMatrix x r.2.1 r.2.2 = cdMatrix c1 c2 pa) ∧ 0 < r.2.1 ∧ -180 ≤ r.2.2 ∧ r.2.2 < 180 := by
  -- the same matrix from a positive second scale and an angle in the principal range
  obtain ⟨x, t, hx, ht, hm⟩ : ∃ x t : ℝ, x ≠ 0 ∧ (-180 ≤ t ∧ t < 180) ∧ cdMatrix x |c2| t = cdMatrix c1 c2 pa := by
    set th := deg2rad (-pa) with hth
    obtain ⟨s, hs, hs2⟩ : ∃ s : ℝ, s * s = 1 ∧ s * |c2| = c2 := by
      rcases lt_or_gt_of_ne h2 with h | h
      · exact ⟨-1, by norm_num, by rw [abs_of_neg h]; ring⟩
      · exact ⟨1, by norm_num, by rw [abs_of_pos h]; ring⟩
    set z : ℂ := ⟨s * Real.cos th, s * Real.sin th⟩ with hz
    have hnorm : ‖z‖ = 1 := by
      rw [Complex.norm_eq_sqrt_sq_add_sq, hz]
      dsimp only
      rw [show (s * Real.cos th) ^ 2 + (s * Real.sin th) ^ 2 = 1 by
        linear_combination (s * s) * Real.cos_sq_add_sin_sq th + hs, Real.sqrt_one]
    have hz0 : z ≠ 0 := fun h => by rw [h, norm_zero] at hnorm; exact zero_ne_one hnorm
    have hc : Real.cos (Complex.arg z) = s * Real.cos th := by rw [Complex.cos_arg hz0, hnorm, div_one, hz]
    have hsn : Real.sin (Complex.arg z) = s * Real.sin th := by rw [Complex.sin_arg, hnorm, div_one, hz]
    refine ⟨s * c1, -rad2deg (Complex.arg z), mul_ne_zero (fun h => by rw [h] at hs; norm_num at hs) h1, ?_, ?_⟩
    · have hm := Complex.arg_mem_Ioc z
      have hpi := Real.pi_pos
      have hl : rad2deg (Complex.arg z) ≤ 180 := by
        unfold rad2deg
        rw [mul_div_assoc', div_le_iff₀ hpi]
        nlinarith [hm.2]
      have hg : -180 < rad2deg (Complex.arg z) := by
        unfold rad2deg
        rw [mul_div_assoc', lt_div_iff₀ hpi]
        nlinarith [hm.1]
      constructor <;> linarith
    · have key : deg2rad (- -rad2deg (Complex.arg z)) = Complex.arg z := by rw [neg_neg, deg2rad_rad2deg]
      have e2 : ∀ u : ℝ, |c2| * (s * u) = c2 * u := fun u => by linear_combination u * hs2
      have e1 : ∀ u : ℝ, s * c1 * (s * u) = c1 * u := fun u => by linear_combination c1 * u * hs
      unfold cdMatrix
      simp only [key, hc, hsn, ← mul_neg, e1, e2, ← hth]
  rw [← hm, cdeltPaOfCd_cdMatrix hx (abs_pos.2 h2) ht] at hr
  subst hr
  exact ⟨⟨x, rfl, hm⟩, abs_pos.2 h2, ht⟩

/-- C59: when `create_fitsheader` makes a header from a scale and an angle. -/
theorem C59_exists {naxes : List Int} (hn : naxes.length ≤ 8) {d : Option DType} {b : Int}
    (hb : dtype2bitpix.lookup ((d.map DType.name).getD "float64") = some b) (e : Option String) {a : WcsArgs}
    (hcd : a.cd = none) {c1 c2 : ℝ} (hc : a.cdelt = some (.seq [c1, c2])) (hv : a.crval.length = 2)
    (hp : match a.crpix with | none => naxes.length = 2 | some l => l.length = 2)
    (ht : ∃ t, a.ctype = some t ∧ t.length = 2)
    (hu : match a.cunit with | .scalar _ => True | .seq l => l.length = 2) :
    ∃ h, createFitsheader (some naxes) d e a = .ok h := by
  obtain ⟨t, ht, ht2⟩ := ht
  obtain ⟨t1, t2, rfl⟩ := List.length_eq_two.1 ht2
  obtain ⟨v1, v2, hv⟩ := List.length_eq_two.1 hv
  obtain ⟨p1, p2, hp⟩ : ∃ p1 p2, refPixel naxes a.crpix = [p1, p2] := by
    apply List.length_eq_two.1
    unfold refPixel
    split at hp <;> simp_all
  obtain ⟨u1, u2, hu⟩ : ∃ u1 u2, unitPair a.cunit = [u1, u2] := by
    apply List.length_eq_two.1
    unfold unitPair
    split at hu <;> simp_all
  unfold createFitsheader
  dsimp only
  rw [if_neg (by omega), hb]
  dsimp only
  unfold addWcs
  rw [hcd, hc]
  simp only [cdeltPair]
  unfold wcsCards
  rw [hv]
  dsimp only
  rw [hp, ht]
  dsimp only
  rw [hu]
  exact ⟨_, rfl⟩

/-- The matrix of the pixel increments cannot be given: whatever the other arguments, `create_fitsheader` raises. -/
theorem C59_violation_cd (naxes : Option (List Int)) (d : Option DType) (e : Option String) (a : WcsArgs) {cd : List (List ℝ)}
    (hcd : a.cd = some cd) (h : Header) : createFitsheader naxes d e a ≠ .ok h := by
  unfold createFitsheader
  cases naxes with
  | none => simp
  | some naxes =>
    dsimp only
    split
    · simp
    · split
      · simp
      · unfold addWcs
        rw [hcd]
        dsimp only
        repeat' split
        all_goals simp

/-- A position angle of 180 degrees is read back as -180 degrees. -/
theorem C59_upper_end {c1 c2 : ℝ} (h1 : c1 ≠ 0) (h2 : 0 < c2) :
    cdeltPaOfCd (cdMatrix c1 c2 180).1 (cdMatrix c1 c2 180).2.1 (cdMatrix c1 c2 180).2.2.1 (cdMatrix c1 c2 180).2.2.2
      = (some c1, c2, -180) := by
  have hm : cdMatrix c1 c2 180 = cdMatrix c1 c2 (-180) := by
    have e : deg2rad 180 = Real.pi := by unfold deg2rad; ring
    unfold cdMatrix
    simp [deg2rad_neg, e]
  rw [hm]
  exact cdeltPaOfCd_cdMatrix h1 h2 ⟨le_rfl, by norm_num⟩

example : ∃ h, createFitsheader (some [100, 50]) none none { cdelt := some (.seq [-(1 / 10), 1 / 10]), pa := some (-30) } = .ok h ∧
    getCdeltPa h = .ok (some (-(1 / 10)), 1 / 10, -30) := by
  obtain ⟨h, hh⟩ := C59_exists (naxes := [100, 50]) (by simp) (d := none) (b := -64) (by decide) none
    (a := { cdelt := some (.seq [-(1 / 10), 1 / 10]), pa := some (-30) }) rfl rfl (by simp) (by simp)
    ⟨["RA---TAN", "DEC--TAN"], rfl, by simp⟩ (by simp)
  exact ⟨h, hh, C59_read_back rfl rfl rfl hh (by norm_num) (by norm_num) ⟨by norm_num, by norm_num⟩⟩

/-! ### The header read in Fortran -/

/-- C87: Fortran and Python extract the same scales and the same angle of a matrix. -/
theorem C87_python_fortran {c11 c12 c21 c22 : ℝ} (hdet : c11 * c22 - c12 * c21 ≠ 0) :
    (cdeltPaOfCd c11 c12 c21 c22).1 = some (cdInfo c11 c12 c21 c22).1 ∧
    (cdeltPaOfCd c11 c12 c21 c22).2.1 = (cdInfo c11 c12 c21 c22).2.1 ∧
    (cdeltPaOfCd c11 c12 c21 c22).2.2 = -(cdInfo c11 c12 c21 c22).2.2 := by
  unfold cdeltPaOfCd cdInfo
  dsimp only
  rw [if_neg hdet, mul_comm c21 c12, abs_of_nonneg (Real.sqrt_nonneg _)]
  refine ⟨?_, rfl, rad2deg_neg _⟩
  congr 1
  split
  · rename_i h
    rw [abs_of_nonneg h, div_self hdet, one_mul]
  · rename_i h
    rw [abs_of_neg (not_le.1 h), div_neg, div_self hdet]
    ring

/-- C87: the astrometry read in Fortran from a header made by `create_fitsheader`: the pixel (x, y), counted from zero, of the plane
coordinates (xsi, eta) is the one whose offset to the reference pixel is taken to (xsi, eta) by the matrix of the header. -/
theorem C87_pixel {nx ny : Int} {d : Option DType} {e : Option String} {a : WcsArgs} {h : Header} {c1 c2 pa v1 v2 p1 p2 : ℝ}
    (hcd : a.cd = none) (hc : a.cdelt = some (.seq [c1, c2])) (hpa : a.pa = some pa)
    (hct : a.ctype = some ["RA---TAN", "DEC--TAN"]) (hv : a.crval = [v1, v2]) (hp : a.crpix = some [p1, p2])
    (hok : createFitsheader (some [nx, ny]) d e a = .ok h) (h1 : c1 ≠ 0) (h2 : c2 ≠ 0) :
    ∃ m, initAstrometry h = .ok m ∧ m.nx = nx ∧ m.ny = ny ∧ m.lambda0 = deg2rad v1 ∧ m.cosphi1 = Real.cos (deg2rad v2) ∧
      m.sinphi1 = Real.sin (deg2rad v2) ∧
      ∀ xsi eta : ℝ, let x := (m.rotate xsi eta).1; let y := (m.rotate xsi eta).2
        let t := deg2rad (-pa)
        c1 * (Real.cos t * (x - (p1 - 1)) + Real.sin t * (y - (p2 - 1))) = xsi ∧
        c2 * (-Real.sin t * (x - (p1 - 1)) + Real.cos t * (y - (p2 - 1))) = eta := by
  obtain ⟨hn, hax⟩ := createFitsheader_axes hok
  obtain ⟨x1, x2, h0, hpr, hw⟩ := createFitsheader_wcs hcd hc hok
  simp only [cdeltPair, List.cons.injEq, and_true] at hpr
  obtain ⟨rfl, rfl⟩ := hpr
  obtain ⟨e1, e2, e3, e4, ⟨w1, w2, ew, ev1, ev2⟩, ⟨q1, q2, eq, ep1, ep2⟩, ⟨t1, t2, et, et1, et2⟩, -⟩ := wcsCards_get hw
  rw [hv] at ew
  simp only [List.cons.injEq, and_true] at ew
  obtain ⟨rfl, rfl⟩ := ew
  rw [hp] at eq
  simp only [refPixel, List.cons.injEq, and_true] at eq
  obtain ⟨rfl, rfl⟩ := eq
  rw [hct] at et
  simp only [Option.some.injEq, List.cons.injEq, and_true] at et
  obtain ⟨rfl, rfl⟩ := et
  have n1 : h.get? "NAXIS1" = some (.int nx) := hax 0 nx rfl
  have n2 : h.get? "NAXIS2" = some (.int ny) := hax 1 ny rfl
  refine ⟨initProjection nx ny p1 p2 v1 v2 (cdMatrix c1 c2 pa), ?_, rfl, rfl, rfl, rfl, rfl, ?_⟩
  · unfold initAstrometry
    rw [getInt_int n1, getInt_int n2, getReal_real ep1, getReal_real ep2, getReal_real ev1, getReal_real ev2, readReal_real e1,
      readReal_real e2, readReal_real e3, readReal_real e4, readStr_str et1, readStr_str et2, hpa]
    rfl
  · intro xsi eta
    dsimp only [Astrometry.rotate, initProjection, cdMatrix]
    set t := deg2rad (-pa)
    have hcs := Real.cos_sq_add_sin_sq t
    have hdet : c1 * Real.cos t * (c2 * Real.cos t) - c2 * -Real.sin t * (c1 * Real.sin t) = c1 * c2 := by
      linear_combination c1 * c2 * hcs
    rw [hdet]
    constructor
    · field_simp
      linear_combination c2 * xsi * hcs
    · field_simp
      linear_combination c1 * eta * hcs

/-- C87: the matrix that Fortran derives from CDELT1, CDELT2 and CROTA2 is the matrix of `create_fitsheader` for the same scales and the
position angle that `get_cdelt_pa` reads from these keywords, only if there is no rotation or the two scales are equal. -/
theorem C87_crota_iff {c1 c2 r : ℝ} :
    cdOfCrota c1 c2 r = cdMatrix c1 c2 (-r) ↔ Real.sin (deg2rad r) = 0 ∨ c1 = c2 := by
  unfold cdOfCrota cdMatrix
  simp only [neg_neg, Prod.mk.injEq]
  constructor
  · rintro ⟨-, h, -, -⟩
    by_cases hs : Real.sin (deg2rad r) = 0
    · exact Or.inl hs
    · right
      have : Real.sin (deg2rad r) * (c1 - c2) = 0 := by linear_combination -h
      rcases mul_eq_zero.1 this with h | h
      · exact absurd h hs
      · linarith
  · rintro (h | rfl)
    · simp [h, mul_comm]
    · refine ⟨by ring, by ring, by ring, by ring⟩

/-- C87 does not hold: the header CDELT1 = -1, CDELT2 = 1, CROTA2 = 90 is read in Fortran with the opposite rotation. -/
theorem C87_violation_crota : cdOfCrota (-1) 1 90 = (0, 1, 1, 0) ∧ cdMatrix (-1) 1 (-90) = (0, -1, -1, 0) := by
  have e : deg2rad 90 = Real.pi / 2 := by unfold deg2rad; ring
  unfold cdOfCrota cdMatrix
  simp [e]

/-- C87, without rotation the two descriptions give the same matrix. -/
theorem C87_partial (c1 c2 : ℝ) : cdOfCrota c1 c2 0 = cdMatrix c1 c2 0 := by
  unfold cdOfCrota cdMatrix
  simp [deg2rad, mul_comm]

/-- C87: the header that has the keywords CDELT1, CDELT2 and CROTA2 only, as read by `get_cdelt_pa`. -/
theorem C87_crota_python {h : Header} {c1 c2 r : ℝ} (hcd : h.get? "CD1_1" = none) (h1 : h.get? "CDELT1" = some (.real c1))
    (h2 : h.get? "CDELT2" = some (.real c2)) (h3 : h.get? "CROTA2" = some (.real r)) : getCdeltPa h = .ok (some c1, c2, -r) := by
  unfold getCdeltPa
  rw [show h.getReal "CD1_1" = .error .keyError by unfold Header.getReal; rw [hcd], getReal_real h1, getReal_real h2, getReal_real h3]
  rfl

/-! ### The presence of a world coordinate system -/

theorem basicCards_none (naxes : List Int) (b : Option Int) (e : Option String) {k : String} (hk : ∀ i, k ≠ axisKey "NAXIS" i)
    (hk2 : k ∉ ["SIMPLE", "XTENSION", "BITPIX", "NAXIS", "EXTEND", "PCOUNT", "GCOUNT", "EXTNAME"]) :
    (basicCards naxes b e).get? k = none := by
  simp only [List.mem_cons, List.not_mem_nil, or_false, not_or] at hk2
  obtain ⟨k1, k2, k3, k4, k5, k6, k7, k8⟩ := hk2
  unfold basicCards
  have s1 : ∀ v, Header.get? [("SIMPLE", v)] k = none := fun v => by simp [Header.get?, Ne.symm k1]
  have s2 : ∀ v, Header.get? [("XTENSION", v)] k = none := fun v => by simp [Header.get?, Ne.symm k2]
  cases e <;> cases b <;> dsimp only <;>
    simp only [get?_put_ne _ _ k3, get?_put_ne _ _ k4, get?_put_ne _ _ k5, get?_put_ne _ _ k6, get?_put_ne _ _ k7, get?_put_ne _ _ k8,
      get?_foldl_axes _ _ _ _ hk, s1, s2]

/-- C95: the header of a two-dimensional array has a world coordinate system exactly when a scale has been given. -/
theorem C95_two_axes {nx ny : Int} {d : Option DType} {e : Option String} {a : WcsArgs} {h : Header}
    (hok : createFitsheader (some [nx, ny]) d e a = .ok h) : hasWcs h = .ok a.cdelt.isSome := by
  obtain ⟨hn, hax⟩ := createFitsheader_axes hok
  unfold hasWcs
  rw [getInt_int hn]
  change Except.ok ((List.range 2).all fun i => ["CRPIX", "CRVAL", "CTYPE"].all fun r => (h.get? (axisKey r i)).isSome) = _
  congr 1
  rw [show List.range 2 = [0, 1] from rfl]
  cases hcd : a.cd with
  | some cd => exact absurd hok (C59_violation_cd _ _ _ _ hcd h)
  | none =>
    cases hc : a.cdelt with
    | some c =>
      obtain ⟨c1, c2, h0, -, hw⟩ := createFitsheader_wcs hcd hc hok
      obtain ⟨-, -, -, -, ⟨w1, w2, -, ev1, ev2⟩, ⟨q1, q2, -, ep1, ep2⟩, ⟨t1, t2, -, et1, et2⟩, -⟩ := wcsCards_get hw
      have k : ∀ s : String, axisKey s 0 = s ++ "1" ∧ axisKey s 1 = s ++ "2" := fun s => ⟨rfl, rfl⟩
      simp only [List.all_cons, List.all_nil, (k _).1, (k _).2, Bool.and_true, Option.isSome_some]
      have f1 : h.get? ("CRPIX" ++ "1") = some (.real q1) := ep1
      have f2 : h.get? ("CRPIX" ++ "2") = some (.real q2) := ep2
      have f3 : h.get? ("CRVAL" ++ "1") = some (.real w1) := ev1
      have f4 : h.get? ("CRVAL" ++ "2") = some (.real w2) := ev2
      have f5 : h.get? ("CTYPE" ++ "1") = some (.str t1) := et1
      have f6 : h.get? ("CTYPE" ++ "2") = some (.str t2) := et2
      rw [f1, f2, f3, f4, f5, f6]
      rfl
    | none =>
      unfold createFitsheader at hok
      dsimp only at hok
      split at hok
      · exact absurd hok (by simp)
      · split at hok
        · exact absurd hok (by simp)
        · unfold addWcs at hok
          rw [hcd, hc] at hok
          simp only [Except.ok.injEq] at hok
          subst hok
          have f1 : (basicCards [nx, ny] (some ‹Int›) e).get? (axisKey "CRPIX" 0) = none := by
            apply basicCards_none
            · intro i h
              exact axisKey_ne_of_prefix (key := "NAXIS") i (by decide) h.symm
            · decide
          rw [List.all_cons, List.all_cons, f1]
          rfl

/-- C95: the header of a cube is said to have no world coordinate system, although it has one along its first two axes. -/
theorem C95_violation_cube {n1 n2 n3 : Int} {d : Option DType} {e : Option String} {a : WcsArgs} {h : Header} {c : ScalarOr ℝ}
    (hc : a.cdelt = some c) (hok : createFitsheader (some [n1, n2, n3]) d e a = .ok h) :
    hasWcs h = .ok false ∧ (h.get? "CRPIX1").isSome ∧ (h.get? "CRVAL2").isSome := by
  obtain ⟨hn, hax⟩ := createFitsheader_axes hok
  cases hcd : a.cd with
  | some cd => exact absurd hok (C59_violation_cd _ _ _ _ hcd h)
  | none =>
    obtain ⟨c1, c2, h0, -, hw⟩ := createFitsheader_wcs hcd hc hok
    obtain ⟨-, -, -, -, ⟨w1, w2, -, ev1, ev2⟩, ⟨q1, q2, -, ep1, ep2⟩, ⟨t1, t2, -, et1, et2⟩, -⟩ := wcsCards_get hw
    refine ⟨?_, by rw [ep1]; rfl, by rw [ev2]; rfl⟩
    have f : h.get? (axisKey "CRPIX" 2) = none := by
      unfold createFitsheader at hok
      dsimp only at hok
      split at hok
      · exact absurd hok (by simp)
      · split at hok
        · exact absurd hok (by simp)
        · rw [addWcs_get? hok (by decide)]
          apply basicCards_none
          · intro i h
            exact axisKey_ne_of_prefix (key := "NAXIS") i (by decide) h.symm
          · decide
    unfold hasWcs
    rw [getInt_int hn]
    change Except.ok ((List.range 3).all fun i => ["CRPIX", "CRVAL", "CTYPE"].all fun r => (h.get? (axisKey r i)).isSome) = _
    congr 1
    rw [show List.range 3 = [0, 1, 2] from rfl]
    simp only [List.all_cons, List.all_nil, f]
    simp

/-- C95: the header made without data cannot be asked. -/
theorem C95_violation_empty {d : Option DType} {e : Option String} {a : WcsArgs} {h : Header}
    (hok : createFitsheader (some []) d e a = .ok h) : hasWcs h = .error .valueError := by
  obtain ⟨hn, -⟩ := createFitsheader_axes hok
  unfold hasWcs
  rw [getInt_int hn]
  rfl

example : ∃ h m, createFitsheader (some [100, 50]) none none
      { cdelt := some (.seq [-1, 1]), pa := some 30, crval := [10, 20], crpix := some [50, 25] } = .ok h ∧
    initAstrometry h = .ok m ∧ m.rotate 0 0 = (49, 24) ∧ hasWcs h = .ok true := by
  obtain ⟨h, hh⟩ := C59_exists (naxes := [100, 50]) (by simp) (d := none) (b := -64) (by decide) none
    (a := { cdelt := some (.seq [-1, 1]), pa := some 30, crval := [10, 20], crpix := some [50, 25] }) rfl rfl (by simp) (by simp)
    ⟨["RA---TAN", "DEC--TAN"], rfl, by simp⟩ (by simp)
  obtain ⟨m, hm, -, -, -, -, -, hp⟩ := C87_pixel rfl rfl rfl rfl rfl rfl hh (by norm_num) (by norm_num)
  refine ⟨h, m, hh, hm, ?_, C95_two_axes hh⟩
  obtain ⟨e1, e2⟩ := hp 0 0
  set t := deg2rad (-30)
  have hcs := Real.cos_sq_add_sin_sq t
  apply Prod.ext
  · linear_combination (-Real.cos t) * e1 - Real.sin t * e2 + (49 - (m.rotate 0 0).1) * hcs
  · linear_combination (-Real.sin t) * e1 + Real.cos t * e2 + (24 - (m.rotate 0 0).2) * hcs

example : ∃ h, createFitsheader (some [4, 5, 6]) none none { cdelt := some (.seq [-1, 1]), crpix := some [1, 1] } = .ok h ∧
    hasWcs h = .ok false := by
  obtain ⟨h, hh⟩ := C59_exists (naxes := [4, 5, 6]) (by simp) (d := none) (b := -64) (by decide) none
    (a := { cdelt := some (.seq [-1, 1]), crpix := some [1, 1] }) rfl rfl (by simp) (by simp)
    ⟨["RA---TAN", "DEC--TAN"], rfl, by simp⟩ (by simp)
  exact ⟨h, hh, (C95_violation_cube rfl hh).1⟩

/-- The flipped matrix with rows (-3, 0) and (0, 4): the scales are -3 and 4. -/
example : (cdInfo (-3) 0 0 4).1 = -3 ∧ (cdeltPaOfCd (-3) 0 0 4).1 = some (-3) := by
  have h3 : Real.sqrt 9 = 3 := by rw [show (9 : ℝ) = 3 ^ 2 by norm_num]; exact Real.sqrt_sq (by norm_num)
  have h : (cdInfo (-3) 0 0 4).1 = -3 := by
    unfold cdInfo
    norm_num [h3]
  exact ⟨h, by rw [(C87_python_fortran (c11 := -3) (c12 := 0) (c21 := 0) (c22 := 4) (by norm_num)).1, h]⟩

end Verif.Wcs
