import Mathlib.Analysis.SpecialFunctions.Trigonometric.Bounds
import Mathlib.Analysis.SpecialFunctions.Integrals.Basic
import Mathlib.MeasureTheory.Integral.IntervalIntegral.FundThmCalculus
import Mathlib.Analysis.Real.Pi.Bounds
import Mathlib.Tactic

/-! Beams (beams.py). -/

namespace Verif.Operators

open Real

noncomputable section

/-! ### The model -/

/-- beams.py 9-19 and 22: a beam: its value for a colatitude and an azimuth, and the attribute `solid_angle`. -/
structure Beam where
  value : ℝ → ℝ → ℝ
  solidAngle : ℝ

/-- beams.py 56: the attribute `sigma`. -/
def beamSigma (fwhm : ℝ) : ℝ := fwhm / √(8 * log 2)

/-- beams.py 40-69 `BeamGaussian`. -/
def beamGaussian (fwhm : ℝ) (backward : Bool) : Beam where
  value theta _phi :=
    let theta := if backward then π - theta else theta
    let coef := -0.5 / beamSigma fwhm ^ 2
    exp (coef * theta ^ 2)
  solidAngle := 2 * π * beamSigma fwhm ^ 2

/-- beams.py 72-83 `BeamUniformHalfSpace`. -/
def beamUniformHalfSpace : Beam where
  value _theta _phi := 1
  solidAngle := 2 * π

/-! ### The specification -/

/-- The integral of a function over the sphere. -/
def sphereIntegral (f : ℝ → ℝ → ℝ) : ℝ := ∫ phi in (0 : ℝ)..2 * π, ∫ theta in (0 : ℝ)..π, f theta phi * sin theta

/-- The direction of the maximum. -/
def axis (backward : Bool) : ℝ := if backward then π else 0

/-! ### The properties -/

theorem sigma_sq (fwhm : ℝ) : beamSigma fwhm ^ 2 * (8 * log 2) = fwhm ^ 2 := by
  have h : 0 < 8 * log 2 := by have := log_pos (show (1 : ℝ) < 2 by norm_num); positivity
  rw [beamSigma, div_pow, sq_sqrt h.le]
  field_simp

theorem sigma_pos {fwhm : ℝ} (h : 0 < fwhm) : 0 < beamSigma fwhm := by
  have h : 0 < 8 * log 2 := by have := log_pos (show (1 : ℝ) < 2 by norm_num); positivity
  unfold beamSigma
  positivity

/-- C108: the gaussian beam has its maximum, which is one, in the direction of its axis only. -/
theorem C108_maximum {fwhm : ℝ} (h : 0 < fwhm) (backward : Bool) (theta phi : ℝ) :
    (beamGaussian fwhm backward).value (axis backward) phi = 1 ∧
      (theta ≠ axis backward → 0 < (beamGaussian fwhm backward).value theta phi ∧ (beamGaussian fwhm backward).value theta phi < 1) := by
  have hs := sigma_pos h
  constructor
  · cases backward <;> simp [beamGaussian, axis]
  · intro hne
    refine ⟨exp_pos _, ?_⟩
    rw [beamGaussian]
    dsimp only
    rw [exp_lt_one_iff]
    apply mul_neg_of_neg_of_pos
    · rw [neg_div]
      have : (0 : ℝ) < 0.5 / beamSigma fwhm ^ 2 := by positivity
      linarith
    · rw [axis] at hne
      apply sq_pos_of_ne_zero
      split_ifs at hne ⊢
      · exact sub_ne_zero.2 (Ne.symm hne)
      · exact hne

/-- C108: the gaussian beam has half its maximum at half the width from its axis. -/
theorem C108_fwhm {fwhm : ℝ} (h : 0 < fwhm) (backward : Bool) {theta : ℝ} (ht : |theta - axis backward| = fwhm / 2) (phi : ℝ) :
    (beamGaussian fwhm backward).value theta phi = 1 / 2 := by
  have hs := sigma_pos h
  have h2 := sigma_sq fwhm
  rw [beamGaussian]
  dsimp only
  have hsq : (if backward = true then π - theta else theta) ^ 2 = fwhm ^ 2 / 4 := by
    have : (theta - axis backward) ^ 2 = fwhm ^ 2 / 4 := by rw [← sq_abs, ht]; ring
    rw [← this, axis]
    split_ifs <;> ring
  rw [hsq, ← h2, show -0.5 / beamSigma fwhm ^ 2 * (beamSigma fwhm ^ 2 * (8 * log 2) / 4) = -log 2 by field_simp; norm_num, exp_neg, exp_log (by norm_num)]
  norm_num

/-- The integral over the colatitudes. -/
theorem integral_eq (s : ℝ) (hs : 0 < s) : (∫ x in (0 : ℝ)..π, x * exp (-0.5 / s ^ 2 * x ^ 2)) = s ^ 2 * (1 - exp (-0.5 / s ^ 2 * π ^ 2)) := by
  have hd : ∀ x ∈ Set.uIcc 0 π, HasDerivAt (fun x => -(s ^ 2) * exp (-0.5 / s ^ 2 * x ^ 2)) (x * exp (-0.5 / s ^ 2 * x ^ 2)) x := by
    intro x _
    have h1 : HasDerivAt (fun x : ℝ => -0.5 / s ^ 2 * x ^ 2) (-0.5 / s ^ 2 * (2 * x)) x := by
      have := (hasDerivAt_pow 2 x).const_mul (-0.5 / s ^ 2)
      simpa using this
    have h2 := (h1.exp).const_mul (-(s ^ 2))
    have e : x * exp (-0.5 / s ^ 2 * x ^ 2) = -(s ^ 2) * (exp (-0.5 / s ^ 2 * x ^ 2) * (-0.5 / s ^ 2 * (2 * x))) := by
      field_simp
      ring
    rw [e]
    exact h2
  rw [intervalIntegral.integral_eq_sub_of_hasDerivAt hd (Continuous.intervalIntegrable (by fun_prop) _ _)]
  simp
  ring

theorem integral_cube (s : ℝ) (hs : 0 < s) : (∫ x in (0 : ℝ)..π, x ^ 3 * exp (-0.5 / s ^ 2 * x ^ 2)) ≤ 2 * s ^ 4 := by
  have hd : ∀ x ∈ Set.uIcc 0 π, HasDerivAt (fun x => (-(s ^ 2) * x ^ 2 - 2 * s ^ 4) * exp (-0.5 / s ^ 2 * x ^ 2)) (x ^ 3 * exp (-0.5 / s ^ 2 * x ^ 2)) x := by
    intro x _
    have h1 : HasDerivAt (fun x : ℝ => -0.5 / s ^ 2 * x ^ 2) (-0.5 / s ^ 2 * (2 * x)) x := by
      have := (hasDerivAt_pow 2 x).const_mul (-0.5 / s ^ 2)
      simpa using this
    have h0 : HasDerivAt (fun x : ℝ => -(s ^ 2) * x ^ 2 - 2 * s ^ 4) (-(s ^ 2) * (2 * x)) x := by
      have := ((hasDerivAt_pow 2 x).const_mul (-(s ^ 2))).sub_const (2 * s ^ 4)
      simpa using this
    have h2 := h0.mul h1.exp
    have e : x ^ 3 * exp (-0.5 / s ^ 2 * x ^ 2) = -(s ^ 2) * (2 * x) * exp (-0.5 / s ^ 2 * x ^ 2) +
        (-(s ^ 2) * x ^ 2 - 2 * s ^ 4) * (exp (-0.5 / s ^ 2 * x ^ 2) * (-0.5 / s ^ 2 * (2 * x))) := by
      field_simp
      ring
    rw [e]
    exact h2
  rw [intervalIntegral.integral_eq_sub_of_hasDerivAt hd (Continuous.intervalIntegrable (by fun_prop) _ _)]
  have : 0 < exp (-0.5 / s ^ 2 * π ^ 2) := exp_pos _
  have hpi := pi_pos
  have : 0 < (s ^ 2 * π ^ 2 + 2 * s ^ 4) * exp (-0.5 / s ^ 2 * π ^ 2) := by positivity
  simp only [ne_eq, OfNat.ofNat_ne_zero, not_false_eq_true, zero_pow, mul_zero, exp_zero]
  nlinarith

theorem theta_integral (s : ℝ) (hs : 0 < s) :
    (∫ x in (0 : ℝ)..π, exp (-0.5 / s ^ 2 * x ^ 2) * sin x) < s ^ 2 ∧
    s ^ 2 * (1 - s ^ 2 / 3 - exp (-0.5 / s ^ 2 * π ^ 2)) ≤ ∫ x in (0 : ℝ)..π, exp (-0.5 / s ^ 2 * x ^ 2) * sin x := by
  have hpi := pi_pos
  have hE : 0 < exp (-0.5 / s ^ 2 * π ^ 2) := exp_pos _
  constructor
  · have h1 : (∫ x in (0 : ℝ)..π, exp (-0.5 / s ^ 2 * x ^ 2) * sin x) ≤ ∫ x in (0 : ℝ)..π, x * exp (-0.5 / s ^ 2 * x ^ 2) := by
      apply intervalIntegral.integral_mono_on hpi.le (Continuous.intervalIntegrable (by fun_prop) _ _) (Continuous.intervalIntegrable (by fun_prop) _ _)
      intro x hx
      rw [mul_comm x]
      exact mul_le_mul_of_nonneg_left (sin_le hx.1) (exp_pos _).le
    rw [integral_eq s hs] at h1
    have : 0 < s ^ 2 * exp (-0.5 / s ^ 2 * π ^ 2) := by positivity
    nlinarith
  · have h1 : (∫ x in (0 : ℝ)..π, (x * exp (-0.5 / s ^ 2 * x ^ 2) - 1 / 6 * (x ^ 3 * exp (-0.5 / s ^ 2 * x ^ 2)))) ≤ ∫ x in (0 : ℝ)..π, exp (-0.5 / s ^ 2 * x ^ 2) * sin x := by
      apply intervalIntegral.integral_mono_on hpi.le (Continuous.intervalIntegrable (by fun_prop) _ _) (Continuous.intervalIntegrable (by fun_prop) _ _)
      intro x hx
      have := mul_le_mul_of_nonneg_left (sin_ge_sub_cube hx.1) (exp_pos (-0.5 / s ^ 2 * x ^ 2)).le
      linarith
    rw [intervalIntegral.integral_sub (Continuous.intervalIntegrable (by fun_prop) _ _) (Continuous.intervalIntegrable (by fun_prop) _ _),
      intervalIntegral.integral_const_mul, integral_eq s hs] at h1
    have := integral_cube s hs
    nlinarith

/-- The integral of the gaussian beam. -/
theorem sphereIntegral_gaussian (fwhm : ℝ) (backward : Bool) : sphereIntegral (beamGaussian fwhm backward).value =
    2 * π * ∫ x in (0 : ℝ)..π, exp (-0.5 / beamSigma fwhm ^ 2 * x ^ 2) * sin x := by
  unfold sphereIntegral
  have : ∀ phi : ℝ, (∫ theta in (0 : ℝ)..π, (beamGaussian fwhm backward).value theta phi * sin theta) =
      ∫ x in (0 : ℝ)..π, exp (-0.5 / beamSigma fwhm ^ 2 * x ^ 2) * sin x := by
    intro phi
    cases backward
    · rfl
    · have := intervalIntegral.integral_comp_sub_left (a := 0) (b := π) (fun x => exp (-0.5 / beamSigma fwhm ^ 2 * x ^ 2) * sin x) π
      rw [sub_self, sub_zero] at this
      rw [← this]
      apply intervalIntegral.integral_congr
      intro x _
      simp [beamGaussian, sin_pi_sub]
  simp only [this]
  rw [intervalIntegral.integral_const, smul_eq_mul, sub_zero]

/-- C108: the solid angle of the gaussian beam is that of the plane approximation. It is larger than the integral of the beam over the sphere, by a
relative difference that is at most the third of sigma², plus the value of the beam in the direction opposite to its axis. -/
theorem C108_solid_angle_partial {fwhm : ℝ} (h : 0 < fwhm) (backward : Bool) :
    sphereIntegral (beamGaussian fwhm backward).value < (beamGaussian fwhm backward).solidAngle ∧
    (beamGaussian fwhm backward).solidAngle * (1 - (beamSigma fwhm ^ 2 / 3 + (beamGaussian fwhm false).value π 0)) ≤
      sphereIntegral (beamGaussian fwhm backward).value := by
  have hpi := pi_pos
  obtain ⟨h1, h2⟩ := theta_integral _ (sigma_pos h)
  rw [sphereIntegral_gaussian]
  constructor
  · change _ < 2 * π * beamSigma fwhm ^ 2
    exact mul_lt_mul_of_pos_left h1 (by positivity)
  · change 2 * π * beamSigma fwhm ^ 2 * (1 - (beamSigma fwhm ^ 2 / 3 + exp (-0.5 / beamSigma fwhm ^ 2 * π ^ 2))) ≤ _
    have := mul_le_mul_of_nonneg_left h2 (show 0 ≤ 2 * π by positivity)
    linarith

/-- C108 is false for the uniform beam, which covers the whole sphere although its solid angle is that of a half space. -/
theorem C108_violation_uniform : sphereIntegral beamUniformHalfSpace.value = 2 * beamUniformHalfSpace.solidAngle ∧
    ∀ theta phi, beamUniformHalfSpace.value theta phi = 1 := by
  refine ⟨?_, fun _ _ => rfl⟩
  unfold sphereIntegral
  simp only [beamUniformHalfSpace, one_mul, integral_sin, cos_zero, cos_pi, intervalIntegral.integral_const, smul_eq_mul]
  ring

/-- The value of the solid angle of a gaussian beam whose sigma is 0.1 is within 0.4 % of the integral. -/
example : ∃ fwhm : ℝ, 0 < fwhm ∧ beamSigma fwhm = 0.1 := by
  have h : 0 < √(8 * log 2) := by have := log_pos (show (1 : ℝ) < 2 by norm_num); positivity
  exact ⟨0.1 * √(8 * log 2), by positivity, by unfold beamSigma; field_simp⟩

example : |(0.05 : ℝ) - axis false| = 0.1 / 2 := by
  rw [axis]
  norm_num

end

end Verif.Operators
