import Verif.Py.Basic
import Mathlib.Analysis.SpecialFunctions.Log.Basic
import Mathlib.Analysis.SpecialFunctions.Pow.Real
import Mathlib.Tactic

/-! The convolution of Healpix maps by a gaussian kernel (interfaces/healpy/operators.py 283-355). The smoothing itself belongs to the library. -/

namespace Verif.Healpix

open Verif.Py

noncomputable section

/-! ### The model -/

/-- The operator that is obtained: the identity, or a convolution and its widths. -/
inductive Convolution where
  | identity
  | gaussian (fwhm sigma : ℝ)

/-- operators.py 292-335 `HealpixConvolutionGaussianOperator.__init__`. -/
def convolutionGaussian (fwhm sigma : Option ℝ) : Res Convolution :=
  if fwhm = none ∧ sigma = none then .error .valueError
  else if fwhm ≠ none ∧ sigma ≠ none then .error .valueError
  else if (∃ f, fwhm = some f ∧ f < 0) ∨ ∃ s, sigma = some s ∧ s < 0 then .error .valueError
  else if (fwhm = some 0 ∨ fwhm = none) ∧ (sigma = some 0 ∨ sigma = none) then .ok .identity
  else
    let fwhm' := match fwhm with
      | some f => f
      | none => sigma.getD 0 * Real.sqrt (8 * Real.log 2)
    let sigma' := match sigma with
      | some s => s
      | none => fwhm' / Real.sqrt (8 * Real.log 2)
    .ok (.gaussian fwhm' sigma')

/-- `numpy.round`: the nearest integer, the even one for the halves. -/
def roundHalfEven (x : ℝ) : ℤ := if x - ⌊x⌋ < 1 / 2 then ⌊x⌋ else if 1 / 2 < x - ⌊x⌋ then ⌊x⌋ + 1 else if ⌊x⌋ % 2 = 0 then ⌊x⌋ else ⌊x⌋ + 1

/-- operators.py 347-355 `validatein`; no test of the dimensions of a shape reads the second one. -/
def validatein (shape : List Nat) : Res Unit :=
  if shape.length = 0 ∨ shape.length > 2 then .error .valueError
  else
    let n : Nat := shape.headD 0
    let nside := roundHalfEven (Real.sqrt (n / 12))
    if 12 * nside ^ 2 ≠ (n : ℤ) then .error .valueError else .ok ()

/-! ### The properties -/

theorem log_pos : 0 < 8 * Real.log 2 := by
  have := Real.log_pos (show (1 : ℝ) < 2 by norm_num)
  linarith

/-- C112: the width is the one that is given by the full width at half maximum or by the standard deviation, and the other one is consistent: at half
the full width, a gaussian of this deviation has decreased by half. -/
theorem C112_widths {w : ℝ} (hw : 0 < w) :
    (∃ s, convolutionGaussian (some w) none = .ok (.gaussian w s) ∧ 0 < s ∧ Real.exp (-(w / 2) ^ 2 / (2 * s ^ 2)) = 1 / 2) ∧
    ∃ f, convolutionGaussian none (some w) = .ok (.gaussian f w) ∧ 0 < f ∧ Real.exp (-(f / 2) ^ 2 / (2 * w ^ 2)) = 1 / 2 := by
  have hl := log_pos
  have hs : 0 < Real.sqrt (8 * Real.log 2) := Real.sqrt_pos.2 hl
  have hsq : Real.sqrt (8 * Real.log 2) ^ 2 = 8 * Real.log 2 := Real.sq_sqrt hl.le
  have hhalf : Real.exp (-Real.log 2) = 1 / 2 := by
    rw [Real.exp_neg, Real.exp_log (by norm_num)]
    norm_num
  constructor
  · refine ⟨w / Real.sqrt (8 * Real.log 2), ?_, by positivity, ?_⟩
    · simp [convolutionGaussian, hw.ne', hw.not_gt]
    · rw [← hhalf]
      congr 1
      rw [div_pow w (Real.sqrt _), hsq]
      field_simp
      ring
  · refine ⟨w * Real.sqrt (8 * Real.log 2), ?_, by positivity, ?_⟩
    · simp [convolutionGaussian, hw.ne', hw.not_gt]
    · rw [← hhalf]
      congr 1
      rw [div_pow, mul_pow, hsq]
      field_simp
      ring

/-- C112: a null width is the identity, exactly one width must be given and it is not negative. -/
theorem C112_rejects (fwhm sigma : Option ℝ) :
    (convolutionGaussian fwhm sigma = .ok .identity ↔ (fwhm = some 0 ∧ sigma = none) ∨ fwhm = none ∧ sigma = some 0) ∧
    (convolutionGaussian fwhm sigma = .error .valueError ↔ ¬∃ w : ℝ, 0 ≤ w ∧ ((fwhm = some w ∧ sigma = none) ∨ fwhm = none ∧ sigma = some w)) := by
  rcases fwhm with _ | f <;> rcases sigma with _ | s
  · simp [convolutionGaussian]
  · rcases lt_trichotomy s 0 with h | h | h
    · simp [convolutionGaussian, h, h.ne]
    · simp [convolutionGaussian, h]
    · simp [convolutionGaussian, h.ne', h.not_gt, h.le]
  · rcases lt_trichotomy f 0 with h | h | h
    · simp [convolutionGaussian, h, h.ne]
    · simp [convolutionGaussian, h]
    · simp [convolutionGaussian, h.ne', h.not_gt, h.le]
  · simp [convolutionGaussian]

theorem roundHalfEven_int (n : ℤ) : roundHalfEven n = n := by simp [roundHalfEven]

/-- C112: the maps that are accepted are those, with one or two dimensions, whose number of pixels is the one of a Healpix map. -/
theorem C112_pixels (n : Nat) (rest : List Nat) :
    (validatein (n :: rest) = .ok () ↔ rest.length ≤ 1 ∧ ∃ nside : Nat, n = 12 * nside ^ 2) ∧
    (validatein (n :: rest) = .error .valueError ↔ ¬(rest.length ≤ 1 ∧ ∃ nside : Nat, n = 12 * nside ^ 2)) ∧ validatein [] = .error .valueError := by
  have key : (12 * roundHalfEven (Real.sqrt ((n : ℝ) / 12)) ^ 2 = (n : ℤ)) ↔ ∃ nside : Nat, n = 12 * nside ^ 2 := by
    constructor
    · intro h
      refine ⟨(roundHalfEven (Real.sqrt ((n : ℝ) / 12))).natAbs, ?_⟩
      zify
      rw [sq_abs, h]
    · rintro ⟨m, rfl⟩
      have : (((12 * m ^ 2 : ℕ) : ℝ) / 12) = (m : ℝ) ^ 2 := by
        push_cast
        ring
      rw [this, Real.sqrt_sq (Nat.cast_nonneg m)]
      have := roundHalfEven_int (m : ℤ)
      rw [Int.cast_natCast] at this
      rw [this]
      push_cast
      ring
  rw [← key]
  have hv : validatein (n :: rest) = if rest.length ≤ 1 ∧ 12 * roundHalfEven (Real.sqrt ((n : ℝ) / 12)) ^ 2 = (n : ℤ) then .ok () else .error .valueError := by
    unfold validatein
    by_cases hr : rest.length ≤ 1
    · rw [if_neg (by simp only [List.length_cons]; omega)]
      by_cases h : 12 * roundHalfEven (Real.sqrt ((n : ℝ) / 12)) ^ 2 = (n : ℤ)
      · exact (if_neg (not_not.2 h)).trans (if_pos ⟨hr, h⟩).symm
      · exact (if_pos h).trans (if_neg (fun h' => h h'.2)).symm
    · rw [if_pos (by simp only [List.length_cons]; omega), if_neg (fun h' => hr h'.1)]
  rw [hv]
  refine ⟨?_, ?_, rfl⟩
  · split_ifs with h
    · exact iff_of_true rfl h
    · exact iff_of_false (by simp) h
  · split_ifs with h
    · exact iff_of_false (by simp) (not_not.2 h)
    · exact iff_of_true rfl h

example : ∃ s, convolutionGaussian (some 2) none = .ok (.gaussian 2 s) ∧ 0 < s ∧ Real.exp (-(2 / 2) ^ 2 / (2 * s ^ 2)) = 1 / 2 :=
  (C112_widths (by norm_num)).1

example : validatein [48, 3] = .ok () := (C112_pixels 48 [3]).1.2 ⟨by simp, 2, by norm_num⟩

example : validatein [3] = .error .valueError := (C112_pixels 3 []).2.1.2 (by
  rintro ⟨-, n, hn⟩
  rcases n with _ | n
  · simp at hn
  · have : 12 * 1 ≤ 12 * (n + 1) ^ 2 := Nat.mul_le_mul_left _ (Nat.one_le_pow _ _ (by omega))
    omega)

end

end Verif.Healpix
