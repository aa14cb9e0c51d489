import Mathlib.LinearAlgebra.Matrix.Orthogonal
import Mathlib.LinearAlgebra.Matrix.Determinant.Basic
import Mathlib.LinearAlgebra.UnitaryGroup
import Mathlib.Analysis.SpecialFunctions.Trigonometric.Basic
import Mathlib.Analysis.Real.Sqrt
import Mathlib.Algebra.Order.Floor.Ring
import Mathlib.Tactic
import Verif.Py.Basic

/-! Equatorial, galactic and horizontal coordinates (operators.py 1224-1473). -/

namespace Verif.Wcs

open Matrix
open Verif.Py

set_option linter.unusedSectionVars false
set_option linter.unusedSimpArgs false

noncomputable section

/-! ### The model of the horizontal coordinates -/

/-- The operator `%` of Python for reals. -/
def pmod (x n : ℝ) : ℝ := x - n * ⌊x / n⌋

/-- operators.py 1354-1369 `_jd2gst`, in hours. -/
def jd2gst (jd : ℝ) : ℝ :=
  let jd0 := (⌊jd - 0.5⌋ : ℝ) + 0.5
  let T := (jd0 - 2451545) / 36525
  let T0 := 6.697374558 + 2400.051336 * T + 0.000025862 * T ^ 2
  let T0 := pmod T0 24
  let ut := (jd - jd0) * 24
  let T0 := T0 + ut * 1.002737909
  pmod T0 24

/-- operators.py 1371-1377 `_gst2lst`, in hours. -/
def gst2lst (gst longitude : ℝ) : ℝ := pmod (gst + longitude / 15) 24

/-- `np.radians`. -/
def radians (x : ℝ) : ℝ := x * (Real.pi / 180)

/-- operators.py 1319-1351 `_CartesianEquatorialHorizontal.__init__`: the matrix for a date, a latitude and a longitude. -/
def equatorialHorizontal (convention : String) (jd latitude longitude : ℝ) (transpose : Bool) : Res (Matrix (Fin 3) (Fin 3) ℝ) :=
  if convention ≠ "NE" then .error .valueError
  else
    let lst := gst2lst (jd2gst jd) longitude
    let lst := radians (lst * 15)
    let latitude := radians latitude
    let slat := Real.sin latitude
    let clat := Real.cos latitude
    let slst := Real.sin lst
    let clst := Real.cos lst
    let m := !![-slat * clst, -slat * slst, clat; -slst, clst, 0; clat * clst, clat * slst, slat]
    .ok (if transpose then mᵀ else m)

/-- operators.py 1382-1426. -/
def equatorial2Horizontal (convention : String) (jd latitude longitude : ℝ) : Res (Matrix (Fin 3) (Fin 3) ℝ) :=
  equatorialHorizontal convention jd latitude longitude false

/-- operators.py 1429-1473. -/
def horizontal2Equatorial (convention : String) (jd latitude longitude : ℝ) : Res (Matrix (Fin 3) (Fin 3) ℝ) :=
  equatorialHorizontal convention jd latitude longitude true

/-! ### The model of the galactic coordinates -/

/-- LAPACK's `dlarfg` for the column `k`: the factor and the vector of the reflection that cancels the elements after the k-th one. -/
def larfg (k : Fin 3) (a : Fin 3 → ℝ) : ℝ × (Fin 3 → ℝ) :=
  let alpha := a k
  let xnorm := √(∑ i, if k < i then a i ^ 2 else 0)
  if xnorm = 0 then (0, fun i => if i = k then 1 else 0)
  else
    let norm := √(alpha ^ 2 + xnorm ^ 2)
    let beta := if 0 ≤ alpha then -norm else norm
    ((beta - alpha) / beta, fun i => if i < k then 0 else if i = k then 1 else a i / (alpha - beta))

/-- The reflection `1 - tau v vᵀ`. -/
def reflector (r : ℝ × (Fin 3 → ℝ)) : Matrix (Fin 3) (Fin 3) ℝ := 1 - r.1 • vecMulVec r.2 r.2

/-- `np.linalg.qr(m)[0]` (LAPACK's `dgeqr2` and `dorg2r`): the product of the reflections. -/
def qrQ (m : Matrix (Fin 3) (Fin 3) ℝ) : Matrix (Fin 3) (Fin 3) ℝ :=
  let h1 := reflector (larfg 0 fun i => m i 0)
  let m1 := h1 * m
  let h2 := reflector (larfg 1 fun i => m1 i 1)
  let m2 := h2 * m1
  let h3 := reflector (larfg 2 fun i => m2 i 2)
  h1 * h2 * h3

/-- operators.py 1226-1232: the argument of the factorisation. -/
def g2eInput : Matrix (Fin 3) (Fin 3) ℝ :=
  !![-0.0548755604, 0.4941094279, -0.8676661490; -0.8734370902, -0.4448296300, -0.1980763734; -0.4838350155, 0.7469822445, 0.4559837762]

/-- operators.py 1226-1232 `_g2e`. -/
def g2e : Matrix (Fin 3) (Fin 3) ℝ := qrQ g2eInput

/-- operators.py 1269-1270 `CartesianEquatorial2GalacticOperator`. -/
def equatorial2Galactic : Matrix (Fin 3) (Fin 3) ℝ := g2eᵀ

/-- operators.py 1311-1312 `CartesianGalactic2EquatorialOperator`. -/
def galactic2Equatorial : Matrix (Fin 3) (Fin 3) ℝ := g2e

/-! ### The horizontal coordinates -/

/-- The two matrices undo each other and preserve the scalar products, hence the angles. -/
def Inverse (m m' : Matrix (Fin 3) (Fin 3) ℝ) : Prop :=
  ∀ x y : Fin 3 → ℝ, m' *ᵥ (m *ᵥ x) = x ∧ m *ᵥ (m' *ᵥ x) = x ∧ (m *ᵥ x) ⬝ᵥ (m *ᵥ y) = x ⬝ᵥ y ∧ (m' *ᵥ x) ⬝ᵥ (m' *ᵥ y) = x ⬝ᵥ y

theorem inverse_of_orthogonal {m : Matrix (Fin 3) (Fin 3) ℝ} (h : m * mᵀ = 1) : Inverse m mᵀ := by
  have h' : mᵀ * m = 1 := mul_eq_one_comm.mp h
  intro x y
  refine ⟨?_, ?_, ?_, ?_⟩
  · rw [mulVec_mulVec, h', one_mulVec]
  · rw [mulVec_mulVec, h, one_mulVec]
  · rw [dotProduct_mulVec, ← mulVec_transpose, mulVec_mulVec, h', one_mulVec]
  · rw [dotProduct_mulVec, ← mulVec_transpose, transpose_transpose, mulVec_mulVec, h, one_mulVec]

/-- C67: the conversions between equatorial and horizontal coordinates undo each other and preserve the angles; they exchange direct and indirect
frames, as the azimuths from the North to the East require. -/
theorem C67_horizontal (jd latitude longitude : ℝ) : ∃ m m', equatorial2Horizontal "NE" jd latitude longitude = .ok m ∧
    horizontal2Equatorial "NE" jd latitude longitude = .ok m' ∧ Inverse m m' ∧ m.det = -1 ∧ m'.det = -1 := by
  set phi := radians latitude with hphi
  set lst := radians (gst2lst (jd2gst jd) longitude * 15) with hlst
  set m : Matrix (Fin 3) (Fin 3) ℝ := !![-Real.sin phi * Real.cos lst, -Real.sin phi * Real.sin lst, Real.cos phi; -Real.sin lst, Real.cos lst, 0;
    Real.cos phi * Real.cos lst, Real.cos phi * Real.sin lst, Real.sin phi] with hm
  have s1 := Real.sin_sq_add_cos_sq phi
  have s2 := Real.sin_sq_add_cos_sq lst
  have hdet : m.det = -1 := by
    rw [hm, det_fin_three]
    simp only [of_apply, cons_val', cons_val_zero, cons_val_one, cons_val, cons_val_fin_one]
    linear_combination -(Real.sin lst ^ 2 + Real.cos lst ^ 2) * s1 - s2
  refine ⟨m, mᵀ, rfl, rfl, inverse_of_orthogonal ?_, hdet, by rw [det_transpose, hdet]⟩
  ext i j
  rw [hm]
  fin_cases i <;> fin_cases j <;> simp [mul_apply, Fin.sum_univ_three]
  · linear_combination Real.sin phi ^ 2 * s2 + s1
  · ring
  · linear_combination -(Real.sin phi * Real.cos phi) * s2
  · ring
  · linear_combination s2
  · ring
  · linear_combination -(Real.sin phi * Real.cos phi) * s2
  · ring
  · linear_combination Real.cos phi ^ 2 * s2 + s1

/-- C67: the other conventions are rejected. -/
theorem C67_convention {c : String} (hc : c ≠ "NE") (jd latitude longitude : ℝ) (t : Bool) :
    equatorialHorizontal c jd latitude longitude t = .error .valueError := if_pos hc

example : ("SW" : String) ≠ "NE" := by decide

/-- The equatorial direction of a right ascension and a declination in degrees. -/
def equatorial (ra dec : ℝ) : Fin 3 → ℝ :=
  ![Real.cos (radians dec) * Real.cos (radians ra), Real.cos (radians dec) * Real.sin (radians ra), Real.sin (radians dec)]

/-- C105: the horizontal coordinates of a direction are those of its declination and of its hour angle, which is the local sidereal time minus
the right ascension: towards the North, the East and the zenith. -/
theorem C105_horizontal {jd latitude longitude : ℝ} {m : Matrix (Fin 3) (Fin 3) ℝ} (hm : equatorial2Horizontal "NE" jd latitude longitude = .ok m) (ra dec : ℝ) :
    let H := 15 * gst2lst (jd2gst jd) longitude - ra
    m *ᵥ equatorial ra dec = ![
      Real.cos (radians latitude) * Real.sin (radians dec) - Real.sin (radians latitude) * Real.cos (radians dec) * Real.cos (radians H),
      -(Real.cos (radians dec) * Real.sin (radians H)),
      Real.sin (radians latitude) * Real.sin (radians dec) + Real.cos (radians latitude) * Real.cos (radians dec) * Real.cos (radians H)] := by
  intro H
  have h := Except.ok.inj hm
  rw [← h]
  have hH : radians H = radians (gst2lst (jd2gst jd) longitude * 15) - radians ra := by simp only [H, radians]; ring
  rw [hH, Real.cos_sub, Real.sin_sub]
  ext i
  fin_cases i <;> simp [mulVec, dotProduct, Fin.sum_univ_three, equatorial] <;> ring

/-- C105: the direction of the zenith is that of the latitude and of the local sidereal time, and the pole is towards the North, at the elevation of
the latitude. -/
theorem C105_zenith {jd latitude longitude : ℝ} {m : Matrix (Fin 3) (Fin 3) ℝ} (hm : equatorial2Horizontal "NE" jd latitude longitude = .ok m) :
    m *ᵥ equatorial (15 * gst2lst (jd2gst jd) longitude) latitude = ![0, 0, 1] ∧
    m *ᵥ ![0, 0, 1] = ![Real.cos (radians latitude), 0, Real.sin (radians latitude)] := by
  constructor
  · rw [C105_horizontal hm]
    have s1 := Real.sin_sq_add_cos_sq (radians latitude)
    simp only [sub_self]
    have : radians 0 = 0 := by simp [radians]
    rw [this, Real.cos_zero, Real.sin_zero]
    ext i
    fin_cases i
    · simp; ring
    · simp
    · simp; linear_combination s1
  · have h := Except.ok.inj hm
    rw [← h]
    ext i
    fin_cases i <;> simp [mulVec, dotProduct, Fin.sum_univ_three]

theorem pmod_range (x : ℝ) {n : ℝ} (hn : 0 < n) : 0 ≤ pmod x n ∧ pmod x n < n := by
  have h1 := Int.floor_le (x / n)
  have h2 := Int.lt_floor_add_one (x / n)
  rw [le_div_iff₀ hn] at h1
  rw [div_lt_iff₀ hn] at h2
  rw [pmod]
  constructor <;> nlinarith

theorem pmod_congr (x : ℝ) {n : ℝ} (hn : 0 < n) (k : ℤ) : pmod (x + n * k) n = pmod x n := by
  rw [pmod, pmod, show (x + n * k) / n = x / n + k by field_simp, Int.floor_add_intCast]
  push_cast
  ring

theorem pmod_sub (x n : ℝ) : ∃ k : ℤ, pmod x n = x + n * k := ⟨-⌊x / n⌋, by rw [pmod]; push_cast; ring⟩

/-- C105: the local sidereal time is between 0 and 24 hours, increases by one hour for 15 degrees of longitude to the East, and by the sidereal rate
during a day of universal time, up to whole turns. -/
theorem C105_lst (jd longitude : ℝ) : (0 ≤ gst2lst (jd2gst jd) longitude ∧ gst2lst (jd2gst jd) longitude < 24) ∧
    (∀ d : ℝ, ∃ k : ℤ, gst2lst (jd2gst jd) (longitude + 15 * d) = gst2lst (jd2gst jd) longitude + d + 24 * k) ∧
    (∀ t : ℝ, ⌊jd + t - 0.5⌋ = ⌊jd - 0.5⌋ →
      ∃ k : ℤ, gst2lst (jd2gst (jd + t)) longitude = gst2lst (jd2gst jd) longitude + 24 * 1.002737909 * t + 24 * k) := by
  refine ⟨pmod_range _ (by norm_num), fun d => ?_, fun t ht => ?_⟩
  · rw [gst2lst, gst2lst]
    obtain ⟨k1, h1⟩ := pmod_sub (jd2gst jd + (longitude + 15 * d) / 15) 24
    obtain ⟨k2, h2⟩ := pmod_sub (jd2gst jd + longitude / 15) 24
    refine ⟨k1 - k2, ?_⟩
    rw [h1, h2]
    push_cast
    ring
  · rw [gst2lst, gst2lst]
    obtain ⟨k1, h1⟩ := pmod_sub (jd2gst (jd + t) + longitude / 15) 24
    obtain ⟨k2, h2⟩ := pmod_sub (jd2gst jd + longitude / 15) 24
    rw [h1, h2, jd2gst, jd2gst]
    rw [ht]
    set jd0 : ℝ := (⌊jd - 0.5⌋ : ℝ) + 0.5
    set T0 := pmod (6.697374558 + 2400.051336 * ((jd0 - 2451545) / 36525) + 0.000025862 * ((jd0 - 2451545) / 36525) ^ 2) 24
    obtain ⟨k3, h3⟩ := pmod_sub (T0 + (jd + t - jd0) * 24 * 1.002737909) 24
    obtain ⟨k4, h4⟩ := pmod_sub (T0 + (jd - jd0) * 24 * 1.002737909) 24
    refine ⟨k1 - k2 + k3 - k4, ?_⟩
    rw [h3, h4]
    push_cast
    ring

/-- C105: at midnight the sidereal time of the new day continues that of the previous day: for the centuries around the year 2000, up to twenty
nanohours (72 microseconds) for each century plus one. -/
theorem C105_midnight (n : ℤ) (t : ℝ) (h0 : 0 ≤ t) (h1 : t < 1) : ∃ k : ℤ,
    |jd2gst (n + 0.5 + 1) - (jd2gst (n + 0.5 + t) + 24 * 1.002737909 * (1 - t)) - 24 * k| ≤ 2e-8 * (1 + |((n : ℝ) + 0.5 - 2451545) / 36525|) := by
  have f1 : ⌊(n : ℝ) + 0.5 + 1 - 0.5⌋ = n + 1 := by
    rw [show (n : ℝ) + 0.5 + 1 - 0.5 = ((n + 1 : ℤ) : ℝ) by push_cast; ring, Int.floor_intCast]
  have f2 : ⌊(n : ℝ) + 0.5 + t - 0.5⌋ = n := by
    rw [Int.floor_eq_iff]
    constructor <;> linarith
  rw [jd2gst, jd2gst]
  rw [f1, f2]
  set T := ((n : ℝ) + 0.5 - 2451545) / 36525 with hT
  have hT1 : (((n + 1 : ℤ) : ℝ) + 0.5 - 2451545) / 36525 = T + 1 / 36525 := by
    rw [hT]; push_cast; ring
  rw [hT1]
  obtain ⟨k1, e1⟩ := pmod_sub (6.697374558 + 2400.051336 * T + 0.000025862 * T ^ 2) 24
  obtain ⟨k2, e2⟩ := pmod_sub (6.697374558 + 2400.051336 * (T + 1 / 36525) + 0.000025862 * (T + 1 / 36525) ^ 2) 24
  rw [e1, e2]
  generalize hA : (6.697374558 : ℝ) + 2400.051336 * T + 0.000025862 * T ^ 2 + 24 * k1 + ((n : ℝ) + 0.5 + t - (n + 0.5)) * 24 * 1.002737909 = A
  generalize hB : (6.697374558 : ℝ) + 2400.051336 * (T + 1 / 36525) + 0.000025862 * (T + 1 / 36525) ^ 2 + 24 * k2 +
    ((n : ℝ) + 0.5 + 1 - (((n + 1 : ℤ) : ℝ) + 0.5)) * 24 * 1.002737909 = B
  obtain ⟨k3, e3⟩ := pmod_sub A 24
  obtain ⟨k4, e4⟩ := pmod_sub B 24
  rw [e3, e4]
  refine ⟨k4 - k3 + k2 - k1 - 1, ?_⟩
  have key : B + 24 * k4 - (A + 24 * k3 + 24 * 1.002737909 * (1 - t)) - 24 * ((k4 - k3 + k2 - k1 - 1 : ℤ) : ℝ) =
      (2400.051336 / 36525 - 24 * 1.002737909 + 24 + 0.000025862 / 36525 ^ 2) + 0.000025862 * 2 / 36525 * T := by
    rw [← hA, ← hB]
    push_cast
    ring
  rw [key]
  refine (abs_add_le _ _).trans ?_
  rw [abs_mul]
  have n1 : |(2400.051336 : ℝ) / 36525 - 24 * 1.002737909 + 24 + 0.000025862 / 36525 ^ 2| ≤ 2e-8 := by
    rw [abs_le]; constructor <;> norm_num
  have n2 : |(0.000025862 : ℝ) * 2 / 36525| ≤ 2e-8 := by
    rw [abs_le]; constructor <;> norm_num
  nlinarith [abs_nonneg T]

/-! ### The galactic coordinates -/

theorem sumsq_pos {k : Fin 3} {a : Fin 3 → ℝ} (h : √(∑ i, if k < i then a i ^ 2 else 0) ≠ 0) : 0 < ∑ i, if k < i then a i ^ 2 else 0 := by
  by_contra hn
  exact h (Real.sqrt_eq_zero_of_nonpos (not_lt.mp hn))

/-- The signed norm of `dlarfg`. -/
def larfgBeta (k : Fin 3) (a : Fin 3 → ℝ) : ℝ :=
  let norm := √(a k ^ 2 + √(∑ i, if k < i then a i ^ 2 else 0) ^ 2)
  if 0 ≤ a k then -norm else norm

theorem beta_sq (k : Fin 3) (a : Fin 3 → ℝ) : larfgBeta k a ^ 2 = a k ^ 2 + ∑ i, if k < i then a i ^ 2 else 0 := by
  have h0 : 0 ≤ ∑ i, if k < i then a i ^ 2 else 0 := Finset.sum_nonneg fun i _ => by split <;> positivity
  have h : larfgBeta k a ^ 2 = √(a k ^ 2 + √(∑ i, if k < i then a i ^ 2 else 0) ^ 2) ^ 2 := by
    rw [larfgBeta]
    split
    · rw [neg_sq]
    · rfl
  rw [h, Real.sq_sqrt (by positivity), Real.sq_sqrt h0]

theorem beta_mul_nonpos (k : Fin 3) (a : Fin 3 → ℝ) : larfgBeta k a * a k ≤ 0 := by
  rw [larfgBeta]
  have := Real.sqrt_nonneg (a k ^ 2 + √(∑ i, if k < i then a i ^ 2 else 0) ^ 2)
  split <;> nlinarith

/-- The reflection: either it is the identity, and there is nothing to cancel; or its vector has the right norm. -/
theorem larfg_cases (k : Fin 3) (a : Fin 3 → ℝ) :
    (larfg k a).1 = 0 ∧ (∀ i, k < i → a i = 0) ∨
    (larfg k a).1 = (larfgBeta k a - a k) / larfgBeta k a ∧ larfgBeta k a ≠ 0 ∧ a k - larfgBeta k a ≠ 0 ∧
      (larfg k a).2 = fun i => if i < k then 0 else if i = k then 1 else a i / (a k - larfgBeta k a) := by
  by_cases h : √(∑ i, if k < i then a i ^ 2 else 0) = 0
  · left
    refine ⟨by rw [larfg]; simp only [h, if_true], fun i hi => ?_⟩
    have hs : ∑ i, (if k < i then a i ^ 2 else 0) = 0 := by
      have h0 : 0 ≤ ∑ i, if k < i then a i ^ 2 else 0 := Finset.sum_nonneg fun i _ => by split <;> positivity
      exact (Real.sqrt_eq_zero h0).mp h
    have := (Finset.sum_eq_zero_iff_of_nonneg fun i _ => by split <;> positivity).mp hs i (Finset.mem_univ i)
    rw [if_pos hi] at this
    exact pow_eq_zero_iff two_ne_zero |>.mp this
  · right
    have hp := sumsq_pos h
    have hb := beta_sq k a
    have hn : larfgBeta k a ≠ 0 := by
      intro h0
      rw [h0] at hb
      nlinarith [sq_nonneg (a k)]
    have hm := beta_mul_nonpos k a
    refine ⟨?_, hn, ?_, ?_⟩
    · rw [larfg]; simp only [h, if_false]; rfl
    · intro h0
      have : a k = larfgBeta k a := by linarith
      rw [this] at hm
      have := mul_self_pos.mpr hn
      linarith
    · rw [larfg]; simp only [h, if_false]; rfl

/-- The norm of the vector of a reflection. -/
theorem larfg_norm (k : Fin 3) (a : Fin 3 → ℝ) : (larfg k a).1 ^ 2 * ((larfg k a).2 ⬝ᵥ (larfg k a).2) = 2 * (larfg k a).1 := by
  rcases larfg_cases k a with ⟨h, -⟩ | ⟨h1, h2, h3, h4⟩
  · rw [h]; ring
  · have hb := beta_sq k a
    have hv : (larfg k a).2 ⬝ᵥ (larfg k a).2 = 1 + (∑ i, if k < i then a i ^ 2 else 0) / (a k - larfgBeta k a) ^ 2 := by
      rw [h4]
      generalize a k - larfgBeta k a = d
      clear h1 h2 h3 h4 hb
      fin_cases k <;> simp [dotProduct, Fin.sum_univ_three] <;> ring
    have hs : (∑ i, if k < i then a i ^ 2 else 0) = larfgBeta k a ^ 2 - a k ^ 2 := by linarith
    rw [hv, hs, h1]
    field_simp
    ring

theorem reflector_transpose (r : ℝ × (Fin 3 → ℝ)) : (reflector r)ᵀ = reflector r := by
  rw [reflector, transpose_sub, transpose_one, transpose_smul, transpose_vecMulVec]

theorem reflector_mul_self {r : ℝ × (Fin 3 → ℝ)} (h : r.1 ^ 2 * (r.2 ⬝ᵥ r.2) = 2 * r.1) : reflector r * reflector r = 1 := by
  rw [reflector, sub_mul, one_mul, mul_sub, mul_one, smul_mul_smul_comm, vecMulVec_mul_vecMulVec, vecMulVec_smul, smul_smul]
  have : r.1 * r.1 * (r.2 ⬝ᵥ r.2) = 2 * r.1 := by rw [← h]; ring
  rw [this, two_mul, add_smul]
  abel

theorem reflector_det (r : ℝ × (Fin 3 → ℝ)) : (reflector r).det = 1 - r.1 * (r.2 ⬝ᵥ r.2) := by
  rw [reflector, det_fin_three]
  simp [vecMulVec, dotProduct, Fin.sum_univ_three, one_apply]
  ring

/-- The factor Q of any matrix is orthogonal. -/
theorem qrQ_orthogonal (m : Matrix (Fin 3) (Fin 3) ℝ) : qrQ m * (qrQ m)ᵀ = 1 := by
  rw [qrQ]
  generalize hr1 : larfg 0 (fun i => m i 0) = r1
  generalize hr2 : larfg 1 (fun i => (reflector r1 * m) i 1) = r2
  generalize hr3 : larfg 2 (fun i => (reflector r2 * (reflector r1 * m)) i 2) = r3
  have n1 := reflector_mul_self (hr1 ▸ larfg_norm 0 _)
  have n2 := reflector_mul_self (hr2 ▸ larfg_norm 1 _)
  have n3 := reflector_mul_self (hr3 ▸ larfg_norm 2 _)
  rw [transpose_mul, transpose_mul, reflector_transpose, reflector_transpose, reflector_transpose]
  calc reflector r1 * reflector r2 * reflector r3 * (reflector r3 * (reflector r2 * reflector r1))
      = reflector r1 * (reflector r2 * (reflector r3 * reflector r3) * reflector r2) * reflector r1 := by noncomm_ring
    _ = 1 := by rw [n3, mul_one, n2, mul_one, n1]

/-- C67: the conversions between equatorial and galactic coordinates undo each other and preserve the angles. -/
theorem C67_galactic : Inverse equatorial2Galactic galactic2Equatorial ∧ Inverse galactic2Equatorial equatorial2Galactic := by
  have h := qrQ_orthogonal g2eInput
  constructor
  · have h' : g2eᵀ * g2eᵀᵀ = 1 := by rw [transpose_transpose]; exact mul_eq_one_comm.mp h
    have := inverse_of_orthogonal h'
    rw [transpose_transpose] at this
    exact this
  · exact inverse_of_orthogonal h

/-- The reflection cancels the elements after the k-th one. -/
theorem reflector_larfg {k : Fin 3} {a : Fin 3 → ℝ} (h : ∃ i, k < i ∧ a i ≠ 0) :
    (larfg k a).1 ≠ 0 ∧ (∀ i < k, (larfg k a).2 i = 0) ∧
    reflector (larfg k a) *ᵥ a = fun i => if i < k then a i else if i = k then larfgBeta k a else 0 := by
  rcases larfg_cases k a with ⟨-, h0⟩ | ⟨h1, h2, h3, h4⟩
  · obtain ⟨i, hi, hne⟩ := h
    exact absurd (h0 i hi) hne
  · have h3' : larfgBeta k a - a k ≠ 0 := fun hh => h3 (by linarith)
    refine ⟨?_, ?_, ?_⟩
    · rw [h1]; exact div_ne_zero h3' h2
    · intro i hi; rw [h4]; simp [hi]
    · have hb := beta_sq k a
      have hs : (∑ i, if k < i then a i ^ 2 else 0) = larfgBeta k a ^ 2 - a k ^ 2 := by linarith
      have hva : (larfg k a).2 ⬝ᵥ a = a k + (∑ i, if k < i then a i ^ 2 else 0) / (a k - larfgBeta k a) := by
        rw [h4]
        generalize a k - larfgBeta k a = d
        clear h1 h2 h3 h4 h3' hb hs h
        fin_cases k <;> simp [dotProduct, Fin.sum_univ_three] <;> ring
      have hva' : (larfg k a).1 * ((larfg k a).2 ⬝ᵥ a) = a k - larfgBeta k a := by
        rw [hva, hs, h1]
        field_simp
        ring
      ext i
      rw [reflector, sub_mulVec, one_mulVec, smul_mulVec, vecMulVec_mulVec, Pi.sub_apply, Pi.smul_apply, Pi.smul_apply]
      simp only [smul_eq_mul, MulOpposite.smul_eq_mul_unop, MulOpposite.unop_op]
      have : (larfg k a).1 * ((larfg k a).2 i * ((larfg k a).2 ⬝ᵥ a)) = (larfg k a).2 i * (a k - larfgBeta k a) := by rw [← hva']; ring
      rw [this, h4]
      dsimp only
      split
      · simp
      · split
        · rename_i h; rw [h]; ring
        · field_simp
          ring

theorem reflector_col {r : ℝ × (Fin 3 → ℝ)} {j : Fin 3} (h : r.2 j = 0) (i : Fin 3) : reflector r i j = if i = j then 1 else 0 := by
  simp [reflector, vecMulVec, h, one_apply]

set_option maxHeartbeats 1000000 in
/-- The first two columns of the orthogonal factor are those of the Gram-Schmidt process. -/
theorem g2e_columns : g2e.det = 1 ∧ ∃ β β' b0 : ℝ, (1 - 1e-10 ≤ β ∧ β ≤ 1) ∧ (1 ≤ β' ∧ β' ≤ 1 + 1e-10) ∧ |b0| ≤ 1e-10 ∧
    (∀ i, g2e i 0 * β = g2eInput i 0) ∧ ∀ i, g2e i 1 * β' = g2eInput i 1 - b0 * g2e i 0 := by
  set a : Fin 3 → ℝ := fun i => g2eInput i 0 with ha
  set c : Fin 3 → ℝ := fun i => g2eInput i 1 with hc
  have a0 : a 0 = -0.0548755604 := rfl
  have a1 : a 1 = -0.8734370902 := rfl
  have a2 : a 2 = -0.4838350155 := rfl
  have c0 : c 0 = 0.4941094279 := rfl
  have c1 : c 1 = -0.4448296300 := rfl
  have c2 : c 2 = 0.7469822445 := rfl
  set h1 := reflector (larfg 0 a) with hh1
  set b : Fin 3 → ℝ := fun i => (h1 * g2eInput) i 1 with hb
  have hbc : b = h1 *ᵥ c := by
    ext i
    rw [hb, hc]
    simp [mul_apply, mulVec, dotProduct]
  set h2 := reflector (larfg 1 b) with hh2
  have hQ : g2e = h1 * h2 := by
    have h3 : reflector (larfg 2 fun i => (h2 * (h1 * g2eInput)) i 2) = 1 := by
      have : (larfg 2 fun i => (h2 * (h1 * g2eInput)) i 2).1 = 0 := by
        have hz : (∑ i : Fin 3, if (2 : Fin 3) < i then ((h2 * (h1 * g2eInput)) i 2) ^ 2 else 0) = 0 := by simp [Fin.sum_univ_three]
        rw [larfg]
        simp only [hz, Real.sqrt_zero, if_true]
      rw [reflector, this, zero_smul, sub_zero]
    calc g2e = h1 * h2 * reflector (larfg 2 fun i => (h2 * (h1 * g2eInput)) i 2) := rfl
      _ = h1 * h2 := by rw [h3, mul_one]
  -- the first reflection
  obtain ⟨t1, -, r1⟩ := reflector_larfg (k := 0) (a := a) ⟨1, by decide, by rw [a1]; norm_num⟩
  set β := larfgBeta 0 a with hβ
  have hβ2 : β ^ 2 = a 0 ^ 2 + a 1 ^ 2 + a 2 ^ 2 := by
    rw [hβ, beta_sq]
    simp [Fin.sum_univ_three]
    ring
  have hβpos : 0 < β := by
    have h := beta_mul_nonpos 0 a
    rw [← hβ, a0] at h
    have hne : β ≠ 0 := by
      intro h0
      rw [h0, a0, a1, a2] at hβ2
      norm_num at hβ2
    rcases lt_or_gt_of_ne hne with h' | h'
    · nlinarith
    · exact h'
  have hβlo : 1 - 1e-10 ≤ β := by
    by_contra hlt
    push Not at hlt
    rw [a0, a1, a2] at hβ2
    nlinarith
  have hβhi : β ≤ 1 := by
    by_contra hlt
    push Not at hlt
    rw [a0, a1, a2] at hβ2
    nlinarith
  have n1 : h1 * h1 = 1 := reflector_mul_self (larfg_norm 0 a)
  have n2 : h2 * h2 = 1 := reflector_mul_self (larfg_norm 1 b)
  have hx1 : ∀ i, h1 i 0 * β = a i := by
    intro i
    have e1 : h1 *ᵥ (h1 *ᵥ a) = a := by rw [mulVec_mulVec, n1, one_mulVec]
    rw [r1] at e1
    have e2 := congrFun e1 i
    rw [← e2]
    simp [mulVec, dotProduct, Fin.sum_univ_three]
  have hsym : ∀ i j, h1 i j = h1 j i := fun i j => by
    have := congrFun (congrFun (reflector_transpose (larfg 0 a)) i) j
    rw [transpose_apply] at this
    exact this.symm
  have hb0 : b 0 * β = a 0 * c 0 + a 1 * c 1 + a 2 * c 2 := by
    rw [hbc]
    simp only [mulVec, dotProduct, Fin.sum_univ_three]
    rw [hsym 0 1, hsym 0 2]
    linear_combination c 0 * hx1 0 + c 1 * hx1 1 + c 2 * hx1 2
  have hb0s : |b 0| ≤ 1e-10 := by
    rw [a0, a1, a2, c0, c1, c2] at hb0
    rw [abs_le]
    constructor <;> nlinarith
  have hbn : b 0 ^ 2 + b 1 ^ 2 + b 2 ^ 2 = c 0 ^ 2 + c 1 ^ 2 + c 2 ^ 2 := by
    have hi := (inverse_of_orthogonal (m := h1) (by rw [reflector_transpose]; exact n1) c c).2.2.1
    rw [← hbc] at hi
    simp only [dotProduct, Fin.sum_univ_three] at hi
    linear_combination hi
  -- the sign of the second pivot
  have hb1 : -0.9 < b 1 ∧ b 1 < 0 := by
    have hd : a 0 - β < 0 := by rw [a0]; linarith
    rcases larfg_cases 0 a with ⟨h0, -⟩ | ⟨g1, g2, g3, g4⟩
    · exact absurd h0 t1
    · rw [← hβ] at g1 g2 g3 g4
      have e : b 1 * (β * (a 0 - β)) = c 1 * (β * (a 0 - β)) + a 1 * (c 0 * (a 0 - β) + (a 1 * c 1 + a 2 * c 2)) := by
        rw [hbc, hh1, reflector, sub_mulVec, one_mulVec, smul_mulVec, vecMulVec_mulVec]
        simp only [Pi.sub_apply, Pi.smul_apply, smul_eq_mul, MulOpposite.smul_eq_mul_unop, MulOpposite.unop_op]
        rw [g1, g4]
        simp [dotProduct, Fin.sum_univ_three]
        field_simp
        ring
      rw [a0, a1, a2, c0, c1, c2] at e
      have hneg : β * (-0.0548755604 - β) < 0 := by nlinarith
      constructor
      · by_contra hge
        push Not at hge
        nlinarith
      · by_contra hge
        push Not at hge
        nlinarith
  rw [abs_le] at hb0s
  obtain ⟨t2, z2, r2⟩ := reflector_larfg (k := 1) (a := b) (by
    refine ⟨2, by decide, fun hb2 => ?_⟩
    rw [hb2, c0, c1, c2] at hbn
    nlinarith)
  set β' := larfgBeta 1 b with hβ'
  have hβ'2 : β' ^ 2 = c 0 ^ 2 + c 1 ^ 2 + c 2 ^ 2 - b 0 ^ 2 := by
    rw [hβ', beta_sq, ← hbn]
    simp [Fin.sum_univ_three]
    ring
  have hβ'pos : 0 < β' := by
    have h := beta_mul_nonpos 1 b
    rw [← hβ'] at h
    have hne : β' ≠ 0 := by
      intro h0
      rw [h0, c0, c1, c2] at hβ'2
      nlinarith
    rcases lt_or_gt_of_ne hne with h' | h'
    · nlinarith
    · exact h'
  have hβ'lo : 1 ≤ β' := by
    by_contra hlt
    push Not at hlt
    rw [c0, c1, c2] at hβ'2
    nlinarith
  have hβ'hi : β' ≤ 1 + 1e-10 := by
    by_contra hlt
    push Not at hlt
    rw [c0, c1, c2] at hβ'2
    nlinarith
  have hcol0 : ∀ i, h2 i 0 = if i = 0 then 1 else 0 := reflector_col (z2 0 (by decide))
  have q0 : ∀ i, g2e i 0 * β = a i := by
    intro i
    rw [hQ, mul_apply, ← hx1 i]
    simp [Fin.sum_univ_three, hcol0]
  have q1 : ∀ i, g2e i 1 * β' = c i - b 0 * g2e i 0 := by
    intro i
    have e1 : h1 *ᵥ (h2 *ᵥ (h2 *ᵥ b)) = c := by
      have e : h2 *ᵥ (h2 *ᵥ b) = b := by rw [mulVec_mulVec, n2, one_mulVec]
      rw [e, hbc, mulVec_mulVec, n1, one_mulVec]
    rw [r2, mulVec_mulVec, ← hQ] at e1
    have e2 := congrFun e1 i
    rw [← e2]
    simp [mulVec, dotProduct, Fin.sum_univ_three]
    ring
  have hdet : g2e.det = 1 := by
    rw [hQ, det_mul, reflector_det, reflector_det]
    have e1 : (larfg 0 a).1 * ((larfg 0 a).2 ⬝ᵥ (larfg 0 a).2) = 2 := mul_left_cancel₀ t1 (by rw [← mul_assoc, ← sq, larfg_norm, mul_comm])
    have e2 : (larfg 1 b).1 * ((larfg 1 b).2 ⬝ᵥ (larfg 1 b).2) = 2 := mul_left_cancel₀ t2 (by rw [← mul_assoc, ← sq, larfg_norm, mul_comm])
    rw [e1, e2]
    norm_num
  exact ⟨hdet, β, β', b 0, ⟨hβlo, hβhi⟩, ⟨hβ'lo, hβ'hi⟩, abs_le.mpr hb0s, q0, q1⟩

/-- The galactic axes in the equatorial frame, one per row (ESA SP-1200, The Hipparcos and Tycho catalogues, volume 1, equation 1.5.11, transposed). -/
def hipparcos : Matrix (Fin 3) (Fin 3) ℝ :=
  !![-0.0548755604, -0.8734370902, -0.4838350155; 0.4941094279, -0.4448296300, 0.7469822445; -0.8676661490, -0.1980763734, 0.4559837762]

/-- C67: the matrix is a rotation whose columns are the galactic axes of the Hipparcos catalogue, up to two units of the ninth decimal. -/
theorem C67_galactic_matrix : galactic2Equatorial.det = 1 ∧ ∀ i j, |galactic2Equatorial i j - hipparcos j i| ≤ 2e-9 := by
  suffices h : g2e.det = 1 ∧ ∀ i j, |g2e i j - g2eInput i j| ≤ 2e-9 by
    refine ⟨h.1, fun i j => ?_⟩
    have e : g2eInput i j = hipparcos j i := by fin_cases i <;> fin_cases j <;> simp [g2eInput, hipparcos]
    rw [← e]
    exact h.2 i j
  obtain ⟨hdet, β, β', b0, ⟨hβlo, hβhi⟩, ⟨hβ'lo, hβ'hi⟩, hb0s, q0, q1⟩ := g2e_columns
  set a : Fin 3 → ℝ := fun i => g2eInput i 0 with ha
  set c : Fin 3 → ℝ := fun i => g2eInput i 1 with hc
  replace q0 : ∀ i, g2e i 0 * β = a i := q0
  replace q1 : ∀ i, g2e i 1 * β' = c i - b0 * g2e i 0 := q1
  have a0 : a 0 = -0.0548755604 := rfl
  have a1 : a 1 = -0.8734370902 := rfl
  have a2 : a 2 = -0.4838350155 := rfl
  have c0 : c 0 = 0.4941094279 := rfl
  have c1 : c 1 = -0.4448296300 := rfl
  have c2 : c 2 = 0.7469822445 := rfl
  have hadj : g2eᵀ = g2e.adjugate := by
    have ho : g2eᵀ * g2e = 1 := mul_eq_one_comm.mp (qrQ_orthogonal _)
    have := congrArg (· * g2e.adjugate) ho
    simp only [mul_assoc, mul_adjugate, hdet, one_smul, mul_one, one_mul] at this
    exact this
  have hq2 : ∀ i, g2e i 2 = g2e.adjugate 2 i := fun i => by rw [← hadj, transpose_apply]
  have b0s : ∀ i, |g2e i 0 - a i| ≤ 2e-10 ∧ |g2e i 0| ≤ 1 := by
    intro i
    have h := q0 i
    have hai : |a i| ≤ 0.9 := by fin_cases i <;> simp only [Fin.zero_eta, Fin.mk_one, Fin.reduceFinMk, a0, a1, a2] <;> norm_num [abs_le]
    rw [abs_le] at hai
    rw [abs_le, abs_le]
    refine ⟨⟨?_, ?_⟩, ?_, ?_⟩ <;> nlinarith
  have b1s : ∀ i, |g2e i 1 - c i| ≤ 3e-10 ∧ |g2e i 1| ≤ 1 := by
    intro i
    have h := q1 i
    have hci : |c i| ≤ 0.9 := by fin_cases i <;> simp only [Fin.zero_eta, Fin.mk_one, Fin.reduceFinMk, c0, c1, c2] <;> norm_num [abs_le]
    have hp : |b0 * g2e i 0| ≤ 1e-10 * 1 := by
      rw [abs_mul]
      exact mul_le_mul hb0s (b0s i).2 (abs_nonneg _) (by norm_num)
    rw [abs_le] at hci hp
    rw [abs_le, abs_le]
    refine ⟨⟨?_, ?_⟩, ?_, ?_⟩ <;> nlinarith
  have hprod : ∀ i j, |g2e i 0 * g2e j 1 - a i * c j| ≤ 5e-10 := by
    intro i j
    have e : g2e i 0 * g2e j 1 - a i * c j = (g2e i 0 - a i) * g2e j 1 + a i * (g2e j 1 - c j) := by ring
    have hai : |a i| ≤ 1 := by fin_cases i <;> simp only [Fin.zero_eta, Fin.mk_one, Fin.reduceFinMk, a0, a1, a2] <;> norm_num [abs_le]
    rw [e]
    refine (abs_add_le _ _).trans ?_
    rw [abs_mul, abs_mul]
    have k1 := mul_le_mul (b0s i).1 (b1s j).2 (abs_nonneg _) (by norm_num)
    have k2 := mul_le_mul hai (b1s j).1 (abs_nonneg _) (by norm_num)
    linarith
  refine ⟨hdet, fun i j => ?_⟩
  fin_cases j
  · exact (b0s i).1.trans (by norm_num)
  · exact (b1s i).1.trans (by norm_num)
  · have p01 := abs_le.mp (hprod 0 1)
    have p10 := abs_le.mp (hprod 1 0)
    have p02 := abs_le.mp (hprod 0 2)
    have p20 := abs_le.mp (hprod 2 0)
    have p12 := abs_le.mp (hprod 1 2)
    have p21 := abs_le.mp (hprod 2 1)
    rw [a0, c1] at p01
    rw [a1, c0] at p10
    rw [a0, c2] at p02
    rw [a2, c0] at p20
    rw [a1, c2] at p12
    rw [a2, c1] at p21
    have i02 : g2eInput 0 2 = -0.8676661490 := rfl
    have i12 : g2eInput 1 2 = -0.1980763734 := rfl
    have i22 : g2eInput 2 2 = 0.4559837762 := rfl
    fin_cases i
    · simp only [Fin.zero_eta, Fin.mk_one, Fin.reduceFinMk]
      rw [hq2, adjugate_fin_three, i02, abs_le]
      simp
      constructor <;> linarith
    · simp only [Fin.zero_eta, Fin.mk_one, Fin.reduceFinMk]
      rw [hq2, adjugate_fin_three, i12, abs_le]
      simp
      constructor <;> linarith
    · simp only [Fin.zero_eta, Fin.mk_one, Fin.reduceFinMk]
      rw [hq2, adjugate_fin_three, i22, abs_le]
      simp
      constructor <;> linarith

/-- The north galactic pole, third column, is at a declination of about 27 degrees. -/
example : |galactic2Equatorial 2 2 - 0.4559837762| ≤ 2e-9 := C67_galactic_matrix.2 2 2

/-- The night of the first of January 2000. -/
example : ∃ k : ℤ, |jd2gst ((2451544 : ℤ) + 0.5 + 1) - (jd2gst ((2451544 : ℤ) + 0.5 + 1 / 2) + 24 * 1.002737909 * (1 - 1 / 2)) - 24 * k| ≤ 2e-8 * 2 := by
  obtain ⟨k, hk⟩ := C105_midnight 2451544 (1 / 2) (by norm_num) (by norm_num)
  refine ⟨k, hk.trans (mul_le_mul_of_nonneg_left ?_ (by norm_num))⟩
  norm_num [abs_of_neg, abs_of_nonneg]

/-- Before the next midnight the sidereal time grows at the sidereal rate. -/
example : ∃ k : ℤ, gst2lst (jd2gst (2451545 + 1 / 4)) 2 = gst2lst (jd2gst 2451545) 2 + 24 * 1.002737909 * (1 / 4) + 24 * k :=
  (C105_lst 2451545 2).2.2 (1 / 4) (by norm_num [Int.floor_eq_iff])

end
end Verif.Wcs
