import Verif.Wcs.PropsSphere
import Verif.Wcs.Rotation
import Mathlib.Analysis.Real.Pi.Bounds

/-! Conversions between equatorial, galactic and horizontal angles (operators.py 1476-1740). -/

namespace Verif.Operators

open Matrix
open Verif.Py
open Verif.Wcs

noncomputable section

/-! ### The model -/

/-- A convention for spherical coordinates: whether the azimuth is the first angle, and whether the other one is an elevation. -/
structure Frame where
  azimuthFirst : Bool
  elevation : Bool

/-- The conventions of pyoperators' `Spherical2CartesianOperator` and `Cartesian2SphericalOperator`, documented in operators.py 1521-1527. -/
def frame (convention : String) : Res Frame :=
  if convention = "zenith,azimuth" then .ok ⟨false, false⟩
  else if convention = "azimuth,zenith" then .ok ⟨true, false⟩
  else if convention = "elevation,azimuth" then .ok ⟨false, true⟩
  else if convention = "azimuth,elevation" then .ok ⟨true, true⟩
  else .error .valueError

/-- pyoperators' `Spherical2CartesianOperator(convention, degrees=degrees)` (trusted). -/
def toCartesian (f : Frame) (degrees : Bool) (p : ℝ × ℝ) : Fin 3 → ℝ :=
  let p := if degrees then (p.1 * (Real.pi / 180), p.2 * (Real.pi / 180)) else p
  let az := if f.azimuthFirst then p.1 else p.2
  let lat := if f.azimuthFirst then p.2 else p.1
  let zen := if f.elevation then Real.pi / 2 - lat else lat
  ![Real.sin zen * Real.cos az, Real.sin zen * Real.sin az, Real.cos zen]

/-- pyoperators' `Cartesian2SphericalOperator(convention, degrees=degrees)` (trusted): the azimuth is in [0, 2 pi). -/
def toSpherical (f : Frame) (degrees : Bool) (v : Fin 3 → ℝ) : ℝ × ℝ :=
  let az := Complex.arg ⟨v 0, v 1⟩
  let az := if az < 0 then az + 2 * Real.pi else az
  let zen := Real.arccos (v 2)
  let lat := if f.elevation then Real.pi / 2 - zen else zen
  let p := if f.azimuthFirst then (az, lat) else (lat, az)
  if degrees then (p.1 * (180 / Real.pi), p.2 * (180 / Real.pi)) else p

/-- The composition of operators.py 1533-1538, 1596-1601, 1665-1672 and 1733-1740. -/
def spherical (m : Res (Matrix (Fin 3) (Fin 3) ℝ)) (conventionin conventionout : String) (degrees : Bool) : Res (ℝ × ℝ → ℝ × ℝ) := do
  let fout ← frame conventionout
  let m ← m
  let fin ← frame conventionin
  .ok fun p => toSpherical fout degrees (m *ᵥ toCartesian fin degrees p)

/-- operators.py 1476-1538. -/
def sphericalEquatorial2Galactic := spherical (.ok equatorial2Galactic)

/-- operators.py 1541-1601. -/
def sphericalGalactic2Equatorial := spherical (.ok galactic2Equatorial)

/-- operators.py 1604-1672. -/
def sphericalEquatorial2Horizontal (convention : String) (jd latitude longitude : ℝ) := spherical (equatorial2Horizontal convention jd latitude longitude)

/-- operators.py 1675-1740. -/
def sphericalHorizontal2Equatorial (convention : String) (jd latitude longitude : ℝ) := spherical (horizontal2Equatorial convention jd latitude longitude)

/-! ### The specification -/

/-- The four conventions. -/
def conventions : List String := ["zenith,azimuth", "azimuth,zenith", "elevation,azimuth", "azimuth,elevation"]

/-- The longitude and the latitude, in degrees, of a pair of angles. -/
def meaning (convention : String) (degrees : Bool) (p : ℝ × ℝ) : ℝ × ℝ :=
  let deg (x : ℝ) : ℝ := if degrees then x else 180 * x / Real.pi
  if convention = "zenith,azimuth" then (deg p.2, 90 - deg p.1)
  else if convention = "azimuth,zenith" then (deg p.1, 90 - deg p.2)
  else if convention = "elevation,azimuth" then (deg p.2, deg p.1)
  else (deg p.1, deg p.2)

/-- The unit vector of a pair of angles. -/
def vector (convention : String) (degrees : Bool) (p : ℝ × ℝ) : EuclideanSpace ℝ (Fin 3) :=
  direction (meaning convention degrees p).1 (meaning convention degrees p).2

/-- The angles are reduced: a longitude in [0, 360) and a latitude in [-90, 90]. -/
def Reduced (convention : String) (degrees : Bool) (p : ℝ × ℝ) : Prop :=
  (0 ≤ (meaning convention degrees p).1 ∧ (meaning convention degrees p).1 < 360) ∧
    (-90 ≤ (meaning convention degrees p).2 ∧ (meaning convention degrees p).2 ≤ 90)

/-- Two pairs of angles with the same meaning are the same. -/
theorem meaning_inj {c : String} {degrees : Bool} {p q : ℝ × ℝ} (h : meaning c degrees p = meaning c degrees q) : p = q := by
  have hpi := Real.pi_pos
  have key : ∀ {a b : ℝ}, 180 * a / Real.pi = 180 * b / Real.pi → a = b := by
    intro a b e
    field_simp at e
    exact e
  obtain ⟨x, y⟩ := p
  obtain ⟨x', y'⟩ := q
  unfold meaning at h
  dsimp only at h
  rw [Prod.mk.injEq]
  cases degrees <;> simp only [if_true, if_false, Bool.false_eq_true] at h <;> split_ifs at h <;> rw [Prod.mk.injEq] at h <;> obtain ⟨h1, h2⟩ := h
  · exact ⟨key (by linarith), key h1⟩
  · exact ⟨key h1, key (by linarith)⟩
  · exact ⟨key h2, key h1⟩
  · exact ⟨key h1, key h2⟩
  · exact ⟨by linarith, h1⟩
  · exact ⟨h1, by linarith⟩
  · exact ⟨h2, h1⟩
  · exact ⟨h1, h2⟩

theorem frame_ok {c : String} (hc : c ∈ conventions) : ∃ f, frame c = .ok f := by
  simp only [conventions, List.mem_cons, List.not_mem_nil, or_false] at hc
  rcases hc with rfl | rfl | rfl | rfl <;> exact ⟨_, rfl⟩

theorem frame_mem {c : String} {f : Frame} (h : frame c = .ok f) : c ∈ conventions := by
  unfold frame at h
  simp only [conventions, List.mem_cons, List.not_mem_nil, or_false]
  split_ifs at h <;> tauto

theorem toCartesian_eq {c : String} {f : Frame} (h : frame c = .ok f) (degrees : Bool) (p : ℝ × ℝ) :
    toCartesian f degrees p = (vector c degrees p).ofLp := by
  have hpi := Real.pi_pos
  have hc := frame_mem h
  have e : ∀ x : ℝ, 180 * x / Real.pi * (Real.pi / 180) = x := by intro x; field_simp
  have e' : ∀ x : ℝ, (90 - x) * (Real.pi / 180) = Real.pi / 2 - x * (Real.pi / 180) := by intro x; ring
  simp only [conventions, List.mem_cons, List.not_mem_nil, or_false] at hc
  rcases hc with rfl | rfl | rfl | rfl <;> cases h <;> cases degrees <;>
    simp [toCartesian, vector, meaning, direction, e, e', Real.cos_pi_div_two_sub, Real.sin_pi_div_two_sub]

theorem vector_toSpherical {c : String} {f : Frame} (h : frame c = .ok f) (degrees : Bool) {v : Fin 3 → ℝ} (hv : v ⬝ᵥ v = 1) :
    (vector c degrees (toSpherical f degrees v)).ofLp = v ∧ Reduced c degrees (toSpherical f degrees v) := by
  have hpi := Real.pi_pos
  have hc := frame_mem h
  have hv' : v 0 ^ 2 + v 1 ^ 2 + v 2 ^ 2 = 1 := by
    rw [dotProduct, Fin.sum_univ_three] at hv
    linarith
  set az := if Complex.arg ⟨v 0, v 1⟩ < 0 then Complex.arg ⟨v 0, v 1⟩ + 2 * Real.pi else Complex.arg ⟨v 0, v 1⟩ with haz
  set zen := Real.arccos (v 2) with hzen
  -- the meaning of the result
  have hm : meaning c degrees (toSpherical f degrees v) = (180 * az / Real.pi, 90 - 180 * zen / Real.pi) := by
    have e : ∀ x : ℝ, x * (180 / Real.pi) = 180 * x / Real.pi := by intro x; ring
    have e' : ∀ x : ℝ, 180 * (Real.pi / 2 - x) / Real.pi = 90 - 180 * x / Real.pi := by intro x; field_simp; ring
    unfold toSpherical
    dsimp only
    rw [← haz, ← hzen]
    clear_value az zen
    simp only [conventions, List.mem_cons, List.not_mem_nil, or_false] at hc
    rcases hc with rfl | rfl | rfl | rfl <;> cases h <;> cases degrees <;> simp [meaning, e, e']
  have haz0 : 0 ≤ az ∧ az < 2 * Real.pi := by
    have := Complex.neg_pi_lt_arg ⟨v 0, v 1⟩
    have := Complex.arg_le_pi ⟨v 0, v 1⟩
    rw [haz]
    split_ifs <;> constructor <;> linarith
  have hzen0 := Real.arccos_nonneg (v 2)
  have hzen1 := Real.arccos_le_pi (v 2)
  have hv2 : v 2 ^ 2 ≤ 1 := by nlinarith [sq_nonneg (v 0), sq_nonneg (v 1)]
  have hz1 := abs_le.1 ((sq_le_one_iff_abs_le_one _).1 hv2)
  have hcosz : Real.cos zen = v 2 := Real.cos_arccos hz1.1 hz1.2
  set ρ := ‖(⟨v 0, v 1⟩ : ℂ)‖ with hρ
  have hρ2 : ρ ^ 2 = v 0 ^ 2 + v 1 ^ 2 := by rw [hρ, Complex.sq_norm, Complex.normSq_mk]; ring
  have hsinz : Real.sin zen = ρ := by
    rw [hzen, Real.sin_arccos, show 1 - v 2 ^ 2 = ρ ^ 2 by rw [hρ2]; linarith, Real.sqrt_sq (norm_nonneg _)]
  have hcos : ρ * Real.cos az = v 0 := by
    have : Real.cos az = Real.cos (Complex.arg ⟨v 0, v 1⟩) := by
      rw [haz]
      split_ifs
      · rw [Real.cos_add_two_pi]
      · rfl
    rw [this]
    by_cases h0 : (⟨v 0, v 1⟩ : ℂ) = 0
    · have e := congrArg Complex.re h0
      simp only [Complex.zero_re] at e
      rw [hρ, h0, norm_zero, e]
      simp
    · rw [Complex.cos_arg h0, ← hρ]
      have : ρ ≠ 0 := norm_ne_zero_iff.2 h0
      field_simp
  have hsin : ρ * Real.sin az = v 1 := by
    have : Real.sin az = Real.sin (Complex.arg ⟨v 0, v 1⟩) := by
      rw [haz]
      split_ifs
      · rw [Real.sin_add_two_pi]
      · rfl
    rw [this, Complex.sin_arg, ← hρ]
    by_cases h0 : (⟨v 0, v 1⟩ : ℂ) = 0
    · have e := congrArg Complex.im h0
      simp only [Complex.zero_im] at e
      rw [hρ, h0, norm_zero, e]
      simp
    · have : ρ ≠ 0 := norm_ne_zero_iff.2 h0
      field_simp
  constructor
  · unfold vector
    rw [hm]
    have e : ∀ x : ℝ, 180 * x / Real.pi * (Real.pi / 180) = x := by intro x; field_simp
    have e' : ∀ x : ℝ, (90 - x) * (Real.pi / 180) = Real.pi / 2 - x * (Real.pi / 180) := by intro x; ring
    simp only [direction, e, e', Real.cos_pi_div_two_sub, Real.sin_pi_div_two_sub, hcosz, hsinz, hcos, hsin]
    ext i
    fin_cases i <;> rfl
  · unfold Reduced
    rw [hm]
    dsimp only
    refine ⟨⟨?_, ?_⟩, ?_, ?_⟩
    · have := haz0.1
      positivity
    · rw [div_lt_iff₀ hpi]
      linarith [haz0.2]
    · have : 180 * zen / Real.pi ≤ 180 := by
        rw [div_le_iff₀ hpi]
        linarith
      linarith
    · have : 0 ≤ 180 * zen / Real.pi := by positivity
      linarith

/-! ### The properties -/

theorem dot_vector (c : String) (degrees : Bool) (p : ℝ × ℝ) : (vector c degrees p).ofLp ⬝ᵥ (vector c degrees p).ofLp = 1 := by
  have h := norm_direction (meaning c degrees p).1 (meaning c degrees p).2
  have h2 : ‖vector c degrees p‖ ^ 2 = 1 := by unfold vector; rw [h]; norm_num
  rw [EuclideanSpace.norm_sq_eq, Fin.sum_univ_three] at h2
  simp only [Real.norm_eq_abs, sq_abs] at h2
  rw [dotProduct, Fin.sum_univ_three]
  linarith

theorem spherical_eq {m : Matrix (Fin 3) (Fin 3) ℝ} {cin cout : String} {degrees : Bool} {op : ℝ × ℝ → ℝ × ℝ} (h : spherical (.ok m) cin cout degrees = .ok op) :
    ∃ fi fo, frame cin = .ok fi ∧ frame cout = .ok fo ∧ ∀ p, op p = toSpherical fo degrees (m *ᵥ toCartesian fi degrees p) := by
  unfold spherical at h
  cases ho : frame cout with
  | error e => rw [ho] at h; cases h
  | ok fo =>
    cases hi : frame cin with
    | error e => rw [ho, hi] at h; cases h
    | ok fi =>
      rw [ho, hi] at h
      cases h
      exact ⟨fi, fo, rfl, rfl, fun p => rfl⟩

/-- C110: whatever the conventions, the result is the pair of reduced angles of the transformed unit vector. -/
theorem C110_action {m m' : Matrix (Fin 3) (Fin 3) ℝ} (hm : Inverse m m') {cin cout : String} {degrees : Bool} {op : ℝ × ℝ → ℝ × ℝ}
    (h : spherical (.ok m) cin cout degrees = .ok op) (p : ℝ × ℝ) :
    (vector cout degrees (op p)).ofLp = m *ᵥ (vector cin degrees p).ofLp ∧ Reduced cout degrees (op p) := by
  obtain ⟨fi, fo, hi, ho, e⟩ := spherical_eq h
  rw [e, toCartesian_eq hi]
  apply vector_toSpherical ho
  rw [(hm _ _).2.2.1, dot_vector]

/-- C110: the conversions of opposite directions undo each other on reduced angles, away from the poles. -/
theorem C110_inverse {m m' : Matrix (Fin 3) (Fin 3) ℝ} (hm : Inverse m m') {cin cout : String} {degrees : Bool} {op op' : ℝ × ℝ → ℝ × ℝ}
    (h : spherical (.ok m) cin cout degrees = .ok op) (h' : spherical (.ok m') cout cin degrees = .ok op') {p : ℝ × ℝ} (hp : Reduced cin degrees p)
    (hpole : -90 < (meaning cin degrees p).2 ∧ (meaning cin degrees p).2 < 90) : op' (op p) = p := by
  have hm' : Inverse m' m := fun x y => ⟨(hm x y).2.1, (hm x y).1, (hm x y).2.2.2, (hm x y).2.2.1⟩
  obtain ⟨h1, -⟩ := C110_action hm h p
  obtain ⟨h2, h3⟩ := C110_action hm' h' (op p)
  rw [h1, (hm _ 0).1] at h2
  have h4 : vector cin degrees p = vector cin degrees (op' (op p)) := by
    rw [← WithLp.ofLp_injective 2 |>.eq_iff]
    exact h2.symm
  obtain ⟨a, b⟩ := direction_inj h4 hpole h3.2 hp.1 h3.1
  exact (meaning_inj (Prod.ext a b)).symm

/-- C110: the conversions preserve the angular distances. -/
theorem C110_distance {m m' : Matrix (Fin 3) (Fin 3) ℝ} (hm : Inverse m m') {cin cout : String} {degrees : Bool} {op : ℝ × ℝ → ℝ × ℝ}
    (h : spherical (.ok m) cin cout degrees = .ok op) (p q : ℝ × ℝ) :
    InnerProductGeometry.angle (vector cout degrees (op p)) (vector cout degrees (op q)) =
      InnerProductGeometry.angle (vector cin degrees p) (vector cin degrees q) := by
  have hin : inner ℝ (vector cout degrees (op p)) (vector cout degrees (op q)) = inner ℝ (vector cin degrees p) (vector cin degrees q) := by
    rw [EuclideanSpace.inner_eq_star_dotProduct, EuclideanSpace.inner_eq_star_dotProduct]
    simp only [star_trivial]
    rw [(C110_action hm h p).1, (C110_action hm h q).1, (hm _ _).2.2.1]
  unfold InnerProductGeometry.angle
  rw [hin]
  simp only [vector, norm_direction]

/-- C110: the four conversions are built for the four conventions and they fulfil the hypotheses of the previous theorems. -/
theorem C110_conversions {cin cout : String} (hi : cin ∈ conventions) (ho : cout ∈ conventions) (degrees : Bool) (jd latitude longitude : ℝ) :
    (∃ m m' op op', Inverse m m' ∧ sphericalEquatorial2Galactic cin cout degrees = .ok op ∧ spherical (.ok m) cin cout degrees = .ok op ∧
      sphericalGalactic2Equatorial cout cin degrees = .ok op' ∧ spherical (.ok m') cout cin degrees = .ok op') ∧
    ∃ m m' op op', Inverse m m' ∧ sphericalEquatorial2Horizontal "NE" jd latitude longitude cin cout degrees = .ok op ∧
      spherical (.ok m) cin cout degrees = .ok op ∧ sphericalHorizontal2Equatorial "NE" jd latitude longitude cout cin degrees = .ok op' ∧
      spherical (.ok m') cout cin degrees = .ok op' := by
  obtain ⟨fi, hi⟩ := frame_ok hi
  obtain ⟨fo, ho⟩ := frame_ok ho
  have key : ∀ m, ∃ op, spherical (.ok m) cin cout degrees = .ok op := fun m => ⟨fun p => toSpherical fo degrees (m *ᵥ toCartesian fi degrees p), by
    unfold spherical
    rw [hi, ho]
    rfl⟩
  have key' : ∀ m, ∃ op, spherical (.ok m) cout cin degrees = .ok op := fun m => ⟨fun p => toSpherical fi degrees (m *ᵥ toCartesian fo degrees p), by
    unfold spherical
    rw [hi, ho]
    rfl⟩
  constructor
  · obtain ⟨op, h⟩ := key equatorial2Galactic
    obtain ⟨op', h'⟩ := key' galactic2Equatorial
    exact ⟨_, _, op, op', C67_galactic.1, h, h, h', h'⟩
  · obtain ⟨m, m', h1, h2, hm, -, -⟩ := C67_horizontal jd latitude longitude
    obtain ⟨op, h⟩ := key m
    obtain ⟨op', h'⟩ := key' m'
    refine ⟨m, m', op, op', hm, ?_, h, ?_, h'⟩
    · rw [sphericalEquatorial2Horizontal, h1, h]
    · rw [sphericalHorizontal2Equatorial, h2, h']

/-- C110: the other conventions are rejected. -/
theorem C110_rejects {cin cout : String} (h : cin ∉ conventions ∨ cout ∉ conventions) (m : Matrix (Fin 3) (Fin 3) ℝ) (degrees : Bool) :
    spherical (.ok m) cin cout degrees = .error .valueError := by
  have key : ∀ c, c ∉ conventions → frame c = .error .valueError := by
    intro c hc
    simp only [conventions, List.mem_cons, List.not_mem_nil, or_false, not_or] at hc
    unfold frame
    simp [hc]
  unfold spherical
  by_cases ho : cout ∈ conventions
  · obtain ⟨fo, ho⟩ := frame_ok ho
    rw [ho, key cin (by tauto)]
    rfl
  · rw [key _ ho]
    rfl

/-- C110: the zenith of the observer has the elevation 90 degrees: it is the equatorial direction whose right ascension is the local sidereal time and
whose declination is the latitude. -/
theorem C110_zenith {jd latitude longitude : ℝ} {op : ℝ × ℝ → ℝ × ℝ}
    (h : sphericalEquatorial2Horizontal "NE" jd latitude longitude "azimuth,elevation" "azimuth,elevation" true = .ok op) :
    (op (gst2lst (jd2gst jd) longitude * 15, latitude)).2 = 90 := by
  obtain ⟨m, m', h1, h2, hm, -, -⟩ := C67_horizontal jd latitude longitude
  rw [sphericalEquatorial2Horizontal, h1] at h
  obtain ⟨e, r⟩ := C110_action hm h (gst2lst (jd2gst jd) longitude * 15, latitude)
  have hz := (C105_zenith h1).1
  have hv : (vector "azimuth,elevation" true (gst2lst (jd2gst jd) longitude * 15, latitude)).ofLp = equatorial (15 * gst2lst (jd2gst jd) longitude) latitude := by
    rw [mul_comm 15]
    simp [vector, meaning, direction, equatorial, radians]
  rw [hv, hz] at e
  have e2 := congrFun e 2
  simp [vector, meaning, direction] at e2
  obtain ⟨-, r1, r2⟩ := r
  simp [meaning] at r1 r2
  generalize (op (gst2lst (jd2gst jd) longitude * 15, latitude)).2 = el at e2 r1 r2
  have hpi := Real.pi_pos
  have : el * (Real.pi / 180) = Real.pi / 2 := by
    apply Real.injOn_sin
    · constructor <;> nlinarith
    · constructor <;> linarith
    · rw [e2, Real.sin_pi_div_two]
  field_simp at this
  linarith

example : Reduced "azimuth,elevation" true (266.4, -28.9) ∧ -90 < (meaning "azimuth,elevation" true (266.4, -28.9)).2 ∧
    (meaning "azimuth,elevation" true (266.4, -28.9)).2 < 90 := by
  unfold Reduced meaning
  simp only [String.reduceEq, if_true, if_false]
  norm_num

example : Reduced "zenith,azimuth" false (1, 2) ∧ -90 < (meaning "zenith,azimuth" false (1, 2)).2 ∧ (meaning "zenith,azimuth" false (1, 2)).2 < 90 := by
  have hpi := Real.pi_gt_three
  have h : 180 * 1 / Real.pi < 180 := by
    rw [div_lt_iff₀ (by linarith)]
    linarith
  have h0 : 0 < 180 * 1 / Real.pi := by positivity
  have h2 : 180 * 2 / Real.pi < 360 := by
    rw [div_lt_iff₀ (by linarith)]
    linarith
  have h20 : 0 ≤ 180 * 2 / Real.pi := by positivity
  unfold Reduced meaning
  simp only [if_true, Bool.false_eq_true, if_false]
  exact ⟨⟨⟨h20, h2⟩, by linarith, by linarith⟩, by linarith, by linarith⟩

end

end Verif.Operators
