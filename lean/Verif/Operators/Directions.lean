import Verif.Operators.Spherical
import Verif.PackedTable.Model
import Verif.Data.Sampling
import Mathlib.Tactic

/-!
The directions of the pointings in the different frames (C142): src/pysimulators/packedtables/samplings.py 117-137, 179-216 and 299-370.
-/
namespace Verif.Operators

open Matrix
open Verif.Py
open Verif.Wcs
open Verif.PackedTable (PArg)
open Verif.Data (Sampling)

noncomputable section

/-! ### Model -/

/-- The result of `np.array([a, b]).T`: an array of shape (n, 2), of shape (2,), or an array of objects. -/
inductive Pairs
  | rows (l : List (ℝ × ℝ))
  | single (p : ℝ × ℝ)
  | objects

/-- `np.array([a, b]).T`: numpy rejects sequences of different shapes. -/
def stack : PArg ℝ → PArg ℝ → Res Pairs
  | .array _ xs, .array _ ys => if xs.length = ys.length then .ok (.rows (xs.zip ys)) else .error .valueError
  | .scalar a, .scalar b => .ok (.single (a, b))
  | .none, .none => .ok .objects
  | _, _ => .error .valueError

/-- A pointing: the samples, their first two angles as they are stored by the table (an angle given as a scalar is stored as an array without
dimension, core.py 411-414), and, for the horizontal pointings, the Julian date of the beginning and the place. -/
structure Pointing where
  sampling : Sampling ℝ
  a0 : PArg ℝ
  a1 : PArg ℝ
  jd : ℝ := 0
  latitude : ℝ := 0
  longitude : ℝ := 0

/-- samplings.py 320-332: the argument, or the default of the class. -/
def place (arg classDefault : Option ℝ) : Res ℝ :=
  match arg with
  | some x => .ok x
  | none =>
    match classDefault with
    | some x => .ok x
    | none => .error .valueError

/-- samplings.py 318-341 `SamplingHorizontal.__init__`, once the angles and the samples are known. -/
def horizontal (s : Sampling ℝ) (a0 a1 : PArg ℝ) (jd : ℝ) (latitude longitude defaultLatitude defaultLongitude : Option ℝ) : Res Pointing :=
  (place latitude defaultLatitude).bind fun latitude => (place longitude defaultLongitude).map fun longitude =>
    ⟨s, a0, a1, jd, latitude, longitude⟩

/-- samplings.py 124-129 `spherical`. -/
def Pointing.spherical (p : Pointing) : Res Pairs := stack p.a0 p.a1

/-- An operator on pairs of angles is applied to the last dimension of the array. -/
def Pairs.apply {β : Type} (op : ℝ × ℝ → β) : Pairs → Res (List β)
  | .rows l => .ok (l.map op)
  | .single p => .ok [op p]
  | .objects => .error .typeError

/-- samplings.py 117-122, 205-207 and 343-345 `cartesian`. -/
def Pointing.cartesian (p : Pointing) : Res (List (Fin 3 → ℝ)) := do
  let f ← frame "azimuth,elevation"
  let s ← p.spherical
  s.apply (toCartesian f true)

/-- samplings.py 209-216 `SamplingEquatorial.galactic`. -/
def Pointing.galacticEquatorial (p : Pointing) : Res (List (ℝ × ℝ)) := do
  let op ← sphericalEquatorial2Galactic "azimuth,elevation" "azimuth,elevation" true
  let s ← p.spherical
  s.apply op

/-- samplings.py 353, 365: the dates of the samples, `date_obs + TimeDelta(time, format='sec')`, as Julian dates (without leap seconds). -/
def Pointing.dates (p : Pointing) : List ℝ := p.sampling.time.map fun t => p.jd + t / 86400

/-- The operators of the samples: the matrix has one block per date. -/
def operators (latitude longitude : ℝ) : List ℝ → Res (List (ℝ × ℝ → ℝ × ℝ))
  | [] => .ok []
  | jd :: l =>
    (sphericalHorizontal2Equatorial "NE" jd latitude longitude "azimuth,elevation" "azimuth,elevation" true).bind fun op =>
      (operators latitude longitude l).map fun ops => op :: ops

/-- One block per row. -/
def Pairs.applyEach (ops : List (ℝ × ℝ → ℝ × ℝ)) : Pairs → Res (List (ℝ × ℝ))
  | .rows l => if l.length = ops.length then .ok (List.zipWith (fun op p => op p) ops l) else .error .valueError
  | .single p => .ok (ops.map fun op => op p)
  | .objects => .error .typeError

/-- samplings.py 347-357 `SamplingHorizontal.equatorial`. -/
def Pointing.equatorial (p : Pointing) : Res (List (ℝ × ℝ)) := do
  let ops ← operators p.latitude p.longitude p.dates
  let s ← p.spherical
  s.applyEach ops

/-- samplings.py 359-370 `SamplingHorizontal.galactic`: the composition of the two operators. -/
def Pointing.galacticHorizontal (p : Pointing) : Res (List (ℝ × ℝ)) := do
  let ops ← operators p.latitude p.longitude p.dates
  let e2g ← sphericalEquatorial2Galactic "azimuth,elevation" "azimuth,elevation" true
  let s ← p.spherical
  s.applyEach (ops.map fun op q => e2g (op q))

/-! ### Specification -/

/-- The unit vector towards a longitude and a latitude in degrees. -/
def unit (q : ℝ × ℝ) : Fin 3 → ℝ := Verif.Wcs.equatorial q.1 q.2

/-- The longitude is in [0, 360) and the latitude in [-90, 90]. -/
def InRange (q : ℝ × ℝ) : Prop := (0 ≤ q.1 ∧ q.1 < 360) ∧ -90 ≤ q.2 ∧ q.2 ≤ 90

/-- The direction of right ascension and declination `e` (degrees) is seen at the azimuth and elevation `h` (degrees), from the North to the East,
when the local sidereal time (degrees) is `lst`: the formulas of spherical trigonometry for the hour angle. -/
def SeenAt (latitude lst : ℝ) (e h : ℝ × ℝ) : Prop :=
  let H := radians (lst - e.1)
  let φ := radians latitude
  let δ := radians e.2
  Real.sin (radians h.2) = Real.sin φ * Real.sin δ + Real.cos φ * Real.cos δ * Real.cos H ∧
  Real.cos (radians h.2) * Real.cos (radians h.1) = Real.cos φ * Real.sin δ - Real.sin φ * Real.cos δ * Real.cos H ∧
  Real.cos (radians h.2) * Real.sin (radians h.1) = -(Real.cos δ * Real.sin H)

/-- The two angles are arrays that have a value per sample, and the times too. -/
def Complete (p : Pointing) (xs ys : List ℝ) : Prop :=
  (∃ s, p.a0 = .array s xs) ∧ (∃ s, p.a1 = .array s ys) ∧ xs.length = p.sampling.time.length ∧ ys.length = p.sampling.time.length

/-! ### Lemmas -/

theorem unit_eq (q : ℝ × ℝ) : (vector "azimuth,elevation" true q).ofLp = unit q := by
  simp [vector, meaning, direction, unit, Verif.Wcs.equatorial, radians]

theorem inRange_eq {q : ℝ × ℝ} (h : Reduced "azimuth,elevation" true q) : InRange q := by
  simpa [Reduced, meaning, InRange] using h

theorem toUnit (q : ℝ × ℝ) : toCartesian ⟨true, true⟩ true q = unit q := by
  rw [toCartesian_eq (c := "azimuth,elevation") rfl, unit_eq]

theorem h2e_exists (jd latitude longitude : ℝ) : ∃ m m' op, sphericalHorizontal2Equatorial "NE" jd latitude longitude "azimuth,elevation" "azimuth,elevation" true = .ok op ∧
    equatorial2Horizontal "NE" jd latitude longitude = .ok m ∧ Inverse m m' ∧
    spherical (.ok m') "azimuth,elevation" "azimuth,elevation" true = .ok op := by
  obtain ⟨m, m', h1, h2, hm, -, -⟩ := C67_horizontal jd latitude longitude
  refine ⟨m, m', fun q => toSpherical ⟨true, true⟩ true (m' *ᵥ toCartesian ⟨true, true⟩ true q), ?_, h1, hm, rfl⟩
  rw [sphericalHorizontal2Equatorial, h2]
  rfl

theorem h2e_seen (jd latitude longitude : ℝ) : ∃ op, sphericalHorizontal2Equatorial "NE" jd latitude longitude "azimuth,elevation" "azimuth,elevation" true = .ok op ∧
    ∀ q, SeenAt latitude (15 * gst2lst (jd2gst jd) longitude) (op q) q ∧ InRange (op q) := by
  obtain ⟨m, m', op, h1, h2, hm, h3⟩ := h2e_exists jd latitude longitude
  refine ⟨op, h1, fun q => ?_⟩
  have hm' : Inverse m' m := fun x y => ⟨(hm x y).2.1, (hm x y).1, (hm x y).2.2.2, (hm x y).2.2.1⟩
  obtain ⟨e, r⟩ := C110_action hm' h3 q
  refine ⟨?_, inRange_eq r⟩
  rw [unit_eq, unit_eq] at e
  have e' : m *ᵥ unit (op q) = unit q := by rw [e, (hm _ 0).2.1]
  unfold unit at e'
  rw [C105_horizontal h2] at e'
  have e0 := congrFun e' 0
  have e1 := congrFun e' 1
  have e2 := congrFun e' 2
  simp [Verif.Wcs.equatorial] at e0 e1 e2
  refine ⟨?_, ?_, ?_⟩
  · linarith
  · linarith
  · linarith

theorem operators_spec (latitude longitude : ℝ) : ∀ (l : List ℝ), ∃ ops, operators latitude longitude l = .ok ops ∧ ops.length = l.length ∧
    ∀ (k : Nat) (jd : ℝ), l[k]? = some jd → ∃ op, ops[k]? = some op ∧
      ∀ q, SeenAt latitude (15 * gst2lst (jd2gst jd) longitude) (op q) q ∧ InRange (op q)
  | [] => ⟨[], rfl, rfl, fun k jd h => by simp at h⟩
  | jd :: l => by
    obtain ⟨ops, h1, h2, h3⟩ := operators_spec latitude longitude l
    obtain ⟨op, h4, h5⟩ := h2e_seen jd latitude longitude
    refine ⟨op :: ops, ?_, by simp [h2], fun k jd' h => ?_⟩
    · unfold operators
      rw [h4]
      simp only [Except.bind]
      rw [h1]
      rfl
    · cases k with
      | zero =>
        simp only [List.getElem?_cons_zero, Option.some.injEq] at h
        subst h
        exact ⟨op, rfl, h5⟩
      | succ k =>
        simp only [List.getElem?_cons_succ] at h
        exact h3 k jd' h

theorem spherical_complete {p : Pointing} {xs ys : List ℝ} (h : Complete p xs ys) : p.spherical = .ok (.rows (xs.zip ys)) := by
  obtain ⟨⟨s, h0⟩, ⟨s', h1⟩, hx, hy⟩ := h
  unfold Pointing.spherical
  rw [h0, h1, stack, if_pos (by rw [hx, hy])]

/-! ### Theorems -/

/-- C142, partial: when the two angles are arrays, the spherical coordinates of a sample are its two angles and the cartesian coordinates are those of
the unit vector that they define.  Full statement: for every way of giving the angles; it is false, see `C142_violation_scalar` and
`C142_violation_single`. -/
theorem C142_cartesian_partial {p : Pointing} {xs ys : List ℝ} (h : Complete p xs ys) :
    p.spherical = .ok (.rows (xs.zip ys)) ∧ (xs.zip ys).length = p.sampling.time.length ∧
    ∃ l, p.cartesian = .ok l ∧ l.length = p.sampling.time.length ∧
      ∀ (k : Nat) (x y : ℝ), xs[k]? = some x → ys[k]? = some y → l[k]? = some (unit (x, y)) := by
  have hs := spherical_complete h
  obtain ⟨-, -, hx, hy⟩ := h
  refine ⟨hs, by simp [hx, hy], (xs.zip ys).map unit, ?_, by simp [hx, hy], fun k x y h1 h2 => ?_⟩
  · unfold Pointing.cartesian
    rw [hs]
    show Except.ok _ = _
    congr 2
    funext q
    exact toUnit q
  · rw [List.getElem?_map, (List.getElem?_zip_eq_some (z := (x, y))).2 ⟨h1, h2⟩]
    rfl

/-- C142, partial: the galactic coordinates of an equatorial pointing are the reduced angles of the rotated direction of each sample. -/
theorem C142_galactic_partial {p : Pointing} {xs ys : List ℝ} (h : Complete p xs ys) :
    ∃ l, p.galacticEquatorial = .ok l ∧ l.length = p.sampling.time.length ∧
      ∀ (k : Nat) (x y : ℝ), xs[k]? = some x → ys[k]? = some y →
        ∃ g, l[k]? = some g ∧ unit g = equatorial2Galactic *ᵥ unit (x, y) ∧ InRange g := by
  have hs := spherical_complete h
  obtain ⟨-, -, hx, hy⟩ := h
  obtain ⟨⟨m, m', op, op', hm, h1, h2, -, -⟩, -⟩ := C110_conversions (cin := "azimuth,elevation") (cout := "azimuth,elevation")
    (by decide) (by decide) true 0 0 0
  have hop : spherical (.ok equatorial2Galactic) "azimuth,elevation" "azimuth,elevation" true = .ok op := h1
  refine ⟨(xs.zip ys).map op, ?_, by simp [hx, hy], fun k x y e1 e2 => ?_⟩
  · unfold Pointing.galacticEquatorial
    rw [hs, h1]
    rfl
  · refine ⟨op (x, y), by rw [List.getElem?_map, (List.getElem?_zip_eq_some (z := (x, y))).2 ⟨e1, e2⟩]; rfl, ?_⟩
    obtain ⟨e, r⟩ := C110_action C67_galactic.1 hop (x, y)
    rw [unit_eq, unit_eq] at e
    exact ⟨e, inRange_eq r⟩

/-- C142, partial: the equatorial coordinates of a horizontal pointing are, for each sample, the reduced angles of the direction that is seen at the
azimuth and elevation of the sample, at the date of this sample and at the place of the observer. -/
theorem C142_equatorial_partial {p : Pointing} {xs ys : List ℝ} (h : Complete p xs ys) :
    ∃ l, p.equatorial = .ok l ∧ l.length = p.sampling.time.length ∧
      ∀ (k : Nat) (az el t : ℝ), xs[k]? = some az → ys[k]? = some el → p.sampling.time[k]? = some t →
        ∃ e, l[k]? = some e ∧ SeenAt p.latitude (15 * gst2lst (jd2gst (p.jd + t / 86400)) p.longitude) e (az, el) ∧ InRange e := by
  have hs := spherical_complete h
  obtain ⟨-, -, hx, hy⟩ := h
  obtain ⟨ops, h1, h2, h3⟩ := operators_spec p.latitude p.longitude p.dates
  have hl : ops.length = p.sampling.time.length := by rw [h2, Pointing.dates, List.length_map]
  refine ⟨List.zipWith (fun op q => op q) ops (xs.zip ys), ?_, by simp [hl, hx, hy], fun k az el t e1 e2 e3 => ?_⟩
  · unfold Pointing.equatorial
    rw [h1, hs]
    simp only [bind, Except.bind, Pairs.applyEach]
    rw [if_pos (by simp [hl, hx, hy])]
  · obtain ⟨op, h4, h5⟩ := h3 k (p.jd + t / 86400) (by rw [Pointing.dates, List.getElem?_map, e3]; rfl)
    refine ⟨op (az, el), ?_, h5 (az, el)⟩
    rw [List.getElem?_zipWith, h4, (List.getElem?_zip_eq_some (z := (az, el))).2 ⟨e1, e2⟩]

/-- C142, partial: the galactic coordinates of a horizontal pointing are the galactic coordinates of its equatorial coordinates. -/
theorem C142_galactic_horizontal_partial {p : Pointing} {xs ys : List ℝ} (h : Complete p xs ys) :
    ∃ l g, p.equatorial = .ok l ∧ p.galacticHorizontal = .ok g ∧ g.length = l.length ∧
      ∀ (k : Nat) (e : ℝ × ℝ), l[k]? = some e → ∃ q, g[k]? = some q ∧ unit q = equatorial2Galactic *ᵥ unit e ∧ InRange q := by
  have hs := spherical_complete h
  obtain ⟨-, -, hx, hy⟩ := h
  obtain ⟨⟨m, m', e2g, op', hm, g1, g2, -, -⟩, -⟩ := C110_conversions (cin := "azimuth,elevation") (cout := "azimuth,elevation")
    (by decide) (by decide) true 0 0 0
  have hop : spherical (.ok equatorial2Galactic) "azimuth,elevation" "azimuth,elevation" true = .ok e2g := g1
  obtain ⟨ops, h1, h2, h3⟩ := operators_spec p.latitude p.longitude p.dates
  have hl : ops.length = p.sampling.time.length := by rw [h2, Pointing.dates, List.length_map]
  refine ⟨List.zipWith (fun op q => op q) ops (xs.zip ys), List.zipWith (fun op q => op q) (ops.map fun op q => e2g (op q)) (xs.zip ys), ?_, ?_,
    by simp, fun k e he => ?_⟩
  · unfold Pointing.equatorial
    rw [h1, hs]
    simp only [bind, Except.bind, Pairs.applyEach]
    rw [if_pos (by simp [hl, hx, hy])]
  · unfold Pointing.galacticHorizontal
    rw [h1, hs, g1]
    simp only [bind, Except.bind, Pairs.applyEach]
    rw [if_pos (by simp [hl, hx, hy])]
  · refine ⟨e2g e, ?_, ?_⟩
    · rw [List.getElem?_zipWith] at he ⊢
      rw [List.getElem?_map]
      cases ho : ops[k]? with
      | none => rw [ho] at he; simp at he
      | some op =>
        cases hq : (xs.zip ys)[k]? with
        | none => rw [ho, hq] at he; simp at he
        | some q =>
          rw [ho, hq] at he
          simp only [Option.some.injEq] at he
          simp only [Option.map_some]
          rw [he]
    · obtain ⟨e', r⟩ := C110_action C67_galactic.1 hop e
      rw [unit_eq, unit_eq] at e'
      exact ⟨e', inRange_eq r⟩

/-- C142: a horizontal pointing is at the given place, or at the one of the class; it is refused when there is none. -/
theorem C142_place (s : Sampling ℝ) (a0 a1 : PArg ℝ) (jd : ℝ) (lat lon dlat dlon : Option ℝ) :
    (∀ p, horizontal s a0 a1 jd lat lon dlat dlon = .ok p →
      (∀ x, lat = some x → p.latitude = x) ∧ (∀ x, lat = none → dlat = some x → p.latitude = x) ∧
      (∀ x, lon = some x → p.longitude = x) ∧ (∀ x, lon = none → dlon = some x → p.longitude = x) ∧ p.sampling = s ∧ p.a0 = a0 ∧ p.a1 = a1) ∧
    ((∃ p, horizontal s a0 a1 jd lat lon dlat dlon = .ok p) ↔ (lat ≠ none ∨ dlat ≠ none) ∧ (lon ≠ none ∨ dlon ≠ none)) := by
  cases lat <;> cases dlat <;> cases lon <;> cases dlon <;>
    simp [horizontal, place, Except.bind, Except.map]

/-- C142 does not hold when an angle is a scalar and the other an array: `SamplingEquatorial(ra=[1, 2, 3], dec=0)` is accepted (its number of samples
is that of the arrays once they are broadcast, see C100), but it has no direction. -/
theorem C142_violation_scalar (p : Pointing) (s : List Nat) (xs : List ℝ) (y : ℝ)
    (h : (p.a0 = .array s xs ∧ p.a1 = .scalar y) ∨ (p.a0 = .scalar y ∧ p.a1 = .array s xs)) :
    p.spherical = .error .valueError ∧ p.cartesian = .error .valueError := by
  have hs : p.spherical = .error .valueError := by
    unfold Pointing.spherical
    rcases h with ⟨h0, h1⟩ | ⟨h0, h1⟩ <;> rw [h0, h1] <;> rfl
  refine ⟨hs, ?_⟩
  unfold Pointing.cartesian
  rw [hs]
  rfl

/-- C142 does not hold when both angles are scalars: the sampling has one sample, but its spherical coordinates have the shape (2,), not (1, 2). -/
theorem C142_violation_single (p : Pointing) (x y : ℝ) (h0 : p.a0 = .scalar x) (h1 : p.a1 = .scalar y) :
    p.spherical = .ok (.single (x, y)) := by
  unfold Pointing.spherical
  rw [h0, h1]
  rfl

/-- The scalar angles of the violations are accepted by the constructor. -/
example : Verif.Data.spherical [.array 1 [3], .scalar 0] {} = .ok (3, .array 1 [3], .scalar 0, .scalar 0) ∧
    Verif.Data.spherical [.scalar 1, .scalar 2] {} = .ok (1, .scalar 1, .scalar 2, .scalar 0) := by decide

example : Complete ⟨⟨[0, 2], 3, none⟩, .array [2] [10, 20], .array [2] [45, 50], 2451545, 48, 2⟩ [10, 20] [45, 50] := by
  refine ⟨⟨_, rfl⟩, ⟨_, rfl⟩, rfl, rfl⟩

end

end Verif.Operators
