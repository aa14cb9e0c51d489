import Mathlib.Analysis.Real.Sqrt
import Mathlib.Analysis.SpecialFunctions.Pow.Real
import Mathlib.Probability.Distributions.Gaussian.Real
import Mathlib.Tactic
import Verif.Py.Basic

/-! Distances to a point, circular apertures and gaussians (datautils.py 61-263 and 317-371, datautils.f90.j2 11-114).  An array of shape
`[n0, n1, ...]` is a function of the indices `[i0, i1, ...]`.  The conversion from and into other types (datautils.py 127-133) is left out. -/

namespace Verif.Data

open Finset
open Verif.Py

set_option linter.unusedSectionVars false
set_option linter.unusedSimpArgs false

noncomputable section

/-! ### The model -/

/-- A scalar, or a list along the axes x, y, ... -/
inductive PerAxis where
  | scalar (s : ℝ)
  | list (l : List ℝ)

/-- datautils.py 140-142 and 358-361: `np.resize(scale, ndim)` for a scalar. -/
def PerAxis.toList (ndim : ℕ) : PerAxis → List ℝ
  | .scalar s => List.replicate ndim s
  | .list l => l

/-- datautils.py 136-139: the centre along the axes x, y, ... -/
def centreList (shape : List ℕ) : Option (List ℝ) → List ℝ
  | none => shape.reverse.map fun n : ℕ => ((n : ℝ) - 1) / 2
  | some c => c

/-- datautils.f90.j2 11-25. -/
def distance1d (origin scaling : ℝ) (i : ℕ) : ℝ := |scaling * (i - origin)|

/-- datautils.f90.j2 28-42. -/
def distance2_1d (origin scaling2 : ℝ) (i : ℕ) : ℝ := scaling2 * (i - origin) ^ 2

/-- datautils.f90.j2 45-65: the element `distance(i,j)`. -/
def distance2d (origin scaling : ℝ × ℝ) (i j : ℕ) : ℝ :=
  let x2 := distance2_1d origin.1 (scaling.1 ^ 2)
  let y2 := distance2_1d origin.2 (scaling.2 ^ 2)
  √(x2 i + y2 j)

/-- datautils.f90.j2 68-88: the element `distance(i,j)`. -/
def distance2_2d (origin scaling2 : ℝ × ℝ) (i j : ℕ) : ℝ :=
  let x2 := distance2_1d origin.1 scaling2.1
  let y2 := distance2_1d origin.2 scaling2.2
  x2 i + y2 j

/-- datautils.py 170-173 and 254-258: `zip` stops with the shortest list. -/
def squares : List ℕ → List ℝ → List ℝ → List ℝ
  | a :: idx, o :: centre, s :: scale => (s * (a - o)) ^ 2 :: squares idx centre scale
  | _, _, _ => []

/-- datautils.py 158-174 `_distance_slow`. -/
def distanceSlow (centre scale : List ℝ) (idx : List ℕ) : ℝ := √ (squares idx centre.reverse scale.reverse).sum

/-- datautils.py 94-155 `distance`.  The compiled functions for two dimensions require two coordinates, and are given the transpose. -/
def distance (shape : List ℕ) (centre : Option (List ℝ)) (scale : PerAxis) : Res (List ℕ → ℝ) :=
  match shape with
  | [n] =>
    match centreList [n] centre, scale.toList 1 with
    | c :: _, s :: _ => .ok fun idx => distance1d c s (idx.getD 0 0)
    | _, _ => .error .indexError
  | [ny, nx] =>
    match centreList [ny, nx] centre, scale.toList 2 with
    | [cx, cy], [sx, sy] => .ok fun idx => distance2d (cx, cy) (sx, sy) (idx.getD 1 0) (idx.getD 0 0)
    | _, _ => .error .valueError
  | shape => .ok (distanceSlow (centreList shape centre) (scale.toList shape.length))

/-- datautils.py 177-263 `distance2`.  With three dimensions or more, line 262 gives the last squares to `np.sum` as the axis; without
dimension they do not exist. -/
def distance2 (shape : List ℕ) (centre : Option (List ℝ)) (scale : PerAxis) : Res (List ℕ → ℝ) :=
  match shape with
  | [n] =>
    match centreList [n] centre, scale.toList 1 with
    | c :: _, s :: _ => .ok fun idx => distance2_1d c (s ^ 2) (idx.getD 0 0)
    | _, _ => .error .indexError
  | [ny, nx] =>
    match centreList [ny, nx] centre, scale.toList 2 with
    | [cx, cy], [sx, sy] => .ok fun idx => distance2_2d (cx, cy) (sx ^ 2, sy ^ 2) (idx.getD 1 0) (idx.getD 0 0)
    | _, _ => .error .valueError
  | [] => .error .indexError
  | _ => .error .typeError

/-- A map whose unit is worth `unit` units of reference (datautils.py 128 and 155, 206 and 235): the values for a scale of `s` units. -/
def inReference (unit : ℝ) (r : Res (List ℕ → ℝ)) (idx : List ℕ) : Option ℝ :=
  match r with
  | .ok f => some (unit * f idx)
  | .error _ => none

/-- datautils.py 65-91 `aperture_circular`. -/
def apertureCircular (shape : List ℕ) (diameter : ℝ) (centre : Option (List ℝ)) (scale : PerAxis) : Res (List ℕ → ℝ) := do
  let array ← distance2 shape centre scale
  .ok fun idx => open Classical in if array idx ≤ (diameter / 2) ^ 2 then 1 else 0

/-- datautils.f90.j2 91-114: the element `out(i,j)`. -/
def gaussian2d (origin sigma : ℝ × ℝ) (i j : ℕ) : ℝ :=
  let coef := 1 / (2 * Real.pi * sigma.1 * sigma.2)
  let x2 := fun i => coef * Real.exp (-distance2_1d origin.1 (0.5 / sigma.1 ^ 2) i)
  let y2 := fun j => Real.exp (-distance2_1d origin.2 (0.5 / sigma.2 ^ 2) j)
  x2 i * y2 j

/-- `np.ogrid[start:stop:complex(n)]` (numpy's `nd_grid`): the element `k`. -/
def ogridLinspace (start stop : ℝ) (n k : ℕ) : ℝ := k * (if n = 1 then 1 else (stop - start) / ((n : ℝ) - 1)) + start

/-- datautils.py 361-371: the values along the axes, and their product. -/
def gaussianFold : List ℕ → List ℕ → List ℝ → List ℝ → ℝ → ℝ
  | a :: idx, sh :: shape, o :: centre, sc :: scale, out =>
    gaussianFold idx shape centre scale (out * Real.exp (-(ogridLinspace (-o * sc) (((sh : ℝ) - 1 - o) * sc) sh a ^ 2)))
  | _, _, _, _, out => out

/-- datautils.py 361-371. -/
def gaussianSlow (shape : List ℕ) (centre sigma : List ℝ) (idx : List ℕ) : ℝ :=
  let scale := sigma.reverse.map fun s => 1 / (√2 * s)
  gaussianFold idx shape centre.reverse scale (1 / ((2 * Real.pi) ^ ((shape.length : ℝ) / 2) * sigma.prod))

/-- datautils.py 340-341 and 358-361: the standard deviations along the axes x, y, ... -/
def sigmaList (ndim : ℕ) : Option PerAxis → Option PerAxis → Res (List ℝ)
  | some sigma, _ => .ok (sigma.toList ndim)
  | none, some (.scalar fwhm) => .ok (PerAxis.toList ndim (.scalar (fwhm / √(8 * Real.log 2))))
  | none, some (.list fwhm) => .ok (fwhm.map fun f => f / √(8 * Real.log 2))
  | none, none => .error .valueError

/-- datautils.py 317-371 `gaussian`, for reals of single or double precision. -/
def gaussian (shape : List ℕ) (sigma fwhm : Option PerAxis) (centre : Option (List ℝ)) : Res (List ℕ → ℝ) := do
  let sg ← sigmaList shape.length sigma fwhm
  match shape with
  | [ny, nx] =>
    match centreList [ny, nx] centre, sg with
    | [cx, cy], [sx, sy] => .ok fun idx => gaussian2d (cx, cy) (sx, sy) (idx.getD 1 0) (idx.getD 0 0)
    | _, _ => .error .valueError
  | shape => .ok (gaussianSlow shape (centreList shape centre) sg)

/-! ### Specification -/

/-- The coordinate of an element along the axis x, y, ...: the last index, the last but one, ... -/
def coord (idx : List ℕ) (d : ℕ) : ℝ := (idx.reverse.getD d 0 : ℕ)

/-- The parameter along the axis x, y, ...: the same one for each axis if it is a scalar. -/
def PerAxis.at (d : ℕ) : PerAxis → ℝ
  | .scalar s => s
  | .list l => l.getD d 0

/-- A parameter is a scalar or has a value for each axis. -/
def PerAxis.Fits (ndim : ℕ) : PerAxis → Prop
  | .scalar _ => True
  | .list l => l.length = ndim

/-- The coordinate of the centre: by default, the middle of the first and of the last pixels. -/
def centreAt (shape : List ℕ) (d : ℕ) : Option (List ℝ) → ℝ
  | none => (0 + ((shape.reverse.getD d 0 : ℕ) - 1)) / 2
  | some c => c.getD d 0

/-- The squared distance of an element to the centre. -/
def dist2 (shape : List ℕ) (centre : Option (List ℝ)) (scale : PerAxis) (idx : List ℕ) : ℝ :=
  ∑ d ∈ range shape.length, (scale.at d * (coord idx d - centreAt shape d centre)) ^ 2

/-! ### Lemmas -/

theorem toList_length {n : ℕ} {s : PerAxis} (h : s.Fits n) : (s.toList n).length = n := by
  cases s with
  | scalar s => simp [PerAxis.toList]
  | list l => exact h

theorem toList_getD {n d : ℕ} {s : PerAxis} (hd : d < n) : (s.toList n).getD d 0 = s.at d := by
  cases s with
  | scalar s => simp [PerAxis.toList, PerAxis.at, List.getD_eq_getElem?_getD, List.getElem?_replicate, hd]
  | list l => rfl

theorem centreList_length {shape : List ℕ} {c : Option (List ℝ)} (h : ∀ l, c = some l → l.length = shape.length) :
    (centreList shape c).length = shape.length := by
  cases c with
  | none => simp [centreList]
  | some l => exact h l rfl

theorem centreList_getD {shape : List ℕ} {c : Option (List ℝ)} {d : ℕ} (hd : d < shape.length) : (centreList shape c).getD d 0 = centreAt shape d c := by
  cases c with
  | none =>
    have : d < shape.reverse.length := by simpa using hd
    rw [centreList, centreAt, List.getD_eq_getElem?_getD, List.getD_eq_getElem?_getD, List.getElem?_map, List.getElem?_eq_getElem this]
    simp
  | some l => rfl

theorem squares_sum : ∀ (idx : List ℕ) (c s : List ℝ), c.length = idx.length → s.length = idx.length →
    (squares idx c s).sum = ∑ d ∈ range idx.length, (s.getD d 0 * ((idx.getD d 0 : ℕ) - c.getD d 0)) ^ 2 := by
  intro idx
  induction idx with
  | nil => intro c s _ _; simp [squares]
  | cons a idx ih =>
    intro c s hc hs
    match c, s with
    | o :: c, t :: s =>
      rw [squares, List.sum_cons, ih c s (by simpa using hc) (by simpa using hs), List.length_cons, Finset.sum_range_succ']
      simp [add_comm]
    | [], _ => simp at hc
    | _ :: _, [] => simp at hs

theorem getD_reverse {α : Type} (l : List α) (d : ℕ) (a : α) (hd : d < l.length) : l.reverse.getD d a = l.getD (l.length - 1 - d) a := by
  rw [List.getD_eq_getElem?_getD, List.getD_eq_getElem?_getD, List.getElem?_reverse hd]

theorem slow_sum {shape idx : List ℕ} {centre : Option (List ℝ)} {scale : PerAxis} (hc : ∀ l, centre = some l → l.length = shape.length)
    (hs : scale.Fits shape.length) (hi : idx.length = shape.length) :
    (squares idx (centreList shape centre).reverse (scale.toList shape.length).reverse).sum = dist2 shape centre scale idx := by
  have hcl := centreList_length hc
  have hsl := toList_length hs
  rw [squares_sum _ _ _ (by simp [hcl, hi]) (by simp [hsl, hi]), dist2, hi, ← Finset.sum_range_reflect]
  refine Finset.sum_congr rfl fun d hd => ?_
  rw [Finset.mem_range] at hd
  have h1 : shape.length - 1 - (shape.length - 1 - d) = d := by omega
  rw [getD_reverse _ _ _ (by omega), getD_reverse _ _ _ (by omega), hcl, hsl, h1, toList_getD hd, centreList_getD hd, coord, getD_reverse _ _ _ (by omega), hi]

theorem list_one {α : Type} {l : List α} (d : α) (h : l.length = 1) : l = [l.getD 0 d] := by
  match l, h with
  | [a], _ => rfl

theorem list_two {α : Type} {l : List α} (d : α) (h : l.length = 2) : l = [l.getD 0 d, l.getD 1 d] := by
  match l, h with
  | [a, b], _ => rfl

theorem coord_one {idx : List ℕ} (h : idx.length = 1) : coord idx 0 = (idx.getD 0 0 : ℕ) := by
  match idx, h with
  | [a], _ => rfl

theorem coord_two {idx : List ℕ} (h : idx.length = 2) : coord idx 0 = (idx.getD 1 0 : ℕ) ∧ coord idx 1 = (idx.getD 0 0 : ℕ) := by
  match idx, h with
  | [a, b], _ => exact ⟨rfl, rfl⟩

/-! ### Properties -/

/-- C102: each element is the distance to the centre, whatever the number of dimensions. -/
theorem C102_distance {shape : List ℕ} {centre : Option (List ℝ)} {scale : PerAxis} (hc : ∀ l, centre = some l → l.length = shape.length)
    (hs : scale.Fits shape.length) :
    ∃ f, distance shape centre scale = .ok f ∧ ∀ idx, idx.length = shape.length → f idx = √(dist2 shape centre scale idx) := by
  have hcl := centreList_length hc
  have hsl := toList_length hs
  match shape with
  | [n] =>
    have h1 := list_one 0 hcl
    have h2 := list_one 0 hsl
    rw [centreList_getD (by simp)] at h1
    rw [List.length_singleton, toList_getD (by simp)] at h2
    refine ⟨fun idx => distance1d (centreAt [n] 0 centre) (scale.at 0) (idx.getD 0 0), ?_, fun idx hi => ?_⟩
    · rw [distance, h1, h2]
    · dsimp only
      rw [dist2, List.length_singleton, Finset.sum_range_one, Real.sqrt_sq_eq_abs, coord_one hi, distance1d]
  | [ny, nx] =>
    have h1 := list_two 0 hcl
    have h2 := list_two 0 hsl
    rw [centreList_getD (by simp), centreList_getD (by simp)] at h1
    rw [show [ny, nx].length = 2 from rfl, toList_getD (by simp), toList_getD (by simp)] at h2
    refine ⟨fun idx => distance2d (centreAt [ny, nx] 0 centre, centreAt [ny, nx] 1 centre) (scale.at 0, scale.at 1) (idx.getD 1 0) (idx.getD 0 0), ?_,
      fun idx hi => ?_⟩
    · rw [distance, h1, h2]
    · dsimp only
      rw [dist2, show [ny, nx].length = 2 from rfl, Finset.sum_range_succ, Finset.sum_range_one, (coord_two hi).1, (coord_two hi).2, distance2d, distance2_1d,
        distance2_1d, mul_pow, mul_pow]
  | [] =>
    refine ⟨_, rfl, fun idx hi => ?_⟩
    rw [distanceSlow, slow_sum hc hs hi]
  | a :: b :: c :: l =>
    refine ⟨_, rfl, fun idx hi => ?_⟩
    rw [distanceSlow, slow_sum hc hs hi]

/-- C102, partial: for one and two dimensions the elements of `distance2` are the squared distances.  Full statement: whatever the number of
dimensions; see `C102_violation_distance2`. -/
theorem C102_distance2_partial {shape : List ℕ} {centre : Option (List ℝ)} {scale : PerAxis} (hn : shape.length = 1 ∨ shape.length = 2)
    (hc : ∀ l, centre = some l → l.length = shape.length) (hs : scale.Fits shape.length) :
    ∃ f, distance2 shape centre scale = .ok f ∧ ∀ idx, idx.length = shape.length → f idx = dist2 shape centre scale idx := by
  have hcl := centreList_length hc
  have hsl := toList_length hs
  match shape, hn with
  | [n], _ =>
    have h1 := list_one 0 hcl
    have h2 := list_one 0 hsl
    rw [centreList_getD (by simp)] at h1
    rw [List.length_singleton, toList_getD (by simp)] at h2
    refine ⟨fun idx => distance2_1d (centreAt [n] 0 centre) (scale.at 0 ^ 2) (idx.getD 0 0), ?_, fun idx hi => ?_⟩
    · rw [distance2, h1, h2]
    · dsimp only
      rw [dist2, List.length_singleton, Finset.sum_range_one, coord_one hi, distance2_1d, mul_pow]
  | [ny, nx], _ =>
    have h1 := list_two 0 hcl
    have h2 := list_two 0 hsl
    rw [centreList_getD (by simp), centreList_getD (by simp)] at h1
    rw [show [ny, nx].length = 2 from rfl, toList_getD (by simp), toList_getD (by simp)] at h2
    refine ⟨fun idx => distance2_2d (centreAt [ny, nx] 0 centre, centreAt [ny, nx] 1 centre) (scale.at 0 ^ 2, scale.at 1 ^ 2) (idx.getD 1 0) (idx.getD 0 0),
      ?_, fun idx hi => ?_⟩
    · rw [distance2, h1, h2]
    · dsimp only
      rw [dist2, show [ny, nx].length = 2 from rfl, Finset.sum_range_succ, Finset.sum_range_one, (coord_two hi).1, (coord_two hi).2, distance2_2d,
        distance2_1d, distance2_1d, mul_pow, mul_pow]
  | [], h => simp at h
  | _ :: _ :: _ :: _, h => simp at h

/-- C102 does not hold for `distance2` with three dimensions or more, nor for the apertures: an error is raised. -/
theorem C102_violation_distance2 (shape : List ℕ) (hn : 3 ≤ shape.length) (centre : Option (List ℝ)) (scale : PerAxis) (diameter : ℝ) :
    distance2 shape centre scale = .error .typeError ∧ apertureCircular shape diameter centre scale = .error .typeError := by
  match shape, hn with
  | a :: b :: c :: l, _ => exact ⟨rfl, rfl⟩

/-- C102: an aperture is one in the disk of the given diameter and zero outside. -/
theorem C102_aperture {shape : List ℕ} {centre : Option (List ℝ)} {scale : PerAxis} (hn : shape.length = 1 ∨ shape.length = 2)
    (hc : ∀ l, centre = some l → l.length = shape.length) (hs : scale.Fits shape.length) {diameter : ℝ} (hd : 0 ≤ diameter) :
    ∃ f, apertureCircular shape diameter centre scale = .ok f ∧ ∀ idx, idx.length = shape.length →
      (√(dist2 shape centre scale idx) ≤ diameter / 2 → f idx = 1) ∧ (diameter / 2 < √(dist2 shape centre scale idx) → f idx = 0) := by
  obtain ⟨f, h1, h2⟩ := C102_distance2_partial hn hc hs
  have : apertureCircular shape diameter centre scale = .ok fun idx => open Classical in if f idx ≤ (diameter / 2) ^ 2 then 1 else 0 := by
    rw [apertureCircular, h1]
    rfl
  refine ⟨_, this, fun idx hi => ?_⟩
  have hiff : f idx ≤ (diameter / 2) ^ 2 ↔ √(dist2 shape centre scale idx) ≤ diameter / 2 := by
    rw [h2 idx hi, Real.sqrt_le_left (by linarith)]
  exact ⟨fun h => if_pos (hiff.mpr h), fun h => if_neg fun hh => absurd (hiff.mp hh) (not_le.mpr h)⟩

/-- A scale expressed in a smaller unit. -/
def PerAxis.mul (k : ℝ) : PerAxis → PerAxis
  | .scalar s => .scalar (k * s)
  | .list l => .list (l.map fun s => k * s)

theorem dist2_mul (shape : List ℕ) (centre : Option (List ℝ)) (scale : PerAxis) (idx : List ℕ) (k : ℝ) (hs : scale.Fits shape.length) :
    dist2 shape centre (scale.mul k) idx = k ^ 2 * dist2 shape centre scale idx := by
  rw [dist2, dist2, Finset.mul_sum]
  refine Finset.sum_congr rfl fun d hd => ?_
  have : (scale.mul k).at d = k * scale.at d := by
    cases scale with
    | scalar s => rfl
    | list l =>
      have hl : d < l.length := by rw [show l.length = shape.length from hs]; exact Finset.mem_range.mp hd
      simp [PerAxis.mul, PerAxis.at, List.getD_eq_getElem?_getD, List.getElem?_eq_getElem hl]
  rw [this]
  ring

theorem fits_mul {n : ℕ} {scale : PerAxis} (hs : scale.Fits n) (k : ℝ) : (scale.mul k).Fits n := by
  cases scale with
  | scalar s => trivial
  | list l => simpa [PerAxis.mul, PerAxis.Fits] using hs

/-- C102: the distances do not depend on the unit in which the scale is expressed: they carry it. -/
theorem C102_unit {shape : List ℕ} {centre : Option (List ℝ)} {scale : PerAxis} (hc : ∀ l, centre = some l → l.length = shape.length)
    (hs : scale.Fits shape.length) {unit k : ℝ} (hk : 0 < k) {idx : List ℕ} (hi : idx.length = shape.length) :
    inReference (unit / k) (distance shape centre (scale.mul k)) idx = inReference unit (distance shape centre scale) idx := by
  obtain ⟨f, h1, h2⟩ := C102_distance hc hs
  obtain ⟨g, g1, g2⟩ := C102_distance hc (fits_mul hs k)
  rw [h1, g1, inReference, inReference, h2 idx hi, g2 idx hi, dist2_mul _ _ _ _ _ hs, Real.sqrt_mul (sq_nonneg k), Real.sqrt_sq hk.le]
  congr 1
  field_simp

/-- C102 does not hold for the unit of the squared distances: it should be squared, and one kilometre is then not a thousand metres, whatever the
pixels. -/
theorem C102_violation_unit {shape : List ℕ} {centre : Option (List ℝ)} {scale : PerAxis} (hn : shape.length = 1 ∨ shape.length = 2)
    (hc : ∀ l, centre = some l → l.length = shape.length) (hs : scale.Fits shape.length) {unit k : ℝ} (hu : unit ≠ 0) (hk : 0 < k) (hk1 : k ≠ 1)
    {idx : List ℕ} (hi : idx.length = shape.length) (hd : dist2 shape centre scale idx ≠ 0) :
    inReference (unit / k) (distance2 shape centre (scale.mul k)) idx ≠ inReference unit (distance2 shape centre scale) idx := by
  obtain ⟨f, h1, h2⟩ := C102_distance2_partial hn hc hs
  obtain ⟨g, g1, g2⟩ := C102_distance2_partial hn hc (fits_mul hs k)
  rw [h1, g1, inReference, inReference, h2 idx hi, g2 idx hi, dist2_mul _ _ _ _ _ hs]
  intro h
  have h' := Option.some.inj h
  have : unit * dist2 shape centre scale idx * (k - 1) = 0 := by
    have e : unit / k * (k ^ 2 * dist2 shape centre scale idx) = k * (unit * dist2 shape centre scale idx) := by field_simp
    rw [e] at h'
    linear_combination h'
  rcases mul_eq_zero.mp this with h | h
  · exact (mul_ne_zero hu hd) h
  · exact hk1 (by linarith)

/-- The pixel of the second row and third column, and the centre of the first pixel: 2 pixels of 3 and 1 pixel of 4. -/
example : dist2 [2, 3] (some [0, 0]) (.list [3, 4]) [1, 2] = 6 ^ 2 + 4 ^ 2 ∧ (PerAxis.list [3, 4]).Fits 2 := by
  constructor
  · norm_num [dist2, Finset.sum_range_succ, PerAxis.at, coord, centreAt]
  · rfl

/-- Three dimensions, and the default centre. -/
example : ∃ f, distance [3, 3, 3] none (.scalar 1) = .ok f ∧ f [1, 1, 1] = 0 ∧ f [0, 1, 1] = 1 := by
  obtain ⟨f, h1, h2⟩ := C102_distance (shape := [3, 3, 3]) (centre := none) (scale := .scalar 1) (by simp) trivial
  refine ⟨f, h1, ?_, ?_⟩
  · rw [h2 [1, 1, 1] rfl]; norm_num [dist2, Finset.sum_range_succ, PerAxis.at, coord, centreAt]
  · rw [h2 [0, 1, 1] rfl]; norm_num [dist2, Finset.sum_range_succ, PerAxis.at, coord, centreAt]

/-! ### Gaussians -/

/-- The standard deviation along the axis x, y, ...: the given one, or that of the given full width at half maximum. -/
def SigmaAt (sigma fwhm : Option PerAxis) (d : ℕ) (s : ℝ) : Prop :=
  (∃ p, sigma = some p ∧ p.at d = s) ∨ sigma = none ∧ ∃ p, fwhm = some p ∧ s * √(8 * Real.log 2) = p.at d

theorem width_pos : 0 < √(8 * Real.log 2) := Real.sqrt_pos.mpr (by have := Real.log_pos (by norm_num : (1 : ℝ) < 2); linarith)

theorem sigmaList_spec {n : ℕ} {sigma fwhm : Option PerAxis} (h : sigma.isSome ∨ fwhm.isSome) (h1 : ∀ p, sigma = some p → p.Fits n)
    (h2 : ∀ p, fwhm = some p → p.Fits n) {sg : ℕ → ℝ} (hsg : ∀ d < n, SigmaAt sigma fwhm d (sg d)) :
    sigmaList n sigma fwhm = .ok ((List.range n).map sg) := by
  have key : ∀ l : List ℝ, l.length = n → (∀ d < n, l.getD d 0 = sg d) → l = (List.range n).map sg := by
    intro l hl hd
    apply List.ext_getElem (by simp [hl])
    intro d hd1 hd2
    have := hd d (by omega)
    rw [List.getD_eq_getElem?_getD, List.getElem?_eq_getElem hd1, Option.getD_some] at this
    simp [this]
  match sigma, fwhm with
  | some p, _ =>
    rw [sigmaList]
    congr 1
    refine key _ (toList_length (h1 p rfl)) fun d hd => ?_
    rw [toList_getD hd]
    rcases hsg d hd with ⟨q, hq, h⟩ | ⟨h, -⟩
    · rw [← Option.some.inj hq] at h; exact h
    · simp at h
  | none, some (.scalar p) =>
    rw [sigmaList]
    congr 1
    refine key _ (by simp [PerAxis.toList]) fun d hd => ?_
    rw [toList_getD hd]
    rcases hsg d hd with ⟨q, hq, h⟩ | ⟨-, q, hq, h⟩
    · simp at hq
    · rw [← Option.some.inj hq] at h
      rw [PerAxis.at] at h ⊢
      rw [← h, mul_div_assoc, div_self width_pos.ne', mul_one]
  | none, some (.list p) =>
    have hl : p.length = n := h2 _ rfl
    rw [sigmaList]
    congr 1
    refine key _ (by simp [hl]) fun d hd => ?_
    rcases hsg d hd with ⟨q, hq, h⟩ | ⟨-, q, hq, h⟩
    · simp at hq
    · rw [← Option.some.inj hq] at h
      have hdl : d < p.length := by omega
      rw [PerAxis.at, List.getD_eq_getElem?_getD, List.getElem?_eq_getElem hdl, Option.getD_some] at h
      rw [List.getD_eq_getElem?_getD, List.getElem?_map, List.getElem?_eq_getElem hdl, Option.map_some, Option.getD_some, ← h, mul_div_assoc,
        div_self width_pos.ne', mul_one]
  | none, none => simp at h

theorem ogrid_eq (o sc : ℝ) (n k : ℕ) (hk : k < n) : ogridLinspace (-o * sc) (((n : ℝ) - 1 - o) * sc) n k = (k - o) * sc := by
  rw [ogridLinspace]
  split
  · have : k = 0 := by omega
    subst this
    simp
  · rename_i h
    have : (n : ℝ) - 1 ≠ 0 := by
      intro hh
      apply h
      have : (n : ℝ) = 1 := by linarith
      exact_mod_cast this
    field_simp
    ring

/-- The density of the normal law of given mean and standard deviation. -/
def density (mu sigma x : ℝ) : ℝ := ProbabilityTheory.gaussianPDFReal mu (Real.toNNReal (sigma ^ 2)) x

theorem density_eq {mu sigma x : ℝ} (hs : 0 < sigma) : density mu sigma x = 1 / (√(2 * Real.pi) * sigma) * Real.exp (-((x - mu) * (1 / (√2 * sigma))) ^ 2) := by
  rw [density, ProbabilityTheory.gaussianPDFReal_def]
  dsimp only
  have h1 : √(2 * Real.pi * (Real.toNNReal (sigma ^ 2) : ℝ)) = √(2 * Real.pi) * sigma := by
    rw [Real.coe_toNNReal _ (sq_nonneg _), Real.sqrt_mul (by positivity), Real.sqrt_sq hs.le]
  rw [h1, one_div]
  congr 2
  have h2 : √2 ^ 2 = (2 : ℝ) := Real.sq_sqrt (by norm_num)
  rw [Real.coe_toNNReal _ (sq_nonneg _)]
  field_simp
  rw [h2]

theorem fold_exp : ∀ (idx shape : List ℕ) (c sg : List ℝ) (out : ℝ), shape.length = idx.length → c.length = idx.length → sg.length = idx.length →
    (∀ d < idx.length, idx.getD d 0 < shape.getD d 0) →
    gaussianFold idx shape c (sg.map fun s => 1 / (√2 * s)) out = out * ∏ d ∈ range idx.length,
      Real.exp (-(((idx.getD d 0 : ℕ) - c.getD d 0) * (1 / (√2 * sg.getD d 0))) ^ 2) := by
  intro idx
  induction idx with
  | nil => intro shape c sg out _ _ _ _; simp [gaussianFold]
  | cons a idx ih =>
    intro shape c sg out h1 h2 h3 hlt
    match shape, c, sg with
    | n :: shape, o :: c, s :: sg =>
      have h0 := hlt 0 (by simp)
      simp only [List.getD_cons_zero] at h0
      rw [List.map_cons, gaussianFold, ih shape c sg _ (by simpa using h1) (by simpa using h2) (by simpa using h3)
        (fun d hd => by simpa using hlt (d + 1) (by simpa using hd)), List.length_cons, Finset.prod_range_succ', ogrid_eq _ _ _ _ h0]
      simp only [List.getD_cons_succ, List.getD_cons_zero]
      ring
    | [], _, _ => simp at h1
    | _ :: _, [], _ => simp at h2
    | _ :: _, _ :: _, [] => simp at h3

/-- C103: each element of a gaussian is the product of the normal densities along the axes, whatever the number of dimensions. -/
theorem C103_density {shape : List ℕ} {sigma fwhm : Option PerAxis} {centre : Option (List ℝ)} (h : sigma.isSome ∨ fwhm.isSome)
    (h1 : ∀ p, sigma = some p → p.Fits shape.length) (h2 : ∀ p, fwhm = some p → p.Fits shape.length)
    (hc : ∀ l, centre = some l → l.length = shape.length) {sg : ℕ → ℝ} (hsg : ∀ d < shape.length, SigmaAt sigma fwhm d (sg d) ∧ 0 < sg d) :
    ∃ f, gaussian shape sigma fwhm centre = .ok f ∧ ∀ idx, idx.length = shape.length → (∀ d < shape.length, idx.getD d 0 < shape.getD d 0) →
      f idx = ∏ d ∈ range shape.length, density (centreAt shape d centre) (sg d) (coord idx d) := by
  have hl := sigmaList_spec h h1 h2 fun d hd => (hsg d hd).1
  have hcl := centreList_length hc
  have slow : ∀ idx, idx.length = shape.length → (∀ d < shape.length, idx.getD d 0 < shape.getD d 0) →
      gaussianSlow shape (centreList shape centre) ((List.range shape.length).map sg) idx =
        ∏ d ∈ range shape.length, density (centreAt shape d centre) (sg d) (coord idx d) := by
    intro idx hi hlt
    rw [gaussianSlow, fold_exp _ _ _ _ _ (by simp [hi]) (by simp [hi, hcl]) (by simp [hi]) (by rw [hi]; exact hlt), hi, ← Finset.prod_range_reflect]
    have hp : ((List.range shape.length).map sg).prod = ∏ d ∈ range shape.length, sg d := by
      generalize shape.length = n
      induction n with
      | zero => simp
      | succ n ih => rw [List.range_succ, List.map_append, List.prod_append, ih, Finset.prod_range_succ]; simp
    have hpi : (2 * Real.pi) ^ ((shape.length : ℝ) / 2) = √(2 * Real.pi) ^ shape.length := by
      rw [Real.sqrt_eq_rpow, ← Real.rpow_natCast, ← Real.rpow_mul (by positivity)]
      congr 1
      ring
    have hcoef : 1 / ((2 * Real.pi) ^ ((shape.length : ℝ) / 2) * ((List.range shape.length).map sg).prod) =
        ∏ d ∈ range shape.length, 1 / (√(2 * Real.pi) * sg d) := by
      rw [hp, hpi, Finset.prod_div_distrib, Finset.prod_const_one, Finset.prod_mul_distrib, Finset.prod_const, Finset.card_range]
    rw [hcoef, ← Finset.prod_mul_distrib]
    refine Finset.prod_congr rfl fun d hd => ?_
    rw [Finset.mem_range] at hd
    have e : shape.length - 1 - (shape.length - 1 - d) = d := by omega
    have e2 : ((List.range shape.length).map sg).getD d 0 = sg d := by
      simp [List.getD_eq_getElem?_getD, List.getElem?_range hd]
    rw [density_eq (hsg d hd).2, getD_reverse _ _ _ (by omega), getD_reverse _ _ _ (by simp; omega), hcl, List.length_map, List.length_range, e, e2,
      centreList_getD hd, coord, getD_reverse _ _ _ (by omega), hi]
  match shape, h1, h2, hc, hsg, hl, hcl, slow with
  | [ny, nx], h1, h2, hc, hsg, hl, hcl, slow =>
    have h3 := list_two 0 hcl
    rw [centreList_getD (by simp), centreList_getD (by simp)] at h3
    have h4 : (List.range [ny, nx].length).map sg = [sg 0, sg 1] := rfl
    rw [h4] at hl
    refine ⟨fun idx => gaussian2d (centreAt [ny, nx] 0 centre, centreAt [ny, nx] 1 centre) (sg 0, sg 1) (idx.getD 1 0) (idx.getD 0 0), ?_,
      fun idx hi hlt => ?_⟩
    · rw [gaussian, hl]
      simp only [bind, Except.bind, h3]
    · dsimp only
      have p0 := (hsg 0 (by simp)).2
      have p1 := (hsg 1 (by simp)).2
      rw [show [ny, nx].length = 2 from rfl, Finset.prod_range_succ, Finset.prod_range_one, density_eq p0, density_eq p1, (coord_two hi).1, (coord_two hi).2,
        gaussian2d]
      have q1 : √(2 * Real.pi) ^ 2 = 2 * Real.pi := Real.sq_sqrt (by positivity)
      have q2 : √2 ^ 2 = (2 : ℝ) := Real.sq_sqrt (by norm_num)
      have arg : ∀ x s : ℝ, 0 < s → -(0.5 / s ^ 2 * x ^ 2) = -(x * (1 / (√2 * s))) ^ 2 := by
        intro x s hs
        rw [mul_pow, div_pow, mul_pow, q2, one_pow]
        field_simp
        norm_num
        ring
      simp only [distance2_1d, arg _ _ p0, arg _ _ p1]
      have co : 1 / (2 * Real.pi * sg 0 * sg 1) = 1 / (√(2 * Real.pi) * sg 0) * (1 / (√(2 * Real.pi) * sg 1)) := by
        have : 1 / (√(2 * Real.pi) * sg 0) * (1 / (√(2 * Real.pi) * sg 1)) = 1 / (√(2 * Real.pi) ^ 2 * sg 0 * sg 1) := by
          field_simp
        rw [this, q1]
      rw [co]
      ring
  | [], h1, h2, hc, hsg, hl, hcl, slow => exact ⟨_, by rw [gaussian, hl]; rfl, slow⟩
  | [n], h1, h2, hc, hsg, hl, hcl, slow => exact ⟨_, by rw [gaussian, hl]; rfl, slow⟩
  | a :: b :: c :: l, h1, h2, hc, hsg, hl, hcl, slow => exact ⟨_, by rw [gaussian, hl]; rfl, slow⟩

/-- C103: without width the gaussian is rejected. -/
theorem C103_rejects (shape : List ℕ) (centre : Option (List ℝ)) : gaussian shape none none centre = .error .valueError := rfl

/-- C103: the density has the given full width at half maximum: at half of it from the centre, on each side, it is half of its maximum. -/
theorem C103_fwhm {sigma fwhm : Option PerAxis} {p : PerAxis} (hs : sigma = none) (hf : fwhm = some p) {d : ℕ} {s : ℝ} (h : SigmaAt sigma fwhm d s)
    (hp : 0 < p.at d) (mu x : ℝ) (hx : |x - mu| = p.at d / 2) : density mu s x = density mu s mu / 2 ∧ ∀ y, density mu s y ≤ density mu s mu := by
  subst hs hf
  rcases h with ⟨q, hq, -⟩ | ⟨-, q, hq, h⟩
  · simp at hq
  · rw [← Option.some.inj hq] at h
    have h0 : 0 < s := by
      rcases lt_trichotomy s 0 with hn | hz | hp'
      · have := mul_neg_of_neg_of_pos hn width_pos; linarith
      · rw [hz, zero_mul] at h; linarith
      · exact hp'
    have q2 : √2 ^ 2 = (2 : ℝ) := Real.sq_sqrt (by norm_num)
    refine ⟨?_, fun y => ?_⟩
    · rw [density_eq h0, density_eq h0, sub_self, zero_mul]
      have e : ((x - mu) * (1 / (√2 * s))) ^ 2 = Real.log 2 := by
        rw [mul_pow, ← sq_abs (x - mu), hx, ← h, div_pow, mul_pow, Real.sq_sqrt (by have := Real.log_pos (by norm_num : (1 : ℝ) < 2); linarith), div_pow,
          mul_pow, q2]
        field_simp
        norm_num
      rw [e, Real.exp_neg, Real.exp_log (by norm_num)]
      simp
      ring
    · rw [density_eq h0, density_eq h0, sub_self, zero_mul]
      refine mul_le_mul_of_nonneg_left (Real.exp_le_exp.mpr ?_) (by positivity)
      have := sq_nonneg ((y - mu) * (1 / (√2 * s)))
      simp only [ne_eq, OfNat.ofNat_ne_zero, not_false_eq_true, zero_pow, neg_zero]
      linarith

example : ∃ f, gaussian [5, 4, 1] none (some (.list [2, 3, 4])) (some [1, 2, 0]) = .ok f := by
  obtain ⟨f, h, -⟩ := C103_density (shape := [5, 4, 1]) (sigma := none) (fwhm := some (.list [2, 3, 4])) (centre := some [1, 2, 0]) (by simp) (by simp)
    (fun p hp => by rw [← Option.some.inj hp]; rfl) (fun l hl => by rw [← Option.some.inj hl]; rfl) (sg := fun d => (d + 2) / √(8 * Real.log 2))
    (fun d hd => ⟨.inr ⟨rfl, _, rfl, by
      rw [div_mul_cancel₀ _ width_pos.ne']
      have : d = 0 ∨ d = 1 ∨ d = 2 := by
        have : d < 3 := hd
        omega
      rcases this with rfl | rfl | rfl <;> norm_num [PerAxis.at]⟩, div_pos (by positivity) width_pos⟩)
  exact ⟨f, h⟩

end
end Verif.Data
