import Verif.Geometry.Edges
import Mathlib.Tactic.Linarith
import Mathlib.Tactic.LinearCombination
import Mathlib.Tactic.FieldSimp
import Mathlib.Tactic.NormNum

/-! Properties of the grids, of the surface of polygons, of rotations and of the elementary shapes (C44, C45, C46). -/
namespace Verif.Geometry
open Verif.Py Real

set_option linter.unusedSectionVars false

/-! ### C45: the surface -/

theorem sum_map_neg' {α M : Type} [AddCommGroup M] (f : α → M) (l : List α) : (l.map fun a => -f a).sum = -(l.map f).sum := by
  induction l with
  | nil => simp
  | cons a t ih => simp only [List.map_cons, List.sum_cons, ih, neg_add]

section Surface
variable {K : Type} [Field K] [LinearOrder K]

theorem surface_eq (vs : List (K × K)) :
    surface vs = 1 / 2 * ((edges vs).map fun e => e.2.1 * e.1.2 - e.2.2 * e.1.1).sum := by
  unfold surface
  have : (fun (out : K) (e : (K × K) × (K × K)) => out + e.2.1 * e.1.2 - e.2.2 * e.1.1)
      = fun out e => out + (e.2.1 * e.1.2 - e.2.2 * e.1.1) := by
    funext out e; ring
  rw [this, foldl_add_eq, zero_add]

theorem sum_edges_cyc' {M : Type} [AddCommMonoid M] (vs : List (K × K)) (f : K × K → K × K → M) :
    ((edges vs).map fun e => f e.2 e.1).sum
      = ((List.range vs.length).map fun i => f ((vs[i]?).getD 0) ((vs[(i + 1) % vs.length]?).getD 0)).sum := by
  rcases Nat.eq_zero_or_pos vs.length with h0 | h0
  · rw [List.eq_nil_of_length_eq_zero h0]; rfl
  have hp := (List.rotate_perm (edges vs) 1).map fun e : (K × K) × (K × K) => f e.2 e.1
  rw [← hp.sum_eq]
  congr 1
  apply List.ext_getElem
  · simp
  intro i h1 h2
  simp only [List.length_map, List.length_rotate, length_edges] at h1
  have h3 : (i + 1) % vs.length < vs.length := Nat.mod_lt _ h0
  simp only [List.getElem_map, List.getElem_rotate, List.getElem_range, edges_eq, List.getElem_zip]
  simp only [List.length_zip, List.length_rotate, Nat.min_self]
  rw [List.getElem?_eq_getElem h1, List.getElem?_eq_getElem h3]
  simp only [Option.getD_some]
  congr 1
  congr 1
  rw [Nat.mod_add_mod]
  have : i + 1 + (vs.length - 1) = i + vs.length := by omega
  rw [this, Nat.add_mod_right, Nat.mod_eq_of_lt h1]

theorem sum_edges_cyc (vs : List (K × K)) (f : K × K → K × K → K) :
    ((edges vs).map fun e => f e.2 e.1).sum
      = ((List.range vs.length).map fun i => f ((vs[i]?).getD 0) ((vs[(i + 1) % vs.length]?).getD 0)).sum :=
  sum_edges_cyc' vs f

/-- C45: the surface is the shoelace formula. -/
theorem C45_shoelace (vs : List (K × K)) :
    surface vs = 1 / 2 * ((List.range vs.length).map fun i =>
      let p := (vs[i]?).getD 0
      let q := (vs[(i + 1) % vs.length]?).getD 0
      p.1 * q.2 - p.2 * q.1).sum := by
  rw [surface_eq, sum_edges_cyc vs fun p q => p.1 * q.2 - p.2 * q.1]

example : surface [((0 : ℚ), (0 : ℚ)), (3, 0), (3, 2)] = 3 := by decide +kernel

/-- The surface under a linear map is multiplied by its determinant. -/
theorem surface_linear (a b c d : K) (vs : List (K × K)) :
    surface (vs.map fun v => (a * v.1 + b * v.2, c * v.1 + d * v.2)) = (a * d - b * c) * surface vs := by
  rw [surface_eq, surface_eq, edges_map, List.map_map, mul_left_comm]
  congr 1
  rw [← List.sum_map_mul_left]
  congr 2
  funext e
  simp only [Function.comp]
  ring

/-- C45: invariant under translations. -/
theorem C45_translate (t : K × K) (vs : List (K × K)) : surface (vs.map fun v => v + t) = surface vs := by
  rw [surface_eq, surface_eq, edges_map, List.map_map]
  have h := sum_edges_snd (fun p : K × K => p.1 * t.2 - p.2 * t.1) vs
  have : ((edges vs).map ((fun e => e.2.1 * e.1.2 - e.2.2 * e.1.1) ∘ fun e : (K × K) × (K × K) => (e.1 + t, e.2 + t))).sum
      = ((edges vs).map fun e => e.2.1 * e.1.2 - e.2.2 * e.1.1).sum
        + (((edges vs).map fun e => e.2.1 * t.2 - e.2.2 * t.1).sum
          + -((edges vs).map fun e => e.1.1 * t.2 - e.1.2 * t.1).sum) := by
    rw [← sum_map_neg', ← List.sum_map_add, ← List.sum_map_add]
    congr 2
    funext e
    simp only [Function.comp, Prod.fst_add, Prod.snd_add]
    ring
  rw [this, h]
  ring

example : surface ([((0 : ℚ), (0 : ℚ)), (3, 0), (3, 2)].map fun v => v + (5, -7)) = 3 := by decide +kernel

/-- C45: invariant under a cyclic relabelling of the vertices. -/
theorem C45_cyclic (k : Nat) (vs : List (K × K)) : surface (vs.rotate k) = surface vs := by
  rw [surface_eq, surface_eq, edges_rotate]
  rw [((List.rotate_perm _ _).map _).sum_eq]

/-- C45: the sign changes with the orientation. -/
theorem C45_reverse (vs : List (K × K)) : surface vs.reverse = -surface vs := by
  rw [surface_eq, surface_eq, ((edges_reverse vs).map _).sum_eq, List.map_map, ← mul_neg, ← sum_map_neg']
  congr 3
  funext e
  simp only [Function.comp, Prod.fst_swap, Prod.snd_swap]
  ring

/-- C45: a homothety multiplies the surface by the square of its ratio. -/
theorem C45_scale (r : K) (vs : List (K × K)) : surface (vs.map fun v => (r * v.1, r * v.2)) = r ^ 2 * surface vs := by
  have := surface_linear r 0 0 r vs
  simp only [zero_mul, add_zero, zero_add, sub_zero] at this
  rw [this]; ring

example : surface ([((0 : ℚ), (0 : ℚ)), (3, 0), (3, 2)].rotate 2) = 3 ∧ surface [((0 : ℚ), (0 : ℚ)), (3, 0), (3, 2)].reverse = -3
    ∧ surface ([((0 : ℚ), (0 : ℚ)), (3, 0), (3, 2)].map fun v => (2 * v.1, 2 * v.2)) = 12 := by decide +kernel

end Surface

theorem cs1 (a : ℝ) : cos a ^ 2 + sin a ^ 2 = 1 := by rw [add_comm]; exact sin_sq_add_cos_sq a

/-- C45: invariant under the rotations of `rotate_2d`. -/
theorem C45_rotate (angle : ℝ) (vs : List (ℝ × ℝ)) : surface (vs.map (rotate2d angle)) = surface vs := by
  have h := surface_linear (cos (angle * (π / 180))) (-sin (angle * (π / 180))) (sin (angle * (π / 180)))
    (cos (angle * (π / 180))) vs
  have hm : (fun v : ℝ × ℝ => (cos (angle * (π / 180)) * v.1 + -sin (angle * (π / 180)) * v.2,
      sin (angle * (π / 180)) * v.1 + cos (angle * (π / 180)) * v.2)) = rotate2d angle := by
    funext v; simp only [rotate2d]; congr 1; ring
  rw [hm] at h
  rw [h]
  have := cs1 (angle * (π / 180))
  linear_combination (surface vs) * this

/-! ### C44: the grids -/

/-- Squared distance between two points. -/
def dist2 (p q : ℝ × ℝ) : ℝ := (p.1 - q.1) ^ 2 + (p.2 - q.2) ^ 2

/-- The two signs of the reflections. -/
def sgn (b : Bool) : ℝ := if b then -1 else 1

theorem sgn_sq (b : Bool) : sgn b ^ 2 = 1 := by cases b <;> simp [sgn]

theorem createGridSquares_eq (m n : Nat) (spacing ff : ℝ) (xrefl yrefl : Bool) (angle : ℝ) (center : ℝ × ℝ) (j i : Nat) :
    createGridSquares m n spacing ff xrefl yrefl angle center j i =
      [((1 : ℝ), (1 : ℝ)), (-1, 1), (-1, -1), (1, -1)].map fun c =>
        (center.1 + sgn xrefl * cos (deg2rad angle) * (spacing * (i - (n + 1) / 2) + c.1 * (spacing * √ff / 2))
            - sgn yrefl * sin (deg2rad angle) * (spacing * ((m + 1) / 2 - j) + c.2 * (spacing * √ff / 2)),
          center.2 + sgn xrefl * sin (deg2rad angle) * (spacing * (i - (n + 1) / 2) + c.1 * (spacing * √ff / 2))
            + sgn yrefl * cos (deg2rad angle) * (spacing * ((m + 1) / 2 - j) + c.2 * (spacing * √ff / 2))) := by
  cases xrefl <;> cases yrefl <;> simp [createGridSquares, sgn] <;>
    refine ⟨⟨?_, ?_⟩, ⟨?_, ?_⟩, ⟨?_, ?_⟩, ?_, ?_⟩ <;> ring

theorem createGrid_eq (m n : Nat) (spacing : ℝ) (xrefl yrefl : Bool) (angle : ℝ) (center : ℝ × ℝ) (j i : Nat) :
    createGrid m n spacing xrefl yrefl angle center j i =
        (center.1 + sgn xrefl * cos (deg2rad angle) * (spacing * (i - (n + 1) / 2))
            - sgn yrefl * sin (deg2rad angle) * (spacing * ((m + 1) / 2 - j)),
          center.2 + sgn xrefl * sin (deg2rad angle) * (spacing * (i - (n + 1) / 2))
            + sgn yrefl * cos (deg2rad angle) * (spacing * ((m + 1) / 2 - j))) := by
  cases xrefl <;> cases yrefl <;> simp [createGrid, sgn] <;> refine ⟨?_, ?_⟩ <;> ring

/-- C44: the mean of the corners of a square of `create_grid_squares` is the point of `create_grid` for the same arguments. -/
theorem C44_consistent (m n : Nat) (spacing ff : ℝ) (xrefl yrefl : Bool) (angle : ℝ) (center : ℝ × ℝ) (j i : Nat) :
    ∃ c1 c2 c3 c4, createGridSquares m n spacing ff xrefl yrefl angle center j i = [c1, c2, c3, c4] ∧
      ((c1.1 + c2.1 + c3.1 + c4.1) / 4, (c1.2 + c2.2 + c3.2 + c4.2) / 4)
        = createGrid m n spacing xrefl yrefl angle center j i := by
  rw [createGridSquares_eq, createGrid_eq]
  refine ⟨_, _, _, _, rfl, ?_⟩
  ext <;> simp only <;> ring

/-- C44: the corners are the vertices of a square of area `spacing ** 2 * filling_factor`: the four sides and the two diagonals have the
lengths of those of this square; the surface is positive unless exactly one reflection is requested. -/
theorem C44_area (m n : Nat) (spacing ff : ℝ) (hff : 0 ≤ ff) (xrefl yrefl : Bool) (angle : ℝ) (center : ℝ × ℝ) (j i : Nat) :
    ∃ c1 c2 c3 c4, createGridSquares m n spacing ff xrefl yrefl angle center j i = [c1, c2, c3, c4] ∧
      (dist2 c1 c2 = spacing ^ 2 * ff ∧ dist2 c2 c3 = spacing ^ 2 * ff ∧ dist2 c3 c4 = spacing ^ 2 * ff ∧
        dist2 c4 c1 = spacing ^ 2 * ff ∧ dist2 c1 c3 = 2 * (spacing ^ 2 * ff) ∧ dist2 c2 c4 = 2 * (spacing ^ 2 * ff)) ∧
      surface [c1, c2, c3, c4] = (if xrefl = yrefl then 1 else -1) * (spacing ^ 2 * ff) := by
  rw [createGridSquares_eq]
  refine ⟨_, _, _, _, rfl, ?_⟩
  have hs := Real.sq_sqrt hff
  have hc := cs1 (deg2rad angle)
  have hsc : (spacing * √ff) ^ 2 = spacing ^ 2 * ff := by rw [mul_pow, hs]
  have hsg : (if xrefl = yrefl then (1 : ℝ) else -1) = sgn xrefl * sgn yrefl := by
    cases xrefl <;> cases yrefl <;> simp [sgn]
  have hx := sgn_sq xrefl
  have hy := sgn_sq yrefl
  rw [hsg]
  simp only [dist2, surface, edges, loopPairs, List.getLast?_cons_cons, List.getLast?_singleton, List.foldl_cons, List.foldl_nil]
  generalize sgn xrefl = u at *
  generalize sgn yrefl = v at *
  generalize cos (deg2rad angle) = c at *
  generalize sin (deg2rad angle) = s at *
  rw [← hsc]
  generalize spacing * √ff = w at *
  refine ⟨⟨?_, ?_, ?_, ?_, ?_, ?_⟩, ?_⟩
  · linear_combination w ^ 2 * u ^ 2 * hc + w ^ 2 * hx
  · linear_combination w ^ 2 * v ^ 2 * hc + w ^ 2 * hy
  · linear_combination w ^ 2 * u ^ 2 * hc + w ^ 2 * hx
  · linear_combination w ^ 2 * v ^ 2 * hc + w ^ 2 * hy
  · linear_combination w ^ 2 * (u ^ 2 + v ^ 2) * hc + w ^ 2 * hx + w ^ 2 * hy
  · linear_combination w ^ 2 * (u ^ 2 + v ^ 2) * hc + w ^ 2 * hx + w ^ 2 * hy
  · linear_combination w ^ 2 * u * v * hc

/-- C44: the grid is centred on the requested centre: opposite points are symmetric with respect to it. -/
theorem C44_centred (m n : Nat) (spacing : ℝ) (xrefl yrefl : Bool) (angle : ℝ) (center : ℝ × ℝ) (j j' i i' : Nat)
    (hj : j + j' = m + 1) (hi : i + i' = n + 1) :
    createGrid m n spacing xrefl yrefl angle center j i + createGrid m n spacing xrefl yrefl angle center j' i'
      = (2 * center.1, 2 * center.2) := by
  have e1 : (j : ℝ) = m + 1 - j' := by rw [eq_sub_iff_add_eq]; exact_mod_cast hj
  have e2 : (i : ℝ) = n + 1 - i' := by rw [eq_sub_iff_add_eq]; exact_mod_cast hi
  rw [createGrid_eq, createGrid_eq, e1, e2]
  ext <;> simp only [Prod.fst_add, Prod.snd_add] <;> ring

/-- C44: neighbouring points are separated by `spacing`: along the row by (±cos, ±sin)·spacing, and along the column by a vector of the same
length orthogonal to it, in the documented directions. -/
theorem C44_steps (m n : Nat) (spacing : ℝ) (xrefl yrefl : Bool) (angle : ℝ) (center : ℝ × ℝ) (j i : Nat) :
    createGrid m n spacing xrefl yrefl angle center j (i + 1) - createGrid m n spacing xrefl yrefl angle center j i
        = ((if xrefl then -1 else 1) * spacing * cos (deg2rad angle), (if xrefl then -1 else 1) * spacing * sin (deg2rad angle)) ∧
    createGrid m n spacing xrefl yrefl angle center (j + 1) i - createGrid m n spacing xrefl yrefl angle center j i
        = ((if yrefl then -1 else 1) * spacing * sin (deg2rad angle), (if yrefl then 1 else -1) * spacing * cos (deg2rad angle)) := by
  rw [createGrid_eq, createGrid_eq, createGrid_eq]
  cases xrefl <;> cases yrefl <;> simp [sgn] <;> refine ⟨⟨?_, ?_⟩, ?_, ?_⟩ <;> ring

example : createGrid 2 3 2 false false 0 (1, 5) 1 1 = (-1, 6) := by
  rw [createGrid_eq]; simp [deg2rad, sgn]; norm_num

example : ∃ c1 c2 c3 c4, createGridSquares 2 3 2 (1 / 4) false true 30 (1, 5) 1 2 = [c1, c2, c3, c4] ∧
    surface [c1, c2, c3, c4] = -1 := by
  obtain ⟨c1, c2, c3, c4, h, _, h2⟩ := C44_area 2 3 2 (1 / 4) (by norm_num) false true 30 (1, 5) 1 2
  exact ⟨c1, c2, c3, c4, h, by rw [h2]; norm_num⟩

/-! ### C46: rotations -/

/-- The counter-clockwise rotation of angle `a` (in degrees) around the origin. -/
noncomputable def rotSpec (a : ℝ) (p : ℝ × ℝ) : ℝ × ℝ :=
  (p.1 * cos (a * π / 180) - p.2 * sin (a * π / 180), p.1 * sin (a * π / 180) + p.2 * cos (a * π / 180))

theorem rotSpec_dist (a : ℝ) (p q : ℝ × ℝ) : dist2 (rotSpec a p) (rotSpec a q) = dist2 p q := by
  have := cs1 (a * π / 180)
  simp only [dist2, rotSpec]
  linear_combination ((p.1 - q.1) ^ 2 + (p.2 - q.2) ^ 2) * this

theorem rotSpec_add (a b : ℝ) (p : ℝ × ℝ) : rotSpec a (rotSpec b p) = rotSpec (a + b) p := by
  simp only [rotSpec]
  have : (a + b) * π / 180 = a * π / 180 + b * π / 180 := by ring
  rw [this, cos_add, sin_add]
  ext <;> simp only <;> ring

theorem rotSpec_zero (p : ℝ × ℝ) : rotSpec 0 p = p := by simp [rotSpec]

/-- C46: for floating-point coordinates, `rotate` either raises an error or gives the rotated coordinates, in all its variants (in place,
into another array, into a new array); it does not raise unless the output array is not C-contiguous.  Missing with respect to
the property: coordinates in Fortran order or of integer type. -/
theorem C46_rotate_partial (dt : Dtype) (hdt : dt ≠ .int) (l : Layout) (out : OutArg) (coords : List (ℝ × ℝ)) (angle : ℝ) :
    rotate dt l out coords angle
      = if (out = .none ∧ l = .fortran) ∨ (out = .same ∧ l ≠ .c) ∨ out = .other .fortran ∨ out = .other .strided
        then .error .valueError else .ok (coords.map (rotSpec angle)) := by
  have e1 : rotate2d angle = rotSpec angle := by
    funext p; simp only [rotate2d, rotSpec, mul_div_assoc]; ext <;> simp only <;> ring
  have e2 : rotate2dInplace angle = rotSpec angle := by
    funext p; simp only [rotate2dInplace, rotSpec, mul_div_assoc]; ext <;> simp only <;> ring
  have e3 : (fun c : ℝ × ℝ => (c.1 * cos (π / 180 * angle) + c.2 * -sin (π / 180 * angle),
      c.1 * sin (π / 180 * angle) + c.2 * cos (π / 180 * angle))) = rotSpec angle := by
    funext p
    have : π / 180 * angle = angle * π / 180 := by ring
    simp only [rotSpec, this]; ext <;> simp only
    ring
  cases dt with
  | int => exact absurd rfl hdt
  | double =>
    rcases l with _ | _ | _ <;> rcases out with _ | _ | _ | _ | _ <;>
      simp [rotate, Layout.emptyLike, Dtype.conv, e1, e2, ← e3]
  | float =>
    rcases l with _ | _ | _ <;> rcases out with _ | _ | _ | _ | _ <;>
      simp [rotate, Layout.emptyLike, Dtype.conv, ← e3]

/-- C46: the distances are preserved and the angles add up whatever the variants used, as long as no error is raised. -/
theorem C46_isometry_partial (dt : Dtype) (hdt : dt ≠ .int) (l l' : Layout) (out out' : OutArg) (coords r r' : List (ℝ × ℝ)) (a b : ℝ)
    (h : rotate dt l out coords a = .ok r) (h' : rotate dt l' out' r b = .ok r') :
    r.length = coords.length ∧
    (∀ (i j : Nat) (p q p' q' : ℝ × ℝ), coords[i]? = some p → coords[j]? = some q → r[i]? = some p' → r[j]? = some q' →
      dist2 p' q' = dist2 p q) ∧
    (∀ l'' out'' r'', rotate dt l'' out'' coords (a + b) = .ok r'' → r'' = r') := by
  rw [C46_rotate_partial dt hdt] at h h'
  split at h
  · exact absurd h (by simp)
  split at h'
  · exact absurd h' (by simp)
  injection h with h
  injection h' with h'
  subst h
  subst h'
  refine ⟨by simp, ?_, ?_⟩
  · intro i j p q p' q' hp hq hp' hq'
    rw [List.getElem?_map, hp] at hp'
    rw [List.getElem?_map, hq] at hq'
    simp only [Option.map_some, Option.some.injEq] at hp' hq'
    rw [← hp', ← hq', rotSpec_dist]
  · intro l'' out'' r'' hr
    rw [C46_rotate_partial dt hdt] at hr
    split at hr
    · exact absurd hr (by simp)
    · injection hr with hr
      rw [← hr, List.map_map]
      congr 1
      funext p
      simp only [Function.comp]
      rw [rotSpec_add, add_comm]

example : rotate .double .c .same [((1 : ℝ), (2 : ℝ)), (3, 4)] 90 = .ok [(-2, 1), (-4, 3)] ∧
    rotate .float .strided .none [((1 : ℝ), (2 : ℝ)), (3, 4)] 90 = .ok [(-2, 1), (-4, 3)] := by
  have h : (90 : ℝ) * π / 180 = π / 2 := by ring
  rw [C46_rotate_partial _ (by decide), C46_rotate_partial _ (by decide)]
  simp [rotSpec, h]

/-- C46: coordinates in Fortran order cannot be rotated. -/
theorem C46_violation_fortran (dt : Dtype) (coords : List (ℝ × ℝ)) (angle : ℝ) :
    rotate dt .fortran .none coords angle = .error .valueError := by
  cases dt <;> simp [rotate, Layout.emptyLike]

/-- C46: the rotation by 45 degrees of the point of integer coordinates (1, 0) is the origin, a whole turn made of eight such rotations does
not give the point back. -/
theorem C46_violation_integer (l : Layout) (hl : l ≠ .fortran) :
    rotate .int l .none [((1 : ℝ), (0 : ℝ))] 45 = .ok [(0, 0)] := by
  have h : π / 180 * 45 = π / 4 := by ring
  have h2 : (1 : ℝ) < √2 := by
    rw [show (1 : ℝ) = √1 by simp]
    exact Real.sqrt_lt_sqrt (by norm_num) (by norm_num)
  have h2' : √2 < 2 := by
    rw [show (2 : ℝ) = √4 by rw [show (4 : ℝ) = 2 ^ 2 by norm_num]; simp]
    exact Real.sqrt_lt_sqrt (by norm_num) (by norm_num)
  have t1 : trunc (√2 / 2) = 0 := by
    rw [trunc, if_pos (by positivity)]
    have : ⌊√2 / 2⌋ = 0 := by rw [Int.floor_eq_zero_iff]; constructor <;> linarith
    rw [this]; simp
  rcases l with _ | _ | _
  · simp [rotate, Layout.emptyLike, Dtype.conv, h, t1]
  · exact absurd rfl hl
  · simp [rotate, Layout.emptyLike, Dtype.conv, h, t1]

end Verif.Geometry
