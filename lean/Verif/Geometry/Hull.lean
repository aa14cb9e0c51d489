import Verif.Py.Lemmas
import Mathlib.Analysis.SpecialFunctions.Complex.Arg
import Mathlib.Analysis.Convex.Hull
import Mathlib.Tactic

/-!
C146: the convex hull of points: src/pysimulators/geometry.py 20-43.
-/
namespace Verif.Geometry.Hull
open Verif.Py

/-! ### The model -/

abbrev Pt := ℝ × ℝ

/-- The remainder of a division by a positive number. -/
noncomputable def rem (x y : ℝ) : ℝ := x - y * ⌊x / y⌋

/-- geometry.py 38-39 `arctan2`. -/
noncomputable def angle (v : Pt) : ℝ := rem (Complex.arg ⟨v.1, v.2⟩ + 2 * Real.pi) (2 * Real.pi)

/-- `hull.mean(axis=0)`. -/
noncomputable def mean (l : List Pt) : Pt := ((l.map Prod.fst).sum / l.length, (l.map Prod.snd).sum / l.length)

/-- The rows of an array. -/
def take (l : List Pt) : List Nat → Res (List Pt)
  | [] => .ok []
  | i :: is =>
    match l[i]? with
    | none => .error .indexError
    | some p => (take l is).map (p :: ·)

/-- geometry.py 20-43 `convex_hull` of points with `dim` coordinates.  `delaunay` is `Delaunay(points).convex_hull`, the pairs of indices of the facets; `elements` is the list of
the elements of a set, in any order; `argsort` is the indirect sort of numpy. -/
noncomputable def hull (delaunay : List Pt → Res (List (Nat × Nat))) (elements : List Nat → List Nat) (argsort : List ℝ → List Nat) (dim : Nat) (points : List Pt) : Res (List Pt) :=
  if dim ≠ 2 then .error .valueError
  else
    (delaunay points).bind fun facets =>
      (take points (elements (facets.flatMap fun f => [f.1, f.2]))).bind fun h =>
        take h (argsort (h.map fun p => angle (p.1 - (mean h).1, p.2 - (mean h).2)))

/-! ### Specification -/

/-- Twice the area of the triangle P Q x: it is positive if x is on the left of the line from P to Q. -/
def left (P Q x : Pt) : ℝ := (Q.1 - P.1) * (x.2 - P.2) - (Q.2 - P.2) * (x.1 - P.1)

/-- `elements` is the list of the elements of a set. -/
def IsElements (elements : List Nat → List Nat) : Prop := ∀ l, (elements l).Nodup ∧ ∀ i, i ∈ elements l ↔ i ∈ l

/-- `argsort` is a sort, not necessarily stable. -/
def IsArgsort (argsort : List ℝ → List Nat) : Prop :=
  ∀ l, (argsort l).Perm (List.range l.length) ∧ (argsort l).Pairwise fun i j => l.getD i 0 ≤ l.getD j 0

/-- What is required from the library Qhull: the points are not on a line, the ends of the facets are distinct points, each of them is on a line with all the points on one side,
and the points are in their convex hull.  The points that are on the edges of the hull may be ends of facets. -/
structure Facets (points : List Pt) (facets : List (Nat × Nat)) : Prop where
  plane : ∀ a b c : ℝ, (∀ p ∈ points, a * p.1 + b * p.2 = c) → a = 0 ∧ b = 0
  range : ∀ f ∈ facets, f.1 < points.length ∧ f.2 < points.length
  distinct : ∀ i j, i ∈ (facets.flatMap fun f => [f.1, f.2]) → j ∈ (facets.flatMap fun f => [f.1, f.2]) → points[i]? = points[j]? → i = j
  support : ∀ i ∈ (facets.flatMap fun f => [f.1, f.2]), ∀ p, points[i]? = some p → ∃ a b : ℝ, (a ≠ 0 ∨ b ≠ 0) ∧ ∀ x ∈ points, a * x.1 + b * x.2 ≤ a * p.1 + b * p.2
  hull : ∀ x ∈ points, x ∈ convexHull ℝ {p | ∃ i ∈ (facets.flatMap fun f => [f.1, f.2]), points[i]? = some p}

/-! ### Angles -/

theorem rem_bounds (x : ℝ) {y : ℝ} (hy : 0 < y) : 0 ≤ rem x y ∧ rem x y < y := by
  have h1 := Int.floor_le (x / y)
  have h2 := Int.lt_floor_add_one (x / y)
  unfold rem
  rw [le_div_iff₀ hy] at h1
  rw [div_lt_iff₀ hy] at h2
  constructor <;> nlinarith

theorem angle_bounds (v : Pt) : 0 ≤ angle v ∧ angle v < 2 * Real.pi := rem_bounds _ Real.two_pi_pos

/-- The polar coordinates. -/
theorem polar (v : Pt) (hv : v.1 ≠ 0 ∨ v.2 ≠ 0) : ∃ r, 0 < r ∧ v.1 = r * Real.cos (angle v) ∧ v.2 = r * Real.sin (angle v) := by
  have hne : (⟨v.1, v.2⟩ : ℂ) ≠ 0 := by
    intro h
    have h1 := congrArg Complex.re h
    have h2 := congrArg Complex.im h
    rcases hv with hv | hv
    · exact hv h1
    · exact hv h2
  refine ⟨‖(⟨v.1, v.2⟩ : ℂ)‖, norm_pos_iff.2 hne, ?_, ?_⟩
  · have : Real.cos (angle v) = Real.cos (Complex.arg ⟨v.1, v.2⟩) := by
      unfold angle rem
      rw [show Complex.arg ⟨v.1, v.2⟩ + 2 * Real.pi - 2 * Real.pi * (⌊(Complex.arg ⟨v.1, v.2⟩ + 2 * Real.pi) / (2 * Real.pi)⌋ : ℝ) =
        Complex.arg ⟨v.1, v.2⟩ + (1 : ℤ) * (2 * Real.pi) - (⌊(Complex.arg ⟨v.1, v.2⟩ + 2 * Real.pi) / (2 * Real.pi)⌋ : ℤ) * (2 * Real.pi) by push_cast; ring,
        Real.cos_sub_int_mul_two_pi, Real.cos_add_int_mul_two_pi]
    rw [this, Complex.cos_arg hne]
    have := norm_pos_iff.2 hne
    field_simp
  · have : Real.sin (angle v) = Real.sin (Complex.arg ⟨v.1, v.2⟩) := by
      unfold angle rem
      rw [show Complex.arg ⟨v.1, v.2⟩ + 2 * Real.pi - 2 * Real.pi * (⌊(Complex.arg ⟨v.1, v.2⟩ + 2 * Real.pi) / (2 * Real.pi)⌋ : ℝ) =
        Complex.arg ⟨v.1, v.2⟩ + (1 : ℤ) * (2 * Real.pi) - (⌊(Complex.arg ⟨v.1, v.2⟩ + 2 * Real.pi) / (2 * Real.pi)⌋ : ℤ) * (2 * Real.pi) by push_cast; ring,
        Real.sin_sub_int_mul_two_pi, Real.sin_add_int_mul_two_pi]
    rw [this, Complex.sin_arg]
    have := norm_pos_iff.2 hne
    field_simp

/-- The cross product. -/
def cross (u v : Pt) : ℝ := u.1 * v.2 - u.2 * v.1

theorem cross_polar {u v : Pt} (hu : u.1 ≠ 0 ∨ u.2 ≠ 0) (hv : v.1 ≠ 0 ∨ v.2 ≠ 0) : ∃ r, 0 < r ∧ cross u v = r * Real.sin (angle v - angle u) := by
  obtain ⟨r, hr, r1, r2⟩ := polar u hu
  obtain ⟨s, hs, s1, s2⟩ := polar v hv
  refine ⟨r * s, mul_pos hr hs, ?_⟩
  unfold cross
  rw [r1, r2, s1, s2, Real.sin_sub]
  ring

/-! ### The mean -/

theorem sum_le {l : List Pt} {g : Pt → ℝ} {M : ℝ} (h : ∀ x ∈ l, g x ≤ M) : (l.map g).sum ≤ l.length * M := by
  induction l with
  | nil => simp
  | cons y l ih =>
    have h1 := ih fun x hx => h x (by simp [hx])
    have h2 := h y (by simp)
    simp only [List.map_cons, List.sum_cons, List.length_cons]
    push_cast
    linarith

theorem sum_lt {l : List Pt} {g : Pt → ℝ} {M : ℝ} (h : ∀ x ∈ l, g x ≤ M) {y : Pt} (hy : y ∈ l) (hlt : g y < M) : (l.map g).sum < l.length * M := by
  obtain ⟨a, b, rfl⟩ := List.append_of_mem hy
  have h1 := sum_le (l := a) (g := g) fun x hx => h x (by simp [hx])
  have h2 := sum_le (l := b) (g := g) fun x hx => h x (by simp [hx])
  simp only [List.map_append, List.map_cons, List.sum_append, List.sum_cons, List.length_append, List.length_cons]
  push_cast
  linarith

theorem sum_linear (l : List Pt) (a b : ℝ) : (l.map fun x => a * x.1 + b * x.2).sum = a * (l.map Prod.fst).sum + b * (l.map Prod.snd).sum := by
  induction l with
  | nil => simp
  | cons y l ih => simp only [List.map_cons, List.sum_cons, ih]; ring

/-- A linear function which is bounded and not constant on the points is smaller at their mean. -/
theorem mean_lt {l : List Pt} {a b M : ℝ} (h : ∀ x ∈ l, a * x.1 + b * x.2 ≤ M) {y : Pt} (hy : y ∈ l) (hlt : a * y.1 + b * y.2 < M) :
    a * (mean l).1 + b * (mean l).2 < M := by
  have h1 := sum_lt h hy hlt
  rw [sum_linear] at h1
  have hl : (0 : ℝ) < l.length := by exact_mod_cast List.length_pos_of_mem hy
  unfold mean
  dsimp only
  rw [mul_div_assoc', mul_div_assoc', ← add_div, div_lt_iff₀ hl]
  linarith

/-! ### The vertices -/

/-- The vertices: they are distinct, not on a line, and each of them is on a line with all of them on one side. -/
structure Vertices (h : List Pt) : Prop where
  nodup : h.Nodup
  plane : ∀ a b c : ℝ, (∀ p ∈ h, a * p.1 + b * p.2 = c) → a = 0 ∧ b = 0
  support : ∀ p ∈ h, ∃ a b : ℝ, (a ≠ 0 ∨ b ≠ 0) ∧ ∀ x ∈ h, a * x.1 + b * x.2 ≤ a * p.1 + b * p.2

/-- The vector from the mean. -/
noncomputable def vec (h : List Pt) (p : Pt) : Pt := (p.1 - (mean h).1, p.2 - (mean h).2)

variable {h : List Pt}

theorem Vertices.support_pos (H : Vertices h) {p : Pt} (hp : p ∈ h) :
    ∃ a b : ℝ, 0 < a * (vec h p).1 + b * (vec h p).2 ∧ ∀ x ∈ h, a * (vec h x).1 + b * (vec h x).2 ≤ a * (vec h p).1 + b * (vec h p).2 := by
  obtain ⟨a, b, hab, hs⟩ := H.support p hp
  refine ⟨a, b, ?_, fun x hx => ?_⟩
  · have : ∃ y ∈ h, a * y.1 + b * y.2 < a * p.1 + b * p.2 := by
      by_contra hcon
      push Not at hcon
      obtain ⟨h1, h2⟩ := H.plane a b (a * p.1 + b * p.2) fun x hx => le_antisymm (hs x hx) (hcon x hx)
      rcases hab with h | h
      · exact h h1
      · exact h h2
    obtain ⟨y, hy, hlt⟩ := this
    have := mean_lt hs hy hlt
    unfold vec
    dsimp only
    linarith
  · have := hs x hx
    unfold vec
    dsimp only
    linarith

theorem Vertices.ne_zero (H : Vertices h) {p : Pt} (hp : p ∈ h) : (vec h p).1 ≠ 0 ∨ (vec h p).2 ≠ 0 := by
  obtain ⟨a, b, hpos, -⟩ := H.support_pos hp
  by_contra hcon
  push Not at hcon
  rw [hcon.1, hcon.2] at hpos
  simp at hpos

theorem vec_inj {p q : Pt} (e1 : (vec h p).1 = (vec h q).1) (e2 : (vec h p).2 = (vec h q).2) : p = q := by
  unfold vec at e1 e2
  dsimp only at e1 e2
  ext <;> linarith

/-- Two vertices in the same direction. -/
theorem Vertices.same (H : Vertices h) {p q : Pt} (hp : p ∈ h) (hq : q ∈ h) {t : ℝ} (ht : 0 < t) (e1 : (vec h p).1 = t * (vec h q).1) (e2 : (vec h p).2 = t * (vec h q).2) : p = q := by
  obtain ⟨a, b, pos, sup⟩ := H.support_pos hp
  obtain ⟨a', b', pos', sup'⟩ := H.support_pos hq
  have s1 := sup q hq
  have s2 := sup' p hp
  rw [e1, e2] at pos s1 s2
  have hpos : 0 < a * (vec h q).1 + b * (vec h q).2 := by
    have : 0 < t * (a * (vec h q).1 + b * (vec h q).2) := by linarith
    exact (mul_pos_iff_of_pos_left ht).1 this
  have t1 : 1 ≤ t := by
    by_contra hlt
    push Not at hlt
    nlinarith
  have t2 : t ≤ 1 := by
    by_contra hlt
    push Not at hlt
    nlinarith
  have : t = 1 := le_antisymm t2 t1
  subst this
  exact vec_inj (by rw [e1, one_mul]) (by rw [e2, one_mul])

theorem Vertices.angle_inj (H : Vertices h) {p q : Pt} (hp : p ∈ h) (hq : q ∈ h) (he : angle (vec h p) = angle (vec h q)) : p = q := by
  obtain ⟨r, hr, r1, r2⟩ := polar _ (H.ne_zero hp)
  obtain ⟨s, hs, s1, s2⟩ := polar _ (H.ne_zero hq)
  refine H.same hp hq (t := r / s) (by positivity) ?_ ?_
  · rw [s1, r1, he]; field_simp
  · rw [s2, r2, he]; field_simp

/-- The vertices are not on one side of a line through the mean. -/
theorem Vertices.not_half (H : Vertices h) {q : Pt} (hq : q ∈ h) (hall : ∀ x ∈ h, 0 ≤ cross (vec h q) (vec h x)) : False := by
  have hb : ∀ x ∈ h, (vec h q).2 * x.1 + (-(vec h q).1) * x.2 ≤ (vec h q).2 * (mean h).1 + (-(vec h q).1) * (mean h).2 := by
    intro x hx
    have := hall x hx
    unfold cross at this
    have e1 : (vec h x).1 = x.1 - (mean h).1 := rfl
    have e2 : (vec h x).2 = x.2 - (mean h).2 := rfl
    rw [e1, e2] at this
    linarith
  have : ∃ y ∈ h, (vec h q).2 * y.1 + (-(vec h q).1) * y.2 < (vec h q).2 * (mean h).1 + (-(vec h q).1) * (mean h).2 := by
    by_contra hcon
    push Not at hcon
    obtain ⟨h1, h2⟩ := H.plane _ _ _ fun x hx => le_antisymm (hb x hx) (hcon x hx)
    rcases H.ne_zero hq with h | h
    · exact h (by linarith)
    · exact h h1
  obtain ⟨y, hy, hlt⟩ := this
  exact lt_irrefl _ (mean_lt hb hy hlt)

theorem left_eq (h : List Pt) (P Q R : Pt) : left P Q R = cross (vec h P) (vec h Q) - cross (vec h P) (vec h R) - cross (vec h R) (vec h Q) := by
  unfold left cross vec
  ring

/-- A vertex is on the left of two vertices without vertex in their angle. -/
theorem Vertices.left (H : Vertices h) {P Q : Pt} (hP : P ∈ h) (hQ : Q ∈ h) (hD : 0 < cross (vec h P) (vec h Q))
    (hcone : ∀ R ∈ h, ¬ (0 < cross (vec h P) (vec h R) ∧ 0 < cross (vec h R) (vec h Q))) : ∀ R ∈ h, 0 ≤ left P Q R := by
  intro R hR
  rw [left_eq h]
  set D := cross (vec h P) (vec h Q) with hDdef
  set β := cross (vec h P) (vec h R) with hβ
  set α := cross (vec h R) (vec h Q) with hα
  -- D R = α P + β Q
  have e1 : D * (vec h R).1 = α * (vec h P).1 + β * (vec h Q).1 := by rw [hDdef, hα, hβ]; unfold cross; ring
  have e2 : D * (vec h R).2 = α * (vec h P).2 + β * (vec h Q).2 := by rw [hDdef, hα, hβ]; unfold cross; ring
  by_contra hcon
  push Not at hcon
  have hsum : D < α + β := by linarith
  rcases lt_trichotomy α 0 with ha | ha | ha
  · obtain ⟨a, b, pos, sup⟩ := H.support_pos hQ
    have s1 := sup R hR
    have s2 := sup P hP
    have e3 : D * (a * (vec h R).1 + b * (vec h R).2) = α * (a * (vec h P).1 + b * (vec h P).2) + β * (a * (vec h Q).1 + b * (vec h Q).2) := by
      linear_combination a * e1 + b * e2
    set fQ := a * (vec h Q).1 + b * (vec h Q).2
    set fP := a * (vec h P).1 + b * (vec h P).2
    set fR := a * (vec h R).1 + b * (vec h R).2
    have h1 : D * fR ≤ D * fQ := mul_le_mul_of_nonneg_left s1 hD.le
    have h2 : α * fQ ≤ α * fP := mul_le_mul_of_nonpos_left s2 ha.le
    nlinarith
  · have hb : 0 < β := by linarith
    have := H.same hR hQ (t := β / D) (div_pos hb hD) (by rw [ha] at e1; field_simp; linarith) (by rw [ha] at e2; field_simp; linarith)
    subst this
    have : β = D := rfl
    linarith
  · rcases lt_trichotomy β 0 with hb | hb | hb
    · obtain ⟨a, b, pos, sup⟩ := H.support_pos hP
      have s1 := sup R hR
      have s2 := sup Q hQ
      have e3 : D * (a * (vec h R).1 + b * (vec h R).2) = α * (a * (vec h P).1 + b * (vec h P).2) + β * (a * (vec h Q).1 + b * (vec h Q).2) := by
        linear_combination a * e1 + b * e2
      set fQ := a * (vec h Q).1 + b * (vec h Q).2
      set fP := a * (vec h P).1 + b * (vec h P).2
      set fR := a * (vec h R).1 + b * (vec h R).2
      have h1 : D * fR ≤ D * fP := mul_le_mul_of_nonneg_left s1 hD.le
      have h2 : β * fP ≤ β * fQ := mul_le_mul_of_nonpos_left s2 hb.le
      nlinarith
    · have := H.same hR hP (t := α / D) (div_pos ha hD) (by rw [hb] at e1; field_simp; linarith) (by rw [hb] at e2; field_simp; linarith)
      subst this
      have : α = D := rfl
      linarith
    · exact hcone R hR ⟨hb, ha⟩

/-! ### Consecutive vertices -/

theorem sin_pos_iff {r x : ℝ} (hr : 0 < r) : 0 < r * Real.sin x ↔ 0 < Real.sin x := mul_pos_iff_of_pos_left hr

/-- Two consecutive vertices in the order of the angles. -/
theorem Vertices.next (H : Vertices h) {P Q : Pt} (hP : P ∈ h) (hQ : Q ∈ h) (hlt : angle (vec h P) < angle (vec h Q))
    (hnone : ∀ R ∈ h, angle (vec h R) ≤ angle (vec h P) ∨ angle (vec h Q) ≤ angle (vec h R)) : ∀ R ∈ h, 0 ≤ Hull.left P Q R := by
  have bP := angle_bounds (vec h P)
  have bQ := angle_bounds (vec h Q)
  have hgap : angle (vec h Q) - angle (vec h P) < Real.pi := by
    by_contra hcon
    push Not at hcon
    refine H.not_half hQ fun x hx => ?_
    obtain ⟨r, hr, e⟩ := cross_polar (H.ne_zero hQ) (H.ne_zero hx)
    have bx := angle_bounds (vec h x)
    rw [e]
    refine mul_nonneg hr.le ?_
    rcases hnone x hx with hn | hn
    · rw [← Real.sin_add_two_pi]
      exact Real.sin_nonneg_of_nonneg_of_le_pi (by linarith) (by linarith)
    · exact Real.sin_nonneg_of_nonneg_of_le_pi (by linarith) (by linarith)
  obtain ⟨r, hr, e⟩ := cross_polar (H.ne_zero hP) (H.ne_zero hQ)
  refine H.left hP hQ (by rw [e]; exact mul_pos hr (Real.sin_pos_of_pos_of_lt_pi (by linarith) hgap)) fun R hR hc => ?_
  obtain ⟨r1, hr1, e1⟩ := cross_polar (H.ne_zero hP) (H.ne_zero hR)
  obtain ⟨r2, hr2, e2⟩ := cross_polar (H.ne_zero hR) (H.ne_zero hQ)
  rw [e1, e2, sin_pos_iff hr1, sin_pos_iff hr2] at hc
  have bR := angle_bounds (vec h R)
  rcases hnone R hR with hn | hn
  · have h1 : angle (vec h R) - angle (vec h P) < -Real.pi := by
      by_contra hcon
      push Not at hcon
      have := Real.sin_nonpos_of_nonpos_of_neg_pi_le (x := angle (vec h R) - angle (vec h P)) (by linarith) hcon
      linarith [hc.1]
    have h2 := hc.2
    rw [← Real.sin_sub_two_pi] at h2
    have := Real.sin_nonpos_of_nonpos_of_neg_pi_le (x := angle (vec h Q) - angle (vec h R) - 2 * Real.pi) (by linarith) (by linarith)
    linarith
  · have h1 : angle (vec h R) - angle (vec h P) < Real.pi := by
      by_contra hcon
      push Not at hcon
      have h2 := hc.1
      rw [← Real.sin_sub_two_pi] at h2
      have := Real.sin_nonpos_of_nonpos_of_neg_pi_le (x := angle (vec h R) - angle (vec h P) - 2 * Real.pi) (by linarith) (by linarith)
      linarith
    have := Real.sin_nonpos_of_nonpos_of_neg_pi_le (x := angle (vec h Q) - angle (vec h R)) (by linarith) (by linarith)
    linarith [hc.2]

/-- The last vertex and the first one. -/
theorem Vertices.wrap (H : Vertices h) {P Q : Pt} (hP : P ∈ h) (hQ : Q ∈ h)
    (hall : ∀ R ∈ h, angle (vec h Q) ≤ angle (vec h R) ∧ angle (vec h R) ≤ angle (vec h P)) : ∀ R ∈ h, 0 ≤ Hull.left P Q R := by
  have bP := angle_bounds (vec h P)
  have bQ := angle_bounds (vec h Q)
  have hgap : Real.pi < angle (vec h P) - angle (vec h Q) := by
    by_contra hcon
    push Not at hcon
    refine H.not_half hQ fun x hx => ?_
    obtain ⟨r, hr, e⟩ := cross_polar (H.ne_zero hQ) (H.ne_zero hx)
    rw [e]
    have := hall x hx
    exact mul_nonneg hr.le (Real.sin_nonneg_of_nonneg_of_le_pi (by linarith) (by linarith))
  obtain ⟨r, hr, e⟩ := cross_polar (H.ne_zero hP) (H.ne_zero hQ)
  refine H.left hP hQ ?_ fun R hR hc => ?_
  · rw [e, ← Real.sin_add_two_pi]
    exact mul_pos hr (Real.sin_pos_of_pos_of_lt_pi (by linarith) (by linarith))
  obtain ⟨r1, hr1, e1⟩ := cross_polar (H.ne_zero hP) (H.ne_zero hR)
  obtain ⟨r2, hr2, e2⟩ := cross_polar (H.ne_zero hR) (H.ne_zero hQ)
  rw [e1, e2, sin_pos_iff hr1, sin_pos_iff hr2] at hc
  have bR := angle_bounds (vec h R)
  have hb := hall R hR
  have h1 : angle (vec h R) - angle (vec h P) < -Real.pi := by
    by_contra hcon
    push Not at hcon
    have := Real.sin_nonpos_of_nonpos_of_neg_pi_le (x := angle (vec h R) - angle (vec h P)) (by linarith) hcon
    linarith [hc.1]
  have h2 : angle (vec h Q) - angle (vec h R) < -Real.pi := by
    by_contra hcon
    push Not at hcon
    have := Real.sin_nonpos_of_nonpos_of_neg_pi_le (x := angle (vec h Q) - angle (vec h R)) (by linarith) hcon
    linarith [hc.2]
  linarith

/-! ### C146 -/

theorem take_ok {l : List Pt} : ∀ {is : List Nat}, (∀ i ∈ is, i < l.length) → take l is = .ok (is.map fun i => l.getD i 0)
  | [], _ => rfl
  | i :: is, h => by
    have hi := h i (by simp)
    rw [take, List.getElem?_eq_getElem hi, take_ok fun j hj => h j (by simp [hj])]
    simp [Except.map, List.getElem?_eq_getElem hi]

theorem range_map_getD (l : List Pt) : ((List.range l.length).map fun i => l.getD i 0) = l := by
  apply List.ext_getElem
  · simp
  · intro i h1 h2
    simp [h2]

/-- The facets of the hull of distinct points. -/
theorem Facets.vertices {points : List Pt} {facets : List (Nat × Nat)} (H : Facets points facets) {is : List Nat} (hn : is.Nodup)
    (hm : ∀ i, i ∈ is ↔ i ∈ facets.flatMap fun f => [f.1, f.2]) : (∀ i ∈ is, i < points.length) ∧ Vertices (is.map fun i => points.getD i 0) ∧
      ∀ p, p ∈ is.map (fun i => points.getD i 0) ↔ ∃ i ∈ (facets.flatMap fun f => [f.1, f.2]), points[i]? = some p := by
  have hr : ∀ i ∈ is, i < points.length := by
    intro i hi
    obtain ⟨f, hf, hif⟩ := List.mem_flatMap.1 ((hm i).1 hi)
    have := H.range f hf
    simp only [List.mem_cons, List.not_mem_nil, or_false] at hif
    rcases hif with rfl | rfl
    · exact this.1
    · exact this.2
  have hg : ∀ i ∈ is, points[i]? = some (points.getD i 0) := by
    intro i hi
    rw [List.getD_eq_getElem?_getD, List.getElem?_eq_getElem (hr i hi)]
    rfl
  have hmem : ∀ p, p ∈ is.map (fun i => points.getD i 0) ↔ ∃ i ∈ (facets.flatMap fun f => [f.1, f.2]), points[i]? = some p := by
    intro p
    rw [List.mem_map]
    constructor
    · rintro ⟨i, hi, rfl⟩
      exact ⟨i, (hm i).1 hi, hg i hi⟩
    · rintro ⟨i, hi, e⟩
      refine ⟨i, (hm i).2 hi, ?_⟩
      have := hg i ((hm i).2 hi)
      rw [e] at this
      exact (Option.some.inj this).symm
  refine ⟨hr, ⟨?_, ?_, ?_⟩, hmem⟩
  · refine hn.map_on ?_
    intro i hi j hj e
    exact H.distinct i j ((hm i).1 hi) ((hm j).1 hj) (by rw [hg i hi, hg j hj, e])
  · intro a b c hc
    refine H.plane a b c fun x hx => ?_
    have hconv : Convex ℝ {x : Pt | a * x.1 + b * x.2 = c} := by
      intro x hx y hy s t hs ht hst
      simp only [Set.mem_ofPred_eq, Prod.fst_add, Prod.snd_add, Prod.smul_fst, Prod.smul_snd, smul_eq_mul] at *
      linear_combination s * hx + t * hy + c * hst
    exact convexHull_min (fun p hp => hc p ((hmem p).2 hp)) hconv (H.hull x hx)
  · intro p hp
    obtain ⟨i, hi, e⟩ := (hmem p).1 hp
    obtain ⟨a, b, hab, hs⟩ := H.support i hi p e
    refine ⟨a, b, hab, fun x hx => hs x ?_⟩
    obtain ⟨j, hj, e⟩ := (hmem x).1 hx
    exact List.mem_of_getElem? e

/-- The vertices in the order of the angles. -/
theorem Vertices.sorted (H : Vertices h) {out : List Pt} (hp : out.Perm h) (hs : out.Pairwise fun p q => angle (vec h p) ≤ angle (vec h q)) (k : Nat) {P Q : Pt}
    (hP : out[k]? = some P) (hQ : out[(k + 1) % out.length]? = some Q) : ∀ R ∈ h, 0 ≤ Hull.left P Q R := by
  have hmem : ∀ R, R ∈ out ↔ R ∈ h := fun R => hp.mem_iff
  have hPm := (hmem P).1 (List.mem_of_getElem? hP)
  have hQm := (hmem Q).1 (List.mem_of_getElem? hQ)
  have hk : k < out.length := (List.getElem?_eq_some_iff.1 hP).1
  have hle : ∀ i j : Nat, i ≤ j → ∀ a b, out[i]? = some a → out[j]? = some b → angle (vec h a) ≤ angle (vec h b) := by
    intro i j hij a b ha hb
    rcases Nat.eq_or_lt_of_le hij with rfl | hlt
    · rw [ha] at hb; cases hb; exact le_rfl
    · obtain ⟨hi, rfl⟩ := List.getElem?_eq_some_iff.1 ha
      obtain ⟨hj, rfl⟩ := List.getElem?_eq_some_iff.1 hb
      exact List.pairwise_iff_getElem.1 hs i j hi hj hlt
  by_cases hlast : k + 1 < out.length
  · rw [Nat.mod_eq_of_lt hlast] at hQ
    refine H.next hPm hQm (lt_of_le_of_ne (hle k (k + 1) (by omega) P Q hP hQ) fun e => ?_) fun R hR => ?_
    · have e := H.angle_inj hPm hQm e
      subst e
      have hnd := (hp.nodup_iff).2 H.nodup
      obtain ⟨h1, e1⟩ := List.getElem?_eq_some_iff.1 hP
      obtain ⟨h2, e2⟩ := List.getElem?_eq_some_iff.1 hQ
      have := (List.Nodup.getElem_inj_iff hnd (hi := h1) (hj := h2)).1 (by rw [e1, e2])
      omega
    · obtain ⟨i, hi⟩ := List.getElem?_of_mem ((hmem R).2 hR)
      rcases Nat.lt_or_ge k i with hik | hik
      · exact .inr (hle (k + 1) i hik Q R hQ hi)
      · exact .inl (hle i k hik R P hi hP)
  · have hkl : k + 1 = out.length := by omega
    rw [hkl, Nat.mod_self] at hQ
    refine H.wrap hPm hQm fun R hR => ?_
    obtain ⟨i, hi⟩ := List.getElem?_of_mem ((hmem R).2 hR)
    have := (List.getElem?_eq_some_iff.1 hi).1
    exact ⟨hle 0 i (by omega) Q R hQ hi, hle i k (by omega) R P hi hP⟩

/-- C146: the convex hull of points of the plane is returned counter-clockwise: its vertices are the ends of the facets, each of them once, all the points are on the left
of (or on) every line from a vertex to the next one, the last vertex being followed by the first one, and they are in the convex hull of the vertices. -/
theorem C146_hull {delaunay : List Pt → Res (List (Nat × Nat))} {elements : List Nat → List Nat} {argsort : List ℝ → List Nat} (he : IsElements elements) (ha : IsArgsort argsort)
    {points : List Pt} {facets : List (Nat × Nat)} (hd : delaunay points = .ok facets) (hf : Facets points facets) :
    ∃ out, hull delaunay elements argsort 2 points = .ok out ∧ out.Nodup ∧ (∀ p, p ∈ out ↔ ∃ i ∈ (facets.flatMap fun f => [f.1, f.2]), points[i]? = some p) ∧
      (∀ (k : Nat) P Q, out[k]? = some P → out[(k + 1) % out.length]? = some Q → ∀ x ∈ points, 0 ≤ left P Q x) ∧ ∀ x ∈ points, x ∈ convexHull ℝ {p | p ∈ out} := by
  obtain ⟨hn, hm⟩ := he (facets.flatMap fun f => [f.1, f.2])
  obtain ⟨hr, hv, hmem⟩ := hf.vertices hn hm
  set is := elements (facets.flatMap fun f => [f.1, f.2])
  set h := is.map fun i => points.getD i 0 with hh
  obtain ⟨hperm, hsort⟩ := ha (h.map fun p => angle (p.1 - (mean h).1, p.2 - (mean h).2))
  set order := argsort (h.map fun p => angle (p.1 - (mean h).1, p.2 - (mean h).2))
  rw [List.length_map] at hperm
  have hlt : ∀ i ∈ order, i < h.length := fun i hi => List.mem_range.1 (hperm.mem_iff.1 hi)
  have hout : (order.map fun i => h.getD i 0).Perm h := by
    have := hperm.map fun i => h.getD i 0
    rwa [range_map_getD] at this
  have hpair : (order.map fun i => h.getD i 0).Pairwise fun p q => angle (vec h p) ≤ angle (vec h q) := by
    rw [List.pairwise_map]
    refine hsort.imp_of_mem ?_
    intro i j hi hj hij
    have e : ∀ i ∈ order, (h.map fun p => angle (p.1 - (mean h).1, p.2 - (mean h).2)).getD i 0 = angle (vec h (h.getD i 0)) := by
      intro i hi
      have := hlt i hi
      simp [List.getElem?_eq_getElem this, vec]
    rwa [e i hi, e j hj] at hij
  refine ⟨order.map fun i => h.getD i 0, ?_, (hout.nodup_iff).2 hv.nodup, fun p => by rw [hout.mem_iff, hmem], fun k P Q hP hQ x hx => ?_, fun x hx => ?_⟩
  · unfold hull
    rw [if_neg (by simp), hd]
    show (take points is).bind _ = _
    rw [take_ok hr]
    exact take_ok hlt
  · have hall := hv.sorted hout hpair k hP hQ
    have hconv : Convex ℝ {x : Pt | 0 ≤ Hull.left P Q x} := by
      intro x hx y hy s t hs ht hst
      simp only [Set.mem_ofPred_eq, Hull.left, Prod.fst_add, Prod.snd_add, Prod.smul_fst, Prod.smul_snd, smul_eq_mul] at *
      have h1 := mul_nonneg hs hx
      have h2 := mul_nonneg ht hy
      have : (Q.1 - P.1) * (s * x.2 + t * y.2 - P.2) - (Q.2 - P.2) * (s * x.1 + t * y.1 - P.1) =
          s * ((Q.1 - P.1) * (x.2 - P.2) - (Q.2 - P.2) * (x.1 - P.1)) + t * ((Q.1 - P.1) * (y.2 - P.2) - (Q.2 - P.2) * (y.1 - P.1)) := by
        linear_combination ((Q.1 - P.1) * P.2 - (Q.2 - P.2) * P.1) * hst
      rw [this]
      linarith
    exact convexHull_min (fun p hp => hall p ((hmem p).2 hp)) hconv (hf.hull x hx)
  · have e : {p | p ∈ order.map fun i => h.getD i 0} = {p | ∃ i ∈ (facets.flatMap fun f => [f.1, f.2]), points[i]? = some p} := by
      ext p
      rw [Set.mem_ofPred_eq, Set.mem_ofPred_eq, hout.mem_iff, hmem]
    rw [e]
    exact hf.hull x hx

/-- Points with another number of coordinates are refused. -/
theorem C146_dimension (delaunay : List Pt → Res (List (Nat × Nat))) (elements : List Nat → List Nat) (argsort : List ℝ → List Nat) (dim : Nat) (points : List Pt) (hd : dim ≠ 2) :
    hull delaunay elements argsort dim points = .error .valueError := if_pos hd

/-- There is such a list of the elements of a set, and such a sort. -/
example : IsElements List.dedup ∧ IsArgsort fun l => (List.range l.length).insertionSort fun i j => l.getD i 0 ≤ l.getD j 0 := by
  refine ⟨fun l => ⟨List.nodup_dedup l, fun i => List.mem_dedup⟩, fun l => ⟨List.perm_insertionSort _ _, ?_⟩⟩
  have : Std.Total (fun i j : Nat => l.getD i 0 ≤ l.getD j 0) := ⟨fun i j => le_total _ _⟩
  have : IsTrans Nat (fun i j : Nat => l.getD i 0 ≤ l.getD j 0) := ⟨fun i j k => le_trans⟩
  exact List.pairwise_insertionSort _ _

/-- A square, with its center and the middle of an edge; the middle is an end of facets. -/
example : Facets [(0, 0), (2, 0), (2, 2), (0, 2), (1, 1), (1, 0)] [(0, 5), (5, 1), (1, 2), (2, 3), (3, 0)] := by
  refine ⟨?_, by simp, ?_, ?_, ?_⟩
  · intro a b c h
    have h1 := h (0, 0) (by simp)
    have h2 := h (2, 0) (by simp)
    have h3 := h (0, 2) (by simp)
    simp only at h1 h2 h3
    constructor <;> linarith
  · intro i j hi hj
    simp only [List.flatMap_cons, List.flatMap_nil, List.cons_append, List.nil_append, List.mem_cons, List.not_mem_nil, or_false] at hi hj
    rcases hi with rfl | rfl | rfl | rfl | rfl | rfl | rfl | rfl | rfl | rfl <;> rcases hj with rfl | rfl | rfl | rfl | rfl | rfl | rfl | rfl | rfl | rfl <;> simp
  · intro i hi p hp
    simp only [List.flatMap_cons, List.flatMap_nil, List.cons_append, List.nil_append, List.mem_cons, List.not_mem_nil, or_false] at hi
    by_cases h0 : p.2 = 0
    · refine ⟨0, -1, by simp, ?_⟩
      rw [h0]
      simp
    · by_cases h2 : p.2 = 2
      · refine ⟨0, 1, by simp, ?_⟩
        rw [h2]
        simp
      · exfalso
        rcases hi with rfl | rfl | rfl | rfl | rfl | rfl | rfl | rfl | rfl | rfl <;> simp at hp <;> subst hp <;> simp at h0 h2
  · intro x hx
    have hs : ∀ i ∈ ([0, 1, 2, 3, 5] : List Nat), ∀ p : Pt, ([(0, 0), (2, 0), (2, 2), (0, 2), (1, 1), (1, 0)] : List Pt)[i]? = some p →
        p ∈ convexHull ℝ {p : Pt | ∃ i ∈ (([(0, 5), (5, 1), (1, 2), (2, 3), (3, 0)] : List (Nat × Nat)).flatMap fun f => [f.1, f.2]),
          ([(0, 0), (2, 0), (2, 2), (0, 2), (1, 1), (1, 0)] : List Pt)[i]? = some p} := by
      intro i hi p hp
      refine subset_convexHull ℝ _ ⟨i, ?_, hp⟩
      simp only [List.mem_cons, List.not_mem_nil, or_false] at hi
      rcases hi with rfl | rfl | rfl | rfl | rfl <;> simp
    simp only [List.mem_cons, List.not_mem_nil, or_false] at hx
    rcases hx with rfl | rfl | rfl | rfl | rfl | rfl
    · exact hs 0 (by simp) _ (by simp)
    · exact hs 1 (by simp) _ (by simp)
    · exact hs 2 (by simp) _ (by simp)
    · exact hs 3 (by simp) _ (by simp)
    · have := (convex_convexHull ℝ _) (hs 0 (by simp) _ rfl) (hs 2 (by simp) _ rfl) (a := 1 / 2) (b := 1 / 2) (by norm_num) (by norm_num) (by norm_num)
      convert this using 1
      ext <;> norm_num
    · exact hs 5 (by simp) _ (by simp)

end Verif.Geometry.Hull
