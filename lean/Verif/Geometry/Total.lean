import Verif.Geometry.Convex
import Mathlib.Algebra.BigOperators.Intervals
import Mathlib.MeasureTheory.Group.Measure
import Mathlib.MeasureTheory.Group.Prod
import Mathlib.Analysis.Convex.Hull
import Mathlib.MeasureTheory.Measure.Haar.OfBasis

/-! The values of the pixels: translation to the unit square and sum over the pixels. -/
namespace Verif.Geometry
open Verif.Py MeasureTheory intervalIntegral
open scoped Pointwise

/-- The polygon in the frame of the pixel: its lower left corner is the origin. -/
noncomputable def shiftPoly (c : ℝ × ℝ) (vs : List (ℝ × ℝ)) : List (ℝ × ℝ) := vs.map fun v => (v.1 - c.1, v.2 - c.2)

theorem pixelVal_eq (vs : List (ℝ × ℝ)) (p : Int × Int) :
    pixelVal vs p = polygonUnitySquare (shiftPoly ((p.1 : ℝ) - 1 / 2, (p.2 : ℝ) - 1 / 2) vs) := rfl

/-! ### Convex polygons -/

theorem shift_convex {vs : List (ℝ × ℝ)} (c : ℝ × ℝ) (h : StrictlyConvex vs) : StrictlyConvex (shiftPoly c vs) := by
  have hinj : Function.Injective fun v : ℝ × ℝ => (v.1 - c.1, v.2 - c.2) := by
    intro a b hab
    simp only [Prod.mk.injEq, sub_left_inj] at hab
    exact Prod.ext hab.1 hab.2
  refine ⟨h.1.map hinj, ?_⟩
  intro i p q hp hq w hw hwp hwq
  unfold shiftPoly at hp hq hw
  rw [List.length_map] at hq
  rw [List.getElem?_map, Option.map_eq_some_iff] at hp hq
  obtain ⟨p', hp', rfl⟩ := hp
  obtain ⟨q', hq', rfl⟩ := hq
  obtain ⟨w', hw', rfl⟩ := List.mem_map.1 hw
  have := h.2 i p' q' hp' hq' w' hw' (fun e => hwp (by rw [e])) (fun e => hwq (by rw [e]))
  unfold cross at this ⊢
  simp only
  linarith

theorem mem_hull_shift (vs : List (ℝ × ℝ)) (c w : ℝ × ℝ) : w ∈ hull (shiftPoly c vs) ↔ w + c ∈ hull vs := by
  have hset : {v | v ∈ shiftPoly c vs} = (-c) +ᵥ {v | v ∈ vs} := by
    ext v
    simp only [Set.mem_ofPred_eq, Set.mem_vadd_set_iff_neg_vadd_mem, neg_neg, vadd_eq_add, shiftPoly, List.mem_map]
    constructor
    · rintro ⟨a, ha, rfl⟩
      convert ha using 1
      ext <;> simp
    · intro h
      exact ⟨_, h, by ext <;> simp⟩
  unfold hull
  rw [hset, convexHull_vadd, Set.mem_vadd_set_iff_neg_vadd_mem, neg_neg, vadd_eq_add, add_comm]

/-- The pixel (ix, iy): the square of side 1 centred on (ix, iy). -/
def pixel (p : Int × Int) : Set (ℝ × ℝ) :=
  Set.Icc ((p.1 : ℝ) - 1 / 2) (p.1 + 1 / 2) ×ˢ Set.Icc ((p.2 : ℝ) - 1 / 2) (p.2 + 1 / 2)

theorem pixelVal_area {vs : List (ℝ × ℝ)} (h : StrictlyConvex vs) (p : Int × Int) :
    0 ≤ pixelVal vs p ∧ volume (hull vs ∩ pixel p) = ENNReal.ofReal (pixelVal vs p) := by
  have := polygon_area (shift_convex ((p.1 : ℝ) - 1 / 2, (p.2 : ℝ) - 1 / 2) h)
  rw [pixelVal_eq]
  refine ⟨this.1, ?_⟩
  have _inv : (volume : Measure (ℝ × ℝ)).IsAddRightInvariant := by
    rw [Measure.volume_eq_prod]
    infer_instance
  rw [← this.2, ← measure_preimage_add_right volume ((p.1 : ℝ) - 1 / 2, (p.2 : ℝ) - 1 / 2)]
  congr 1
  ext w
  simp only [Set.mem_preimage, Set.mem_inter_iff, mem_hull_shift, pixel, unitSquare, Set.mem_prod, Set.mem_Icc, Prod.fst_add,
    Prod.snd_add]
  refine and_congr_right fun _ => ?_
  constructor
  · rintro ⟨⟨h1, h2⟩, h3, h4⟩
    refine ⟨⟨?_, ?_⟩, ?_, ?_⟩ <;> linarith
  · rintro ⟨⟨h1, h2⟩, h3, h4⟩
    refine ⟨⟨?_, ?_⟩, ?_, ?_⟩ <;> linarith

/-! ### Reversed polygons -/

theorem polygon_reverse (vs : List (ℝ × ℝ)) : polygonUnitySquare vs.reverse = -polygonUnitySquare vs := by
  rw [polygon_integral, polygon_integral, ((edges_reverse vs).map _).sum_eq, List.map_map, ← sum_map_neg']
  congr 2
  funext e
  simp only [Function.comp, Prod.fst_swap, Prod.snd_swap]
  rw [integral_symm]
  by_cases h : e.1.1 = e.2.1
  · rw [h]; simp
  · simp only [lineAt_comm h]

theorem pixelVal_reverse (vs : List (ℝ × ℝ)) (p : Int × Int) : pixelVal vs.reverse p = -pixelVal vs p := by
  rw [pixelVal_eq, pixelVal_eq, ← polygon_reverse]
  unfold shiftPoly
  rw [List.map_reverse]

/-! ### Winding number -/

/-- The number of times that the polygon turns counter-clockwise around the point: signed number of the edges that are above it. -/
noncomputable def winding (vs : List (ℝ × ℝ)) (x y : ℝ) : ℝ :=
  ((List.range vs.length).map fun i =>
    let p := (vs[i]?).getD 0
    let q := (vs[(i + 1) % vs.length]?).getD 0
    if q.1 ≤ x ∧ x < p.1 ∧ y < q.2 + (p.2 - q.2) / (p.1 - q.1) * (x - q.1) then 1
    else if p.1 ≤ x ∧ x < q.1 ∧ y < p.2 + (q.2 - p.2) / (q.1 - p.1) * (x - p.1) then -1
    else 0).sum

theorem winding_eq (vs : List (ℝ × ℝ)) (x y : ℝ) :
    winding vs x y = ((edges vs).map fun e => (heav x e.2.1 - heav x e.1.1) * heav y (lineAt e.1 e.2 x)).sum := by
  have := sum_edges_cyc' vs fun p q : ℝ × ℝ =>
    if q.1 ≤ x ∧ x < p.1 ∧ y < q.2 + (p.2 - q.2) / (p.1 - q.1) * (x - q.1) then (1 : ℝ)
    else if p.1 ≤ x ∧ x < q.1 ∧ y < p.2 + (q.2 - p.2) / (q.1 - p.1) * (x - p.1) then -1
    else 0
  unfold winding
  simp only
  rw [← this]
  congr 2
  funext e
  obtain ⟨q, p⟩ := e
  simp only [heav]
  have k : ∀ h : p.1 ≠ q.1, p.2 + (q.2 - p.2) / (q.1 - p.1) * (x - p.1) = q.2 + (p.2 - q.2) / (p.1 - q.1) * (x - q.1) :=
    fun h => lineAt_comm h x
  unfold lineAt
  by_cases h1 : x < p.1 <;> by_cases h2 : x < q.1
  · simp [h1, h2, not_le.2 h1, not_le.2 h2]
  · have : ¬ p.1 ≤ x := not_le.2 h1
    simp [h1, h2, not_lt.1 h2]
  · rw [k (by intro h; rw [h] at h1; exact h1 h2)]
    simp [h1, h2, not_lt.1 h1]
  · simp [h1, h2]

theorem heav_clamp (z : ℝ) : ∫ y in (0 : ℝ)..1, heav y z = clamp z := by
  have := heav_integral (fun _ => 1) continuous_const z
  simpa using this

theorem heav_ii1 (z a b : ℝ) : IntervalIntegrable (fun y => heav y z) volume a b := by
  have := heav_ii (fun _ => 1) continuous_const z a b
  simpa using this

theorem sum_heav_ii (es : List ((ℝ × ℝ) × (ℝ × ℝ))) (f g : (ℝ × ℝ) × (ℝ × ℝ) → ℝ) (a b : ℝ) :
    IntervalIntegrable (fun y => (es.map fun e => f e * heav y (g e)).sum) volume a b := by
  induction es with
  | nil => simp only [List.map_nil, List.sum_nil]; exact (continuous_const (y := (0 : ℝ))).intervalIntegrable a b
  | cons e es ih =>
    simp only [List.map_cons, List.sum_cons]
    exact ((heav_ii1 _ a b).const_mul _).add ih

theorem sum_heav_integral (es : List ((ℝ × ℝ) × (ℝ × ℝ))) (f g : (ℝ × ℝ) × (ℝ × ℝ) → ℝ) :
    ∫ y in (0 : ℝ)..1, (es.map fun e => f e * heav y (g e)).sum = (es.map fun e => f e * clamp (g e)).sum := by
  induction es with
  | nil => simp
  | cons e es ih =>
    simp only [List.map_cons, List.sum_cons]
    rw [intervalIntegral.integral_add ((heav_ii1 _ _ _).const_mul _) (sum_heav_ii es f g 0 1), ih,
      intervalIntegral.integral_const_mul, heav_clamp]

theorem polygon_winding (vs : List (ℝ × ℝ)) :
    polygonUnitySquare vs = ∫ x in (0 : ℝ)..1, ∫ y in (0 : ℝ)..1, winding vs x y := by
  rw [polygon_slices]
  congr 1
  funext x
  simp only [winding_eq]
  rw [sum_heav_integral]
  rfl

theorem winding_shift (vs : List (ℝ × ℝ)) (c : ℝ × ℝ) (x y : ℝ) : winding (shiftPoly c vs) x y = winding vs (x + c.1) (y + c.2) := by
  rw [winding_eq, winding_eq]
  unfold shiftPoly
  rw [edges_map, List.map_map]
  congr 2
  funext e
  simp only [Function.comp, heav, lineAt, lt_sub_iff_add_lt]
  congr 2
  have : e.1.2 - c.2 + (e.2.2 - c.2 - (e.1.2 - c.2)) / (e.2.1 - c.1 - (e.1.1 - c.1)) * (x - (e.1.1 - c.1))
      = (e.1.2 + (e.2.2 - e.1.2) / (e.2.1 - e.1.1) * (x + c.1 - e.1.1)) - c.2 := by
    rw [sub_sub_sub_cancel_right, sub_sub_sub_cancel_right]; ring
  rw [this, lt_sub_iff_add_lt]

theorem pixelVal_winding (vs : List (ℝ × ℝ)) (p : Int × Int) :
    pixelVal vs p = ∫ x in ((p.1 : ℝ) - 1 / 2)..(p.1 + 1 / 2), ∫ y in ((p.2 : ℝ) - 1 / 2)..(p.2 + 1 / 2), winding vs x y := by
  rw [pixelVal_eq, polygon_winding]
  simp only [winding_shift]
  have h1 : ∀ x : ℝ, ∫ y in (0 : ℝ)..1, winding vs x (y + ((p.2 : ℝ) - 1 / 2))
      = ∫ y in ((p.2 : ℝ) - 1 / 2)..(p.2 + 1 / 2), winding vs x y := by
    intro x
    rw [integral_comp_add_right (fun y => winding vs x y)]
    congr 1 <;> ring
  simp only [h1]
  rw [integral_comp_add_right (fun x => ∫ y in ((p.2 : ℝ) - 1 / 2)..(p.2 + 1 / 2), winding vs x y)]
  congr 1 <;> ring

theorem pixelVal_nonneg {vs : List (ℝ × ℝ)} (h : ∀ x y, 0 ≤ winding vs x y) (p : Int × Int) : 0 ≤ pixelVal vs p := by
  rw [pixelVal_winding]
  apply intervalIntegral.integral_nonneg (by linarith)
  intro x _
  exact intervalIntegral.integral_nonneg (by linarith) fun y _ => h x y

theorem pixelVal_nonpos {vs : List (ℝ × ℝ)} (h : ∀ x y, winding vs x y ≤ 0) (p : Int × Int) : pixelVal vs p ≤ 0 := by
  rw [pixelVal_winding]
  rw [← neg_nonneg, ← intervalIntegral.integral_neg]
  apply intervalIntegral.integral_nonneg (by linarith)
  intro x _
  rw [← intervalIntegral.integral_neg]
  exact intervalIntegral.integral_nonneg (by linarith) fun y _ => by linarith [h x y]

/-! ### Sum over the pixels -/

theorem sum_clip (Φ : ℝ → ℝ) (X0 t : ℝ) (N : Nat) :
    ∑ i ∈ Finset.range N, (Φ (X0 + i + clamp (t - X0 - i)) - Φ (X0 + i)) = Φ (X0 + max 0 (min (N : ℝ) (t - X0))) - Φ X0 := by
  induction N with
  | zero =>
    simp only [Finset.range_zero, Finset.sum_empty, Nat.cast_zero]
    rw [max_eq_left (min_le_left _ _)]; simp
  | succ N ih =>
    rw [Finset.sum_range_succ, ih]
    push_cast
    have hN : (0 : ℝ) ≤ N := Nat.cast_nonneg N
    rcases le_total (t - X0) N with h | h
    · rw [clamp_of_nonpos (by linarith), min_eq_right h, min_eq_right (by linarith)]
      simp
    · have e1 : max 0 (min (N : ℝ) (t - X0)) = N := by rw [min_eq_left h, max_eq_right hN]
      have e2 : max 0 (min ((N : ℝ) + 1) (t - X0)) = N + clamp (t - X0 - N) := by
        unfold clamp
        rw [max_eq_right (le_min zero_le_one (by linarith)), max_eq_right (le_min (by linarith) (by linarith))]
        rcases le_total (t - X0) (N + 1) with h' | h'
        · rw [min_eq_right h', min_eq_right (by linarith)]; ring
        · rw [min_eq_left h', min_eq_left (by linarith)]
      rw [e1, e2, ← add_assoc]
      ring

theorem sum_clamp (Y0 z : ℝ) (N : Nat) : ∑ j ∈ Finset.range N, clamp (z - Y0 - j) = max 0 (min (N : ℝ) (z - Y0)) := by
  have := sum_clip id Y0 z N
  simp only [id_eq, add_sub_cancel_left] at this
  exact this

/-- Contribution of an edge to all the pixels. -/
theorem edge_total (q p : ℝ × ℝ) (X0 Y0 : ℝ) (Nx Ny : Nat) (hq : X0 ≤ q.1 ∧ q.1 ≤ X0 + Nx) (hp : X0 ≤ p.1 ∧ p.1 ≤ X0 + Nx)
    (hq2 : Y0 ≤ q.2 ∧ q.2 ≤ Y0 + Ny) (hp2 : Y0 ≤ p.2 ∧ p.2 ≤ Y0 + Ny) :
    ∑ j ∈ Finset.range Ny, ∑ i ∈ Finset.range Nx,
      ∫ x in (clamp (q.1 - (X0 + i)))..(clamp (p.1 - (X0 + i))),
        clamp (lineAt (q.1 - (X0 + i), q.2 - (Y0 + j)) (p.1 - (X0 + i), p.2 - (Y0 + j)) x)
      = 1 / 2 * (p.1 - q.1) * (q.2 + p.2 - 2 * Y0) := by
  have hc : Continuous fun x => lineAt q p x := by unfold lineAt; fun_prop
  have hg : ∀ j : ℕ, Continuous fun x => clamp (lineAt q p x - Y0 - j) := fun j =>
    continuous_clamp.comp ((hc.sub continuous_const).sub continuous_const)
  -- back to the frame of the polygon
  have e1 : ∀ i j : ℕ, ∫ x in (clamp (q.1 - (X0 + i)))..(clamp (p.1 - (X0 + i))),
        clamp (lineAt (q.1 - (X0 + i), q.2 - (Y0 + j)) (p.1 - (X0 + i), p.2 - (Y0 + j)) x)
      = ∫ x in (X0 + i + clamp (q.1 - X0 - i))..(X0 + i + clamp (p.1 - X0 - i)), clamp (lineAt q p x - Y0 - j) := by
    intro i j
    have : ∀ x, lineAt (q.1 - (X0 + i), q.2 - (Y0 + j)) (p.1 - (X0 + i), p.2 - (Y0 + j)) x = lineAt q p (x + (X0 + i)) - Y0 - j := by
      intro x
      unfold lineAt
      simp only
      rw [sub_sub_sub_cancel_right, sub_sub_sub_cancel_right]; ring
    simp only [this]
    rw [integral_comp_add_right (fun x => clamp (lineAt q p x - Y0 - j))]
    simp only [sub_sub, add_comm]
  simp only [e1]
  rw [Finset.sum_comm]
  -- sum over the rows
  have e2 : ∀ i : ℕ, ∑ j ∈ Finset.range Ny,
      ∫ x in (X0 + i + clamp (q.1 - X0 - i))..(X0 + i + clamp (p.1 - X0 - i)), clamp (lineAt q p x - Y0 - j)
      = ∫ x in (X0 + i + clamp (q.1 - X0 - i))..(X0 + i + clamp (p.1 - X0 - i)), max 0 (min (Ny : ℝ) (lineAt q p x - Y0)) := by
    intro i
    rw [← intervalIntegral.integral_finsetSum fun j _ => (hg j).intervalIntegrable _ _]
    simp only [sum_clamp]
  simp only [e2]
  -- sum over the columns
  have hG : Continuous fun x => max 0 (min (Ny : ℝ) (lineAt q p x - Y0)) := by fun_prop
  have e3 : ∀ a b : ℝ, ∫ x in a..b, max 0 (min (Ny : ℝ) (lineAt q p x - Y0))
      = (∫ x in X0..b, max 0 (min (Ny : ℝ) (lineAt q p x - Y0))) - ∫ x in X0..a, max 0 (min (Ny : ℝ) (lineAt q p x - Y0)) := by
    intro a b
    rw [integral_interval_sub_left (hG.intervalIntegrable _ _) (hG.intervalIntegrable _ _)]
  have e4 : ∀ t : ℝ, X0 ≤ t → t ≤ X0 + Nx →
      ∑ i ∈ Finset.range Nx, ((∫ x in X0..(X0 + i + clamp (t - X0 - i)), max 0 (min (Ny : ℝ) (lineAt q p x - Y0)))
        - ∫ x in X0..(X0 + i), max 0 (min (Ny : ℝ) (lineAt q p x - Y0)))
      = ∫ x in X0..t, max 0 (min (Ny : ℝ) (lineAt q p x - Y0)) := by
    intro t h1 h2
    rw [sum_clip (fun b => ∫ x in X0..b, max 0 (min (Ny : ℝ) (lineAt q p x - Y0)))]
    rw [min_eq_right (by linarith), max_eq_right (by linarith)]
    simp
  have e5 : ∑ i ∈ Finset.range Nx,
      ∫ x in (X0 + i + clamp (q.1 - X0 - i))..(X0 + i + clamp (p.1 - X0 - i)), max 0 (min (Ny : ℝ) (lineAt q p x - Y0))
      = ∫ x in q.1..p.1, max 0 (min (Ny : ℝ) (lineAt q p x - Y0)) := by
    rw [e3 q.1 p.1, ← e4 p.1 hp.1 hp.2, ← e4 q.1 hq.1 hq.2, ← Finset.sum_sub_distrib]
    apply Finset.sum_congr rfl
    intro i _
    rw [e3]; ring
  rw [e5]
  by_cases hne : q.1 = p.1
  · rw [hne]; simp
  -- the edge stays between its ends
  have hd : p.1 - q.1 ≠ 0 := sub_ne_zero.2 (Ne.symm hne)
  have ha : ∀ x, lineAt q p x - Y0 = (p.2 - q.2) / (p.1 - q.1) * x + (q.2 - (p.2 - q.2) / (p.1 - q.1) * q.1 - Y0) := by
    intro x; unfold lineAt; ring
  have v1 : (p.2 - q.2) / (p.1 - q.1) * q.1 + (q.2 - (p.2 - q.2) / (p.1 - q.1) * q.1 - Y0) = q.2 - Y0 := by ring
  have v2 : (p.2 - q.2) / (p.1 - q.1) * p.1 + (q.2 - (p.2 - q.2) / (p.1 - q.1) * q.1 - Y0) = p.2 - Y0 := by
    field_simp; ring
  rw [integral_congr (g := fun x => (p.2 - q.2) / (p.1 - q.1) * x + (q.2 - (p.2 - q.2) / (p.1 - q.1) * q.1 - Y0))]
  · rw [int_affine, v1, v2]; ring
  · intro x hx
    simp only
    rw [ha x]
    have b1 := le_affine hx (c := 0) (by rw [v1]; linarith) (by rw [v2]; linarith)
    have b2 := affine_le hx (c := (Ny : ℝ)) (by rw [v1]; linarith) (by rw [v2]; linarith)
    rw [min_eq_right b2, max_eq_right b1]

theorem sum_list_comm {α : Type} (l : List α) (N : Nat) (g : Nat → α → ℝ) :
    ∑ i ∈ Finset.range N, (l.map (g i)).sum = (l.map fun e => ∑ i ∈ Finset.range N, g i e).sum := by
  induction l with
  | nil => simp
  | cons a t ih => simp only [List.map_cons, List.sum_cons, Finset.sum_add_distrib, ih]

/-- The signed values of the pixels of a rectangle that contains the polygon add up to the surface of the polygon. -/
theorem rect_total (vs : List (ℝ × ℝ)) (x0 y0 : Int) (Nx Ny : Nat)
    (h : ∀ v ∈ vs, ((x0 : ℝ) - 1 / 2 ≤ v.1 ∧ v.1 ≤ x0 - 1 / 2 + Nx) ∧ ((y0 : ℝ) - 1 / 2 ≤ v.2 ∧ v.2 ≤ y0 - 1 / 2 + Ny)) :
    ∑ j ∈ Finset.range Ny, ∑ i ∈ Finset.range Nx, pixelVal vs (x0 + i, y0 + j) = surface vs := by
  have e1 : ∀ i j : ℕ, pixelVal vs (x0 + i, y0 + j) = ((edges vs).map fun e =>
      ∫ x in (clamp (e.1.1 - ((x0 : ℝ) - 1 / 2 + i)))..(clamp (e.2.1 - ((x0 : ℝ) - 1 / 2 + i))),
        clamp (lineAt (e.1.1 - ((x0 : ℝ) - 1 / 2 + i), e.1.2 - ((y0 : ℝ) - 1 / 2 + j))
          (e.2.1 - ((x0 : ℝ) - 1 / 2 + i), e.2.2 - ((y0 : ℝ) - 1 / 2 + j)) x)).sum := by
    intro i j
    rw [pixelVal_eq, polygon_integral]
    unfold shiftPoly
    rw [edges_map, List.map_map]
    have a1 : (((x0 + i : Int) : ℝ) - 1 / 2) = (x0 : ℝ) - 1 / 2 + i := by push_cast; ring
    have a2 : (((y0 + j : Int) : ℝ) - 1 / 2) = (y0 : ℝ) - 1 / 2 + j := by push_cast; ring
    simp only [a1, a2]
    rfl
  simp only [e1, sum_list_comm]
  rw [surface_eq]
  have e2 : ((edges vs).map fun e => ∑ j ∈ Finset.range Ny, ∑ i ∈ Finset.range Nx,
      ∫ x in (clamp (e.1.1 - ((x0 : ℝ) - 1 / 2 + i)))..(clamp (e.2.1 - ((x0 : ℝ) - 1 / 2 + i))),
        clamp (lineAt (e.1.1 - ((x0 : ℝ) - 1 / 2 + i), e.1.2 - ((y0 : ℝ) - 1 / 2 + j))
          (e.2.1 - ((x0 : ℝ) - 1 / 2 + i), e.2.2 - ((y0 : ℝ) - 1 / 2 + j)) x))
      = (edges vs).map fun e => 1 / 2 * (e.2.1 - e.1.1) * (e.1.2 + e.2.2 - 2 * ((y0 : ℝ) - 1 / 2)) := by
    apply List.map_congr_left
    intro e he
    have m := mem_edges vs e he
    exact edge_total e.1 e.2 _ _ Nx Ny (h _ m.1).1 (h _ m.2).1 (h _ m.1).2 (h _ m.2).2
  rw [e2, ← List.sum_map_mul_left]
  have t := sum_edges_snd (fun v : ℝ × ℝ => 1 / 2 * v.1 * v.2 - v.1 * ((y0 : ℝ) - 1 / 2)) vs
  have e3 : ((edges vs).map fun e => 1 / 2 * (e.2.1 - e.1.1) * (e.1.2 + e.2.2 - 2 * ((y0 : ℝ) - 1 / 2))).sum
      = ((edges vs).map fun e => 1 / 2 * (e.2.1 * e.1.2 - e.2.2 * e.1.1)).sum
        + (((edges vs).map fun e => 1 / 2 * e.2.1 * e.2.2 - e.2.1 * ((y0 : ℝ) - 1 / 2)).sum
          + -((edges vs).map fun e => 1 / 2 * e.1.1 * e.1.2 - e.1.1 * ((y0 : ℝ) - 1 / 2)).sum) := by
    rw [← sum_map_neg', ← List.sum_map_add, ← List.sum_map_add]
    congr 2
    funext e
    ring
  rw [e3, t]
  ring

end Verif.Geometry
