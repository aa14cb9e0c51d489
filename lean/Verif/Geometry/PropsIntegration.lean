import Verif.Geometry.Rows
import Mathlib.MeasureTheory.Measure.Lebesgue.EqHaar

/-! Properties C42, C43 and C79: the integration operator. -/
namespace Verif.Geometry
open Verif.Py MeasureTheory intervalIntegral
open scoped Pointwise

/-! ### Specification -/

/-- The weight of the column `k` in a row: the sum of the values of the elements whose index is `k`. -/
noncomputable def weightAt (row : List (Int × ℝ)) (k : Int) : ℝ := ((row.filter fun e => decide (e.1 = k)).map Prod.snd).sum

/-- The sum of the weights of a row. -/
noncomputable def totalWeight (row : List (Int × ℝ)) : ℝ := (row.map Prod.snd).sum

/-- `(ix, iy)` is a pixel of the scene. -/
def IsPixel (nx ny : Nat) (p : Int × Int) : Prop := 0 ≤ p.1 ∧ p.1 < nx ∧ 0 ≤ p.2 ∧ p.2 < ny

/-- The polygon is convex, and its vertices turn in one of the two directions. -/
def Convex2 (vs : List (ℝ × ℝ)) : Prop := StrictlyConvex vs ∨ StrictlyConvex vs.reverse

/-! ### Lemmas -/

theorem hull_reverse (vs : List (ℝ × ℝ)) : hull vs.reverse = hull vs := by
  unfold hull; simp only [List.mem_reverse]

theorem row_of_ok {polys : List (List (ℝ × ℝ))} {nx ny fuel ncolmax : Nat} {g : Nat → Garbage ℝ} {rows : List (List (Int × ℝ))}
    {m calls : Nat} {out : Bool} (h : integrationOperator polys nx ny (fuel + 2) ncolmax g = .ok (rows, m, out, calls)) {i : Nat}
    {vs : List (ℝ × ℝ)} {row : List (Int × ℝ)} (hv : polys[i]? = some vs) (hr : rows[i]? = some row) :
    row = found vs nx (pixelsOf vs nx ny)
      ++ List.replicate (max ncolmax (minNcol polys nx ny) - (found vs nx (pixelsOf vs nx ny)).length) (-1, 0) := by
  rw [operator_eq] at h
  simp only [Except.ok.injEq, Prod.mk.injEq] at h
  rw [← h.1, List.getElem?_map, hv] at hr
  simpa using hr.symm

theorem weightAt_row (vs : List (ℝ × ℝ)) (nx ny k : Nat) (p : Int × Int) (hp : IsPixel nx ny p) :
    weightAt (found vs nx (pixelsOf vs nx ny) ++ List.replicate k (-1, 0)) (p.1 + p.2 * nx) = |pixelVal vs p| := by
  unfold weightAt
  obtain ⟨h1, h2, h3, h4⟩ := hp
  have hpos : 0 ≤ p.1 + p.2 * nx := by positivity
  rw [List.filter_append, List.filter_replicate_of_neg (by simp; omega), List.append_nil]
  unfold found
  rw [List.filter_map, List.filter_filter, List.map_map]
  have e : ((pixelsOf vs nx ny).filter fun a => ((fun e : Int × ℝ => decide (e.1 = p.1 + p.2 * nx)) ∘
      fun p => (p.1 + p.2 * (nx : Int), |pixelVal vs p|)) a && decide (pixelVal vs a ≠ 0))
      = (pixelsOf vs nx ny).filter fun a => decide (a = p) && decide (pixelVal vs p ≠ 0) := by
    apply List.filter_congr
    intro a ha
    obtain ⟨⟨a1, a2, -, -⟩, -⟩ := (mem_pixelsOf vs nx ny a).1 ha
    by_cases hap : a = p
    · subst hap; simp
    · have : ¬ (a.1 + a.2 * (nx : Int) = p.1 + p.2 * nx) := fun h => hap (index_inj ⟨a1, a2⟩ ⟨h1, h2⟩ h)
      simp [hap, this]
  rw [e]
  by_cases hz : pixelVal vs p = 0
  · simp [hz]
  · have : ((pixelsOf vs nx ny).filter fun a => decide (a = p) && decide (pixelVal vs p ≠ 0)) = [p] := by
      have hm : p ∈ pixelsOf vs nx ny := by
        by_contra hc
        exact hz (pixelVal_zero vs nx ny p ⟨h1, h2, h3, h4⟩ hc)
      simp only [hz, ne_eq, not_false_eq_true, decide_true, Bool.and_true]
      have hn := pixelsOf_nodup vs nx ny
      generalize pixelsOf vs nx ny = l at hm hn ⊢
      induction l with
      | nil => simp at hm
      | cons b t ih =>
        rw [List.nodup_cons] at hn
        by_cases hb : b = p
        · subst hb
          rw [List.filter_cons_of_pos (by simp)]
          congr 1
          rw [List.filter_eq_nil_iff]
          intro a ha
          simp only [decide_eq_true_eq]
          rintro rfl
          exact hn.1 ha
        · rw [List.filter_cons_of_neg (by simp [hb])]
          exact ih (by simpa [Ne.symm hb] using hm) hn.2
    rw [this]
    simp

theorem total_row (vs : List (ℝ × ℝ)) (nx ny k : Nat) :
    totalWeight (found vs nx (pixelsOf vs nx ny) ++ List.replicate k (-1, 0)) = ((pixelsOf vs nx ny).map fun p => |pixelVal vs p|).sum := by
  unfold totalWeight
  rw [List.map_append, List.sum_append, sum_found_pixels]
  simp

theorem sum_abs (l : List (Int × Int)) (f : Int × Int → ℝ) (h : (∀ p, 0 ≤ f p) ∨ ∀ p, f p ≤ 0) :
    (l.map fun p => |f p|).sum = |(l.map f).sum| := by
  rcases h with h | h
  · have : (l.map fun p => |f p|) = l.map f := List.map_congr_left fun p _ => abs_of_nonneg (h p)
    rw [this, abs_of_nonneg]
    apply List.sum_nonneg
    intro x hx
    obtain ⟨p, -, rfl⟩ := List.mem_map.1 hx
    exact h p
  · have : (l.map fun p => |f p|) = l.map fun p => -f p := List.map_congr_left fun p _ => abs_of_nonpos (h p)
    rw [this, sum_map_neg', abs_of_nonpos]
    rw [← neg_nonneg, ← sum_map_neg']
    apply List.sum_nonneg
    intro x hx
    obtain ⟨p, -, rfl⟩ := List.mem_map.1 hx
    exact neg_nonneg.2 (h p)

theorem scale_convex {vs : List (ℝ × ℝ)} {s : ℝ} (hs : 0 < s) (h : StrictlyConvex vs) :
    StrictlyConvex (vs.map fun v => (s * v.1, s * v.2)) := by
  have hinj : Function.Injective fun v : ℝ × ℝ => (s * v.1, s * v.2) := by
    intro a b hab
    simp only [Prod.mk.injEq] at hab
    exact Prod.ext (mul_left_cancel₀ hs.ne' hab.1) (mul_left_cancel₀ hs.ne' hab.2)
  refine ⟨h.1.map hinj, ?_⟩
  intro i p q hp hq w hw hwp hwq
  rw [List.length_map] at hq
  rw [List.getElem?_map, Option.map_eq_some_iff] at hp hq
  obtain ⟨p', hp', rfl⟩ := hp
  obtain ⟨q', hq', rfl⟩ := hq
  obtain ⟨w', hw', rfl⟩ := List.mem_map.1 hw
  have := h.2 i p' q' hp' hq' w' hw' (fun e => hwp (by rw [e])) (fun e => hwq (by rw [e]))
  unfold cross at this ⊢
  simp only
  have e : (s * q'.1 - s * p'.1) * (s * w'.2 - s * p'.2) - (s * q'.2 - s * p'.2) * (s * w'.1 - s * p'.1)
      = s * s * ((q'.1 - p'.1) * (w'.2 - p'.2) - (q'.2 - p'.2) * (w'.1 - p'.1)) := by ring
  rw [e]
  positivity

theorem exists_scale (vs : List (ℝ × ℝ)) : ∃ s : ℝ, 0 < s ∧ ∀ v ∈ vs, |s * v.1| ≤ 1 / 2 ∧ |s * v.2| ≤ 1 / 2 := by
  induction vs with
  | nil => exact ⟨1, one_pos, by simp⟩
  | cons w t ih =>
    obtain ⟨s, hs, h⟩ := ih
    have k : ∀ a : ℝ, |1 / (2 * (1 + |w.1| + |w.2|)) * a| = |a| / (2 * (1 + |w.1| + |w.2|)) := by
      intro a
      rw [abs_mul, abs_of_pos (by positivity)]
      ring
    refine ⟨min s (1 / (2 * (1 + |w.1| + |w.2|))), lt_min hs (by positivity), ?_⟩
    have hmin : ∀ a : ℝ, |min s (1 / (2 * (1 + |w.1| + |w.2|))) * a| ≤ |s * a| ∧
        |min s (1 / (2 * (1 + |w.1| + |w.2|))) * a| ≤ |1 / (2 * (1 + |w.1| + |w.2|)) * a| := by
      intro a
      simp only [abs_mul]
      have p1 : 0 < min s (1 / (2 * (1 + |w.1| + |w.2|))) := lt_min hs (by positivity)
      have p2 : 0 < 1 / (2 * (1 + |w.1| + |w.2|)) := by positivity
      rw [abs_of_pos p1, abs_of_pos hs, abs_of_pos p2]
      exact ⟨mul_le_mul_of_nonneg_right (min_le_left _ _) (abs_nonneg _), mul_le_mul_of_nonneg_right (min_le_right _ _) (abs_nonneg _)⟩
    intro v hv
    rcases List.mem_cons.1 hv with rfl | hv
    · refine ⟨le_trans (hmin _).2 ?_, le_trans (hmin _).2 ?_⟩
      · rw [k, div_le_iff₀ (by positivity)]; linarith [abs_nonneg v.1, abs_nonneg v.2]
      · rw [k, div_le_iff₀ (by positivity)]; linarith [abs_nonneg v.1, abs_nonneg v.2]
    · exact ⟨le_trans (hmin _).1 (h v hv).1, le_trans (hmin _).1 (h v hv).2⟩

/-- The surface of a convex polygon is the area of its convex hull. -/
theorem surface_area {vs : List (ℝ × ℝ)} (h : StrictlyConvex vs) : 0 ≤ surface vs ∧ volume (hull vs) = ENNReal.ofReal (surface vs) := by
  obtain ⟨s, hs, hb⟩ := exists_scale vs
  have hc := scale_convex hs h
  have hin : InScene 1 1 (vs.map fun v => (s * v.1, s * v.2)) := by
    intro v hv
    obtain ⟨w, hw, rfl⟩ := List.mem_map.1 hv
    have := hb w hw
    rw [abs_le, abs_le] at this
    refine ⟨⟨?_, ?_⟩, ?_, ?_⟩ <;> push_cast <;> linarith [this.1.1, this.1.2, this.2.1, this.2.2]
  have ht := rect_total (vs.map fun v => (s * v.1, s * v.2)) 0 0 1 1 (by
    intro v hv
    have := hin v hv
    push_cast at this ⊢
    refine ⟨⟨?_, ?_⟩, ?_, ?_⟩ <;> linarith [this.1.1, this.1.2, this.2.1, this.2.2])
  simp only [Finset.range_one, Finset.sum_singleton, Nat.cast_zero, add_zero] at ht
  obtain ⟨p0, p1⟩ := pixelVal_area hc (0, 0)
  rw [ht] at p0 p1
  have hsub : hull (vs.map fun v => (s * v.1, s * v.2)) ⊆ pixel (0, 0) := by
    apply convexHull_min
    · intro v hv
      have := hin v hv
      push_cast at this
      simp only [pixel, Set.mem_prod, Set.mem_Icc, Int.cast_zero]
      refine ⟨⟨?_, ?_⟩, ?_, ?_⟩ <;> linarith [this.1.1, this.1.2, this.2.1, this.2.2]
    · exact (convex_Icc _ _).prod (convex_Icc _ _)
  rw [Set.inter_eq_left.2 hsub] at p1
  have hset : hull (vs.map fun v => (s * v.1, s * v.2)) = s • hull vs := by
    unfold hull
    rw [← convexHull_smul]
    congr 1
    ext v
    simp only [Set.mem_ofPred_eq, List.mem_map, Set.mem_smul_set]
    rfl
  have hsurf : surface (vs.map fun v => (s * v.1, s * v.2)) = s ^ 2 * surface vs := by
    rw [surface_eq, surface_eq, edges_map, List.map_map]
    have : ((edges vs).map ((fun e : (ℝ × ℝ) × (ℝ × ℝ) => e.2.1 * e.1.2 - e.2.2 * e.1.1) ∘
        fun e => ((s * e.1.1, s * e.1.2), (s * e.2.1, s * e.2.2))))
        = (edges vs).map fun e => s ^ 2 * (e.2.1 * e.1.2 - e.2.2 * e.1.1) := by
      congr 1
      funext e
      simp only [Function.comp]
      ring
    rw [this, List.sum_map_mul_left]
    ring
  rw [hsurf] at p0 p1
  have hs2 : 0 < s ^ 2 := by positivity
  have h0 : 0 ≤ surface vs := nonneg_of_mul_nonneg_right p0 hs2
  refine ⟨h0, ?_⟩
  have _inst : (volume : Measure (ℝ × ℝ)).IsAddHaarMeasure := by
    rw [Measure.volume_eq_prod]
    infer_instance
  rw [hset, Measure.addHaar_smul, Module.finrank_prod, Module.finrank_self, abs_of_pos (by positivity),
    ENNReal.ofReal_mul (by positivity)] at p1
  have hne : ENNReal.ofReal (s ^ (1 + 1)) ≠ 0 := by simp; positivity
  exact (ENNReal.mul_right_inj hne ENNReal.ofReal_ne_top).1 p1

theorem surface_reverse' (vs : List (ℝ × ℝ)) : surface vs.reverse = -surface vs := by
  rw [surface_eq, surface_eq, ((edges_reverse vs).map _).sum_eq, List.map_map]
  have : ((edges vs).map ((fun e : (ℝ × ℝ) × (ℝ × ℝ) => e.2.1 * e.1.2 - e.2.2 * e.1.1) ∘ Prod.swap))
      = (edges vs).map fun e => -(e.2.1 * e.1.2 - e.2.2 * e.1.1) := by
    congr 1
    funext e
    simp only [Function.comp, Prod.fst_swap, Prod.snd_swap]
    ring
  rw [this, sum_map_neg']
  ring

/-- C45: for convex polygons, the absolute value of the surface is the area of the convex hull of the vertices. -/
theorem C45_area (vs : List (ℝ × ℝ)) (hc : Convex2 vs) : ENNReal.ofReal |surface vs| = volume (convexHull ℝ {v | v ∈ vs}) := by
  change _ = volume (hull vs)
  rcases hc with hc | hc
  · obtain ⟨h0, h1⟩ := surface_area hc
    rw [h1, abs_of_nonneg h0]
  · obtain ⟨h0, h1⟩ := surface_area hc
    rw [hull_reverse, surface_reverse'] at h1
    rw [surface_reverse'] at h0
    rw [h1, abs_of_nonpos (by linarith)]

/-! ### C42 -/

/-- C42, for every polygon: the weight of a pixel is the absolute value of the integral over the pixel of the number of times that the
polygon turns around the point. -/
theorem C42_winding {polys : List (List (ℝ × ℝ))} {nx ny fuel ncolmax : Nat} {g : Nat → Garbage ℝ} {rows : List (List (Int × ℝ))}
    {m calls : Nat} {out : Bool} (h : integrationOperator polys nx ny (fuel + 2) ncolmax g = .ok (rows, m, out, calls)) (i : Nat)
    (vs : List (ℝ × ℝ)) (row : List (Int × ℝ)) (hv : polys[i]? = some vs) (hr : rows[i]? = some row) (p : Int × Int)
    (hp : IsPixel nx ny p) :
    weightAt row (p.1 + p.2 * nx)
      = |∫ x in ((p.1 : ℝ) - 1 / 2)..(p.1 + 1 / 2), ∫ y in ((p.2 : ℝ) - 1 / 2)..(p.2 + 1 / 2), winding vs x y| := by
  rw [row_of_ok h hv hr, weightAt_row vs nx ny _ p hp, pixelVal_winding]

/-- C42, for convex polygons: the weight of a pixel is the area of the intersection of the polygon and the pixel. -/
theorem C42_convex {polys : List (List (ℝ × ℝ))} {nx ny fuel ncolmax : Nat} {g : Nat → Garbage ℝ} {rows : List (List (Int × ℝ))}
    {m calls : Nat} {out : Bool} (h : integrationOperator polys nx ny (fuel + 2) ncolmax g = .ok (rows, m, out, calls)) (i : Nat)
    (vs : List (ℝ × ℝ)) (row : List (Int × ℝ)) (hv : polys[i]? = some vs) (hr : rows[i]? = some row) (p : Int × Int)
    (hp : IsPixel nx ny p) (hc : Convex2 vs) :
    ENNReal.ofReal (weightAt row (p.1 + p.2 * nx)) = volume (convexHull ℝ {v | v ∈ vs} ∩
      Set.Icc ((p.1 : ℝ) - 1 / 2) (p.1 + 1 / 2) ×ˢ Set.Icc ((p.2 : ℝ) - 1 / 2) (p.2 + 1 / 2)) := by
  rw [row_of_ok h hv hr, weightAt_row vs nx ny _ p hp]
  change _ = volume (hull vs ∩ pixel p)
  rcases hc with hc | hc
  · obtain ⟨h0, h1⟩ := pixelVal_area hc p
    rw [h1, abs_of_nonneg h0]
  · obtain ⟨h0, h1⟩ := pixelVal_area hc p
    rw [hull_reverse, pixelVal_reverse] at h1
    rw [pixelVal_reverse] at h0
    rw [h1, abs_of_nonpos (by linarith)]

/-- C42, for convex polygons inside the scene: the weights add up to the area of the polygon. -/
theorem C42_sum_convex {polys : List (List (ℝ × ℝ))} {nx ny fuel ncolmax : Nat} {g : Nat → Garbage ℝ} {rows : List (List (Int × ℝ))}
    {m calls : Nat} {out : Bool} (h : integrationOperator polys nx ny (fuel + 2) ncolmax g = .ok (rows, m, out, calls)) (i : Nat)
    (vs : List (ℝ × ℝ)) (row : List (Int × ℝ)) (hv : polys[i]? = some vs) (hr : rows[i]? = some row) (hin : InScene nx ny vs)
    (hc : Convex2 vs) :
    totalWeight row = |surface vs| ∧ ENNReal.ofReal (totalWeight row) = volume (convexHull ℝ {v | v ∈ vs}) := by
  have key : totalWeight row = |surface vs| := by
    rw [row_of_ok h hv hr, total_row, ← pixels_total vs nx ny hin]
    apply sum_abs
    rcases hc with hc | hc
    · exact Or.inl fun p => (pixelVal_area hc p).1
    · refine Or.inr fun p => ?_
      have := (pixelVal_area hc p).1
      rw [pixelVal_reverse] at this
      linarith
  exact ⟨key, by rw [key]; exact C45_area vs hc⟩

/-- C42, for the polygons that turn around all the points in the same direction (which simple polygons do): the weights add up to the
absolute area.  Full statement: for every polygon inside the scene; it is false for polygons that cross themselves, see
`C42_violation`. -/
theorem C42_sum_partial {polys : List (List (ℝ × ℝ))} {nx ny fuel ncolmax : Nat} {g : Nat → Garbage ℝ} {rows : List (List (Int × ℝ))}
    {m calls : Nat} {out : Bool} (h : integrationOperator polys nx ny (fuel + 2) ncolmax g = .ok (rows, m, out, calls)) (i : Nat)
    (vs : List (ℝ × ℝ)) (row : List (Int × ℝ)) (hv : polys[i]? = some vs) (hr : rows[i]? = some row) (hin : InScene nx ny vs)
    (hw : (∀ x y, 0 ≤ winding vs x y) ∨ ∀ x y, winding vs x y ≤ 0) :
    totalWeight row = |surface vs| := by
  rw [row_of_ok h hv hr, total_row, ← pixels_total vs nx ny hin]
  apply sum_abs
  rcases hw with hw | hw
  · exact Or.inl (pixelVal_nonneg hw)
  · exact Or.inr (pixelVal_nonpos hw)

/-- The hypotheses are met: a rhombus that covers parts of pixels. -/
example : StrictlyConvex [(1, 0), (2, 1), (1, 2), (0, 1)] ∧ InScene 3 3 [(1, 0), (2, 1), (1, 2), (0, 1)] := by
  refine ⟨⟨?_, ?_⟩, ?_⟩
  · norm_num
  · intro i p q hp hq w hw hwp hwq
    have : i = 0 ∨ i = 1 ∨ i = 2 ∨ i = 3 ∨ 4 ≤ i := by omega
    rcases this with rfl | rfl | rfl | rfl | h
    · simp at hp hq hw
      subst hp; subst hq
      rcases hw with rfl | rfl | rfl | rfl <;> first | exact absurd rfl hwp | exact absurd rfl hwq | norm_num [cross]
    · simp at hp hq hw
      subst hp; subst hq
      rcases hw with rfl | rfl | rfl | rfl <;> first | exact absurd rfl hwp | exact absurd rfl hwq | norm_num [cross]
    · simp at hp hq hw
      subst hp; subst hq
      rcases hw with rfl | rfl | rfl | rfl <;> first | exact absurd rfl hwp | exact absurd rfl hwq | norm_num [cross]
    · simp at hp hq hw
      subst hp; subst hq
      rcases hw with rfl | rfl | rfl | rfl <;> first | exact absurd rfl hwp | exact absurd rfl hwq | norm_num [cross]
    · rw [List.getElem?_eq_none (by simpa using h)] at hp
      cases hp
  · intro v hv
    simp only [List.mem_cons, List.not_mem_nil, or_false] at hv
    rcases hv with rfl | rfl | rfl | rfl <;> norm_num

/-- The hypotheses of the partial statement are met by a polygon that is not convex: an L. -/
example : ∀ x y : ℝ, 0 ≤ winding [(0, 0), (2, 0), (2, 1), (1, 1), (1, 2), (0, 2)] x y := by
  intro x y
  unfold winding
  simp only [List.length_cons, List.length_nil, List.range, List.range.loop, List.map_cons, List.map_nil, List.sum_cons, List.sum_nil]
  norm_num
  simp only [← not_le]
  by_cases h0 : 0 ≤ x <;> by_cases h1 : 1 ≤ x <;> by_cases h2 : 2 ≤ x <;>
    first | (exfalso; linarith) | (simp only [h0, h1, h2]; norm_num; try (split_ifs <;> linarith))

/-- C42 is false for a polygon that crosses itself: the two halves of this bow tie are in two pixels; its area is 0 (the signed areas
of the two halves cancel) whereas its weights are 1/8 and 1/8. -/
theorem C42_violation :
    surface [((0 : ℚ), (-1 / 4 : ℚ)), (1, 1 / 4), (1, -1 / 4), (0, 1 / 4)] = 0 ∧
    ∀ g : Nat → Garbage ℚ, ∃ r,
      integrationOperator [[((0 : ℚ), (-1 / 4 : ℚ)), (1, 1 / 4), (1, -1 / 4), (0, 1 / 4)]] 2 1 2 2 g = .ok ([[(0, 1 / 8), (1, 1 / 8)]], r) := by
  refine ⟨by decide +kernel, ?_⟩
  intro g
  rw [operator_eq]
  have h1 : minNcol [[((0 : ℚ), (-1 / 4 : ℚ)), (1, 1 / 4), (1, -1 / 4), (0, 1 / 4)]] 2 1 = 2 := by decide +kernel
  have h2 : found [((0 : ℚ), (-1 / 4 : ℚ)), (1, 1 / 4), (1, -1 / 4), (0, 1 / 4)] 2
      (pixelsOf [((0 : ℚ), (-1 / 4 : ℚ)), (1, 1 / 4), (1, -1 / 4), (0, 1 / 4)] 2 1) = [(0, 1 / 8), (1, 1 / 8)] := by decide +kernel
  simp only [h1, List.map_cons, List.map_nil, h2]
  exact ⟨_, rfl⟩

/-! ### C43 -/

/-- C43: the computation succeeds after at most one retry, and every row is made of elements with distinct indices inside the scene
and positive weights, followed only by padding. -/
theorem C43_rows (polys : List (List (ℝ × ℝ))) (nx ny fuel ncolmax : Nat) (g : Nat → Garbage ℝ) :
    ∃ rows m out calls, integrationOperator polys nx ny (fuel + 2) ncolmax g = .ok (rows, m, out, calls) ∧
      calls ≤ 2 ∧ (calls = 1 ↔ m ≤ ncolmax) ∧ rows.length = polys.length ∧
      ∀ row ∈ rows, row.length = max ncolmax m ∧ ∃ (live : List (Int × ℝ)) (k : Nat), row = live ++ List.replicate k (-1, 0) ∧
        (live.map Prod.fst).Nodup ∧ live.length ≤ m ∧ ∀ e ∈ live, 0 ≤ e.1 ∧ e.1 < (nx : Int) * ny ∧ 0 < e.2 := by
  refine ⟨_, _, _, _, operator_eq polys nx ny fuel ncolmax g, ?_, ?_, by simp, ?_⟩
  · split_ifs <;> omega
  · split_ifs with h <;> simp <;> omega
  · intro row hrow
    obtain ⟨vs, hvs, rfl⟩ := List.mem_map.1 hrow
    have hle := le_minNcol polys nx ny vs hvs
    refine ⟨by simp; omega, _, _, rfl, found_nodup vs nx ny, hle, ?_⟩
    intro e he
    have := found_range vs nx ny e he
    refine ⟨this.1, this.2, ?_⟩
    unfold found at he
    obtain ⟨p, hp, rfl⟩ := List.mem_map.1 he
    have hne := (List.mem_filter.1 hp).2
    simp only [ne_eq, decide_not, Bool.not_eq_true', decide_eq_false_iff_not] at hne
    exact abs_pos.2 hne

/-- C43: no element is lost, whatever the initial size: every pixel of the scene that the polygon covers has its element. -/
theorem C43_complete {polys : List (List (ℝ × ℝ))} {nx ny fuel ncolmax : Nat} {g : Nat → Garbage ℝ} {rows : List (List (Int × ℝ))}
    {m calls : Nat} {out : Bool} (h : integrationOperator polys nx ny (fuel + 2) ncolmax g = .ok (rows, m, out, calls)) (i : Nat)
    (vs : List (ℝ × ℝ)) (row : List (Int × ℝ)) (hv : polys[i]? = some vs) (hr : rows[i]? = some row) (p : Int × Int)
    (hp : IsPixel nx ny p) (w : ℝ)
    (hw : w = |∫ x in ((p.1 : ℝ) - 1 / 2)..(p.1 + 1 / 2), ∫ y in ((p.2 : ℝ) - 1 / 2)..(p.2 + 1 / 2), winding vs x y|) (h0 : w ≠ 0) :
    (p.1 + p.2 * (nx : Int), w) ∈ row := by
  rw [row_of_ok h hv hr]
  rw [← pixelVal_winding] at hw
  have hne : pixelVal vs p ≠ 0 := by
    intro hz
    apply h0
    rw [hw, hz, abs_zero]
  refine List.mem_append_left _ (List.mem_map.2 ⟨p, List.mem_filter.2 ⟨?_, by simpa using hne⟩, by rw [hw]⟩)
  by_contra hc
  exact hne (pixelVal_zero vs nx ny p hp hc)

/-- C43: the result of the automatic sizing is the size that is needed: a row has exactly this number of elements, or it is zero. -/
theorem C43_size {polys : List (List (ℝ × ℝ))} {nx ny fuel ncolmax : Nat} {g : Nat → Garbage ℝ} {rows : List (List (Int × ℝ))}
    {m calls : Nat} {out : Bool} (h : integrationOperator polys nx ny (fuel + 2) ncolmax g = .ok (rows, m, out, calls)) :
    m = 0 ∨ ∃ row ∈ rows, (row.filter fun e => decide (e.1 ≠ -1)).length = m := by
  rw [operator_eq] at h
  simp only [Except.ok.injEq, Prod.mk.injEq] at h
  obtain ⟨h1, h2, -, -⟩ := h
  subst h1; subst h2
  rcases foldl_max_mem (fun vs : List (ℝ × ℝ) => (found vs nx (pixelsOf vs nx ny)).length) polys 0 with k | ⟨vs, hvs, k⟩
  · exact Or.inl k
  · refine Or.inr ⟨_, List.mem_map_of_mem hvs, ?_⟩
    rw [List.filter_append, List.filter_replicate_of_neg (by simp), List.append_nil]
    have : (found vs nx (pixelsOf vs nx ny)).filter (fun e => decide (e.1 ≠ -1)) = found vs nx (pixelsOf vs nx ny) := by
      rw [List.filter_eq_self]
      intro e he
      have := (found_range vs nx ny e he).1
      simp only [ne_eq, decide_eq_true_eq]
      omega
    rw [this]
    exact k.symm

/-- C43: the matrix and the size do not depend on the memory that is not initialised. -/
theorem C43_memory (polys : List (List (ℝ × ℝ))) (nx ny fuel ncolmax : Nat) (g g' : Nat → Garbage ℝ) :
    (integrationOperator polys nx ny (fuel + 2) ncolmax g).map (fun r => (r.1, r.2.1, r.2.2.2))
      = (integrationOperator polys nx ny (fuel + 2) ncolmax g').map fun r => (r.1, r.2.1, r.2.2.2) := by
  rw [operator_eq, operator_eq]
  rfl

/-- A retry: the rhombus covers parts of 5 pixels. -/
example : minNcol [[((1 : ℚ), (0 : ℚ)), (2, 1), (1, 2), (0, 1)]] 3 3 = 5 := by decide +kernel

/-! ### C79 -/

/-- C79, when the variable `out` of the Fortran subroutine is false by chance: the operator is flagged exactly when a vertex of a
polygon is outside of the scene.  Full statement: whatever the initial value; it is false, see `C79_violation`. -/
theorem C79_outside_partial {polys : List (List (ℝ × ℝ))} {nx ny fuel ncolmax : Nat} {g : Nat → Garbage ℝ}
    {rows : List (List (Int × ℝ))} {m calls : Nat} {out : Bool}
    (h : integrationOperator polys nx ny (fuel + 2) ncolmax g = .ok (rows, m, out, calls)) (hne : ∀ vs ∈ polys, vs ≠ [])
    (hg : ∀ k, (g k).out = false) : out = true ↔ ∃ vs ∈ polys, ¬ InScene nx ny vs := by
  rw [operator_eq] at h
  simp only [Except.ok.injEq, Prod.mk.injEq] at h
  rw [← h.2.2.1, hg, Bool.false_or, List.any_eq_true]
  refine exists_congr fun vs => and_congr_right fun hvs => ?_
  rw [isOutside_iff vs (hne vs hvs)]
  unfold InScene
  push Not
  refine exists_congr fun v => and_congr_right fun _ => ?_
  constructor
  · rintro (k | k | k | k) ⟨h1, h2⟩
    · linarith
    · linarith
    · intro h3; linarith
    · intro _; exact k
  · intro k
    by_contra hc
    push Not at hc
    exact absurd (k ⟨hc.1, hc.2.1⟩ hc.2.2.1) (not_lt.2 hc.2.2.2)

/-- C79: a polygon that is not inside the scene is always reported. -/
theorem C79_reported {polys : List (List (ℝ × ℝ))} {nx ny fuel ncolmax : Nat} {g : Nat → Garbage ℝ}
    {rows : List (List (Int × ℝ))} {m calls : Nat} {out : Bool}
    (h : integrationOperator polys nx ny (fuel + 2) ncolmax g = .ok (rows, m, out, calls)) (vs : List (ℝ × ℝ)) (hvs : vs ∈ polys)
    (v : ℝ × ℝ) (hv : v ∈ vs) (hout : v.1 < -(1 / 2) ∨ (nx : ℝ) - 1 / 2 < v.1 ∨ v.2 < -(1 / 2) ∨ (ny : ℝ) - 1 / 2 < v.2) :
    out = true := by
  rw [operator_eq] at h
  simp only [Except.ok.injEq, Prod.mk.injEq] at h
  rw [← h.2.2.1]
  have : (polys.any fun vs => isOutside vs nx ny) = true :=
    List.any_eq_true.2 ⟨vs, hvs, (isOutside_iff vs (List.ne_nil_of_mem hv) nx ny).2 ⟨v, hv, hout⟩⟩
  rw [this, Bool.or_true]

/-- C79 is false in general: `out` is never set to false, so that with some contents of the memory the operator of a polygon inside the
scene is flagged. -/
theorem C79_violation : ∃ (g : Nat → Garbage ℝ) (rows : List (List (Int × ℝ))) (m calls : Nat),
    integrationOperator [[((0 : ℝ), (0 : ℝ)), (1, 0), (0, 1)]] 2 2 2 4 g = .ok (rows, m, true, calls) ∧
    InScene 2 2 [((0 : ℝ), (0 : ℝ)), (1, 0), (0, 1)] := by
  have h := operator_eq [[((0 : ℝ), (0 : ℝ)), (1, 0), (0, 1)]] 2 2 0 4
    fun _ => ⟨fun n c => List.replicate n (List.replicate c (0, 0)), by simp, by simp, true⟩
  simp only [Bool.true_or] at h
  refine ⟨_, _, _, _, h, ?_⟩
  intro v hv
  simp only [List.mem_cons, List.not_mem_nil, or_false] at hv
  rcases hv with rfl | rfl | rfl <;> norm_num

end Verif.Geometry
