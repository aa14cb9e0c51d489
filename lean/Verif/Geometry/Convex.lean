import Verif.Geometry.Integral
import Mathlib.Analysis.Convex.Hull
import Mathlib.Analysis.Convex.Combination
import Mathlib.Analysis.Convex.Topology
import Mathlib.MeasureTheory.Measure.Lebesgue.Basic
import Mathlib.MeasureTheory.Integral.Bochner.Basic

/-! The value computed for a pixel is the area of its intersection with a convex polygon. -/
namespace Verif.Geometry
open Verif.Py MeasureTheory intervalIntegral

/-! ### Integration over the abscissae -/

/-- 1 on the left of `t`. -/
noncomputable def heav (x t : ℝ) : ℝ := if x < t then 1 else 0

theorem heav_ii (g : ℝ → ℝ) (hg : Continuous g) (t a b : ℝ) : IntervalIntegrable (fun x => heav x t * g x) volume a b := by
  have e : (fun x => heav x t * g x) = Set.indicator (Set.Iio t) g := by
    funext x
    simp only [heav, Set.indicator, Set.mem_Iio]
    split <;> simp
  rw [e]
  have h := hg.intervalIntegrable (μ := volume) a b
  exact ⟨h.1.indicator measurableSet_Iio, h.2.indicator measurableSet_Iio⟩

theorem clamp_lt {x t : ℝ} (h0 : 0 < x) (h : x < clamp t) : x < t := by
  unfold clamp at h
  rcases lt_max_iff.1 h with h | h
  · linarith
  · exact lt_of_lt_of_le h (min_le_right _ _)

theorem le_of_clamp_lt {x t : ℝ} (h1 : x < 1) (h : clamp t < x) : ¬ x < t := by
  unfold clamp at h
  intro h2
  have := (max_lt_iff.1 h).2
  rcases min_lt_iff.1 this with h | h <;> linarith

theorem heav_integral (g : ℝ → ℝ) (hg : Continuous g) (t : ℝ) :
    ∫ x in (0 : ℝ)..1, heav x t * g x = ∫ x in (0 : ℝ)..(clamp t), g x := by
  rw [← integral_add_adjacent_intervals (heav_ii g hg t 0 (clamp t)) (heav_ii g hg t (clamp t) 1)]
  have h1 : ∫ x in (0 : ℝ)..(clamp t), heav x t * g x = ∫ x in (0 : ℝ)..(clamp t), g x := by
    rw [integral_of_le (clamp_nonneg t), integral_of_le (clamp_nonneg t), integral_Ioc_eq_integral_Ioo, integral_Ioc_eq_integral_Ioo]
    apply setIntegral_congr_fun measurableSet_Ioo
    intro x hx
    simp only [heav, if_pos (clamp_lt hx.1 hx.2), one_mul]
  have h2 : ∫ x in (clamp t)..1, heav x t * g x = 0 := by
    rw [integral_of_le (clamp_le t), integral_Ioc_eq_integral_Ioo]
    rw [setIntegral_congr_fun (g := fun _ => (0 : ℝ)) measurableSet_Ioo]
    · simp
    intro x hx
    simp only [heav, if_neg (le_of_clamp_lt hx.2 hx.1), zero_mul]
  rw [h1, h2, add_zero]

theorem continuous_line (p q : ℝ × ℝ) : Continuous fun x => clamp (lineAt p q x) :=
  continuous_clamp.comp (by unfold lineAt; fun_prop)

/-- The signed sum, over the edges that meet the vertical line of abscissa `x`, of the clamped ordinates. -/
noncomputable def sliceSum (es : List ((ℝ × ℝ) × (ℝ × ℝ))) (x : ℝ) : ℝ :=
  (es.map fun e => (heav x e.2.1 - heav x e.1.1) * clamp (lineAt e.1 e.2 x)).sum

theorem sliceSum_ii (es : List ((ℝ × ℝ) × (ℝ × ℝ))) (a b : ℝ) : IntervalIntegrable (sliceSum es) volume a b := by
  induction es with
  | nil => exact (continuous_const (y := (0 : ℝ))).intervalIntegrable a b
  | cons e es ih =>
    have e1 : sliceSum (e :: es) = fun x => (heav x e.2.1 * clamp (lineAt e.1 e.2 x) - heav x e.1.1 * clamp (lineAt e.1 e.2 x))
        + sliceSum es x := by
      funext x; simp only [sliceSum, List.map_cons, List.sum_cons]; ring
    rw [e1]
    exact ((heav_ii _ (continuous_line _ _) _ a b).sub (heav_ii _ (continuous_line _ _) _ a b)).add ih

theorem sliceSum_integral (es : List ((ℝ × ℝ) × (ℝ × ℝ))) :
    ∫ x in (0 : ℝ)..1, sliceSum es x
      = (es.map fun e => ∫ x in (clamp e.1.1)..(clamp e.2.1), clamp (lineAt e.1 e.2 x)).sum := by
  induction es with
  | nil => simp [sliceSum]
  | cons e es ih =>
    have e1 : sliceSum (e :: es) = fun x => (heav x e.2.1 * clamp (lineAt e.1 e.2 x) - heav x e.1.1 * clamp (lineAt e.1 e.2 x))
        + sliceSum es x := by
      funext x; simp only [sliceSum, List.map_cons, List.sum_cons]; ring
    have hc := continuous_line e.1 e.2
    rw [e1, intervalIntegral.integral_add ((heav_ii _ hc _ _ _).sub (heav_ii _ hc _ _ _)) (sliceSum_ii es 0 1),
      intervalIntegral.integral_sub (heav_ii _ hc _ _ _) (heav_ii _ hc _ _ _), heav_integral _ hc, heav_integral _ hc, ih,
      List.map_cons, List.sum_cons]
    congr 1
    rw [integral_interval_sub_left (hc.intervalIntegrable _ _) (hc.intervalIntegrable _ _)]

theorem polygon_slices (vs : List (ℝ × ℝ)) : polygonUnitySquare vs = ∫ x in (0 : ℝ)..1, sliceSum (edges vs) x := by
  rw [polygon_integral, sliceSum_integral]

/-! ### Convex polygons -/

/-- Twice the signed area of the triangle p, q, w: positive if w is on the left of the oriented line pq. -/
def cross (p q w : ℝ × ℝ) : ℝ := (q.1 - p.1) * (w.2 - p.2) - (q.2 - p.2) * (w.1 - p.1)

/-- Distinct vertices, enumerated counter-clockwise, of a strictly convex polygon: all the other vertices are strictly on the left of each
edge. -/
def StrictlyConvex (vs : List (ℝ × ℝ)) : Prop :=
  vs.Nodup ∧ ∀ (i : Nat) (p q : ℝ × ℝ), vs[i]? = some p → vs[(i + 1) % vs.length]? = some q →
    ∀ w ∈ vs, w ≠ p → w ≠ q → 0 < cross p q w

/-- The polygon as a set of points. -/
def hull (vs : List (ℝ × ℝ)) : Set (ℝ × ℝ) := convexHull ℝ {v | v ∈ vs}

theorem mem_edges_index {K : Type} (vs : List (K × K)) (p q : K × K) (h : (q, p) ∈ edges vs) :
    ∃ i, vs[i]? = some p ∧ vs[(i + 1) % vs.length]? = some q := by
  rw [edges_eq, List.mem_iff_getElem?] at h
  obtain ⟨i, hi⟩ := h
  rw [List.getElem?_zip_eq_some] at hi
  obtain ⟨hq, hp⟩ := hi
  have hi : i < vs.length := (List.getElem?_eq_some_iff.1 hq).1
  rw [List.getElem?_rotate hi] at hp
  refine ⟨_, hp, ?_⟩
  rw [Nat.mod_add_mod]
  have : i + (vs.length - 1) + 1 = i + vs.length := by omega
  rw [this, Nat.add_mod_right, Nat.mod_eq_of_lt hi, hq]

theorem StrictlyConvex.left {vs : List (ℝ × ℝ)} (h : StrictlyConvex vs) {p q : ℝ × ℝ} (he : (q, p) ∈ edges vs) :
    ∀ w ∈ vs, w ≠ p → w ≠ q → 0 < cross p q w := by
  obtain ⟨i, hp, hq⟩ := mem_edges_index vs p q he
  exact h.2 i p q hp hq

theorem cross_self1 (p q : ℝ × ℝ) : cross p q p = 0 := by unfold cross; ring
theorem cross_self2 (p q : ℝ × ℝ) : cross p q q = 0 := by unfold cross; ring

theorem StrictlyConvex.left' {vs : List (ℝ × ℝ)} (h : StrictlyConvex vs) {p q : ℝ × ℝ} (he : (q, p) ∈ edges vs) :
    ∀ w ∈ vs, 0 ≤ cross p q w := by
  intro w hw
  by_cases h1 : w = p
  · rw [h1, cross_self1]
  by_cases h2 : w = q
  · rw [h2, cross_self2]
  exact (h.left he w hw h1 h2).le

theorem StrictlyConvex.hull_left {vs : List (ℝ × ℝ)} (h : StrictlyConvex vs) {p q : ℝ × ℝ} (he : (q, p) ∈ edges vs) :
    ∀ w ∈ hull vs, 0 ≤ cross p q w := by
  have hconv : Convex ℝ {w : ℝ × ℝ | 0 ≤ cross p q w} := by
    intro a ha b hb s t hs ht hst
    simp only [Set.mem_ofPred_eq] at *
    have e : cross p q (s • a + t • b) = s * cross p q a + t * cross p q b := by
      have hs' : s = 1 - t := by linarith
      subst hs'
      simp only [cross, Prod.fst_add, Prod.snd_add, Prod.smul_fst, Prod.smul_snd, smul_eq_mul]
      ring
    rw [e]
    exact add_nonneg (mul_nonneg hs ha) (mul_nonneg ht hb)
  intro w hw
  exact convexHull_min (s := {v | v ∈ vs}) (fun v hv => h.left' he v hv) hconv hw

theorem vertex_mem_hull {vs : List (ℝ × ℝ)} {v : ℝ × ℝ} (h : v ∈ vs) : v ∈ hull vs := subset_convexHull ℝ _ h

theorem lineAt_comm {p q : ℝ × ℝ} (h : p.1 ≠ q.1) (x : ℝ) : lineAt p q x = lineAt q p x := by
  unfold lineAt
  have h1 : q.1 - p.1 ≠ 0 := sub_ne_zero.2 (Ne.symm h)
  have h2 : p.1 - q.1 ≠ 0 := sub_ne_zero.2 h
  have : (p.2 - q.2) / (p.1 - q.1) = (q.2 - p.2) / (q.1 - p.1) := by
    rw [← neg_sub q.2 p.2, ← neg_sub q.1 p.1, neg_div_neg_eq]
  rw [this]
  field_simp
  ring

theorem segment_mem_hull {vs : List (ℝ × ℝ)} {p q : ℝ × ℝ} (hp : p ∈ vs) (hq : q ∈ vs) {x : ℝ} (h1 : p.1 ≤ x) (h2 : x ≤ q.1)
    (h : p.1 < q.1) : (x, lineAt p q x) ∈ hull vs := by
  have hc : Convex ℝ (hull vs) := convex_convexHull ℝ _
  have hd : (0 : ℝ) < q.1 - p.1 := by linarith
  have := hc (vertex_mem_hull hp) (vertex_mem_hull hq) (a := (q.1 - x) / (q.1 - p.1)) (b := (x - p.1) / (q.1 - p.1))
    (div_nonneg (by linarith) hd.le) (div_nonneg (by linarith) hd.le) (by field_simp; ring)
  convert this using 1
  ext
  · simp only [Prod.fst_add, Prod.smul_fst, smul_eq_mul]; field_simp; ring
  · simp only [lineAt, Prod.snd_add, Prod.smul_snd, smul_eq_mul]; field_simp; ring

/-- On the left of an edge going rightwards: above it. -/
theorem above_of_cross {p q : ℝ × ℝ} (h : p.1 < q.1) {x y : ℝ} (hc : 0 ≤ cross p q (x, y)) : lineAt p q x ≤ y := by
  have hd : (0 : ℝ) < q.1 - p.1 := by linarith
  unfold cross at hc
  unfold lineAt
  have : (q.2 - p.2) / (q.1 - p.1) * (x - p.1) ≤ y - p.2 := by
    rw [div_mul_eq_mul_div, div_le_iff₀ hd]; simp only at hc; linarith
  linarith

/-- On the left of an edge going leftwards: below it. -/
theorem below_of_cross {p q : ℝ × ℝ} (h : q.1 < p.1) {x y : ℝ} (hc : 0 ≤ cross p q (x, y)) : y ≤ lineAt p q x := by
  have hd : (0 : ℝ) < p.1 - q.1 := by linarith
  rw [lineAt_comm (by linarith)]
  unfold cross at hc
  unfold lineAt
  have : y - q.2 ≤ (p.2 - q.2) / (p.1 - q.1) * (x - q.1) := by
    rw [div_mul_eq_mul_div, le_div_iff₀ hd]; simp only at hc; linarith
  linarith

theorem cross_line {p q a b : ℝ × ℝ} {x : ℝ} (h : a.1 ≠ b.1) :
    cross p q (x, lineAt a b x) = ((b.1 - x) * cross p q a + (x - a.1) * cross p q b) / (b.1 - a.1) := by
  have : b.1 - a.1 ≠ 0 := sub_ne_zero.2 (Ne.symm h)
  unfold cross lineAt
  field_simp
  ring

/-- The edges that go rightwards through the vertical line of abscissa `x`. -/
def goesRight (x : ℝ) (e : (ℝ × ℝ) × (ℝ × ℝ)) : Prop := e.2.1 ≤ x ∧ x < e.1.1
def goesLeft (x : ℝ) (e : (ℝ × ℝ) × (ℝ × ℝ)) : Prop := e.1.1 ≤ x ∧ x < e.2.1

/-- At most one edge goes rightwards through a vertical line. -/
theorem right_unique {vs : List (ℝ × ℝ)} (h : StrictlyConvex vs) {x : ℝ} {e e' : (ℝ × ℝ) × (ℝ × ℝ)} (he : e ∈ edges vs)
    (he' : e' ∈ edges vs) (hr : goesRight x e) (hr' : goesRight x e') : e = e' := by
  obtain ⟨q, p⟩ := e
  obtain ⟨q', p'⟩ := e'
  unfold goesRight at hr hr'
  simp only at hr hr'
  have m := mem_edges vs _ he
  have m' := mem_edges vs _ he'
  simp only at m m'
  have hpq : p.1 < q.1 := by linarith
  have hpq' : p'.1 < q'.1 := by linarith
  -- the two edges meet at this abscissa
  have c1 := above_of_cross hpq (h.hull_left he _ (segment_mem_hull m'.2 m'.1 hr'.1 hr'.2.le hpq'))
  have c2 := above_of_cross hpq' (h.hull_left he' _ (segment_mem_hull m.2 m.1 hr.1 hr.2.le hpq))
  have ceq : lineAt p' q' x = lineAt p q x := le_antisymm c2 c1
  have hz : cross p q (x, lineAt p' q' x) = 0 := by
    rw [ceq]
    have hd : q.1 - p.1 ≠ 0 := by intro h; linarith
    unfold cross lineAt
    field_simp
    ring
  rw [cross_line (by linarith), div_eq_zero_iff] at hz
  have hz := hz.resolve_right (by intro h; linarith)
  have hp' : p' = p ∨ p' = q := by
    by_contra hcon
    push Not at hcon
    have g1 := h.left he p' m'.2 hcon.1 hcon.2
    have g2 := h.left' he q' m'.1
    have t1 := mul_pos (by linarith : (0 : ℝ) < q'.1 - x) g1
    have t2 := mul_nonneg (by linarith : (0 : ℝ) ≤ x - p'.1) g2
    linarith
  have hpp : p' = p := by
    rcases hp' with h1 | h1
    · exact h1
    · exfalso; rw [h1] at hr'; linarith
  have h1 : (edges vs).map Prod.snd = vs.rotate (vs.length - 1) := edges_snd vs
  have h2 : ((edges vs).map Prod.snd).Nodup := by rw [h1]; exact List.nodup_rotate.2 h.1
  exact List.inj_on_of_nodup_map h2 he he' hpp.symm

/-- At most one edge goes leftwards through a vertical line. -/
theorem left_unique {vs : List (ℝ × ℝ)} (h : StrictlyConvex vs) {x : ℝ} {e e' : (ℝ × ℝ) × (ℝ × ℝ)} (he : e ∈ edges vs)
    (he' : e' ∈ edges vs) (hr : goesLeft x e) (hr' : goesLeft x e') : e = e' := by
  obtain ⟨q, p⟩ := e
  obtain ⟨q', p'⟩ := e'
  unfold goesLeft at hr hr'
  simp only at hr hr'
  have m := mem_edges vs _ he
  have m' := mem_edges vs _ he'
  simp only at m m'
  have hpq : q.1 < p.1 := by linarith
  have hpq' : q'.1 < p'.1 := by linarith
  have c1 := below_of_cross hpq (h.hull_left he _ (segment_mem_hull m'.1 m'.2 hr'.1 hr'.2.le hpq'))
  have c2 := below_of_cross hpq' (h.hull_left he' _ (segment_mem_hull m.1 m.2 hr.1 hr.2.le hpq))
  have k1 := lineAt_comm (p := p) (q := q) (by linarith) x
  have k2 := lineAt_comm (p := p') (q := q') (by linarith) x
  have ceq : lineAt p' q' x = lineAt p q x := le_antisymm (by linarith) (by linarith)
  have hz : cross p q (x, lineAt q' p' x) = 0 := by
    rw [lineAt_comm (by linarith), ceq]
    have hd : q.1 - p.1 ≠ 0 := by intro h; linarith
    unfold cross lineAt
    field_simp
    ring
  rw [cross_line (by linarith), div_eq_zero_iff] at hz
  have hz := hz.resolve_right (by intro h; linarith)
  have hq' : q' = p ∨ q' = q := by
    by_contra hcon
    push Not at hcon
    have g1 := h.left he q' m'.1 hcon.1 hcon.2
    have g2 := h.left' he p' m'.2
    have t1 := mul_pos (by linarith : (0 : ℝ) < p'.1 - x) g1
    have t2 := mul_nonneg (by linarith : (0 : ℝ) ≤ x - q'.1) g2
    linarith
  have hqq : q' = q := by
    rcases hq' with h1 | h1
    · exfalso; rw [h1] at hr'; linarith
    · exact h1
  have h2 : ((edges vs).map Prod.fst).Nodup := by rw [edges_fst]; exact h.1
  exact List.inj_on_of_nodup_map h2 he he' hqq.symm

theorem length_le_one {α} {l : List α} (hn : l.Nodup) (h : ∀ a ∈ l, ∀ b ∈ l, a = b) : l = [] ∨ ∃ a, l = [a] := by
  match l with
  | [] => exact Or.inl rfl
  | [a] => exact Or.inr ⟨a, rfl⟩
  | a :: b :: t =>
    exfalso
    have : a = b := h a (by simp) b (by simp)
    rw [List.nodup_cons] at hn
    exact hn.1 (by rw [this]; simp)

open Classical in
theorem heav_sum (es : List ((ℝ × ℝ) × (ℝ × ℝ))) (x : ℝ) (f : (ℝ × ℝ) × (ℝ × ℝ) → ℝ) :
    (es.map fun e => (heav x e.2.1 - heav x e.1.1) * f e).sum
      = ((es.filter fun e => goesLeft x e).map f).sum - ((es.filter fun e => goesRight x e).map f).sum := by
  induction es with
  | nil => simp
  | cons e es ih =>
    rw [List.map_cons, List.sum_cons, ih, List.filter_cons, List.filter_cons]
    unfold heav goesLeft goesRight
    by_cases h1 : x < e.2.1 <;> by_cases h2 : x < e.1.1
    · rw [if_pos h1, if_pos h2]
      simp [h1, h2, not_le.2 h1, not_le.2 h2]
    · rw [if_pos h1, if_neg h2]
      simp [h1, h2, not_le.2 h1, not_lt.1 h2]
      ring
    · rw [if_neg h1, if_pos h2]
      simp [h1, h2, not_le.2 h2, not_lt.1 h1]
      ring
    · rw [if_neg h1, if_neg h2]
      simp [h1, h2]

/-- Vertices that are linked by edges that do not cross the vertical line are all on the same side. -/
theorem same_side (x : ℝ) (j : ℝ × ℝ) (l : List (ℝ × ℝ)) (h : ∀ e ∈ loopPairs j l, (x < e.1.1 ↔ x < e.2.1)) :
    ∀ v ∈ l, (x < v.1 ↔ x < j.1) := by
  induction l generalizing j with
  | nil => simp
  | cons i t ih =>
    intro v hv
    have h1 := h (i, j) (by simp [loopPairs])
    simp only at h1
    rcases List.mem_cons.1 hv with rfl | hv
    · exact h1
    · rw [ih i (fun e he => h e (by simp [loopPairs, he])) v hv, h1]

/-- Structure of a vertical slice of a convex polygon: either the vertices are all on the same side of the line, or one edge goes rightwards
below another one that goes leftwards. -/
theorem slice_cases {vs : List (ℝ × ℝ)} (h : StrictlyConvex vs) (x : ℝ) :
    ((∀ v ∈ vs, x < v.1) ∨ (∀ v ∈ vs, v.1 ≤ x)) ∧ (∀ f : (ℝ × ℝ) × (ℝ × ℝ) → ℝ, ((edges vs).map fun e => (heav x e.2.1 - heav x e.1.1) * f e).sum = 0) ∨
    ∃ a ∈ edges vs, ∃ b ∈ edges vs, goesRight x a ∧ goesLeft x b ∧
      (∀ f : (ℝ × ℝ) × (ℝ × ℝ) → ℝ, ((edges vs).map fun e => (heav x e.2.1 - heav x e.1.1) * f e).sum = f b - f a) ∧
      (∀ e ∈ edges vs, goesRight x e → e = a) ∧ ∀ e ∈ edges vs, goesLeft x e → e = b := by
  classical
  have hcount : ((edges vs).map fun e => (heav x e.2.1 - heav x e.1.1) * 1).sum = 0 := by
    have := sum_edges_snd (fun v : ℝ × ℝ => heav x v.1) vs
    have e : ((edges vs).map fun e => (heav x e.2.1 - heav x e.1.1) * 1).sum
        = ((edges vs).map fun e => heav x e.2.1).sum + -((edges vs).map fun e => heav x e.1.1).sum := by
      rw [← sum_map_neg', ← List.sum_map_add]
      congr 2; funext e; ring
    rw [e, this]; ring
  have hR := length_le_one (l := (edges vs).filter fun e => goesRight x e) ((edges_nodup vs h.1).filter _) (by
    intro a ha b hb
    simp only [List.mem_filter, decide_eq_true_eq] at ha hb
    exact right_unique h ha.1 hb.1 ha.2 hb.2)
  have hL := length_le_one (l := (edges vs).filter fun e => goesLeft x e) ((edges_nodup vs h.1).filter _) (by
    intro a ha b hb
    simp only [List.mem_filter, decide_eq_true_eq] at ha hb
    exact left_unique h ha.1 hb.1 ha.2 hb.2)
  have hs := fun f => heav_sum (edges vs) x f
  have hs1 := hs fun _ => 1
  rw [hcount] at hs1
  rcases hR with hR | ⟨a, hR⟩ <;> rcases hL with hL | ⟨b, hL⟩ <;> rw [hR, hL] at hs1
  · left
    refine ⟨?_, fun f => by rw [hs, hR, hL]; simp⟩
    have hno : ∀ e ∈ edges vs, (x < e.1.1 ↔ x < e.2.1) := by
      intro e he
      have n1 : ¬ goesRight x e := fun hg => by
        have : e ∈ (edges vs).filter fun e => goesRight x e := by simp [he, hg]
        rw [hR] at this; simp at this
      have n2 : ¬ goesLeft x e := fun hg => by
        have : e ∈ (edges vs).filter fun e => goesLeft x e := by simp [he, hg]
        rw [hL] at this; simp at this
      unfold goesRight at n1
      unfold goesLeft at n2
      push Not at n1 n2
      constructor
      · intro h1; by_contra h2; have := n1 (not_lt.1 h2); linarith
      · intro h1; by_contra h2; have := n2 (not_lt.1 h2); linarith
    unfold edges at hno
    cases hl : vs.getLast? with
    | none => rw [List.getLast?_eq_none_iff] at hl; subst hl; left; simp
    | some j =>
      rw [hl] at hno
      have := same_side x j vs hno
      by_cases hj : x < j.1
      · left; intro v hv; exact (this v hv).2 hj
      · right; intro v hv
        by_contra hv'
        exact hj ((this v hv).1 (not_le.1 hv'))
  · simp at hs1
  · simp at hs1
  · right
    have ma : a ∈ (edges vs).filter fun e => goesRight x e := by rw [hR]; simp
    have mb : b ∈ (edges vs).filter fun e => goesLeft x e := by rw [hL]; simp
    simp only [List.mem_filter, decide_eq_true_eq] at ma mb
    refine ⟨a, ma.1, b, mb.1, ma.2, mb.2, fun f => by rw [hs, hR, hL]; simp, ?_, ?_⟩
    · intro e he hg; exact right_unique h he ma.1 hg ma.2
    · intro e he hg; exact left_unique h he mb.1 hg mb.2

/-- The slice of a convex polygon between these two edges. -/
theorem slice_eq {vs : List (ℝ × ℝ)} (h : StrictlyConvex vs) {x : ℝ} {a b : (ℝ × ℝ) × (ℝ × ℝ)} (ha : a ∈ edges vs)
    (hb : b ∈ edges vs) (hr : goesRight x a) (hl : goesLeft x b) :
    {y | (x, y) ∈ hull vs} = Set.Icc (lineAt a.1 a.2 x) (lineAt b.1 b.2 x) := by
  obtain ⟨q, p⟩ := a
  obtain ⟨q', p'⟩ := b
  unfold goesRight at hr
  unfold goesLeft at hl
  simp only at hr hl ⊢
  have m := mem_edges vs _ ha
  have m' := mem_edges vs _ hb
  simp only at m m'
  have hpq : p.1 < q.1 := by linarith
  have hpq' : q'.1 < p'.1 := by linarith
  rw [lineAt_comm (p := q) (by linarith)]
  have i1 := segment_mem_hull m.2 m.1 hr.1 hr.2.le hpq
  have i2 := segment_mem_hull m'.1 m'.2 hl.1 hl.2.le hpq'
  ext y
  simp only [Set.mem_ofPred_eq, Set.mem_Icc]
  constructor
  · intro hy
    refine ⟨above_of_cross hpq (h.hull_left ha _ hy), ?_⟩
    rw [lineAt_comm (by linarith)]
    exact below_of_cross hpq' (h.hull_left hb _ hy)
  · rintro ⟨h1, h2⟩
    have hc : Convex ℝ (hull vs) := convex_convexHull ℝ _
    have : (x, y) ∈ segment ℝ (x, lineAt p q x) (x, lineAt q' p' x) := by
      have : y ∈ segment ℝ (lineAt p q x) (lineAt q' p' x) := by
        rw [segment_eq_Icc (le_trans h1 h2)]; exact ⟨h1, h2⟩
      obtain ⟨s, t, hs, ht, hst, e⟩ := this
      refine ⟨s, t, hs, ht, hst, ?_⟩
      ext
      · simp only [Prod.fst_add, Prod.smul_fst, smul_eq_mul]
        rw [← add_mul, hst, one_mul]
      · simp only [Prod.snd_add, Prod.smul_snd, smul_eq_mul] at e ⊢
        exact e
    exact hc.segment_subset i1 i2 this

theorem hull_x_lt {vs : List (ℝ × ℝ)} {x : ℝ} (h : ∀ v ∈ vs, x < v.1) {y : ℝ} : (x, y) ∉ hull vs := by
  intro hy
  have hc : Convex ℝ ((LinearMap.fst ℝ ℝ ℝ) ⁻¹' Set.Ioi x) := (convex_Ioi x).linear_preimage _
  have := convexHull_min (s := {v | v ∈ vs}) (fun v hv => h v hv) hc hy
  exact lt_irrefl x this

theorem hull_x_gt {vs : List (ℝ × ℝ)} {x : ℝ} (h : ∀ v ∈ vs, v.1 < x) {y : ℝ} : (x, y) ∉ hull vs := by
  intro hy
  have hc : Convex ℝ ((LinearMap.fst ℝ ℝ ℝ) ⁻¹' Set.Iio x) := (convex_Iio x).linear_preimage _
  have := convexHull_min (s := {v | v ∈ vs}) (fun v hv => h v hv) hc hy
  exact lt_irrefl x this

theorem volume_clamp {l u : ℝ} (h : l ≤ u) :
    volume (Set.Icc l u ∩ Set.Icc (0 : ℝ) 1) = ENNReal.ofReal (clamp u - clamp l) := by
  rw [Set.Icc_inter_Icc, Real.volume_Icc]
  rcases le_or_gt 1 l with h1 | h1
  · rw [clamp_of_ge h1, clamp_of_ge (by linarith), sub_self, ENNReal.ofReal_zero]
    apply ENNReal.ofReal_eq_zero.2
    have a1 : u ⊓ 1 ≤ 1 := inf_le_right
    have a2 : l ≤ l ⊔ 0 := le_sup_left
    linarith
  rcases le_or_gt u 0 with h2 | h2
  · rw [clamp_of_nonpos h2, clamp_of_nonpos (by linarith), sub_self, ENNReal.ofReal_zero]
    apply ENNReal.ofReal_eq_zero.2
    have a1 : u ⊓ 1 ≤ u := inf_le_left
    have a2 : 0 ≤ l ⊔ 0 := le_sup_right
    linarith
  · congr 1
    have e1 : clamp u = u ⊓ 1 := by
      unfold clamp; rw [max_eq_right (le_min zero_le_one h2.le), min_comm]
    have e2 : clamp l = l ⊔ 0 := by
      unfold clamp; rw [min_eq_right h1.le, max_comm]
    rw [e1, e2]

/-- Measure of a slice of the intersection with the unit square. -/
theorem slice_volume {vs : List (ℝ × ℝ)} (h : StrictlyConvex vs) {x : ℝ} (hx : ∀ v ∈ vs, v.1 ≠ x) :
    0 ≤ sliceSum (edges vs) x ∧ volume ({y | (x, y) ∈ hull vs} ∩ Set.Icc (0 : ℝ) 1) = ENNReal.ofReal (sliceSum (edges vs) x) := by
  rcases slice_cases h x with ⟨h1, h2⟩ | ⟨a, ha, b, hb, hr, hl, hf, -, -⟩
  · have e : sliceSum (edges vs) x = 0 := h2 _
    rw [e]
    refine ⟨le_refl _, ?_⟩
    have : {y | (x, y) ∈ hull vs} = ∅ := by
      ext y
      simp only [Set.mem_ofPred_eq, Set.mem_empty_iff_false, iff_false]
      rcases h1 with h1 | h1
      · exact hull_x_lt h1
      · exact hull_x_gt fun v hv => lt_of_le_of_ne (h1 v hv) (hx v hv)
    rw [this]; simp
  · have e : sliceSum (edges vs) x = clamp (lineAt b.1 b.2 x) - clamp (lineAt a.1 a.2 x) := hf _
    have hs := slice_eq h ha hb hr hl
    have hle : lineAt a.1 a.2 x ≤ lineAt b.1 b.2 x := by
      obtain ⟨q, p⟩ := a
      obtain ⟨q', p'⟩ := b
      unfold goesLeft at hl
      unfold goesRight at hr
      simp only at hr hl ⊢
      have m' := mem_edges vs _ hb
      have := segment_mem_hull m'.1 m'.2 hl.1 hl.2.le (by linarith)
      simp only at this
      have hm : lineAt q' p' x ∈ {y | (x, y) ∈ hull vs} := this
      rw [hs] at hm
      exact hm.1
    rw [e, hs, volume_clamp hle]
    exact ⟨sub_nonneg.2 (clamp_mono hle), rfl⟩

theorem finite_vs (vs : List (ℝ × ℝ)) : {v | v ∈ vs}.Finite := List.finite_toSet vs

/-- The unit square. -/
def unitSquare : Set (ℝ × ℝ) := Set.Icc 0 1 ×ˢ Set.Icc 0 1

/-- For a strictly convex polygon enumerated counter-clockwise, `intersection_polygon_unity_square` is the area of the intersection with the
unit square. -/
theorem polygon_area {vs : List (ℝ × ℝ)} (h : StrictlyConvex vs) :
    0 ≤ polygonUnitySquare vs ∧ volume (hull vs ∩ unitSquare) = ENNReal.ofReal (polygonUnitySquare vs) := by
  have hmeas : MeasurableSet (hull vs ∩ unitSquare) := by
    have h1 : IsCompact (hull vs) := (finite_vs vs).isCompact_convexHull ℝ
    exact h1.isClosed.measurableSet.inter (measurableSet_Icc.prod measurableSet_Icc)
  have hae : ∀ᵐ x : ℝ, ∀ v ∈ vs, v.1 ≠ x := by
    have hfin : {x : ℝ | ∃ v ∈ vs, v.1 = x}.Finite := by
      have := (finite_vs vs).image Prod.fst
      refine this.subset ?_
      rintro x ⟨v, hv, rfl⟩
      exact ⟨v, hv, rfl⟩
    have h0 : volume {x : ℝ | ∃ v ∈ vs, v.1 = x} = 0 := hfin.measure_zero _
    rw [ae_iff]
    convert h0 using 2
    ext x
    simp
  rw [polygon_slices, integral_of_le zero_le_one, Measure.volume_eq_prod, Measure.prod_apply hmeas]
  have hnn : 0 ≤ᵐ[volume.restrict (Set.Ioc (0 : ℝ) 1)] sliceSum (edges vs) :=
    (ae_restrict_of_ae hae).mono fun x hx => (slice_volume h hx).1
  have hint := (sliceSum_ii (edges vs) 0 1).1
  refine ⟨integral_nonneg_of_ae hnn, ?_⟩
  rw [ofReal_integral_eq_lintegral_ofReal hint hnn, ← lintegral_indicator measurableSet_Ioc]
  have h0 : volume {(0 : ℝ)} = 0 := by simp
  apply lintegral_congr_ae
  have hae0 : ∀ᵐ x : ℝ, x ≠ 0 := by
    rw [ae_iff]; simp
  filter_upwards [hae, hae0] with x hx hx0
  by_cases hm : x ∈ Set.Ioc (0 : ℝ) 1
  · rw [Set.indicator_of_mem hm, ← (slice_volume h hx).2]
    congr 1
    ext y
    have : x ∈ Set.Icc (0 : ℝ) 1 := ⟨hm.1.le, hm.2⟩
    simp only [unitSquare, Set.mem_preimage, Set.mem_inter_iff, Set.mem_prod, this, true_and, Set.mem_ofPred_eq]
  · rw [Set.indicator_of_notMem hm]
    have : Prod.mk x ⁻¹' (hull vs ∩ unitSquare) = ∅ := by
      ext y
      simp only [unitSquare, Set.mem_preimage, Set.mem_inter_iff, Set.mem_prod, Set.mem_empty_iff_false, iff_false]
      rintro ⟨-, h1, -⟩
      exact hm ⟨lt_of_le_of_ne h1.1 (Ne.symm hx0), h1.2⟩
    rw [this]; simp

end Verif.Geometry
