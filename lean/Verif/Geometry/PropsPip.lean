import Verif.Geometry.PropsShapes

/-! Properties of the point-in-polygon test (C68). -/
namespace Verif.Geometry
open Verif.Py

set_option linter.unusedSectionVars false
variable {K : Type} [Field K] [LinearOrder K] [IsStrictOrderedRing K]

/-- The point lies on the segment [p, q]. -/
def OnSegment (p q pt : K × K) : Prop :=
  ∃ t : K, 0 ≤ t ∧ t ≤ 1 ∧ pt.1 = p.1 + t * (q.1 - p.1) ∧ pt.2 = p.2 + t * (q.2 - p.2)

/-- The point lies on an edge of the polygon. -/
def OnBoundary (vs : List (K × K)) (pt : K × K) : Prop :=
  ∃ (i : Nat) (p q : K × K), vs[i]? = some p ∧ vs[(i + 1) % vs.length]? = some q ∧ OnSegment p q pt

/-- The horizontal ray that starts at the point, rightwards and slightly upwards of the vertices, crosses the edge: one end is strictly
above the ray and the other one is not, and the edge meets the horizontal line on the right of the point. -/
def Crosses (p q pt : K × K) : Prop :=
  (p.2 ≤ pt.2 ∧ pt.2 < q.2 ∨ q.2 ≤ pt.2 ∧ pt.2 < p.2) ∧
    ∃ t x : K, pt.2 = p.2 + t * (q.2 - p.2) ∧ x = p.1 + t * (q.1 - p.1) ∧ pt.1 < x

open Classical in
/-- The number of edges crossed by the ray. -/
noncomputable def crossings (vs : List (K × K)) (pt : K × K) : Nat :=
  ((List.range vs.length).map fun i =>
    if Crosses ((vs[i]?).getD 0) ((vs[(i + 1) % vs.length]?).getD 0) pt then 1 else 0).sum

/-! ### One edge -/

/-- The edge is found to contain the point. -/
def stops (pt : K × K) (e : (K × K) × (K × K)) : Prop :=
  if decide (e.1.2 > pt.2) != decide (e.2.2 > pt.2) then
    pt.1 - e.1.1 = (e.2.1 - e.1.1) * (pt.2 - e.1.2) / (e.2.2 - e.1.2)
  else e.1.2 = e.2.2 ∧ pt.2 = e.1.2 ∧ (decide (e.1.1 > pt.1) != decide (e.2.1 > pt.1)) = true

/-- The edge changes the sign. -/
def flips (pt : K × K) (e : (K × K) × (K × K)) : Prop :=
  (decide (e.1.2 > pt.2) != decide (e.2.2 > pt.2)) = true ∧
    pt.1 - e.1.1 < (e.2.1 - e.1.1) * (pt.2 - e.1.2) / (e.2.2 - e.1.2)

instance (pt : K × K) (e) : Decidable (stops pt e) := by unfold stops; infer_instance
instance (pt : K × K) (e) : Decidable (flips pt e) := by unfold flips; infer_instance

theorem ne_dec {a b : K} {y : K} : (decide (a > y) != decide (b > y)) = true ↔ (a ≤ y ∧ y < b ∨ b ≤ y ∧ y < a) := by
  by_cases h1 : a > y <;> by_cases h2 : b > y <;> simp [h1, h2] <;> grind

theorem stops_iff {pt : K × K} {e : (K × K) × (K × K)} (h1 : e.1 ≠ pt) (h2 : e.2 ≠ pt) :
    stops pt e ↔ OnSegment e.1 e.2 pt := by
  obtain ⟨⟨xi, yi⟩, xj, yj⟩ := e
  obtain ⟨x, y⟩ := pt
  unfold stops OnSegment
  simp only at *
  split
  · rename_i hne
    rw [ne_dec] at hne
    have hd : yj - yi ≠ 0 := by
      intro h
      rcases hne with ⟨a, b⟩ | ⟨a, b⟩ <;> linarith
    constructor
    · intro h
      refine ⟨(y - yi) / (yj - yi), ?_, ?_, ?_, ?_⟩
      · rcases hne with ⟨a, b⟩ | ⟨a, b⟩
        · exact div_nonneg (by linarith) (by linarith)
        · exact div_nonneg_of_nonpos (by linarith) (by linarith)
      · rcases hne with ⟨a, b⟩ | ⟨a, b⟩
        · rw [div_le_one (by linarith)]; linarith
        · rw [div_le_one_of_neg (by linarith)]; linarith
      · have : x = xi + (xj - xi) * (y - yi) / (yj - yi) := by linarith
        rw [this]; ring
      · field_simp; ring
    · rintro ⟨t, -, -, hx, hy⟩
      have : y - yi = t * (yj - yi) := by linarith
      rw [hx, this]
      field_simp
      ring
  · rename_i hne
    rw [ne_dec] at hne
    constructor
    · rintro ⟨e1, e2, e3⟩
      rw [ne_dec] at e3
      subst e1
      subst e2
      have hd : xj - xi ≠ 0 := by
        intro h
        rcases e3 with ⟨a, b⟩ | ⟨a, b⟩ <;> linarith
      refine ⟨(x - xi) / (xj - xi), ?_, ?_, ?_, by ring⟩
      · rcases e3 with ⟨a, b⟩ | ⟨a, b⟩
        · exact div_nonneg (by linarith) (by linarith)
        · exact div_nonneg_of_nonpos (by linarith) (by linarith)
      · rcases e3 with ⟨a, b⟩ | ⟨a, b⟩
        · rw [div_le_one (by linarith)]; linarith
        · rw [div_le_one_of_neg (by linarith)]; linarith
      · field_simp; ring
    · rintro ⟨t, ht0, ht1, hx, hy⟩
      push Not at hne
      have ht0' : t ≠ 0 := by
        rintro rfl; apply h1; rw [hx, hy]; simp
      have ht1' : t ≠ 1 := by
        rintro rfl; apply h2; rw [hx, hy]; simp
      have t0 : 0 < t := lt_of_le_of_ne ht0 (Ne.symm ht0')
      have t1 : 0 < 1 - t := by have := lt_of_le_of_ne ht1 ht1'; linarith
      have hyy : yi = yj := by
        rcases lt_trichotomy yi yj with h | h | h
        · have a1 := mul_pos t0 (sub_pos.2 h)
          have a2 := mul_pos t1 (sub_pos.2 h)
          have := hne.1 (by linarith)
          linarith
        · exact h
        · have a1 := mul_pos t0 (sub_pos.2 h)
          have a2 := mul_pos t1 (sub_pos.2 h)
          have := hne.2 (by linarith)
          linarith
      subst hyy
      have e2 : y = yi := by rw [hy]; ring
      refine ⟨rfl, e2, ?_⟩
      rw [ne_dec]
      rcases lt_trichotomy xi xj with h | h | h
      · left
        have a1 := mul_pos t0 (sub_pos.2 h)
        have a2 := mul_pos t1 (sub_pos.2 h)
        constructor <;> linarith
      · exfalso; apply h1; rw [e2, hx, h]; simp
      · right
        have a1 := mul_pos t0 (sub_pos.2 h)
        have a2 := mul_pos t1 (sub_pos.2 h)
        constructor <;> linarith

theorem flips_iff {pt : K × K} {e : (K × K) × (K × K)} : flips pt e ↔ Crosses e.1 e.2 pt := by
  obtain ⟨⟨xi, yi⟩, xj, yj⟩ := e
  obtain ⟨x, y⟩ := pt
  unfold flips Crosses
  simp only
  rw [ne_dec]
  constructor
  · rintro ⟨h, h'⟩
    have hd : yj - yi ≠ 0 := by
      intro h0
      rcases h with ⟨a, b⟩ | ⟨a, b⟩ <;> linarith
    refine ⟨h, (y - yi) / (yj - yi), _, ?_, rfl, ?_⟩
    · field_simp; ring
    · have e : (xj - xi) * (y - yi) / (yj - yi) = (y - yi) / (yj - yi) * (xj - xi) := by ring
      rw [e] at h'
      linarith
  · rintro ⟨h, t, x', hy, hx, hlt⟩
    have hd : yj - yi ≠ 0 := by
      intro h0
      rcases h with ⟨a, b⟩ | ⟨a, b⟩ <;> linarith
    refine ⟨h, ?_⟩
    have : y - yi = t * (yj - yi) := by linarith
    rw [this]
    have e : (xj - xi) * (t * (yj - yi)) / (yj - yi) = t * (xj - xi) := by field_simp
    rw [e]
    linarith

theorem Crosses_symm {p q pt : K × K} : Crosses p q pt ↔ Crosses q p pt := by
  have : ∀ p q : K × K, Crosses p q pt → Crosses q p pt := by
    rintro p q ⟨h, t, x, hy, hx, hlt⟩
    exact ⟨h.symm, 1 - t, x, by rw [hy]; ring, by rw [hx]; ring, hlt⟩
  exact ⟨this p q, this q p⟩

theorem OnSegment_symm {p q pt : K × K} : OnSegment p q pt ↔ OnSegment q p pt := by
  have : ∀ p q : K × K, OnSegment p q pt → OnSegment q p pt := by
    rintro p q ⟨t, h0, h1, hx, hy⟩
    exact ⟨1 - t, by linarith, by linarith, by rw [hx]; ring, by rw [hy]; ring⟩
  exact ⟨this p q, this q p⟩

/-! ### The loop -/

theorem pipLoop_eq (pt : K × K) (es : List ((K × K) × (K × K))) (out : Int) :
    pipLoop pt es out = if ∃ e ∈ es, stops pt e then 0
      else out * (-1) ^ (es.map fun e => if flips pt e then 1 else 0).sum := by
  induction es generalizing out with
  | nil => simp [pipLoop]
  | cons e es ih =>
    obtain ⟨i, j⟩ := e
    rw [pipLoop]
    by_cases hs : stops pt (i, j)
    · have hex : ∃ e ∈ (i, j) :: es, stops pt e := ⟨_, List.mem_cons_self, hs⟩
      rw [if_pos hex (c := ∃ e ∈ (i, j) :: es, stops pt e)]
      unfold stops at hs
      simp only at hs
      by_cases hne : (decide (i.2 > pt.2) != decide (j.2 > pt.2)) = true
      · rw [if_pos hne] at hs ⊢
        rw [if_pos hs]
      · rw [if_neg hne] at hs ⊢
        rw [if_pos hs]
    · have hiff : (∃ e ∈ (i, j) :: es, stops pt e) ↔ ∃ e ∈ es, stops pt e := by
        simp [hs]
      simp only [hiff, List.map_cons, List.sum_cons]
      have hf : flips pt (i, j) ↔ (decide (i.2 > pt.2) != decide (j.2 > pt.2)) = true ∧
        pt.1 - i.1 < (j.1 - i.1) * (pt.2 - i.2) / (j.2 - i.2) := Iff.rfl
      unfold stops at hs
      simp only at hs
      by_cases hne : (decide (i.2 > pt.2) != decide (j.2 > pt.2)) = true
      · rw [if_pos hne] at hs ⊢
        rw [if_neg hs]
        by_cases hlt : pt.1 - i.1 < (j.1 - i.1) * (pt.2 - i.2) / (j.2 - i.2)
        · rw [if_pos hlt, ih, if_pos (hf.2 ⟨hne, hlt⟩)]
          congr 1
          rw [pow_add]; ring
        · rw [if_neg hlt, ih, if_neg (fun h => hlt (hf.1 h).2)]
          simp
      · rw [if_neg hne] at hs ⊢
        rw [if_neg hs, ih, if_neg (fun h => hne (hf.1 h).1)]
        simp

theorem onBoundary_iff (vs : List (K × K)) (pt : K × K) :
    OnBoundary vs pt ↔ ∃ e ∈ edges vs, OnSegment e.1 e.2 pt := by
  rcases Nat.eq_zero_or_pos vs.length with h0 | h0
  · rw [List.eq_nil_of_length_eq_zero h0]
    simp [OnBoundary, edges]
  constructor
  · rintro ⟨i, p, q, hp, hq, hs⟩
    refine ⟨(q, p), ?_, OnSegment_symm.1 hs⟩
    rw [edges_eq, List.mem_iff_getElem?]
    refine ⟨(i + 1) % vs.length, ?_⟩
    have hi : i < vs.length := (List.getElem?_eq_some_iff.1 hp).1
    rw [List.getElem?_zip_eq_some]
    refine ⟨hq, ?_⟩
    have h3 : (i + 1) % vs.length < vs.length := Nat.mod_lt _ h0
    rw [List.getElem?_rotate h3, Nat.mod_add_mod]
    have : i + 1 + (vs.length - 1) = i + vs.length := by omega
    rw [this, Nat.add_mod_right, Nat.mod_eq_of_lt hi, hp]
  · rintro ⟨⟨q, p⟩, he, hs⟩
    rw [edges_eq, List.mem_iff_getElem?] at he
    obtain ⟨i, hi⟩ := he
    rw [List.getElem?_zip_eq_some] at hi
    obtain ⟨hq, hp⟩ := hi
    have hi : i < vs.length := (List.getElem?_eq_some_iff.1 hq).1
    rw [List.getElem?_rotate hi] at hp
    refine ⟨_, p, q, hp, ?_, OnSegment_symm.1 hs⟩
    rw [Nat.mod_add_mod]
    have : i + (vs.length - 1) + 1 = i + vs.length := by omega
    rw [this, Nat.add_mod_right, Nat.mod_eq_of_lt hi, hq]

theorem crossings_eq (vs : List (K × K)) (pt : K × K) :
    crossings vs pt = ((edges vs).map fun e => if flips pt e then 1 else 0).sum := by
  classical
  have key : ∀ (f : K × K → K × K → Nat), ((edges vs).map fun e => f e.2 e.1).sum
      = ((List.range vs.length).map fun i => f ((vs[i]?).getD 0) ((vs[(i + 1) % vs.length]?).getD 0)).sum := by
    intro f
    exact sum_edges_cyc' vs f
  have := key fun p q => if Crosses p q pt then 1 else 0
  unfold crossings
  rw [← this]
  congr 2
  funext e
  simp only [flips_iff, Crosses_symm (p := e.2)]

/-- The point in the polygon, without the loop. -/
theorem pointInPolygon_eq (vs : List (K × K)) (pt : K × K) [Decidable (OnBoundary vs pt)] :
    pointInPolygon pt vs = if OnBoundary vs pt then 0 else -(-1) ^ crossings vs pt := by
  unfold pointInPolygon
  by_cases hv : pt ∈ vs
  · rw [if_pos (by simpa using hv), if_pos]
    rw [onBoundary_iff]
    have : pt ∈ (edges vs).map Prod.fst := by rw [edges_fst]; exact hv
    obtain ⟨e, he, h1⟩ := List.mem_map.1 this
    exact ⟨e, he, 0, le_refl _, zero_le_one, by rw [h1]; simp, by rw [h1]; simp⟩
  · rw [if_neg (by simpa using hv), pipLoop_eq, crossings_eq]
    have hiff : (∃ e ∈ edges vs, stops pt e) ↔ OnBoundary vs pt := by
      rw [onBoundary_iff]
      have : ∀ e ∈ edges vs, stops pt e ↔ OnSegment e.1 e.2 pt := by
        intro e he
        have := mem_edges vs e he
        exact stops_iff (fun h => hv (h ▸ this.1)) (fun h => hv (h ▸ this.2))
      constructor
      · rintro ⟨e, he, h⟩; exact ⟨e, he, (this e he).1 h⟩
      · rintro ⟨e, he, h⟩; exact ⟨e, he, (this e he).2 h⟩
    simp only [hiff]
    split <;> simp

/-! ### C68 -/

/-- C68: the result is 0 exactly for the points of the edges. -/
theorem C68_boundary (vs : List (K × K)) (pt : K × K) : pointInPolygon pt vs = 0 ↔ OnBoundary vs pt := by
  classical
  rw [pointInPolygon_eq]
  split <;> simp [*]

/-- C68: for the other points the result is 1 if the ray crosses an odd number of edges, otherwise -1. -/
theorem C68_parity (vs : List (K × K)) (pt : K × K) (h : ¬ OnBoundary vs pt) :
    pointInPolygon pt vs = if Odd (crossings vs pt) then 1 else -1 := by
  classical
  rw [pointInPolygon_eq, if_neg h]
  split
  · rename_i ho; rw [ho.neg_one_pow]; rfl
  · rename_i ho; rw [(Nat.not_odd_iff_even.1 ho).neg_one_pow]

/-- C68: the result does not depend on the starting vertex. -/
theorem C68_start (vs : List (K × K)) (pt : K × K) (k : Nat) :
    pointInPolygon pt (vs.rotate k) = pointInPolygon pt vs := by
  classical
  rw [pointInPolygon_eq, pointInPolygon_eq]
  have h1 : OnBoundary (vs.rotate k) pt ↔ OnBoundary vs pt := by
    rw [onBoundary_iff, onBoundary_iff, edges_rotate]
    simp only [List.mem_rotate]
  have h2 : crossings (vs.rotate k) pt = crossings vs pt := by
    rw [crossings_eq, crossings_eq, edges_rotate, ((List.rotate_perm _ _).map _).sum_eq]
  simp only [h1, h2]

/-- C68: the result does not depend on the orientation. -/
theorem C68_orientation (vs : List (K × K)) (pt : K × K) : pointInPolygon pt vs.reverse = pointInPolygon pt vs := by
  classical
  rw [pointInPolygon_eq, pointInPolygon_eq]
  have h1 : OnBoundary vs.reverse pt ↔ OnBoundary vs pt := by
    rw [onBoundary_iff, onBoundary_iff]
    constructor
    · rintro ⟨e, he, hs⟩
      obtain ⟨e', he', rfl⟩ := List.mem_map.1 ((edges_reverse vs).mem_iff.1 he)
      exact ⟨e', he', OnSegment_symm.1 hs⟩
    · rintro ⟨e, he, hs⟩
      exact ⟨e.swap, (edges_reverse vs).mem_iff.2 (List.mem_map.2 ⟨e, he, rfl⟩), OnSegment_symm.1 hs⟩
  have h2 : crossings vs.reverse pt = crossings vs pt := by
    rw [crossings_eq, crossings_eq, ((edges_reverse vs).map _).sum_eq, List.map_map]
    congr 2
    funext e
    have : flips pt e.swap ↔ flips pt e := by rw [flips_iff, flips_iff]; exact Crosses_symm
    simp only [Function.comp, this]
  simp only [h1, h2]

/-- A non-convex polygon: the point (2, 2) is in a notch, (1, 1) is inside, (3, 1) is on an edge. -/
example : pointInPolygon ((2 : ℚ), (2 : ℚ)) [(0, 0), (4, 0), (4, 4), (2, 1), (0, 4)] = -1 ∧
    pointInPolygon ((1 : ℚ), (1 : ℚ)) [(0, 0), (4, 0), (4, 4), (2, 1), (0, 4)] = 1 ∧
    pointInPolygon ((4 : ℚ), (3 : ℚ)) [(0, 0), (4, 0), (4, 4), (2, 1), (0, 4)] = 0 := by decide +kernel

example : OnBoundary [((0 : ℚ), (0 : ℚ)), (4, 0), (4, 4)] (3, 3) :=
  (C68_boundary _ _).1 (by decide +kernel)

end Verif.Geometry
