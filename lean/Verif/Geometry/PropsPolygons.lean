import Verif.Geometry.PropsShapes

/-! Properties of the elementary polygons (C80) and of their segmentation (C81). -/
namespace Verif.Geometry
open Verif.Py Real

/-! ### C80: rectangles, squares and regular polygons -/

theorem createRectangle_eq (size center : ℝ × ℝ) (angle : ℝ) :
    createRectangle size center angle = .ok ([((1 / 2 : ℝ), (1 / 2 : ℝ)), (-1 / 2, 1 / 2), (-1 / 2, -1 / 2), (1 / 2, -1 / 2)].map
      fun c => rotSpec angle (c.1 * size.1, c.2 * size.2) + center) := by
  unfold createRectangle
  by_cases h : angle = 0
  · subst h
    simp only [ne_eq, not_true_eq_false, if_false, Except.map, List.map_map, rotSpec_zero]
    rfl
  · simp only [ne_eq, h, not_false_eq_true, if_true]
    rw [C46_rotate_partial .double (by decide)]
    simp only [Except.map, List.map_map]
    rfl

/-- C80: the corners of a rectangle are at the requested distances, its sides are orthogonal (the diagonals are equal), its first side is
the rotated X axis, its centre is the requested one and its surface is the product of the sizes (corners in counter-clockwise order for
positive sizes). -/
theorem C80_rectangle (size center : ℝ × ℝ) (angle : ℝ) :
    ∃ c1 c2 c3 c4 : ℝ × ℝ, createRectangle size center angle = .ok [c1, c2, c3, c4] ∧
      c1 - c2 = (size.1 * cos (angle * π / 180), size.1 * sin (angle * π / 180)) ∧
      dist2 c1 c2 = size.1 ^ 2 ∧ dist2 c2 c3 = size.2 ^ 2 ∧ dist2 c3 c4 = size.1 ^ 2 ∧ dist2 c4 c1 = size.2 ^ 2 ∧
      dist2 c1 c3 = size.1 ^ 2 + size.2 ^ 2 ∧ dist2 c2 c4 = size.1 ^ 2 + size.2 ^ 2 ∧
      ((c1.1 + c2.1 + c3.1 + c4.1) / 4, (c1.2 + c2.2 + c3.2 + c4.2) / 4) = center ∧
      surface [c1, c2, c3, c4] = size.1 * size.2 := by
  rw [createRectangle_eq]
  refine ⟨_, _, _, _, rfl, ?_⟩
  have hc := cs1 (angle * π / 180)
  simp only [dist2, surface, edges, loopPairs, List.getLast?_cons_cons, List.getLast?_singleton, List.foldl_cons, List.foldl_nil,
    rotSpec, Prod.fst_add, Prod.snd_add]
  generalize cos (angle * π / 180) = c at *
  generalize sin (angle * π / 180) = s at *
  refine ⟨?_, ?_, ?_, ?_, ?_, ?_, ?_, ?_, ?_⟩
  · ext <;> simp only [Prod.fst_sub, Prod.snd_sub, Prod.fst_add, Prod.snd_add] <;> ring
  · linear_combination size.1 ^ 2 * hc
  · linear_combination size.2 ^ 2 * hc
  · linear_combination size.1 ^ 2 * hc
  · linear_combination size.2 ^ 2 * hc
  · linear_combination (size.1 ^ 2 + size.2 ^ 2) * hc
  · linear_combination (size.1 ^ 2 + size.2 ^ 2) * hc
  · ext <;> simp only <;> ring
  · linear_combination size.1 * size.2 * hc

/-- C80: a square is a rectangle with equal sizes. -/
theorem C80_square (size : ℝ) (center : ℝ × ℝ) (angle : ℝ) :
    createSquare size center angle = createRectangle (size, size) center angle := rfl

example : createRectangle (2, 4) (1, 1) 90 = .ok [(-1, 2), (-1, 0), (3, 0), (3, 2)] := by
  have h : (90 : ℝ) * π / 180 = π / 2 := by ring
  rw [createRectangle_eq]
  simp [rotSpec, h]
  norm_num

/-- C80: the vertices of a regular polygon are on the circle of the requested centre and radius, the first one in the requested
direction; each is obtained from the previous one, and the first one from the last one, by a rotation of 360 / n degrees around the
centre. -/
theorem C80_regular (n : Nat) (hn : 0 < n) (radius : ℝ) (center : ℝ × ℝ) (angle : ℝ) :
    (createRegularPolygon n radius center angle).length = n ∧
    (createRegularPolygon n radius center angle)[0]?
      = some (center.1 + radius * cos (angle * π / 180), center.2 + radius * sin (angle * π / 180)) ∧
    (∀ v ∈ createRegularPolygon n radius center angle, dist2 v center = radius ^ 2) ∧
    ∀ (i : Nat) (p q : ℝ × ℝ), (createRegularPolygon n radius center angle)[i]? = some p →
      (createRegularPolygon n radius center angle)[(i + 1) % n]? = some q → q - center = rotSpec (360 / n) (p - center) := by
  have hn0 : (n : ℝ) ≠ 0 := by exact_mod_cast hn.ne'
  unfold createRegularPolygon
  refine ⟨by simp, ?_, ?_, ?_⟩
  · rw [List.getElem?_map, List.getElem?_range hn]
    have : 2 * π / n * ((0 : ℕ) : ℝ) + π / 180 * angle = angle * π / 180 := by push_cast; ring
    simp only [Option.map_some, this]
    congr 2 <;> ring
  · intro v hv
    obtain ⟨k, -, rfl⟩ := List.mem_map.1 hv
    simp only [dist2]
    have := cs1 (2 * π / n * (k : ℝ) + π / 180 * angle)
    linear_combination radius ^ 2 * this
  · intro i p q hp hq
    rw [List.getElem?_map, Option.map_eq_some_iff] at hp hq
    obtain ⟨k, hk, rfl⟩ := hp
    obtain ⟨k', hk', rfl⟩ := hq
    have hi : i < n := by
      have := (List.getElem?_eq_some_iff.1 hk).1
      simpa using this
    rw [List.getElem?_range hi, Option.some.injEq] at hk
    rw [List.getElem?_range (Nat.mod_lt _ hn), Option.some.injEq] at hk'
    subst hk; subst hk'
    have e : (360 / n : ℝ) * π / 180 = 2 * π / n := by field_simp; norm_num
    have key : cos (2 * π / n * (((i + 1) % n : ℕ) : ℝ) + π / 180 * angle) = cos (2 * π / n * (i : ℝ) + π / 180 * angle + 2 * π / n) ∧
        sin (2 * π / n * (((i + 1) % n : ℕ) : ℝ) + π / 180 * angle) = sin (2 * π / n * (i : ℝ) + π / 180 * angle + 2 * π / n) := by
      rcases Nat.lt_or_ge (i + 1) n with h | h
      · rw [Nat.mod_eq_of_lt h]
        have : 2 * π / n * (((i + 1 : ℕ)) : ℝ) + π / 180 * angle = 2 * π / n * (i : ℝ) + π / 180 * angle + 2 * π / n := by
          push_cast; ring
        rw [this]
        exact ⟨rfl, rfl⟩
      · have hin : i + 1 = n := by omega
        rw [hin, Nat.mod_self]
        have h1 : (i : ℝ) = n - 1 := by rw [← hin]; push_cast; ring
        have : 2 * π / n * (i : ℝ) + π / 180 * angle + 2 * π / n = 2 * π / n * ((0 : ℕ) : ℝ) + π / 180 * angle + 2 * π := by
          rw [h1]; push_cast; field_simp; ring
        rw [this, cos_add_two_pi, sin_add_two_pi]
        exact ⟨rfl, rfl⟩
    simp only [rotSpec, e, key.1, key.2]
    rw [cos_add (2 * π / n * (i : ℝ) + π / 180 * angle), sin_add (2 * π / n * (i : ℝ) + π / 180 * angle)]
    ext <;> simp only [Prod.fst_sub, Prod.snd_sub] <;> ring

/-- C80: the surface of a regular polygon (its vertices turn counter-clockwise). -/
theorem C80_regular_surface (n : Nat) (hn : 0 < n) (radius : ℝ) (center : ℝ × ℝ) (angle : ℝ) :
    surface (createRegularPolygon n radius center angle) = n / 2 * radius ^ 2 * sin (2 * π / n) := by
  obtain ⟨h1, -, h3, h4⟩ := C80_regular n hn radius (0, 0) angle
  have htr : createRegularPolygon n radius center angle = (createRegularPolygon n radius (0, 0) angle).map fun v => v + center := by
    unfold createRegularPolygon
    rw [List.map_map]
    congr 1
    funext k
    simp only [Function.comp]
    ext <;> simp
  rw [htr, C45_translate, C45_shoelace, h1]
  have hn0 : (n : ℝ) ≠ 0 := by exact_mod_cast hn.ne'
  have e : (360 / n : ℝ) * π / 180 = 2 * π / n := by field_simp; norm_num
  have hterm : ((List.range n).map fun i =>
      let p := ((createRegularPolygon n radius (0, 0) angle)[i]?).getD 0
      let q := ((createRegularPolygon n radius (0, 0) angle)[(i + 1) % n]?).getD 0
      p.1 * q.2 - p.2 * q.1) = (List.range n).map fun _ => radius ^ 2 * sin (2 * π / n) := by
    apply List.map_congr_left
    intro i hi
    have hi := List.mem_range.1 hi
    have hi' : (i + 1) % n < n := Nat.mod_lt _ hn
    have a1 : (createRegularPolygon n radius (0, 0) angle)[i]? = some ((createRegularPolygon n radius (0, 0) angle)[i]'(by omega)) :=
      List.getElem?_eq_getElem _
    have a2 : (createRegularPolygon n radius (0, 0) angle)[(i + 1) % n]?
        = some ((createRegularPolygon n radius (0, 0) angle)[(i + 1) % n]'(by omega)) := List.getElem?_eq_getElem _
    have h4' := h4 i _ _ a1 a2
    have h3' := h3 _ (List.getElem_mem (l := createRegularPolygon n radius (0, 0) angle) (n := i) (by omega))
    rw [a1, a2]
    simp only [Option.getD_some]
    generalize (createRegularPolygon n radius (0, 0) angle)[i]'(by omega) = p at *
    generalize (createRegularPolygon n radius (0, 0) angle)[(i + 1) % n]'(by omega) = q at *
    have hq : q = rotSpec (360 / n) p := by simpa [Prod.mk_zero_zero] using h4'
    rw [hq]
    simp only [rotSpec, e, dist2] at h3' ⊢
    linear_combination sin (2 * π / n) * h3'
  rw [hterm]
  simp
  ring

example : createRegularPolygon 4 2 (1, 1) 0 = [(3, 1), (1, 3), (-1, 1), (1, -1)] := by
  have h1 : 2 * π / 4 = π / 2 := by ring
  have h2 : π / 2 * 2 = π := by ring
  have h3 : π / 2 * 3 = π + π / 2 := by ring
  have h3' : cos (π + π / 2) = 0 ∧ sin (π + π / 2) = -1 := by simp [cos_add, sin_add]
  simp [createRegularPolygon, List.range, List.range.loop, h1, h2, h3, h3']
  norm_num

/-! ### C81: segmentation of a polygon -/

/-- Consecutive elements. -/
def consec {α : Type} : List α → List (α × α)
  | a :: b :: l => (a, b) :: consec (b :: l)
  | _ => []

theorem consec_append {α : Type} (l : List α) (b : α) (r : List α) : consec (l ++ b :: r) = consec (l ++ [b]) ++ consec (b :: r) := by
  induction l with
  | nil => simp [consec]
  | cons a t ih =>
    cases t with
    | nil => simp [consec]
    | cons c u =>
      simp only [List.cons_append] at ih ⊢
      rw [consec, consec, ih, List.cons_append]

theorem consec_zip {α : Type} (a w : α) (t : List α) : consec (a :: t ++ [w]) = (a :: t).zip (t ++ [w]) := by
  induction t generalizing a with
  | nil => simp [consec]
  | cons b u ih =>
    simp only [List.cons_append] at ih ⊢
    rw [consec, ih]
    simp

/-- The sides of a polygon, from the first vertex. -/
def sides {α : Type} : List α → List (α × α)
  | [] => []
  | v :: t => consec (v :: t ++ [v])

theorem sides_index {α : Type} (l : List α) (i : Nat) (p q : α) (hp : l[i]? = some p) (hq : l[(i + 1) % l.length]? = some q) :
    (p, q) ∈ sides l := by
  cases l with
  | nil => simp at hp
  | cons v t =>
    unfold sides
    simp only
    rw [consec_zip]
    have hi := (List.getElem?_eq_some_iff.1 hp).1
    apply List.mem_of_getElem? (i := i)
    rw [List.getElem?_zip_eq_some]
    refine ⟨hp, ?_⟩
    simp only [List.length_cons] at hi hq
    rcases Nat.lt_or_ge (i + 1) (t.length + 1) with h | h
    · rw [Nat.mod_eq_of_lt h, List.getElem?_cons_succ] at hq
      rw [List.getElem?_append_left (by omega)]
      exact hq
    · have : i = t.length := by omega
      subst this
      rw [Nat.mod_self] at hq
      simpa using hq

theorem sum_sides {K : Type} [Field K] [LinearOrder K] (vs : List (K × K)) (f : K × K → K × K → K) :
    ((List.range vs.length).map fun i => f ((vs[i]?).getD 0) ((vs[(i + 1) % vs.length]?).getD 0)).sum
      = ((sides vs).map fun e => f e.1 e.2).sum := by
  cases vs with
  | nil => rfl
  | cons v t =>
    unfold sides
    simp only
    rw [consec_zip]
    congr 1
    apply List.ext_getElem
    · simp
    intro i h1 h2
    simp only [List.length_map, List.length_range, List.length_cons] at h1
    simp only [List.getElem_map, List.getElem_range, List.getElem_zip, List.length_cons]
    rw [List.getElem?_eq_getElem (by simpa using h1)]
    simp only [Option.getD_some]
    congr 1
    rcases Nat.lt_or_ge (i + 1) (t.length + 1) with h | h
    · rw [Nat.mod_eq_of_lt h, List.getElem?_cons_succ, List.getElem_append_left (by omega), List.getElem?_eq_getElem (by omega)]
      rfl
    · have : i = t.length := by omega
      subst this
      simp

/-- The point at the fraction `a` of a side. -/
noncomputable def along (v0 v1 : ℝ × ℝ) (a : ℝ) : ℝ × ℝ := ((1 - a) * v0.1 + a * v1.1, (1 - a) * v0.2 + a * v1.2)

/-- The number of points of a side. -/
noncomputable def npoints (maxd : ℝ) (v0 v1 : ℝ × ℝ) : Nat := ⌈√((v1.1 - v0.1) ^ 2 + (v1.2 - v0.2) ^ 2) / maxd⌉.toNat

theorem segmentEdge_eq (maxd : ℝ) (v0 v1 : ℝ × ℝ) :
    segmentEdge maxd v0 v1 = (List.range (npoints maxd v0 v1)).map fun k : ℕ => along v0 v1 (k / npoints maxd v0 v1) := rfl

theorem npoints_zero {maxd : ℝ} (hm : 0 < maxd) {v0 v1 : ℝ × ℝ} : npoints maxd v0 v1 = 0 ↔ v0 = v1 := by
  unfold npoints
  rw [Int.toNat_eq_zero, Int.ceil_le, Int.cast_zero]
  constructor
  · intro h
    have h1 : √((v1.1 - v0.1) ^ 2 + (v1.2 - v0.2) ^ 2) ≤ 0 := by
      by_contra hc
      push Not at hc
      exact absurd h (not_le.2 (div_pos hc hm))
    rw [Real.sqrt_eq_zero'.2 (by
      by_contra hc
      push Not at hc
      exact absurd h1 (not_le.2 (Real.sqrt_pos.2 hc)))] at h1
    have h2 : (v1.1 - v0.1) ^ 2 + (v1.2 - v0.2) ^ 2 ≤ 0 := by
      by_contra hc
      push Not at hc
      have := div_pos (Real.sqrt_pos.2 hc) hm
      linarith
    have h3 : v1.1 - v0.1 = 0 := by nlinarith [sq_nonneg (v1.1 - v0.1), sq_nonneg (v1.2 - v0.2)]
    have h4 : v1.2 - v0.2 = 0 := by nlinarith [sq_nonneg (v1.1 - v0.1), sq_nonneg (v1.2 - v0.2)]
    exact Prod.ext (by linarith) (by linarith)
  · rintro rfl
    simp

theorem consec_map_range {α : Type} (f : Nat → α) (n : Nat) :
    consec ((List.range n).map f ++ [f n]) = (List.range n).map fun k => (f k, f (k + 1)) := by
  induction n with
  | zero => simp [consec]
  | succ n ih =>
    rw [List.range_succ, List.map_append, List.map_singleton, List.append_assoc, List.singleton_append, consec_append, ih,
      List.map_append]
    simp [consec]

theorem consec_edge {maxd : ℝ} (hm : 0 < maxd) (v0 v1 : ℝ × ℝ) : consec (segmentEdge maxd v0 v1 ++ [v1])
    = (List.range (npoints maxd v0 v1)).map fun k : ℕ =>
      (along v0 v1 (k / npoints maxd v0 v1), along v0 v1 ((k + 1 : ℕ) / npoints maxd v0 v1)) := by
  rw [segmentEdge_eq]
  by_cases h : npoints maxd v0 v1 = 0
  · rw [h]; simp [consec]
  · have h' : (npoints maxd v0 v1 : ℝ) ≠ 0 := by exact_mod_cast h
    have e : v1 = along v0 v1 ((npoints maxd v0 v1 : ℝ) / npoints maxd v0 v1) := by
      rw [div_self h']; unfold along; ext <;> simp
    have := consec_map_range (fun k : ℕ => along v0 v1 (k / npoints maxd v0 v1)) (npoints maxd v0 v1)
    rw [← e] at this
    exact this

/-- The sides of the segmented polygon, side by side. -/
theorem consec_chunks {maxd : ℝ} (hm : 0 < maxd) (v w : ℝ × ℝ) (t : List (ℝ × ℝ)) :
    ∃ r, (List.zipWith (segmentEdge maxd) (v :: t) (t ++ [w])).flatten ++ [w] = v :: r ∧
      consec ((List.zipWith (segmentEdge maxd) (v :: t) (t ++ [w])).flatten ++ [w])
        = (consec (v :: t ++ [w])).flatMap fun e => consec (segmentEdge maxd e.1 e.2 ++ [e.2]) := by
  have first : ∀ (a b : ℝ × ℝ) (r : List (ℝ × ℝ)), ∃ r', segmentEdge maxd a b ++ b :: r = a :: r' := by
    intro a b r
    rw [segmentEdge_eq]
    by_cases h : npoints maxd a b = 0
    · have := (npoints_zero hm).1 h
      subst this
      rw [h]
      exact ⟨r, by simp⟩
    · obtain ⟨m, hm⟩ := Nat.exists_eq_succ_of_ne_zero h
      rw [hm, List.range_succ_eq_map]
      refine ⟨_, by
        simp only [List.map_cons, List.cons_append, List.cons.injEq]
        exact ⟨by unfold along; ext <;> simp, rfl⟩⟩
  induction t generalizing v with
  | nil =>
    simp only [List.nil_append, List.zipWith_cons_cons, List.zipWith_nil_left, List.flatten_cons, List.flatten_nil, List.append_nil]
    obtain ⟨r, hr⟩ := first v w []
    refine ⟨r, hr, ?_⟩
    simp [consec]
  | cons b u ih =>
    obtain ⟨r, h1, h2⟩ := ih b
    simp only [List.cons_append, List.zipWith_cons_cons, List.flatten_cons, List.append_assoc] at h1 h2 ⊢
    rw [h1] at h2 ⊢
    obtain ⟨r', hr'⟩ := first v b r
    refine ⟨r', hr', ?_⟩
    rw [consec_append, h2, consec, List.flatMap_cons]

theorem sides_segment {maxd : ℝ} (hm : 0 < maxd) (vs : List (ℝ × ℝ)) :
    sides (segmentPolygon maxd vs) = (sides vs).flatMap fun e => consec (segmentEdge maxd e.1 e.2 ++ [e.2]) := by
  cases vs with
  | nil => rfl
  | cons v t =>
    obtain ⟨r, h1, h2⟩ := consec_chunks hm v v t
    unfold segmentPolygon
    simp only
    rw [sides, ← h2]
    generalize (List.zipWith (segmentEdge maxd) (v :: t) (t ++ [v])).flatten = l at *
    cases l with
    | nil => simp [sides, consec]
    | cons a s =>
      simp only [List.cons_append, List.cons.injEq] at h1
      unfold sides
      rw [h1.1]

/-- C81: the consecutive points of the segmented polygon (and the last and first ones) are not farther than the requested distance. -/
theorem C81_distance (maxd : ℝ) (hm : 0 < maxd) (vs : List (ℝ × ℝ)) (i : Nat) (p q : ℝ × ℝ)
    (hp : (segmentPolygon maxd vs)[i]? = some p)
    (hq : (segmentPolygon maxd vs)[(i + 1) % (segmentPolygon maxd vs).length]? = some q) : dist2 p q ≤ maxd ^ 2 := by
  have h := sides_index _ i p q hp hq
  rw [sides_segment hm, List.mem_flatMap] at h
  obtain ⟨⟨v0, v1⟩, -, h⟩ := h
  rw [consec_edge hm, List.mem_map] at h
  obtain ⟨k, hk, h⟩ := h
  have hk := List.mem_range.1 hk
  simp only at hk h
  have hn : (0 : ℝ) < npoints maxd v0 v1 := by exact_mod_cast (by omega : 0 < npoints maxd v0 v1)
  obtain ⟨rfl, rfl⟩ := Prod.mk.inj h
  have hd : √((v1.1 - v0.1) ^ 2 + (v1.2 - v0.2) ^ 2) ≤ maxd * npoints maxd v0 v1 := by
    have h1 : √((v1.1 - v0.1) ^ 2 + (v1.2 - v0.2) ^ 2) / maxd ≤ npoints maxd v0 v1 := by
      have h2 := Int.le_ceil (√((v1.1 - v0.1) ^ 2 + (v1.2 - v0.2) ^ 2) / maxd)
      refine le_trans h2 ?_
      have h3 := Int.self_le_toNat ⌈√((v1.1 - v0.1) ^ 2 + (v1.2 - v0.2) ^ 2) / maxd⌉
      unfold npoints
      exact_mod_cast h3
    rw [div_le_iff₀ hm] at h1
    linarith
  have hd2 : (v1.1 - v0.1) ^ 2 + (v1.2 - v0.2) ^ 2 ≤ (maxd * npoints maxd v0 v1) ^ 2 := by
    rw [← Real.sqrt_le_left (by positivity)]
    exact hd
  have e : dist2 (along v0 v1 (k / npoints maxd v0 v1)) (along v0 v1 ((k + 1 : ℕ) / npoints maxd v0 v1))
      = ((v1.1 - v0.1) ^ 2 + (v1.2 - v0.2) ^ 2) / (npoints maxd v0 v1) ^ 2 := by
    unfold dist2 along
    push_cast
    field_simp
    ring
  rw [e, div_le_iff₀ (by positivity), ← mul_pow]
  exact hd2

/-- C81: the surface is unchanged. -/
theorem C81_surface (maxd : ℝ) (hm : 0 < maxd) (vs : List (ℝ × ℝ)) : surface (segmentPolygon maxd vs) = surface vs := by
  rw [C45_shoelace, C45_shoelace, sum_sides _ fun p q => p.1 * q.2 - p.2 * q.1, sum_sides _ fun p q => p.1 * q.2 - p.2 * q.1,
    sides_segment hm]
  congr 1
  generalize sides vs = l
  induction l with
  | nil => rfl
  | cons e t ih =>
    rw [List.flatMap_cons, List.map_append, List.sum_append, ih, List.map_cons, List.sum_cons]
    congr 1
    rw [consec_edge hm, List.map_map]
    have : ((fun e : (ℝ × ℝ) × (ℝ × ℝ) => e.1.1 * e.2.2 - e.1.2 * e.2.1) ∘ fun k : ℕ =>
        (along e.1 e.2 (k / npoints maxd e.1 e.2), along e.1 e.2 ((k + 1 : ℕ) / npoints maxd e.1 e.2)))
        = fun _ : ℕ => 1 / (npoints maxd e.1 e.2 : ℝ) * (e.1.1 * e.2.2 - e.1.2 * e.2.1) := by
      funext k
      simp only [Function.comp, along]
      push_cast
      by_cases h : (npoints maxd e.1 e.2 : ℝ) = 0
      · rw [h]; simp; ring
      · field_simp; ring
    rw [this]
    by_cases h : npoints maxd e.1 e.2 = 0
    · rw [h, (npoints_zero hm).1 h]; simp; ring
    · have h' : (npoints maxd e.1 e.2 : ℝ) ≠ 0 := by exact_mod_cast h
      simp
      field_simp

/-- C81: the points are on the sides of the polygon, and the vertices of the sides of positive length are kept. -/
theorem C81_points (maxd : ℝ) (hm : 0 < maxd) (vs : List (ℝ × ℝ)) :
    (∀ w ∈ segmentPolygon maxd vs, ∃ (i : Nat) (p q : ℝ × ℝ) (a : ℝ), vs[i]? = some p ∧ vs[(i + 1) % vs.length]? = some q ∧
      0 ≤ a ∧ a < 1 ∧ w = ((1 - a) * p.1 + a * q.1, (1 - a) * p.2 + a * q.2)) ∧
    ∀ (i : Nat) (p q : ℝ × ℝ), vs[i]? = some p → vs[(i + 1) % vs.length]? = some q → p ≠ q → p ∈ segmentPolygon maxd vs := by
  cases vs with
  | nil => simp [segmentPolygon]
  | cons v t =>
    have idx : ∀ (i : Nat) (q : ℝ × ℝ), i < t.length + 1 → ((v :: t)[(i + 1) % (v :: t).length]? = some q ↔ (t ++ [v])[i]? = some q) := by
      intro i q hi
      simp only [List.length_cons]
      rcases Nat.lt_or_ge (i + 1) (t.length + 1) with h | h
      · rw [Nat.mod_eq_of_lt h, List.getElem?_cons_succ, List.getElem?_append_left (by omega)]
      · have : i = t.length := by omega
        subst this
        simp
    constructor
    · intro w hw
      unfold segmentPolygon at hw
      rw [List.mem_flatten] at hw
      obtain ⟨c, hc, hw⟩ := hw
      obtain ⟨i, hi⟩ := List.mem_iff_getElem?.1 hc
      rw [List.getElem?_zipWith_eq_some] at hi
      obtain ⟨p, q, hp, hq, rfl⟩ := hi
      rw [segmentEdge_eq] at hw
      obtain ⟨k, hk, rfl⟩ := List.mem_map.1 hw
      have hk := List.mem_range.1 hk
      have hn : (0 : ℝ) < npoints maxd p q := by exact_mod_cast (by omega : 0 < npoints maxd p q)
      refine ⟨i, p, q, _, hp, (idx i q ?_).2 hq, by positivity, ?_, rfl⟩
      · have := (List.getElem?_eq_some_iff.1 hp).1
        simpa using this
      · rw [div_lt_one hn]
        exact_mod_cast hk
    · intro i p q hp hq hne
      have hi : i < t.length + 1 := by
        have := (List.getElem?_eq_some_iff.1 hp).1
        simpa using this
      rw [idx i q hi] at hq
      unfold segmentPolygon
      rw [List.mem_flatten]
      refine ⟨segmentEdge maxd p q, List.mem_of_getElem? (i := i) ?_, ?_⟩
      · rw [List.getElem?_zipWith_eq_some]
        exact ⟨p, q, hp, hq, rfl⟩
      · rw [segmentEdge_eq, List.mem_map]
        refine ⟨0, List.mem_range.2 (Nat.pos_of_ne_zero fun h => hne ((npoints_zero hm).1 h)), ?_⟩
        unfold along
        ext <;> simp

example : segmentPolygon 1 [(0, 0), (2, 0), (2, 1)] ≠ [(0, 0), (2, 0), (2, 1)] ∧ (1, 0) ∈ segmentPolygon 1 [(0, 0), (2, 0), (2, 1)] := by
  have h : ((1 : ℝ), (0 : ℝ)) ∈ segmentPolygon 1 [(0, 0), (2, 0), (2, 1)] := by
    unfold segmentPolygon
    rw [List.mem_flatten]
    refine ⟨segmentEdge 1 (0, 0) (2, 0), by simp, ?_⟩
    have : npoints 1 (0, 0) (2, 0) = 2 := by
      unfold npoints
      have : √(((2 : ℝ) - 0) ^ 2 + (0 - 0) ^ 2) / 1 = ((2 : ℤ) : ℝ) := by
        rw [show ((2 : ℝ) - 0) ^ 2 + (0 - 0) ^ 2 = 2 ^ 2 by norm_num, Real.sqrt_sq (by norm_num)]; norm_num
      simp only [this, Int.ceil_intCast]
      rfl
    rw [segmentEdge_eq, this, List.mem_map]
    refine ⟨1, by simp, ?_⟩
    unfold along
    norm_num
  refine ⟨fun hc => ?_, h⟩
  rw [hc] at h
  simp at h

end Verif.Geometry
