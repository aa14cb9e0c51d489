import Verif.Wcs.PropsPlane
import Verif.Geometry.PropsIntegration

set_option linter.unusedSimpArgs false

/-!
Pointing matrices of detectors projected on a map (C94): src/flib/module_pointingmatrix.f90 601-702 and src/flib/wcsutils.f90 268-387.
-/
namespace Verif.Wcs
open Verif.Py Verif.Geometry

/-! ### Model -/

/-- The Fortran intrinsic `nint`: half integers are rounded away from zero. -/
noncomputable def nint (x : ℝ) : Int := if 0 ≤ x then ⌊x + 1 / 2⌋ else ⌈x - 1 / 2⌉

open Classical in
/-- module_math_old.f90 535-545 `nint_up`. -/
noncomputable def nintUp (x : ℝ) : Int := if x < 0 ∧ |x - nint x| = 1 / 2 then nint x + 1 else nint x

open Classical in
/-- module_math_old.f90 519-529 `nint_down`. -/
noncomputable def nintDown (x : ℝ) : Int := if x > 0 ∧ |x - nint x| = 1 / 2 then nint x - 1 else nint x

/-- module_pointingmatrix.f90 601-615 `xy2roi` for one polygon: (xmin, xmax, ymin, ymax). -/
noncomputable def xy2roi (vs : List (ℝ × ℝ)) : Int × Int × Int × Int :=
  (nintUp (minval (vs.map Prod.fst)), nintDown (maxval (vs.map Prod.fst)), nintUp (minval (vs.map Prod.snd)),
   nintDown (maxval (vs.map Prod.snd)))

/-- module_pointingmatrix.f90 621-646 `xy2pmatrix` for one detector: the element (index, value) and the new value of `out`. -/
noncomputable def xy2pmatrix (x y : ℝ) (nx ny : Nat) (out : Bool) : (Int × ℝ) × Bool :=
  let ix := nintUp x
  let iy := nintUp y
  if ix < 0 ∨ ix > (nx : Int) - 1 ∨ iy < 0 ∨ iy > (ny : Int) - 1 then ((-1, 0), true)
  else ((ix + iy * nx, 1), out)

/-- module_pointingmatrix.f90 678-689: one pixel; the state is `npixels` (from one) and the row.  (The values are exact, whereas the code
rounds them to single precision before the comparison with zero.) -/
noncomputable def roiStep (vs : List (ℝ × ℝ)) (nx nps : Nat) (s : Nat × List (Int × ℝ)) (p : Int × Int) : Nat × List (Int × ℝ) :=
  let val := polygonUnitySquare (vs.map fun v => (v.1 - ((p.1 : ℝ) - 1 / 2), v.2 - ((p.2 : ℝ) - 1 / 2)))
  if val = 0 then s
  else (s.1 + 1, if s.1 ≤ nps then s.2.set (s.1 - 1) (p.1 + p.2 * nx, |val|) else s.2)

/-- module_pointingmatrix.f90 652-702 `roi2pmatrix_cartesian` for one polygon: the row, `npixels - 1` and the new value of `out`. -/
noncomputable def roiRow (vs : List (ℝ × ℝ)) (nx ny nps : Nat) (row0 : List (Int × ℝ)) (out : Bool) : List (Int × ℝ) × Nat × Bool :=
  let roi := xy2roi vs
  let out := if roi.2.2.1 < 0 ∨ roi.2.2.2 > (ny : Int) - 1 ∨ roi.1 < 0 ∨ roi.2.1 > (nx : Int) - 1 then true else out
  let pixels := (doLoop (max roi.2.2.1 0) (min roi.2.2.2 (ny - 1))).flatMap fun iy =>
    (doLoop (max roi.1 0) (min roi.2.1 (nx - 1))).map fun ix => (ix, iy)
  let s := pixels.foldl (roiStep vs nx nps) (1, row0)
  (s.2.mapIdx fun k e => if k + 1 ≥ s.1 then (-1, 0) else e, s.1 - 1, out)

/-- A pointing: direction, position angle and flag. -/
structure Pointing where
  ra : ℝ
  dec : ℝ
  pa : ℝ
  masked : Bool

/-- wcsutils.f90 289-309: the element of one sample and one detector in `object2pmatrix_nearest_neighbour`; the value of line 309 is
assigned to the missing elements also. -/
noncomputable def nearestElement (a : Astrometry) (nx ny : Nat) (area : ℝ) (q : Pointing) (c : ℝ × ℝ) (out : Bool) : (Int × ℝ) × Bool :=
  if q.masked then ((-1, 0), out)
  else
    let d := object2ad c.1 c.2 q.ra q.dec q.pa
    let (x, y, s) := ad2xys a d.1 d.2
    let (e, out) := xy2pmatrix x y nx ny out
    ((e.1, s * area), out)

/-- wcsutils.f90 268-317 `object2pmatrix_nearest_neighbour`: the matrix by sample then detector, and `out`, for an area per detector. -/
noncomputable def nearestNeighbour (a : Astrometry) (nx ny : Nat) (coords : List ((ℝ × ℝ) × ℝ)) (pointings : List Pointing) :
    List (List (Int × ℝ)) × Bool :=
  (pointings.map fun q => coords.map fun c => (nearestElement a nx ny c.2 q c.1 false).1,
   pointings.any fun q => coords.any fun c => (nearestElement a nx ny c.2 q c.1 false).2)

/-- wcsutils.f90 367-369: the vertices of a detector in the map. -/
noncomputable def projectPolygon (a : Astrometry) (q : Pointing) (poly : List (ℝ × ℝ)) : List (ℝ × ℝ) :=
  poly.map fun c => let d := object2ad c.1 c.2 q.ra q.dec q.pa; ad2xy a d.1 d.2

/-- wcsutils.f90 359-372: the row of one sample and one detector in `object2pmatrix_sharp_edges`, its number of pixels and `out`. -/
noncomputable def sharpRow (a : Astrometry) (nx ny nps : Nat) (q : Pointing) (poly : List (ℝ × ℝ)) (row0 : List (Int × ℝ)) (out : Bool) :
    List (Int × ℝ) × Nat × Bool :=
  if q.masked then (row0.map fun _ => (-1, 0), 0, out) else roiRow (projectPolygon a q poly) nx ny nps row0 out

/-- The variable `new_npixels_per_sample` shared by the threads (it is not in the list of the reductions, wcsutils.f90 356-357): each thread
executes `new = max(new, n)` for the rows it is given, as a read and a write. -/
structure MaxThread where
  todo : List Nat
  register : Option Nat := none

/-- One step of a thread. -/
def MaxThread.step (shared : Nat) (t : MaxThread) : Nat × MaxThread :=
  match t.todo, t.register with
  | [], _ => (shared, t)
  | n :: _, none => (shared, { t with register := some n |>.map fun _ => shared })
  | n :: ns, some r => (max r n, { todo := ns, register := none })

/-- An execution: the threads that make the successive steps. -/
def runMax : List Nat → Nat × List MaxThread → Nat × List MaxThread
  | [], s => s
  | k :: ks, s =>
    match s.2[k]? with
    | none => runMax ks s
    | some t => runMax ks ((t.step s.1).1, s.2.set k (t.step s.1).2)

/-! ### Lemmas -/

theorem nintUp_eq (x : ℝ) : nintUp x = roundHtpi x := by
  unfold nintUp roundHtpi nint
  by_cases h0 : 0 ≤ x
  · simp [h0]
  · have hx : x < 0 := not_le.1 h0
    rw [if_neg h0]
    have h1 := Int.le_ceil (x - 1 / 2)
    have h2 := Int.ceil_lt_add_one (x - 1 / 2)
    split
    · rename_i h
      have h3 : x - ⌈x - 1 / 2⌉ = 1 / 2 := by
        rcases (abs_eq (by norm_num : (0 : ℝ) ≤ 1 / 2)).1 h.2 with h | h
        · exact h
        · linarith
      symm
      rw [Int.floor_eq_iff]
      push_cast
      constructor <;> linarith
    · rename_i h
      have h3 : x - ⌈x - 1 / 2⌉ ≠ 1 / 2 := fun h' => h ⟨hx, by rw [h']; norm_num⟩
      have h4 : x - ⌈x - 1 / 2⌉ < 1 / 2 := lt_of_le_of_ne (by linarith) h3
      symm
      rw [Int.floor_eq_iff]
      constructor <;> linarith

theorem nintDown_eq (x : ℝ) : nintDown x = roundHtmi x := by
  unfold nintDown roundHtmi nint
  by_cases h0 : 0 ≤ x
  · rw [if_pos h0]
    have h1 := Int.floor_le (x + 1 / 2)
    have h2 := Int.lt_floor_add_one (x + 1 / 2)
    split
    · rename_i h
      have h3 : x - ⌊x + 1 / 2⌋ = -(1 / 2) := by
        rcases (abs_eq (by norm_num : (0 : ℝ) ≤ 1 / 2)).1 h.2 with h | h
        · linarith
        · exact h
      symm
      rw [Int.ceil_eq_iff]
      push_cast
      constructor <;> linarith
    · rename_i h
      symm
      rw [Int.ceil_eq_iff]
      rcases eq_or_lt_of_le h0 with hz | hz
      · rw [← hz]
        norm_num
      · have h3 : x - ⌊x + 1 / 2⌋ ≠ -(1 / 2) := fun h' => h ⟨hz, by rw [h']; norm_num⟩
        have h4 : -(1 / 2) < x - ⌊x + 1 / 2⌋ := lt_of_le_of_ne (by linarith) (Ne.symm h3)
        constructor <;> linarith
  · have : ¬ x > 0 := fun h => h0 h.le
    simp [this, h0]

/-- The row of `roi2pmatrix_cartesian` is the row of the integration operator. -/
theorem roiRow_eq (vs : List (ℝ × ℝ)) (nx ny nps : Nat) (row0 : List (Int × ℝ)) (out : Bool) :
    roiRow vs nx ny nps row0 out = ((integrationRow vs nx ny nps row0).2, (integrationRow vs nx ny nps row0).1, out || isOutside vs nx ny) := by
  have hp : ((doLoop (max (xy2roi vs).2.2.1 0) (min (xy2roi vs).2.2.2 (ny - 1))).flatMap fun iy =>
      (doLoop (max (xy2roi vs).1 0) (min (xy2roi vs).2.1 (nx - 1))).map fun ix => (ix, iy)) = pixelsOf vs nx ny := by
    unfold pixelsOf xy2roi
    simp only [nintUp_eq, nintDown_eq]
  have hs : ∀ (ps : List (Int × Int)) (k : Nat) (row : List (Int × ℝ)), ps.foldl (roiStep vs nx nps) (k + 1, row)
      = ((ps.foldl (rowStep vs nx nps) (k, row)).1 + 1, (ps.foldl (rowStep vs nx nps) (k, row)).2) := by
    intro ps
    induction ps with
    | nil => intro k row; rfl
    | cons p ps ih =>
      intro k row
      rw [List.foldl_cons, List.foldl_cons]
      have : roiStep vs nx nps (k + 1, row) p = ((rowStep vs nx nps (k, row) p).1 + 1, (rowStep vs nx nps (k, row) p).2) := by
        unfold roiStep rowStep pixelVal
        dsimp only
        split
        · rfl
        · split
          · simp
          · rfl
      rw [this, ih]
  unfold roiRow
  dsimp only
  rw [hp, hs (pixelsOf vs nx ny) 0 row0]
  unfold integrationRow
  dsimp only
  refine Prod.ext rfl (Prod.ext (by simp) ?_)
  dsimp only
  unfold isOutside xy2roi
  simp only [nintUp_eq, nintDown_eq]
  have e : ∀ a b : Int, a > b - 1 ↔ a ≥ b := fun a b => by omega
  simp only [e]
  cases out
  · simp
    grind
  · simp

theorem roiRow_operator (vs : List (ℝ × ℝ)) (nx ny : Nat) {row0 : List (Int × ℝ)} (out : Bool)
    (hn : (roiRow vs nx ny row0.length row0 out).2.1 ≤ row0.length) : ∃ g : Nat → Garbage ℝ, ∃ m o,
    integrationOperator [vs] nx ny 2 row0.length g = .ok ([(roiRow vs nx ny row0.length row0 out).1], m, o, 1) := by
  let g : Nat → Garbage ℝ := fun _ => ⟨fun n c => List.replicate n (List.replicate c (0, 0)), by simp, by simp, false⟩
  refine ⟨g, minNcol [vs] nx ny, (g (if minNcol [vs] nx ny > row0.length then 1 else 0)).out || [vs].any fun vs => isOutside vs nx ny, ?_⟩
  rw [roiRow_eq vs nx ny, integrationRow_eq vs nx ny _ row0 rfl] at hn ⊢
  dsimp only at hn ⊢
  rw [operator_eq [vs] nx ny 0]
  have hm : minNcol [vs] nx ny = (found vs nx (pixelsOf vs nx ny)).length := by
    unfold minNcol
    simp
  simp only [List.map_cons, List.map_nil, hm]
  rw [max_eq_left hn, if_neg (by omega), List.take_of_length_le hn, if_neg (not_lt.2 hn)]

/-! ### Properties -/

/-- C94: the pixel that contains a coordinate; half integers belong to the next pixel with `nint_up`, to the previous one with
`nint_down`. -/
theorem C94_round (x : ℝ) (n : Int) : (nintUp x = n ↔ (n : ℝ) - 1 / 2 ≤ x ∧ x < n + 1 / 2) ∧
    (nintDown x = n ↔ (n : ℝ) - 1 / 2 < x ∧ x ≤ n + 1 / 2) := by
  rw [nintUp_eq, nintDown_eq]
  unfold roundHtpi roundHtmi
  rw [Int.floor_eq_iff, Int.ceil_eq_iff]
  constructor
  · constructor <;> rintro ⟨h1, h2⟩ <;> constructor <;> linarith
  · constructor <;> rintro ⟨h1, h2⟩ <;> constructor <;> linarith

/-- C94: the element of a detector for a valid pointing is the pixel of the map that contains its projection, with the area of the detector
multiplied by the scale of the projection; it is -1 if the projection is not in the map, and only then is `out` set. -/
theorem C94_nearest (a : Astrometry) (nx ny : Nat) (area : ℝ) (q : Pointing) (hq : q.masked = false) (c : ℝ × ℝ) (out : Bool) :
    let d := object2ad c.1 c.2 q.ra q.dec q.pa
    let x := (ad2xys a d.1 d.2).1
    let y := (ad2xys a d.1 d.2).2.1
    let e := nearestElement a nx ny area q c out
    let inMap := -(1 / 2) ≤ x ∧ x < nx - 1 / 2 ∧ -(1 / 2) ≤ y ∧ y < ny - 1 / 2
    (∀ ix iy : Int, IsPixel nx ny (ix, iy) →
      (e.1.1 = ix + iy * nx ↔ ((ix : ℝ) - 1 / 2 ≤ x ∧ x < ix + 1 / 2) ∧ ((iy : ℝ) - 1 / 2 ≤ y ∧ y < iy + 1 / 2))) ∧
    (e.1.1 = -1 ↔ ¬ inMap) ∧ e.1.2 = (ad2xys a d.1 d.2).2.2 * area ∧ (e.2 = true ↔ out = true ∨ ¬ inMap) := by
  dsimp only
  unfold nearestElement
  rw [if_neg (by simp [hq])]
  dsimp only
  set d := object2ad c.1 c.2 q.ra q.dec q.pa
  set x := (ad2xys a d.1 d.2).1
  set y := (ad2xys a d.1 d.2).2.1
  have hx1 := ((C94_round x (nintUp x)).1).1 rfl
  have hy1 := ((C94_round y (nintUp y)).1).1 rfl
  have hin : (-(1 / 2) ≤ x ∧ x < nx - 1 / 2 ∧ -(1 / 2) ≤ y ∧ y < ny - 1 / 2) ↔
      ¬ (nintUp x < 0 ∨ nintUp x > (nx : Int) - 1 ∨ nintUp y < 0 ∨ nintUp y > (ny : Int) - 1) := by
    have key : ∀ (z : ℝ) (n : Nat), (-(1 / 2) ≤ z ∧ z < n - 1 / 2) ↔ (0 ≤ nintUp z ∧ nintUp z < (n : Int)) := by
      intro z n
      rw [nintUp_eq]
      unfold roundHtpi
      rw [Int.le_floor, Int.floor_lt]
      push_cast
      constructor <;> rintro ⟨h1, h2⟩ <;> constructor <;> linarith
    have k1 := key x nx
    have k2 := key y ny
    rw [← and_assoc, k1, k2]
    omega
  rw [hin]
  unfold xy2pmatrix
  dsimp only
  split
  · rename_i h
    refine ⟨?_, ?_, rfl, ?_⟩
    · rintro ix iy ⟨p1, p2, p3, p4⟩
      dsimp only at p1 p2 p3 p4 ⊢
      constructor
      · intro h1
        have : 0 ≤ iy * (nx : Int) := by positivity
        omega
      · rintro ⟨hx, hy⟩
        have e1 := ((C94_round x ix).1).2 hx
        have e2 := ((C94_round y iy).1).2 hy
        omega
    · exact ⟨fun _ => not_not.2 h, fun _ => rfl⟩
    · exact ⟨fun _ => Or.inr (not_not.2 h), fun _ => rfl⟩
  · rename_i h
    have hx0 : 0 ≤ nintUp x := by omega
    have hy0 : 0 ≤ nintUp y := by omega
    refine ⟨?_, ?_, rfl, ?_⟩
    · rintro ix iy ⟨p1, p2, p3, p4⟩
      dsimp only at p1 p2 p3 p4 ⊢
      rw [← (C94_round x ix).1, ← (C94_round y iy).1]
      constructor
      · intro h1
        have hnx : (0 : Int) < nx := by omega
        have e1 : nintUp x = ix := by
          have := congrArg (· % (nx : Int)) h1
          simp only [Int.add_mul_emod_self_right] at this
          rwa [Int.emod_eq_of_lt hx0 (by omega), Int.emod_eq_of_lt p1 p2] at this
        refine ⟨e1, ?_⟩
        rw [e1, add_right_inj] at h1
        exact Int.eq_of_mul_eq_mul_right hnx.ne' h1
      · rintro ⟨h1, h2⟩
        rw [h1, h2]
    · have : 0 ≤ nintUp y * (nx : Int) := by positivity
      constructor
      · intro h1
        dsimp only at h1
        omega
      · intro h1
        exact absurd h h1
    · exact ⟨fun h' => Or.inl h', fun h' => h'.resolve_right fun h1 => h1 h⟩

/-- C94: `out` is returned exactly when a projection for a valid pointing is not in the map; the samples that are masked have no pixel. -/
theorem C94_nearest_out (a : Astrometry) (nx ny : Nat) (coords : List ((ℝ × ℝ) × ℝ)) (pointings : List Pointing) :
    ((nearestNeighbour a nx ny coords pointings).2 = true ↔ ∃ q ∈ pointings, q.masked = false ∧ ∃ c ∈ coords,
      let d := object2ad c.1.1 c.1.2 q.ra q.dec q.pa
      ¬ (-(1 / 2) ≤ (ad2xys a d.1 d.2).1 ∧ (ad2xys a d.1 d.2).1 < nx - 1 / 2 ∧
        -(1 / 2) ≤ (ad2xys a d.1 d.2).2.1 ∧ (ad2xys a d.1 d.2).2.1 < ny - 1 / 2)) ∧
    ∀ (i : Nat) (q : Pointing), pointings[i]? = some q → q.masked = true →
      (nearestNeighbour a nx ny coords pointings).1[i]? = some (List.replicate coords.length (-1, 0)) := by
  unfold nearestNeighbour
  constructor
  · simp only [List.any_eq_true]
    refine exists_congr fun q => and_congr_right fun hq => ?_
    by_cases hm : q.masked
    · simp [nearestElement, hm]
    · simp only [Bool.not_eq_true] at hm
      rw [hm]
      simp only [true_and]
      refine exists_congr fun c => and_congr_right fun hc => ?_
      rw [(C94_nearest a nx ny c.2 q hm c.1 false).2.2.2]
      simp
  · intro i q hi hm
    dsimp only
    rw [List.getElem?_map, hi]
    simp [nearestElement, hm]

/-- C94: the row of a convex detector for a valid pointing, if there is enough room: the weight of a pixel is the area of its intersection with
the projection of the detector, and the sum of the weights is the area of the projection if it is in the map. -/
theorem C94_sharp (a : Astrometry) (nx ny : Nat) (q : Pointing) (hq : q.masked = false) (poly : List (ℝ × ℝ)) (row0 : List (Int × ℝ)) (out : Bool)
    (hn : (sharpRow a nx ny row0.length q poly row0 out).2.1 ≤ row0.length) (hc : Convex2 (projectPolygon a q poly)) :
    (∀ p, IsPixel nx ny p → ENNReal.ofReal (weightAt (sharpRow a nx ny row0.length q poly row0 out).1 (p.1 + p.2 * nx))
      = MeasureTheory.volume (convexHull ℝ {v | v ∈ projectPolygon a q poly} ∩
        Set.Icc ((p.1 : ℝ) - 1 / 2) (p.1 + 1 / 2) ×ˢ Set.Icc ((p.2 : ℝ) - 1 / 2) (p.2 + 1 / 2))) ∧
    (InScene nx ny (projectPolygon a q poly) → ENNReal.ofReal (totalWeight (sharpRow a nx ny row0.length q poly row0 out).1)
      = MeasureTheory.volume (convexHull ℝ {v | v ∈ projectPolygon a q poly})) := by
  have hs : sharpRow a nx ny row0.length q poly row0 out = roiRow (projectPolygon a q poly) nx ny row0.length row0 out := by
    unfold sharpRow
    rw [if_neg (by simp [hq])]
  rw [hs] at hn ⊢
  obtain ⟨g, m, o, ho⟩ := roiRow_operator (projectPolygon a q poly) nx ny out hn
  constructor
  · intro p hp
    exact C42_convex ho 0 _ _ rfl rfl p hp hc
  · intro hin
    exact (C42_sum_convex ho 0 _ _ rfl rfl hin hc).2

/-- C94: `out` is set exactly when a vertex of the projection of a detector for a valid pointing is outside of the map. -/
theorem C94_sharp_out (a : Astrometry) (nx ny nps : Nat) (q : Pointing) (poly : List (ℝ × ℝ)) (hp : poly ≠ []) (row0 : List (Int × ℝ)) (out : Bool) :
    (sharpRow a nx ny nps q poly row0 out).2.2 = true ↔ out = true ∨ (q.masked = false ∧ ¬ InScene nx ny (projectPolygon a q poly)) := by
  unfold sharpRow
  by_cases hm : q.masked
  · simp [hm]
  · rw [if_neg hm, roiRow_eq]
    simp only [Bool.not_eq_true] at hm
    dsimp only
    rw [Bool.or_eq_true, isOutside_iff _ (by simpa [projectPolygon] using hp), hm]
    simp only [true_and]
    refine or_congr_right ?_
    unfold InScene
    push Not
    refine exists_congr fun v => and_congr_right fun hv => ?_
    constructor
    · rintro (h | h | h | h) ⟨h1, h2⟩ <;> grind
    · intro h
      by_contra hcon
      push Not at hcon
      exact absurd (h ⟨hcon.1, hcon.2.1⟩ hcon.2.2.1) (not_lt.2 hcon.2.2.2)

/-- C94: in any case the row, whose length is the room, begins with valid pixels that are all different and ends with missing elements; a
row that is too short is complete in the order of the pixels, and its number of pixels is reported. -/
theorem C94_sharp_row (a : Astrometry) (nx ny : Nat) (q : Pointing) (poly : List (ℝ × ℝ)) (row0 : List (Int × ℝ)) (out : Bool) :
    let r := sharpRow a nx ny row0.length q poly row0 out
    ∃ (live : List (Int × ℝ)) (k : Nat), r.1 = live ++ List.replicate k (-1, 0) ∧ r.1.length = row0.length ∧
      live.length = min r.2.1 row0.length ∧ (live.map Prod.fst).Nodup ∧ ∀ e ∈ live, 0 ≤ e.1 ∧ e.1 < (nx : Int) * ny ∧ 0 < e.2 := by
  dsimp only
  unfold sharpRow
  split
  · refine ⟨[], row0.length, ?_, ?_, ?_, ?_, ?_⟩ <;> simp
  · set vs := projectPolygon a q poly
    rw [roiRow_eq vs nx ny, integrationRow_eq vs nx ny _ row0 rfl]
    dsimp only
    obtain ⟨rows, m, o, calls, ho, -, -, hl, hr⟩ := C43_rows [vs] nx ny 0 (found vs nx (pixelsOf vs nx ny)).length
      fun _ => ⟨fun n c => List.replicate n (List.replicate c (0, 0)), by simp, by simp, false⟩
    have ho' := ho
    rw [operator_eq] at ho'
    simp only [Except.ok.injEq, Prod.mk.injEq] at ho'
    have hm : minNcol [vs] nx ny = (found vs nx (pixelsOf vs nx ny)).length := by
      unfold minNcol
      simp
    have hrow : found vs nx (pixelsOf vs nx ny) ∈ rows := by
      rw [← ho'.1]
      simp [hm]
    obtain ⟨-, live, k, he, hnd, hlive, hpos⟩ := hr _ hrow
    have hne : ∀ e ∈ found vs nx (pixelsOf vs nx ny), e.1 ≠ -1 := by
      intro e hmem
      unfold found at hmem
      obtain ⟨p, hp, rfl⟩ := List.mem_map.1 hmem
      have hpx : p ∈ pixelsOf vs nx ny := (List.mem_filter.1 hp).1
      unfold pixelsOf at hpx
      simp only [List.mem_flatMap, List.mem_map] at hpx
      obtain ⟨iy, h1, ix, h2, rfl⟩ := hpx
      have hdo : ∀ a b i : Int, i ∈ doLoop a b → a ≤ i := by
        intro a b i hi
        unfold doLoop progression at hi
        obtain ⟨k, -, rfl⟩ := List.mem_map.1 hi
        omega
      have h3 := hdo _ _ _ h1
      have h4 := hdo _ _ _ h2
      have h5 : (0 : Int) ≤ iy := le_trans (le_max_right _ _) h3
      have h6 : (0 : Int) ≤ ix := le_trans (le_max_right _ _) h4
      dsimp only
      have : 0 ≤ iy * (nx : Int) := by positivity
      omega
    have hk : k = 0 := by
      by_contra hk
      have : ((-1 : Int), (0 : ℝ)) ∈ found vs nx (pixelsOf vs nx ny) := by
        rw [he]
        exact List.mem_append_right _ (List.mem_replicate.2 ⟨hk, rfl⟩)
      exact hne _ this rfl
    rw [hk, List.replicate_zero, List.append_nil] at he
    rw [he]
    refine ⟨live.take row0.length, row0.length - live.length, rfl, ?_, ?_, ?_, ?_⟩
    · rw [List.length_append, List.length_take, List.length_replicate]
      omega
    · rw [List.length_take]
      omega
    · rw [List.map_take]
      exact hnd.sublist (List.take_sublist _ _)
    · intro e hmem
      exact hpos e (List.mem_of_mem_take hmem)

theorem runMax_le (B : Nat) (ks : List Nat) (s : Nat × List MaxThread) (h0 : s.1 ≤ B)
    (h : ∀ t ∈ s.2, (∀ n ∈ t.todo, n ≤ B) ∧ ∀ r, t.register = some r → r ≤ B) :
    (runMax ks s).1 ≤ B := by
  induction ks generalizing s with
  | nil => exact h0
  | cons k ks ih =>
    unfold runMax
    split
    · exact ih s h0 h
    · rename_i t ht
      have htm := List.mem_of_getElem? ht
      obtain ⟨h1, h2⟩ := h t htm
      apply ih
      · unfold MaxThread.step
        split
        · exact h0
        · exact h0
        · rename_i n ns r e1 e2
          exact max_le (h2 r e2) (h1 n (by rw [e1]; simp))
      · intro u hu
        rcases List.mem_or_eq_of_mem_set hu with hu | rfl
        · exact h u hu
        · unfold MaxThread.step
          split
          · exact ⟨h1, h2⟩
          · refine ⟨h1, ?_⟩
            intro r hr
            simp only [Option.map_some, Option.some.injEq] at hr
            omega
          · rename_i n ns r e1 e2
            refine ⟨fun m hm => h1 m (by rw [e1]; exact List.mem_cons_of_mem _ hm), ?_⟩
            intro r hr
            simp at hr

/-- C94: whatever the interleaving of the threads, the reported number of pixels per sample does not exceed the largest one. -/
theorem C94_threads_partial (values : List (List Nat)) (ks : List Nat) (B : Nat) (hB : ∀ l ∈ values, ∀ n ∈ l, n ≤ B) :
    (runMax ks (0, values.map fun l => { todo := l })).1 ≤ B := by
  apply runMax_le B ks _ (Nat.zero_le _)
  intro t ht
  obtain ⟨l, hl, rfl⟩ := List.mem_map.1 ht
  exact ⟨hB l hl, by simp⟩

theorem runMax_single (l : List Nat) (v : Nat) :
    runMax (List.replicate (2 * l.length) 0) (v, [{ todo := l }]) = (l.foldl max v, [{ todo := [] }]) := by
  induction l generalizing v with
  | nil => rfl
  | cons n l ih =>
    rw [List.length_cons, show 2 * (l.length + 1) = 2 * l.length + 1 + 1 by ring, List.replicate_succ, List.replicate_succ]
    change runMax (List.replicate (2 * l.length) 0) (max v n, [{ todo := l }]) = _
    rw [ih, List.foldl_cons]

/-- C94: with one thread the largest number of pixels per sample is reported. -/
theorem C94_one_thread (l : List Nat) :
    (runMax (List.replicate (2 * l.length) 0) (0, [{ todo := l }])).1 = l.foldl max 0 := by
  rw [runMax_single]

/-- C94 does not hold with two threads: a row of 5 pixels and a row of 3 pixels, and the number 3 is reported. -/
theorem C94_violation_threads : ∃ ks : List Nat,
    runMax ks (0, [{ todo := [5] }, { todo := [3] }]) = (3, [{ todo := [] }, { todo := [] }]) :=
  ⟨[0, 1, 0, 1], rfl⟩

/-- A detector at the centre of the object plane, pointing at the reference position of a map whose reference pixel is (2, 3), counted from
one: the pixel is (1, 2). -/
example : (nearestElement (initProjection 5 5 2 3 20 30 (-1, 0, 0, 1)) 5 5 7 ⟨20, 30, 0, false⟩ (0, 0) false).1.1 = 11 := by
  have h := (C94_nearest (initProjection 5 5 2 3 20 30 (-1, 0, 0, 1)) 5 5 7 ⟨20, 30, 0, false⟩ rfl (0, 0) false).1 1 2
    ⟨by norm_num, by norm_num, by norm_num, by norm_num⟩
  dsimp only at h
  rw [C93_origin] at h
  have e := (C91_scale 5 5 2 3 20 30 (-1, 0, 0, 1) 20 30).1
  rw [C91_reference, Prod.mk.injEq] at e
  dsimp only at h e
  rw [e.1, e.2] at h
  rw [h.2 (by norm_num)]
  norm_num

/-- A triangle whose projection is convex and in the map. -/
example : projectPolygon (initProjection 4 4 2 2 0 0 (180 / Real.pi, 0, 0, 180 / Real.pi)) ⟨0, 0, 0, false⟩ [(0, 0), (162000, 0), (0, 162000)]
      = [(1, 1), (2, 1), (1, 2)] ∧ Convex2 [(1, 1), (2, 1), (1, 2)] ∧ InScene 4 4 [(1, 1), (2, 1), (1, 2)] := by
  refine ⟨?_, Or.inl ⟨?_, ?_⟩, ?_⟩
  · have hpi := Real.pi_pos.ne'
    have h45 : deg2rad 45 = Real.pi / 4 := by unfold deg2rad; ring
    have h0 : deg2rad 0 = 0 := by unfold deg2rad; ring
    have hs : √(2 : ℝ) ≠ 0 := by positivity
    have e : (162000 : ℝ) / 3600 = 45 := by norm_num
    simp only [projectPolygon, List.map_cons, List.map_nil, object2ad, ad2xy, initProjection, Astrometry.rotate, h0, Real.cos_zero, Real.sin_zero,
      e, h45, zero_div, mul_zero, mul_one, zero_mul, add_zero, zero_add, neg_zero, div_one, sub_zero, Real.sin_pi_div_four, Real.cos_pi_div_four]
    refine congrArg₂ _ ?_ (congrArg₂ _ ?_ (congrArg₂ _ ?_ rfl)) <;> refine Prod.ext ?_ ?_ <;> dsimp only <;> field_simp <;> norm_num
  · norm_num
  · intro i p q hp hq w hw hwp hwq
    have : i = 0 ∨ i = 1 ∨ i = 2 ∨ 3 ≤ i := by omega
    rcases this with rfl | rfl | rfl | h
    · simp at hp hq hw
      subst hp; subst hq
      rcases hw with rfl | rfl | rfl <;> first | exact absurd rfl hwp | exact absurd rfl hwq | norm_num [cross]
    · simp at hp hq hw
      subst hp; subst hq
      rcases hw with rfl | rfl | rfl <;> first | exact absurd rfl hwp | exact absurd rfl hwq | norm_num [cross]
    · simp at hp hq hw
      subst hp; subst hq
      rcases hw with rfl | rfl | rfl <;> first | exact absurd rfl hwp | exact absurd rfl hwq | norm_num [cross]
    · rw [List.getElem?_eq_none (by simpa using h)] at hp
      cases hp
  · intro v hv
    simp at hv
    rcases hv with rfl | rfl | rfl <;> norm_num

end Verif.Wcs
