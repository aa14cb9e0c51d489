import Verif.Wcs.PropsGnomonic

set_option linter.unusedSimpArgs false

/-!
`combine_fitsheader` (wcsutils.py 85-153): the combined map encloses the maps (C92).
-/
namespace Verif.Wcs
open Verif.Py

/-- The world coordinate system of a header with a gnomonic projection. -/
structure Tan where
  nx : Int
  ny : Int
  crpix1 : ℝ
  crpix2 : ℝ
  crval1 : ℝ
  crval2 : ℝ
  c11 : ℝ
  c12 : ℝ
  c21 : ℝ
  c22 : ℝ

/-- `astropy.wcs.WCS.wcs_pix2world` of the dependency, for a gnomonic projection and pixels counted from one: the vector, not normalised,
from the centre of the sphere to the point of the tangent plane.  The longitude and the latitude of its direction are those returned. -/
noncomputable def Tan.toVec (t : Tan) (x y : ℝ) : E3 :=
  direction t.crval1 t.crval2
    + ((t.c11 * (x - t.crpix1) + t.c12 * (y - t.crpix2)) * (Real.pi / 180)) • east t.crval1
    + ((t.c21 * (x - t.crpix1) + t.c22 * (y - t.crpix2)) * (Real.pi / 180)) • north t.crval1 t.crval2

/-- `astropy.wcs.WCS.wcs_world2pix` of the dependency: the pixel, counted from one, in the direction of a vector. -/
noncomputable def Tan.toPix (t : Tan) (v : E3) : ℝ × ℝ :=
  let det := t.c11 * t.c22 - t.c12 * t.c21
  let xsi := inner ℝ (east t.crval1) v / inner ℝ (direction t.crval1 t.crval2) v * (180 / Real.pi)
  let eta := inner ℝ (north t.crval1 t.crval2) v / inner ℝ (direction t.crval1 t.crval2) v * (180 / Real.pi)
  (t.crpix1 + (t.c22 * xsi - t.c12 * eta) / det, t.crpix2 + (t.c11 * eta - t.c21 * xsi) / det)

/-- `np.round`: the nearest integer, the even one at equal distances. -/
noncomputable def rint (x : ℝ) : ℤ :=
  if x - ⌊x⌋ < 1 / 2 then ⌊x⌋
  else if 1 / 2 < x - ⌊x⌋ then ⌊x⌋ + 1
  else if ⌊x⌋ % 2 = 0 then ⌊x⌋ else ⌊x⌋ + 1

/-- `min` of a list. -/
noncomputable def listMin : List ℝ → ℝ
  | [] => 0
  | x :: xs => xs.foldl min x

/-- `max` of a list. -/
noncomputable def listMax : List ℝ → ℝ
  | [] => 0
  | x :: xs => xs.foldl max x

/-- wcsutils.py 133-137: the nine points of the edges of a map. -/
noncomputable def Tan.edges (t : Tan) : List (ℝ × ℝ) :=
  [(1 / 2, 1 / 2), (t.crpix1, 1 / 2), (t.nx + 1 / 2, 1 / 2), (1 / 2, t.crpix2), (t.crpix1, t.crpix2), (t.nx + 1 / 2, t.crpix2),
   (1 / 2, t.ny + 1 / 2), (t.crpix1, t.ny + 1 / 2), (t.nx + 1 / 2, t.ny + 1 / 2)]

/-- wcsutils.py 121-151: the header centred on the barycenter is enlarged to fit the edges of each map. -/
noncomputable def enlarge (t0 : Tan) (hs : List Tan) : Tan :=
  let xy0 := hs.flatMap fun h => h.edges.map fun p => t0.toPix (h.toVec p.1 p.2)
  let xmin0 := rint (listMin (xy0.map (·.1)))
  let xmax0 := rint (listMax (xy0.map (·.1)))
  let ymin0 := rint (listMin (xy0.map (·.2)))
  let ymax0 := rint (listMax (xy0.map (·.2)))
  { t0 with nx := xmax0 - xmin0 + 1, ny := ymax0 - ymin0 + 1, crpix1 := 2 - xmin0, crpix2 := 2 - ymin0 }

/-- wcsutils.py 85-153 `combine_fitsheader`.  The headers are given by their world coordinate system, with matrices that are not singular.
An empty list raises in the `min` of line 141 (or of line 114); a barycenter that does not exist gives NaN in the code, an error here. -/
noncomputable def combine (hs : List Tan) (cdelt : Option (ScalarOr ℝ)) (pa : Option ℝ) : Res Tan :=
  match hs, cdelt, pa with
  | [], _, _ => .error .valueError
  | [h], none, none => .ok h
  | hs, cdelt, pa =>
    match barycenterLonlat (hs.map fun h => (some h.crval1, some h.crval2)) with
    | (some lon, some lat) =>
      let cdeltpa := hs.map fun h => cdeltPaOfCd h.c11 h.c12 h.c21 h.c22
      let cdelt := match cdelt with
        | some c => c
        | none => .scalar (listMin (cdeltpa.map fun c => min |c.1.getD 0| |c.2.1|))
      let pa := match pa with
        | some p => p
        | none => (meanDegrees (cdeltpa.map fun c => some c.2.2)).getD 0
      match cdeltPair (some ["RA---TAN", "DEC--TAN"]) cdelt with
      | [c1, c2] =>
        let cd := cdMatrix c1 c2 pa
        .ok (enlarge ⟨1, 1, 1, 1, lon, lat, cd.1, cd.2.1, cd.2.2.1, cd.2.2.2⟩ hs)
      | _ => .error .valueError
    | _ => .error .runtimeError

/-! ### Lemmas -/

theorem rint_bounds (x : ℝ) : (rint x : ℝ) - 1 / 2 ≤ x ∧ x ≤ rint x + 1 / 2 := by
  have h1 := Int.floor_le x
  have h2 := Int.lt_floor_add_one x
  unfold rint
  split
  · constructor <;> linarith
  · split
    · push_cast
      constructor <;> linarith
    · split
      · constructor <;> linarith
      · push_cast
        constructor <;> linarith

theorem foldl_min_le (l : List ℝ) (a : ℝ) : l.foldl min a ≤ a ∧ ∀ x ∈ l, l.foldl min a ≤ x := by
  induction l generalizing a with
  | nil => simp
  | cons y l ih =>
    obtain ⟨h1, h2⟩ := ih (min a y)
    refine ⟨h1.trans (min_le_left _ _), ?_⟩
    intro x hx
    rcases List.mem_cons.1 hx with rfl | hx
    · exact h1.trans (min_le_right _ _)
    · exact h2 x hx

theorem le_foldl_max (l : List ℝ) (a : ℝ) : a ≤ l.foldl max a ∧ ∀ x ∈ l, x ≤ l.foldl max a := by
  induction l generalizing a with
  | nil => simp
  | cons y l ih =>
    obtain ⟨h1, h2⟩ := ih (max a y)
    refine ⟨(le_max_left _ _).trans h1, ?_⟩
    intro x hx
    rcases List.mem_cons.1 hx with rfl | hx
    · exact (le_max_right _ _).trans h1
    · exact h2 x hx

theorem listMin_le {l : List ℝ} {x : ℝ} (h : x ∈ l) : listMin l ≤ x := by
  cases l with
  | nil => simp at h
  | cons a l =>
    rcases List.mem_cons.1 h with rfl | h
    · exact (foldl_min_le l _).1
    · exact (foldl_min_le l a).2 x h

theorem foldl_min_mem (l : List ℝ) (a : ℝ) : l.foldl min a ∈ a :: l := by
  induction l generalizing a with
  | nil => simp
  | cons y l ih =>
    rcases List.mem_cons.1 (ih (min a y)) with h | h
    · rw [List.foldl_cons, h]
      rcases min_choice a y with h' | h' <;> rw [h'] <;> simp
    · exact List.mem_cons_of_mem _ (List.mem_cons_of_mem _ h)

theorem foldl_max_mem (l : List ℝ) (a : ℝ) : l.foldl max a ∈ a :: l := by
  induction l generalizing a with
  | nil => simp
  | cons y l ih =>
    rcases List.mem_cons.1 (ih (max a y)) with h | h
    · rw [List.foldl_cons, h]
      rcases max_choice a y with h' | h' <;> rw [h'] <;> simp
    · exact List.mem_cons_of_mem _ (List.mem_cons_of_mem _ h)

theorem listMin_mem {l : List ℝ} (h : l ≠ []) : listMin l ∈ l := by
  cases l with
  | nil => simp at h
  | cons a l => exact foldl_min_mem l a

theorem listMax_mem {l : List ℝ} (h : l ≠ []) : listMax l ∈ l := by
  cases l with
  | nil => simp at h
  | cons a l => exact foldl_max_mem l a

theorem le_listMax {l : List ℝ} {x : ℝ} (h : x ∈ l) : x ≤ listMax l := by
  cases l with
  | nil => simp at h
  | cons a l =>
    rcases List.mem_cons.1 h with rfl | h
    · exact (le_foldl_max l _).1
    · exact (le_foldl_max l a).2 x h

/-- The pixel of a position is, counted from one, the one computed in Fortran. -/
theorem toPix_ad2xy (t : Tan) (ra dec : ℝ) :
    t.toPix (direction ra dec) =
      let p := ad2xy (initProjection t.nx t.ny t.crpix1 t.crpix2 t.crval1 t.crval2 (t.c11, t.c12, t.c21, t.c22)) ra dec
      (p.1 + 1, p.2 + 1) := by
  dsimp only [initProjection, ad2xy, Astrometry.rotate, Tan.toPix]
  rw [inner_east, inner_north, inner_ref]
  apply Prod.ext <;> dsimp only <;> ring

/-- The frame of a header. -/
theorem frame_inner (v1 v2 a b : ℝ) :
    let S : E3 := direction v1 v2 + a • east v1 + b • north v1 v2
    inner ℝ (direction v1 v2) S = (1 : ℝ) ∧ inner ℝ (east v1) S = a ∧ inner ℝ (north v1 v2) S = b := by
  have h1 := Real.cos_sq_add_sin_sq (v1 * (Real.pi / 180))
  have h2 := Real.cos_sq_add_sin_sq (v2 * (Real.pi / 180))
  dsimp only
  refine ⟨?_, ?_, ?_⟩
  all_goals
    rw [inner3]
    simp only [direction, east, north, PiLp.add_apply, PiLp.smul_apply, smul_eq_mul, PiLp.toLp_apply, Matrix.cons_val]
    generalize Real.cos (v1 * (Real.pi / 180)) = cl at *
    generalize Real.sin (v1 * (Real.pi / 180)) = sl at *
    generalize Real.cos (v2 * (Real.pi / 180)) = cb at *
    generalize Real.sin (v2 * (Real.pi / 180)) = sb at *
  · linear_combination (cb ^ 2 - cb * sb * b) * h1 + h2
  · linear_combination a * h1
  · linear_combination (b * sb ^ 2 - cb * sb) * h1 + b * h2

/-- `wcs_world2pix` undoes `wcs_pix2world`. -/
theorem toPix_toVec {t : Tan} (hdet : t.c11 * t.c22 - t.c12 * t.c21 ≠ 0) (x y : ℝ) : t.toPix (t.toVec x y) = (x, y) := by
  have hpi := Real.pi_pos
  obtain ⟨i0, i1, i2⟩ := frame_inner t.crval1 t.crval2 ((t.c11 * (x - t.crpix1) + t.c12 * (y - t.crpix2)) * (Real.pi / 180))
    ((t.c21 * (x - t.crpix1) + t.c22 * (y - t.crpix2)) * (Real.pi / 180))
  have hk : ∀ u : ℝ, u * (Real.pi / 180) / 1 * (180 / Real.pi) = u := fun u => by field_simp
  unfold Tan.toPix Tan.toVec
  dsimp only
  rw [i0, i1, i2, hk, hk]
  apply Prod.ext
  · dsimp only
    rw [show t.c22 * (t.c11 * (x - t.crpix1) + t.c12 * (y - t.crpix2)) - t.c12 * (t.c21 * (x - t.crpix1) + t.c22 * (y - t.crpix2))
      = (t.c11 * t.c22 - t.c12 * t.c21) * (x - t.crpix1) by ring, mul_div_cancel_left₀ _ hdet]
    ring
  · dsimp only
    rw [show t.c11 * (t.c21 * (x - t.crpix1) + t.c22 * (y - t.crpix2)) - t.c21 * (t.c11 * (x - t.crpix1) + t.c12 * (y - t.crpix2))
      = (t.c11 * t.c22 - t.c12 * t.c21) * (y - t.crpix2) by ring, mul_div_cancel_left₀ _ hdet]
    ring

/-- A ratio of linear functions stays between bounds on the positive combinations of vectors where it does. -/
theorem ratio_bounds {num den : E3 →ₗ[ℝ] ℝ} {c lo hi : ℝ} {v : Fin 4 → E3} {w : Fin 4 → ℝ} (hw : ∀ i, 0 ≤ w i) (hs : ∑ i, w i = 1)
    (hd : ∀ i, 0 < den (v i)) (hl : ∀ i, lo ≤ c + num (v i) / den (v i) ∧ c + num (v i) / den (v i) ≤ hi) :
    0 < den (∑ i, w i • v i) ∧ lo ≤ c + num (∑ i, w i • v i) / den (∑ i, w i • v i) ∧
      c + num (∑ i, w i • v i) / den (∑ i, w i • v i) ≤ hi := by
  have hD : den (∑ i, w i • v i) = ∑ i, w i * den (v i) := by simp [map_sum]
  have hN : num (∑ i, w i • v i) = ∑ i, w i * num (v i) := by simp [map_sum]
  have hpos : 0 < ∑ i, w i * den (v i) := by
    obtain ⟨i, hi⟩ : ∃ i, 0 < w i := by
      by_contra hc
      push Not at hc
      have : ∑ i, w i ≤ 0 := Finset.sum_nonpos fun i _ => hc i
      linarith
    exact Finset.sum_pos' (fun j _ => mul_nonneg (hw j) (hd j).le) ⟨i, Finset.mem_univ i, mul_pos hi (hd i)⟩
  refine ⟨by rw [hD]; exact hpos, ?_, ?_⟩
  · rw [hD, hN]
    have : (lo - c) * ∑ i, w i * den (v i) ≤ ∑ i, w i * num (v i) := by
      rw [Finset.mul_sum]
      apply Finset.sum_le_sum
      intro i _
      have h1 : lo - c ≤ num (v i) / den (v i) := by linarith [(hl i).1]
      rw [le_div_iff₀ (hd i)] at h1
      nlinarith [hw i]
    have := (le_div_iff₀ hpos).2 this
    linarith
  · rw [hD, hN]
    have : ∑ i, w i * num (v i) ≤ (hi - c) * ∑ i, w i * den (v i) := by
      rw [Finset.mul_sum]
      apply Finset.sum_le_sum
      intro i _
      have h1 : num (v i) / den (v i) ≤ hi - c := by linarith [(hl i).2]
      rw [div_le_iff₀ (hd i)] at h1
      nlinarith [hw i]
    have := (div_le_iff₀ hpos).2 this
    linarith

/-- The corners of a map. -/
noncomputable def Tan.corners (t : Tan) : List (ℝ × ℝ) :=
  [(1 / 2, 1 / 2), (t.nx + 1 / 2, 1 / 2), (1 / 2, t.ny + 1 / 2), (t.nx + 1 / 2, t.ny + 1 / 2)]

theorem corners_edges {t : Tan} {p : ℝ × ℝ} (h : p ∈ t.corners) : p ∈ t.edges := by
  simp only [Tan.corners, Tan.edges, List.mem_cons, List.not_mem_nil, or_false] at h ⊢
  tauto

/-- The points of a map are combinations of its corners. -/
theorem toVec_corners (t : Tan) {x y : ℝ} (hx : 1 / 2 ≤ x ∧ x ≤ t.nx + 1 / 2) (hy : 1 / 2 ≤ y ∧ y ≤ t.ny + 1 / 2) (hn : 0 < t.nx)
    (hm : 0 < t.ny) : ∃ w : Fin 4 → ℝ, (∀ i, 0 ≤ w i) ∧ ∑ i, w i = 1 ∧
      t.toVec x y = ∑ i, w i • ![t.toVec (1 / 2) (1 / 2), t.toVec (t.nx + 1 / 2) (1 / 2), t.toVec (1 / 2) (t.ny + 1 / 2),
        t.toVec (t.nx + 1 / 2) (t.ny + 1 / 2)] i := by
  have hn' : (0 : ℝ) < t.nx := by exact_mod_cast hn
  have hm' : (0 : ℝ) < t.ny := by exact_mod_cast hm
  set s := (x - 1 / 2) / t.nx with hs
  set u := (y - 1 / 2) / t.ny with hu
  have s0 : 0 ≤ s := div_nonneg (by linarith) hn'.le
  have s1 : s ≤ 1 := by rw [hs, div_le_one hn']; linarith
  have u0 : 0 ≤ u := div_nonneg (by linarith) hm'.le
  have u1 : u ≤ 1 := by rw [hu, div_le_one hm']; linarith
  have hx' : x = 1 / 2 + s * t.nx := by rw [hs]; field_simp; ring
  have hy' : y = 1 / 2 + u * t.ny := by rw [hu]; field_simp; ring
  refine ⟨![(1 - s) * (1 - u), s * (1 - u), (1 - s) * u, s * u], ?_, ?_, ?_⟩
  · intro i
    fin_cases i
    · exact mul_nonneg (by linarith) (by linarith)
    · exact mul_nonneg s0 (by linarith)
    · exact mul_nonneg (by linarith) u0
    · exact mul_nonneg s0 u0
  · rw [Fin.sum_univ_four]
    simp only [Matrix.cons_val]
    ring
  · rw [Fin.sum_univ_four]
    simp only [Matrix.cons_val, Tan.toVec]
    ext i
    simp only [PiLp.add_apply, PiLp.smul_apply, smul_eq_mul]
    rw [hx', hy']
    ring

/-- The coordinates of the pixel of a vector, as ratios of linear functions. -/
theorem toPix_ratio (t : Tan) : ∃ (n1 n2 d : E3 →ₗ[ℝ] ℝ), (∀ v, d v = inner ℝ (direction t.crval1 t.crval2) v) ∧
    ∀ v, t.toPix v = (t.crpix1 + n1 v / d v, t.crpix2 + n2 v / d v) := by
  set det := t.c11 * t.c22 - t.c12 * t.c21
  set k := (180 / Real.pi) / det
  refine ⟨(t.c22 * k) • (innerₛₗ ℝ (east t.crval1)) - (t.c12 * k) • (innerₛₗ ℝ (north t.crval1 t.crval2)),
    (t.c11 * k) • (innerₛₗ ℝ (north t.crval1 t.crval2)) - (t.c21 * k) • (innerₛₗ ℝ (east t.crval1)),
    innerₛₗ ℝ (direction t.crval1 t.crval2), fun v => rfl, fun v => ?_⟩
  unfold Tan.toPix
  simp only [LinearMap.sub_apply, LinearMap.smul_apply, innerₛₗ_apply_apply, smul_eq_mul]
  apply Prod.ext <;> dsimp only [k, det] <;> ring

/-- The pixels of the enlarged header are those of the initial header, shifted. -/
theorem enlarge_toPix (t0 : Tan) (hs : List Tan) (v : E3) :
    (enlarge t0 hs).toPix v = ((t0.toPix v).1 + ((enlarge t0 hs).crpix1 - t0.crpix1), (t0.toPix v).2 + ((enlarge t0 hs).crpix2 - t0.crpix2)) := by
  unfold enlarge Tan.toPix
  apply Prod.ext <;> dsimp only <;> ring

/-- The nine points of each map are in the enlarged map. -/
theorem enlarge_edges {t0 : Tan} (h1 : t0.crpix1 = 1) (h2 : t0.crpix2 = 1) {hs : List Tan} {h : Tan} (hh : h ∈ hs) {p : ℝ × ℝ}
    (hp : p ∈ h.edges) : let t := enlarge t0 hs; let q := t.toPix (h.toVec p.1 p.2)
    (1 / 2 ≤ q.1 ∧ q.1 ≤ t.nx + 1 / 2) ∧ (1 / 2 ≤ q.2 ∧ q.2 ≤ t.ny + 1 / 2) := by
  dsimp only
  rw [enlarge_toPix, h1, h2]
  have hmem : t0.toPix (h.toVec p.1 p.2) ∈ hs.flatMap fun h => h.edges.map fun p => t0.toPix (h.toVec p.1 p.2) :=
    List.mem_flatMap.2 ⟨h, hh, List.mem_map.2 ⟨p, hp, rfl⟩⟩
  set l := hs.flatMap fun h => h.edges.map fun p => t0.toPix (h.toVec p.1 p.2) with hl
  set q := t0.toPix (h.toVec p.1 p.2)
  have m1 := List.mem_map_of_mem (f := fun q : ℝ × ℝ => q.1) hmem
  have m2 := List.mem_map_of_mem (f := fun q : ℝ × ℝ => q.2) hmem
  have a1 := listMin_le m1
  have a2 := le_listMax m1
  have a3 := listMin_le m2
  have a4 := le_listMax m2
  have b1 := rint_bounds (listMin (l.map (·.1)))
  have b2 := rint_bounds (listMax (l.map (·.1)))
  have b3 := rint_bounds (listMin (l.map (·.2)))
  have b4 := rint_bounds (listMax (l.map (·.2)))
  have e1 : (enlarge t0 hs).crpix1 = 2 - rint (listMin (l.map (·.1))) := rfl
  have e2 : (enlarge t0 hs).crpix2 = 2 - rint (listMin (l.map (·.2))) := rfl
  have e3 : (enlarge t0 hs).nx = rint (listMax (l.map (·.1))) - rint (listMin (l.map (·.1))) + 1 := rfl
  have e4 : (enlarge t0 hs).ny = rint (listMax (l.map (·.2))) - rint (listMin (l.map (·.2))) + 1 := rfl
  rw [e1, e2, e3, e4]
  push_cast
  refine ⟨⟨?_, ?_⟩, ?_, ?_⟩ <;> linarith

/-- The map of a header that encloses the corners of a map of its hemisphere encloses the map. -/
theorem encloses_of_corners (t h : Tan) (hn : 0 < h.nx) (hm : 0 < h.ny)
    (hf : ∀ p ∈ h.corners, 0 < inner ℝ (direction t.crval1 t.crval2) (h.toVec p.1 p.2)) {X Y : ℝ}
    (hc : ∀ p ∈ h.corners, let q := t.toPix (h.toVec p.1 p.2)
      (1 / 2 ≤ q.1 ∧ q.1 ≤ X) ∧ (1 / 2 ≤ q.2 ∧ q.2 ≤ Y)) {x y : ℝ}
    (hx : 1 / 2 ≤ x ∧ x ≤ h.nx + 1 / 2) (hy : 1 / 2 ≤ y ∧ y ≤ h.ny + 1 / 2) :
    let q := t.toPix (h.toVec x y)
    0 < inner ℝ (direction t.crval1 t.crval2) (h.toVec x y) ∧ (1 / 2 ≤ q.1 ∧ q.1 ≤ X) ∧ (1 / 2 ≤ q.2 ∧ q.2 ≤ Y) := by
  obtain ⟨n1, n2, d, hd, hr⟩ := toPix_ratio t
  obtain ⟨w, hw0, hw1, hv⟩ := toVec_corners h hx hy hn hm
  have hf' : ∀ i : Fin 4, 0 < d (![h.toVec (1 / 2) (1 / 2), h.toVec (h.nx + 1 / 2) (1 / 2), h.toVec (1 / 2) (h.ny + 1 / 2),
      h.toVec (h.nx + 1 / 2) (h.ny + 1 / 2)] i) := by
    intro i
    rw [hd]
    fin_cases i
    · exact hf (1 / 2, 1 / 2) (by simp [Tan.corners])
    · exact hf (h.nx + 1 / 2, 1 / 2) (by simp [Tan.corners])
    · exact hf (1 / 2, h.ny + 1 / 2) (by simp [Tan.corners])
    · exact hf (h.nx + 1 / 2, h.ny + 1 / 2) (by simp [Tan.corners])
  have hc1 : ∀ p ∈ h.corners, 1 / 2 ≤ t.crpix1 + n1 (h.toVec p.1 p.2) / d (h.toVec p.1 p.2) ∧
      t.crpix1 + n1 (h.toVec p.1 p.2) / d (h.toVec p.1 p.2) ≤ X := fun p hp => by
    have := (hc p hp).1
    rwa [hr] at this
  have hc2 : ∀ p ∈ h.corners, 1 / 2 ≤ t.crpix2 + n2 (h.toVec p.1 p.2) / d (h.toVec p.1 p.2) ∧
      t.crpix2 + n2 (h.toVec p.1 p.2) / d (h.toVec p.1 p.2) ≤ Y := fun p hp => by
    have := (hc p hp).2
    rwa [hr] at this
  have r1 := ratio_bounds (num := n1) (den := d) (c := t.crpix1) (lo := 1 / 2) (hi := X) hw0 hw1 hf' (by
    intro i
    fin_cases i
    · exact hc1 (1 / 2, 1 / 2) (by simp [Tan.corners])
    · exact hc1 (h.nx + 1 / 2, 1 / 2) (by simp [Tan.corners])
    · exact hc1 (1 / 2, h.ny + 1 / 2) (by simp [Tan.corners])
    · exact hc1 (h.nx + 1 / 2, h.ny + 1 / 2) (by simp [Tan.corners]))
  have r2 := ratio_bounds (num := n2) (den := d) (c := t.crpix2) (lo := 1 / 2) (hi := Y) hw0 hw1 hf' (by
    intro i
    fin_cases i
    · exact hc2 (1 / 2, 1 / 2) (by simp [Tan.corners])
    · exact hc2 (h.nx + 1 / 2, 1 / 2) (by simp [Tan.corners])
    · exact hc2 (1 / 2, h.ny + 1 / 2) (by simp [Tan.corners])
    · exact hc2 (h.nx + 1 / 2, h.ny + 1 / 2) (by simp [Tan.corners]))
  dsimp only
  rw [hr, ← hd, hv]
  exact ⟨r1.1, r1.2, r2.2⟩

theorem combine_cases {hs : List Tan} {cdelt : Option (ScalarOr ℝ)} {pa : Option ℝ} {t : Tan} (hok : combine hs cdelt pa = .ok t) :
    hs = [t] ∨ ∃ t0 : Tan, t0.crpix1 = 1 ∧ t0.crpix2 = 1 ∧ t = enlarge t0 hs := by
  unfold combine at hok
  split at hok
  · exact absurd hok (by simp)
  · left
    simp only [Except.ok.injEq] at hok
    rw [hok]
  · split at hok
    · dsimp only at hok
      split at hok
      · right
        simp only [Except.ok.injEq] at hok
        exact ⟨_, rfl, rfl, hok.symm⟩
      · exact absurd hok (by simp)
    · exact absurd hok (by simp)

/-! ### Properties -/

/-- C92: the combined map contains the edge points of each map (its pixels, counted from one, extend from 1/2 to their number plus 1/2). -/
theorem C92_edges {hs : List Tan} {cdelt : Option (ScalarOr ℝ)} {pa : Option ℝ} {t h : Tan} (hok : combine hs cdelt pa = .ok t)
    (hh : h ∈ hs) (hdet : h.c11 * h.c22 - h.c12 * h.c21 ≠ 0) (hn : 0 < h.nx) (hm : 0 < h.ny)
    {p : ℝ × ℝ} (hp : p ∈ h.corners) : let q := t.toPix (h.toVec p.1 p.2)
    (1 / 2 ≤ q.1 ∧ q.1 ≤ t.nx + 1 / 2) ∧ (1 / 2 ≤ q.2 ∧ q.2 ≤ t.ny + 1 / 2) := by
  rcases combine_cases hok with rfl | ⟨t0, h1, h2, rfl⟩
  · obtain rfl : h = t := List.mem_singleton.1 hh
    dsimp only
    have hn' : (0 : ℝ) < h.nx := by exact_mod_cast hn
    have hm' : (0 : ℝ) < h.ny := by exact_mod_cast hm
    rw [toPix_toVec hdet]
    simp only [Tan.corners, List.mem_cons, List.not_mem_nil, or_false] at hp
    rcases hp with rfl | rfl | rfl | rfl <;> refine ⟨⟨?_, ?_⟩, ?_, ?_⟩ <;> dsimp only <;> linarith
  · exact enlarge_edges h1 h2 hh (corners_edges hp)

/-- C92: the combined map contains each map, when the corners of the map are in the hemisphere of the combined map. -/
theorem C92_encloses {hs : List Tan} {cdelt : Option (ScalarOr ℝ)} {pa : Option ℝ} {t h : Tan} (hok : combine hs cdelt pa = .ok t)
    (hh : h ∈ hs) (hdet : h.c11 * h.c22 - h.c12 * h.c21 ≠ 0) (hn : 0 < h.nx) (hm : 0 < h.ny)
    (hf : ∀ p ∈ h.corners, 0 < inner ℝ (direction t.crval1 t.crval2) (h.toVec p.1 p.2)) {x y : ℝ}
    (hx : 1 / 2 ≤ x ∧ x ≤ h.nx + 1 / 2) (hy : 1 / 2 ≤ y ∧ y ≤ h.ny + 1 / 2) : let q := t.toPix (h.toVec x y)
    (1 / 2 ≤ q.1 ∧ q.1 ≤ t.nx + 1 / 2) ∧ (1 / 2 ≤ q.2 ∧ q.2 ≤ t.ny + 1 / 2) :=
  (encloses_of_corners t h hn hm hf (fun _ hp => C92_edges hok hh hdet hn hm hp) hx hy).2

/-- C92: the combined map is centred on the barycenter of the reference positions, with the given scale and angle. -/
theorem C92_frame {h1 h2 : Tan} {hs : List Tan} {c1 c2 pa lon lat : ℝ}
    (hb : barycenterLonlat ((h1 :: h2 :: hs).map fun h => (some h.crval1, some h.crval2)) = (some lon, some lat)) :
    ∃ t, combine (h1 :: h2 :: hs) (some (.seq [c1, c2])) (some pa) = .ok t ∧ t.crval1 = lon ∧ t.crval2 = lat ∧
      (t.c11, t.c12, t.c21, t.c22) = cdMatrix c1 c2 pa := by
  unfold combine
  dsimp only
  rw [hb]
  exact ⟨_, rfl, rfl, rfl, rfl⟩

/-- The pixel scales of a header, in degrees: the lengths of the rows of its matrix. -/
noncomputable def Tan.scales (t : Tan) : List ℝ := [Real.sqrt (t.c11 ^ 2 + t.c12 ^ 2), Real.sqrt (t.c21 ^ 2 + t.c22 ^ 2)]

/-- C92: by default the scale of the combined map is the lowest scale of the maps. -/
theorem C92_default_scale {h1 h2 : Tan} {hs : List Tan} {pa : Option ℝ} {t : Tan}
    (hdet : ∀ h ∈ h1 :: h2 :: hs, h.c11 * h.c22 - h.c12 * h.c21 ≠ 0) (hok : combine (h1 :: h2 :: hs) none pa = .ok t) :
    ∃ c pa', (t.c11, t.c12, t.c21, t.c22) = cdMatrix (-c) c pa' ∧ (∀ p, pa = some p → pa' = p) ∧
      (∃ h ∈ h1 :: h2 :: hs, c ∈ h.scales) ∧ ∀ h ∈ h1 :: h2 :: hs, ∀ s ∈ h.scales, c ≤ s := by
  unfold combine at hok
  dsimp only at hok
  split at hok
  · simp only [cdeltPair, if_true, Except.ok.injEq] at hok
    subst hok
    have hval : ∀ h ∈ h1 :: h2 :: hs, min |(cdeltPaOfCd h.c11 h.c12 h.c21 h.c22).1.getD 0| |(cdeltPaOfCd h.c11 h.c12 h.c21 h.c22).2.1|
        = min (Real.sqrt (h.c11 ^ 2 + h.c12 ^ 2)) (Real.sqrt (h.c21 ^ 2 + h.c22 ^ 2)) := by
      intro h hh
      have hd := hdet h hh
      simp only [cdeltPaOfCd, if_neg hd, Option.getD_some]
      rw [abs_mul, abs_div, abs_abs, div_self (abs_ne_zero.2 hd), one_mul, abs_of_nonneg (Real.sqrt_nonneg _),
        abs_of_nonneg (Real.sqrt_nonneg _), add_comm (h.c22 ^ 2)]
    refine ⟨_, _, rfl, ?_, ?_, ?_⟩
    · intro p hp
      rw [hp]
    · have := listMin_mem (l := (h1 :: h2 :: hs).map fun h => min |(cdeltPaOfCd h.c11 h.c12 h.c21 h.c22).1.getD 0|
        |(cdeltPaOfCd h.c11 h.c12 h.c21 h.c22).2.1|) (by simp)
      obtain ⟨h, hh, he⟩ := List.mem_map.1 this
      rw [hval h hh] at he
      refine ⟨h, hh, ?_⟩
      rw [List.map_map]
      simp only [Function.comp_def]
      rw [← he]
      rcases min_choice (Real.sqrt (h.c11 ^ 2 + h.c12 ^ 2)) (Real.sqrt (h.c21 ^ 2 + h.c22 ^ 2)) with h' | h' <;> rw [h'] <;>
        simp [Tan.scales]
    · intro h hh s hsc
      rw [List.map_map]
      refine (listMin_le (List.mem_map_of_mem hh)).trans ?_
      simp only [Function.comp_def]
      rw [hval h hh]
      simp only [Tan.scales, List.mem_cons, List.not_mem_nil, or_false] at hsc
      rcases hsc with rfl | rfl
      · exact min_le_left _ _
      · exact min_le_right _ _
  · exact absurd hok (by simp)

/-- C92: no row or column of the combined map can be removed on a side: on each side there is an edge point of a map in the first or in the
last pixel. -/
theorem C92_tight {h1 h2 : Tan} {hs : List Tan} {cdelt : Option (ScalarOr ℝ)} {pa : Option ℝ} {t : Tan}
    (hok : combine (h1 :: h2 :: hs) cdelt pa = .ok t) :
    let points := (h1 :: h2 :: hs).flatMap fun h => h.edges.map fun p => t.toPix (h.toVec p.1 p.2)
    (∃ q ∈ points, q.1 ≤ 3 / 2) ∧ (∃ q ∈ points, (t.nx : ℝ) - 1 / 2 ≤ q.1) ∧ (∃ q ∈ points, q.2 ≤ 3 / 2) ∧ ∃ q ∈ points, (t.ny : ℝ) - 1 / 2 ≤ q.2 := by
  rcases combine_cases hok with h | ⟨t0, e1, e2, rfl⟩
  · simp at h
  dsimp only
  set H := h1 :: h2 :: hs
  set l := H.flatMap fun h => h.edges.map fun p => t0.toPix (h.toVec p.1 p.2) with hl
  have hpts : (H.flatMap fun h => h.edges.map fun p => (enlarge t0 H).toPix (h.toVec p.1 p.2)) =
      l.map fun q => (q.1 + ((enlarge t0 H).crpix1 - 1), q.2 + ((enlarge t0 H).crpix2 - 1)) := by
    rw [hl, List.map_flatMap]
    congr 1
    funext h
    rw [List.map_map]
    congr 1
    funext p
    rw [Function.comp_apply, enlarge_toPix, e1, e2]
  have hne : l ≠ [] := by
    rw [hl]
    simp [H, Tan.edges]
  have c1 : (enlarge t0 H).crpix1 = 2 - rint (listMin (l.map (·.1))) := rfl
  have c2 : (enlarge t0 H).crpix2 = 2 - rint (listMin (l.map (·.2))) := rfl
  have c3 : (enlarge t0 H).nx = rint (listMax (l.map (·.1))) - rint (listMin (l.map (·.1))) + 1 := rfl
  have c4 : (enlarge t0 H).ny = rint (listMax (l.map (·.2))) - rint (listMin (l.map (·.2))) + 1 := rfl
  have b1 := rint_bounds (listMin (l.map (·.1)))
  have b2 := rint_bounds (listMax (l.map (·.1)))
  have b3 := rint_bounds (listMin (l.map (·.2)))
  have b4 := rint_bounds (listMax (l.map (·.2)))
  obtain ⟨q1, m1, k1⟩ := List.mem_map.1 (listMin_mem (l := l.map (·.1)) (by simpa using hne))
  obtain ⟨q2, m2, k2⟩ := List.mem_map.1 (listMax_mem (l := l.map (·.1)) (by simpa using hne))
  obtain ⟨q3, m3, k3⟩ := List.mem_map.1 (listMin_mem (l := l.map (·.2)) (by simpa using hne))
  obtain ⟨q4, m4, k4⟩ := List.mem_map.1 (listMax_mem (l := l.map (·.2)) (by simpa using hne))
  rw [hpts]
  refine ⟨⟨_, List.mem_map_of_mem m1, ?_⟩, ⟨_, List.mem_map_of_mem m2, ?_⟩, ⟨_, List.mem_map_of_mem m3, ?_⟩, ⟨_, List.mem_map_of_mem m4, ?_⟩⟩
  · try dsimp only at *
    rw [c1, k1]
    linarith
  · try dsimp only at *
    rw [c1, c3, k2]
    push_cast
    linarith
  · try dsimp only at *
    rw [c2, k3]
    linarith
  · try dsimp only at *
    rw [c2, c4, k4]
    push_cast
    linarith

/-- Two maps of different sizes and scales with the same reference position: the hypotheses can be met. -/
example (a b : Tan) (ha : a = ⟨10, 10, 1, 1, 0, 0, -1, 0, 0, 1⟩) (hb : b = ⟨20, 5, 3, 2, 0, 0, -2, 0, 0, 2⟩) :
    ∃ t, combine [a, b] (some (.seq [-1, 1])) (some 0) = .ok t ∧
      ∀ x y : ℝ, 1 / 2 ≤ x ∧ x ≤ 10 + 1 / 2 → 1 / 2 ≤ y ∧ y ≤ 10 + 1 / 2 → (t.toPix (a.toVec x y)).1 ≤ t.nx + 1 / 2 := by
  have hbar : barycenterLonlat ([a, b].map fun h => (some h.crval1, some h.crval2)) = (some 0, some 0) := by
    subst ha hb
    exact C90_same (lon := 0) (lat := 0) (by norm_num) (by norm_num) 1
  obtain ⟨t, ht, e1, e2, -⟩ := C92_frame (hs := []) (c1 := -1) (c2 := 1) (pa := 0) hbar
  refine ⟨t, ht, fun x y hx hy => ?_⟩
  have hf : ∀ p ∈ a.corners, 0 < inner ℝ (direction t.crval1 t.crval2) (a.toVec p.1 p.2) := by
    intro p _
    rw [e1, e2, ha]
    have := (frame_inner 0 0 ((-1 * (p.1 - 1) + 0 * (p.2 - 1)) * (Real.pi / 180)) ((0 * (p.1 - 1) + 1 * (p.2 - 1)) * (Real.pi / 180))).1
    unfold Tan.toVec
    rw [this]
    norm_num
  have := C92_encloses (h := a) ht (by simp) (by rw [ha]; norm_num) (by rw [ha]; norm_num) (by rw [ha]; norm_num) hf (x := x) (y := y)
    (by rw [ha]; simpa using hx) (by rw [ha]; simpa using hy)
  exact this.1.2

end Verif.Wcs
