import Verif.Wcs.PropsGnomonic
import Mathlib.Analysis.SpecialFunctions.Trigonometric.Arctan
import Mathlib.Analysis.SpecialFunctions.Trigonometric.Bounds
import Mathlib.Data.EReal.Basic

set_option linter.unusedSimpArgs false

/-!
The object plane of an instrument (C93), the extrema of its projections (C97) and the area of the pixels (C96).
-/
namespace Verif.Wcs
open Verif.Py

/-! ### C93 -/

/-- C93: the operator written in Python and the Fortran routine are the same function. -/
theorem C93_same (x1 x2 ra dec pa : ℝ) : boresight x1 x2 ra dec pa = object2ad x1 x2 ra dec pa := by
  unfold boresight object2ad
  have h : dec + (-x1 * (Real.sin (deg2rad pa) / 3600) + x2 * (Real.cos (deg2rad pa) / 3600))
      = dec + (-(x1 / 3600) * Real.sin (deg2rad pa) + x2 / 3600 * Real.cos (deg2rad pa)) := by ring
  dsimp only
  rw [h]
  apply Prod.ext <;> dsimp only
  ring

/-- C93: the origin of the object plane is sent to the pointing direction. -/
theorem C93_origin (ra dec pa : ℝ) : object2ad 0 0 ra dec pa = (ra, dec) := by
  unfold object2ad
  simp

/-- C93: the offset from the pointing direction, in degrees along the parallel of the position and along the meridian, is the vector
of the object plane, in degrees, turned by the position angle: the second axis of the object plane makes the position angle, counted from the
meridian towards the increasing right ascensions. -/
theorem C93_rotation (x1 x2 ra dec pa : ℝ) (hc : Real.cos (((object2ad x1 x2 ra dec pa).2) * (Real.pi / 180)) ≠ 0) :
    let p := object2ad x1 x2 ra dec pa
    (p.1 - ra) * Real.cos (p.2 * (Real.pi / 180))
      = x1 / 3600 * Real.cos (pa * (Real.pi / 180)) + x2 / 3600 * Real.sin (pa * (Real.pi / 180)) ∧
    p.2 - dec = -(x1 / 3600) * Real.sin (pa * (Real.pi / 180)) + x2 / 3600 * Real.cos (pa * (Real.pi / 180)) := by
  unfold object2ad at hc ⊢
  dsimp only [deg2rad] at hc ⊢
  refine ⟨?_, by ring⟩
  rw [add_sub_cancel_left, div_mul_cancel₀ _ hc]

/-- C93: the length of the offset is the distance to the origin in the object plane. -/
theorem C93_norm (x1 x2 ra dec pa : ℝ) (hc : Real.cos (((object2ad x1 x2 ra dec pa).2) * (Real.pi / 180)) ≠ 0) :
    let p := object2ad x1 x2 ra dec pa
    ((p.1 - ra) * Real.cos (p.2 * (Real.pi / 180))) ^ 2 + (p.2 - dec) ^ 2 = (x1 / 3600) ^ 2 + (x2 / 3600) ^ 2 := by
  obtain ⟨h1, h2⟩ := C93_rotation x1 x2 ra dec pa hc
  dsimp only
  rw [h1, h2]
  have := Real.cos_sq_add_sin_sq (pa * (Real.pi / 180))
  linear_combination ((x1 / 3600) ^ 2 + (x2 / 3600) ^ 2) * this

/-- C93: two points of the object plane with the same position are equal (away from the poles). -/
theorem C93_injective {x1 x2 y1 y2 ra dec pa : ℝ} (hc : Real.cos (((object2ad x1 x2 ra dec pa).2) * (Real.pi / 180)) ≠ 0)
    (h : object2ad x1 x2 ra dec pa = object2ad y1 y2 ra dec pa) : x1 = y1 ∧ x2 = y2 := by
  obtain ⟨h1, h2⟩ := C93_rotation x1 x2 ra dec pa hc
  obtain ⟨h3, h4⟩ := C93_rotation y1 y2 ra dec pa (by rw [← h]; exact hc)
  rw [h] at h1 h2
  have := Real.cos_sq_add_sin_sq (pa * (Real.pi / 180))
  constructor
  · linear_combination (-3600 * Real.cos (pa * (Real.pi / 180))) * (h1 - h3) + 3600 * Real.sin (pa * (Real.pi / 180)) * (h2 - h4)
      - (x1 - y1) * this
  · linear_combination (-3600 * Real.sin (pa * (Real.pi / 180))) * (h1 - h3) - 3600 * Real.cos (pa * (Real.pi / 180)) * (h2 - h4)
      - (x2 - y2) * this

/-- C93: the drawing of the documentation (the first axis of the object plane along the decreasing right ascensions for a zero position
angle) is not what is computed. -/
theorem C93_violation_axis {x1 ra dec : ℝ} (hx : 0 < x1) (hd : -90 < dec ∧ dec < 90) : ra < (object2ad x1 0 ra dec 0).1 := by
  have hpi := Real.pi_pos
  unfold object2ad
  dsimp only
  have h0 : deg2rad 0 = 0 := by unfold deg2rad; ring
  rw [h0, Real.cos_zero, Real.sin_zero]
  have hc : 0 < Real.cos (deg2rad (dec + (-(x1 / 3600) * 0 + 0 / 3600 * 1))) := by
    rw [show dec + (-(x1 / 3600) * 0 + 0 / 3600 * 1) = dec by ring]
    apply Real.cos_pos_of_mem_Ioo
    unfold deg2rad
    constructor <;> nlinarith
  have : 0 < (x1 / 3600 * 1 + 0 / 3600 * 0) / Real.cos (deg2rad (dec + (-(x1 / 3600) * 0 + 0 / 3600 * 1))) :=
    div_pos (by linarith [div_pos hx (by norm_num : (0 : ℝ) < 3600)]) hc
  linarith

/-- One degree along the second axis with a position angle of 90 degrees is one degree of right ascension at the equator. -/
example : object2ad 0 3600 10 0 90 = (11, 0) := by
  unfold object2ad
  have h1 : deg2rad 90 = Real.pi / 2 := by unfold deg2rad; ring
  have h0 : deg2rad 0 = 0 := by unfold deg2rad; ring
  simp only [h1, Real.cos_pi_div_two, Real.sin_pi_div_two]
  norm_num [h0]

/-! ### C97 -/

/-- wcsutils.f90 224-268 `object2xy_minmax`, after the initialisation: (xmin, ymin, xmax, ymax) over the pointings (ra, dec, pa) and the
coordinates.  `minval` of an empty list is the largest number of the machine in Fortran, infinity here. -/
noncomputable def object2xyMinmax (a : Astrometry) (coords : List (ℝ × ℝ)) (pointings : List (ℝ × ℝ × ℝ)) : EReal × EReal × EReal × EReal :=
  pointings.foldl (fun (m : EReal × EReal × EReal × EReal) (p : ℝ × ℝ × ℝ) =>
    let xy := coords.map fun c => let q := object2ad c.1 c.2 p.1 p.2.1 p.2.2; ad2xy a q.1 q.2
    (min m.1 ((xy.map fun q => (q.1 : EReal)).foldl min ⊤), min m.2.1 ((xy.map fun q => (q.2 : EReal)).foldl min ⊤),
     max m.2.2.1 ((xy.map fun q => (q.1 : EReal)).foldl max ⊥), max m.2.2.2 ((xy.map fun q => (q.2 : EReal)).foldl max ⊥)))
    (⊤, ⊤, ⊥, ⊥)

theorem le_foldl_min_iff {α : Type} [LinearOrder α] (l : List α) (a b : α) : b ≤ l.foldl min a ↔ b ≤ a ∧ ∀ x ∈ l, b ≤ x := by
  induction l generalizing a with
  | nil => simp
  | cons y l ih => rw [List.foldl_cons, ih]; simp [and_assoc]

theorem foldl_max_le_iff {α : Type} [LinearOrder α] (l : List α) (a b : α) : l.foldl max a ≤ b ↔ a ≤ b ∧ ∀ x ∈ l, x ≤ b := by
  induction l generalizing a with
  | nil => simp
  | cons y l ih => rw [List.foldl_cons, ih]; simp [and_assoc]

theorem minmax_fold (a : Astrometry) (coords : List (ℝ × ℝ)) (pointings : List (ℝ × ℝ × ℝ)) (m : EReal × EReal × EReal × EReal) (b : EReal) :
    let r := pointings.foldl (fun (m : EReal × EReal × EReal × EReal) (p : ℝ × ℝ × ℝ) =>
      let xy := coords.map fun c => let q := object2ad c.1 c.2 p.1 p.2.1 p.2.2; ad2xy a q.1 q.2
      (min m.1 ((xy.map fun q => (q.1 : EReal)).foldl min ⊤), min m.2.1 ((xy.map fun q => (q.2 : EReal)).foldl min ⊤),
       max m.2.2.1 ((xy.map fun q => (q.1 : EReal)).foldl max ⊥), max m.2.2.2 ((xy.map fun q => (q.2 : EReal)).foldl max ⊥))) m
    let at' := fun (p : ℝ × ℝ × ℝ) (c : ℝ × ℝ) => ad2xy a (object2ad c.1 c.2 p.1 p.2.1 p.2.2).1 (object2ad c.1 c.2 p.1 p.2.1 p.2.2).2
    (b ≤ r.1 ↔ b ≤ m.1 ∧ ∀ p ∈ pointings, ∀ c ∈ coords, b ≤ (at' p c).1) ∧
    (b ≤ r.2.1 ↔ b ≤ m.2.1 ∧ ∀ p ∈ pointings, ∀ c ∈ coords, b ≤ (at' p c).2) ∧
    (r.2.2.1 ≤ b ↔ m.2.2.1 ≤ b ∧ ∀ p ∈ pointings, ∀ c ∈ coords, (at' p c).1 ≤ b) ∧
    (r.2.2.2 ≤ b ↔ m.2.2.2 ≤ b ∧ ∀ p ∈ pointings, ∀ c ∈ coords, (at' p c).2 ≤ b) := by
  induction pointings generalizing m with
  | nil => simp
  | cons p ps ih =>
    dsimp only at ih ⊢
    rw [List.foldl_cons]
    obtain ⟨i1, i2, i3, i4⟩ := ih (min m.1 (((coords.map fun c => ad2xy a (object2ad c.1 c.2 p.1 p.2.1 p.2.2).1
        (object2ad c.1 c.2 p.1 p.2.1 p.2.2).2).map fun q => (q.1 : EReal)).foldl min ⊤),
      min m.2.1 (((coords.map fun c => ad2xy a (object2ad c.1 c.2 p.1 p.2.1 p.2.2).1
        (object2ad c.1 c.2 p.1 p.2.1 p.2.2).2).map fun q => (q.2 : EReal)).foldl min ⊤),
      max m.2.2.1 (((coords.map fun c => ad2xy a (object2ad c.1 c.2 p.1 p.2.1 p.2.2).1
        (object2ad c.1 c.2 p.1 p.2.1 p.2.2).2).map fun q => (q.1 : EReal)).foldl max ⊥),
      max m.2.2.2 (((coords.map fun c => ad2xy a (object2ad c.1 c.2 p.1 p.2.1 p.2.2).1
        (object2ad c.1 c.2 p.1 p.2.1 p.2.2).2).map fun q => (q.2 : EReal)).foldl max ⊥))
    refine ⟨i1.trans ?_, i2.trans ?_, i3.trans ?_, i4.trans ?_⟩
    · rw [le_min_iff, le_foldl_min_iff]
      simp only [le_top, true_and, List.map_map, List.mem_map, forall_exists_index, and_imp, forall_apply_eq_imp_iff₂,
        List.forall_mem_cons, Function.comp_apply, and_assoc]
    · rw [le_min_iff, le_foldl_min_iff]
      simp only [le_top, true_and, List.map_map, List.mem_map, forall_exists_index, and_imp, forall_apply_eq_imp_iff₂,
        List.forall_mem_cons, Function.comp_apply, and_assoc]
    · rw [max_le_iff, foldl_max_le_iff]
      simp only [bot_le, true_and, List.map_map, List.mem_map, forall_exists_index, and_imp, forall_apply_eq_imp_iff₂,
        List.forall_mem_cons, Function.comp_apply, and_assoc]
    · rw [max_le_iff, foldl_max_le_iff]
      simp only [bot_le, true_and, List.map_map, List.mem_map, forall_exists_index, and_imp, forall_apply_eq_imp_iff₂,
        List.forall_mem_cons, Function.comp_apply, and_assoc]

/-- C97: a box of the map contains the projections of all the coordinates for all the pointings if and only if it contains the returned
extrema: they are the sides of the smallest box. -/
theorem C97_smallest_box (a : Astrometry) (coords : List (ℝ × ℝ)) (pointings : List (ℝ × ℝ × ℝ)) (x0 y0 x1 y1 : ℝ) :
    let m := object2xyMinmax a coords pointings
    (∀ p ∈ pointings, ∀ c ∈ coords,
      let q := ad2xy a (object2ad c.1 c.2 p.1 p.2.1 p.2.2).1 (object2ad c.1 c.2 p.1 p.2.1 p.2.2).2
      (x0 ≤ q.1 ∧ q.1 ≤ x1) ∧ (y0 ≤ q.2 ∧ q.2 ≤ y1)) ↔
    (x0 : EReal) ≤ m.1 ∧ (y0 : EReal) ≤ m.2.1 ∧ m.2.2.1 ≤ x1 ∧ m.2.2.2 ≤ y1 := by
  dsimp only [object2xyMinmax]
  obtain ⟨h1, -, -, -⟩ := minmax_fold a coords pointings (⊤, ⊤, ⊥, ⊥) x0
  obtain ⟨-, h2, -, -⟩ := minmax_fold a coords pointings (⊤, ⊤, ⊥, ⊥) y0
  obtain ⟨-, -, h3, -⟩ := minmax_fold a coords pointings (⊤, ⊤, ⊥, ⊥) x1
  obtain ⟨-, -, -, h4⟩ := minmax_fold a coords pointings (⊤, ⊤, ⊥, ⊥) y1
  dsimp only at h1 h2 h3 h4
  rw [h1, h2, h3, h4]
  simp only [le_top, bot_le, true_and, EReal.coe_le_coe_iff]
  constructor
  · intro h
    exact ⟨fun p hp c hc => (h p hp c hc).1.1, fun p hp c hc => (h p hp c hc).2.1, fun p hp c hc => (h p hp c hc).1.2,
      fun p hp c hc => (h p hp c hc).2.2⟩
  · rintro ⟨a1, a2, a3, a4⟩ p hp c hc
    exact ⟨⟨a1 p hp c hc, a3 p hp c hc⟩, a2 p hp c hc, a4 p hp c hc⟩

/-- C97: the order of the pointings (and so the number of threads) does not matter. -/
theorem C97_perm (a : Astrometry) {coords coords' : List (ℝ × ℝ)} {pointings pointings' : List (ℝ × ℝ × ℝ)} (hc : coords.Perm coords')
    (hp : pointings.Perm pointings') : object2xyMinmax a coords pointings = object2xyMinmax a coords' pointings' := by
  have key : ∀ {cs cs' : List (ℝ × ℝ)} {ps ps' : List (ℝ × ℝ × ℝ)}, (∀ c, c ∈ cs ↔ c ∈ cs') → (∀ p, p ∈ ps ↔ p ∈ ps') →
      object2xyMinmax a cs ps = object2xyMinmax a cs' ps' := by
    intro cs cs' ps ps' h1 h2
    have hcong : ∀ P : (ℝ × ℝ × ℝ) → (ℝ × ℝ) → Prop, (∀ p ∈ ps, ∀ c ∈ cs, P p c) ↔ ∀ p ∈ ps', ∀ c ∈ cs', P p c := by
      intro P
      simp only [h1, h2]
    have m := minmax_fold a cs ps (⊤, ⊤, ⊥, ⊥)
    have m' := minmax_fold a cs' ps' (⊤, ⊤, ⊥, ⊥)
    dsimp only at m m'
    unfold object2xyMinmax
    refine Prod.ext ?_ (Prod.ext ?_ (Prod.ext ?_ ?_))
    · exact eq_of_forall_le_iff fun b => by rw [(m b).1, (m' b).1, hcong]
    · exact eq_of_forall_le_iff fun b => by rw [(m b).2.1, (m' b).2.1, hcong]
    · exact eq_of_forall_ge_iff fun b => by rw [(m b).2.2.1, (m' b).2.2.1, hcong]
    · exact eq_of_forall_ge_iff fun b => by rw [(m b).2.2.2, (m' b).2.2.2, hcong]
  exact key (fun c => hc.mem_iff) fun p => hp.mem_iff

/-- One detector at the centre of the object plane: the extrema are the pixel of the pointing. -/
example : object2xyMinmax (initProjection 10 10 5 5 20 30 (-1, 0, 0, 1)) [(0, 0)] [(20, 30, 45)] = (4, 4, 4, 4) := by
  unfold object2xyMinmax
  simp only [List.foldl_cons, List.foldl_nil, List.map_cons, List.map_nil, C93_origin, C91_reference]
  norm_num
  norm_cast

/-! ### C96 -/

/-- module_wcs.f90 300-344 `projection_scale` and `projection_scale_gnomonic`, for the pixel (i, j) counted from zero, with the header's matrix;
the comparison of the pixel scales (311) is exact here.  `distance_2d` (module_math_old.f90 88-106) is the distance to the reference pixel. -/
noncomputable def projectionScale (crpix1 crpix2 c11 c12 c21 c22 : ℝ) (i j : ℝ) : Res ℝ :=
  let (d1, d2, _) := cdInfo c11 c12 c21 c22
  if |d1| ≠ |d2| then .error .valueError
  else
    let r1 := Real.tan (deg2rad d1)
    let r2 := Real.tan (deg2rad d2)
    let distance := Real.sqrt ((r1 * (i - (crpix1 - 1))) ^ 2 + (r2 * (j - (crpix2 - 1))) ^ 2)
    .ok (Real.cos (Real.arctan distance) ^ 3)

/-- The cosine of the distance to the reference position, from the pixel coordinates. -/
theorem pixel_distance {p1 p2 v1 v2 c11 c12 c21 c22 : ℝ} (hdet : c11 * c22 - c12 * c21 ≠ 0) {ra dec : ℝ}
    (hf : 0 < inner ℝ (direction v1 v2) (direction ra dec)) :
    let m := initProjection 1 1 p1 p2 v1 v2 (c11, c12, c21, c22)
    let x := (ad2xy m ra dec).1 - (p1 - 1)
    let y := (ad2xy m ra dec).2 - (p2 - 1)
    1 / (inner ℝ (direction v1 v2) (direction ra dec)) ^ 2 =
      1 + ((c11 * x + c12 * y) * (Real.pi / 180)) ^ 2 + ((c21 * x + c22 * y) * (Real.pi / 180)) ^ 2 := by
  have hpi := Real.pi_pos
  obtain ⟨e1, e2⟩ := C91_plane (nx := 1) (ny := 1) (p1 := p1) (p2 := p2) (v1 := v1) (v2 := v2) hdet ra dec
  dsimp only at e1 e2 ⊢
  rw [e1, e2]
  have hn : (inner ℝ (direction v1 v2) (direction ra dec)) ^ 2 + (inner ℝ (east v1) (direction ra dec)) ^ 2
      + (inner ℝ (north v1 v2) (direction ra dec)) ^ 2 = (1 : ℝ) := by
    have hh := inner_ref_ref ra dec
    have he := frame_expand v1 v2 (direction ra dec)
    generalize direction ra dec = u at *
    have hh : inner ℝ (inner ℝ (direction v1 v2) u • direction v1 v2 + inner ℝ (east v1) u • east v1
      + inner ℝ (north v1 v2) u • north v1 v2) u = (1 : ℝ) := by rw [← he]; exact hh
    rw [inner_add_left, inner_add_left, real_inner_smul_left, real_inner_smul_left, real_inner_smul_left] at hh
    linear_combination hh
  have hk : ∀ u : ℝ, 180 / Real.pi * u * (Real.pi / 180) = u := fun u => by field_simp
  rw [hk, hk]
  rw [div_pow, div_pow]
  field_simp
  linarith

/-- C96: the scale is one at the reference pixel. -/
theorem C96_reference {p1 p2 c11 c12 c21 c22 : ℝ} (hs : |(cdInfo c11 c12 c21 c22).1| = |(cdInfo c11 c12 c21 c22).2.1|) :
    projectionScale p1 p2 c11 c12 c21 c22 (p1 - 1) (p2 - 1) = .ok 1 := by
  unfold projectionScale
  dsimp only
  rw [if_neg (by simpa using hs)]
  simp

/-- C96: for a matrix made of equal pixel scales c and of an angle, the area that is returned is the one of a map whose pixel scale would be
the tangent of c: with A the true area, the returned area is (1 + (tan c / c)² (A^(-2/3) - 1))^(-3/2). -/
theorem C96_partial {p1 p2 v1 v2 c pa ra dec : ℝ} (hc : 0 < c)
    (hf : 0 < inner ℝ (direction v1 v2) (direction ra dec)) :
    let M := cdMatrix (-c) c pa
    let m := initProjection 1 1 p1 p2 v1 v2 M
    let k := Real.tan (c * (Real.pi / 180)) / (c * (Real.pi / 180))
    let cosd := inner ℝ (direction v1 v2) (direction ra dec)
    (ad2xys m ra dec).2.2 = 1 / cosd ^ 3 ∧
    projectionScale p1 p2 M.1 M.2.1 M.2.2.1 M.2.2.2 (ad2xy m ra dec).1 (ad2xy m ra dec).2
      = .ok (1 / Real.sqrt (1 + k ^ 2 * (1 / cosd ^ 2 - 1)) ^ 3) := by
  have hpi := Real.pi_pos
  dsimp only
  have hcs := Real.cos_sq_add_sin_sq (deg2rad (-pa))
  have hdet : (cdMatrix (-c) c pa).1 * (cdMatrix (-c) c pa).2.2.2 - (cdMatrix (-c) c pa).2.1 * (cdMatrix (-c) c pa).2.2.1 = -c ^ 2 := by
    unfold cdMatrix
    dsimp only
    linear_combination (-c ^ 2) * hcs
  have hdet0 : (cdMatrix (-c) c pa).1 * (cdMatrix (-c) c pa).2.2.2 - (cdMatrix (-c) c pa).2.1 * (cdMatrix (-c) c pa).2.2.1 ≠ 0 := by
    rw [hdet]
    have := pow_pos hc 2
    linarith
  constructor
  · dsimp only [initProjection, ad2xys, Astrometry.rotate, cdMatrix]
    rw [inner_ref, one_div, one_div, inv_pow]
  have hpd := pixel_distance (p1 := p1) (p2 := p2) (v1 := v1) (v2 := v2) hdet0 hf
  dsimp only at hpd
  rw [hpd]
  clear hpd
  set x := (ad2xy (initProjection 1 1 p1 p2 v1 v2 (cdMatrix (-c) c pa)) ra dec).1 with hx
  set y := (ad2xy (initProjection 1 1 p1 p2 v1 v2 (cdMatrix (-c) c pa)) ra dec).2 with hy
  have hi : cdInfo (cdMatrix (-c) c pa).1 (cdMatrix (-c) c pa).2.1 (cdMatrix (-c) c pa).2.2.1 (cdMatrix (-c) c pa).2.2.2
      = (-c, c, (cdInfo (cdMatrix (-c) c pa).1 (cdMatrix (-c) c pa).2.1 (cdMatrix (-c) c pa).2.2.1 (cdMatrix (-c) c pa).2.2.2).2.2) := by
    unfold cdInfo
    refine Prod.ext ?_ (Prod.ext ?_ rfl)
    · dsimp only
      rw [if_neg (by
        rw [mul_comm (cdMatrix (-c) c pa).2.2.1]
        rw [hdet]
        have := pow_pos hc 2
        linarith)]
      have : (cdMatrix (-c) c pa).1 ^ 2 + (cdMatrix (-c) c pa).2.1 ^ 2 = c ^ 2 := by
        unfold cdMatrix
        dsimp only
        linear_combination c ^ 2 * hcs
      rw [this, Real.sqrt_sq hc.le, abs_of_pos hc]
    · dsimp only
      have : (cdMatrix (-c) c pa).2.2.2 ^ 2 + (cdMatrix (-c) c pa).2.2.1 ^ 2 = c ^ 2 := by
        unfold cdMatrix
        dsimp only
        linear_combination c ^ 2 * hcs
      rw [this, Real.sqrt_sq hc.le]
  unfold projectionScale
  rw [hi]
  dsimp only
  rw [if_neg (by simp), Real.cos_arctan]
  congr 1
  rw [div_pow, one_pow]
  congr 3
  rw [Real.sq_sqrt (by positivity)]
  have hneg : deg2rad (-c) = -deg2rad c := by unfold deg2rad; ring
  rw [hneg, Real.tan_neg]
  have hcd : deg2rad c = c * (Real.pi / 180) := rfl
  rw [hcd]
  unfold cdMatrix
  dsimp only
  generalize Real.tan (c * (Real.pi / 180)) = T
  generalize Real.cos (deg2rad (-pa)) = C at *
  generalize Real.sin (deg2rad (-pa)) = S at *
  have hcpi : c * (Real.pi / 180) ≠ 0 := by positivity
  generalize hw : c * (Real.pi / 180) = w at *
  have : ((-c * C * (x - (p1 - 1)) + -c * S * (y - (p2 - 1))) * (Real.pi / 180)) ^ 2 +
      ((c * -S * (x - (p1 - 1)) + c * C * (y - (p2 - 1))) * (Real.pi / 180)) ^ 2 = w ^ 2 * ((x - (p1 - 1)) ^ 2 + (y - (p2 - 1)) ^ 2) := by
    rw [← hw]
    linear_combination (c * (Real.pi / 180)) ^ 2 * ((x - (p1 - 1)) ^ 2 + (y - (p2 - 1)) ^ 2) * hcs
  rw [add_assoc 1, this]
  field_simp
  ring

/-- C96: away from the reference pixel the returned area is lower than the area of the pixel. -/
theorem C96_violation {p1 p2 v1 v2 c pa ra dec : ℝ} (hc : 0 < c) (hc' : c < 90)
    (hf : 0 < inner ℝ (direction v1 v2) (direction ra dec)) (hne : inner ℝ (direction v1 v2) (direction ra dec) < (1 : ℝ)) :
    let M := cdMatrix (-c) c pa
    let m := initProjection 1 1 p1 p2 v1 v2 M
    ∃ s, projectionScale p1 p2 M.1 M.2.1 M.2.2.1 M.2.2.2 (ad2xy m ra dec).1 (ad2xy m ra dec).2 = .ok s ∧
      s < 1 / (ad2xys m ra dec).2.2 := by
  have hpi := Real.pi_pos
  obtain ⟨h1, h2⟩ := C96_partial (p1 := p1) (p2 := p2) (pa := pa) hc hf
  dsimp only at h1 h2 ⊢
  refine ⟨_, h2, ?_⟩
  rw [h1, one_div_one_div]
  set d : ℝ := inner ℝ (direction v1 v2) (direction ra dec) with hd
  have hw : 0 < c * (Real.pi / 180) := by positivity
  have hw' : c * (Real.pi / 180) < Real.pi / 2 := by nlinarith
  have hk : 1 < Real.tan (c * (Real.pi / 180)) / (c * (Real.pi / 180)) := by
    rw [one_lt_div hw]
    exact Real.lt_tan hw hw'
  set k := Real.tan (c * (Real.pi / 180)) / (c * (Real.pi / 180))
  have hdd : 0 < 1 / d ^ 2 - 1 := by
    rw [sub_pos, one_lt_div (by positivity)]
    nlinarith
  have hlt : 1 / d < Real.sqrt (1 + k ^ 2 * (1 / d ^ 2 - 1)) := by
    apply Real.lt_sqrt_of_sq_lt
    rw [one_div, inv_pow, ← one_div]
    have hk2 : 1 < k ^ 2 := by nlinarith
    nlinarith [mul_pos (sub_pos.2 hk2) hdd]
  have h3 : 1 / d ^ 3 < Real.sqrt (1 + k ^ 2 * (1 / d ^ 2 - 1)) ^ 3 := by
    rw [show 1 / d ^ 3 = (1 / d) ^ 3 by rw [div_pow, one_pow]]
    exact pow_lt_pow_left₀ hlt (by positivity) (by norm_num)
  have h4 := one_div_lt_one_div_of_lt (by positivity) h3
  rwa [one_div_one_div] at h4

/-- A position at 45 degrees of the reference position, in a map with pixels of one degree. -/
example : (0 : ℝ) < inner ℝ (direction 0 0) (direction 45 0) ∧ inner ℝ (direction 0 0) (direction 45 0) < (1 : ℝ) := by
  rw [inner_ref]
  have h0 : deg2rad 0 = 0 := by unfold deg2rad; ring
  have h1 : deg2rad 45 = Real.pi / 4 := by unfold deg2rad; ring
  simp only [h0, h1, Real.sin_zero, Real.cos_zero, sub_zero, mul_zero, zero_add, mul_one, one_mul, Real.cos_pi_div_four]
  have h2 : Real.sqrt 2 < 2 := by rw [Real.sqrt_lt' (by norm_num)]; norm_num
  constructor
  · positivity
  · linarith

end Verif.Wcs
