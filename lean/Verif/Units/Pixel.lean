import Verif.Units.Table
import Mathlib.MeasureTheory.Measure.Lebesgue.VolumeOfBalls
import Mathlib.LinearAlgebra.Matrix.ToLin

/-! C137: the areas of the pixels of a map. -/
namespace Verif.Units
open Verif.Py

/-! ### The model -/

/-- What `pixel_to_pixel_reference` and `pixel_reference_to_solid_angle` read in the header of an array. -/
structure AreaHeader where
  naxis : Nat
  /-- CRPIXi, CRVALi and CTYPEi are present. -/
  axis : Nat → Bool
  cd11 : Option ℝ
  cd12 : Option ℝ
  cd21 : Option ℝ
  cd22 : Option ℝ
  cdelt1 : Option ℝ
  cdelt2 : Option ℝ
  cunit1 : Option (List Char)
  cunit2 : Option (List Char)

/-- quantities.py 1255-1279 `pixel_to_pixel_reference`, for one pixel of the array; `scale` is the value of `projection_scale` for this pixel (`none` if its status
is not zero). -/
def pixelToReference (header : Option AreaHeader) (scale : Option ℝ) : Res (Q ℝ) :=
  match header with
  | none => .ok ⟨1, parsed "pixel_reference"⟩
  | some h =>
    if (List.range h.naxis).all fun i => h.axis (i + 1) then
      match scale with
      | some s => .ok ⟨s, parsed "pixel_reference"⟩
      | none => .error .runtimeError
    else .ok ⟨1, parsed "pixel_reference"⟩

/-- quantities.py 1289-1298: the area. -/
noncomputable def referenceArea (h : AreaHeader) : Option ℝ :=
  match h.cd11, h.cd21, h.cd12, h.cd22 with
  | some a, some c, some b, some d => some |a * d - b * c|
  | _, _, _, _ =>
    match h.cdelt1, h.cdelt2 with
    | some d1, some d2 => some |d1 * d2|
    | _, _ => none

/-- quantities.py 1282-1302 `pixel_reference_to_solid_angle`. -/
noncomputable def referenceToSolidAngle (header : Option AreaHeader) : Res (Option (Q ℝ)) :=
  match header with
  | none => .ok none
  | some h =>
    match referenceArea h with
    | none => .ok none
    | some area => do
      let u1 ← extract (h.cunit1.getD "deg".toList)
      let u2 ← extract (h.cunit2.getD "deg".toList)
      .ok (some (mulQ (mulQ ⟨area, []⟩ ⟨1, u1⟩) ⟨1, u2⟩))

/-! ### Specification -/

/-- The parallelogram covered by a pixel in the plane of the projection, for the matrix (a b; c d). -/
def footprint (a b c d : ℝ) : Set (Fin 2 → ℝ) := (Matrix.toLin' !![a, b; c, d]) '' (Set.univ.pi fun _ => Set.Icc 0 1)

/-! ### C137 -/

theorem footprint_volume (a b c d : ℝ) : MeasureTheory.volume (footprint a b c d) = ENNReal.ofReal |a * d - b * c| := by
  rw [footprint, MeasureTheory.Measure.addHaar_image_linearMap, LinearMap.det_toLin', Matrix.det_fin_two_of, MeasureTheory.volume_pi_pi]
  simp

theorem si_some {n : Nat} {G : DTable ℝ} {k : Sym} {v x : _} {d : Q ℝ} (hd : define [] G k v = some (d, false)) {r : Q ℝ} (hr : si n [] G d = .ok r) :
    si (n + 1) [] G ⟨x, [(k, v)]⟩ = .ok ⟨x * r.mag, mulUnit (mulUnit [] r.unit) []⟩ := by
  rw [si, if_neg (by simp), List.foldlM_cons]
  simp only [hd, hr, Except.map, Bool.false_eq_true, if_false, mulQ]
  show (Except.ok _ : Res (Q ℝ)) = _
  simp [mulUnit]

theorem si_none {n : Nat} {G : DTable ℝ} {k : Sym} {v x : _} (hd : define [] G k v = none) :
    si (n + 1) [] G ⟨x, [(k, v)]⟩ = .ok ⟨x, mulUnit (mulInplace [] k v) []⟩ := by
  rw [si, if_neg (by simp), List.foldlM_cons]
  simp only [hd]
  show (Except.ok _ : Res (Q ℝ)) = _
  simp

/-- The keys of the table. -/
def tableKeys : List DKey := (unitsTable (0 : ℚ) 0 none).map (·.key)

theorem keys_eq (scale : ℝ) (ref : Option (Q ℝ)) : (unitsTable Real.pi scale ref).map (·.key) = tableKeys := rfl

theorem hasKey_eq (scale : ℝ) (ref : Option (Q ℝ)) (key : DKey) : hasKey (unitsTable Real.pi scale ref) key = tableKeys.any fun k => k = key := by
  rw [← keys_eq scale ref, List.any_map]
  rfl

theorem getDu_eq (scale : ℝ) (ref : Option (Q ℝ)) (key : DKey) : getDu (unitsTable Real.pi scale ref) key =
    match (tableKeys.findIdx? fun k => k = key).bind fun i => (unitsTable Real.pi scale ref)[i]? with
    | none => none
    | some e => e.value.map fun v => (v, e.rightward) := by
  rw [getDu, List.find?_eq_bind_findIdx?_getElem?, ← keys_eq scale ref, List.findIdx?_map, Function.comp_def]
  generalize (List.findIdx? (fun e : DEntry ℝ => decide (e.key = key)) (unitsTable Real.pi scale ref)).bind (fun x => (unitsTable Real.pi scale ref)[x]?) = o
  cases o <;> rfl

/-- The definition of a unit that is a key. -/
theorem define_sym (scale : ℝ) (ref : Option (Q ℝ)) (key : Sym) (val : ℚ) (i : Nat) (h1 : (tableKeys.any fun k => k = .pow key val) = false)
    (h2 : (tableKeys.any fun k => k = .pow key (-val)) = false) (h3 : (tableKeys.findIdx? fun k => k = .sym key) = some i) {e : DEntry ℝ}
    (he : (unitsTable Real.pi scale ref)[i]? = some e) :
    define [] (unitsTable Real.pi scale ref) key val = e.value.map fun du => (if val = 1 then du else if val = -1 then recip du else powQ du val, e.rightward) := by
  have h0 : checkDu ([] : DTable ℝ) key val = none := rfl
  rw [define, h0]
  dsimp only
  rw [checkDu, if_neg (by show ¬ (_ + 1 = 0); omega), hasKey_eq, h1, hasKey_eq, h2, if_neg Bool.false_ne_true, if_neg Bool.false_ne_true, getDu_eq, h3]
  simp only [Option.bind_some, he, Option.map_map]
  rfl

theorem define_pixel (scale : ℝ) (ref : Option (Q ℝ)) : define [] (unitsTable Real.pi scale ref) "pixel".toList 1 = some (⟨scale, parsed "pixel_reference"⟩, false) := by
  rw [define_sym scale ref _ _ 35 (by decide +kernel) (by decide +kernel) (by decide +kernel) rfl]
  rfl

theorem define_reference (scale : ℝ) (ref : Q ℝ) : define [] (unitsTable Real.pi scale (some ref)) "pixel_reference".toList 1 = some (ref, false) := by
  rw [define_sym scale _ _ _ 36 (by decide +kernel) (by decide +kernel) (by decide +kernel) rfl]
  rfl

theorem define_deg (scale : ℝ) (ref : Option (Q ℝ)) : define [] (unitsTable Real.pi scale ref) "deg".toList 2 = some (powQ ⟨Real.pi / 180, parsed "rad"⟩ 2, false) := by
  rw [define_sym scale ref _ _ 13 (by decide +kernel) (by decide +kernel) (by decide +kernel) rfl]
  rfl

theorem define_sr (scale : ℝ) (ref : Option (Q ℝ)) : define [] (unitsTable Real.pi scale ref) "sr".toList 1 = none := by
  rw [define_sym scale ref _ _ 8 (by decide +kernel) (by decide +kernel) (by decide +kernel) rfl]
  rfl

theorem define_rad (scale : ℝ) (ref : Option (Q ℝ)) : define [] (unitsTable Real.pi scale ref) "rad".toList 2 = some (⟨1, parsed "sr"⟩, false) := by
  have h0 : checkDu ([] : DTable ℝ) "rad".toList 2 = none := rfl
  rw [define, h0]
  dsimp only
  rw [checkDu, if_neg (by show ¬ (_ + 1 = 0); omega), hasKey_eq, if_pos (by decide +kernel), getDu_eq]
  have h3 : (tableKeys.findIdx? fun k => k = .pow "rad".toList 2) = some 34 := by decide +kernel
  rw [h3]
  rfl

/-- The unit of the area if the units of the axes are not in the header. -/
theorem deg_deg : mulUnit (mulUnit [] (parsed "deg")) (parsed "deg") = [("deg".toList, 2)] := by decide +kernel

/-- C137: the area of the reference pixel is that of the parallelogram of the matrix of the header, or of the matrix of the scales and of any angle of rotation, which are the ones of the
projections; its unit is the product of the units of the two axes, degrees by default. -/
theorem C137_area_partial (h : AreaHeader) (a b c d : ℝ) (u1 u2 : UnitD) (hu1 : extract (h.cunit1.getD "deg".toList) = .ok u1) (hu2 : extract (h.cunit2.getD "deg".toList) = .ok u2)
    (hm : (h.cd11 = some a ∧ h.cd12 = some b ∧ h.cd21 = some c ∧ h.cd22 = some d) ∨
      (h.cd11 = none ∧ h.cd12 = none ∧ h.cd21 = none ∧ h.cd22 = none ∧ ∃ d1 d2 t, h.cdelt1 = some d1 ∧ h.cdelt2 = some d2 ∧
        a = Real.cos t * d1 ∧ c = -Real.sin t * d1 ∧ b = Real.sin t * d2 ∧ d = Real.cos t * d2)) :
    ∃ q, referenceToSolidAngle (some h) = .ok (some q) ∧ 0 ≤ q.mag ∧ MeasureTheory.volume (footprint a b c d) = ENNReal.ofReal q.mag ∧ q.unit = mulUnit (mulUnit [] u1) u2 := by
  have harea : referenceArea h = some |a * d - b * c| := by
    unfold referenceArea
    rcases hm with ⟨h1, h2, h3, h4⟩ | ⟨h1, h2, h3, h4, d1, d2, t, e1, e2, rfl, rfl, rfl, rfl⟩
    · rw [h1, h2, h3, h4]
    · rw [h1, h2, h3, h4, e1, e2]
      dsimp only
      congr 2
      linear_combination (- d1 * d2) * Real.sin_sq_add_cos_sq t
  refine ⟨⟨|a * d - b * c| * 1 * 1, mulUnit (mulUnit [] u1) u2⟩, ?_, by positivity, by rw [footprint_volume, mul_one, mul_one], rfl⟩
  unfold referenceToSolidAngle
  dsimp only
  rw [harea]
  dsimp only
  rw [hu1, hu2]
  rfl

/-- A matrix with a rotation of 90 degrees. -/
example : ∃ q, referenceToSolidAngle (some ⟨2, fun _ => true, some 0, some 2, some (-3), some 0, some 1, some 1, none, none⟩) = .ok (some q) ∧
    q.mag = 6 ∧ q.unit = [("deg".toList, 2)] := by
  obtain ⟨q, h1, h0, h2, h3⟩ := C137_area_partial ⟨2, fun _ => true, some 0, some 2, some (-3), some 0, some 1, some 1, none, none⟩ 0 2 (-3) 0 (parsed "deg") (parsed "deg") (by decide +kernel)
    (by decide +kernel) (.inl ⟨rfl, rfl, rfl, rfl⟩)
  refine ⟨q, h1, ?_, h3.trans deg_deg⟩
  rw [footprint_volume] at h2
  have := (ENNReal.ofReal_eq_ofReal_iff (by positivity) h0).1 h2
  rw [← this]
  norm_num

/-- C137: without header, without matrix and scales, the area of the reference pixel is not defined. -/
theorem C137_undefined (h : AreaHeader) (h1 : h.cd11 = none ∨ h.cd12 = none ∨ h.cd21 = none ∨ h.cd22 = none) (h2 : h.cdelt1 = none ∨ h.cdelt2 = none) :
    referenceToSolidAngle none = .ok none ∧ referenceToSolidAngle (some h) = .ok none := by
  have : referenceArea h = none := by
    obtain ⟨n, ax, c11, c12, c21, c22, d1, d2, u1, u2⟩ := h
    dsimp only at h1 h2
    unfold referenceArea
    cases c11 <;> cases c12 <;> cases c21 <;> cases c22 <;> cases d1 <;> cases d2 <;> simp_all
  exact ⟨rfl, by unfold referenceToSolidAngle; dsimp only; rw [this]⟩

/-- C137: a value per pixel is a value per steradian divided by the solid angle of the pixel: the relative area of the pixel times the area of the reference pixel, converted from square degrees. -/
theorem C137_solid_angle (x scale area : ℝ) : si 6 [] (unitsTable Real.pi scale (some ⟨area, [("deg".toList, 2)]⟩)) ⟨x, [("pixel".toList, 1)]⟩ =
    .ok ⟨x * (scale * (area * ((Real.pi / 180) ^ 2))), [("sr".toList, 1)]⟩ := by
  obtain ⟨ref, hr⟩ : ∃ ref : Option (Q ℝ), ref = some ⟨area, [("deg".toList, 2)]⟩ := ⟨_, rfl⟩
  have p1 : parsed "rad" = [("rad".toList, 1)] := by decide +kernel
  have p2 : parsed "sr" = [("sr".toList, 1)] := by decide +kernel
  have p3 : parsed "pixel_reference" = [("pixel_reference".toList, 1)] := by decide +kernel
  have m1 : mulUnit (mulInplace [] "sr".toList 1) [] = [("sr".toList, 1)] := by decide +kernel
  have m2 : mulUnit (mulUnit [] [("sr".toList, 1)]) [] = [("sr".toList, 1)] := by decide +kernel
  have hp : powQ ⟨Real.pi / 180, parsed "rad"⟩ 2 = (⟨(Real.pi / 180) ^ 2, [("rad".toList, 2)]⟩ : Q ℝ) := by
    unfold powQ
    congr 1
    · rw [rpow_real]; norm_num
    · rw [p1]; decide +kernel
  rw [← hr]
  have s1 : ∀ y, si 2 [] (unitsTable Real.pi scale ref) ⟨y, [("sr".toList, 1)]⟩ = .ok ⟨y, [("sr".toList, 1)]⟩ := fun y => by
    rw [si_none (define_sr scale ref), m1]
  have s2 : ∀ y, si 3 [] (unitsTable Real.pi scale ref) ⟨y, [("rad".toList, 2)]⟩ = .ok ⟨y, [("sr".toList, 1)]⟩ := fun y => by
    rw [si_some (define_rad scale ref) (by rw [p2]; exact s1 1)]
    dsimp only
    rw [m2, mul_one]
  have s3 : ∀ y, si 4 [] (unitsTable Real.pi scale ref) ⟨y, [("deg".toList, 2)]⟩ = .ok ⟨y * (Real.pi / 180) ^ 2, [("sr".toList, 1)]⟩ := fun y => by
    rw [si_some (define_deg scale ref) (by rw [hp]; exact s2 _)]
    dsimp only
    rw [m2]
  have s4 : ∀ y, si 5 [] (unitsTable Real.pi scale ref) ⟨y, [("pixel_reference".toList, 1)]⟩ = .ok ⟨y * (area * (Real.pi / 180) ^ 2), [("sr".toList, 1)]⟩ := fun y => by
    rw [si_some (d := ⟨area, [("deg".toList, 2)]⟩) (by rw [hr]; exact define_reference scale _) (s3 _)]
    dsimp only
    rw [m2]
  rw [si_some (define_pixel scale ref) (by rw [p3]; exact s4 _)]
  dsimp only
  rw [m2]

/-- C137: the relative area of a pixel is that of the projection if all the axes have a reference pixel, a reference value and a type, one otherwise; a failure of the projection is an error. -/
theorem C137_relative (h : AreaHeader) (scale : Option ℝ) :
    pixelToReference none scale = .ok ⟨1, [("pixel_reference".toList, 1)]⟩ ∧
    ((∃ i, 1 ≤ i ∧ i ≤ h.naxis ∧ h.axis i = false) → pixelToReference (some h) scale = .ok ⟨1, [("pixel_reference".toList, 1)]⟩) ∧
    ((∀ i, 1 ≤ i → i ≤ h.naxis → h.axis i = true) → pixelToReference (some h) scale =
      match scale with
      | some s => .ok ⟨s, [("pixel_reference".toList, 1)]⟩
      | none => .error .runtimeError) := by
  have p3 : parsed "pixel_reference" = [("pixel_reference".toList, 1)] := by decide +kernel
  unfold pixelToReference
  rw [p3]
  refine ⟨rfl, ?_, fun hi => ?_⟩
  · rintro ⟨i, h1, h2, h3⟩
    dsimp only
    rw [if_neg]
    intro hall
    have := List.all_eq_true.1 hall (i - 1) (List.mem_range.2 (by omega))
    rw [Nat.sub_add_cancel h1, h3] at this
    exact Bool.false_ne_true this
  · dsimp only
    rw [if_pos (List.all_eq_true.2 fun i h => hi _ (by omega) (by have := List.mem_range.1 h; omega))]

/-- C137: the solid angle by which a value per steradian is multiplied to be a value per pixel, from the header to the conversion: the relative area times the area of the parallelogram of the matrix. -/
theorem C137_pixel_partial (h : AreaHeader) (a b c d x s : ℝ) (h1 : h.cunit1 = none) (h2 : h.cunit2 = none) (hi : ∀ i, 1 ≤ i → i ≤ h.naxis → h.axis i = true)
    (hm : h.cd11 = some a ∧ h.cd12 = some b ∧ h.cd21 = some c ∧ h.cd22 = some d) :
    ∃ q r, referenceToSolidAngle (some h) = .ok (some q) ∧ pixelToReference (some h) (some s) = .ok r ∧
      si 6 [] (unitsTable Real.pi r.mag (some q)) ⟨x, [("pixel".toList, 1)]⟩ =
        .ok ⟨x * (s * ((MeasureTheory.volume (footprint a b c d)).toReal * (Real.pi / 180) ^ 2)), [("sr".toList, 1)]⟩ := by
  obtain ⟨⟨m, u⟩, q1, q2, q3, q4⟩ := C137_area_partial h a b c d (parsed "deg") (parsed "deg") (by rw [h1]; decide +kernel) (by rw [h2]; decide +kernel) (.inl hm)
  rw [deg_deg] at q4
  dsimp only at q2 q3 q4
  subst q4
  refine ⟨_, _, q1, (C137_relative h (some s)).2.2 hi, ?_⟩
  rw [C137_solid_angle, q3, ENNReal.toReal_ofReal q2]

/-- A map of two axes with a shear. -/
example : ∃ q r, referenceToSolidAngle (some ⟨2, fun _ => true, some 1, some 5, some 0, some 3, none, none, none, none⟩) = .ok (some q) ∧
    pixelToReference (some ⟨2, fun _ => true, some 1, some 5, some 0, some 3, none, none, none, none⟩) (some (1 / 2)) = .ok r ∧
    si 6 [] (unitsTable Real.pi r.mag (some q)) ⟨4, [("pixel".toList, 1)]⟩ = .ok ⟨6 * (Real.pi / 180) ^ 2, [("sr".toList, 1)]⟩ := by
  obtain ⟨q, r, h1, h2, h3⟩ := C137_pixel_partial ⟨2, fun _ => true, some 1, some 5, some 0, some 3, none, none, none, none⟩ 1 5 0 3 4 (1 / 2) rfl rfl (fun _ _ _ => rfl) ⟨rfl, rfl, rfl, rfl⟩
  refine ⟨q, r, h1, h2, h3.trans ?_⟩
  rw [footprint_volume, ENNReal.toReal_ofReal (by positivity)]
  congr 2
  norm_num
  ring

/-! ### What the functions do not read -/

/-- The matrix of the FITS standard if the header has the scales and the matrix PC. -/
def pcMatrix (d1 d2 p11 p12 p21 p22 : ℝ) : ℝ × ℝ × ℝ × ℝ := (d1 * p11, d1 * p12, d2 * p21, d2 * p22)

/-- C137 fails for a header with a matrix PC, which is not read: the area does not depend on it although that of the footprint does. -/
theorem C137_violation_pc : ∃ (h : AreaHeader) (q : Q ℝ) (m : ℝ × ℝ × ℝ × ℝ), h.cdelt1 = some 1 ∧ h.cdelt2 = some 1 ∧ m = pcMatrix 1 1 2 0 0 2 ∧
    referenceToSolidAngle (some h) = .ok (some q) ∧ MeasureTheory.volume (footprint m.1 m.2.1 m.2.2.1 m.2.2.2) ≠ ENNReal.ofReal q.mag := by
  obtain ⟨q, h1, h0, h2, -⟩ := C137_area_partial ⟨2, fun _ => true, none, none, none, none, some 1, some 1, none, none⟩ 1 0 0 1 (parsed "deg") (parsed "deg") (by decide +kernel) (by decide +kernel)
    (.inr ⟨rfl, rfl, rfl, rfl, 1, 1, 0, rfl, rfl, by simp, by simp, by simp, by simp⟩)
  refine ⟨_, q, _, rfl, rfl, rfl, h1, ?_⟩
  rw [← h2, footprint_volume, footprint_volume]
  norm_num [pcMatrix]

/-- C137 fails for a matrix CD whose zero elements are not in the header: the standard gives them the value zero, the area is not defined or is that of the scales. -/
theorem C137_violation_incomplete : ∃ h : AreaHeader, h.cd11 = some 2 ∧ h.cd22 = some 2 ∧ referenceToSolidAngle (some h) = .ok none :=
  ⟨⟨2, fun _ => true, some 2, none, none, some 2, none, none, none, none⟩, rfl, rfl, rfl⟩

end Verif.Units
