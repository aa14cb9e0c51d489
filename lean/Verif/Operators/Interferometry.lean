import Verif.Sparse.Spec
import Mathlib.Analysis.SpecialFunctions.Trigonometric.Basic
import Mathlib.LinearAlgebra.CrossProduct
import Mathlib.LinearAlgebra.Matrix.Adjugate
import Mathlib.Tactic

/-!
C119: the rotations of the polarisation computed for bolometric interferometry (bi.f90.j2).

The numbers are real; a division by zero gives `none` (NaN or infinite).  Arrays are functions of indices starting from zero.
-/
namespace Verif.Operators.Interf
open Verif.Sparse Matrix

/-! ### Model -/

/-- bi.f90.j2 14-22. -/
noncomputable def en2ephi (en : Fin 3 → ℝ) : Option (Fin 2 → ℝ) :=
  if 1 - en 2 ^ 2 ≤ 0 then none
  else
    let tmp := 1 / √(1 - en 2 ^ 2)
    some ![-(en 1) * tmp, en 0 * tmp]

/-- bi.f90.j2 25-41. -/
noncomputable def en2ethetaEphi (en : Fin 3 → ℝ) : Option ((Fin 3 → ℝ) × (Fin 2 → ℝ)) :=
  let x := en 0
  let y := en 1
  let z := en 2
  if 1 - z ^ 2 ≤ 0 then none
  else
    let tmp := √(1 - z ^ 2)
    let etheta3 := -tmp
    let tmp := 1 / tmp
    let ephi := ![-y * tmp, x * tmp]
    let tmp := z * tmp
    some (![x * tmp, y * tmp, etheta3], ephi)

/-- bi.f90.j2 44-52; `rot` is the transpose of the rotation matrix (46). -/
def rotEphi (rot : Matrix (Fin 3) (Fin 3) ℝ) (ephi : Fin 2 → ℝ) : Fin 3 → ℝ :=
  ![rot 0 0 * ephi 0 + rot 1 0 * ephi 1, rot 0 1 * ephi 0 + rot 1 1 * ephi 1, rot 0 2 * ephi 0 + rot 1 2 * ephi 1]

/-- bi.f90.j2 55-63. -/
def rotinvE (rot : Matrix (Fin 3) (Fin 3) ℝ) (e : Fin 3 → ℝ) : Fin 3 → ℝ :=
  ![rot 0 0 * e 0 + rot 0 1 * e 1 + rot 0 2 * e 2, rot 1 0 * e 0 + rot 1 1 * e 1 + rot 1 2 * e 2,
    rot 2 0 * e 0 + rot 2 1 * e 1 + rot 2 2 * e 2]

/-- bi.f90.j2 66-79: `(r23, r33)`. -/
noncomputable def eni2rotation (rot : Matrix (Fin 3) (Fin 3) ℝ) (ethetaf : Fin 3 → ℝ) (ephif : Fin 2 → ℝ) (eni : Fin 3 → ℝ) :
    Option (ℝ × ℝ) :=
  (en2ephi eni).map fun ephii =>
    let r := rotEphi rot ephii
    (ethetaf 0 * r 0 + ethetaf 1 * r 1 + ethetaf 2 * r 2, ephif 0 * r 0 + ephif 1 * r 1)

/-- bi.f90.j2 103-110, 147-155, 198-201: the rotation of one element, after the change of sign. -/
noncomputable def rotation (rot : Matrix (Fin 3) (Fin 3) ℝ) (enf : Fin 3 → ℝ) : Option (ℝ × ℝ) :=
  (en2ethetaEphi enf).bind fun f => (eni2rotation rot f.1 f.2 (rotinvE rot enf)).map fun (r23, r33) => (r23, -1 * r33)

/-- bi.f90.j2 83-120: each iteration writes the values of its own element and leaves its index. -/
noncomputable def matrixRot2d (npixels ntimes ndetectors : Nat) (rot : Nat → Matrix (Fin 3) (Fin 3) ℝ) (enf : Nat → Nat → Fin 3 → ℝ)
    (vals : Nat → Nat → ℝ) (matrix : Nat → Nat → Nat → Elem (Option (Rot2d ℝ))) (ipixel itime idetector : Nat) : Elem (Option (Rot2d ℝ)) :=
  let old := matrix ipixel itime idetector
  if ipixel < npixels ∧ itime < ntimes ∧ idetector < ndetectors then
    { old with value := (rotation (rot itime) (enf ipixel idetector)).map fun (r23, r33) =>
        let val := vals ipixel idetector
        ⟨val * (r33 ^ 2 - r23 ^ 2), -val * 2 * r33 * r23⟩ }
  else old

/-- bi.f90.j2 171-212 `weighted_matrix_rot3d`. -/
noncomputable def weightedMatrixRot3d (npixels ntimes ndetectors : Nat) (rot : Nat → Matrix (Fin 3) (Fin 3) ℝ) (enf : Nat → Nat → Fin 3 → ℝ)
    (vals : Nat → Nat → ℝ) (weights : Nat → Nat → Nat → ℝ) (matrix : Nat → Nat → Nat → Elem (Option (Rot3d ℝ)))
    (ipixel itime idetector : Nat) : Elem (Option (Rot3d ℝ)) :=
  let old := matrix ipixel itime idetector
  if ipixel < npixels ∧ itime < ntimes ∧ idetector < ndetectors then
    { old with value := (rotation (rot itime) (enf ipixel idetector)).map fun (r23, r33) =>
        let val := vals ipixel idetector * weights ipixel itime idetector
        ⟨val, val * (r33 ^ 2 - r23 ^ 2), -val * 2 * r33 * r23⟩ }
  else old

/-- bi.f90.j2 126-165 `matrix_rot3d`. -/
noncomputable def matrixRot3d (npixels ntimes ndetectors : Nat) (rot : Nat → Matrix (Fin 3) (Fin 3) ℝ) (enf : Nat → Nat → Fin 3 → ℝ)
    (vals : Nat → Nat → ℝ) (matrix : Nat → Nat → Nat → Elem (Option (Rot3d ℝ))) (ipixel itime idetector : Nat) : Elem (Option (Rot3d ℝ)) :=
  let old := matrix ipixel itime idetector
  if ipixel < npixels ∧ itime < ntimes ∧ idetector < ndetectors then
    { old with value := (rotation (rot itime) (enf ipixel idetector)).map fun (r23, r33) =>
        let val := vals ipixel idetector
        ⟨val, val * (r33 ^ 2 - r23 ^ 2), -val * 2 * r33 * r23⟩ }
  else old

/-! ### Specification -/

/-- The direction of zenith angle `θ` and azimuth `φ`. -/
noncomputable def dir (θ φ : ℝ) : Fin 3 → ℝ := ![Real.sin θ * Real.cos φ, Real.sin θ * Real.sin φ, Real.cos θ]

/-- The unit vector to the North, orthogonal to the direction. -/
noncomputable def north (θ φ : ℝ) : Fin 3 → ℝ := ![-(Real.cos θ * Real.cos φ), -(Real.cos θ * Real.sin φ), Real.sin θ]

/-- The unit vector to the East. -/
noncomputable def east (φ : ℝ) : Fin 3 → ℝ := ![-Real.sin φ, Real.cos φ, 0]

/-- The unit vector at angle `α` from the North to the East. -/
noncomputable def polar (θ φ α : ℝ) : Fin 3 → ℝ := fun k => Real.cos α * north θ φ k + Real.sin α * east φ k

/-- A rotation. -/
structure IsRotation (R : Matrix (Fin 3) (Fin 3) ℝ) : Prop where
  orth : Rᵀ * R = 1
  det : R.det = 1

/-- The Stokes parameters `Q` and `U` of light of intensity `p` polarised at angle `α` (IAU convention). -/
noncomputable def stokesQU (p α : ℝ) : Nat → ℝ
  | 0 => p * Real.cos (2 * α)
  | 1 => p * Real.sin (2 * α)
  | _ => 0

/-- `I`, `Q` and `U`. -/
noncomputable def stokesIQU (i p α : ℝ) : Nat → ℝ
  | 0 => i
  | n + 1 => stokesQU p α n

/-! ### Proofs -/

theorem basis {θ : ℝ} (h0 : 0 < θ) (h1 : θ < Real.pi) (φ : ℝ) : 0 < 1 - dir θ φ 2 ^ 2 ∧ √(1 - dir θ φ 2 ^ 2) = Real.sin θ ∧ 0 < Real.sin θ := by
  have hs := Real.sin_pos_of_pos_of_lt_pi h0 h1
  have e : 1 - dir θ φ 2 ^ 2 = Real.sin θ ^ 2 := by
    simp only [dir, cons_val]
    linarith [Real.sin_sq_add_cos_sq θ]
  refine ⟨?_, ?_, hs⟩
  · rw [e]
    positivity
  · rw [e, Real.sqrt_sq hs.le]

theorem en2ephi_dir {θ : ℝ} (h0 : 0 < θ) (h1 : θ < Real.pi) (φ : ℝ) : en2ephi (dir θ φ) = some ![-Real.sin φ, Real.cos φ] := by
  obtain ⟨a, b, c⟩ := basis h0 h1 φ
  unfold en2ephi
  rw [if_neg (by linarith)]
  dsimp only
  rw [b]
  congr 1
  ext k
  fin_cases k <;> simp [dir] <;> field_simp

theorem en2ethetaEphi_dir {θ : ℝ} (h0 : 0 < θ) (h1 : θ < Real.pi) (φ : ℝ) :
    en2ethetaEphi (dir θ φ) = some (fun k => -north θ φ k, ![-Real.sin φ, Real.cos φ]) := by
  obtain ⟨a, b, c⟩ := basis h0 h1 φ
  unfold en2ethetaEphi
  dsimp only
  rw [if_neg (by linarith), b]
  congr 2
  · ext k
    fin_cases k <;> simp [dir, north] <;> field_simp
  · ext k
    fin_cases k <;> simp [dir] <;> field_simp

theorem rotEphi_eq (R : Matrix (Fin 3) (Fin 3) ℝ) (φ : ℝ) : rotEphi Rᵀ ![-Real.sin φ, Real.cos φ] = R *ᵥ east φ := by
  ext k
  fin_cases k <;> simp [rotEphi, east, mulVec, dotProduct, Fin.sum_univ_three]

theorem rotinvE_eq (R : Matrix (Fin 3) (Fin 3) ℝ) (e : Fin 3 → ℝ) : rotinvE Rᵀ e = Rᵀ *ᵥ e := by
  ext k
  fin_cases k <;> simp [rotinvE, mulVec, dotProduct, Fin.sum_univ_three]

/-- A rotation preserves the cross products. -/
theorem IsRotation.cross {R : Matrix (Fin 3) (Fin 3) ℝ} (h : IsRotation R) (a b : Fin 3 → ℝ) : (R *ᵥ a) ⨯₃ (R *ᵥ b) = R *ᵥ (a ⨯₃ b) := by
  have e : adjugate R = Rᵀ := by
    have := adjugate_mul R
    rw [h.det, one_smul] at this
    calc adjugate R = adjugate R * (R * Rᵀ) := by rw [mul_eq_one_comm.1 h.orth, mul_one]
      _ = Rᵀ := by rw [← mul_assoc, this, one_mul]
  rw [adjugate_fin_three] at e
  have c : ∀ i j, _ := fun i j => congrFun (congrFun e i) j
  have c00 := c 0 0
  have c01 := c 0 1
  have c02 := c 0 2
  have c10 := c 1 0
  have c11 := c 1 1
  have c12 := c 1 2
  have c20 := c 2 0
  have c21 := c 2 1
  have c22 := c 2 2
  simp at c00 c01 c02 c10 c11 c12 c20 c21 c22
  ext k
  fin_cases k
  · simp [cross_apply, mulVec, dotProduct, Fin.sum_univ_three]
    linear_combination c00 * (a 1 * b 2 - a 2 * b 1) + c10 * (a 2 * b 0 - a 0 * b 2) + c20 * (a 0 * b 1 - a 1 * b 0)
  · simp [cross_apply, mulVec, dotProduct, Fin.sum_univ_three]
    linear_combination c01 * (a 1 * b 2 - a 2 * b 1) + c11 * (a 2 * b 0 - a 0 * b 2) + c21 * (a 0 * b 1 - a 1 * b 0)
  · simp [cross_apply, mulVec, dotProduct, Fin.sum_univ_three]
    linear_combination c02 * (a 1 * b 2 - a 2 * b 1) + c12 * (a 2 * b 0 - a 0 * b 2) + c22 * (a 0 * b 1 - a 1 * b 0)

theorem cross_east (θ φ : ℝ) : dir θ φ ⨯₃ east φ = north θ φ := by
  ext k
  fin_cases k <;> simp [cross_apply, dir, east, north]
  linear_combination Real.sin θ * Real.sin_sq_add_cos_sq φ

theorem cross_north (θ φ : ℝ) : dir θ φ ⨯₃ north θ φ = -east φ := by
  ext k
  fin_cases k <;> simp [cross_apply, dir, east, north]
  · linear_combination Real.sin φ * Real.sin_sq_add_cos_sq θ
  · linear_combination -Real.cos φ * Real.sin_sq_add_cos_sq θ
  · ring

/-- A vector orthogonal to the direction. -/
theorem decompose {θ φ : ℝ} {v : Fin 3 → ℝ} (h : v ⬝ᵥ dir θ φ = 0) : v = (v ⬝ᵥ north θ φ) • north θ φ + (v ⬝ᵥ east φ) • east φ := by
  have h1 := Real.sin_sq_add_cos_sq θ
  have h2 := Real.sin_sq_add_cos_sq φ
  simp [dotProduct, dir, Fin.sum_univ_three] at h
  ext k
  fin_cases k <;> simp [dotProduct, east, north, Fin.sum_univ_three]
  · linear_combination (Real.sin θ * Real.cos φ) * h - v 0 * (Real.cos φ ^ 2 * h1 + h2) - v 1 * Real.cos φ * Real.sin φ * h1
  · linear_combination (Real.sin θ * Real.sin φ) * h - v 0 * Real.cos φ * Real.sin φ * h1 - v 1 * (Real.sin φ ^ 2 * h1 + h2)
  · linear_combination Real.cos θ * h - v 2 * h1

/-- What the rotation does with the polarisation vectors. -/
theorem rotation_spec {R : Matrix (Fin 3) (Fin 3) ℝ} (h : IsRotation R) {θf φf θi φi : ℝ} (hf : 0 < θf ∧ θf < Real.pi)
    (hi : 0 < θi ∧ θi < Real.pi) (e : Rᵀ *ᵥ dir θf φf = dir θi φi) : ∃ ψ, rotation Rᵀ (dir θf φf) = some (-Real.sin ψ, -Real.cos ψ) ∧
      ∀ α, R *ᵥ polar θi φi α = polar θf φf (α - ψ) := by
  have e' : R *ᵥ dir θi φi = dir θf φf := by
    rw [← e, mulVec_mulVec, mul_eq_one_comm.1 h.orth, one_mulVec]
  set v := R *ᵥ east φi with hv
  have dot : ∀ a b : Fin 3 → ℝ, (R *ᵥ a) ⬝ᵥ (R *ᵥ b) = a ⬝ᵥ b := fun a b => by
    rw [dotProduct_mulVec, vecMul_mulVec, h.orth, vecMul_one]
  have h0 : v ⬝ᵥ dir θf φf = 0 := by
    rw [← e', dot]
    simp [dotProduct, Fin.sum_univ_three, east, dir]
    ring
  have h1 : v ⬝ᵥ v = 1 := by
    rw [dot]
    simp [dotProduct, Fin.sum_univ_three, east]
    linear_combination Real.sin_sq_add_cos_sq φi
  have dv := decompose h0
  set s := v ⬝ᵥ north θf φf with hs
  set c := v ⬝ᵥ east φf with hc
  have hcs : c ^ 2 + s ^ 2 = 1 := by
    have : v ⬝ᵥ v = s * s + c * c := by
      rw [congrArg (· ⬝ᵥ v) dv, add_dotProduct, smul_dotProduct, smul_dotProduct, dotProduct_comm _ v, dotProduct_comm _ v, ← hs, ← hc]
      rfl
    linarith
  obtain ⟨ψ, hψ⟩ : ∃ ψ, c = Real.cos ψ ∧ s = Real.sin ψ := by
    have hn : ‖(⟨c, s⟩ : ℂ)‖ = 1 := by
      rw [Complex.norm_def, Complex.normSq_mk, show c * c + s * s = 1 by linarith, Real.sqrt_one]
    refine ⟨Complex.arg ⟨c, s⟩, ?_, ?_⟩
    · rw [Complex.cos_arg (by intro h; rw [h] at hn; simp at hn), hn, div_one]
    · rw [Complex.sin_arg, hn, div_one]
  have hn : R *ᵥ north θi φi = c • north θf φf - s • east φf := by
    rw [← cross_east, ← h.cross, e', ← hv, dv, map_add, map_smul, map_smul, cross_east, cross_north]
    module
  refine ⟨ψ, ?_, fun α => ?_⟩
  · unfold rotation eni2rotation
    rw [en2ethetaEphi_dir hf.1 hf.2, rotinvE_eq, e, en2ephi_dir hi.1 hi.2]
    simp only [Option.map_some, Option.bind_some, rotEphi_eq, ← hv]
    congr 2
    · rw [← hψ.2, hs]
      simp [dotProduct, Fin.sum_univ_three]
      ring
    · rw [← hψ.1, hc]
      simp [dotProduct, Fin.sum_univ_three, east]
      ring
  · have : polar θi φi α = Real.cos α • north θi φi + Real.sin α • east φi := rfl
    rw [this, mulVec_add, mulVec_smul, mulVec_smul, hn, ← hv, dv, hψ.1, hψ.2]
    ext k
    simp only [polar, Pi.add_apply, Pi.smul_apply, Pi.sub_apply, smul_eq_mul, Real.cos_sub, Real.sin_sub]
    ring

/-- The values of the element rotate the Stokes parameters. -/
theorem stokes_rotate (val p α ψ : ℝ) : ∀ r < 2, ∑ c ∈ Finset.range 2,
    rot2dEntry (⟨val * ((-Real.cos ψ) ^ 2 - (-Real.sin ψ) ^ 2), -val * 2 * -Real.cos ψ * -Real.sin ψ⟩ : Rot2d ℝ) r c * stokesQU p α c =
      val * stokesQU p (α - ψ) r := by
  intro r hr
  have h1 := Real.sin_sq_add_cos_sq ψ
  have e : 2 * (α - ψ) = 2 * α - 2 * ψ := by ring
  interval_cases r
  · simp [Finset.sum_range_succ, rot2dEntry, stokesQU, e, Real.cos_sub, Real.cos_two_mul ψ, Real.sin_two_mul ψ]
    linear_combination (-val * p * Real.cos (2 * α)) * h1
  · simp [Finset.sum_range_succ, rot2dEntry, stokesQU, e, Real.sin_sub, Real.cos_two_mul ψ, Real.sin_two_mul ψ]
    linear_combination (-val * p * Real.sin (2 * α)) * h1

/-! ### Theorems -/

section
variable {npixels ntimes ndetectors ipixel itime idetector : Nat} {rot : Nat → Matrix (Fin 3) (Fin 3) ℝ} {enf : Nat → Nat → Fin 3 → ℝ}
  {vals : Nat → Nat → ℝ} {R : Matrix (Fin 3) (Fin 3) ℝ} {θf φf θi φi : ℝ}

/-- Away from the poles, the element of `matrix_rot2d` keeps its index and gives the Stokes parameters of the rotated polarisation, times the value. -/
theorem C119_rot2d_partial {matrix : Nat → Nat → Nat → Elem (Option (Rot2d ℝ))} (hp : ipixel < npixels) (ht : itime < ntimes) (hd : idetector < ndetectors)
    (hr : rot itime = Rᵀ) (h : IsRotation R) (he : enf ipixel idetector = dir θf φf) (hf : 0 < θf ∧ θf < Real.pi)
    (hi : 0 < θi ∧ θi < Real.pi) (e : Rᵀ *ᵥ dir θf φf = dir θi φi) :
    ∃ x, matrixRot2d npixels ntimes ndetectors rot enf vals matrix ipixel itime idetector = ⟨(matrix ipixel itime idetector).index, some x⟩ ∧
      ∀ α, ∃ β, R *ᵥ polar θi φi α = polar θf φf β ∧
        ∀ p, ∀ r < 2, ∑ c ∈ Finset.range 2, rot2dEntry x r c * stokesQU p α c = vals ipixel idetector * stokesQU p β r := by
  obtain ⟨ψ, a, b⟩ := rotation_spec h hf hi e
  refine ⟨_, ?_, fun α => ⟨α - ψ, b α, fun p => stokes_rotate _ p α ψ⟩⟩
  unfold matrixRot2d
  dsimp only
  rw [if_pos ⟨hp, ht, hd⟩, hr, he, a]
  rfl

theorem stokes_rotate3 (val i p α ψ : ℝ) : ∀ r < 3, ∑ c ∈ Finset.range 3,
    rot3dEntry (⟨val, val * ((-Real.cos ψ) ^ 2 - (-Real.sin ψ) ^ 2), -val * 2 * -Real.cos ψ * -Real.sin ψ⟩ : Rot3d ℝ) r c * stokesIQU i p α c =
      val * stokesIQU i p (α - ψ) r := by
  intro r hr
  have h0 := stokes_rotate val p α ψ 0 (by norm_num)
  have h1 := stokes_rotate val p α ψ 1 (by norm_num)
  simp only [Finset.sum_range_succ, Finset.sum_range_zero, rot2dEntry] at h0 h1
  interval_cases r
  · simp [Finset.sum_range_succ, rot3dEntry, stokesIQU]
  · simp only [Finset.sum_range_succ, Finset.sum_range_zero, rot3dEntry, stokesIQU]
    linear_combination h0
  · simp only [Finset.sum_range_succ, Finset.sum_range_zero, rot3dEntry, stokesIQU]
    linear_combination h1

/-- Same with the intensity, for `matrix_rot3d`. -/
theorem C119_rot3d_partial {matrix : Nat → Nat → Nat → Elem (Option (Rot3d ℝ))} (hp : ipixel < npixels) (ht : itime < ntimes) (hd : idetector < ndetectors)
    (hr : rot itime = Rᵀ) (h : IsRotation R) (he : enf ipixel idetector = dir θf φf) (hf : 0 < θf ∧ θf < Real.pi)
    (hi : 0 < θi ∧ θi < Real.pi) (e : Rᵀ *ᵥ dir θf φf = dir θi φi) :
    ∃ x, matrixRot3d npixels ntimes ndetectors rot enf vals matrix ipixel itime idetector = ⟨(matrix ipixel itime idetector).index, some x⟩ ∧
      ∀ α, ∃ β, R *ᵥ polar θi φi α = polar θf φf β ∧
        ∀ i p, ∀ r < 3, ∑ c ∈ Finset.range 3, rot3dEntry x r c * stokesIQU i p α c = vals ipixel idetector * stokesIQU i p β r := by
  obtain ⟨ψ, a, b⟩ := rotation_spec h hf hi e
  refine ⟨_, ?_, fun α => ⟨α - ψ, b α, fun i p => stokes_rotate3 _ i p α ψ⟩⟩
  unfold matrixRot3d
  dsimp only
  rw [if_pos ⟨hp, ht, hd⟩, hr, he, a]
  rfl

/-- Same for `weighted_matrix_rot3d`: the value is multiplied by the weight of the element. -/
theorem C119_weighted_partial {weights : Nat → Nat → Nat → ℝ} {matrix : Nat → Nat → Nat → Elem (Option (Rot3d ℝ))} (hp : ipixel < npixels)
    (ht : itime < ntimes) (hd : idetector < ndetectors) (hr : rot itime = Rᵀ) (h : IsRotation R) (he : enf ipixel idetector = dir θf φf)
    (hf : 0 < θf ∧ θf < Real.pi) (hi : 0 < θi ∧ θi < Real.pi) (e : Rᵀ *ᵥ dir θf φf = dir θi φi) :
    ∃ x, weightedMatrixRot3d npixels ntimes ndetectors rot enf vals weights matrix ipixel itime idetector =
        ⟨(matrix ipixel itime idetector).index, some x⟩ ∧
      ∀ α, ∃ β, R *ᵥ polar θi φi α = polar θf φf β ∧
        ∀ i p, ∀ r < 3, ∑ c ∈ Finset.range 3, rot3dEntry x r c * stokesIQU i p α c =
          vals ipixel idetector * weights ipixel itime idetector * stokesIQU i p β r := by
  obtain ⟨ψ, a, b⟩ := rotation_spec h hf hi e
  refine ⟨_, ?_, fun α => ⟨α - ψ, b α, fun i p => stokes_rotate3 _ i p α ψ⟩⟩
  unfold weightedMatrixRot3d
  dsimp only
  rw [if_pos ⟨hp, ht, hd⟩, hr, he, a]
  rfl

/-- The elements outside of the arrays are not modified. -/
theorem C119_outside {weights : Nat → Nat → Nat → ℝ} {m2 : Nat → Nat → Nat → Elem (Option (Rot2d ℝ))} {m3 : Nat → Nat → Nat → Elem (Option (Rot3d ℝ))}
    (h : npixels ≤ ipixel ∨ ntimes ≤ itime ∨ ndetectors ≤ idetector) :
    matrixRot2d npixels ntimes ndetectors rot enf vals m2 ipixel itime idetector = m2 ipixel itime idetector ∧
    matrixRot3d npixels ntimes ndetectors rot enf vals m3 ipixel itime idetector = m3 ipixel itime idetector ∧
    weightedMatrixRot3d npixels ntimes ndetectors rot enf vals weights m3 ipixel itime idetector = m3 ipixel itime idetector := by
  have : ¬ (ipixel < npixels ∧ itime < ntimes ∧ idetector < ndetectors) := by omega
  exact ⟨if_neg this, if_neg this, if_neg this⟩

end

/-- The full statement does not hold: in the direction of the axis of the instrument the values are not numbers, although a polarisation can be
rotated (here by the identity). -/
theorem C119_violation_pole (vals : Nat → Nat → ℝ) (matrix : Nat → Nat → Nat → Elem (Option (Rot2d ℝ))) :
    IsRotation (1 : Matrix (Fin 3) (Fin 3) ℝ) ∧
    (matrixRot2d 1 1 1 (fun _ => 1) (fun _ _ => dir 0 0) vals matrix 0 0 0).value = none := by
  refine ⟨⟨by simp, by simp⟩, ?_⟩
  simp [matrixRot2d, rotation, en2ethetaEphi, dir]

/-- Same when the axis of the instrument is pointed at the pole from another direction: the direction on the sky is the pole. -/
theorem C119_violation_sky (vals : Nat → Nat → ℝ) (matrix : Nat → Nat → Nat → Elem (Option (Rot2d ℝ))) :
    IsRotation (!![0, 0, 1; 1, 0, 0; 0, 1, 0] : Matrix (Fin 3) (Fin 3) ℝ) ∧
    (matrixRot2d 1 1 1 (fun _ => (!![0, 0, 1; 1, 0, 0; 0, 1, 0] : Matrix (Fin 3) (Fin 3) ℝ)ᵀ) (fun _ _ => dir (Real.pi / 2) 0) vals matrix 0 0 0).value = none := by
  refine ⟨⟨?_, ?_⟩, ?_⟩
  · ext i j
    fin_cases i <;> fin_cases j <;> simp [Matrix.mul_apply, Fin.sum_univ_three]
  · simp [det_fin_three]
  · simp [matrixRot2d, rotation, en2ethetaEphi, eni2rotation, en2ephi, rotinvE, dir]

/-- A case that meets the hypotheses: a quarter turn around the vertical axis. -/
example (vals : Nat → Nat → ℝ) (matrix : Nat → Nat → Nat → Elem (Option (Rot2d ℝ))) :
    ∃ x, matrixRot2d 1 1 1 (fun _ => (!![0, 0, 1; 1, 0, 0; 0, 1, 0] : Matrix (Fin 3) (Fin 3) ℝ)ᵀ) (fun _ _ => dir (Real.pi / 2) (Real.pi / 2)) vals matrix
      0 0 0 = ⟨(matrix 0 0 0).index, some x⟩ := by
  have h : IsRotation (!![0, 0, 1; 1, 0, 0; 0, 1, 0] : Matrix (Fin 3) (Fin 3) ℝ) := (C119_violation_sky vals matrix).1
  have hpi := Real.pi_pos
  have e : (!![0, 0, 1; 1, 0, 0; 0, 1, 0] : Matrix (Fin 3) (Fin 3) ℝ)ᵀ *ᵥ dir (Real.pi / 2) (Real.pi / 2) = dir (Real.pi / 2) 0 := by
    ext k
    fin_cases k <;> simp [dir, mulVec, dotProduct, Fin.sum_univ_three]
  obtain ⟨x, hx, -⟩ := C119_rot2d_partial (npixels := 1) (ntimes := 1) (ndetectors := 1) (ipixel := 0) (itime := 0) (idetector := 0) (vals := vals)
    (rot := fun _ => (!![0, 0, 1; 1, 0, 0; 0, 1, 0] : Matrix (Fin 3) (Fin 3) ℝ)ᵀ) (enf := fun _ _ => dir (Real.pi / 2) (Real.pi / 2)) (matrix := matrix)
    (by norm_num) (by norm_num) (by norm_num) rfl h rfl ⟨by linarith, by linarith⟩ ⟨by linarith, by linarith⟩ e
  exact ⟨x, hx⟩

end Verif.Operators.Interf
