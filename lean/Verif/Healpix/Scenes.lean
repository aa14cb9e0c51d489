import Verif.Operators.Spectral
import Verif.Healpix.Conversions
import Mathlib.Analysis.SpecialFunctions.ExpDeriv
import Mathlib.Analysis.Calculus.Deriv.Inv

/-! The Healpix scenes (interfaces/healpy/scenes.py 13-138). -/

namespace Verif.Healpix

open Verif.Py
open Verif.Operators

noncomputable section

/-! ### The model -/

/-- A Healpix scene. -/
structure Scene where
  shape : List Nat
  topixel : Op
  nside : Nat
  npixel : Nat
  kind : List Char
  nest : Bool
  solidAngle : ℝ

/-- scenes.py 40-60 `SceneHealpix.__init__`. -/
def sceneHealpix (nside : Nat) (kind : List Char) (nest : Bool) (convention : List Char) : Res Scene :=
  let kind := kind.map Char.toUpper
  if kind ∉ [['I'], ['Q', 'U'], ['I', 'Q', 'U']] then .error .valueError
  else do
    let topixel ← spherical2Healpix nside convention nest
    .ok { shape := if kind ≠ ['I'] then [12 * nside ^ 2, kind.length] else [12 * nside ^ 2], topixel := topixel, nside := nside, npixel := 12 * nside ^ 2,
          kind := kind, nest := nest, solidAngle := 4 * Real.pi / (12 * nside ^ 2 : ℕ) }

/-- scenes.py 129-138 `SceneHealpixCMB.get_unit_conversion_operator`: the operator, applied to a value of the map. -/
def unitConversion (p : Constants) (absolute : Bool) (temperature solidAngle nu : ℝ) : ℝ → ℝ :=
  let a := 2 * solidAngle * p.h * nu ^ 3 / p.c ^ 2
  if absolute then
    let hnu_k := p.h * nu / p.k
    fun t => a / expm1 (hnu_k * (1 / t))
  else
    let T := temperature
    let hnu_kT := p.h * nu / (p.k * T)
    let val := 1e-6 * a * hnu_kT * Real.exp hnu_kT / (expm1 hnu_kT ^ 2 * T)
    fun t => val * t

/-! ### The properties -/

/-- C114: the number of Stokes parameters of a kind. -/
def stokes : List Char → Option Nat
  | ['I'] => some 1
  | ['Q', 'U'] => some 2
  | ['I', 'Q', 'U'] => some 3
  | _ => none

/-- C114: the pixels of a scene cover the sphere, its maps have one value for each pixel and each Stokes parameter, and the last dimension is removed for the
maps of intensity. -/
theorem C114_scene {nside : Nat} (hn : 0 < nside) {kind convention : List Char} {nest : Bool} {s : Scene} (h : sceneHealpix nside kind nest convention = .ok s) :
    s.npixel * s.solidAngle = 4 * Real.pi ∧ (∃ n, stokes (kind.map Char.toUpper) = some n ∧ s.shape.prod = s.npixel * n ∧ (s.shape.length = 1 ↔ n = 1)) ∧
      s.shape.head? = some s.npixel ∧ s.topixel = .spherical2Healpix nside (normalise convention) nest := by
  unfold sceneHealpix at h
  dsimp only at h
  split_ifs at h with hk hI
  all_goals
    unfold spherical2Healpix at h
    split_ifs at h with hc
    swap
    · simp [bind, Except.bind] at h
    · simp only [bind, Except.bind, Except.ok.injEq] at h
      subst h
      have hne : ((12 * nside ^ 2 : ℕ) : ℝ) ≠ 0 := by positivity
      refine ⟨?_, ?_, ?_, ?_⟩
      · dsimp only
        field_simp
      · simp only [List.mem_cons, List.not_mem_nil, or_false] at hk
        rcases hk with e | e | e <;> rw [e] at hI <;> rw [e] <;> simp [stokes] at hI ⊢
      · rfl
      · rfl

/-- C114: the scenes that cannot be made are rejected with an explicit error. -/
theorem C114_rejects (nside : Nat) (kind convention : List Char) (nest : Bool) :
    (∃ s, sceneHealpix nside kind nest convention = .ok s) ∨ sceneHealpix nside kind nest convention = .error .valueError := by
  unfold sceneHealpix
  dsimp only
  split_ifs with hk
  all_goals
    first
    | exact .inr rfl
    | (unfold spherical2Healpix
       split_ifs with hc
       · exact .inl ⟨_, rfl⟩
       · exact .inr rfl)

/-- C114: the kinds are I, QU and IQU, in lower or upper case, and the conventions are those of the operators. -/
theorem C114_kinds (nside : Nat) (kind convention : List Char) (nest : Bool) :
    (∃ s, sceneHealpix nside kind nest convention = .ok s) ↔ (stokes (kind.map Char.toUpper) ≠ none ∧ ∃ c ∈ conventions, normalise convention = c.toList) := by
  have hst : stokes (kind.map Char.toUpper) ≠ none ↔ kind.map Char.toUpper ∈ [['I'], ['Q', 'U'], ['I', 'Q', 'U']] := by
    generalize kind.map Char.toUpper = k
    unfold stokes
    split <;> simp_all
  have hcv := C111_convention nside nest convention
  rw [hst]
  unfold sceneHealpix
  dsimp only
  by_cases hk : kind.map Char.toUpper ∈ [['I'], ['Q', 'U'], ['I', 'Q', 'U']]
  · rw [if_neg (not_not.2 hk)]
    by_cases hc : ∃ c ∈ conventions, normalise convention = c.toList
    · rw [(hcv.1 hc).2]
      exact ⟨fun _ => ⟨hk, hc⟩, fun _ => ⟨_, rfl⟩⟩
    · rw [(hcv.2 hc).2]
      exact ⟨fun ⟨s, hs⟩ => by simp [bind, Except.bind] at hs, fun h => absurd h.2 hc⟩
  · rw [if_pos hk]
    exact ⟨fun ⟨s, hs⟩ => by simp at hs, fun h => absurd h.1 hk⟩

theorem planck_exp (p : Constants) (nu t : ℝ) : planck p nu t = 2 * p.h * nu ^ 3 / p.c ^ 2 / (Real.exp (p.h * nu / p.k * t⁻¹) - 1) := by
  rw [planck]
  congr 3
  rw [div_mul_eq_div_div, div_eq_mul_inv (p.h * nu / p.k)]

/-- C115: the absolute conversion is the Planck law, in power by pixel. -/
theorem C115_absolute (p : Constants) (temperature solidAngle nu t : ℝ) :
    unitConversion p true temperature solidAngle nu t = planck p nu t * solidAngle := by
  rw [planck_exp]
  simp only [unitConversion, if_true, expm1, one_div]
  ring

/-- C115: the relative conversion is the linearisation of the Planck law around the temperature of the scene, the fluctuations being in millionths of
kelvin: it is linear and its coefficient is the derivative of the absolute conversion. -/
theorem C115_relative {p : Constants} (hp : p.Positive) {temperature nu : ℝ} (ht : 0 < temperature) (hnu : 0 < nu) (solidAngle : ℝ) :
    ∃ d, HasDerivAt (fun t => planck p nu t * solidAngle) d temperature ∧ ∀ dt, unitConversion p false temperature solidAngle nu dt = d * (dt / 1000000) := by
  have h1 := hp.h
  have h2 := hp.k
  have hx : 0 < p.h * nu / p.k * temperature⁻¹ := by positivity
  have hne : Real.exp (p.h * nu / p.k * temperature⁻¹) - 1 ≠ 0 := by
    have := Real.one_lt_exp_iff.2 hx
    linarith
  have hd : HasDerivAt (fun t : ℝ => Real.exp (p.h * nu / p.k * t⁻¹) - 1)
      (Real.exp (p.h * nu / p.k * temperature⁻¹) * (p.h * nu / p.k * (-(temperature ^ 2)⁻¹))) temperature :=
    (((hasDerivAt_inv ht.ne').const_mul (p.h * nu / p.k)).exp).sub_const 1
  have hD := ((hd.inv hne).const_mul (2 * p.h * nu ^ 3 / p.c ^ 2)).mul_const solidAngle
  refine ⟨_, hD.congr_of_eventuallyEq (Filter.Eventually.of_forall fun t => ?_), fun dt => ?_⟩
  · dsimp only
    rw [planck_exp]
    simp [div_eq_mul_inv]
  · have e : p.h * nu / (p.k * temperature) = p.h * nu / p.k * temperature⁻¹ := by
      rw [div_mul_eq_div_div, div_eq_mul_inv (p.h * nu / p.k)]
    simp only [unitConversion, Bool.false_eq_true, if_false, expm1, e]
    set E := Real.exp (p.h * nu / p.k * temperature⁻¹) with hE
    clear_value E
    have := ht.ne'
    have := hp.c.ne'
    have := h2.ne'
    field_simp
    norm_num
    ring

example : ∃ s, sceneHealpix 2 "iqu".toList false "Azimuth, Elevation".toList = .ok s :=
  (C114_kinds _ _ _ _).2 ⟨by decide +kernel, "azimuth,elevation", by simp [conventions], by decide +kernel⟩

example : sceneHealpix 2 "IU".toList false "azimuth,elevation".toList = .error .valueError := by
  rcases C114_rejects 2 "IU".toList "azimuth,elevation".toList false with h | h
  · exact absurd ((C114_kinds _ _ _ _).1 h).1 (by decide +kernel)
  · exact h

example : ∃ d, HasDerivAt (fun t => planck unitConstants 2 t * 3) d 5 ∧ ∀ dt, unitConversion unitConstants false 5 3 2 dt = d * (dt / 1000000) :=
  C115_relative unitConstants_pos (by norm_num) (by norm_num) 3

end

end Verif.Healpix
