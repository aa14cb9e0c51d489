import Verif.Operators.Spherical
import Mathlib.Data.Set.Finite.Basic

/-! Conversions between Healpix pixels and directions (interfaces/healpy/operators.py 25-280). -/

namespace Verif.Healpix

open Verif.Py
open Verif.Operators

noncomputable section

/-! ### The Healpix library (trusted) -/

/-- A pixelisation of the sphere: the centres of the pixels, by their colatitude and longitude, and the pixel of a direction. -/
structure Pixelisation where
  npix : Nat
  ang : Nat → ℝ × ℝ
  pixelOf : (Fin 3 → ℝ) → Nat
  pixelOf_lt : ∀ v, pixelOf v < npix
  pixelOf_centre : ∀ p < npix, pixelOf ![Real.sin (ang p).1 * Real.cos (ang p).2, Real.sin (ang p).1 * Real.sin (ang p).2, Real.cos (ang p).1] = p

/-- The unit vector of a colatitude and a longitude. -/
def unit (theta phi : ℝ) : Fin 3 → ℝ := ![Real.sin theta * Real.cos phi, Real.sin theta * Real.sin phi, Real.cos theta]

/-- The library: a pixelisation for each resolution and each scheme (false for ring, true for nested). -/
abbrev Library := Nat → Bool → Pixelisation

/-- `_pix2ang_nest`, `_pix2ang_ring`. -/
def Library.pix2ang (l : Library) (nside : Nat) (nest : Bool) (p : Nat) : ℝ × ℝ := (l nside nest).ang p

/-- `_ang2pix_nest`, `_ang2pix_ring`. -/
def Library.ang2pix (l : Library) (nside : Nat) (nest : Bool) (theta phi : ℝ) : Nat := (l nside nest).pixelOf (unit theta phi)

/-- `_pix2vec_nest`, `_pix2vec_ring`. -/
def Library.pix2vec (l : Library) (nside : Nat) (nest : Bool) (p : Nat) : Fin 3 → ℝ := unit ((l nside nest).ang p).1 ((l nside nest).ang p).2

/-- `_vec2pix_nest`, `_vec2pix_ring`. -/
def Library.vec2pix (l : Library) (nside : Nat) (nest : Bool) (v : Fin 3 → ℝ) : Nat := (l nside nest).pixelOf v

/-! ### The model -/

/-- operators.py 130-133: `convention.replace(' ', '').lower()`. -/
def normalise (convention : List Char) : List Char := (convention.filter fun c => c ≠ ' ').map Char.toLower

/-- operators.py 114-119. -/
def CONVENTIONS : List (List Char) := ["zenith,azimuth".toList, "azimuth,zenith".toList, "elevation,azimuth".toList, "azimuth,elevation".toList]

/-- The operators; the conventions are normalised. -/
inductive Op where
  | healpix2Cartesian (nside : Nat) (nest : Bool)
  | cartesian2Healpix (nside : Nat) (nest : Bool)
  | healpix2Spherical (nside : Nat) (convention : List Char) (nest : Bool)
  | spherical2Healpix (nside : Nat) (convention : List Char) (nest : Bool)
deriving DecidableEq

/-- operators.py 121-138 `_HealPixSpherical.__init__`. -/
def healpix2Spherical (nside : Nat) (convention : List Char) (nest : Bool) : Res Op :=
  if normalise convention ∉ CONVENTIONS then .error .valueError else .ok (.healpix2Spherical nside (normalise convention) nest)

/-- operators.py 121-138 `_HealPixSpherical.__init__`. -/
def spherical2Healpix (nside : Nat) (convention : List Char) (nest : Bool) : Res Op :=
  if normalise convention ∉ CONVENTIONS then .error .valueError else .ok (.spherical2Healpix nside (normalise convention) nest)

/-- The values that the operators convert. -/
inductive Value where
  | pixel (x : ℝ)
  | angles (p : ℝ × ℝ)
  | vector (v : Fin 3 → ℝ)

/-- `'elevation' in convention`. -/
def hasElevation (convention : List Char) : Bool := (convention.tails.any fun t => "elevation".toList.isPrefixOf t)

/-- `convention.startswith('azimuth')`. -/
def azimuthFirst (convention : List Char) : Bool := "azimuth".toList.isPrefixOf convention

/-- The methods `direct` (operators.py 76-79, 108-110, 213-222, 269-277), for one element; `astype(int)` truncates. -/
def direct (l : Library) : Op → Value → Res Value
  | .healpix2Cartesian nside nest, .pixel x => .ok (.vector (l.pix2vec nside nest ⌊x⌋.toNat))
  | .cartesian2Healpix nside nest, .vector v => .ok (.pixel (l.vec2pix nside nest v))
  | .healpix2Spherical nside convention nest, .pixel x =>
    let (o1, o2) := l.pix2ang nside nest ⌊x⌋.toNat
    let o1 := if hasElevation convention then 0.5 * Real.pi - o1 else o1
    .ok (.angles (if azimuthFirst convention then (o2, o1) else (o1, o2)))
  | .spherical2Healpix nside convention nest, .angles p =>
    let (i1, i2) := if azimuthFirst convention then (p.2, p.1) else (p.1, p.2)
    let i1 := if hasElevation convention then 0.5 * Real.pi - i1 else i1
    .ok (.pixel (l.ang2pix nside nest i1 i2))
  | _, _ => .error .valueError

/-- The rules `I` (operators.py 71, 103, 206-208, 262-264). -/
def Op.inverse : Op → Op
  | .healpix2Cartesian nside nest => .cartesian2Healpix nside nest
  | .cartesian2Healpix nside nest => .healpix2Cartesian nside nest
  | .healpix2Spherical nside convention nest => .spherical2Healpix nside convention nest
  | .spherical2Healpix nside convention nest => .healpix2Spherical nside convention nest

/-- The rules of the composition `o1 * o2` (operators.py 48-51, 72-74, 104-106, 153-160, 209-211, 265-267): whether it is replaced by the identity. -/
def ruleIdentity : Op → Op → Bool
  | .healpix2Cartesian n1 b1, .cartesian2Healpix n2 b2 => n1 == n2 && b1 == b2
  | .cartesian2Healpix n1 b1, .healpix2Cartesian n2 b2 => n1 == n2 && b1 == b2
  | .healpix2Spherical n1 c1 b1, .spherical2Healpix n2 c2 b2 => n1 == n2 && c1 == c2 && b1 == b2
  | .spherical2Healpix n1 c1 b1, .healpix2Spherical n2 c2 b2 => n1 == n2 && c1 == c2 && b1 == b2
  | _, _ => false

/-! ### The properties -/

theorem flags_zenith_azimuth : hasElevation "zenith,azimuth".toList = false ∧ azimuthFirst "zenith,azimuth".toList = false := by decide +kernel
theorem flags_azimuth_zenith : hasElevation "azimuth,zenith".toList = false ∧ azimuthFirst "azimuth,zenith".toList = true := by decide +kernel
theorem flags_elevation_azimuth : hasElevation "elevation,azimuth".toList = true ∧ azimuthFirst "elevation,azimuth".toList = false := by decide +kernel
theorem flags_azimuth_elevation : hasElevation "azimuth,elevation".toList = true ∧ azimuthFirst "azimuth,elevation".toList = true := by decide +kernel

theorem flags {c : String} (hc : c ∈ conventions) : frame c = .ok ⟨azimuthFirst c.toList, hasElevation c.toList⟩ := by
  simp only [conventions, List.mem_cons, List.not_mem_nil, or_false] at hc
  rcases hc with rfl | rfl | rfl | rfl
  · rw [flags_zenith_azimuth.1, flags_zenith_azimuth.2]; rfl
  · rw [flags_azimuth_zenith.1, flags_azimuth_zenith.2]; rfl
  · rw [flags_elevation_azimuth.1, flags_elevation_azimuth.2]; rfl
  · rw [flags_azimuth_elevation.1, flags_azimuth_elevation.2]; rfl

theorem spherical_angles (a e : Bool) (theta phi : ℝ) : toCartesian ⟨a, e⟩ false
    (if a then (phi, if e then 0.5 * Real.pi - theta else theta) else (if e then 0.5 * Real.pi - theta else theta, phi)) = unit theta phi := by
  have : (0.5 : ℝ) * Real.pi = Real.pi / 2 := by ring
  cases a <;> cases e <;> simp [toCartesian, unit, this]

theorem angles_spherical (a e : Bool) (p : ℝ × ℝ) : unit (if e then 0.5 * Real.pi - (if a then (p.2, p.1) else (p.1, p.2)).1 else (if a then (p.2, p.1) else (p.1, p.2)).1)
    (if a then (p.2, p.1) else (p.1, p.2)).2 = toCartesian ⟨a, e⟩ false p := by
  have : (0.5 : ℝ) * Real.pi = Real.pi / 2 := by ring
  cases a <;> cases e <;> simp [toCartesian, unit, this]

/-- C111: the angles returned for a pixel are those of its centre, for all the conventions, and the pixel returned for angles is the one that contains
their direction. -/
theorem C111_angles (l : Library) (nside : Nat) (nest : Bool) {c : String} (hc : c ∈ conventions) :
    (∀ p : Nat, ∃ a, direct l (.healpix2Spherical nside c.toList nest) (.pixel p) = .ok (.angles a) ∧
      (vector c false a).ofLp = l.pix2vec nside nest p) ∧
    ∀ a : ℝ × ℝ, direct l (.spherical2Healpix nside c.toList nest) (.angles a) = .ok (.pixel (l.vec2pix nside nest (vector c false a).ofLp)) := by
  have hf := flags hc
  constructor
  · intro p
    refine ⟨_, rfl, ?_⟩
    rw [← toCartesian_eq hf, spherical_angles, Int.floor_natCast, Int.toNat_natCast]
    rfl
  · intro a
    rw [← toCartesian_eq hf, ← angles_spherical]
    rfl

/-- C111: the pixel of the centre of a pixel is this pixel: the operators named as inverses are left inverses on the pixel numbers. -/
theorem C111_inverse (l : Library) (nside : Nat) (nest : Bool) {p : Nat} (hp : p < (l nside nest).npix) :
    (∃ v, direct l (.healpix2Cartesian nside nest) (.pixel p) = .ok v ∧ direct l (Op.healpix2Cartesian nside nest).inverse v = .ok (.pixel p)) ∧
    ∀ c ∈ conventions, ∃ v, direct l (.healpix2Spherical nside c.toList nest) (.pixel p) = .ok v ∧
      direct l (Op.healpix2Spherical nside c.toList nest).inverse v = .ok (.pixel p) := by
  have key : l.vec2pix nside nest (l.pix2vec nside nest p) = p := (l nside nest).pixelOf_centre p hp
  constructor
  · refine ⟨_, rfl, ?_⟩
    rw [Int.floor_natCast, Int.toNat_natCast]
    change Except.ok (Value.pixel _) = _
    rw [key]
  · intro c hc
    obtain ⟨h1, h2⟩ := C111_angles l nside nest hc
    obtain ⟨a, h3, h4⟩ := h1 p
    refine ⟨_, h3, ?_⟩
    rw [Op.inverse, h2, h4, key]

/-- C111: the composition from the pixel numbers to the pixel numbers, when it is replaced by the identity, is the identity. -/
theorem C111_rule_partial (l : Library) {o1 o2 : Op} (h : ruleIdentity o1 o2 = true)
    (ho2 : (∃ nside nest, o2 = .healpix2Cartesian nside nest) ∨ ∃ nside nest, ∃ c ∈ conventions, o2 = .healpix2Spherical nside c.toList nest) :
    ∃ nside nest, (∀ p, (∃ v, direct l o2 (.pixel p) = .ok v)) ∧ ∀ p : Nat, p < (l nside nest).npix → (direct l o2 (.pixel p)).bind (direct l o1) = .ok (.pixel p) := by
  rcases ho2 with ⟨nside, nest, rfl⟩ | ⟨nside, nest, c, hc, rfl⟩
  · refine ⟨nside, nest, fun p => ⟨_, rfl⟩, fun p hp => ?_⟩
    obtain ⟨⟨v, h1, h2⟩, -⟩ := C111_inverse l nside nest hp
    cases o1 <;> simp [ruleIdentity] at h
    obtain ⟨rfl, rfl⟩ := h
    rw [h1]
    exact h2
  · refine ⟨nside, nest, fun p => ⟨_, rfl⟩, fun p hp => ?_⟩
    obtain ⟨-, h0⟩ := C111_inverse l nside nest hp
    obtain ⟨v, h1, h2⟩ := h0 c hc
    cases o1 <;> simp [ruleIdentity] at h
    obtain ⟨⟨rfl, rfl⟩, rfl⟩ := h
    rw [h1]
    exact h2

/-- C111: the compositions replaced by the identity are those of two operators from and to the same representation with the same resolution, the same
scheme and the same convention. -/
theorem C111_rule_exact (o1 o2 : Op) : ruleIdentity o1 o2 = true ↔ ∃ nside nest,
    (o1 = .healpix2Cartesian nside nest ∧ o2 = .cartesian2Healpix nside nest) ∨ (o1 = .cartesian2Healpix nside nest ∧ o2 = .healpix2Cartesian nside nest) ∨
    ∃ c, (o1 = .healpix2Spherical nside c nest ∧ o2 = .spherical2Healpix nside c nest) ∨
      (o1 = .spherical2Healpix nside c nest ∧ o2 = .healpix2Spherical nside c nest) := by
  constructor
  · intro h
    cases o1 <;> cases o2 <;> simp only [ruleIdentity, Bool.and_eq_true, beq_iff_eq, Bool.false_eq_true] at h
    · obtain ⟨rfl, rfl⟩ := h
      exact ⟨_, _, Or.inl ⟨rfl, rfl⟩⟩
    · obtain ⟨rfl, rfl⟩ := h
      exact ⟨_, _, Or.inr (Or.inl ⟨rfl, rfl⟩)⟩
    · obtain ⟨⟨rfl, rfl⟩, rfl⟩ := h
      exact ⟨_, _, Or.inr (Or.inr ⟨_, Or.inl ⟨rfl, rfl⟩⟩)⟩
    · obtain ⟨⟨rfl, rfl⟩, rfl⟩ := h
      exact ⟨_, _, Or.inr (Or.inr ⟨_, Or.inr ⟨rfl, rfl⟩⟩)⟩
  · rintro ⟨nside, nest, ⟨rfl, rfl⟩ | ⟨rfl, rfl⟩ | ⟨c, ⟨rfl, rfl⟩ | ⟨rfl, rfl⟩⟩⟩ <;> simp [ruleIdentity]

example : ruleIdentity (.healpix2Cartesian 4 true) (.cartesian2Healpix 4 false) = false := rfl

/-- The spellings of a convention: spaces can be inserted and letters can be capitals. -/
inductive Spelled : List Char → List Char → Prop
  | nil : Spelled [] []
  | space {c s} : Spelled c s → Spelled (' ' :: c) s
  | same {c s} (x) : Spelled c s → Spelled (x :: c) (x :: s)
  | capital {c s} (x : Char) : Spelled c s → Spelled (x.toUpper :: c) (x :: s)

theorem normalise_spelled {c s : List Char} (h : Spelled c s)
    (hs : ∀ x ∈ s, x ≠ ' ' ∧ x.toUpper ≠ ' ' ∧ x.toLower = x ∧ x.toUpper.toLower = x) : normalise c = s := by
  induction h with
  | nil => rfl
  | space _ ih => simpa [normalise] using ih hs
  | same x _ ih =>
    obtain ⟨h1, h2, h3, h4⟩ := hs x (by simp)
    have := ih fun y hy => hs y (by simp [hy])
    simp only [normalise] at this
    simpa [normalise, h1, h3] using this
  | capital x _ ih =>
    obtain ⟨h1, h2, h3, h4⟩ := hs x (by simp)
    have := ih fun y hy => hs y (by simp [hy])
    simp only [normalise] at this
    simpa [normalise, h2, h4] using this

/-- C111: all the spellings of a convention are accepted and they give the operators of this convention. -/
theorem C111_spelling (nside : Nat) (nest : Bool) {c : List Char} {s : String} (hs : s ∈ conventions) (h : Spelled c s.toList) :
    healpix2Spherical nside c nest = .ok (.healpix2Spherical nside s.toList nest) ∧
    spherical2Healpix nside c nest = .ok (.spherical2Healpix nside s.toList nest) := by
  have hn : normalise c = s.toList := by
    apply normalise_spelled h
    simp only [conventions, List.mem_cons, List.not_mem_nil, or_false] at hs
    rcases hs with rfl | rfl | rfl | rfl <;> decide +kernel
  have hc : s.toList ∈ CONVENTIONS := by
    rw [show CONVENTIONS = conventions.map String.toList from rfl]
    exact List.mem_map_of_mem hs
  simp [healpix2Spherical, spherical2Healpix, hn, hc]

example : Spelled " A b".toList "ab".toList := .space (.capital 'a' (.space (.same 'b' .nil)))

/-- The directions of the equator. -/
def equator (t : ℝ) : Fin 3 → ℝ := unit (Real.pi / 2) t

theorem equator_inj : Set.InjOn equator (Set.Icc 0 1) := by
  intro s hs t ht h
  have hpi := Real.pi_gt_three
  have h0 := congrFun h 0
  simp only [equator, unit, Real.sin_pi_div_two, one_mul, Matrix.cons_val_zero] at h0
  exact Real.injOn_cos ⟨hs.1, by linarith [hs.2]⟩ ⟨ht.1, by linarith [ht.2]⟩ h0

/-- C111 is false for the other compositions: from the directions to the directions, the composition is replaced by the identity although the
direction is replaced by the centre of its pixel, which is different for some direction whatever the resolution. -/
theorem C111_violation_rule (l : Library) (nside : Nat) (nest : Bool) :
    ruleIdentity (.healpix2Cartesian nside nest) (.cartesian2Healpix nside nest) = true ∧
    ∃ v w, direct l (.cartesian2Healpix nside nest) (.vector v) = .ok w ∧ direct l (.healpix2Cartesian nside nest) w ≠ .ok (.vector v) := by
  refine ⟨by simp [ruleIdentity], ?_⟩
  by_contra hcon
  push Not at hcon
  have hfix : ∀ v, l.pix2vec nside nest (l.vec2pix nside nest v) = v := by
    intro v
    have := hcon v _ rfl
    simp only [direct, Int.floor_natCast, Int.toNat_natCast, Except.ok.injEq, Value.vector.injEq] at this
    exact this
  have hinj : Set.InjOn (fun t => l.vec2pix nside nest (equator t)) (Set.Icc 0 1) := by
    intro s hs t ht h
    apply equator_inj hs ht
    rw [← hfix (equator s), ← hfix (equator t)]
    exact congrArg _ h
  have hfin : ((fun t => l.vec2pix nside nest (equator t)) '' Set.Icc 0 1).Finite :=
    (Set.finite_lt_nat (l nside nest).npix).subset (by
      rintro _ ⟨t, -, rfl⟩
      exact (l nside nest).pixelOf_lt _)
  exact (Set.Icc_infinite (show (0 : ℝ) < 1 by norm_num)) (Set.Finite.of_finite_image hfin hinj)

/-- C111: the conventions are accepted with spaces and capitals, the other ones are rejected. -/
theorem C111_convention (nside : Nat) (nest : Bool) (c : List Char) :
    ((∃ s ∈ conventions, normalise c = s.toList) → healpix2Spherical nside c nest = .ok (.healpix2Spherical nside (normalise c) nest) ∧
      spherical2Healpix nside c nest = .ok (.spherical2Healpix nside (normalise c) nest)) ∧
    ((¬∃ s ∈ conventions, normalise c = s.toList) → healpix2Spherical nside c nest = .error .valueError ∧ spherical2Healpix nside c nest = .error .valueError) := by
  have h : normalise c ∈ CONVENTIONS ↔ ∃ s ∈ conventions, normalise c = s.toList := by
    rw [show CONVENTIONS = conventions.map String.toList from rfl, List.mem_map]
    constructor
    · rintro ⟨s, hs, e⟩
      exact ⟨s, hs, e.symm⟩
    · rintro ⟨s, hs, e⟩
      exact ⟨s, hs, e.symm⟩
  rw [← h]
  constructor
  · intro hc
    simp [healpix2Spherical, spherical2Healpix, hc]
  · intro hc
    simp [healpix2Spherical, spherical2Healpix, hc]

example : normalise " Azimuth, ELEVATION".toList = "azimuth,elevation".toList := by decide +kernel

/-- A pixelisation with two pixels, the hemispheres. -/
def hemispheres : Pixelisation where
  npix := 2
  ang p := if p = 0 then (0, 0) else (Real.pi, 0)
  pixelOf v := if 0 ≤ v 2 then 0 else 1
  pixelOf_lt v := by split_ifs <;> norm_num
  pixelOf_centre p hp := by
    interval_cases p <;> simp

example : ∃ v, direct (fun _ _ => hemispheres) (.healpix2Spherical 1 "azimuth,elevation".toList true) (.pixel (1 : ℕ)) = .ok v ∧
    direct (fun _ _ => hemispheres) (Op.healpix2Spherical 1 "azimuth,elevation".toList true).inverse v = .ok (.pixel (1 : ℕ)) :=
  (C111_inverse (fun _ _ => hemispheres) 1 true (p := 1) (by simp [hemispheres])).2 "azimuth,elevation" (by simp [conventions])

end

end Verif.Healpix
