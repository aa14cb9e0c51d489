import Verif.Stat.Moment

/-! C129: the rounding errors of the compensated sum. -/
namespace Verif.Stat
open Verif.Py

/-- The rounded addition and subtraction: the relative error of their result is at most `u` (2⁻⁵³ for the double precision, 2⁻²⁴ for the single
one, in the absence of overflow; an underflow is exact). -/
structure Rounded (u : ℝ) (fadd fsub : ℝ → ℝ → ℝ) : Prop where
  add : ∀ x y, |fadd x y - (x + y)| ≤ u * |x + y|
  sub : ∀ x y, |fsub x y - (x - y)| ≤ u * |x - y|

/-- One iteration: the error that is not compensated does not depend on the partial sum, but for a term of the second order. -/
theorem kahan_error {u : ℝ} {fadd fsub : ℝ → ℝ → ℝ} (hf : Rounded u fadd fsub) (hu0 : 0 ≤ u) (hu : u ≤ 1 / 100) {A s c x : ℝ}
    (hs : |s| ≤ 2 * A) (hc : |c| ≤ 5 * u * A) (hx : |x| ≤ A) :
    |(kahanStep fadd fsub (s, c) x).2| ≤ 5 * u * A ∧
    |(kahanStep fadd fsub (s, c) x).1 - (kahanStep fadd fsub (s, c) x).2 - (s - c + x)| ≤ 3 * u * |x| + 17 * u ^ 2 * A := by
  have hA : 0 ≤ A := le_trans (abs_nonneg x) hx
  simp only [kahanStep]
  have h1 := hf.sub x c
  generalize fsub x c = y at *
  have h2 := hf.add s y
  generalize fadd s y = t at *
  have h3 := hf.sub t s
  generalize fsub t s = d at *
  have h4 := hf.sub d y
  generalize fsub d y = c' at *
  have p0 : |x - c| ≤ |x| + 5 * u * A := le_trans (abs_sub x c) (by linarith)
  obtain ⟨e, rfl⟩ : ∃ e, y = x - c + e := ⟨y - (x - c), by ring⟩
  obtain ⟨r, rfl⟩ : ∃ r, t = s + (x - c + e) + r := ⟨t - (s + (x - c + e)), by ring⟩
  obtain ⟨g, rfl⟩ : ∃ g, d = x - c + e + r + g := ⟨d - (x - c + e + r), by ring⟩
  obtain ⟨h, rfl⟩ : ∃ h, c' = r + g + h := ⟨c' - (r + g), by ring⟩
  have e1 : |e| ≤ u * |x - c| := by
    have : x - c + e - (x - c) = e := by ring
    rwa [this] at h1
  have e2 : |r| ≤ u * |s + (x - c + e)| := by
    have : s + (x - c + e) + r - (s + (x - c + e)) = r := by ring
    rwa [this] at h2
  have e3 : |g| ≤ u * |x - c + e + r| := by
    have a1 : s + (x - c + e) + r - s = x - c + e + r := by ring
    have a2 : x - c + e + r + g - (x - c + e + r) = g := by ring
    rwa [a1, a2] at h3
  have e4 : |h| ≤ u * |r + g| := by
    have a1 : x - c + e + r + g - (x - c + e) = r + g := by ring
    have a2 : r + g + h - (r + g) = h := by ring
    rwa [a1, a2] at h4
  have t2 : |s + (x - c + e)| ≤ |s| + (|x - c| + |e|) := le_trans (abs_add_le _ _) (by linarith [abs_add_le (x - c) e])
  have t3 : |x - c + e + r| ≤ |x - c| + |e| + |r| := le_trans (abs_add_le _ _) (by linarith [abs_add_le (x - c) e])
  have t4 : |r + g| ≤ |r| + |g| := abs_add_le r g
  have z1 := abs_nonneg e
  have z2 := abs_nonneg r
  have z3 := abs_nonneg g
  have z4 := abs_nonneg h
  have z5 := abs_nonneg (x - c)
  have z6 := abs_nonneg x
  have uA : u * A ≤ A / 100 := by nlinarith
  have uA0 : 0 ≤ u * A := mul_nonneg hu0 hA
  -- the size of the terms
  have b1 : |e| ≤ |x - c| / 100 := le_trans e1 (by nlinarith)
  have b2 : |r| ≤ 31 / 10 * (u * A) := by
    refine le_trans e2 ?_
    have : |s + (x - c + e)| ≤ 31 / 10 * A := by linarith
    calc u * |s + (x - c + e)| ≤ u * (31 / 10 * A) := mul_le_mul_of_nonneg_left this hu0
      _ = _ := by ring
  have b3 : |g| ≤ u * (101 / 100 * |x - c| + |r|) := le_trans e3 (mul_le_mul_of_nonneg_left (by linarith) hu0)
  have b3' : |g| ≤ 11 / 10 * (u * A) := by
    refine le_trans b3 ?_
    have : 101 / 100 * |x - c| + |r| ≤ 11 / 10 * A := by linarith
    calc u * (101 / 100 * |x - c| + |r|) ≤ u * (11 / 10 * A) := mul_le_mul_of_nonneg_left this hu0
      _ = _ := by ring
  have b4 : |h| ≤ u * (|r| + |g|) := le_trans e4 (mul_le_mul_of_nonneg_left t4 hu0)
  have b4' : |h| ≤ (|r| + |g|) / 100 := le_trans b4 (by nlinarith)
  constructor
  · have : |r + g + h| ≤ |r| + |g| + |h| := le_trans (abs_add_le _ _) (by linarith)
    linarith
  · have a : s + (x - c + e) + r - (r + g + h) - (s - c + x) = e - g - h := by ring
    rw [a]
    have t5 : |e - g - h| ≤ |e| + |g| + |h| := le_trans (abs_sub _ _) (by linarith [abs_sub e g])
    have up : u * |x - c| ≤ u * |x| + 5 * (u ^ 2 * A) := by
      calc u * |x - c| ≤ u * (|x| + 5 * u * A) := mul_le_mul_of_nonneg_left p0 hu0
        _ = _ := by ring
    have ur : u * |r| ≤ 31 / 10 * (u ^ 2 * A) := by
      calc u * |r| ≤ u * (31 / 10 * (u * A)) := mul_le_mul_of_nonneg_left b2 hu0
        _ = _ := by ring
    have ug : u * |g| ≤ |g| / 100 := by nlinarith
    have ux : 0 ≤ u * |x| := mul_nonneg hu0 z6
    have uu : 0 ≤ u ^ 2 * A := mul_nonneg (sq_nonneg u) hA
    nlinarith

theorem fold_error {u : ℝ} {fadd fsub : ℝ → ℝ → ℝ} (hf : Rounded u fadd fsub) (hu0 : 0 ≤ u) (hu : u ≤ 1 / 100) {A : ℝ} (xs : List ℝ) :
    ∀ (s c S B k : ℝ), |s| ≤ 2 * A → |c| ≤ 5 * u * A → |S| ≤ B → B + (xs.map fun x => |x|).sum ≤ A → 0 ≤ k → (k + xs.length) * u ^ 2 ≤ 1 / 20 →
      |s - c - S| ≤ 3 * u * B + 17 * (k * u ^ 2) * A →
      |(xs.foldl (kahanStep fadd fsub) (s, c)).1 - (S + xs.sum)| ≤ (8 * u + 17 * ((k + xs.length) * u ^ 2)) * A := by
  induction xs with
  | nil =>
    intro s c S B k hs hc hS hB hk hn he
    simp only [List.map_nil, List.sum_nil, add_zero, List.length_nil, Nat.cast_zero, List.foldl_nil] at *
    have : |s - S| ≤ |s - c - S| + |c| := by
      have : s - S = (s - c - S) + c := by ring
      rw [this]
      exact abs_add_le _ _
    have : u * B ≤ u * A := mul_le_mul_of_nonneg_left hB hu0
    nlinarith
  | cons x xs ih =>
    intro s c S B k hs hc hS hB hk hn he
    simp only [List.map_cons, List.sum_cons, List.length_cons, Nat.cast_add, Nat.cast_one, List.foldl_cons] at *
    have hsum : 0 ≤ (xs.map fun x => |x|).sum := List.sum_nonneg (by simp)
    have hB0 : 0 ≤ B := le_trans (abs_nonneg S) hS
    have hxA : |x| ≤ A := by linarith
    have hA : 0 ≤ A := le_trans (abs_nonneg x) hxA
    obtain ⟨h1, h2⟩ := kahan_error hf hu0 hu hs hc hxA
    rcases hst : kahanStep fadd fsub (s, c) x with ⟨s', c'⟩
    rw [hst] at h1 h2
    dsimp only at h1 h2
    have hx0 := abs_nonneg x
    have hlen : (0 : ℝ) ≤ xs.length := Nat.cast_nonneg _
    have he' : |s' - c' - (S + x)| ≤ 3 * u * (B + |x|) + 17 * ((k + 1) * u ^ 2) * A := by
      have a : s' - c' - (S + x) = (s' - c' - (s - c + x)) + (s - c - S) := by ring
      rw [a]
      refine le_trans (abs_add_le _ _) ?_
      nlinarith
    have hS' : |S + x| ≤ B + |x| := le_trans (abs_add_le _ _) (by linarith)
    have hn' : (k + 1 + xs.length) * u ^ 2 ≤ 1 / 20 := by
      have : k + 1 + (xs.length : ℝ) = k + (xs.length + 1) := by ring
      rw [this]
      exact hn
    have hk1 : (k + 1) * u ^ 2 ≤ 1 / 20 := by nlinarith [sq_nonneg u]
    have hs' : |s'| ≤ 2 * A := by
      have a : s' = (s' - c' - (S + x)) + (S + x) + c' := by ring
      rw [a]
      refine le_trans (abs_add_le _ _) ?_
      refine le_trans (add_le_add_left (abs_add_le _ _) _) ?_
      have b1 : u * (B + |x|) ≤ A / 100 := by nlinarith
      have b2 : (k + 1) * u ^ 2 * A ≤ A / 20 := by nlinarith
      have b3 : u * A ≤ A / 100 := by nlinarith
      nlinarith
    have := ih s' c' (S + x) (B + |x|) (k + 1) hs' h1 hS' (by linarith) (by linarith) hn' he'
    have a : S + (x + xs.sum) = S + x + xs.sum := by ring
    have b : k + ((xs.length : ℝ) + 1) = k + 1 + xs.length := by ring
    rw [a, b]
    exact this

/-- C129: with rounded operations, the error of the sum does not grow with the number of elements, but for a term of the second order: it is at most
(8 u + 17 n u²) times the sum of the absolute values, as long as n u² is at most 1/20 (n ≤ 4.10³⁰ in double precision). -/
theorem C129_rounding {u : ℝ} {fadd fsub : ℝ → ℝ → ℝ} (hf : Rounded u fadd fsub) (hu0 : 0 ≤ u) (hu : u ≤ 1 / 100) (input : List ℝ)
    (mask : Option (List Bool)) (h : ∀ m ∈ mask, m.length = input.length) (hn : (input.length : ℝ) * u ^ 2 ≤ 1 / 20) :
    ∃ s, sumOptOf fadd fsub 0 input mask = .ok s ∧
      |s - (unmasked input mask).sum| ≤ (8 * u + 17 * ((unmasked input mask).length * u ^ 2)) * ((unmasked input mask).map fun x => |x|).sum := by
  refine ⟨_, sumOptOf_eq fadd fsub 0 h, ?_⟩
  have hlen : (unmasked input mask).length ≤ input.length := by
    cases mask with
    | none => exact le_refl _
    | some m =>
      rw [unmasked, List.length_map]
      exact le_trans (List.length_filter_le _ _) (by simp)
  have hn' : ((unmasked input mask).length : ℝ) * u ^ 2 ≤ 1 / 20 :=
    le_trans (mul_le_mul_of_nonneg_right (by exact_mod_cast hlen) (sq_nonneg u)) hn
  generalize unmasked input mask = l at hn' ⊢
  cases l with
  | nil => simp [sumKahanOf]
  | cons x xs =>
    simp only [List.map_cons, List.sum_cons, List.length_cons, Nat.cast_add, Nat.cast_one, sumKahanOf] at hn' ⊢
    have hsum : 0 ≤ (xs.map fun x => |x|).sum := List.sum_nonneg (by simp)
    have hx0 := abs_nonneg x
    have := fold_error hf hu0 hu (A := |x| + (xs.map fun x => |x|).sum) xs x 0 x |x| 1 (by linarith) (by simp; positivity) (le_refl _) (le_refl _)
      (by norm_num) (by rw [add_comm]; exact hn') (by
        simp only [sub_zero, sub_self, abs_zero]
        positivity)
    rw [add_comm (1 : ℝ)] at this
    exact this

/-- Operations that round up. -/
example : Rounded (1 / 128) (fun x y => (x + y) * (1 + 1 / 128)) (fun x y => (x - y) * (1 + 1 / 128)) ∧ (0 : ℝ) ≤ 1 / 128 ∧ (1 / 128 : ℝ) ≤ 1 / 100 := by
  refine ⟨⟨fun x y => ?_, fun x y => ?_⟩, by norm_num, by norm_num⟩
  · have : (x + y) * (1 + 1 / 128) - (x + y) = 1 / 128 * (x + y) := by ring
    rw [this, abs_mul, abs_of_pos (by norm_num : (0 : ℝ) < 1 / 128)]
  · have : (x - y) * (1 + 1 / 128) - (x - y) = 1 / 128 * (x - y) := by ring
    rw [this, abs_mul, abs_of_pos (by norm_num : (0 : ℝ) < 1 / 128)]

end Verif.Stat
