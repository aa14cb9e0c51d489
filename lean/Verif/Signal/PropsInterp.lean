import Verif.Signal.Lemmas
import Mathlib.Analysis.SpecialFunctions.Pow.Real
import Mathlib.Data.List.Sort

/-!
C55: piecewise linear interpolation; C82: interpolation of a power law; C56: length of the Fourier transform.
-/
set_option linter.unusedSectionVars false
namespace Verif.Signal
open Verif.Py

section
variable {K : Type} [Field K] [LinearOrder K] [IsStrictOrderedRing K]

/-- The ordinate at `z` of the line through two points. -/
def lineAt (xa ya xb yb z : K) : K := ya + (z - xa) * ((yb - ya) / (xb - xa))

/-- The state of the loop of `_interp`: x1 and x2 are the elements ix - 1 and ix. -/
def State (x : List K) (ix : Nat) (x1 x2 : K) : Prop :=
  1 ≤ ix ∧ ix < x.length ∧ x[ix - 1]? = some x1 ∧ x[ix]? = some x2

theorem advance_spec (x : List K) (z : K) (ix : Nat) (x1 x2 : K) (h : State x ix x1 x2) (hz : ix = 1 ∨ x1 < z) :
    State x (advance x z ix x1 x2).1 (advance x z ix x1 x2).2.1 (advance x z ix x1 x2).2.2 ∧
      ((advance x z ix x1 x2).1 = 1 ∨ (advance x z ix x1 x2).2.1 < z) ∧
      ((advance x z ix x1 x2).1 = x.length - 1 ∨ z ≤ (advance x z ix x1 x2).2.2) := by
  induction ix, x1, x2 using advance.induct x z with
  | case1 ix x1 x2 hc ih =>
    rw [advance, if_pos hc]
    obtain ⟨h1, h2, h3, h4⟩ := h
    have hlt : ix + 1 < x.length := by omega
    refine ih ⟨by omega, hlt, by simpa using h4, by simp [List.getElem?_eq_getElem hlt]⟩ (Or.inr hc.1)
  | case2 ix x1 x2 hc =>
    rw [advance, if_neg hc]
    refine ⟨h, hz, ?_⟩
    by_cases h1 : z ≤ x2
    · exact Or.inr h1
    · left
      have := h.2.1
      have h2 : ¬ ix < x.length - 1 := fun h2 => hc ⟨not_le.1 h1, h2⟩
      show ix = x.length - 1
      omega

theorem interpLoop_spec (x y : List K) (hx : x.SortedLT) (hy : y.length = x.length) (z : List K) (hz : z.Pairwise (· ≤ ·)) :
    ∀ (ix : Nat) (x1 x2 : K), State x ix x1 x2 → (ix = 1 ∨ ∀ v ∈ z, x1 < v) →
      ∃ r, interpLoop x y z ix x1 x2 = .ok r ∧ r.length = z.length ∧
        ∀ (k : Nat) (v : K), z[k]? = some v →
          ∃ i xa xb ya yb, x[i]? = some xa ∧ x[i + 1]? = some xb ∧ y[i]? = some ya ∧ y[i + 1]? = some yb ∧
            (i = 0 ∨ xa < v) ∧ (i + 2 = x.length ∨ v ≤ xb) ∧ r[k]? = some (lineAt xa ya xb yb v) := by
  induction z with
  | nil => intro ix x1 x2 _ _; exact ⟨[], rfl, rfl, by simp⟩
  | cons v zs ih =>
    intro ix x1 x2 hs hix
    have ha := advance_spec x v ix x1 x2 hs (hix.imp id fun h => h v (by simp))
    rw [interpLoop]
    revert ha
    generalize advance x v ix x1 x2 = s
    obtain ⟨jx, w1, w2⟩ := s
    rintro ⟨⟨h1, h2, h3, h4⟩, h5, h6⟩
    simp only at h1 h2 h3 h4 h5 h6 ⊢
    obtain ⟨i, rfl⟩ : ∃ i, jx = i + 1 := ⟨jx - 1, by omega⟩
    rw [Nat.add_sub_cancel] at h3 ⊢
    have hi1 : i + 1 < y.length := by omega
    have hi : i < y.length := by omega
    rw [List.getElem?_eq_getElem hi1, List.getElem?_eq_getElem hi]
    simp only
    rw [List.pairwise_cons] at hz
    obtain ⟨r, hr, hrl, hrs⟩ := ih hz.2 (i + 1) w1 w2 ⟨by omega, h2, by simpa using h3, h4⟩
      (h5.imp id fun h u hu => lt_of_lt_of_le h (hz.1 u hu))
    have hw : w1 < w2 := by
      have hi1' : i + 1 < x.length := h2
      have hi' : i < x.length := by omega
      rw [List.getElem?_eq_getElem hi'] at h3
      rw [List.getElem?_eq_getElem hi1'] at h4
      have := List.sortedLT_iff_getElem_lt_getElem_of_lt.1 hx (i := i) (j := i + 1) (hi := hi') (hj := hi1') (by omega)
      rw [Option.some.inj h3, Option.some.inj h4] at this
      exact this
    rw [hr]
    refine ⟨_, rfl, by simp [hrl], ?_⟩
    intro k u hk
    cases k with
    | zero =>
      simp only [List.getElem?_cons_zero, Option.some.injEq] at hk
      subst hk
      refine ⟨i, w1, w2, y[i], y[i + 1], h3, h4, List.getElem?_eq_getElem hi, List.getElem?_eq_getElem hi1,
        h5.imp (by omega) id, h6.imp (by omega) id, ?_⟩
      simp only [List.getElem?_cons_zero, Option.some.injEq, lineAt]
      have : w2 - w1 ≠ 0 := (sub_pos.2 hw).ne'
      field_simp
      ring
    | succ k =>
      simp only [List.getElem?_cons_succ] at hk ⊢
      exact hrs k u hk

/-- C55.  The interpolated value is on the line through the nodes i and i + 1 where the abscissa is between them, or after the last or
before the first two nodes. -/
theorem C55_line (z x y : List K) (hx : x.SortedLT) (h2 : 2 ≤ x.length) (hy : y.length = x.length) (hz : z.Pairwise (· ≤ ·)) :
    ∃ r, interp z x y = .ok r ∧ r.length = z.length ∧
      ∀ (k : Nat) (v : K), z[k]? = some v →
        ∃ i xa xb ya yb, x[i]? = some xa ∧ x[i + 1]? = some xb ∧ y[i]? = some ya ∧ y[i + 1]? = some yb ∧
          (i = 0 ∨ xa < v) ∧ (i + 2 = x.length ∨ v ≤ xb) ∧ r[k]? = some (lineAt xa ya xb yb v) := by
  unfold interp
  have h0 : 0 < x.length := by omega
  have h1 : 1 < x.length := by omega
  rw [List.getElem?_eq_getElem h0, List.getElem?_eq_getElem h1]
  exact interpLoop_spec x y hx hy z hz 1 x[0] x[1] ⟨le_refl 1, h1, by simp, by simp⟩ (Or.inl rfl)

example : interp [(0 : ℚ), 1, 3 / 2, 4, 5] [1, 2, 4] [10, 20, 60] = .ok [0, 10, 15, 60, 80] := by decide +kernel

/-- C55.  The interpolation is exact at the nodes. -/
theorem C55_nodes (z x y : List K) (hx : x.SortedLT) (h2 : 2 ≤ x.length) (hy : y.length = x.length) (hz : z.Pairwise (· ≤ ·))
    (k j : Nat) (v w : K) (hk : z[k]? = some v) (hj : x[j]? = some v) (hw : y[j]? = some w) :
    ∃ r, interp z x y = .ok r ∧ r[k]? = some w := by
  obtain ⟨r, hr, _, hrs⟩ := C55_line z x y hx h2 hy hz
  refine ⟨r, hr, ?_⟩
  obtain ⟨i, xa, xb, ya, yb, e1, e2, e3, e4, e5, e6, e7⟩ := hrs k v hk
  obtain ⟨lj, ej⟩ := List.getElem?_eq_some_iff.1 hj
  obtain ⟨l1, f1⟩ := List.getElem?_eq_some_iff.1 e1
  obtain ⟨l2, f2⟩ := List.getElem?_eq_some_iff.1 e2
  have mono := fun (a b : Nat) (ha : a < x.length) (hb : b < x.length) (h : a < b) =>
    List.sortedLT_iff_getElem_lt_getElem_of_lt.1 hx (i := a) (j := b) (hi := ha) (hj := hb) h
  have hab : xa < xb := by rw [← f1, ← f2]; exact mono i (i + 1) l1 l2 (by omega)
  have hne : xb - xa ≠ 0 := (sub_pos.2 hab).ne'
  rcases Nat.lt_trichotomy j i with h | h | h
  · exfalso
    rcases e5 with e5 | e5
    · omega
    · have := mono j i lj l1 h
      rw [ej, f1] at this
      exact absurd e5 (not_lt.2 this.le)
  · subst h
    rw [e1] at hj
    rw [e3] at hw
    rw [e7, ← Option.some.inj hj, ← Option.some.inj hw]
    simp [lineAt]
  · rcases Nat.eq_or_lt_of_le (Nat.succ_le_of_lt h) with h' | h'
    · subst h'
      rw [Nat.succ_eq_add_one] at hj hw
      rw [e2] at hj
      rw [e4] at hw
      rw [e7, ← Option.some.inj hj, ← Option.some.inj hw]
      simp only [lineAt, Option.some.injEq]
      field_simp
      ring
    · exfalso
      rcases e6 with e6 | e6
      · omega
      · have := mono (i + 1) j l2 lj h'
        rw [ej, f2] at this
        exact absurd e6 (not_le.2 this)

/-- C55.  Affine functions are reproduced, inside and outside of the range of the nodes. -/
theorem C55_affine (z x : List K) (hx : x.SortedLT) (h2 : 2 ≤ x.length) (hz : z.Pairwise (· ≤ ·)) (a s : K) :
    interp z x (x.map fun v => a + s * v) = .ok (z.map fun v => a + s * v) := by
  obtain ⟨r, hr, hl, hrs⟩ := C55_line z x (x.map fun v => a + s * v) hx h2 (by simp) hz
  rw [hr]
  congr 1
  apply List.ext_getElem?
  intro k
  by_cases hk : k < z.length
  · obtain ⟨i, xa, xb, ya, yb, e1, e2, e3, e4, -, -, e7⟩ := hrs k z[k] (List.getElem?_eq_getElem hk)
    obtain ⟨l1, f1⟩ := List.getElem?_eq_some_iff.1 e1
    obtain ⟨l2, f2⟩ := List.getElem?_eq_some_iff.1 e2
    have hab : xa < xb := by
      rw [← f1, ← f2]
      exact List.sortedLT_iff_getElem_lt_getElem_of_lt.1 hx (i := i) (j := i + 1) (hi := l1) (hj := l2) (by omega)
    have hne : xb - xa ≠ 0 := (sub_pos.2 hab).ne'
    rw [List.getElem?_map, e1] at e3
    rw [List.getElem?_map, e2] at e4
    simp only [Option.map_some, Option.some.injEq] at e3 e4
    rw [e7, List.getElem?_map, List.getElem?_eq_getElem hk, Option.map_some, ← e3, ← e4, Option.some.injEq, lineAt]
    field_simp
    ring
  · rw [List.getElem?_eq_none (by omega), List.getElem?_eq_none (by simp; omega)]

example : interp [(0 : ℚ), 7 / 3, 9] [1, 2, 4] ([1, 2, 4].map fun v => 1 + 3 * v) = .ok [1, 8, 28] := by decide +kernel

/-- C55.  With fewer than two nodes an exception is raised. -/
theorem C55_rejects (z x y : List K) (h : x.length < 2) : interp z x y = .error .indexError := by
  match x, h with
  | [], _ => rfl
  | [a], _ => rfl

example : interp [(1 : ℚ)] [3] [4] = .error .indexError := C55_rejects _ _ _ (by decide)

end

/-! ### Power laws -/

theorem inner_map {α β : Type} (f : α → β) (l : List α) : inner (l.map f) = (inner l).map f := by
  simp [inner, List.map_dropLast]

theorem inner_range (m : Nat) : inner (List.range m) = (List.range (m - 2)).map (· + 1) := by
  apply List.ext_getElem
  · simp [inner]; omega
  · intro i h1 h2
    simp [inner, Nat.add_comm]

/-- C82.  A spectrum that follows a power law (after the zero frequency and before the last sample, which the function ignores) is
resampled exactly at any increasing positive frequencies, inside and outside of its range; the last output is then halved. -/
theorem C82_powerlaw (buf f psd : List ℝ) (bandwidth A s : ℝ) (hB : 0 < bandwidth) (hA : 0 < A)
    (hb : buf.length = f.length) (hf : 2 ≤ f.length) (hpos : ∀ v ∈ f.drop 1, 0 < v) (hinc : (f.drop 1).Pairwise (· ≤ ·))
    (hp : 4 ≤ psd.length)
    (hlaw : ∀ (k : Nat), 0 < k → k < psd.length - 1 → psd[k]? = some (A * ((k : ℝ) * bandwidth) ^ s)) :
    ∃ r, logloginterpPsd buf f bandwidth psd = .ok r ∧ r.length = f.length ∧ r[0]? = psd[0]? ∧
      ∀ (k : Nat) (v : ℝ), 0 < k → f[k]? = some v → r[k]? = some (if k = f.length - 1 then A * v ^ s / 2 else A * v ^ s) := by
  have hinner : inner ((List.range psd.length).map fun (k : Nat) => (k : ℝ) * bandwidth) =
      (List.range (psd.length - 2)).map fun (k : Nat) => (((k + 1 : ℕ) : ℝ)) * bandwidth := by
    rw [inner_map, inner_range, List.map_map]
    rfl
  have hpsd : inner psd = (List.range (psd.length - 2)).map fun (k : Nat) => A * (((k + 1 : ℕ) : ℝ) * bandwidth) ^ s := by
    apply List.ext_getElem?
    intro k
    by_cases hk : k < psd.length - 2
    · have h := hlaw (k + 1) (by omega) (by omega)
      have e : (inner psd)[k]? = psd[k + 1]? := by
        unfold inner
        rw [List.getElem?_dropLast, if_pos (by simp; omega), List.getElem?_drop, Nat.add_comm]
      rw [e, h, List.getElem?_map, List.getElem?_range hk]
      rfl
    · rw [List.getElem?_eq_none (by simp [inner]; omega), List.getElem?_eq_none (by simp; omega)]
  have hx : ((inner ((List.range psd.length).map fun (k : Nat) => (k : ℝ) * bandwidth)).map Real.log).SortedLT := by
    rw [hinner, List.map_map, List.sortedLT_iff_getElem_lt_getElem_of_lt]
    intro i j hi hj hij
    simp only [List.getElem_map, List.getElem_range, Function.comp]
    apply Real.log_lt_log (by positivity)
    apply mul_lt_mul_of_pos_right _ hB
    exact_mod_cast Nat.succ_lt_succ hij
  have hy : (inner psd).map Real.log =
      ((inner ((List.range psd.length).map fun (k : Nat) => (k : ℝ) * bandwidth)).map Real.log).map
        fun v => Real.log A + s * v := by
    rw [hpsd, hinner, List.map_map, List.map_map, List.map_map]
    apply List.map_congr_left
    intro k _
    simp only [Function.comp]
    have : (0 : ℝ) < ((k + 1 : ℕ) : ℝ) * bandwidth := by positivity
    rw [Real.log_mul hA.ne' (Real.rpow_pos_of_pos this s).ne', Real.log_rpow this]
  have hz : ((f.drop 1).map Real.log).Pairwise (· ≤ ·) := by
    rw [List.pairwise_map]
    refine List.Pairwise.imp_of_mem ?_ hinc
    intro a b ha _ hab
    exact Real.log_le_log (hpos a ha) hab
  have hmain := C55_affine ((f.drop 1).map Real.log) _ hx (by rw [hinner]; simp; omega) hz (Real.log A) s
  unfold logloginterpPsd
  dsimp only
  have h0 : 0 < psd.length := by omega
  rw [List.getElem?_eq_getElem h0]
  simp only
  rw [if_neg (by omega), hy, hmain]
  refine ⟨_, rfl, ?_, ?_, ?_⟩
  · simp [writeAt_length, hb]
  · rw [List.getElem?_mapIdx, writeAt_getElem?, writeAt_getElem?]
    have hb0 : 0 < buf.length := by omega
    rw [writeAt_length, writeAt_length, List.getElem?_set_self hb0]
    simp
    omega
  · intro k v hk hv
    obtain ⟨lk, fk⟩ := List.getElem?_eq_some_iff.1 hv
    have hkb : k < buf.length := by omega
    rw [List.getElem?_mapIdx, writeAt_getElem?, writeAt_length, writeAt_length, List.getElem?_map, List.getElem?_drop,
      show 1 + (k - 1) = k by omega, writeAt_getElem?, List.getElem?_set_ne (by omega), List.getElem?_eq_getElem hkb, List.length_set, hb]
    have hv' : (f.drop 1)[k - 1]? = some v := by rw [List.getElem?_drop, show 1 + (k - 1) = k by omega, hv]
    have hvpos : 0 < v := hpos v (List.mem_of_getElem? hv')
    have h1 : 1 ≤ k := hk
    simp only [List.getElem?_map, hv', Option.map_some, h1, if_true, Option.getD_some]
    rw [Real.exp_add, Real.exp_log hA, mul_comm s, ← Real.rpow_def_of_pos hvpos]

example : ∃ r, logloginterpPsd [7, 7, 7] [0, 3, 10] 2 [5, 8, 16, 0] = .ok r ∧ r.length = 3 ∧ r[0]? = some 5 ∧
    r[1]? = some (4 * 3) ∧ r[2]? = some (4 * 10 / 2) := by
  obtain ⟨r, h1, h2, h3, h4⟩ := C82_powerlaw [7, 7, 7] [0, 3, 10] [5, 8, 16, 0] 2 4 1 (by norm_num) (by norm_num) rfl (by simp)
    (by norm_num) (by norm_num) (by simp) (by
      intro k h0 hk
      have : k = 1 ∨ k = 2 := by simp at hk; omega
      rcases this with rfl | rfl <;> norm_num)
  have h5 := h4 1 3 (by norm_num) rfl
  have h6 := h4 2 10 (by norm_num) rfl
  simp at h5 h6
  exact ⟨r, h1, h2, h3, h5, h6⟩

/-- C82.  A one-sided spectrum of fewer than four elements cannot be resampled. -/
theorem C82_rejects (buf f psd : List ℝ) (bandwidth : ℝ) (hp : psd.length < 4) :
    logloginterpPsd buf f bandwidth psd = .error .indexError := by
  unfold logloginterpPsd
  dsimp only
  cases psd with
  | nil => rfl
  | cons a psd =>
    simp only [List.getElem?_cons_zero]
    split
    · rfl
    · rw [C55_rejects _ _ _ (by simp [inner] at hp ⊢; omega)]
      rfl

example : logloginterpPsd [0, 0] [0, 1] 1 [1, 1, 1] = .error .indexError := C82_rejects _ _ _ _ (by simp)

/-! ### Length of the Fourier transform -/

theorem fftLoop_spec (n f : Nat) (hf : 0 < f) : ∃ e, fftLoop n f = f * 2 ^ e ∧ n ≤ fftLoop n f ∧
    (e = 0 ∨ fftLoop n f < 2 * n) := by
  induction f using fftLoop.induct n with
  | case1 f h ih =>
    obtain ⟨e, h1, h2, h3⟩ := ih (by omega)
    rw [fftLoop, dif_pos h]
    refine ⟨e + 1, by rw [h1]; ring, h2, Or.inr ?_⟩
    rcases h3 with rfl | h3
    · rw [h1]; simp; omega
    · exact h3
  | case2 f h =>
    rw [fftLoop, dif_neg h]
    exact ⟨0, by simp, by omega, Or.inl rfl⟩

/-- C56.  The length is a power of two, at least 2 and the number of samples, and it is the least one. -/
theorem C56_fftsize (n : Nat) : (∃ e, 1 ≤ e ∧ fftSize n = 2 ^ e) ∧ n ≤ fftSize n ∧ (fftSize n = 2 ∨ fftSize n < 2 * n) ∧
    ∀ e, 1 ≤ e → n ≤ 2 ^ e → fftSize n ≤ 2 ^ e := by
  obtain ⟨e, h1, h2, h3⟩ := fftLoop_spec n 2 (by omega)
  have h1' : fftSize n = 2 ^ (e + 1) := by unfold fftSize; rw [h1]; ring
  refine ⟨⟨e + 1, by omega, h1'⟩, h2, ?_, ?_⟩
  · rcases h3 with rfl | h3
    · left; simpa using h1'
    · right; exact h3
  · intro e' he' hn
    rw [h1']
    apply Nat.pow_le_pow_right (by omega)
    rcases h3 with rfl | h3
    · omega
    · have h4 : 2 ^ (e + 1) < 2 ^ (e' + 1) := by
        have h5 : fftLoop n 2 = 2 ^ (e + 1) := h1'
        rw [← h5]
        calc fftLoop n 2 < 2 * n := h3
          _ ≤ 2 * 2 ^ e' := by omega
          _ = 2 ^ (e' + 1) := by ring
      have := (Nat.pow_lt_pow_iff_right (by omega : 1 < 2)).1 h4
      omega

example : fftSize 1000 = 1024 ∧ fftSize 1 = 2 ∧ fftSize 1024 = 1024 := by
  simp [fftSize, fftLoop]

end Verif.Signal
