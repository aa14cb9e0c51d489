import Verif.Signal.Fourier
import Verif.Data.Profile

/-! Power spectrum density of an image and its radial profile (datautils.py 507-568). -/

namespace Verif.Data

open Finset
open Verif.Py
open Verif.Signal (e e_add e_zero e_conj sum_e e_emod e_mul_self)

set_option linter.unusedSectionVars false
set_option linter.unusedSimpArgs false

noncomputable section

/-! ### The model -/

/-- `FFTOperator(shape)(array)`: the discrete Fourier transform, which is not normalised. -/
def fft2 (ny nx : ℕ) (a : ℕ → ℕ → ℂ) (u v : ℕ) : ℂ :=
  ∑ j ∈ range ny, ∑ i ∈ range nx, a j i * Complex.exp (-(2 * Real.pi * Complex.I * ((u * j : ℕ) / (ny : ℂ) + (v * i : ℕ) / (nx : ℂ))))

/-- `scipy.fftpack.fftshift`, which moves the element `k` to the position `(k + n // 2) % n` along each axis. -/
def fftshift {α : Type} (ny nx : ℕ) (s : ℕ → ℕ → α) (u v : ℕ) : α := s ((u + (ny - ny / 2)) % ny) ((v + (nx - nx / 2)) % nx)

/-- datautils.py 529-536 `psd2`, for an array of shape `(ny, nx)`. -/
def psd2 (ny nx : ℕ) (a : ℕ → ℕ → ℂ) (fs : ℝ) : ℕ → ℕ → ℝ :=
  let size : ℝ := (ny * nx : ℕ)
  let bandwidth := fs ^ 2 / size
  fftshift ny nx fun u v => ‖fft2 ny nx a u v‖ ^ 2 / size ^ 2 / bandwidth

/-- datautils.py 561-568 `profile_psd2`: the arrays `x` and `y`. -/
def profilePsd2 (ny nx : ℕ) (rows : List (List ℕ)) (a : ℕ → ℕ → ℂ) (fs : ℝ) : Res (List (ℝ × Option ℝ)) :=
  if ny ≠ nx then .error .valueError
  else do
    let psd := psd2 ny nx a fs
    let r ← profile (fun j i => some (psd j i)) ny nx rows 1 none (some ((ny / 2 : ℕ) + 1, (nx / 2 : ℕ) + 1)) 1
    .ok (r.map fun p => (p.1 * (fs / nx), p.2.1))

/-! ### Properties -/

theorem fft2_eq {ny nx : ℕ} (a : ℕ → ℕ → ℂ) (u v : ℕ) :
    fft2 ny nx a u v = ∑ j ∈ range ny, ∑ i ∈ range nx, a j i * (e ny (-(j * u : ℤ)) * e nx (-(i * v : ℤ))) := by
  rw [fft2]
  refine Finset.sum_congr rfl fun j _ => Finset.sum_congr rfl fun i _ => ?_
  rw [e, e, ← Complex.exp_add]
  congr 2
  push_cast
  ring

/-- A sum over a shifted index. -/
theorem sum_shift {n : ℕ} (hn : 0 < n) (k : ℕ) (f : ℕ → ℝ) : ∑ u ∈ range n, f ((u + k) % n) = ∑ u ∈ range n, f u := by
  refine Finset.sum_nbij' (fun u => (u + k) % n) (fun u => (u + (n - k % n)) % n) ?_ ?_ ?_ ?_ ?_
  · intro u _; exact Finset.mem_range.mpr (Nat.mod_lt _ hn)
  · intro u _; exact Finset.mem_range.mpr (Nat.mod_lt _ hn)
  · intro u hu
    rw [Finset.mem_range] at hu
    have hk : k % n ≤ n := (Nat.mod_lt k hn).le
    have h1 : ((u + k) % n + (n - k % n)) % n = (u + k % n + (n - k % n)) % n := by
      rw [Nat.mod_add_mod, ← Nat.add_mod_mod, Nat.add_right_comm, ← Nat.add_mod_mod, Nat.add_right_comm]
      simp [Nat.add_mod]
    rw [h1, Nat.add_assoc, Nat.add_sub_cancel' hk, Nat.add_mod_right, Nat.mod_eq_of_lt hu]
  · intro u hu
    rw [Finset.mem_range] at hu
    have hk : k % n ≤ n := (Nat.mod_lt k hn).le
    have h1 : ((u + (n - k % n)) % n + k) % n = (u + (n - k % n) + k % n) % n := by
      rw [Nat.mod_add_mod, ← Nat.add_mod_mod]
    rw [h1, Nat.add_assoc, Nat.sub_add_cancel hk, Nat.add_mod_right, Nat.mod_eq_of_lt hu]
  · intro u _; rfl

/-- The theorem of Parseval in one dimension. -/
theorem parseval (n : ℕ) (hn : 0 < n) (a : ℕ → ℂ) : ∑ u ∈ range n, ‖∑ k ∈ range n, a k * e n (-(k * u : ℤ))‖ ^ 2 = n * ∑ k ∈ range n, ‖a k‖ ^ 2 := by
  have key : ((∑ u ∈ range n, ‖∑ k ∈ range n, a k * e n (-(k * u : ℤ))‖ ^ 2 : ℝ) : ℂ) = ((n * ∑ k ∈ range n, ‖a k‖ ^ 2 : ℝ) : ℂ) := by
    push_cast
    have : ∀ u ∈ range n, ((‖∑ k ∈ range n, a k * e n (-(k * u : ℤ))‖ : ℂ)) ^ 2 =
        ∑ k ∈ range n, ∑ l ∈ range n, a k * (starRingEnd ℂ) (a l) * e n (u * (l - k : ℤ)) := by
      intro u _
      rw [← Complex.mul_conj', map_sum, Finset.sum_mul_sum]
      refine Finset.sum_congr rfl fun k _ => Finset.sum_congr rfl fun l _ => ?_
      rw [map_mul, e_conj, show (u * (l - k : ℤ) : ℤ) = -(k * u : ℤ) + -(-(l * u : ℤ)) by ring, e_add]
      ring
    rw [Finset.sum_congr rfl this, Finset.sum_comm, Finset.mul_sum]
    refine Finset.sum_congr rfl fun k hk => ?_
    rw [Finset.sum_comm]
    rw [Finset.mem_range] at hk
    rw [Finset.sum_eq_single k]
    · rw [← Finset.mul_sum, sub_self]
      simp only [mul_zero, e_zero, Finset.sum_const, Finset.card_range, nsmul_eq_mul, mul_one]
      rw [Complex.mul_conj']
      ring
    · intro l hl hne
      rw [Finset.mem_range] at hl
      rw [← Finset.mul_sum, sum_e n hn, if_neg, mul_zero]
      intro hd
      apply hne
      have := Int.eq_zero_of_abs_lt_dvd hd (by rw [abs_lt]; omega)
      omega
    · intro h; exact absurd (Finset.mem_range.mpr hk) h
  exact_mod_cast key

/-- C104: the sum of the power spectrum density multiplied by the area of its bins is the mean square of the array. -/
theorem C104_parseval {ny nx : ℕ} (hy : 0 < ny) (hx : 0 < nx) (a : ℕ → ℕ → ℂ) {fs : ℝ} (hf : fs ≠ 0) :
    ∑ u ∈ range ny, ∑ v ∈ range nx, psd2 ny nx a fs u v * (fs ^ 2 / (ny * nx : ℕ)) = (∑ j ∈ range ny, ∑ i ∈ range nx, ‖a j i‖ ^ 2) / (ny * nx : ℕ) := by
  have hs : ((ny * nx : ℕ) : ℝ) ≠ 0 := by exact_mod_cast (Nat.mul_pos hy hx).ne'
  have h1 : ∑ u ∈ range ny, ∑ v ∈ range nx, psd2 ny nx a fs u v * (fs ^ 2 / (ny * nx : ℕ)) =
      ∑ u ∈ range ny, ∑ v ∈ range nx, ‖fft2 ny nx a u v‖ ^ 2 / ((ny * nx : ℕ) : ℝ) ^ 2 := by
    rw [← sum_shift hy (ny - ny / 2) fun u => ∑ v ∈ range nx, ‖fft2 ny nx a u v‖ ^ 2 / ((ny * nx : ℕ) : ℝ) ^ 2]
    refine Finset.sum_congr rfl fun u _ => ?_
    rw [← sum_shift hx (nx - nx / 2) fun v => ‖fft2 ny nx a ((u + (ny - ny / 2)) % ny) v‖ ^ 2 / ((ny * nx : ℕ) : ℝ) ^ 2]
    refine Finset.sum_congr rfl fun v _ => ?_
    rw [psd2]
    dsimp only [fftshift]
    field_simp
  have h2 : ∀ u ∈ range ny, ∑ v ∈ range nx, ‖fft2 ny nx a u v‖ ^ 2 = nx * ∑ i ∈ range nx, ‖∑ j ∈ range ny, a j i * e ny (-(j * u : ℤ))‖ ^ 2 := by
    intro u _
    rw [← parseval nx hx]
    refine Finset.sum_congr rfl fun v _ => ?_
    rw [fft2_eq, Finset.sum_comm]
    congr 2
    refine Finset.sum_congr rfl fun i _ => ?_
    rw [Finset.sum_mul]
    exact Finset.sum_congr rfl fun j _ => by ring
  have h3 : ∑ u ∈ range ny, ∑ v ∈ range nx, ‖fft2 ny nx a u v‖ ^ 2 = (nx * ny) * ∑ j ∈ range ny, ∑ i ∈ range nx, ‖a j i‖ ^ 2 := by
    rw [Finset.sum_congr rfl h2, ← Finset.mul_sum, Finset.sum_comm, Finset.sum_congr rfl fun i _ => parseval ny hy fun j => a j i, ← Finset.mul_sum,
      Finset.sum_comm, mul_assoc]
  rw [h1]
  simp only [← Finset.sum_div]
  rw [h3]
  push_cast at hs ⊢
  field_simp

/-- The element of the middle of the range, plus a frequency. -/
theorem shift_dvd {n : ℕ} {u : ℕ} (hu : u < n) {p : ℤ} (h0 : 0 ≤ (n / 2 : ℕ) + p) (h1 : (n / 2 : ℕ) + p < n) :
    (n : ℤ) ∣ p - ((u + (n - n / 2)) % n : ℕ) ↔ (u : ℤ) = (n / 2 : ℕ) + p := by
  have hd : n / 2 ≤ n := Nat.div_le_self _ _
  have hmod : (((u + (n - n / 2)) % n : ℕ) : ℤ) = (u - (n / 2 : ℕ) : ℤ) % n := by
    rw [Int.natCast_mod, Nat.cast_add, Nat.cast_sub hd]
    rw [show (u : ℤ) + (n - (n / 2 : ℕ)) = u - (n / 2 : ℕ) + n by ring, Int.add_emod_right]
  have hsub : p - (u - (n / 2 : ℕ) : ℤ) % n = p - (u - (n / 2 : ℕ) : ℤ) + n * ((u - (n / 2 : ℕ) : ℤ) / n) := by
    rw [Int.emod_def]; ring
  rw [hmod, hsub, dvd_add_left (dvd_mul_right _ _)]
  constructor
  · intro h
    have := Int.eq_zero_of_abs_lt_dvd h (by rw [abs_lt]; omega)
    omega
  · intro h
    have : p - (u - (n / 2 : ℕ) : ℤ) = 0 := by omega
    rw [this]
    exact dvd_zero _

/-- C104: the element of the row `ny // 2 + p` and column `nx // 2 + q` is the density of the frequency of `p` periods along the rows and `q`
along the columns: a pure wave is in this element only. -/
theorem C104_frequency {ny nx : ℕ} (hy : 0 < ny) (hx : 0 < nx) {p q : ℤ} (hp0 : 0 ≤ (ny / 2 : ℕ) + p) (hp1 : (ny / 2 : ℕ) + p < ny)
    (hq0 : 0 ≤ (nx / 2 : ℕ) + q) (hq1 : (nx / 2 : ℕ) + q < nx) {a : ℕ → ℕ → ℂ}
    (ha : ∀ j i : ℕ, a j i = Complex.exp (2 * Real.pi * Complex.I * (j * p / ny + i * q / nx))) {fs : ℝ} (hf : fs ≠ 0) {u v : ℕ} (hu : u < ny) (hv : v < nx) :
    ((u : ℤ) = (ny / 2 : ℕ) + p → (v : ℤ) = (nx / 2 : ℕ) + q → psd2 ny nx a fs u v = (ny * nx : ℕ) / fs ^ 2) ∧
    (((u : ℤ) ≠ (ny / 2 : ℕ) + p ∨ (v : ℤ) ≠ (nx / 2 : ℕ) + q) → psd2 ny nx a fs u v = 0) := by
  have hs : ((ny * nx : ℕ) : ℝ) ≠ 0 := by exact_mod_cast (Nat.mul_pos hy hx).ne'
  have ha' : ∀ j i : ℕ, a j i = e ny (j * p) * e nx (i * q) := by
    intro j i
    rw [ha, e, e, ← Complex.exp_add]
    congr 1
    push_cast
    ring
  have hfft : ∀ u' v' : ℕ, fft2 ny nx a u' v' =
      (if (ny : ℤ) ∣ p - u' then (ny : ℂ) else 0) * (if (nx : ℤ) ∣ q - v' then (nx : ℂ) else 0) := by
    intro u' v'
    rw [fft2_eq, ← sum_e ny hy, ← sum_e nx hx, Finset.sum_mul_sum]
    refine Finset.sum_congr rfl fun j _ => Finset.sum_congr rfl fun i _ => ?_
    rw [ha', show (j * (p - u') : ℤ) = j * p + -(j * u' : ℤ) by ring, show (i * (q - v') : ℤ) = i * q + -(i * v' : ℤ) by ring, e_add, e_add]
    ring
  rw [psd2]
  dsimp only [fftshift]
  rw [hfft]
  simp only [shift_dvd hu hp0 hp1, shift_dvd hv hq0 hq1]
  constructor
  · intro h1 h2
    rw [if_pos h1, if_pos h2, norm_mul, Complex.norm_natCast, Complex.norm_natCast]
    push_cast at hs ⊢
    field_simp
  · rintro (h | h)
    · rw [if_neg h]; simp
    · rw [if_neg h]; simp

/-- One period along the four rows and none along the three columns. -/
example : psd2 4 3 (fun j _ => Complex.exp (2 * Real.pi * Complex.I * (j * (1 : ℤ) / (4 : ℕ) + 0 * (0 : ℤ) / (3 : ℕ)))) 2 3 1 = (4 * 3 : ℕ) / 2 ^ 2 := by
  refine (C104_frequency (ny := 4) (nx := 3) (p := 1) (q := 0) (by norm_num) (by norm_num) (by norm_num) (by norm_num) (by norm_num) (by norm_num) ?_
    (by norm_num) (by norm_num) (by norm_num)).1 (by norm_num) (by norm_num)
  intro j i
  congr 1
  push_cast
  ring

/-- C104 does not hold for the radial profile of the density: the centre is not the zero frequency.  For a constant image, whose density is that
of the zero frequency, the first bin is zero. -/
theorem C104_violation_profile {n : ℕ} (hn : 3 ≤ n) {rows : List (List ℕ)} (hr : rows.flatten.Perm (List.range n)) {fs : ℝ} (hf : fs ≠ 0) :
    psd2 n n (fun _ _ => 1) fs (n / 2) (n / 2) ≠ 0 ∧ ∃ r, profilePsd2 n n rows (fun _ _ => 1) fs = .ok r ∧ ∃ x, r[0]? = some (x, some 0) := by
  have hpsd := fun {u v : ℕ} (hu : u < n) (hv : v < n) => C104_frequency (ny := n) (nx := n) (by omega) (by omega) (p := 0) (q := 0) (by omega) (by omega)
    (by omega) (by omega) (a := fun _ _ => 1) (fun j i => by simp) hf hu hv
  constructor
  · rw [(hpsd (by omega) (by omega)).1 (by simp) (by simp)]
    have : ((n * n : ℕ) : ℝ) ≠ 0 := by exact_mod_cast (Nat.mul_pos (by omega) (by omega) : 0 < n * n).ne'
    exact div_ne_zero this (pow_ne_zero 2 hf)
  · set c : ℝ × ℝ := (((n / 2 : ℕ) : ℝ) + 1, ((n / 2 : ℕ) : ℝ) + 1) with hc
    obtain ⟨r, h1, h2, h3⟩ := C66_profile (input := fun j i => some (psd2 n n (fun _ _ => 1) fs j i)) (ny := n) (nx := n) hr (bin := 1) (scale := 1) one_pos
      one_pos (nbins := none) (centre := some c) (c := c) (.inl rfl) (.inr ⟨rfl, rfl⟩)
    set m := ⌊1 * max (max c.1 ((n : ℝ) - c.1)) (max c.2 ((n : ℝ) - c.2)) / 1⌋₊ with hm
    have hpos : 0 < m := by
      rw [hm, Nat.floor_pos, one_mul, div_one]
      refine le_max_of_le_left (le_max_of_le_left ?_)
      rw [hc]
      have : (0 : ℝ) ≤ ((n / 2 : ℕ) : ℝ) := Nat.cast_nonneg _
      linarith
    obtain ⟨x, y, g1, g2, -⟩ := h3 0 hpos
    refine ⟨r.map fun p => (p.1 * (fs / n), p.2.1), ?_, x * (fs / n), ?_⟩
    · rw [profilePsd2, if_neg (by simp)]
      dsimp only
      rw [h1]
      rfl
    · have hin : n / 2 + 1 < n := by omega
      have hring : ring (fun j i => some (psd2 n n (fun _ _ => 1) fs j i)) n n c 1 ((0 : ℕ) * 1) (((0 : ℕ) + 1) * 1) = {(n / 2 + 1, n / 2 + 1)} := by
        ext p
        rw [mem_ring, Finset.mem_singleton]
        have hrad : radius c 1 p < ((0 : ℕ) + 1) * 1 ↔ p = (n / 2 + 1, n / 2 + 1) := by
          rw [radius, one_mul, Nat.cast_zero, zero_add, mul_one, Real.sqrt_lt' one_pos, hc]
          dsimp only
          have e1 : ∀ h : ℕ, ((p.1 : ℝ) - ((h : ℝ) + 1)) ^ 2 + ((p.2 : ℝ) - ((h : ℝ) + 1)) ^ 2 =
              ((((p.1 : ℤ) - (h + 1 : ℕ)) ^ 2 + ((p.2 : ℤ) - (h + 1 : ℕ)) ^ 2 : ℤ) : ℝ) := by
            intro h; push_cast; ring
          rw [e1, show (1 : ℝ) ^ 2 = ((1 : ℤ) : ℝ) by norm_num, Int.cast_lt]
          constructor
          · intro h
            have q1 := sq_nonneg ((p.1 : ℤ) - (n / 2 + 1 : ℕ))
            have q2 := sq_nonneg ((p.2 : ℤ) - (n / 2 + 1 : ℕ))
            have z1 : ((p.1 : ℤ) - (n / 2 + 1 : ℕ)) ^ 2 = 0 := by omega
            have z2 : ((p.2 : ℤ) - (n / 2 + 1 : ℕ)) ^ 2 = 0 := by omega
            have z1' := pow_eq_zero_iff (two_ne_zero) |>.mp z1
            have z2' := pow_eq_zero_iff (two_ne_zero) |>.mp z2
            ext
            · dsimp only; omega
            · dsimp only; omega
          · rintro rfl
            simp
        constructor
        · intro h; exact hrad.mp h.2.2.2
        · intro h
          refine ⟨?_, rfl, ?_, hrad.mpr h⟩
          · rw [h]; exact ⟨hin, hin⟩
          · rw [Nat.cast_zero, zero_mul]
            exact mul_nonneg zero_le_one (Real.sqrt_nonneg _)
      rw [hring] at g1 g2
      obtain ⟨-, gy⟩ := g2 (Finset.singleton_nonempty _)
      have hz := (hpsd (u := n / 2 + 1) (v := n / 2 + 1) hin hin).2 (.inl (by push_cast; omega))
      rw [List.getElem?_map, g1, gy, Finset.sum_singleton]
      simp [hz]

end
end Verif.Data
