import Verif.Signal.Fourier
import Verif.Signal.PropsPsd
import Verif.Signal.PropsInterp
import Mathlib.Algebra.BigOperators.Field

/-!
C83: the inverse noise correlation matrix; C84: the arguments of the noise functions; C86: the noise realisations.
-/
namespace Verif.Signal
open Verif.Py Finset

/-- The time-time covariance of a stationary noise with the two-sided spectrum `psd` sampled at `fs / N`: the value for samples separated
by `d`. -/
noncomputable def covariance (fs : ℝ) (psd : List ℝ) (d : ℤ) : ℝ :=
  fs / psd.length * ∑ k ∈ range psd.length, (psd[k]?).getD 0 * Real.cos (2 * Real.pi * (d * k : ℤ) / psd.length)

/-- A spectrum even under the negation of the frequency. -/
def Even' (psd : List ℝ) : Prop := ∀ (k : Nat), k < psd.length → psd[(psd.length - k) % psd.length]? = psd[k]?

theorem psd2invntt_getElem? (psd : List ℝ) (bandwidth : ℝ) (ncorr j : ℕ) (hj : j < psd.length) (hc : j ≤ ncorr) :
    (psd2invntt psd bandwidth ncorr)[j]? =
      some ((F psd.length (fun k => (((psd[k]?).map fun p => 1 / (bandwidth * psd.length) / p).getD 0 : ℝ)) (-j)).re / psd.length) := by
  unfold psd2invntt
  dsimp only
  rw [List.getElem?_map, List.getElem?_take_of_lt (by omega), dft_getElem? _ _ (by simpa using hj)]
  simp only [Option.map_some, List.length_map, List.getElem?_map]
  congr 4
  funext k
  cases psd[k]? <;> simp

/-- C83.  For a white spectrum the matrix is diagonal, with the inverse of the variance `fs * c` of the samples. -/
theorem C83_white (N : ℕ) (c bandwidth : ℝ) (hc : c ≠ 0) (ncorr j : ℕ) (hj : j < N) (hjc : j ≤ ncorr) :
    (psd2invntt (List.replicate N c) bandwidth ncorr)[j]? = some (if j = 0 then 1 / (bandwidth * N * c) else 0) := by
  have hN : 0 < N := by omega
  rw [psd2invntt_getElem? _ _ _ _ (by simpa using hj) hjc, List.length_replicate]
  congr 1
  have hF : F N (fun k => (((((List.replicate N c)[k]?).map fun p => 1 / (bandwidth * N) / p).getD 0 : ℝ) : ℂ)) (-j) =
      ((1 / (bandwidth * N) / c : ℝ) : ℂ) * F N (fun _ => 1) (-j) := by
    unfold F
    rw [Finset.mul_sum]
    apply Finset.sum_congr rfl
    intro k hk
    simp only [List.getElem?_replicate, if_pos (Finset.mem_range.1 hk), Option.map_some, Option.getD_some, one_mul]
  rw [hF, F_one N hN]
  by_cases h0 : j = 0
  · subst h0
    rw [if_pos (by simp), if_pos rfl, Complex.re_ofReal_mul, Complex.natCast_re]
    have : (N : ℝ) ≠ 0 := by exact_mod_cast hN.ne'
    by_cases hb : bandwidth = 0
    · subst hb; simp
    field_simp
  · rw [if_neg, if_neg h0]
    · simp
    · rintro ⟨d, hd⟩
      have h1 : (N : ℤ) * (-d) = j := by rw [mul_neg, ← hd, neg_neg]
      have h2 : 0 < -d := by
        by_contra hcon
        have : (N : ℤ) * (-d) ≤ 0 := mul_nonpos_of_nonneg_of_nonpos (by omega) (not_lt.1 hcon)
        omega
      nlinarith

example : (psd2invntt (List.replicate 4 (1 / 2 : ℝ)) 1 2)[(0 : ℕ)]? = some (1 / (1 * ((4 : ℕ) : ℝ) * (1 / 2)) : ℝ) ∧
    (psd2invntt (List.replicate 4 (1 / 2 : ℝ)) 1 2)[(1 : ℕ)]? = some 0 :=
  ⟨C83_white 4 (1 / 2) 1 (by norm_num) 2 0 (by norm_num) (by norm_num),
    C83_white 4 (1 / 2) 1 (by norm_num) 2 1 (by norm_num) (by norm_num)⟩

/-- C83.  For an even spectrum without zero and when the correlations are not truncated, the circulant matrix made of the result is the
inverse of the circulant time-time covariance matrix of the noise. -/
theorem C83_inverse (psd : List ℝ) (bandwidth : ℝ) (ncorr : ℕ) (hb : bandwidth ≠ 0) (hlen : psd.length ≤ ncorr + 1)
    (heven : Even' psd) (hne : ∀ p ∈ psd, p ≠ 0) (i l : ℕ) (hi : i < psd.length) (hl : l < psd.length) :
    ∑ m ∈ range psd.length,
        ((psd2invntt psd bandwidth ncorr)[(i + psd.length - m) % psd.length]?).getD 0 *
          covariance (bandwidth * psd.length) psd ((m : ℤ) - l) = if i = l then 1 else 0 := by
  set N := psd.length with hNdef
  have hN : 0 < N := by omega
  have hNR : (N : ℝ) ≠ 0 := by exact_mod_cast hN.ne'
  have hNC : (N : ℂ) ≠ 0 := by exact_mod_cast hN.ne'
  set fs : ℝ := bandwidth * N with hfs
  have hfs0 : fs ≠ 0 := mul_ne_zero hb hNR
  let a : ℕ → ℝ := fun k => ((psd[k]?).map fun p => 1 / fs / p).getD 0
  let c : ℕ → ℝ := fun k => fs * (psd[k]?).getD 0
  have ha : ∀ k, k < N → a ((N - k) % N) = a k := fun k hk => by simp only [a]; rw [heven k hk]
  have hc : ∀ k, k < N → c ((N - k) % N) = c k := fun k hk => by simp only [c]; rw [heven k hk]
  -- the terms as Fourier sums
  have hT : ∀ m, m ∈ range N → ((((psd2invntt psd bandwidth ncorr)[(i + N - m) % N]?).getD 0 : ℝ) : ℂ) =
      F N (fun k => (a k : ℂ)) ((i : ℤ) - m) / N := by
    intro m hm
    have hm := Finset.mem_range.1 hm
    have hlt : (i + N - m) % N < N := Nat.mod_lt _ hN
    rw [psd2invntt_getElem? psd bandwidth ncorr _ hlt (by omega), Option.getD_some]
    rw [show (fun k => ((((psd[k]?).map fun p => 1 / (bandwidth * (psd.length : ℕ)) / p).getD 0 : ℝ) : ℂ)) = fun k => (a k : ℂ) from rfl]
    rw [F_neg N hN _ (fun k hk => by simp only [ha k hk])]
    have h1 : (((i + N - m) % N : ℕ) : ℤ) = ((i : ℤ) + N - m) % N := by
      rw [Int.natCast_mod, Nat.cast_sub (by omega), Nat.cast_add]
    rw [h1, F_emod N hN]
    have h2 : F N (fun k => (a k : ℂ)) ((i : ℤ) + N - m) = F N (fun k => (a k : ℂ)) ((i : ℤ) - m) := by
      rw [← F_emod N hN, show ((i : ℤ) + N - m) = (i - m) + N * 1 by ring, Int.add_mul_emod_self_left, F_emod N hN]
    rw [h2]
    rw [F_real N hN a ha, Complex.ofReal_re, ← hNdef, Complex.ofReal_div, Complex.ofReal_natCast]
  have hC : ∀ m : ℕ, (covariance fs psd ((m : ℤ) - l) : ℂ) = F N (fun k => (c k : ℂ)) ((m : ℤ) - l) / N := by
    intro m
    rw [F_real N hN c hc, ← Complex.ofReal_natCast N, ← Complex.ofReal_div]
    congr 1
    unfold covariance
    rw [← hNdef, div_mul_eq_mul_div, Finset.mul_sum]
    congr 1
    apply Finset.sum_congr rfl
    intro k _
    simp only [c]
    ring
  have key : ((∑ m ∈ range N, ((psd2invntt psd bandwidth ncorr)[(i + N - m) % N]?).getD 0 *
      covariance fs psd ((m : ℤ) - l) : ℝ) : ℂ) = ((if i = l then 1 else 0 : ℝ) : ℂ) := by
    rw [Complex.ofReal_sum]
    rw [Finset.sum_congr rfl fun m hm => by rw [Complex.ofReal_mul, hT m hm, hC m]]
    have h1 : ∀ m ∈ range N, F N (fun k => (a k : ℂ)) ((i : ℤ) - m) / N * (F N (fun k => (c k : ℂ)) ((m : ℤ) - l) / N) =
        (F N (fun k => (a k : ℂ)) ((i : ℤ) - m) * F N (fun k => (c k : ℂ)) ((m : ℤ) - l)) * (1 / (N * N)) := by
      intro m _
      field_simp
    rw [Finset.sum_congr rfl h1, ← Finset.sum_mul, F_conv N hN]
    have h2 : F N (fun k => (a k : ℂ) * (c k : ℂ)) ((i : ℤ) - l) = F N (fun _ => 1) ((i : ℤ) - l) := by
      unfold F
      apply Finset.sum_congr rfl
      intro k hk
      have hk := Finset.mem_range.1 hk
      congr 1
      show (a k : ℂ) * (c k : ℂ) = 1
      rw [← Complex.ofReal_mul, ← Complex.ofReal_one]
      congr 1
      simp only [a, c]
      rw [List.getElem?_eq_getElem (hNdef ▸ hk)]
      have := hne _ (List.getElem_mem (hNdef ▸ hk))
      simp only [Option.map_some, Option.getD_some]
      field_simp
    rw [h2, F_one N hN]
    by_cases hil : i = l
    · subst hil
      rw [if_pos (by simp), if_pos rfl, Complex.ofReal_one]
      field_simp
    · rw [if_neg, if_neg hil]
      · simp
      · rintro ⟨d, hd⟩
        have hd0 : d = 0 := by
          rcases lt_trichotomy d 0 with h | h | h
          · nlinarith
          · exact h
          · nlinarith
        subst hd0
        omega
  exact_mod_cast key

example : ∑ m ∈ range 3, ((psd2invntt [1, 2, 2] 1 2)[(0 + 3 - m) % 3]?).getD 0 *
    covariance (1 * (3 : ℕ)) [1, 2, 2] ((m : ℤ) - (1 : ℕ)) = 0 :=
  C83_inverse [1, 2, 2] 1 2 (by norm_num) (by simp) (by
    intro k hk
    have : k = 0 ∨ k = 1 ∨ k = 2 := by simp at hk; omega
    rcases this with rfl | rfl | rfl <;> rfl) (by simp) 0 1 (by simp) (by simp)

/-! ### Realisations -/

theorem idft_length (a : List ℂ) : (idft a).length = a.length := by simp [idft]

theorem idft_getElem? (a : List ℂ) (j : ℕ) (hj : j < a.length) :
    (idft a)[j]? = some (F a.length (fun k => (a[k]?).getD 0) j / a.length) := by
  unfold idft
  rw [List.getElem?_map, List.getElem?_range hj, Option.map_some, sum_map_range]
  congr 2

/-- The spectrum of the realisation. -/
noncomputable def specOf (psd gauss : List ℝ) (k : ℕ) : ℂ :=
  if k = 0 then 0
  else F gauss.length (fun l => (((gauss[l]?).getD 0 : ℝ) : ℂ)) (-k) * ((Real.sqrt ((psd[k]?).getD 0) : ℝ) : ℂ)

theorem gaussianSample_eq (alloc : Nat → List ℝ) (fs : ℝ) (psd gauss : List ℝ) (hN : 0 < psd.length) (hg : gauss.length = psd.length) :
    ∃ out, gaussianSample alloc psd.length fs psd true gauss = .ok out ∧ out.length = psd.length ∧
      ∀ j, j < psd.length → out[j]? = some ((F psd.length (specOf psd gauss) j / psd.length).re * Real.sqrt fs) := by
  unfold gaussianSample
  simp only [if_true]
  rw [show (pure psd : Res (List ℝ)) = .ok psd from rfl]
  show ∃ out, (if psd.length = 0 then _ else _) = _ ∧ _
  rw [if_neg (by omega), if_pos (Or.inl rfl)]
  refine ⟨_, rfl, by simp [idft_length, dft_length, hg], ?_⟩
  intro j hj
  rw [List.getElem?_map, idft_getElem? _ _ (by simpa [dft_length, hg] using hj)]
  simp only [Option.map_some, List.length_mapIdx, List.length_set, dft_length, List.length_map, hg]
  congr 4
  unfold F
  apply Finset.sum_congr rfl
  intro k hk
  have hk := Finset.mem_range.1 hk
  congr 1
  unfold specOf
  beta_reduce
  rw [List.getElem?_mapIdx]
  by_cases h0 : k = 0
  · subst h0
    rw [List.getElem?_set_self (by simpa [dft_length, hg] using hN)]
    simp
  · rw [List.getElem?_set_ne (by omega), dft_getElem? _ _ (by simpa [hg] using hk), if_neg h0, if_neg (by omega)]
    simp only [Option.map_some, Option.getD_some, List.length_map]
    congr 2
    funext l
    rw [List.getElem?_map]
    cases gauss[l]? <;> simp

/-- C86.  A realisation has a zero mean. -/
theorem C86_mean (alloc : Nat → List ℝ) (fs : ℝ) (psd gauss : List ℝ) (hN : 0 < psd.length) (hg : gauss.length = psd.length) :
    ∃ out, gaussianSample alloc psd.length fs psd true gauss = .ok out ∧ out.length = psd.length ∧ out.sum = 0 := by
  obtain ⟨out, h1, h2, h3⟩ := gaussianSample_eq alloc fs psd gauss hN hg
  refine ⟨out, h1, h2, ?_⟩
  have e1 : out = (List.range psd.length).map fun (j : ℕ) => (F psd.length (specOf psd gauss) j / psd.length).re * Real.sqrt fs := by
    apply List.ext_getElem?
    intro j
    by_cases hj : j < psd.length
    · rw [h3 j hj, List.getElem?_map, List.getElem?_range hj]
      rfl
    · rw [List.getElem?_eq_none (by omega), List.getElem?_eq_none (by simp; omega)]
  rw [e1, sum_map_range, ← Finset.sum_mul, ← Complex.re_sum, ← Finset.sum_div]
  have e2 : ∑ j ∈ range psd.length, F psd.length (specOf psd gauss) (j : ℤ) = 0 := by
    unfold F
    rw [Finset.sum_comm]
    apply Finset.sum_eq_zero
    intro k hk
    have hk := Finset.mem_range.1 hk
    rw [← Finset.mul_sum, sum_e _ hN]
    by_cases h0 : k = 0
    · subst h0
      simp [specOf]
    · rw [if_neg, mul_zero]
      intro hd
      have := Nat.le_of_dvd (by omega) (Int.natCast_dvd_natCast.1 hd)
      omega
  rw [e2]
  simp

example (alloc : Nat → List ℝ) : ∃ out, gaussianSample alloc 3 1 [1, 2, 2] true [3, -1, 7] = .ok out ∧ out.sum = 0 := by
  obtain ⟨out, h1, _, h3⟩ := C86_mean alloc 1 [1, 2, 2] [3, -1, 7] (by simp) rfl
  exact ⟨out, h1, h3⟩

/-- C86.  A realisation is a linear function of the normal deviates, whose covariance for independent deviates of unit variance is the
time-time covariance of the even spectrum without its zero frequency. -/
theorem C86_covariance (alloc : Nat → List ℝ) (fs : ℝ) (hfs : 0 ≤ fs) (psd : List ℝ) (hN : 0 < psd.length) (heven : Even' psd)
    (hpos : ∀ p ∈ psd, 0 ≤ p) :
    ∃ M : ℕ → ℕ → ℝ,
      (∀ gauss : List ℝ, gauss.length = psd.length →
        ∃ out, gaussianSample alloc psd.length fs psd true gauss = .ok out ∧ out.length = psd.length ∧
          ∀ j, j < psd.length → out[j]? = some (∑ l ∈ range psd.length, M j l * (gauss[l]?).getD 0)) ∧
      ∀ i j, i < psd.length → j < psd.length →
        ∑ l ∈ range psd.length, M i l * M j l = covariance fs (psd.set 0 0) ((i : ℤ) - j) := by
  set N := psd.length with hNdef
  have hNC : (N : ℂ) ≠ 0 := by exact_mod_cast hN.ne'
  have hNR : (N : ℝ) ≠ 0 := by exact_mod_cast hN.ne'
  let s : ℕ → ℝ := fun k => if k = 0 then 0 else Real.sqrt ((psd[k]?).getD 0)
  have hs : ∀ k, k < N → s ((N - k) % N) = s k := by
    intro k hk
    simp only [s]
    rw [heven k hk]
    by_cases h0 : k = 0
    · subst h0; simp
    · rw [Nat.mod_eq_of_lt (by omega), if_neg h0, if_neg (by omega)]
  let h : ℤ → ℝ := fun d => ∑ k ∈ range N, s k * Real.cos (2 * Real.pi * (d * k : ℤ) / N)
  have hh : ∀ d, F N (fun k => (s k : ℂ)) d = (h d : ℂ) := fun d => F_real N hN s hs d
  refine ⟨fun j l => Real.sqrt fs / N * h ((j : ℤ) - l), ?_, ?_⟩
  · intro gauss hg
    obtain ⟨out, h1, h2, h3⟩ := gaussianSample_eq alloc fs psd gauss hN hg
    refine ⟨out, h1, h2, fun j hj => ?_⟩
    rw [h3 j hj]
    congr 1
    have e1 : F N (specOf psd gauss) j = ((∑ l ∈ range N, h ((j : ℤ) - l) * (gauss[l]?).getD 0 : ℝ) : ℂ) := by
      rw [Complex.ofReal_sum]
      simp only [Complex.ofReal_mul, ← hh]
      unfold F
      simp only [Finset.sum_mul]
      rw [Finset.sum_comm]
      apply Finset.sum_congr rfl
      intro k hk
      have hspec : specOf psd gauss k = ∑ l ∈ range N, (((gauss[l]?).getD 0 : ℝ) : ℂ) * e N (-k * l) * (s k : ℂ) := by
        unfold specOf
        by_cases h0 : k = 0
        · subst h0; simp [s]
        · rw [if_neg h0, hg]
          unfold F
          rw [Finset.sum_mul]
          simp only [s, if_neg h0]
      rw [hspec, Finset.sum_mul]
      apply Finset.sum_congr rfl
      intro l _
      rw [show ((j : ℤ) - l) * k = j * k + -k * l by ring, e_add]
      ring
    rw [← hNdef, e1, ← Complex.ofReal_natCast, ← Complex.ofReal_div, Complex.ofReal_re, Finset.sum_div, Finset.sum_mul]
    apply Finset.sum_congr rfl
    intro l _
    ring
  · intro i j hi hj
    have hneg : ∀ d, h (-d) = h d := by
      intro d
      have := F_neg N hN (fun k => (s k : ℂ)) (fun k hk => by simp only [hs k hk]) d
      rw [hh, hh] at this
      exact_mod_cast this
    have hconv : ((∑ l ∈ range N, h ((i : ℤ) - l) * h ((l : ℤ) - j) : ℝ) : ℂ) =
        ((N * ∑ k ∈ range N, s k * s k * Real.cos (2 * Real.pi * (((i : ℤ) - j) * k : ℤ) / N) : ℝ) : ℂ) := by
      rw [Complex.ofReal_mul, ← F_real N hN (fun k => s k * s k) (fun k hk => by simp only [hs k hk])]
      rw [Complex.ofReal_sum]
      simp only [Complex.ofReal_mul, ← hh]
      rw [F_conv N hN]
      simp
    have hconv' := Complex.ofReal_injective hconv
    have e1 : ∀ l ∈ range N, Real.sqrt fs / N * h ((i : ℤ) - l) * (Real.sqrt fs / N * h ((j : ℤ) - l)) =
        fs / (N * N) * (h ((i : ℤ) - l) * h ((l : ℤ) - j)) := by
      intro l _
      rw [← hneg ((j : ℤ) - l), neg_sub]
      rw [show Real.sqrt fs / N * h ((i : ℤ) - l) * (Real.sqrt fs / N * h ((l : ℤ) - j)) =
        (Real.sqrt fs * Real.sqrt fs) / (N * N) * (h ((i : ℤ) - l) * h ((l : ℤ) - j)) by ring, Real.mul_self_sqrt hfs]
    rw [Finset.sum_congr rfl e1, ← Finset.mul_sum, hconv']
    unfold covariance
    rw [List.length_set, ← hNdef]
    have e2 : ∑ k ∈ range N, s k * s k * Real.cos (2 * Real.pi * (((i : ℤ) - j) * k : ℤ) / N) =
        ∑ k ∈ range N, ((psd.set 0 0)[k]?).getD 0 * Real.cos (2 * Real.pi * (((i : ℤ) - j) * k : ℤ) / N) := by
      apply Finset.sum_congr rfl
      intro k hk
      have hk := Finset.mem_range.1 hk
      congr 1
      simp only [s]
      by_cases h0 : k = 0
      · subst h0
        rw [List.getElem?_set_self (by omega)]
        simp
      · rw [if_neg h0, List.getElem?_set_ne (by omega), List.getElem?_eq_getElem (hNdef ▸ hk), Option.getD_some]
        exact Real.mul_self_sqrt (hpos _ (List.getElem_mem _))
    rw [e2]
    field_simp

example (alloc : Nat → List ℝ) : ∃ M : ℕ → ℕ → ℝ,
    (∀ gauss : List ℝ, gauss.length = 3 → ∃ out, gaussianSample alloc 3 1 [1, 2, 2] true gauss = .ok out ∧ out.length = 3 ∧
      ∀ j, j < 3 → out[j]? = some (∑ l ∈ range 3, M j l * (gauss[l]?).getD 0)) ∧
    ∀ i j, i < 3 → j < 3 → ∑ l ∈ range 3, M i l * M j l = covariance 1 [0, 2, 2] ((i : ℤ) - j) :=
  C86_covariance alloc 1 (by norm_num) [1, 2, 2] (by simp) (by
    intro k hk
    have : k = 0 ∨ k = 1 ∨ k = 2 := by simp at hk; omega
    rcases this with rfl | rfl | rfl <;> rfl) (by simp)

end Verif.Signal
