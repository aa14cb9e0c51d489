import Verif.Signal.Lemmas
import Mathlib.RingTheory.RootsOfUnity.Complex
import Mathlib.Algebra.BigOperators.Intervals
import Mathlib.Tactic.Push

/-! Discrete Fourier sums. -/
namespace Verif.Signal
open Verif.Py Finset

/-- `exp(2 i pi x / N)`. -/
noncomputable def e (N : ℕ) (x : ℤ) : ℂ := Complex.exp (2 * Real.pi * Complex.I * x / N)

theorem e_add (N : ℕ) (x y : ℤ) : e N (x + y) = e N x * e N y := by
  unfold e
  rw [← Complex.exp_add]
  congr 1
  push_cast
  ring

theorem e_zero (N : ℕ) : e N 0 = 1 := by simp [e]

theorem e_mul_self (N : ℕ) (hN : 0 < N) (x : ℤ) : e N (N * x) = 1 := by
  unfold e
  have : (N : ℂ) ≠ 0 := by exact_mod_cast hN.ne'
  rw [show (2 * Real.pi * Complex.I * ((N * x : ℤ) : ℂ) / N : ℂ) = x * (2 * Real.pi * Complex.I) by
    push_cast; field_simp]
  exact Complex.exp_int_mul_two_pi_mul_I x

theorem e_periodic (N : ℕ) (hN : 0 < N) (x y : ℤ) : e N (x + N * y) = e N x := by
  rw [e_add, e_mul_self N hN, mul_one]

theorem e_emod (N : ℕ) (hN : 0 < N) (x k : ℤ) : e N ((x % N) * k) = e N (x * k) := by
  conv_rhs => rw [← Int.emod_add_mul_ediv x N]
  rw [show (x % N + N * (x / N)) * k = x % N * k + N * (x / N * k) by ring, e_periodic N hN]

theorem e_pow (N : ℕ) (x : ℤ) (m : ℕ) : e N x ^ m = e N (m * x) := by
  unfold e
  rw [← Complex.exp_nat_mul]
  congr 1
  push_cast
  ring

theorem e_eq_one_iff (N : ℕ) (hN : 0 < N) (x : ℤ) : e N x = 1 ↔ (N : ℤ) ∣ x := by
  constructor
  · intro h
    unfold e at h
    rw [Complex.exp_eq_one_iff] at h
    obtain ⟨n, hn⟩ := h
    refine ⟨n, ?_⟩
    have hN' : (N : ℂ) ≠ 0 := by exact_mod_cast hN.ne'
    have hpi : (2 * Real.pi * Complex.I : ℂ) ≠ 0 := Complex.two_pi_I_ne_zero
    rw [div_eq_iff hN'] at hn
    have h2 : (2 * Real.pi * Complex.I : ℂ) * x = (2 * Real.pi * Complex.I : ℂ) * (N * n) := by rw [hn]; ring
    have := mul_left_cancel₀ hpi h2
    exact_mod_cast this
  · rintro ⟨n, rfl⟩
    exact e_mul_self N hN n

theorem e_conj (N : ℕ) (x : ℤ) : (starRingEnd ℂ) (e N x) = e N (-x) := by
  unfold e
  rw [← Complex.exp_conj]
  congr 1
  rw [show (2 : ℂ) = ((2 : ℝ) : ℂ) by norm_num]
  simp only [map_div₀, map_mul, Complex.conj_ofReal, Complex.conj_I, map_intCast, map_natCast, Int.cast_neg]
  ring

theorem e_re (N : ℕ) (x : ℤ) : (e N x).re = Real.cos (2 * Real.pi * x / N) := by
  unfold e
  rw [show (2 * Real.pi * Complex.I * x / N : ℂ) = ((2 * Real.pi * x / N : ℝ) : ℂ) * Complex.I by push_cast; ring,
    Complex.exp_ofReal_mul_I_re]

/-- Orthogonality. -/
theorem sum_e (N : ℕ) (hN : 0 < N) (x : ℤ) : ∑ m ∈ range N, e N (m * x) = if (N : ℤ) ∣ x then (N : ℂ) else 0 := by
  simp only [← e_pow]
  split
  · rename_i h
    rw [(e_eq_one_iff N hN x).2 h]
    simp
  · rename_i h
    have hne : e N x ≠ 1 := fun h1 => h ((e_eq_one_iff N hN x).1 h1)
    rw [geom_sum_eq hne, e_pow, e_mul_self N hN, sub_self, zero_div]

/-- The Fourier sum. -/
noncomputable def F (N : ℕ) (A : ℕ → ℂ) (j : ℤ) : ℂ := ∑ k ∈ range N, A k * e N (j * k)

theorem F_emod (N : ℕ) (hN : 0 < N) (A : ℕ → ℂ) (j : ℤ) : F N A (j % N) = F N A j := by
  unfold F
  exact Finset.sum_congr rfl fun k _ => by rw [e_emod N hN]

/-- The circular convolution of Fourier sums. -/
theorem F_conv (N : ℕ) (hN : 0 < N) (A B : ℕ → ℂ) (i l : ℤ) :
    ∑ m ∈ range N, F N A (i - m) * F N B (m - l) = N * F N (fun k => A k * B k) (i - l) := by
  unfold F
  simp only [Finset.sum_mul_sum]
  rw [Finset.sum_comm]
  rw [Finset.mul_sum]
  apply Finset.sum_congr rfl
  intro k hk
  rw [Finset.sum_comm]
  have h1 : ∀ k' ∈ range N, ∑ m ∈ range N, A k * e N ((i - (m : ℕ)) * k) * (B k' * e N (((m : ℕ) - l) * k')) =
      if k' = k then A k * B k * e N ((i - l) * k) * N else 0 := by
    intro k' hk'
    have h2 : ∀ m ∈ range N, A k * e N ((i - (m : ℕ)) * k) * (B k' * e N (((m : ℕ) - l) * k')) =
        A k * B k' * e N (i * k - l * k') * e N ((m : ℕ) * ((k' : ℤ) - k)) := by
      intro m _
      rw [show A k * e N ((i - (m : ℕ)) * k) * (B k' * e N (((m : ℕ) - l) * k')) =
        A k * B k' * (e N ((i - (m : ℕ)) * k) * e N (((m : ℕ) - l) * k')) by ring, ← e_add, mul_assoc (A k * B k'), ← e_add]
      congr 2
      ring
    rw [Finset.sum_congr rfl h2, ← Finset.mul_sum, sum_e N hN]
    have hk1 := Finset.mem_range.1 hk
    have hk2 := Finset.mem_range.1 hk'
    by_cases h : k' = k
    · subst h
      rw [if_pos (by simp), if_pos rfl]
      congr 2
      congr 1
      ring
    · rw [if_neg, if_neg h, mul_zero]
      rintro ⟨c, hc⟩
      have h3 : (k' : ℤ) - k < N := by omega
      have h4 : -(N : ℤ) < (k' : ℤ) - k := by omega
      have hc0 : c = 0 := by
        have hN' : (0 : ℤ) < N := by omega
        rcases lt_trichotomy c 0 with hc' | hc' | hc'
        · nlinarith
        · exact hc'
        · nlinarith
      subst hc0
      omega
  rw [Finset.sum_congr rfl h1, Finset.sum_ite_eq' (range N) k, if_pos hk]
  ring

/-- The Fourier sum of the constant 1. -/
theorem F_one (N : ℕ) (hN : 0 < N) (j : ℤ) : F N (fun _ => 1) j = if (N : ℤ) ∣ j then (N : ℂ) else 0 := by
  unfold F
  simp only [one_mul]
  rw [← sum_e N hN]
  exact Finset.sum_congr rfl fun k _ => by rw [mul_comm]

/-- Sums over the opposite frequencies. -/
theorem sum_reflect (N : ℕ) (f : ℕ → ℂ) : ∑ k ∈ range N, f ((N - k) % N) = ∑ k ∈ range N, f k := by
  rcases Nat.eq_zero_or_pos N with rfl | hN
  · simp
  refine Finset.sum_nbij' (fun k => (N - k) % N) (fun k => (N - k) % N) ?_ ?_ ?_ ?_ ?_
  · intro k _
    exact Finset.mem_range.2 (Nat.mod_lt _ hN)
  · intro k _
    exact Finset.mem_range.2 (Nat.mod_lt _ hN)
  · intro k hk
    have hk := Finset.mem_range.1 hk
    rcases Nat.eq_zero_or_pos k with rfl | h0
    · simp
    · rw [Nat.mod_eq_of_lt (by omega : N - k < N), Nat.mod_eq_of_lt (by omega)]
      omega
  · intro k hk
    have hk := Finset.mem_range.1 hk
    rcases Nat.eq_zero_or_pos k with rfl | h0
    · simp
    · rw [Nat.mod_eq_of_lt (by omega : N - k < N), Nat.mod_eq_of_lt (by omega)]
      omega
  · intro k _
    rfl

/-- The Fourier sum of an even sequence is even. -/
theorem F_neg (N : ℕ) (hN : 0 < N) (A : ℕ → ℂ) (hA : ∀ k, k < N → A ((N - k) % N) = A k) (j : ℤ) : F N A (-j) = F N A j := by
  unfold F
  rw [← sum_reflect N fun k => A k * e N (j * k)]
  apply Finset.sum_congr rfl
  intro k hk
  have hk := Finset.mem_range.1 hk
  rw [hA k hk]
  congr 1
  have h1 : (((N - k) % N : ℕ) : ℤ) = ((N : ℤ) - k) % N := by
    rw [Int.natCast_mod, Nat.cast_sub hk.le]
  rw [h1, mul_comm j, e_emod N hN]
  rw [show -j * (k : ℤ) = ((N : ℤ) - k) * j + N * (-j) by ring, e_periodic N hN]

/-- The Fourier sum of a real even sequence is real. -/
theorem F_real (N : ℕ) (hN : 0 < N) (a : ℕ → ℝ) (ha : ∀ k, k < N → a ((N - k) % N) = a k) (j : ℤ) :
    F N (fun k => (a k : ℂ)) j = ((∑ k ∈ range N, a k * Real.cos (2 * Real.pi * (j * k : ℤ) / N) : ℝ) : ℂ) := by
  have h1 : (starRingEnd ℂ) (F N (fun k => (a k : ℂ)) j) = F N (fun k => (a k : ℂ)) j := by
    refine Eq.trans ?_ (F_neg N hN (fun k => (a k : ℂ)) (fun k hk => by simp only [ha k hk]) j)
    unfold F
    rw [map_sum]
    apply Finset.sum_congr rfl
    intro k _
    rw [map_mul, Complex.conj_ofReal, e_conj, neg_mul]
  obtain ⟨r, hr⟩ := Complex.conj_eq_iff_real.1 h1
  have h2 : (F N (fun k => (a k : ℂ)) j).re = ∑ k ∈ range N, a k * Real.cos (2 * Real.pi * (j * k : ℤ) / N) := by
    unfold F
    rw [Complex.re_sum]
    apply Finset.sum_congr rfl
    intro k _
    rw [Complex.re_ofReal_mul, e_re]
  rw [← h2, hr, Complex.ofReal_re]

theorem sum_map_range {M : Type} [AddCommMonoid M] (f : ℕ → M) (n : ℕ) : ((List.range n).map f).sum = ∑ k ∈ range n, f k := by
  induction n with
  | zero => simp
  | succ n ih => rw [List.range_succ, List.map_append, List.sum_append, ih, Finset.sum_range_succ]; simp

theorem dft_length (a : List ℂ) : (dft a).length = a.length := by simp [dft]

theorem dft_getElem? (a : List ℂ) (j : ℕ) (hj : j < a.length) :
    (dft a)[j]? = some (F a.length (fun k => (a[k]?).getD 0) (-j)) := by
  unfold dft
  rw [List.getElem?_map, List.getElem?_range hj, Option.map_some, sum_map_range]
  congr 1
  unfold F e
  apply Finset.sum_congr rfl
  intro k _
  congr 2
  push_cast
  ring

end Verif.Signal
