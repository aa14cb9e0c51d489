import Verif.Signal.PropsNoise

/-! C135: the spectrum of a sampling. -/
namespace Verif.Signal
open Verif.Py Finset

/-- noises.py 129-146 `_sampling2psd` for one row: the frequencies and the spectrum.  No transform is defined for an empty row (line 138), and the sampling
frequency divides (line 141). -/
noncomputable def sampling2psd (sampling : List ℝ) (fs : ℝ) : Res (List ℝ × List ℝ) :=
  let n := sampling.length
  if n = 0 then .error .valueError
  else if fs = 0 then .error .zeroDivisionError
  else
    let psd := (dft (sampling.map Complex.ofReal)).map fun c => ‖c‖ ^ 2
    let freq := ((List.range n).map fun (k : Nat) => fftfreq n fs k).take (n / 2 + 1)
    let freq := freq.modify (freq.length - 1) (· + fs)
    match psd[n / 2]? with
    | none => .error .indexError
    | some last => .ok (freq, ([0] ++ ((psd.take (n / 2)).drop 1).map (2 * ·) ++ [last]).map (· / (n * fs)))

/-! ### Specification -/

/-- The power of the sampling at the frequency `k / n`. -/
noncomputable def power (x : List ℝ) (k : ℕ) : ℝ :=
  ‖∑ m ∈ range x.length, ((x.getD m 0 : ℝ) : ℂ) * Complex.exp (-(2 * Real.pi * Complex.I * k * m / x.length))‖ ^ 2

/-- The mean of the squares minus the square of the mean. -/
noncomputable def variance (x : List ℝ) : ℝ := (∑ m ∈ range x.length, x.getD m 0 ^ 2) / x.length - ((∑ m ∈ range x.length, x.getD m 0) / x.length) ^ 2

/-! ### Lemmas -/

theorem power_eq (x : List ℝ) (k : ℕ) : power x k = ‖F x.length (fun m => ((x.getD m 0 : ℝ) : ℂ)) (-k)‖ ^ 2 := by
  unfold power F e
  congr 2
  refine Finset.sum_congr rfl fun m _ => ?_
  congr 2
  push_cast
  ring

theorem F_conj (n : ℕ) (a : ℕ → ℝ) (j : ℤ) : (starRingEnd ℂ) (F n (fun k => (a k : ℂ)) j) = F n (fun k => (a k : ℂ)) (-j) := by
  unfold F
  rw [map_sum]
  refine Finset.sum_congr rfl fun k _ => ?_
  rw [map_mul, Complex.conj_ofReal, e_conj, neg_mul]

theorem power_reflect (x : List ℝ) (k : ℕ) (hk : k ≤ x.length) : power x (x.length - k) = power x k := by
  rcases Nat.eq_zero_or_pos x.length with h0 | hN
  · have : k = 0 := by omega
    subst this
    simp [h0]
  rw [power_eq, power_eq, ← Complex.norm_conj (F _ _ (-(k : ℤ))), F_conj]
  congr 2
  rw [← F_emod _ hN, ← F_emod _ hN _ (- -(k : ℤ))]
  congr 1
  rw [Nat.cast_sub hk, show -(((x.length : ℕ) : ℤ) - (k : ℤ)) = - -(k : ℤ) + (x.length : ℤ) * (-1) by ring, Int.add_mul_emod_self_left]

theorem power_sum (x : List ℝ) : ∑ k ∈ range x.length, power x k = x.length * ∑ m ∈ range x.length, x.getD m 0 ^ 2 := by
  rcases Nat.eq_zero_or_pos x.length with h0 | hN
  · simp [h0]
  have h := F_conv x.length hN (fun m => ((x.getD m 0 : ℝ) : ℂ)) (fun m => ((x.getD m 0 : ℝ) : ℂ)) 0 0
  have h1 : ∀ m ∈ range x.length, F x.length (fun m => ((x.getD m 0 : ℝ) : ℂ)) (0 - (m : ℕ)) * F x.length (fun m => ((x.getD m 0 : ℝ) : ℂ)) ((m : ℕ) - 0) = ((power x m : ℝ) : ℂ) := by
    intro m _
    rw [zero_sub, sub_zero, power_eq]
    have : F x.length (fun m => ((x.getD m 0 : ℝ) : ℂ)) (m : ℕ) = (starRingEnd ℂ) (F x.length (fun m => ((x.getD m 0 : ℝ) : ℂ)) (-(m : ℕ))) := by
      rw [F_conj, neg_neg]
    rw [this, Complex.mul_conj, Complex.normSq_eq_norm_sq]
  rw [Finset.sum_congr rfl h1] at h
  have h2 : F x.length (fun k => ((x.getD k 0 : ℝ) : ℂ) * ((x.getD k 0 : ℝ) : ℂ)) (0 - 0) = ((∑ m ∈ range x.length, x.getD m 0 ^ 2 : ℝ) : ℂ) := by
    unfold F
    rw [Complex.ofReal_sum]
    refine Finset.sum_congr rfl fun k _ => ?_
    rw [sub_zero, zero_mul, e_zero, mul_one]
    push_cast
    ring
  rw [h2] at h
  exact_mod_cast h

theorem power_zero (x : List ℝ) : power x 0 = (∑ m ∈ range x.length, x.getD m 0) ^ 2 := by
  unfold power
  have : (∑ m ∈ range x.length, ((x.getD m 0 : ℝ) : ℂ) * Complex.exp (-(2 * Real.pi * Complex.I * (0 : ℕ) * m / x.length))) = ((∑ m ∈ range x.length, x.getD m 0 : ℝ) : ℂ) := by
    rw [Complex.ofReal_sum]
    refine Finset.sum_congr rfl fun m _ => ?_
    simp
  rw [this, Complex.norm_real, Real.norm_eq_abs, sq_abs]

/-- The powers at the frequencies that are not zero. -/
theorem power_half (x : List ℝ) (h : ℕ) (hh : h < x.length) : ∑ k ∈ range x.length, power x k =
    power x 0 + ∑ k ∈ Ico 1 (h + 1), power x k + ∑ k ∈ Ico 1 (x.length - h), power x k := by
  rw [Finset.range_eq_Ico, ← Finset.sum_Ico_consecutive _ (Nat.zero_le 1) (by omega : 1 ≤ x.length), ← Finset.sum_Ico_consecutive _ (by omega : 1 ≤ h + 1) (by omega : h + 1 ≤ x.length)]
  have h1 : ∑ k ∈ Ico (h + 1) x.length, power x k = ∑ k ∈ Ico (h + 1) x.length, power x (x.length - k) :=
    Finset.sum_congr rfl fun k hk => (power_reflect x k (Finset.mem_Ico.1 hk).2.le).symm
  rw [h1, Finset.sum_Ico_reflect (power x) (h + 1) (by omega : x.length ≤ x.length + 1), show x.length + 1 - x.length = 1 by omega, show x.length + 1 - (h + 1) = x.length - h by omega]
  simp [add_assoc]

theorem variance_eq (x : List ℝ) (hN : 0 < x.length) : variance x = (∑ k ∈ range x.length, power x k - power x 0) / x.length ^ 2 := by
  rw [power_sum, power_zero, variance]
  have : (x.length : ℝ) ≠ 0 := by exact_mod_cast hN.ne'
  field_simp

/-- The result. -/
theorem sampling2psd_ok (x : List ℝ) (fs : ℝ) (hN : 0 < x.length) (hfs : fs ≠ 0) : ∃ freq psd, sampling2psd x fs = .ok (freq, psd) ∧
    freq.length = x.length / 2 + 1 ∧ (∀ k, k ≤ x.length / 2 → freq[k]? = some (fftfreq x.length fs k + if k = x.length / 2 then fs else 0)) ∧
    psd = ([0] ++ (List.range (x.length / 2 - 1)).map (fun k => 2 * power x (k + 1)) ++ [power x (x.length / 2)]).map (· / (x.length * fs)) := by
  have hP : ∀ k, k < x.length → ((dft (x.map Complex.ofReal)).map fun c => ‖c‖ ^ 2)[k]? = some (power x k) := by
    intro k hk
    rw [List.getElem?_map, dft_getElem? _ _ (by simpa using hk), Option.map_some, power_eq, List.length_map]
    congr 4
    funext m
    rw [List.getElem?_map, List.getD_eq_getElem?_getD]
    cases x[m]? <;> simp
  have hhalf : x.length / 2 < x.length := by omega
  have hlen : (((List.range x.length).map fun (k : Nat) => fftfreq x.length fs k).take (x.length / 2 + 1)).length = x.length / 2 + 1 := by
    simp; omega
  unfold sampling2psd
  dsimp only
  rw [if_neg (by omega), if_neg hfs, hP _ hhalf]
  refine ⟨_, _, rfl, by rw [List.length_modify, hlen], ?_, ?_⟩
  · intro k hk
    rw [hlen, List.getElem?_modify, List.getElem?_take_of_lt (by omega), List.getElem?_map, List.getElem?_range (by omega)]
    by_cases h : k = x.length / 2
    · simp [h]
    · simp [h]
      omega
  · congr 2
    congr 1
    apply List.ext_getElem?
    intro k
    rw [List.getElem?_map, List.getElem?_map, List.getElem?_drop]
    by_cases hk : k < x.length / 2 - 1
    · rw [List.getElem?_take_of_lt (by omega), hP _ (by omega), List.getElem?_range hk, add_comm 1 k]
      rfl
    · rw [List.getElem?_eq_none (by simp [dft_length]; omega), List.getElem?_eq_none (by simp; omega)]
      rfl

theorem psd_sum (x : List ℝ) (fs : ℝ) (h : ℕ) : (([0] ++ (List.range (h - 1)).map (fun k => 2 * power x (k + 1)) ++ [power x h]).map (· / (x.length * fs))).sum =
    (2 * ∑ k ∈ Ico 1 h, power x k + power x h) / (x.length * fs) := by
  have h1 : ((List.range (h - 1)).map (fun k => 2 * power x (k + 1))).sum = 2 * ∑ k ∈ Ico 1 h, power x k := by
    rw [sum_map_range, ← Finset.mul_sum, Finset.sum_Ico_eq_sum_range]
    simp only [add_comm]
  have h2 : ∀ l : List ℝ, (l.map (· / (x.length * fs))).sum = l.sum / (x.length * fs) := by
    intro l
    induction l with
    | nil => simp
    | cons a l ih => rw [List.map_cons, List.sum_cons, ih, List.sum_cons, add_div]
  rw [h2]
  congr 1
  rw [List.sum_append, List.sum_append, h1]
  simp

/-! ### C135 -/

/-- C135, for an even number of samples: the frequencies are the multiples of the bandwidth `fs / n` up to half the sampling frequency, the spectrum is the power of the
two opposite frequencies per unit of frequency, and its integral is the variance. -/
theorem C135_folded_partial (x : List ℝ) (fs : ℝ) (hN : 0 < x.length) (heven : x.length % 2 = 0) (hfs : fs ≠ 0) :
    ∃ freq psd, sampling2psd x fs = .ok (freq, psd) ∧ freq.length = x.length / 2 + 1 ∧ psd.length = x.length / 2 + 1 ∧
      (∀ k, k ≤ x.length / 2 → freq[k]? = some (k * (fs / x.length))) ∧
      psd[0]? = some 0 ∧ (∀ k, 0 < k → k < x.length / 2 → psd[k]? = some (2 * power x k / (x.length * fs))) ∧
      psd[x.length / 2]? = some (power x (x.length / 2) / (x.length * fs)) ∧
      psd.sum * (fs / x.length) = variance x := by
  obtain ⟨freq, psd, h1, h2, h3, h4⟩ := sampling2psd_ok x fs hN hfs
  have hn : (x.length : ℝ) ≠ 0 := by exact_mod_cast hN.ne'
  have hh : 1 ≤ x.length / 2 := by omega
  refine ⟨freq, psd, h1, h2, by rw [h4]; simp; omega, ?_, by rw [h4]; simp, ?_, ?_, ?_⟩
  · intro k hk
    rw [h3 k hk, fftfreq]
    congr 1
    by_cases h : k = x.length / 2
    · rw [if_pos h, if_neg (by omega)]
      field_simp
      ring
    · rw [if_neg h, if_pos (by omega), add_zero]
  · intro k hk0 hk
    rw [h4, List.getElem?_map, List.append_assoc, List.getElem?_append_right (by rw [List.length_singleton]; exact hk0), List.length_singleton, List.getElem?_append_left (by simp; omega), List.getElem?_map,
      List.getElem?_range (by omega), Option.map_some, Option.map_some, Nat.sub_add_cancel hk0]
  · rw [h4, List.getElem?_map, List.getElem?_append_right (by simp; omega)]
    have : x.length / 2 - ([0] ++ (List.range (x.length / 2 - 1)).map (fun k => 2 * power x (k + 1))).length = 0 := by simp; omega
    rw [this]
    rfl
  · rw [h4, psd_sum, variance_eq x hN, power_half x (x.length / 2) (by omega), Finset.sum_Ico_succ_top hh, show x.length - x.length / 2 = x.length / 2 by omega]
    field_simp
    ring

/-- C135 fails for an odd number of samples: the last frequency is larger than the sampling frequency, and the power of the last frequency is counted once instead of twice. -/
theorem C135_violation_odd (x : List ℝ) (fs : ℝ) (hodd : x.length % 2 = 1) (h3 : 3 ≤ x.length) (hfs : 0 < fs) :
    ∃ freq psd last, sampling2psd x fs = .ok (freq, psd) ∧ freq[x.length / 2]? = some last ∧ fs < last ∧
      psd.sum * (fs / x.length) = variance x - power x (x.length / 2) / x.length ^ 2 := by
  have hN : 0 < x.length := by omega
  have hn : (0 : ℝ) < x.length := by exact_mod_cast hN
  obtain ⟨freq, psd, h1, h2, h3', h4⟩ := sampling2psd_ok x fs hN hfs.ne'
  refine ⟨freq, psd, _, h1, h3' _ le_rfl, ?_, ?_⟩
  · rw [if_pos rfl, fftfreq, if_pos (by omega)]
    have : (0 : ℝ) < ((x.length / 2 : ℕ) : ℝ) := by exact_mod_cast (by omega : 0 < x.length / 2)
    have : 0 < ((x.length / 2 : ℕ) : ℝ) * (fs / x.length) := mul_pos this (div_pos hfs hn)
    linarith
  · rw [h4, psd_sum, variance_eq x hN, power_half x (x.length / 2) (by omega), show x.length - x.length / 2 = x.length / 2 + 1 by omega, Finset.sum_Ico_succ_top (by omega : 1 ≤ x.length / 2)]
    field_simp
    ring

/-- The missing power is not zero: three samples. -/
example : 0 < power [1, 0, 0] (([1, 0, 0] : List ℝ).length / 2) := by
  norm_num [power, Finset.sum_range_succ]

/-- C135 fails for a single sample: there are one frequency and two elements of the spectrum. -/
theorem C135_violation_single (a fs : ℝ) (hfs : fs ≠ 0) : ∃ freq psd, sampling2psd [a] fs = .ok (freq, psd) ∧ freq.length = 1 ∧ psd.length = 2 := by
  obtain ⟨freq, psd, h1, h2, h3, h4⟩ := sampling2psd_ok [a] fs (by simp) hfs
  exact ⟨freq, psd, h1, by simpa using h2, by rw [h4]; simp⟩

/-- The spectrum is the one whose unfolding is the power of each frequency other than zero. -/
theorem C135_unfold (x : List ℝ) (fs : ℝ) (hN : 0 < x.length) (heven : x.length % 2 = 0) (hfs : fs ≠ 0) (buf : List ℝ) (hb : buf.length = x.length) :
    ∃ freq psd two, sampling2psd x fs = .ok (freq, psd) ∧ unfoldPsd buf psd = .ok two ∧ two.length = x.length ∧
      ∀ k, k < x.length → two[k]? = some (if k = 0 then 0 else power x k / (x.length * fs)) := by
  obtain ⟨freq, psd, h1, -, h3, -, h5, h6, h7, -⟩ := C135_folded_partial x fs hN heven hfs
  obtain ⟨two, t1, t2, -, t4, t5, t6, t7⟩ := C54_unfold buf psd (by omega) (by omega)
  have ht : two.length = x.length := by omega
  have hlow : ∀ k, k ≤ x.length / 2 → two[k]? = some (if k = 0 then 0 else power x k / (x.length * fs)) := by
    intro k hk
    by_cases h0 : k = 0
    · rw [h0, t5, h5, if_pos rfl]
    · rw [if_neg h0]
      by_cases hl : k = x.length / 2
      · rw [h3, Nat.add_sub_cancel] at t6
        rw [hl, ← h7, t6]
      · rw [t7 k (by omega) (by omega), h6 k (by omega) (by omega), Option.map_some, mul_div_assoc, mul_div_cancel_left₀ _ two_ne_zero]
  refine ⟨freq, psd, two, h1, t1, ht, fun k hk => ?_⟩
  by_cases hk2 : k ≤ x.length / 2
  · exact hlow k hk2
  · rw [t4 k (by omega), ht, Nat.mod_eq_of_lt (by omega), hlow _ (by omega), if_neg (by omega), if_neg (by omega), power_reflect x k hk.le]

/-- The spectrum of two samples. -/
example : ∃ freq psd, sampling2psd [1, -1] 2 = .ok (freq, psd) ∧ psd.sum * (2 / 2) = 1 := by
  obtain ⟨freq, psd, h, -, -, -, -, -, -, hs⟩ := C135_folded_partial [1, -1] 2 (by simp) (by simp) two_ne_zero
  refine ⟨freq, psd, h, ?_⟩
  have : psd.sum * (2 / (([1, -1] : List ℝ).length : ℝ)) = variance [1, -1] := hs
  norm_num [variance, Finset.sum_range_succ] at this ⊢
  exact this

end Verif.Signal
