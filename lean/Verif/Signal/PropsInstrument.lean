import Verif.Signal.PropsNoise

/-!
C83, C84: `get_invntt_operator` and `get_noise`.
-/
set_option linter.unusedSimpArgs false
namespace Verif.Signal
open Verif.Py Finset

theorem bind_ok {α β : Type} (x : α) (f : α → Res β) : ((Except.ok x : Res α) >>= f) = f x := rfl
theorem bind_error {α β : Type} (e : PyErr) (f : α → Res β) : ((Except.error e : Res α) >>= f) = .error e := rfl
theorem pure_eq {α : Type} (x : α) : (pure x : Res α) = .ok x := rfl

/-- The noise model is not completely specified: one of the spectrum and of its resolution is missing, or there is nothing. -/
def Incomplete (a : NoiseArgs) : Prop :=
  (a.psd = none ∧ a.bandwidth ≠ none) ∨ (a.psd ≠ none ∧ a.bandwidth = none) ∨
    (a.psd = none ∧ a.bandwidth = none ∧ a.sigma = none ∧ a.nep = none)

theorem checkNoise_error (a : NoiseArgs) (period : ℝ) : Incomplete a ↔ checkNoise a period = .error .valueError := by
  obtain ⟨psd, bandwidth, twosided, sigma, nep, fknee, fslope⟩ := a
  unfold checkNoise Incomplete
  cases psd <;> cases bandwidth <;> cases sigma <;> cases nep <;> simp

/-- C84.  An incomplete noise model is rejected by both functions. -/
theorem C84_incomplete (alloc : Nat → List ℝ) (period : ℝ) (ndet nsamples : Nat) (a : NoiseArgs) (ha : Incomplete a) (ncorr : Option Nat)
    (g : Nat → List ℝ) (out : Option (List (List ℝ))) (op : Option (ℝ → ℝ → ℝ)) :
    getInvntt alloc period nsamples a ncorr = .error .valueError ∧
      getNoise alloc period ndet nsamples a g out op = .error .valueError := by
  rw [checkNoise_error a period] at ha
  unfold getInvntt getNoise
  rw [ha]
  exact ⟨rfl, rfl⟩

example (alloc : Nat → List ℝ) : getInvntt alloc 1 10 ⟨none, some 1, false, some (.scalar 2), none, 0, 1⟩ none = .error .valueError :=
  (C84_incomplete alloc 1 1 10 _ (Or.inl ⟨rfl, by simp⟩) none (fun _ => []) none none).1

/-- C84.  Without correlations the inverse of the covariance is the diagonal of the inverse of the variances; the noise equivalent power
is converted with the integration time. -/
theorem C84_diagonal (alloc : Nat → List ℝ) (period : ℝ) (nsamples : Nat) (ncorr : Option Nat) (s nep fslope : ℝ) (l : List ℝ)
    (sigma : Option Level) (twosided : Bool) :
    getInvntt alloc period nsamples ⟨none, none, twosided, some (.scalar s), none, 0, fslope⟩ ncorr = .ok (.diagonal (.scalar (1 / s ^ 2))) ∧
    getInvntt alloc period nsamples ⟨none, none, twosided, some (.array l), none, 0, fslope⟩ ncorr =
      .ok (.diagonal (.array (l.map fun s => 1 / s ^ 2))) ∧
    (0 < period → getInvntt alloc period nsamples ⟨none, none, twosided, sigma, some (.scalar nep), 0, fslope⟩ ncorr =
      .ok (.diagonal (.scalar (2 * period / nep ^ 2)))) := by
  refine ⟨?_, ?_, ?_⟩
  · simp [getInvntt, checkNoise, bind_ok]
  · simp [getInvntt, checkNoise, bind_ok]
  · intro hp
    simp only [getInvntt, checkNoise, bind_ok, Level.div]
    simp only [Option.isNone_none, Option.isSome_none, Bool.false_eq_true, and_false, false_and, or_false, if_false, Option.isNone_some,
      and_self, if_true, bind_ok]
    congr 3
    rw [div_pow, Real.sq_sqrt (by positivity)]
    rw [one_div_div]

/-- C84.  The white noise: one row per detector, scaled by its standard deviation. -/
theorem C84_white (alloc : Nat → List ℝ) (period : ℝ) (ndet nsamples : Nat) (g : Nat → List ℝ) (s fslope : ℝ) (l : List ℝ)
    (twosided : Bool) (hl : l.length = ndet) :
    getNoise alloc period ndet nsamples ⟨none, none, twosided, some (.scalar s), none, 0, fslope⟩ g none none =
      .ok ((List.range ndet).map fun i => (g i).map fun v => v * s) ∧
    getNoise alloc period ndet nsamples ⟨none, none, twosided, some (.array l), none, 0, fslope⟩ g none none =
      .ok ((List.range ndet).map fun i => (g i).map fun v => v * (l[i]?).getD 0) := by
  have hidx : ∀ i, i ∈ List.range ndet → (if ndet = 1 then 0 else i) = i := by
    intro i hi
    have := List.mem_range.1 hi
    split <;> omega
  constructor
  · simp only [getNoise, checkNoise, bind_ok]
    simp only [Option.isNone_none, Option.isSome_none, Bool.false_eq_true, and_false, false_and, or_false, if_false, Option.isNone_some,
      and_self, if_true, bind_ok, List.length_singleton, ne_eq, not_true_eq_false, List.getElem?_cons_zero, Option.getD_some]
    congr 1
    apply List.map_congr_left
    intro i hi
    rw [hidx i hi]
  · simp only [getNoise, checkNoise, bind_ok]
    simp only [Option.isNone_none, Option.isSome_none, Bool.false_eq_true, and_false, false_and, or_false, if_false, Option.isNone_some,
      and_self, if_true, bind_ok, hl, ne_eq, not_true_eq_false, and_false]
    congr 1
    rw [show (if ndet = 1 then ndet else ndet) = ndet by split <;> rfl]
    apply List.map_congr_left
    intro i hi
    rw [hidx i hi]

example (alloc : Nat → List ℝ) : getNoise alloc 1 2 3 ⟨none, none, false, some (.array [2, 3]), none, 0, 1⟩
    (fun i => [(i : ℝ), 1, 2]) none none = .ok [[0, 2, 4], [3, 3, 6]] := by
  rw [(C84_white alloc 1 2 3 _ 0 1 [2, 3] false rfl).2]
  simp [List.range_succ]
  norm_num

theorem mapM_ok {α β : Type} (f : α → Res β) (l : List α) (h : ∀ x ∈ l, ∃ y, f x = .ok y) :
    ∃ ys, l.mapM f = .ok ys ∧ ys.length = l.length ∧ ∀ (i : Nat) (x : α), l[i]? = some x → ∃ y, ys[i]? = some y ∧ f x = .ok y := by
  induction l with
  | nil => exact ⟨[], rfl, rfl, by simp⟩
  | cons x l ih =>
    obtain ⟨y, hy⟩ := h x (by simp)
    obtain ⟨ys, h1, h2, h3⟩ := ih fun z hz => h z (by simp [hz])
    refine ⟨y :: ys, ?_, by simp [h2], ?_⟩
    · rw [List.mapM_cons, hy, bind_ok, h1, bind_ok]
      rfl
    · intro i z hz
      cases i with
      | zero =>
        simp only [List.getElem?_cons_zero, Option.some.injEq] at hz ⊢
        exact ⟨y, rfl, hz ▸ hy⟩
      | succ i => simpa using h3 i z (by simpa using hz)

theorem mapM_error {α β : Type} (f : α → Res β) (x : α) (l : List α) (e : PyErr) (h : f x = .error e) : (x :: l).mapM f = .error e := by
  rw [List.mapM_cons, h]
  rfl

/-- The spectrum of the 1/f noise. -/
noncomputable def psd1f (n : Nat) (fs sigma fknee fslope : ℝ) : List ℝ :=
  (List.range n).map fun (k : Nat) => sigma ^ 2 * (1 + |if k = 0 then 0 else fknee / fftfreq n fs k| ^ fslope) / fs

theorem gaussianPsd1f_eq (alloc : Nat → List ℝ) (n : Nat) (hn : 0 < n) (fs sigma fknee fslope : ℝ) :
    gaussianPsd1f alloc n fs sigma fknee fslope true = .ok (psd1f n fs sigma fknee fslope) := by
  unfold gaussianPsd1f
  rw [if_neg (by omega)]
  rfl

/-- C84.  The correlated noise for a scalar standard deviation: one row per detector, drawn with the 1/f spectrum. -/
theorem C84_correlated_partial (alloc : Nat → List ℝ) (period : ℝ) (ndet nsamples : Nat) (hn : 0 < nsamples) (g : Nat → List ℝ)
    (hg : ∀ i, (g i).length = nsamples) (s fknee fslope : ℝ) (twosided : Bool) (hk : fknee ≠ 0) :
    ∃ rows, getNoise alloc period ndet nsamples ⟨none, none, twosided, some (.scalar s), none, fknee, fslope⟩ g none none = .ok rows ∧
      rows.length = ndet ∧
      ∀ i, i < ndet → ∃ row, rows[i]? = some row ∧ row.length = nsamples ∧
        gaussianSample alloc nsamples (1 / period) (psd1f nsamples (1 / period) s fknee fslope) true (g i) = .ok row := by
  have hlen : (psd1f nsamples (1 / period) s fknee fslope).length = nsamples := by simp [psd1f]
  have hs : ∀ i, ∃ out, gaussianSample alloc nsamples (1 / period) (psd1f nsamples (1 / period) s fknee fslope) true (g i) = .ok out ∧
      out.length = nsamples := by
    intro i
    obtain ⟨out, h1, h2, -⟩ := gaussianSample_eq alloc (1 / period) (psd1f nsamples (1 / period) s fknee fslope) (g i) (by omega)
      (by rw [hg, hlen])
    rw [hlen] at h1 h2
    exact ⟨out, h1, h2⟩
  simp only [getNoise, checkNoise, bind_ok]
  simp only [Option.isNone_none, Option.isSome_none, Bool.false_eq_true, and_false, false_and, or_false, if_false, Option.isNone_some,
    and_self, if_true, bind_ok, hk, gaussianPsd1f_eq alloc nsamples hn, pure_eq]
  obtain ⟨ys, h1, h2, h3⟩ := mapM_ok (fun (x : List ℝ × ℕ) => do
      let s ← gaussianSample alloc nsamples (1 / period) (psd1f nsamples (1 / period) s fknee fslope) true (g x.2)
      (Except.ok s : Res (List ℝ))) (((List.range ndet).map fun _ => alloc nsamples).zipIdx) (fun x _ => by
        obtain ⟨o, ho, -⟩ := hs x.2
        exact ⟨o, by rw [ho]; rfl⟩)
  refine ⟨ys, h1, by simpa using h2, ?_⟩
  intro i hi
  obtain ⟨y, hy1, hy2⟩ := h3 i (alloc nsamples, i) (by simp [List.getElem?_zipIdx, hi])
  obtain ⟨o, ho, hol⟩ := hs i
  have hyo : y = o := by
    simp only [ho, bind_ok] at hy2
    exact (Except.ok.inj hy2).symm
  subst hyo
  exact ⟨y, hy1, hol, ho⟩

example (alloc : Nat → List ℝ) : ∃ rows, getNoise alloc 1 2 3 ⟨none, none, false, some (.scalar 2), none, 1, 1⟩
    (fun i => [(i : ℝ), 1, 2]) none none = .ok rows ∧ rows.length = 2 := by
  obtain ⟨rows, h1, h2, -⟩ := C84_correlated_partial alloc 1 2 3 (by norm_num) (fun i => [(i : ℝ), 1, 2]) (fun _ => rfl) 2 1 1 false
    (by norm_num)
  exact ⟨rows, h1, h2⟩

/-- C84 is false for correlated noise with one standard deviation per detector: `get_noise` raises. -/
theorem C84_violation_detectors (alloc : Nat → List ℝ) (period : ℝ) (ndet nsamples : Nat) (hd : 0 < ndet) (hn : 0 < nsamples)
    (g : Nat → List ℝ) (l : List ℝ) (hl : l.length ≠ 1) (fknee fslope : ℝ) (twosided : Bool) (hk : fknee ≠ 0) :
    getNoise alloc period ndet nsamples ⟨none, none, twosided, some (.array l), none, fknee, fslope⟩ g none none = .error .valueError := by
  simp only [getNoise, checkNoise, bind_ok]
  simp only [Option.isNone_none, Option.isSome_none, Bool.false_eq_true, and_false, false_and, or_false, if_false, Option.isNone_some,
    and_self, if_true, bind_ok, hk, gaussianPsd1f_eq alloc nsamples hn, pure_eq]
  obtain ⟨d, rfl⟩ : ∃ d, ndet = d + 1 := ⟨ndet - 1, by omega⟩
  rw [List.range_succ_eq_map, List.map_cons, List.zipIdx_cons, mapM_error _ _ _ .valueError]
  simp [hl]

example (alloc : Nat → List ℝ) : getNoise alloc 1 2 3 ⟨none, none, false, some (.array [2, 3]), none, 1, 1⟩ (fun _ => [0, 1, 2]) none none =
    .error .valueError := C84_violation_detectors alloc 1 2 3 (by norm_num) (by norm_num) _ _ (by simp) 1 1 false (by norm_num)

/-- C84 is false for an odd number of samples and a spectrum given by the caller: `get_noise` always raises. -/
theorem C84_violation_odd (alloc : Nat → List ℝ) (halloc : ∀ n, (alloc n).length = n) (period : ℝ) (ndet nsamples : Nat) (hd : 0 < ndet)
    (hn : nsamples % 2 = 1) (g : Nat → List ℝ) (psd : List ℝ) (bandwidth : ℝ) (twosided : Bool) (sigma nep : Option Level)
    (fknee fslope : ℝ) :
    ∃ err, getNoise alloc period ndet nsamples ⟨some psd, some bandwidth, twosided, sigma, nep, fknee, fslope⟩ g none none = .error err := by
  have hlog : ∀ psd p, logloginterpPsd (alloc (nsamples / 2 + 1))
      ((List.range (nsamples / 2 + 1)).map fun (k : Nat) => (k : ℝ) * (1 / period / nsamples)) bandwidth psd = .ok p →
      p.length = nsamples / 2 + 1 := by
    intro psd p h
    unfold logloginterpPsd at h
    dsimp only at h
    split at h
    · simp at h
    · split at h
      · simp at h
      · rename_i a _ _
        revert h
        generalize interp (K := ℝ) _ _ _ = r
        intro h
        cases r with
        | error e => simp [Except.map] at h
        | ok r =>
          simp only [Except.map, Except.ok.injEq] at h
          rw [← h]
          simp [writeAt_length, halloc]
  have hsample : ∀ p : List ℝ, p.length = nsamples / 2 + 1 → ∀ v, ∃ err, gaussianSample alloc nsamples (1 / period) p false v = .error err := by
    intro p hp v
    unfold gaussianSample
    simp only [Bool.false_eq_true, if_false]
    by_cases h2 : 2 ≤ p.length
    · obtain ⟨q, hq, hql, -⟩ := C54_unfold (alloc (2 * (p.length - 1))) p h2 (halloc _)
      rw [hq, bind_ok]
      refine ⟨.valueError, ?_⟩
      rw [if_neg (by omega), if_neg (by omega)]
    · rcases C54_unfold_short (alloc (2 * (p.length - 1))) p (by omega) (halloc _) with h | h <;> rw [h]
      · exact ⟨_, rfl⟩
      · exact ⟨_, rfl⟩
  have hmain : ∀ psd' : List ℝ, ∃ err, ((do
      let p ← logloginterpPsd (alloc (((List.range (nsamples / 2 + 1)).map fun (k : Nat) => (k : ℝ) * (1 / period / nsamples))).length)
        ((List.range (nsamples / 2 + 1)).map fun (k : Nat) => (k : ℝ) * (1 / period / nsamples)) bandwidth psd'
      (((List.range ndet).map fun _ => alloc nsamples).zipIdx).mapM fun (x : List ℝ × ℕ) => do
        let s ← gaussianSample alloc nsamples (1 / period) p false (g x.2)
        (Except.ok s : Res (List ℝ))) : Res (List (List ℝ))) = .error err := by
    intro psd'
    rw [List.length_map, List.length_range]
    cases hp : logloginterpPsd (alloc (nsamples / 2 + 1))
        ((List.range (nsamples / 2 + 1)).map fun (k : Nat) => (k : ℝ) * (1 / period / nsamples)) bandwidth psd' with
    | error err => exact ⟨err, rfl⟩
    | ok p =>
      rw [bind_ok]
      obtain ⟨err, herr⟩ := hsample p (hlog psd' p hp) (g 0)
      obtain ⟨d, rfl⟩ : ∃ d, ndet = d + 1 := ⟨ndet - 1, by omega⟩
      refine ⟨err, ?_⟩
      rw [List.range_succ_eq_map, List.map_cons, List.zipIdx_cons, mapM_error _ _ _ err]
      simp only [herr, bind_error]
  simp only [getNoise, checkNoise, bind_ok]
  simp only [Option.isNone_none, Option.isSome_none, Bool.false_eq_true, and_false, false_and, or_false, if_false, Option.isNone_some,
    and_self, if_true, bind_ok, Option.isSome_some, pure_eq]
  cases twosided with
  | false =>
    obtain ⟨err, h⟩ := hmain psd
    refine ⟨err, ?_⟩
    rw [← h]
    simp only [bind_ok, Bool.false_eq_true, if_false]
  | true =>
    simp only [if_true]
    cases foldPsd (alloc (psd.length / 2 + 1)) psd with
    | error err => exact ⟨err, rfl⟩
    | ok q =>
      obtain ⟨err, h⟩ := hmain q
      refine ⟨err, ?_⟩
      rw [← h]
      simp only [bind_ok]

example : ∃ err, getNoise (fun n => List.replicate n 0) 1 2 3 ⟨some [1, 1, 1, 1, 1], some 1, false, none, none, 0, 1⟩
    (fun _ => [0, 1, 2]) none none = .error err :=
  C84_violation_odd _ (by simp) 1 2 3 (by norm_num) (by norm_num) _ _ _ _ _ _ _ _

/-- C84 is false for the default correlation length: a correlated noise raises `TypeError`. -/
theorem C84_violation_ncorr (alloc : Nat → List ℝ) (period : ℝ) (nsamples : Nat) (s fknee fslope : ℝ) (twosided : Bool) (hk : fknee ≠ 0) :
    getInvntt alloc period nsamples ⟨none, none, twosided, some (.scalar s), none, fknee, fslope⟩ none = .error .typeError := by
  have hpos : 0 < fftSize nsamples := by
    obtain ⟨⟨e, he, h⟩, -⟩ := C56_fftsize nsamples
    rw [h]
    positivity
  simp only [getInvntt, checkNoise, bind_ok]
  simp only [Option.isNone_none, Option.isSome_none, Bool.false_eq_true, and_false, false_and, or_false, if_false, Option.isNone_some,
    and_self, if_true, bind_ok, hk, gaussianPsd1f_eq alloc _ hpos]

/-! ### The inverse noise correlation matrix of the instrument -/

theorem abs_fftfreq (n : Nat) (fs : ℝ) (hfs : 0 ≤ fs) (k : Nat) (hk : k < n) :
    |fftfreq n fs k| = (min k (n - k) : ℕ) * (fs / n) := by
  unfold fftfreq
  have h1 : (0 : ℝ) ≤ fs / n := by positivity
  rw [abs_mul, abs_of_nonneg h1]
  congr 1
  split
  · rw [abs_of_nonneg (by positivity), Nat.min_eq_left (by omega)]
  · have h2 : (k : ℝ) - n < 0 := by
      rw [sub_neg]
      exact_mod_cast hk
    rw [abs_of_neg h2, Nat.min_eq_right (by omega), Nat.cast_sub hk.le]
    ring

/-- C83.  For the 1/f noise model and a correlation length that is not truncated, `get_invntt_operator` returns the inverse of the
covariance of the spectrum sigma² (1 + (fknee / f)^fslope) / fs, in which the zero frequency has been replaced by the first one. -/
theorem C83_operator (alloc : Nat → List ℝ) (period : ℝ) (hp : 0 < period) (nsamples ncorr : Nat) (s fknee fslope : ℝ) (hs : s ≠ 0)
    (hk : fknee ≠ 0) (twosided : Bool) (hlen : fftSize nsamples ≤ ncorr + 1) :
    ∃ p row, getInvntt alloc period nsamples ⟨none, none, twosided, some (.scalar s), none, fknee, fslope⟩ (some ncorr) =
        .ok (.toeplitz row) ∧
      p.length = fftSize nsamples ∧ p[0]? = p[1]? ∧
      (∀ (k : Nat), 0 < k → k < fftSize nsamples →
        p[k]? = some (s ^ 2 * (1 + |fknee / ((min k (fftSize nsamples - k) : ℕ) * (1 / period / fftSize nsamples))| ^ fslope) / (1 / period))) ∧
      ∀ i l, i < fftSize nsamples → l < fftSize nsamples →
        ∑ m ∈ range (fftSize nsamples), (row[(i + fftSize nsamples - m) % fftSize nsamples]?).getD 0 *
          covariance (1 / period) p ((m : ℤ) - l) = if i = l then 1 else 0 := by
  set N := fftSize nsamples with hN
  have hN2 : 2 ≤ N := by
    obtain ⟨⟨e, he, h⟩, -⟩ := C56_fftsize nsamples
    rw [hN, h]
    calc 2 = 2 ^ 1 := rfl
      _ ≤ 2 ^ e := Nat.pow_le_pow_right (by omega) he
  set fs : ℝ := 1 / period with hfsdef
  have hfs : 0 < fs := by positivity
  set q := psd1f N fs s fknee fslope with hq
  have hql : q.length = N := by simp [hq, psd1f]
  have hqk : ∀ (k : Nat), 0 < k → k < N →
      q[k]? = some (s ^ 2 * (1 + |fknee / ((min k (N - k) : ℕ) * (fs / N))| ^ fslope) / fs) := by
    intro k h0 hkN
    rw [hq, psd1f, List.getElem?_map, List.getElem?_range hkN, Option.map_some, if_neg (by omega), abs_div, abs_fftfreq N fs hfs.le k hkN]
    congr 6
    rw [abs_div, abs_of_nonneg (a := (((min k (N - k) : ℕ) : ℝ) * (fs / N))) (by positivity)]
  have hq1 : ∃ q1, q[1]? = some q1 := ⟨_, hqk 1 (by omega) (by omega)⟩
  obtain ⟨q1, hq1⟩ := hq1
  let p := q.set 0 q1
  have hpl : p.length = N := by simp [p, hql]
  have hp0 : p[0]? = some q1 := by simp only [p]; rw [List.getElem?_set_self (by omega)]
  have hpk : ∀ (k : Nat), 0 < k → p[k]? = q[k]? := fun k h0 => by simp only [p]; rw [List.getElem?_set_ne (by omega)]
  have hNC : (N : ℝ) ≠ 0 := by
    have : N ≠ 0 := by omega
    exact_mod_cast this
  have hbw : fs / N * N = fs := by field_simp
  refine ⟨p, psd2invntt p (fs / N) ncorr, ?_, hpl, by rw [hp0, hpk 1 (by omega), hq1], ?_, ?_⟩
  · simp only [getInvntt, checkNoise, bind_ok]
    simp only [Option.isNone_none, Option.isSome_none, Bool.false_eq_true, and_false, false_and, or_false, if_false, Option.isNone_some,
      and_self, if_true, bind_ok, hk, ← hN, ← hfsdef, gaussianPsd1f_eq alloc N (by omega), ← hq, hq1]
    rfl
  · intro k h0 hkN
    rw [hpk k h0, hqk k h0 hkN]
  · intro i l hi hl
    have heven : Even' p := by
      intro k hkN
      rw [hpl] at hkN ⊢
      rcases Nat.eq_zero_or_pos k with rfl | h0
      · simp
      · rw [Nat.mod_eq_of_lt (by omega), hpk k h0, hpk (N - k) (by omega), hqk k h0 hkN, hqk (N - k) (by omega) (by omega)]
        rw [show N - (N - k) = k by omega, Nat.min_comm]
    have hne : ∀ v ∈ p, v ≠ 0 := by
      have hqpos : ∀ (k : Nat), 0 < k → k < N → ∀ v, q[k]? = some v → v ≠ 0 := by
        intro k h0 hkN v hv
        rw [hqk k h0 hkN] at hv
        rw [← Option.some.inj hv]
        have : 0 ≤ |fknee / ((min k (N - k) : ℕ) * (fs / N))| ^ fslope := Real.rpow_nonneg (abs_nonneg _) _
        positivity
      intro v hv
      obtain ⟨k, hk', hkv⟩ := List.getElem_of_mem hv
      rw [hpl] at hk'
      have hkv' : p[k]? = some v := by rw [List.getElem?_eq_getElem (by omega), hkv]
      rcases Nat.eq_zero_or_pos k with rfl | h0
      · rw [hp0] at hkv'
        exact hqpos 1 (by omega) (by omega) v (by rw [hq1, hkv'])
      · exact hqpos k h0 hk' v (by rw [← hpk k h0, hkv'])
    have := C83_inverse p (fs / N) ncorr (by positivity) (by omega) heven hne i l (by omega) (by omega)
    rw [hpl, hbw] at this
    exact this

example (alloc : Nat → List ℝ) : ∃ p row, getInvntt alloc 1 2 ⟨none, none, false, some (.scalar 3), none, 1, 1⟩ (some 1) =
    .ok (.toeplitz row) ∧ p.length = 2 ∧ ∑ m ∈ range 2, (row[(0 + 2 - m) % 2]?).getD 0 * covariance (1 / 1) p ((m : ℤ) - (0 : ℕ)) = 1 := by
  have h2 : fftSize 2 = 2 := by simp [fftSize, fftLoop]
  obtain ⟨p, row, h, hl, -, -, hi⟩ := C83_operator alloc 1 (by norm_num) 2 1 3 1 1 (by norm_num) (by norm_num) false (by rw [h2])
  rw [h2] at hl hi
  exact ⟨p, row, h, hl, by have := hi 0 0 (by norm_num) (by norm_num); simpa using this⟩

/-- C83.  A white spectrum given by the caller (one-sided: twice the density `c` except at both ends) gives the same matrix as the white
noise of the same variance `c * fs`. -/
theorem C83_white_psd (alloc : Nat → List ℝ) (halloc : ∀ n, (alloc n).length = n) (period : ℝ) (hp : 0 < period) (nsamples ncorr : Nat)
    (psd : List ℝ) (bandwidth c : ℝ) (hB : 0 < bandwidth) (hc : 0 < c) (hlen : 4 ≤ psd.length)
    (hpsd : ∀ (k : Nat), 0 < k → k < psd.length - 1 → psd[k]? = some (2 * c)) (sigma nep : Option Level) (fknee fslope : ℝ) :
    ∃ row, getInvntt alloc period nsamples ⟨some psd, some bandwidth, false, sigma, nep, fknee, fslope⟩ (some ncorr) = .ok (.toeplitz row) ∧
      ∀ j, j < fftSize nsamples → j ≤ ncorr → row[j]? = some (if j = 0 then 1 / (c * (1 / period)) else 0) := by
  set N := fftSize nsamples with hN
  have hNe : ∃ h, 1 ≤ h ∧ N = 2 * h := by
    obtain ⟨⟨e, he, h⟩, -⟩ := C56_fftsize nsamples
    obtain ⟨d, rfl⟩ : ∃ d, e = d + 1 := ⟨e - 1, by omega⟩
    exact ⟨2 ^ d, Nat.one_le_two_pow, by rw [hN, h, Nat.pow_succ, mul_comm]⟩
  obtain ⟨h, hh1, hNh⟩ := hNe
  set fs : ℝ := 1 / period with hfsdef
  have hfs : 0 < fs := by positivity
  have hNR : (0 : ℝ) < N := by
    have : 0 < N := by omega
    exact_mod_cast this
  have hdiv : N / 2 + 1 = h + 1 := by omega
  set f := (List.range (N / 2 + 1)).map fun (k : Nat) => (k : ℝ) * (fs / N) with hf
  have hfl : f.length = h + 1 := by rw [hf, List.length_map, List.length_range, hdiv]
  have hfdrop : f.drop 1 = (List.range h).map fun (k : Nat) => ((k + 1 : ℕ) : ℝ) * (fs / N) := by
    apply List.ext_getElem
    · simp [hfl]
    · intro i h1 h2
      simp [hf, Nat.add_comm]
  obtain ⟨r, hr1, hr2, hr3, hr4⟩ := C82_powerlaw (alloc f.length) f psd bandwidth (2 * c) 0 hB (by positivity) (halloc _) (by omega)
    (by
      rw [hfdrop]
      intro v hv
      obtain ⟨k, -, rfl⟩ := List.mem_map.1 hv
      positivity)
    (by
      rw [hfdrop, List.pairwise_map]
      refine List.Pairwise.imp ?_ List.pairwise_lt_range
      intro a b hab
      apply mul_le_mul_of_nonneg_right _ (by positivity)
      exact_mod_cast Nat.succ_le_succ hab.le)
    hlen (fun k h0 h1 => by rw [hpsd k h0 h1, Real.rpow_zero, mul_one])
  have hr4' : ∀ (k : Nat), 0 < k → k < h + 1 → r[k]? = some (if k = h then c else 2 * c) := by
    intro k h0 hk
    have hfk : f[k]? = some ((k : ℝ) * (fs / N)) := by
      rw [hf, List.getElem?_map, List.getElem?_range (by omega), Option.map_some]
    rw [hr4 k _ h0 hfk, hfl, Real.rpow_zero, mul_one, Nat.add_sub_cancel]
    congr 1
    split
    · ring
    · rfl
  have hrl : r.length = h + 1 := by omega
  obtain ⟨q, hq1, hq2, -, hq4, -, hq6, hq7⟩ := C54_unfold (alloc (2 * (r.length - 1))) r (by omega) (halloc _)
  have hqN : q.length = N := by omega
  have hqpos : ∀ (k : Nat), 0 < k → k ≤ h → q[k]? = some c := by
    intro k h0 hk
    rcases Nat.lt_or_ge k h with hlt | hge
    · rw [hq7 k h0 (by omega), hr4' k h0 (by omega), if_neg (by omega), Option.map_some]
      congr 1
      ring
    · obtain rfl : k = h := by omega
      have := hq6
      rw [hrl, Nat.add_sub_cancel] at this
      rw [this, hr4' k h0 (by omega), if_pos rfl]
  have hqall : ∀ (k : Nat), 0 < k → k < N → q[k]? = some c := by
    intro k h0 hk
    rcases Nat.lt_or_ge h k with hlt | hge
    · rw [hq4 k (by omega), hqN, Nat.mod_eq_of_lt (by omega)]
      exact hqpos (N - k) (by omega) (by omega)
    · exact hqpos k h0 hge
  have hq1' : q[1]? = some c := hqall 1 (by omega) (by omega)
  have hset : q.set 0 c = List.replicate N c := by
    apply List.ext_getElem?
    intro k
    rcases Nat.eq_zero_or_pos k with rfl | h0
    · rw [List.getElem?_set_self (by omega), List.getElem?_replicate, if_pos (by omega)]
    · rw [List.getElem?_set_ne (by omega), List.getElem?_replicate]
      split
      · exact hqall k h0 (by assumption)
      · rw [List.getElem?_eq_none (by omega)]
  refine ⟨psd2invntt (List.replicate N c) (fs / N) ncorr, ?_, ?_⟩
  · simp only [getInvntt, checkNoise, bind_ok]
    simp only [Option.isNone_none, Option.isSome_none, Bool.false_eq_true, and_false, false_and, or_false, if_false, Option.isNone_some,
      and_self, if_true, bind_ok, Option.isSome_some, pure_eq, ← hN, ← hfsdef, ← hf, hr1, hq1, hq1', hset]
  · intro j hj hjc
    rw [C83_white N c (fs / N) hc.ne' ncorr j hj hjc]
    congr 2
    field_simp

example : ∃ row, getInvntt (fun n => List.replicate n 0) 1 5 ⟨some [9, 4, 4, 2], some 1, false, none, none, 0, 1⟩ (some 3) =
    .ok (.toeplitz row) ∧ row[(0 : ℕ)]? = some (1 / (2 * (1 / 1)) : ℝ) ∧ row[(3 : ℕ)]? = some (0 : ℝ) := by
  have h8 : fftSize 5 = 8 := by simp [fftSize, fftLoop]
  obtain ⟨row, h1, h2⟩ := C83_white_psd (fun n => List.replicate n 0) (by simp) 1 (by norm_num) 5 3 [9, 4, 4, 2] 1 2 (by norm_num)
    (by norm_num) (by simp) (by
      intro k h0 hk
      have : k = 1 ∨ k = 2 := by simp at hk; omega
      rcases this with rfl | rfl <;> norm_num) none none 0 1
  rw [h8] at h2
  exact ⟨row, h1, h2 0 (by norm_num) (by norm_num), h2 3 (by norm_num) (by norm_num)⟩

end Verif.Signal
