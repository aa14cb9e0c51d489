/-
The sigma clipping: /repo/src/flib/module_math_old.f90 726-755.
-/
import Verif.Stat.Moment

namespace Verif.Stat
open Verif.Py

/-! ### The model -/

open Classical in
/-- `abs(input - mean) > nsigma * stddev` (module_math_old.f90 748), false if one of them is a NaN. -/
noncomputable def beyond (nsigma : ℝ) : Num → Num → Num → Bool
  | some m, some s, some x => decide (nsigma * s < |x - m|)
  | _, _, _ => false

/-- The new mask (module_math_old.f90 748). -/
noncomputable def newMask (nsigma : ℝ) (r : Moments) (input : List Num) (mask : List Bool) : List Bool :=
  List.zipWith (fun c x => c || beyond nsigma r.mean r.stddev x) mask input

/-- The loop (module_math_old.f90 745-753).  ITER is an argument, which the code does not modify; the loop has a fuel. -/
noncomputable def clipLoop (input : List Num) (nsigma : ℝ) (nitermax : Int) : Nat → Int → List Bool → Res (List Bool)
  | 0, _, _ => .error .runtimeError
  | fuel + 1, iter, mask => do
    let r ← moment input (some mask)
    if (newMask nsigma r input mask).count true = mask.count true then return mask
    else if iter = nitermax then return newMask nsigma r input mask
    else clipLoop input nsigma nitermax fuel iter (newMask nsigma r input mask)

/-- `sigma_clipping` (module_math_old.f90 726-755). -/
noncomputable def sigmaClipping (input : List Num) (nsigma : ℝ) (nitermax : Option Int) : Res (List Bool) :=
  clipLoop input nsigma (nitermax.getD 0) (input.length + 1) 1 (input.map fun _ => false)

/-! ### The specification -/

/-- A round of the clipping: the elements that are already rejected are rejected, and those that are further from the mean of the others than a number of
their standard deviations. -/
def Round (nsigma : ℝ) (xs : List ℝ) (m m' : List Bool) : Prop :=
  m.length = xs.length ∧ m'.length = xs.length ∧ ∀ (i : Nat) (h : i < xs.length), (m'[i]? = some true ↔ m[i]? = some true ∨
    ∃ s : ℝ, 0 ≤ s ∧ s ^ 2 * ((unmasked xs (some m)).length - 1) = ((unmasked xs (some m)).map fun x => (x - average (unmasked xs (some m))) ^ 2).sum ∧
      2 ≤ (unmasked xs (some m)).length ∧ nsigma * s < |xs[i] - average (unmasked xs (some m))|)

/-! ### The properties -/

theorem Round.unique {nsigma : ℝ} {xs : List ℝ} {m m1 m2 : List Bool} (h1 : Round nsigma xs m m1) (h2 : Round nsigma xs m m2) : m1 = m2 := by
  refine List.ext_getElem (h1.2.1.trans h2.2.1.symm) fun i hi1 hi2 => ?_
  have := (h1.2.2 i (by rw [← h1.2.1]; exact hi1)).trans (h2.2.2 i (by rw [← h1.2.1]; exact hi1)).symm
  rw [List.getElem?_eq_getElem hi1, List.getElem?_eq_getElem hi2] at this
  simp only [Option.some.injEq] at this
  exact Bool.eq_iff_iff.2 this

theorem newMask_length {nsigma : ℝ} {r : Moments} {input : List Num} {m : List Bool} (h : m.length = input.length) : (newMask nsigma r input m).length = input.length := by
  unfold newMask
  rw [List.length_zipWith, h, min_self]

theorem round_step (nsigma : ℝ) (xs : List ℝ) (m : List Bool) (h : m.length = xs.length) :
    ∃ r, moment (xs.map some) (some m) = .ok r ∧ Round nsigma xs m (newMask nsigma r (xs.map some) m) := by
  obtain ⟨r, e, h1, h2, h3, h4⟩ := C129_moment (xs.map some) (some m) (fun m' hm' => by cases hm'; rw [List.length_map]; exact h) (unmasked xs (some m)) (unmasked_map some xs (some m))
  refine ⟨r, e, h, by rw [newMask_length (by rw [List.length_map]; exact h), List.length_map], fun i hi => ?_⟩
  unfold newMask
  rw [List.getElem?_zipWith, List.getElem?_eq_getElem (show i < m.length by omega), List.getElem?_eq_getElem (show i < (xs.map some).length by rw [List.length_map]; exact hi), List.getElem_map]
  dsimp only
  rw [Option.some.injEq, Option.some.injEq, Bool.or_eq_true]
  refine or_congr Iff.rfl ?_
  generalize unmasked xs (some m) = ys at *
  by_cases hl : 2 ≤ ys.length
  · obtain ⟨s, hs0, hs, -, hsd, -⟩ := h4 hl
    have hne : ys ≠ [] := by rintro rfl; simp at hl
    rw [(h2 hne).1, hsd]
    have hc : central 2 ys * ys.length = (ys.map fun x => (x - average ys) ^ 2).sum := by
      have : (ys.length : ℝ) ≠ 0 := by
        have : ys.length ≠ 0 := by omega
        exact_mod_cast this
      rw [central]
      conv_lhs => rw [average, List.length_map, div_mul_cancel₀ _ this]
    rw [hc] at hs
    simp only [beyond, decide_eq_true_eq]
    constructor
    · intro hlt
      exact ⟨s, hs0, hs, hl, hlt⟩
    · rintro ⟨s', hs0', hs', -, hlt⟩
      have hpos : (0 : ℝ) < (ys.length : ℝ) - 1 := by
        have : (2 : ℝ) ≤ ys.length := by exact_mod_cast hl
        linarith
      have : s' ^ 2 = s ^ 2 := mul_right_cancel₀ hpos.ne' (hs'.trans hs.symm)
      rw [← (pow_left_inj₀ hs0' hs0 two_ne_zero).1 this]
      exact hlt
  · rw [(h3 (by omega)).2.1]
    constructor
    · intro hb
      cases hm : r.mean <;> simp [beyond, hm] at hb
    · rintro ⟨s, -, -, hl', -⟩
      exact absurd hl' hl

theorem count_mono {nsigma : ℝ} {r : Moments} {input : List Num} {m : List Bool} (h : m.length = input.length) :
    m.count true ≤ (newMask nsigma r input m).count true ∧ ((newMask nsigma r input m).count true = m.count true → newMask nsigma r input m = m) := by
  unfold newMask
  induction input generalizing m with
  | nil =>
    have := List.eq_nil_of_length_eq_zero h
    subst this
    simp
  | cons x input ih =>
    cases m with
    | nil => simp at h
    | cons c m =>
      have := ih (m := m) (by simpa using h)
      rw [List.zipWith_cons_cons]
      generalize hb : beyond nsigma r.mean r.stddev x = b
      cases c <;> cases b <;> simp at this ⊢
      · exact this
      · exact ⟨by omega, fun h => absurd h (by omega)⟩
      · exact this
      · exact this

theorem clipLoop_ok (nsigma : ℝ) (xs : List ℝ) (nitermax : Int) :
    ∀ (fuel : Nat) (m : List Bool), m.length = xs.length → xs.length - m.count true < fuel →
    ∃ R, clipLoop (xs.map some) nsigma nitermax fuel 1 m = .ok R ∧ (nitermax = 1 → Round nsigma xs m R) ∧
      (nitermax ≠ 1 → Relation.ReflTransGen (Round nsigma xs) m R ∧ Round nsigma xs R R) := by
  intro fuel
  induction fuel with
  | zero => intro m _ h; omega
  | succ f ih =>
    intro m hm hf
    obtain ⟨r, e, hr⟩ := round_step nsigma xs m hm
    have hm' : m.length = (xs.map some).length := by rw [List.length_map]; exact hm
    have hc := count_mono (nsigma := nsigma) (r := r) hm'
    have hle : (newMask nsigma r (xs.map some) m).count true ≤ xs.length := by
      refine List.count_le_length.trans ?_
      rw [newMask_length hm', List.length_map]
    unfold clipLoop
    rw [e]
    dsimp only [bind, Except.bind]
    by_cases h1 : (newMask nsigma r (xs.map some) m).count true = m.count true
    · rw [if_pos h1]
      rw [hc.2 h1] at hr
      exact ⟨m, rfl, fun _ => hr, fun _ => ⟨.refl, hr⟩⟩
    · rw [if_neg h1]
      by_cases h2 : nitermax = 1
      · rw [if_pos h2.symm]
        exact ⟨_, rfl, fun _ => hr, fun h => absurd h2 h⟩
      · rw [if_neg fun h => h2 h.symm]
        obtain ⟨R, e1, -, h3⟩ := ih (newMask nsigma r (xs.map some) m) (by rw [newMask_length hm', List.length_map]) (by omega)
        exact ⟨R, e1, fun h => absurd h h2, fun h => ⟨.head hr (h3 h).1, (h3 h).2⟩⟩

/-- C132: the clipping terminates.  A single iteration is one round.  Otherwise, whatever the maximum number of iterations, the rounds are repeated until no
element is rejected by another one. -/
theorem C132_clipping_partial (xs : List ℝ) (nsigma : ℝ) (nitermax : Option Int) :
    ∃ R, sigmaClipping (xs.map some) nsigma nitermax = .ok R ∧ (nitermax = some 1 → Round nsigma xs (xs.map fun _ => false) R) ∧
      (nitermax ≠ some 1 → Relation.ReflTransGen (Round nsigma xs) (xs.map fun _ => false) R ∧ Round nsigma xs R R) := by
  obtain ⟨R, e, h1, h2⟩ := clipLoop_ok nsigma xs (nitermax.getD 0) ((xs.map some).length + 1) (xs.map fun _ => false) (by simp) (by simp)
  refine ⟨R, ?_, fun h => h1 (by rw [h]; rfl), fun h => h2 ?_⟩
  · unfold sigmaClipping
    rw [List.map_map]
    exact e
  · cases nitermax with
    | none => simp
    | some k => simpa using h

/-- C132: the elements that remain are not further from their mean than the number of standard deviations. -/
theorem C132_remaining {nsigma : ℝ} {xs : List ℝ} {R : List Bool} (h : Round nsigma xs R R) (s : ℝ) (hs : 0 ≤ s)
    (h2 : s ^ 2 * ((unmasked xs (some R)).length - 1) = ((unmasked xs (some R)).map fun x => (x - average (unmasked xs (some R))) ^ 2).sum)
    (hn : 2 ≤ (unmasked xs (some R)).length) : ∀ x ∈ unmasked xs (some R), |x - average (unmasked xs (some R))| ≤ nsigma * s := by
  intro x hx
  by_contra hlt
  have hx' := hx
  unfold unmasked at hx'
  dsimp only at hx'
  rw [List.mem_map] at hx'
  obtain ⟨⟨y, c⟩, h3, h4⟩ := hx'
  rw [List.mem_filter] at h3
  obtain ⟨h5, h6⟩ := h3
  obtain ⟨i, hi, h7⟩ := List.getElem_of_mem h5
  rw [List.length_zip] at hi
  rw [List.getElem_zip] at h7
  obtain ⟨h8, h9⟩ := Prod.mk.inj h7
  have hc : c = false := by simpa using h6
  have := (h.2.2 i (by omega)).2 (.inr ⟨s, hs, h2, hn, by rw [h8]; dsimp only at h4; rw [h4]; exact not_le.1 hlt⟩)
  rw [List.getElem?_eq_getElem (by omega), h9, hc] at this
  simp at this

/-- C132: no element is rejected if one of them is a NaN. -/
theorem C132_nan (input : List Num) (nsigma : ℝ) (nitermax : Option Int) (h : none ∈ input) : sigmaClipping input nsigma nitermax = .ok (input.map fun _ => false) := by
  have hu : unmasked input (some (input.map fun _ => false)) = input := by
    unfold unmasked
    dsimp only
    clear h
    induction input with
    | nil => rfl
    | cons x l ih => simpa using ih
  have hl : ∀ m ∈ some (input.map fun _ => false), m.length = input.length := by
    intro m hm
    cases hm
    simp
  have hc : countSamples input (some (input.map fun _ => false)) = .ok input.length := by
    unfold countSamples
    dsimp only
    rw [if_neg (by simp), List.count_eq_zero.2 (by simp)]
    rfl
  have hok : ∀ f : Num → Num, ∃ s, sumOpt (input.map f) (some (input.map fun _ => false)) = .ok s := fun f =>
    ⟨_, sumOpt_eq (by intro m hm; cases hm; simp)⟩
  have hm : meanOf input (some (input.map fun _ => false)) input.length = .ok none := by
    unfold meanOf
    split_ifs
    · rfl
    · rw [(C129_sum input _ hl).2 (by rw [hu]; exact h)]
      rfl
  have hmo : ∃ r, moment input (some (input.map fun _ => false)) = .ok r ∧ r.mean = none := by
    unfold moment
    rw [hc]
    dsimp only [bind, Except.bind]
    rw [hm]
    dsimp only
    have e1 : ∃ a, meanOf ((input.map fun x => sub x none).map fun r => r.map fun r => |r|) (some (input.map fun _ => false)) input.length = .ok a := by
      unfold meanOf
      split_ifs
      · exact ⟨_, rfl⟩
      · obtain ⟨s, hs⟩ := hok ((fun r => r.map fun r => |r|) ∘ fun x => sub x none)
        rw [List.map_map, hs]
        exact ⟨_, rfl⟩
    have e2 : ∃ a, varOf (input.map fun x => sub x none) (some (input.map fun _ => false)) input.length = .ok a := by
      unfold varOf
      split_ifs
      · exact ⟨_, rfl⟩
      · obtain ⟨s, hs⟩ := hok ((fun r => r.map (· ^ 2)) ∘ fun x => sub x none)
        rw [List.map_map, hs]
        exact ⟨_, rfl⟩
    have e3 : ∀ k d, ∃ a, shapeOf k (input.map fun x => sub x none) (some (input.map fun _ => false)) input.length d = .ok a := by
      intro k d
      unfold shapeOf
      split_ifs
      · exact ⟨_, rfl⟩
      · obtain ⟨s, hs⟩ := hok ((fun r => r.map (· ^ k)) ∘ fun x => sub x none)
        rw [List.map_map, hs]
        exact ⟨_, rfl⟩
    obtain ⟨a1, e1⟩ := e1
    obtain ⟨a2, e2⟩ := e2
    rw [e1]
    dsimp only
    rw [e2]
    dsimp only
    obtain ⟨a3, e3'⟩ := e3 3 (a2.map Real.sqrt)
    obtain ⟨a4, e4'⟩ := e3 4 (a2.map Real.sqrt)
    rw [e3']
    dsimp only
    rw [e4']
    exact ⟨_, rfl, rfl⟩
  obtain ⟨r, e, hr⟩ := hmo
  unfold sigmaClipping clipLoop
  rw [e]
  dsimp only [bind, Except.bind]
  have : newMask nsigma r input (input.map fun _ => false) = input.map fun _ => false := by
    unfold newMask
    rw [hr]
    clear h hu hl hc hok hm e
    induction input with
    | nil => rfl
    | cons x l ih => simp [beyond] at ih ⊢; exact ih
  rw [this, if_pos rfl]
  rfl

/-- The elements that are rejected by a round, from the mean and the variance. -/
theorem round_iff {nsigma A V : ℝ} {xs : List ℝ} {m m' : List Bool} (h1 : m.length = xs.length) (h2 : m'.length = xs.length) (hn : 0 ≤ nsigma) (hV : 0 ≤ V)
    (hl : 2 ≤ (unmasked xs (some m)).length) (hA : average (unmasked xs (some m)) = A)
    (hs : V * ((unmasked xs (some m)).length - 1) = ((unmasked xs (some m)).map fun x => (x - A) ^ 2).sum)
    (h : ∀ (i : Nat) (hi : i < xs.length), (m'[i]? = some true ↔ m[i]? = some true ∨ nsigma ^ 2 * V < (xs[i] - A) ^ 2)) : Round nsigma xs m m' := by
  refine ⟨h1, h2, fun i hi => (h i hi).trans (or_congr Iff.rfl ?_)⟩
  rw [hA]
  have hpos : (0 : ℝ) < ((unmasked xs (some m)).length : ℝ) - 1 := by
    have : (2 : ℝ) ≤ (unmasked xs (some m)).length := by exact_mod_cast hl
    linarith
  have key : ∀ s : ℝ, 0 ≤ s → s ^ 2 = V → (nsigma ^ 2 * V < (xs[i] - A) ^ 2 ↔ nsigma * s < |xs[i] - A|) := by
    intro s h3 h4
    rw [← h4, ← mul_pow, sq_lt_sq, abs_of_nonneg (mul_nonneg hn h3)]
  constructor
  · intro h3
    exact ⟨Real.sqrt V, Real.sqrt_nonneg _, by rw [Real.sq_sqrt hV]; exact hs, hl, (key _ (Real.sqrt_nonneg _) (Real.sq_sqrt hV)).1 h3⟩
  · rintro ⟨s, h3, h4, -, h5⟩
    exact (key s h3 (mul_right_cancel₀ hpos.ne' (h4.trans hs.symm))).2 h5

/-- C132: the maximum number of iterations is ignored: the third round is not the last one that was asked for. -/
theorem C132_violation_nitermax :
    Round 1 [0, 1, 10, 100, 1000] [false, false, false, false, false] [false, false, false, false, true] ∧
    Round 1 [0, 1, 10, 100, 1000] [false, false, false, false, true] [false, false, false, true, true] ∧
    sigmaClipping [some 0, some 1, some 10, some 100, some 1000] 1 (some 2) = .ok [false, false, true, true, true] := by
  have r1 : Round 1 [0, 1, 10, 100, 1000] [false, false, false, false, false] [false, false, false, false, true] := by
    refine round_iff (A := 1111 / 5) (V := 954046 / 5) rfl rfl (by norm_num) (by norm_num) (by simp [unmasked]) (by norm_num [unmasked, average]) (by norm_num [unmasked]) ?_
    intro i hi
    rcases i with _ | _ | _ | _ | _ | i <;> norm_num
    simp at hi
    omega
  have r2 : Round 1 [0, 1, 10, 100, 1000] [false, false, false, false, true] [false, false, false, true, true] := by
    refine round_iff (A := 111 / 4) (V := 28083 / 12) rfl rfl (by norm_num) (by norm_num) (by simp [unmasked]) (by norm_num [unmasked, average]) (by norm_num [unmasked]) ?_
    intro i hi
    rcases i with _ | _ | _ | _ | _ | i <;> norm_num
    simp at hi
    omega
  have r3 : Round 1 [0, 1, 10, 100, 1000] [false, false, false, true, true] [false, false, true, true, true] := by
    refine round_iff (A := 11 / 3) (V := 182 / 6) rfl rfl (by norm_num) (by norm_num) (by simp [unmasked]) (by norm_num [unmasked, average]) (by norm_num [unmasked]) ?_
    intro i hi
    rcases i with _ | _ | _ | _ | _ | i <;> norm_num
    simp at hi
    omega
  have r4 : Round 1 [0, 1, 10, 100, 1000] [false, false, true, true, true] [false, false, true, true, true] := by
    refine round_iff (A := 1 / 2) (V := 1 / 2) rfl rfl (by norm_num) (by norm_num) (by simp [unmasked]) (by norm_num [unmasked, average]) (by norm_num [unmasked]) ?_
    intro i hi
    rcases i with _ | _ | _ | _ | _ | i <;> norm_num
    simp at hi
    omega
  refine ⟨r1, r2, ?_⟩
  obtain ⟨R, e, -, h⟩ := C132_clipping_partial [0, 1, 10, 100, 1000] 1 (some 2)
  obtain ⟨h1, h2⟩ := h (by simp)
  have step : ∀ {m m' : List Bool}, Round 1 [0, 1, 10, 100, 1000] m m' → m ≠ m' → Relation.ReflTransGen (Round 1 [0, 1, 10, 100, 1000]) m R →
      Relation.ReflTransGen (Round 1 [0, 1, 10, 100, 1000]) m' R := by
    intro m m' hr hne ht
    rcases ht.cases_head with rfl | ⟨c, hc, ht⟩
    · exact absurd (h2.unique hr) hne
    · rw [← hc.unique hr]; exact ht
  have h3 := step r3 (by decide) (step r2 (by decide) (step r1 (by decide) h1))
  have h4 : ∀ {c : List Bool}, Relation.ReflTransGen (Round 1 [0, 1, 10, 100, 1000]) [false, false, true, true, true] c → c = [false, false, true, true, true] := by
    intro c hc
    induction hc with
    | refl => rfl
    | tail _ hb ih => rw [ih] at hb; exact hb.unique r4
  rw [h4 h3] at e
  exact e

/-- The hypotheses of `C132_remaining` are met. -/
example : Round 3 [0, 2] [false, false] [false, false] :=
  round_iff (A := 1) (V := 2) rfl rfl (by norm_num) (by norm_num) (by simp [unmasked]) (by norm_num [unmasked, average]) (by norm_num [unmasked]) (by
    intro i hi
    rcases i with _ | _ | i <;> norm_num
    simp at hi)

end Verif.Stat
