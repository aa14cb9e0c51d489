import Mathlib.Analysis.SpecialFunctions.Pow.Real
import Mathlib.Analysis.SpecialFunctions.Exp
import Mathlib.Tactic
import Verif.Py.Basic

/-! Black body and power law operators (src/pysimulators/operators.py 233-331, 427-501). -/

namespace Verif.Operators

open Verif.Py

set_option linter.unusedSectionVars false
set_option linter.unusedSimpArgs false

noncomputable section

/-! ### The model -/

/-- A numpy argument: a number, or an array with one dimension. -/
inductive Num where
  | scalar (x : ℝ)
  | array (l : List ℝ)

/-- The elements of an argument, to be broadcast. -/
def Num.elems : Num → List ℝ
  | .scalar x => [x]
  | .array l => l

/-- The broadcasting of two one-dimensional arrays. -/
def broadcast2 (f : ℝ → ℝ → ℝ) (a b : List ℝ) : Res (List ℝ) :=
  match a, b with
  | [x], b => .ok (b.map fun y => f x y)
  | a, [y] => .ok (a.map fun x => f x y)
  | a, b => if a.length = b.length then .ok (List.zipWith f a b) else .error .valueError

/-- The physical constants of scipy: the speed of light, and the constants of Planck and Boltzmann. -/
structure Constants where
  c : ℝ
  h : ℝ
  k : ℝ

/-- `np.expm1`. -/
def expm1 (x : ℝ) : ℝ := Real.exp x - 1

/-- operators.py 321-325, for one temperature and one reference frequency. -/
def blackBodyValue (p : Constants) (nu beta nu0 temperature : ℝ) : ℝ :=
  (nu / nu0) ^ (3 + beta) * expm1 (p.h * nu0 / (p.k * temperature)) / expm1 (p.h * nu / (p.k * temperature))

/-- operators.py 257-325 `BlackBodyOperator.__init__`: the diagonal of the operator. -/
def blackBody (p : Constants) (temperature : Num) (frequency frequency0 wavelength wavelength0 : Option Num) (beta : Num) : Res (List ℝ) := do
  if frequency.isNone ∧ wavelength.isNone then .error .valueError
  else if frequency0.isNone ∧ wavelength0.isNone then .error .valueError
  else if frequency.isSome ∧ wavelength.isSome then .error .valueError
  else if frequency0.isSome ∧ wavelength0.isSome then .error .valueError
  else
    let inverse : Num → Num := fun w => match w with
      | .scalar x => .scalar (p.c / x)
      | .array l => .array (l.map fun x => p.c / x)
    let nu ← match frequency, wavelength with
      | some f, _ => .ok f
      | none, some w => .ok (inverse w)
      | none, none => .error .valueError
    match nu with
    | .array _ => .error .typeError
    | .scalar nu =>
      let nu0 ← match frequency0, wavelength0 with
        | some f, _ => .ok f
        | none, some w => .ok (inverse w)
        | none, none => .error .valueError
      -- lines 318-319 test the dimension of nu again, instead of nu0
      match beta with
      | .scalar beta => broadcast2 (blackBodyValue p nu beta) nu0.elems temperature.elems
      | .array [beta] => broadcast2 (blackBodyValue p nu beta) nu0.elems temperature.elems
      | .array _ => .error .typeError

/-- operators.py 458-487 `PowerLawOperator.__init__`: the attributes. -/
structure PowerLaw where
  alpha : Num
  x : ℝ
  x0 : ℝ
  scalar : ℝ

/-- operators.py 458-475. -/
def powerLaw (alpha x x0 scalar : Num) : Res PowerLaw :=
  match x, x0, scalar with
  | .scalar x, .scalar x0, .scalar s => .ok ⟨alpha, x, x0, s⟩
  | _, _, _ => .error .typeError

/-- The action of the operator (`DiagonalNumexprOperator` with the expression of line 476): the slopes have the shape of the input, or are a scalar. -/
def PowerLaw.apply (o : PowerLaw) (input : List ℝ) : Res (List ℝ) :=
  match o.alpha with
  | .scalar a => .ok (input.map fun v => o.scalar * (o.x / o.x0) ^ a * v)
  | .array l => if l.length ≠ input.length then .error .valueError
    else .ok (List.zipWith (fun a v => o.scalar * (o.x / o.x0) ^ a * v) l input)

/-- operators.py 482-486: a homothety that follows a power law is absorbed by it. -/
def PowerLaw.absorb (homothety : ℝ) (o : PowerLaw) : Res PowerLaw := powerLaw o.alpha (.scalar o.x) (.scalar o.x0) (.scalar (homothety * o.scalar))

/-! ### The black body operator -/

/-- The spectral radiance of a black body (law of Planck). -/
def planck (p : Constants) (nu temperature : ℝ) : ℝ := 2 * p.h * nu ^ 3 / p.c ^ 2 / (Real.exp (p.h * nu / (p.k * temperature)) - 1)

/-- A black body modified by an emissivity that is proportional to a power of the frequency. -/
def modified (p : Constants) (nu beta temperature : ℝ) : ℝ := nu ^ beta * planck p nu temperature

/-- The frequency that is given by one of the two keywords. -/
def Frequency (p : Constants) (frequency wavelength : Option Num) (nu : ℝ) : Prop :=
  (frequency = some (.scalar nu) ∧ wavelength = none) ∨ frequency = none ∧ ∃ w : ℝ, wavelength = some (.scalar w) ∧ nu * w = p.c

structure Constants.Positive (p : Constants) : Prop where
  c : 0 < p.c
  h : 0 < p.h
  k : 0 < p.k

theorem frequency_of {p : Constants} (hp : p.Positive) {f w : Option Num} {nu : ℝ} (h : Frequency p f w nu) :
    (f = some (.scalar nu) ∧ w = none) ∨ f = none ∧ ∃ x : ℝ, w = some (.scalar x) ∧ p.c / x = nu := by
  rcases h with h | ⟨h1, x, h2, h3⟩
  · exact .inl h
  · refine .inr ⟨h1, x, h2, ?_⟩
    have hx : x ≠ 0 := by
      rintro rfl
      rw [mul_zero] at h3
      exact hp.c.ne h3
    rw [← h3, mul_div_cancel_right₀ _ hx]

theorem blackBody_eq {p : Constants} (hp : p.Positive) {f f0 w w0 : Option Num} {nu nu0 : ℝ} (h : Frequency p f w nu) (h0 : Frequency p f0 w0 nu0)
    (_hnu : 0 < nu) (_hnu0 : 0 < nu0) (temperature : Num) (beta : ℝ) :
    blackBody p temperature f f0 w w0 (.scalar beta) = .ok (temperature.elems.map fun t => blackBodyValue p nu beta nu0 t) := by
  rcases frequency_of hp h with ⟨rfl, rfl⟩ | ⟨rfl, x, rfl, e⟩ <;> rcases frequency_of hp h0 with ⟨rfl, rfl⟩ | ⟨rfl, x0, rfl, e0⟩ <;>
    simp [blackBody, broadcast2, Num.elems, Bind.bind, Except.bind, *]

theorem planck_pos {p : Constants} (hp : p.Positive) {nu t : ℝ} (hnu : 0 < nu) (ht : 0 < t) : 0 < planck p nu t := by
  have : 1 < Real.exp (p.h * nu / (p.k * t)) := Real.one_lt_exp_iff.2 (by have := hp.h; have := hp.k; positivity)
  have h1 := hp.h
  have h2 := hp.c
  rw [planck]
  have : 0 < Real.exp (p.h * nu / (p.k * t)) - 1 := by linarith
  positivity

theorem blackBodyValue_eq {p : Constants} (hp : p.Positive) {nu nu0 t : ℝ} (hnu : 0 < nu) (hnu0 : 0 < nu0) (ht : 0 < t) (beta : ℝ) :
    blackBodyValue p nu beta nu0 t = modified p nu beta t / modified p nu0 beta t := by
  have e : ∀ v : ℝ, 0 < v → Real.exp (p.h * v / (p.k * t)) - 1 ≠ 0 := fun v hv => by
    have : 1 < Real.exp (p.h * v / (p.k * t)) := Real.one_lt_exp_iff.2 (by have := hp.h; have := hp.k; positivity)
    linarith
  have h1 := e nu hnu
  have h0 := e nu0 hnu0
  have hh := hp.h.ne'
  have hc := hp.c.ne'
  have p1 := (Real.rpow_pos_of_pos hnu beta).ne'
  have p0 := (Real.rpow_pos_of_pos hnu0 beta).ne'
  rw [blackBodyValue, modified, modified, planck, planck, expm1, expm1, Real.div_rpow hnu.le hnu0.le, Real.rpow_add hnu, Real.rpow_add hnu0]
  rw [show ((3 : ℝ)) = ((3 : ℕ) : ℝ) by norm_num, Real.rpow_natCast, Real.rpow_natCast]
  field_simp

/-- C106: the diagonal elements are the ratios of the modified black body at the operating and the reference frequencies, whether they are given by
frequencies or wavelengths: the flux densities at the reference frequency are changed into those at the operating frequency. -/
theorem C106_planck {p : Constants} (hp : p.Positive) {f f0 w w0 : Option Num} {nu nu0 : ℝ} (h : Frequency p f w nu) (h0 : Frequency p f0 w0 nu0)
    (hnu : 0 < nu) (hnu0 : 0 < nu0) (temperature : Num) (ht : ∀ t ∈ temperature.elems, 0 < t) (beta : ℝ) :
    ∃ data, blackBody p temperature f f0 w w0 (.scalar beta) = .ok data ∧ data.length = temperature.elems.length ∧
      ∀ (i : Nat) (t d : ℝ), temperature.elems[i]? = some t → data[i]? = some d →
        ∀ A : ℝ, d * (A * modified p nu0 beta t) = A * modified p nu beta t := by
  refine ⟨_, blackBody_eq hp h h0 hnu hnu0 temperature beta, by simp, ?_⟩
  intro i t d hi hd A
  rw [List.getElem?_map, hi] at hd
  simp only [Option.map_some, Option.some.injEq] at hd
  have htp := ht t (List.mem_of_getElem? hi)
  rw [← hd, blackBodyValue_eq hp hnu hnu0 htp]
  have : modified p nu0 beta t ≠ 0 := (mul_pos (Real.rpow_pos_of_pos hnu0 beta) (planck_pos hp hnu0 htp)).ne'
  field_simp

/-- C106: the operator is the identity when the two frequencies are equal. -/
theorem C106_identity {p : Constants} (hp : p.Positive) {f f0 w w0 : Option Num} {nu : ℝ} (h : Frequency p f w nu) (h0 : Frequency p f0 w0 nu)
    (hnu : 0 < nu) (temperature : Num) (ht : ∀ t ∈ temperature.elems, 0 < t) (beta : ℝ) :
    blackBody p temperature f f0 w w0 (.scalar beta) = .ok (List.replicate temperature.elems.length 1) := by
  rw [blackBody_eq hp h h0 hnu hnu temperature beta]
  refine congrArg _ ?_
  rw [List.eq_replicate_iff]
  refine ⟨by simp, ?_⟩
  intro b hb
  obtain ⟨t, htm, rfl⟩ := List.mem_map.1 hb
  rw [blackBodyValue_eq hp hnu hnu (ht t htm)]
  exact div_self (mul_pos (Real.rpow_pos_of_pos hnu beta) (planck_pos hp hnu (ht t htm))).ne'

/-- C106: the extrapolation through an intermediate frequency is the direct one. -/
theorem C106_chain {p : Constants} (hp : p.Positive) {f0 w0 f1 w1 f2 w2 : Option Num} {nu0 nu1 nu2 : ℝ} (h0 : Frequency p f0 w0 nu0)
    (h1 : Frequency p f1 w1 nu1) (h2 : Frequency p f2 w2 nu2) (hnu0 : 0 < nu0) (hnu1 : 0 < nu1) (hnu2 : 0 < nu2)
    (temperature : Num) (ht : ∀ t ∈ temperature.elems, 0 < t) (beta : ℝ) {a b c : List ℝ}
    (ha : blackBody p temperature f1 f0 w1 w0 (.scalar beta) = .ok a) (hb : blackBody p temperature f2 f1 w2 w1 (.scalar beta) = .ok b)
    (hc : blackBody p temperature f2 f0 w2 w0 (.scalar beta) = .ok c) : List.zipWith (· * ·) b a = c := by
  rw [blackBody_eq hp h1 h0 hnu1 hnu0, Except.ok.injEq] at ha
  rw [blackBody_eq hp h2 h1 hnu2 hnu1, Except.ok.injEq] at hb
  rw [blackBody_eq hp h2 h0 hnu2 hnu0, Except.ok.injEq] at hc
  subst ha hb hc
  rw [List.zipWith_map, List.zipWith_self]
  refine List.map_congr_left fun t htm => ?_
  have htp := ht t htm
  have m1 : modified p nu1 beta t ≠ 0 := (mul_pos (Real.rpow_pos_of_pos hnu1 beta) (planck_pos hp hnu1 htp)).ne'
  rw [blackBodyValue_eq hp hnu1 hnu0 htp, blackBodyValue_eq hp hnu2 hnu1 htp, blackBodyValue_eq hp hnu2 hnu0 htp]
  field_simp

/-- C106: exactly one of the frequency and the wavelength must be given, for both the operating and the reference ones, and the operating one is a
scalar. -/
theorem C106_rejects (p : Constants) (temperature : Num) (f f0 w w0 : Option Num) (beta : ℝ) :
    (f.isSome = w.isSome ∨ f0.isSome = w0.isSome → blackBody p temperature f f0 w w0 (.scalar beta) = .error .valueError) ∧
    (f.isSome ≠ w.isSome → f0.isSome ≠ w0.isSome → (∃ l, f = some (.array l) ∨ w = some (.array l)) →
      blackBody p temperature f f0 w w0 (.scalar beta) = .error .typeError) := by
  constructor
  · intro h
    cases f <;> cases w <;> cases f0 <;> cases w0 <;> simp_all [blackBody]
  · rintro h h0 ⟨l, rfl | rfl⟩
    · cases w <;> cases f0 <;> cases w0 <;> simp_all [blackBody, Bind.bind, Except.bind]
    · cases f <;> cases f0 <;> cases w0 <;> simp_all [blackBody, Bind.bind, Except.bind]

/-- C106 is false for slopes given by an array, which the documentation allows: they are rejected, whatever the other arguments. -/
theorem C106_violation_beta (p : Constants) (temperature : Num) (nu nu0 : ℝ) (l : List ℝ) (hl : l.length ≠ 1) :
    blackBody p temperature (some (.scalar nu)) (some (.scalar nu0)) none none (.array l) = .error .typeError := by
  match l, hl with
  | [], _ => simp [blackBody, Bind.bind, Except.bind]
  | [_], h => simp at h
  | _ :: _ :: _, _ => simp [blackBody, Bind.bind, Except.bind]

/-- C106: the reference frequency is not verified: an array is accepted, and each temperature has its own reference. -/
theorem C106_violation_reference (p : Constants) (t1 t2 nu a b beta : ℝ) :
    blackBody p (.array [t1, t2]) (some (.scalar nu)) (some (.array [a, b])) none none (.scalar beta)
      = .ok [blackBodyValue p nu beta a t1, blackBodyValue p nu beta b t2] := by
  simp [blackBody, Bind.bind, Except.bind, broadcast2, Num.elems]

/-- Constants in a system of units. -/
def unitConstants : Constants := ⟨1, 1, 1⟩

theorem unitConstants_pos : unitConstants.Positive := ⟨one_pos, one_pos, one_pos⟩

example : ∃ data, blackBody unitConstants (.array [15, 16]) (some (.scalar 2)) none none (some (.scalar (1 / 4))) (.scalar 1) = .ok data ∧
    data.length = 2 ∧ ∀ (i : Nat) (t d : ℝ), [(15 : ℝ), 16][i]? = some t → data[i]? = some d →
      ∀ A : ℝ, d * (A * modified unitConstants 4 1 t) = A * modified unitConstants 2 1 t :=
  C106_planck unitConstants_pos (.inl ⟨rfl, rfl⟩) (.inr ⟨rfl, 1 / 4, rfl, by norm_num [unitConstants]⟩) (by norm_num) (by norm_num) (.array [15, 16])
    (by intro t ht; simp [Num.elems] at ht; rcases ht with rfl | rfl <;> norm_num) 1

example : blackBody unitConstants (.scalar 15) (some (.scalar 2)) none none (some (.scalar (1 / 2))) (.scalar 1) = .ok [1] :=
  C106_identity unitConstants_pos (.inl ⟨rfl, rfl⟩) (.inr ⟨rfl, 1 / 2, rfl, by norm_num [unitConstants]⟩) (by norm_num) (.scalar 15)
    (by intro t ht; simp [Num.elems] at ht; subst ht; norm_num) 1

example : blackBody unitConstants (.scalar 15) (some (.scalar 2)) none (some (.scalar 2)) (some (.scalar (1 / 2))) (.scalar 1) = .error .valueError :=
  (C106_rejects _ _ _ _ _ _ _).1 (.inl rfl)

example {a b c : List ℝ} (ha : blackBody unitConstants (.scalar 15) (some (.scalar 2)) none none (some (.scalar (1 / 2))) (.scalar 1) = .ok a)
    (hb : blackBody unitConstants (.scalar 15) (some (.scalar 3)) (some (.scalar 2)) none none (.scalar 1) = .ok b)
    (hc : blackBody unitConstants (.scalar 15) (some (.scalar 3)) none none (some (.scalar (1 / 2))) (.scalar 1) = .ok c) : List.zipWith (· * ·) b a = c :=
  C106_chain unitConstants_pos (.inr ⟨rfl, 1 / 2, rfl, by norm_num [unitConstants]⟩) (.inl ⟨rfl, rfl⟩) (.inl ⟨rfl, rfl⟩) (nu0 := 2) (by norm_num) (by norm_num)
    (by norm_num) (.scalar 15) (by intro t ht; simp [Num.elems] at ht; subst ht; norm_num) 1 ha hb hc

/-! ### The power law operator -/

/-- The slope at an element. -/
def Num.at (a : Num) (i : Nat) : Option ℝ :=
  match a with
  | .scalar x => some x
  | .array l => l[i]?

/-- C107: the output is the input times the power of the ratio of the abscissae, element by element, times the coefficient; an array of slopes must
have the shape of the input. -/
theorem C107_action (alpha : Num) (x x0 s : ℝ) (hx : 0 < x) (hx0 : 0 < x0) (input : List ℝ) (hl : ∀ l, alpha = .array l → l.length = input.length) :
    ∃ o out, powerLaw alpha (.scalar x) (.scalar x0) (.scalar s) = .ok o ∧ o.apply input = .ok out ∧ out.length = input.length ∧
      ∀ (i : Nat) (a v : ℝ), alpha.at i = some a → input[i]? = some v →
        out[i]? = some (s * Real.exp (a * (Real.log x - Real.log x0)) * v) := by
  have key : ∀ a : ℝ, (x / x0) ^ a = Real.exp (a * (Real.log x - Real.log x0)) := fun a => by
    rw [Real.rpow_def_of_pos (div_pos hx hx0), Real.log_div hx.ne' hx0.ne', mul_comm]
  cases alpha with
  | scalar a =>
    refine ⟨_, _, rfl, rfl, by simp, ?_⟩
    intro i b v hb hv
    obtain rfl : a = b := by simpa [Num.at] using hb
    rw [List.getElem?_map, hv, ← key]
    rfl
  | array l =>
    have h := hl l rfl
    refine ⟨_, List.zipWith (fun a v => s * (x / x0) ^ a * v) l input, rfl, ?_, by simp [h], ?_⟩
    · simp [PowerLaw.apply, h]
    · intro i a v ha hv
      rw [Num.at] at ha
      simp [List.getElem?_zipWith, ha, hv, ← key]

/-- C107: the other shapes are rejected. -/
theorem C107_rejects (l : List ℝ) (x x0 s : ℝ) (input : List ℝ) (hl : l.length ≠ input.length) :
    (∃ o, powerLaw (.array l) (.scalar x) (.scalar x0) (.scalar s) = .ok o ∧ o.apply input = .error .valueError) ∧
    ∀ m alpha, powerLaw alpha (.array m) (.scalar x0) (.scalar s) = .error .typeError ∧ powerLaw alpha (.scalar x) (.array m) (.scalar s) = .error .typeError ∧
      powerLaw alpha (.scalar x) (.scalar x0) (.array m) = .error .typeError :=
  ⟨⟨_, rfl, by simp [PowerLaw.apply, hl]⟩, fun _ _ => ⟨rfl, rfl, rfl⟩⟩

/-- C107: the absorption of a homothety does not change the product. -/
theorem C107_homothety (o : PowerLaw) (a : ℝ) : ∃ o', o.absorb a = .ok o' ∧ ∀ input, o'.apply input = (o.apply input).map fun l => l.map fun v => a * v := by
  refine ⟨_, rfl, fun input => ?_⟩
  rcases o with ⟨alpha, x, x0, s⟩
  cases alpha with
  | scalar b =>
    simp only [PowerLaw.apply, Except.map, List.map_map]
    refine congrArg _ (List.map_congr_left fun v _ => ?_)
    simp only [Function.comp_apply]
    ring
  | array l =>
    simp only [PowerLaw.apply]
    split
    · rfl
    · simp only [Except.map, List.map_zipWith]
      refine congrArg _ ?_
      congr 1
      ext b v
      ring

/-- C107: the extrapolation through an intermediate abscissa is the direct one. -/
theorem C107_chain (alpha : Num) {x0 x1 x2 : ℝ} (h0 : 0 < x0) (h1 : 0 < x1) (h2 : 0 < x2) (s s' : ℝ) (input : List ℝ) :
    ((⟨alpha, x1, x0, s⟩ : PowerLaw).apply input).bind (⟨alpha, x2, x1, s'⟩ : PowerLaw).apply = (⟨alpha, x2, x0, s' * s⟩ : PowerLaw).apply input := by
  have key : ∀ a v : ℝ, s' * (x2 / x1) ^ a * (s * (x1 / x0) ^ a * v) = s' * s * (x2 / x0) ^ a * v := by
    intro a v
    have : (x2 / x0) ^ a = (x2 / x1) ^ a * (x1 / x0) ^ a := by
      rw [← Real.mul_rpow (by positivity) (by positivity)]
      congr 1
      field_simp
    rw [this]
    ring
  cases alpha with
  | scalar b =>
    simp only [PowerLaw.apply, Except.bind, List.map_map]
    refine congrArg _ (List.map_congr_left fun v _ => ?_)
    simpa using key b v
  | array l =>
    simp only [PowerLaw.apply]
    by_cases hl : l.length = input.length
    · simp only [hl, ne_eq, not_true_eq_false, if_false, Except.bind, PowerLaw.apply, List.length_zipWith, min_self]
      refine congrArg _ ?_
      clear hl
      induction l generalizing input with
      | nil => simp
      | cons a l ih =>
        cases input with
        | nil => simp
        | cons v input => simp [key, ih]
    · simp [hl, Except.bind]

/-- C107: the example of the documentation (operators.py 448-453) multiplies by 1.1 (and not by 2.75e-11). -/
theorem C107_violation_example (c : ℝ) (hc : 0 < c) : (⟨.scalar (-1), c / 11e-6, c / 10e-6, 1⟩ : PowerLaw).apply [1, 10, 100] = .ok [1.1, 11, 110] := by
  have : (c / 11e-6 / (c / 10e-6)) ^ (-1 : ℝ) = 1.1 := by
    rw [Real.rpow_neg_one]
    field_simp
    norm_num
  simp only [PowerLaw.apply, this]
  norm_num

example : ∃ o out, powerLaw (.array [1, 2]) (.scalar 6) (.scalar 3) (.scalar 5) = .ok o ∧ o.apply [10, 20] = .ok out ∧ out.length = 2 ∧
    ∀ (i : Nat) (a v : ℝ), (Num.array [1, 2]).at i = some a → [(10 : ℝ), 20][i]? = some v →
      out[i]? = some (5 * Real.exp (a * (Real.log 6 - Real.log 3)) * v) :=
  C107_action (.array [1, 2]) 6 3 5 (by norm_num) (by norm_num) [10, 20] (by intro l hl; cases hl; rfl)

end
end Verif.Operators
