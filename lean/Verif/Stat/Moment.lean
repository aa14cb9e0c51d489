/-
Sums and moments: /repo/src/flib/module_math_old.f90 136-500.
-/
import Verif.Py.Basic
import Mathlib.Analysis.SpecialFunctions.Pow.Real
import Mathlib.Tactic

namespace Verif.Stat
open Verif.Py

/-! ### Numbers and NaN

A number is a real or a NaN, which is `none`.  The operations are exact; the result of an operation on a NaN is a NaN. -/

abbrev Num := Option ℝ

def add (x y : Num) : Num := Option.map₂ (· + ·) x y
def sub (x y : Num) : Num := Option.map₂ (· - ·) x y

/-! ### The model -/

section Kahan

/- The sums are written for any operations: the exact ones with NaN, which are used in this file, and the rounded ones of Stat/Kahan.lean. -/
variable {F : Type} (add sub : F → F → F) (zero : F)

/-- One iteration of the sum (module_math_old.f90 283-286): the variables SUM and C. -/
def kahanStep (s : F × F) (x : F) : F × F :=
  let y := sub x s.2
  let t := add s.1 y
  (t, sub (sub t s.1) y)

/-- `sum_kahan_1d` (module_math_old.f90 248-290) without a mask. -/
def sumKahanOf : List F → F
  | [] => zero
  | x :: l => (l.foldl (kahanStep add sub) (x, zero)).1

/-- The loop of `sum_kahan_1d` with a mask (module_math_old.f90 279-288). -/
def maskedLoop : List (F × Bool) → F × F → F
  | [], s => s.1
  | (x, m) :: l, s => if m then maskedLoop l s else maskedLoop l (kahanStep add sub s x)

/-- `sum_kahan_1d` (module_math_old.f90 248-290) with a mask: the first element that is not masked is searched (269-275). -/
def sumKahanMask (input : List F) (mask : List Bool) : Res F :=
  if input.length = 0 then .ok zero
  else if mask.length ≠ input.length then .error .valueError
  else match (input.zip mask).dropWhile (·.2) with
    | [] => .ok zero
    | (x, _) :: l => .ok (maskedLoop add sub l (x, zero))

/-- The optional argument MASK. -/
def sumOptOf (input : List F) : Option (List Bool) → Res F
  | none => .ok (sumKahanOf add sub zero input)
  | some mask => sumKahanMask add sub zero input mask

end Kahan

/-- `sum_kahan_1d` in exact arithmetic. -/
def sumKahan : List Num → Num := sumKahanOf add sub (some 0)

/-- `sum_kahan_1d` in exact arithmetic, with an optional mask. -/
def sumOpt : List Num → Option (List Bool) → Res Num := sumOptOf add sub (some 0)

/-- `sum_kahan_2d` and `sum_kahan_3d` (module_math_old.f90 296-318, 324-346), from the sums of the columns. -/
def sumKahan2 (columns : List (List Num)) : Num := if (columns.map List.length).sum = 0 then some 0 else sumKahan (columns.map sumKahan)

def sumKahan3 (planes : List (List (List Num))) : Num :=
  if (planes.map fun q => (q.map List.length).sum).sum = 0 then some 0 else sumKahan (planes.map sumKahan2)

structure Moments where
  mean : Num
  meandev : Num
  variance : Num
  stddev : Num
  skewness : Num
  kurtosis : Num

/-- The number of samples (module_math_old.f90 147-156). -/
def countSamples (input : List Num) : Option (List Bool) → Res Nat
  | none => .ok input.length
  | some mask => if mask.length ≠ input.length then .error .valueError else .ok (input.length - mask.count true)

/-- A sum divided by the number of samples (module_math_old.f90 158-163, 174-180). -/
noncomputable def meanOf (input : List Num) (mask : Option (List Bool)) (n : Nat) : Res Num :=
  if n = 0 then .ok none else (sumOpt input mask).map fun s => s.map (· / (n : ℝ))

/-- The variance (module_math_old.f90 183-187). -/
noncomputable def varOf (residuals : List Num) (mask : Option (List Bool)) (n : Nat) : Res Num :=
  if n ≤ 1 then .ok none else (sumOpt (residuals.map fun r => r.map (· ^ 2)) mask).map fun s => s.map (· / ((n : ℝ) - 1))

open Classical in
/-- The skewness and the kurtosis (module_math_old.f90 195-209), before three is subtracted. -/
noncomputable def shapeOf (k : Nat) (residuals : List Num) (mask : Option (List Bool)) (n : Nat) (sdev : Num) : Res Num :=
  if n = 0 ∨ sdev = some 0 then .ok none
  else (sumOpt (residuals.map fun r => r.map (· ^ k)) mask).map fun s => Option.map₂ (fun s d => s / ((n : ℝ) * d ^ k)) s sdev

/-- `moment` (module_math_old.f90 136-214): every optional output is computed here. -/
noncomputable def moment (input : List Num) (mask : Option (List Bool)) : Res Moments := do
  let n ← countSamples input mask
  let m ← meanOf input mask n
  let residuals := input.map fun x => sub x m
  let meandev ← meanOf (residuals.map fun r => r.map fun r => |r|) mask n
  let var ← varOf residuals mask n
  let sdev := var.map Real.sqrt
  let skewness ← shapeOf 3 residuals mask n sdev
  let kurtosis ← shapeOf 4 residuals mask n sdev
  return ⟨m, meandev, var, sdev, skewness, kurtosis.map (· - 3)⟩

/-- The sums of `norm_l1`, `norm_huber`, `norm2`, `normp` and `dot` (module_math_old.f90 348-498): the terms are computed in the loop. -/
noncomputable def normL1 (input : List ℝ) : Num := sumKahan (input.map fun x => some |x|)

open Classical in
noncomputable def normHuber (input : List ℝ) (delta : ℝ) : Num :=
  let a := 2 * delta
  let b := -delta ^ 2
  sumKahan (input.map fun x => some (if |x| < delta then x ^ 2 else a * |x| + b))

noncomputable def norm2 (input : List ℝ) : Num := sumKahan (input.map fun x => some (x * x))

noncomputable def normp (input : List ℝ) (lp : ℝ) : Num := sumKahan (input.map fun x => some (|x| ^ lp))

/-- `dot` (module_math_old.f90 479-500): INPUT2 is read at the indices of INPUT1. -/
noncomputable def dot (input1 input2 : List ℝ) : Res Num :=
  if input1.length ≤ input2.length then .ok (sumKahan ((input1.zip input2).map fun xy => some (xy.1 * xy.2))) else .error .outOfBounds

/-! ### The specification -/

/-- The elements that are not masked. -/
def unmasked {α : Type} (input : List α) : Option (List Bool) → List α
  | none => input
  | some mask => ((input.zip mask).filter fun p => !p.2).map (·.1)

/-- The mean of numbers. -/
noncomputable def average (xs : List ℝ) : ℝ := xs.sum / xs.length

/-- The mean of the powers of the differences to the mean. -/
noncomputable def central (k : Nat) (xs : List ℝ) : ℝ := average (xs.map fun x => (x - average xs) ^ k)

/-! ### The properties -/

theorem kahan_some (s x : ℝ) : kahanStep add sub (some s, some 0) (some x) = (some (s + x), some 0) := by
  simp [kahanStep, add, sub]

theorem kahan_none (c : Num) (x : Num) : (kahanStep add sub (none, c) x).1 = none := by simp [kahanStep, add]

theorem fold_some (xs : List ℝ) (s : ℝ) : (xs.map some).foldl (kahanStep add sub) (some s, some 0) = (some (s + xs.sum), some 0) := by
  induction xs generalizing s with
  | nil => simp
  | cons x xs ih => rw [List.map_cons, List.foldl_cons, kahan_some, ih, List.sum_cons, add_assoc]

theorem fold_none (l : List Num) (c : Num) : (l.foldl (kahanStep add sub) (none, c)).1 = none := by
  induction l generalizing c with
  | nil => rfl
  | cons x l ih =>
    rw [List.foldl_cons]
    have := kahan_none c x
    rcases h : kahanStep add sub (none, c) x with ⟨a, b⟩
    rw [h] at this
    dsimp only at this
    rw [this]; exact ih b

theorem sumKahan_some (xs : List ℝ) : sumKahan (xs.map some) = some xs.sum := by
  cases xs with
  | nil => simp [sumKahan, sumKahanOf]
  | cons x xs => rw [List.map_cons, sumKahan, sumKahanOf, fold_some, List.sum_cons]

theorem all_some (l : List Num) (h : none ∉ l) : ∃ xs, l = List.map some xs := by
  induction l with
  | nil => exact ⟨[], rfl⟩
  | cons x l ih =>
    obtain ⟨xs, rfl⟩ := ih fun hn => h (by simp [hn])
    cases x with
    | none => exact absurd (by simp) h
    | some x => exact ⟨x :: xs, rfl⟩

theorem sumKahan_none {l : List Num} (h : none ∈ l) : sumKahan l = none := by
  cases l with
  | nil => simp at h
  | cons x l =>
    rw [sumKahan, sumKahanOf]
    by_cases hx : x = none
    · rw [hx]; exact fold_none l _
    · have hl : none ∈ l := by rcases List.mem_cons.1 h with e | e; exacts [absurd e.symm hx, e]
      obtain ⟨a, b, rfl, ha⟩ := List.eq_append_cons_of_mem hl
      obtain ⟨x, rfl⟩ := Option.ne_none_iff_exists'.1 hx
      obtain ⟨xs, rfl⟩ := all_some a ha
      rw [List.foldl_append, fold_some, List.foldl_cons]
      have e : kahanStep add sub (some (x + xs.sum), some 0) none = (none, none) := rfl
      rw [e]
      exact fold_none b _

section Kahan
variable {F : Type} (add sub : F → F → F) (zero : F)

theorem maskedLoop_eq (l : List (F × Bool)) (s : F × F) :
    maskedLoop add sub l s = (((l.filter fun p => !p.2).map (·.1)).foldl (kahanStep add sub) s).1 := by
  induction l generalizing s with
  | nil => rfl
  | cons a l ih =>
    obtain ⟨x, m⟩ := a
    cases m <;> simp [maskedLoop, ih]

theorem sumKahanMask_eq {input : List F} {mask : List Bool} (h : mask.length = input.length) :
    sumKahanMask add sub zero input mask = .ok (sumKahanOf add sub zero (unmasked input (some mask))) := by
  unfold sumKahanMask
  by_cases h0 : input.length = 0
  · rw [if_pos h0]
    have := List.eq_nil_of_length_eq_zero h0
    subst this
    rfl
  · rw [if_neg h0, if_neg (by simpa using h)]
    dsimp only [unmasked]
    generalize input.zip mask = l
    clear h h0
    induction l with
    | nil => rfl
    | cons a l ih =>
      obtain ⟨x, m⟩ := a
      cases m with
      | true => simpa using ih
      | false => simp [maskedLoop_eq, sumKahanOf]

theorem sumOptOf_eq {input : List F} {mask : Option (List Bool)} (h : ∀ m ∈ mask, m.length = input.length) :
    sumOptOf add sub zero input mask = .ok (sumKahanOf add sub zero (unmasked input mask)) := by
  cases mask with
  | none => rfl
  | some mask => exact sumKahanMask_eq add sub zero (h mask rfl)

end Kahan

theorem sumOpt_eq {input : List Num} {mask : Option (List Bool)} (h : ∀ m ∈ mask, m.length = input.length) :
    sumOpt input mask = .ok (sumKahan (unmasked input mask)) := sumOptOf_eq add sub (some 0) h

/-- C129: the sums are those of the elements that are not masked, and the masked ones have no influence even if they are NaN; it is a NaN if one of the
elements that are not masked is a NaN. -/
theorem C129_sum (input : List Num) (mask : Option (List Bool)) (h : ∀ m ∈ mask, m.length = input.length) :
    (∀ xs : List ℝ, unmasked input mask = xs.map some → sumOpt input mask = .ok (some xs.sum)) ∧
    (none ∈ unmasked input mask → sumOpt input mask = .ok none) := by
  rw [sumOpt_eq h]
  exact ⟨fun xs e => by rw [e, sumKahan_some], fun hn => by rw [sumKahan_none hn]⟩

theorem unmasked_map {α β : Type} (f : α → β) (input : List α) (mask : Option (List Bool)) :
    unmasked (input.map f) mask = (unmasked input mask).map f := by
  cases mask with
  | none => rfl
  | some mask =>
    simp only [unmasked, List.zip_map_left, List.filter_map, List.map_map]
    rfl

theorem unmasked_length {α : Type} {input : List α} {mask : List Bool} (h : mask.length = input.length) :
    (unmasked input (some mask)).length = input.length - mask.count true := by
  induction input generalizing mask with
  | nil => simp [unmasked]
  | cons x input ih =>
    cases mask with
    | nil => simp at h
    | cons m mask =>
      simp only [List.length_cons, Nat.add_right_cancel_iff] at h
      have := ih h
      have hc : mask.count true ≤ mask.length := List.count_le_length
      cases m with
      | true => simpa [unmasked] using this
      | false =>
        simp only [unmasked, List.length_map] at this
        simp [unmasked]
        omega

theorem sum_sq_nonneg (xs : List ℝ) (m : ℝ) : 0 ≤ (xs.map fun x => (x - m) ^ 2).sum :=
  List.sum_nonneg (by simp only [List.mem_map]; rintro _ ⟨x, _, rfl⟩; positivity)

theorem sum_sq_zero (xs : List ℝ) (m : ℝ) : (xs.map fun x => (x - m) ^ 2).sum = 0 ↔ ∀ x ∈ xs, x = m := by
  induction xs with
  | nil => simp
  | cons x xs ih =>
    rw [List.map_cons, List.sum_cons, List.forall_mem_cons, ← ih]
    have h1 := sum_sq_nonneg xs m
    have h2 := sq_nonneg (x - m)
    constructor
    · intro h
      have h3 : (x - m) ^ 2 = 0 := by linarith
      exact ⟨sub_eq_zero.1 (pow_eq_zero_iff (by norm_num) |>.1 h3), by linarith⟩
    · rintro ⟨rfl, h⟩
      rw [h]; ring

/-- C129: the moments of the elements that are not masked: the mean, the mean deviation, the unbiased variance, the standard deviation, the skewness
and the excess kurtosis, where the powers of the standard deviation are those of the unbiased one.  They are NaN if there are not enough elements, or if all
the elements are equal for the two last ones. -/
theorem C129_moment (input : List Num) (mask : Option (List Bool)) (h : ∀ m ∈ mask, m.length = input.length) (xs : List ℝ)
    (hx : unmasked input mask = xs.map some) :
    ∃ r, moment input mask = .ok r ∧
      (xs = [] → r.mean = none ∧ r.meandev = none) ∧
      (xs ≠ [] → r.mean = some (average xs) ∧ r.meandev = some (average (xs.map fun x => |x - average xs|))) ∧
      (xs.length ≤ 1 → r.variance = none ∧ r.stddev = none ∧ r.skewness = none ∧ r.kurtosis = none) ∧
      (2 ≤ xs.length → ∃ s : ℝ, 0 ≤ s ∧ s ^ 2 * (xs.length - 1) = central 2 xs * xs.length ∧ r.variance = some (s ^ 2) ∧ r.stddev = some s ∧
        (s = 0 ↔ ∀ x ∈ xs, ∀ y ∈ xs, x = y) ∧
        (s = 0 → r.skewness = none ∧ r.kurtosis = none) ∧
        (s ≠ 0 → r.skewness = some (central 3 xs / s ^ 3) ∧ r.kurtosis = some (central 4 xs / s ^ 4 - 3))) := by
  have hn : countSamples input mask = .ok xs.length := by
    cases mask with
    | none =>
      have := congrArg List.length hx
      simp only [unmasked, List.length_map] at this
      simp [countSamples, this]
    | some mask =>
      have hl := h mask rfl
      have := congrArg List.length hx
      rw [unmasked_length hl, List.length_map] at this
      rw [countSamples, if_neg (by simpa using hl), this]
  have hs : ∀ (f : Num → Num) (g : ℝ → ℝ), (∀ x, f (some x) = some (g x)) → sumOpt (input.map f) mask = .ok (some (xs.map g).sum) := by
    intro f g hf
    rw [sumOpt_eq (by intro m hm; rw [List.length_map]; exact h m hm), unmasked_map, hx, List.map_map, ← sumKahan_some, List.map_map]
    congr 3
    funext x
    exact hf x
  have h1 : sumOpt input mask = .ok (some xs.sum) := (C129_sum input mask h).1 xs hx
  unfold moment
  rw [hn]
  simp only [bind, Except.bind]
  by_cases h0 : xs = []
  · subst h0
    simp [meanOf, varOf, shapeOf, pure, Except.pure]
  have hl : xs.length ≠ 0 := by simpa using h0
  have e1 : meanOf input mask xs.length = .ok (some (average xs)) := by
    rw [meanOf, if_neg hl, h1]; rfl
  have e2 : meanOf ((input.map fun x => sub x (some (average xs))).map fun r => r.map fun r => |r|) mask xs.length =
      .ok (some (average (xs.map fun x => |x - average xs|))) := by
    rw [meanOf, if_neg hl, List.map_map, hs _ (fun x => |x - average xs|) (fun x => rfl)]
    simp [average, Except.map]
  have e3 : ∀ k : Nat, sumOpt ((input.map fun x => sub x (some (average xs))).map fun r => r.map (· ^ k)) mask =
      .ok (some (xs.map fun x => (x - average xs) ^ k).sum) := by
    intro k
    rw [List.map_map, hs _ (fun x => (x - average xs) ^ k) (fun x => rfl)]
  have e4 : ∀ k : Nat, (xs.map fun x => (x - average xs) ^ k).sum = central k xs * xs.length := by
    intro k
    have : (xs.length : ℝ) ≠ 0 := by exact_mod_cast hl
    rw [central]
    conv_rhs => rw [average, List.length_map, div_mul_cancel₀ _ this]
  rw [e1]
  dsimp only
  rw [e2]
  dsimp only
  by_cases h2 : xs.length ≤ 1
  · have e5 : varOf (input.map fun x => sub x (some (average xs))) mask xs.length = .ok none := by rw [varOf, if_pos h2]
    have e6 : ∀ k, shapeOf k (input.map fun x => sub x (some (average xs))) mask xs.length none = .ok none := by
      intro k
      rw [shapeOf, if_neg (by simp [h0]), e3]
      rfl
    rw [e5]
    dsimp only [Option.map_none]
    rw [e6, e6]
    exact ⟨_, rfl, fun e => absurd e h0, fun _ => ⟨rfl, rfl⟩, fun _ => ⟨rfl, rfl, rfl, rfl⟩, fun h3 => absurd h2 (by omega)⟩
  · have hv : varOf (input.map fun x => sub x (some (average xs))) mask xs.length = .ok (some (central 2 xs * xs.length / (xs.length - 1))) := by
      rw [varOf, if_neg h2, e3, e4]; rfl
    rw [hv]
    dsimp only [Option.map_some]
    have hpos : (0 : ℝ) < xs.length - 1 := by
      have : (2 : ℝ) ≤ xs.length := by exact_mod_cast (by omega : 2 ≤ xs.length)
      linarith
    have hnn : 0 ≤ central 2 xs * xs.length / (xs.length - 1) := by
      rw [← e4]; exact div_nonneg (sum_sq_nonneg _ _) hpos.le
    have hsq := Real.sq_sqrt hnn
    have hs0 := Real.sqrt_nonneg (central 2 xs * xs.length / (xs.length - 1))
    set s := Real.sqrt (central 2 xs * xs.length / (xs.length - 1)) with hsdef
    have hz : s = 0 ↔ ∀ x ∈ xs, ∀ y ∈ xs, x = y := by
      have h3 : s = 0 ↔ ∀ x ∈ xs, x = average xs := by
        rw [← sum_sq_zero, e4, hsdef, Real.sqrt_eq_zero hnn, div_eq_zero_iff]
        constructor
        · rintro (e | e); exacts [e, absurd e hpos.ne']
        · exact Or.inl
      rw [h3]
      constructor
      · intro h4 x hx' y hy; rw [h4 x hx', h4 y hy]
      · intro h4 x hx'
        have : xs = List.replicate xs.length x := List.eq_replicate_iff.2 ⟨rfl, fun y hy => h4 y hy x hx'⟩
        have hne : (xs.length : ℝ) ≠ 0 := by exact_mod_cast hl
        rw [average, eq_div_iff hne]
        conv_rhs => rw [this]
        rw [List.sum_replicate, nsmul_eq_mul, mul_comm]
    by_cases h3 : s = 0
    · have e6 : ∀ k, shapeOf k (input.map fun x => sub x (some (average xs))) mask xs.length (some s) = .ok none := by
        intro k
        rw [shapeOf, if_pos (.inr (by rw [h3]))]
      rw [e6, e6]
      refine ⟨_, rfl, fun e => absurd e h0, fun _ => ⟨rfl, rfl⟩, fun h4 => absurd h4 h2, fun _ => ⟨s, hs0, ?_, ?_, rfl, hz, fun _ => ⟨rfl, rfl⟩, fun h4 => absurd h3 h4⟩⟩
      · rw [hsq, div_mul_cancel₀ _ hpos.ne']
      · rw [hsq]
    · have e6 : ∀ k, shapeOf k (input.map fun x => sub x (some (average xs))) mask xs.length (some s) = .ok (some (central k xs / s ^ k)) := by
        intro k
        have hne : (xs.length : ℝ) ≠ 0 := by exact_mod_cast hl
        rw [shapeOf, if_neg (by simp [h0, h3]), e3, e4]
        simp only [Except.map, Option.map₂_some_some]
        congr 2
        field_simp
      rw [e6, e6]
      refine ⟨_, rfl, fun e => absurd e h0, fun _ => ⟨rfl, rfl⟩, fun h4 => absurd h4 h2, fun _ => ⟨s, hs0, ?_, ?_, rfl, hz, fun h4 => absurd h4 h3, fun _ => ⟨rfl, rfl⟩⟩⟩
      · rw [hsq, div_mul_cancel₀ _ hpos.ne']
      · rw [hsq]

/-- C129: a mask of another size is an error. -/
theorem C129_mask {input : List Num} {mask : List Bool} (h : mask.length ≠ input.length) : moment input (some mask) = .error .valueError := by
  have : countSamples input (some mask) = .error .valueError := by
    unfold countSamples
    dsimp only
    rw [if_pos h]
  unfold moment
  rw [this]
  rfl

theorem sumKahan_map {α : Type} (f : α → ℝ) (l : List α) : sumKahan (l.map fun x => some (f x)) = some (l.map f).sum := by
  rw [← sumKahan_some, List.map_map]
  rfl

/-- C129: the norms are the sums of the absolute values, of the squares, of the powers and of the losses of Huber, which are squares up to the threshold and
affine and of the same slope after it. -/
theorem C129_norms (xs : List ℝ) (delta lp : ℝ) :
    normL1 xs = some (xs.map fun x => |x|).sum ∧ norm2 xs = some (xs.map fun x => x ^ 2).sum ∧ normp xs lp = some (xs.map fun x => |x| ^ lp).sum ∧
    (0 ≤ delta → normHuber xs delta = some (xs.map fun x => if |x| ≤ delta then x ^ 2 else delta ^ 2 + 2 * delta * (|x| - delta)).sum) := by
  refine ⟨sumKahan_map _ xs, ?_, sumKahan_map _ xs, ?_⟩
  · rw [norm2, sumKahan_map]
    congr 3
    funext x; ring
  · intro hd
    unfold normHuber
    dsimp only
    rw [sumKahan_map]
    congr 3
    funext x
    by_cases h1 : |x| < delta
    · rw [if_pos h1, if_pos h1.le]
    · rw [if_neg h1]
      by_cases h2 : |x| = delta
      · rw [if_pos h2.le, ← sq_abs x, h2]; ring
      · rw [if_neg fun h3 => h2 (le_antisymm h3 (not_lt.1 h1))]; ring

/-- C129: the scalar product, whose first argument gives the size. -/
theorem C129_dot (xs ys : List ℝ) (h : xs.length = ys.length) : dot xs ys = .ok (some (List.zipWith (· * ·) xs ys).sum) := by
  rw [dot, if_pos h.le, sumKahan_map]
  congr 3
  rw [List.map_zip_eq_zipWith]
  rfl

/-- C129: the sum of an array of two or three dimensions is the sum of its elements. -/
theorem C129_planes (planes : List (List (List ℝ))) :
    (∀ columns ∈ planes, sumKahan2 (columns.map (·.map some)) = some columns.flatten.sum) ∧
    sumKahan3 (planes.map (·.map (·.map some))) = some planes.flatten.flatten.sum := by
  have h2 : ∀ columns : List (List ℝ), sumKahan2 (columns.map (·.map some)) = some columns.flatten.sum := by
    intro columns
    unfold sumKahan2
    split_ifs with h
    · have : columns.flatten = [] := by
        apply List.eq_nil_of_length_eq_zero
        rw [List.length_flatten, ← h, List.map_map]
        congr 2
        funext l; simp
      rw [this]; rfl
    · rw [List.map_map, show (sumKahan ∘ fun x : List ℝ => x.map some) = fun l => some l.sum from funext sumKahan_some, sumKahan_map, List.sum_flatten]
  refine ⟨fun columns _ => h2 columns, ?_⟩
  unfold sumKahan3
  split_ifs with h
  · have : planes.flatten.flatten = [] := by
      apply List.eq_nil_of_length_eq_zero
      rw [List.length_flatten, List.map_flatten, List.sum_flatten, ← h, List.map_map, List.map_map]
      congr 2
      funext q
      simp only [Function.comp_apply, List.map_map]
      congr 2
      funext l; simp
    rw [this]; rfl
  · rw [List.map_map, show (sumKahan2 ∘ fun x : List (List ℝ) => x.map (·.map some)) = fun q => some q.flatten.sum from funext h2, sumKahan_map]
    rw [List.sum_flatten, List.map_flatten, List.sum_flatten, List.map_map]
    congr 3
    funext q
    simp [List.sum_flatten]

/-- The hypotheses of `C129_moment` are met: the NaN is masked. -/
example : ∃ r, moment [some 1, none, some 3] (some [false, true, false]) = .ok r ∧ r.mean = some 2 ∧ r.variance = some 2 := by
  obtain ⟨r, hr, -, h1, -, h2⟩ := C129_moment [some 1, none, some 3] (some [false, true, false]) (by simp) [1, 3] (by simp [unmasked])
  obtain ⟨s, -, hs, hv, -⟩ := h2 (by simp)
  refine ⟨r, hr, ?_, ?_⟩
  · rw [(h1 (by simp)).1]; norm_num [average]
  · rw [hv]
    norm_num [central, average] at hs ⊢
    linarith

/-- The hypotheses of `C129_sum` are met. -/
example : sumOpt [none, some 2, some 5] (some [true, false, false]) = .ok (some 7) := by
  have := (C129_sum [none, some 2, some 5] (some [true, false, false]) (by simp)).1 [2, 5] (by simp [unmasked])
  rw [this]; norm_num

/-- The hypotheses of `C129_norms`, `C129_dot`, `C129_planes` and `C129_mask` are met. -/
example : normHuber [1, -5] 2 = some 17 ∧ dot [1, 2] [3, 4] = .ok (some 11) := by
  rw [(C129_norms [1, -5] 2 1).2.2.2 (by norm_num), C129_dot [1, 2] [3, 4] rfl]
  norm_num

end Verif.Stat
