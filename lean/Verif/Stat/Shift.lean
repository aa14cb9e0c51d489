/-
The shift of the columns of an array: /repo/src/flib/module_math_old.f90 807-876.
-/
import Verif.Stat.Median

namespace Verif.Stat
open Verif.Py

variable {F : Type}

/-! ### The model

A column is a function of its index, from 1 to M.  The caller may give the same array as input and as output: it is the argument `inPlace`, and then the input is
read in the array that is being written.  In `shift_medium`, the elements of the columns are vectors. -/

/-- The input, which is the array that is being written if it is the same. -/
def source (inPlace : Bool) (input output : Int → F) : Int → F := if inPlace then output else input

/-- The loop `do i = m, d+1, -1` (module_math_old.f90 824-826, 861-863), with its number of iterations. -/
def fillDown (inPlace : Bool) (input : Int → F) (m d : Int) : Nat → Int → (Int → F) → Res (Int → F)
  | 0, _, out => .ok out
  | k + 1, i, out => do
    let x ← geti m (fun j => source inPlace input out (j + 1)) (i - d - 1)
    let out ← (if 1 ≤ i ∧ i ≤ m then .ok (fun j => if j = i then x else out j) else .error .outOfBounds)
    fillDown inPlace input m d k (i - 1) out

/-- The loop `do i = 1, m+d` (module_math_old.f90 829-831, 866-868). -/
def fillUp (inPlace : Bool) (input : Int → F) (m d : Int) : Nat → Int → (Int → F) → Res (Int → F)
  | 0, _, out => .ok out
  | k + 1, i, out => do
    let x ← geti m (fun j => source inPlace input out (j + 1)) (i - d - 1)
    let out ← (if 1 ≤ i ∧ i ≤ m then .ok (fun j => if j = i then x else out j) else .error .outOfBounds)
    fillUp inPlace input m d k (i + 1) out

/-- The zeros of an array section (module_math_old.f90 827, 832, 864, 869), which are in the bounds of the array. -/
def zeros [Zero F] (m lo hi : Int) (out : Int → F) : Res (Int → F) :=
  if hi < lo then .ok out
  else if 1 ≤ lo ∧ hi ≤ m then .ok (fun j => if lo ≤ j ∧ j ≤ hi then 0 else out j)
  else .error .outOfBounds

/-- A column (module_math_old.f90 819-833, 856-870). -/
def shiftColumn [Zero F] (inPlace : Bool) (input : Int → F) (m d : Int) (out : Int → F) : Res (Int → F) :=
  if d = 0 then .ok (fun j => if 1 ≤ j ∧ j ≤ m then source inPlace input out j else out j)
  else if 0 < d then do
    let out ← fillDown inPlace input m d (m - d).toNat m out
    zeros m 1 (min d m) out
  else do
    let out ← fillUp inPlace input m d (m + d).toNat 1 out
    zeros m (max (m + d + 1) 1) m out

/-- The offset of a column (module_math_old.f90 818, 855). -/
def offsetOf (offset : List Int) (n j : Int) : Res Int :=
  if (offset.length : Int) = 0 then .error .zeroDivisionError
  else if n.tdiv offset.length = 0 then .error .zeroDivisionError
  else geti offset.length (ofList 0 offset) ((j - 1).tdiv (n.tdiv offset.length))

/-- `shift_fast` and `shift_medium` (module_math_old.f90 807-838, 844-875): the columns of the output, which are not read or written by the other ones. -/
def shift [Zero F] (inPlace : Bool) (m : Int) (offset : List Int) (input output : List (Int → F)) : Res (List (Int → F)) :=
  (List.range output.length).mapM fun (j : Nat) => do
    let d ← offsetOf offset output.length (j + 1)
    let o ← geti output.length (ofList (fun _ => (0 : F)) output) j
    let i ← (if inPlace then .ok o else geti input.length (ofList (fun _ => (0 : F)) input) j)
    shiftColumn inPlace i m d o

/-! ### The properties -/

theorem fillDown_ok (inPlace : Bool) (input : Int → F) (m d : Int) (hd : 0 < d) (out0 : Int → F) (h0 : inPlace = true → out0 = input) :
    ∀ (k : Nat) (i : Int) (out : Int → F), (k : Int) = i - d → i ≤ m → (∀ j, j ≤ i → out j = out0 j) → (∀ j, i < j → j ≤ m → out j = input (j - d)) →
    (∀ j, m < j → out j = out0 j) →
    ∃ r, fillDown inPlace input m d k i out = .ok r ∧ (∀ j, d < j → j ≤ m → r j = input (j - d)) ∧ (∀ j, ¬ (1 ≤ j ∧ j ≤ m) → r j = out0 j) := by
  intro k
  induction k with
  | zero =>
    intro i out hk hi h1 h2 h3
    refine ⟨out, rfl, fun j hj1 hj2 => h2 j (by omega) hj2, fun j hj => ?_⟩
    by_cases h : j ≤ i
    · exact h1 j h
    · exact h3 j (by omega)
  | succ k ih =>
    intro i out hk hi h1 h2 h3
    unfold fillDown geti
    rw [if_pos (by omega)]
    dsimp only [bind, Except.bind]
    rw [if_pos (by omega)]
    have hx : source inPlace input out (i - d - 1 + 1) = input (i - d) := by
      rw [show i - d - 1 + 1 = i - d by omega]
      unfold source
      cases inPlace with
      | false => rfl
      | true =>
        rw [if_pos rfl, h1 _ (by omega), h0 rfl]
    refine ih (i - 1) _ (by omega) (by omega) (fun j hj => ?_) (fun j hj1 hj2 => ?_) (fun j hj => ?_)
    · rw [if_neg (by omega)]; exact h1 j (by omega)
    · by_cases hji : j = i
      · rw [if_pos hji, hx, hji]
      · rw [if_neg hji]; exact h2 j (by omega) hj2
    · rw [if_neg (by omega)]; exact h3 j hj

theorem fillUp_ok (inPlace : Bool) (input : Int → F) (m d : Int) (hd : d < 0) (out0 : Int → F) (h0 : inPlace = true → out0 = input) :
    ∀ (k : Nat) (i : Int) (out : Int → F), (k : Int) = m + d + 1 - i → 1 ≤ i → (∀ j, i ≤ j → out j = out0 j) → (∀ j, 1 ≤ j → j < i → out j = input (j - d)) →
    (∀ j, j < 1 → out j = out0 j) →
    ∃ r, fillUp inPlace input m d k i out = .ok r ∧ (∀ j, 1 ≤ j → j ≤ m + d → r j = input (j - d)) ∧ (∀ j, ¬ (1 ≤ j ∧ j ≤ m) → r j = out0 j) := by
  intro k
  induction k with
  | zero =>
    intro i out hk hi h1 h2 h3
    refine ⟨out, rfl, fun j hj1 hj2 => h2 j hj1 (by omega), fun j hj => ?_⟩
    by_cases h : j < 1
    · exact h3 j h
    · exact h1 j (by omega)
  | succ k ih =>
    intro i out hk hi h1 h2 h3
    unfold fillUp geti
    rw [if_pos (by omega)]
    dsimp only [bind, Except.bind]
    rw [if_pos (by omega)]
    have hx : source inPlace input out (i - d - 1 + 1) = input (i - d) := by
      rw [show i - d - 1 + 1 = i - d by omega]
      unfold source
      cases inPlace with
      | false => rfl
      | true =>
        rw [if_pos rfl, h1 _ (by omega), h0 rfl]
    refine ih (i + 1) _ (by omega) (by omega) (fun j hj => ?_) (fun j hj1 hj2 => ?_) (fun j hj => ?_)
    · rw [if_neg (by omega)]; exact h1 j (by omega)
    · by_cases hji : j = i
      · rw [if_pos hji, hx, hji]
      · rw [if_neg hji]; exact h2 j hj1 (by omega)
    · rw [if_neg (by omega)]; exact h3 j hj

/-- C133: a column is shifted, zeros are put in the elements that come from outside, whatever the shift and even in place. -/
theorem C133_column [Zero F] (inPlace : Bool) (input : Int → F) (m d : Int) (hm : 0 ≤ m) (out : Int → F) (h0 : inPlace = true → out = input) :
    ∃ r, shiftColumn inPlace input m d out = .ok r ∧
      (∀ i, 1 ≤ i → i ≤ m → (1 ≤ i - d → i - d ≤ m → r i = input (i - d)) ∧ (¬ (1 ≤ i - d ∧ i - d ≤ m) → r i = 0)) ∧ ∀ i, ¬ (1 ≤ i ∧ i ≤ m) → r i = out i := by
  unfold shiftColumn
  by_cases hz : d = 0
  · rw [if_pos hz]
    refine ⟨_, rfl, fun i h1 h2 => ⟨fun h3 h4 => ?_, fun h3 => absurd ⟨by omega, by omega⟩ h3⟩, fun i hi => if_neg hi⟩
    rw [if_pos ⟨h1, h2⟩, hz, sub_zero]
    unfold source
    cases inPlace with
    | false => rfl
    | true => rw [if_pos rfl, h0 rfl]
  rw [if_neg hz]
  by_cases hp : 0 < d
  · rw [if_pos hp]
    have hfill : ∃ r, fillDown inPlace input m d (m - d).toNat m out = .ok r ∧ (∀ j, d < j → j ≤ m → r j = input (j - d)) ∧ (∀ j, ¬ (1 ≤ j ∧ j ≤ m) → r j = out j) := by
      by_cases hdm : d ≤ m
      · exact fillDown_ok inPlace input m d hp out h0 (m - d).toNat m out (by omega) le_rfl (fun _ _ => rfl) (fun j h1 h2 => by omega) (fun _ _ => rfl)
      · rw [show (m - d).toNat = 0 by omega]
        exact ⟨out, rfl, fun j h1 h2 => by omega, fun _ _ => rfl⟩
    obtain ⟨r, e, h1, h2⟩ := hfill
    rw [e]
    dsimp only [bind, Except.bind]
    unfold zeros
    by_cases hlt : min d m < 1
    · rw [if_pos hlt]
      refine ⟨r, rfl, fun i h3 h4 => by omega, h2⟩
    · rw [if_neg hlt, if_pos (by omega)]
      refine ⟨_, rfl, fun i h3 h4 => ⟨fun h5 h6 => ?_, fun h5 => ?_⟩, fun i hi => ?_⟩
      · rw [if_neg (by omega)]; exact h1 i (by omega) h4
      · rw [if_pos (by omega)]
      · rw [if_neg (by omega)]; exact h2 i hi
  · rw [if_neg hp]
    have hfill : ∃ r, fillUp inPlace input m d (m + d).toNat 1 out = .ok r ∧ (∀ j, 1 ≤ j → j ≤ m + d → r j = input (j - d)) ∧ (∀ j, ¬ (1 ≤ j ∧ j ≤ m) → r j = out j) := by
      by_cases hdm : 0 ≤ m + d
      · exact fillUp_ok inPlace input m d (by omega) out h0 (m + d).toNat 1 out (by omega) le_rfl (fun _ _ => rfl) (fun j h1 h2 => by omega) (fun _ _ => rfl)
      · rw [show (m + d).toNat = 0 by omega]
        exact ⟨out, rfl, fun j h1 h2 => by omega, fun _ _ => rfl⟩
    obtain ⟨r, e, h1, h2⟩ := hfill
    rw [e]
    dsimp only [bind, Except.bind]
    unfold zeros
    by_cases hlt : m < max (m + d + 1) 1
    · rw [if_pos hlt]
      refine ⟨r, rfl, fun i h3 h4 => by omega, h2⟩
    · rw [if_neg hlt, if_pos (by omega)]
      refine ⟨_, rfl, fun i h3 h4 => ⟨fun h5 h6 => ?_, fun h5 => ?_⟩, fun i hi => ?_⟩
      · rw [if_neg (by omega)]; exact h1 i h3 (by omega)
      · rw [if_pos (by omega)]
      · rw [if_neg (by omega)]; exact h2 i hi

theorem mapM_range {β : Type} (f : Nat → Res β) (n : Nat) (g : Nat → β) (h : ∀ j, j < n → f j = .ok (g j)) : (List.range n).mapM f = .ok ((List.range n).map g) := by
  have : ∀ l : List Nat, (∀ j ∈ l, f j = .ok (g j)) → l.mapM f = .ok (l.map g) := by
    intro l
    induction l with
    | nil => intro _; rfl
    | cons x l ih =>
      intro hl
      rw [List.mapM_cons, hl x (by simp), ih fun j hj => hl j (by simp [hj])]
      rfl
  exact this _ fun j hj => h j (List.mem_range.1 hj)

/-- C133: if the offsets are those of blocks of the same number of columns, each column is shifted by the offset of its block. -/
theorem C133_shift_partial [Zero F] (inPlace : Bool) (m : Int) (hm : 0 ≤ m) (offset : List Int) (input output : List (Int → F)) (hlen : input.length = output.length)
    (ha : inPlace = true → output = input) (b : Nat) (hb : 0 < b) (hn : output.length = offset.length * b) (ho : offset ≠ []) :
    ∃ r, shift inPlace m offset input output = .ok r ∧ r.length = output.length ∧
      ∀ (k c : Nat) (hk : k < offset.length) (_hc : c < b) (i : Int), 1 ≤ i → i ≤ m →
        ∃ (h1 : k * b + c < r.length) (h2 : k * b + c < input.length),
          (1 ≤ i - offset[k] → i - offset[k] ≤ m → r[k * b + c] i = input[k * b + c] (i - offset[k])) ∧ (¬ (1 ≤ i - offset[k] ∧ i - offset[k] ≤ m) → r[k * b + c] i = 0) := by
  have hs : 0 < offset.length := List.length_pos_iff.2 ho
  have hdiv : (output.length : Int).tdiv offset.length = b := by
    rw [hn, Int.tdiv_eq_ediv_of_nonneg (by positivity)]
    push_cast
    exact Int.mul_ediv_cancel_left _ (by omega)
  have hoff : ∀ j : Nat, j < output.length → offsetOf offset output.length ((j : Int) + 1) = .ok (offset.getD (j / b) 0) := by
    intro j hj
    unfold offsetOf
    rw [if_neg (by omega), hdiv, if_neg (by omega), show (j : Int) + 1 - 1 = (j : Int) by omega, Int.tdiv_eq_ediv_of_nonneg (by omega)]
    unfold geti ofList
    have : j / b < offset.length := Nat.div_lt_of_lt_mul (by rw [Nat.mul_comm]; omega)
    have e : ((j : Int) / (b : Int)) = ((j / b : Nat) : Int) := by push_cast; rfl
    rw [e, if_pos ⟨by positivity, by exact_mod_cast this⟩]
    rfl
  have hcol : ∀ j : Nat, j < output.length → ∃ r, (do
      let d ← offsetOf offset output.length ((j : Int) + 1)
      let o ← geti output.length (ofList (fun _ => (0 : F)) output) j
      let i ← (if inPlace then .ok o else geti input.length (ofList (fun _ => (0 : F)) input) j)
      shiftColumn inPlace i m d o) = .ok r ∧ ∀ (h : j < input.length) (i : Int), 1 ≤ i → i ≤ m →
        (1 ≤ i - offset.getD (j / b) 0 → i - offset.getD (j / b) 0 ≤ m → r i = input[j] (i - offset.getD (j / b) 0)) ∧
        (¬ (1 ≤ i - offset.getD (j / b) 0 ∧ i - offset.getD (j / b) 0 ≤ m) → r i = 0) := by
    intro j hj
    rw [hoff j hj]
    dsimp only [bind, Except.bind]
    unfold geti ofList
    rw [if_pos (show 0 ≤ (j : Int) ∧ (j : Int) < output.length by omega), if_pos (show 0 ≤ (j : Int) ∧ (j : Int) < input.length by omega), Int.toNat_natCast,
      List.getD_eq_getElem?_getD (l := output), List.getElem?_eq_getElem hj, List.getD_eq_getElem?_getD (l := input), List.getElem?_eq_getElem (show j < input.length by omega)]
    dsimp only [Option.getD_some]
    have hin : (if inPlace = true then (Except.ok output[j] : Res (Int → F)) else .ok (input[j]'(by omega))) = .ok (input[j]'(by omega)) := by
      cases inPlace with
      | false => rfl
      | true => rw [if_pos rfl]; simp [ha rfl]
    rw [hin]
    obtain ⟨r, e, h1, -⟩ := C133_column inPlace (input[j]'(by omega)) m (offset.getD (j / b) 0) hm output[j] (fun h => by simp [ha h])
    exact ⟨r, e, fun _ i h2 h3 => h1 i h2 h3⟩
  have : Nonempty (Int → F) := ⟨fun _ => 0⟩
  choose! g hg using hcol
  refine ⟨(List.range output.length).map g, ?_, by simp, fun k c hk hc i hi1 hi2 => ?_⟩
  · unfold shift
    exact mapM_range _ _ g fun j hj => (hg j hj).1
  · have hlt : k * b + c < output.length := by
      rw [hn]
      calc k * b + c < k * b + b := by omega
        _ = (k + 1) * b := by ring
        _ ≤ offset.length * b := Nat.mul_le_mul_right b hk
    refine ⟨by simpa using hlt, by omega, ?_⟩
    have hq : offset.getD ((k * b + c) / b) 0 = offset[k] := by
      rw [Nat.add_comm, Nat.add_mul_div_right _ _ hb, Nat.div_eq_of_lt hc, Nat.zero_add, List.getD_eq_getElem?_getD, List.getElem?_eq_getElem hk]
      rfl
    have := (hg _ hlt).2 (by omega) i hi1 hi2
    rw [hq] at this
    rw [List.getElem_map, List.getElem_range]
    exact this

/-- C133: an offset is read out of the bounds of the array if the number of columns is not a multiple of the number of offsets, and there is a division by zero if
there are more offsets than columns. -/
theorem C133_violation_offsets :
    shift (F := Int) false 1 [0, 0] (List.replicate 5 fun _ => 0) (List.replicate 5 fun _ => 0) = .error .outOfBounds ∧
    shift (F := Int) false 1 [0, 0] [fun _ => 0] [fun _ => 0] = .error .zeroDivisionError := ⟨rfl, rfl⟩

/-- The hypotheses of `C133_shift_partial` are met: the first column is shifted forwards and the other one backwards, in place. -/
example : ∃ r, shift (F := Int) true 3 [1, -1] [fun i => i, fun i => i] [fun i => i, fun i => i] = .ok r ∧ r.map (fun f => [f 1, f 2, f 3]) = [[0, 1, 2], [2, 3, 0]] := ⟨_, rfl, rfl⟩

example := C133_shift_partial (F := Int) true 3 (by omega) [1, -1] [fun i => i, fun i => i] [fun i => i, fun i => i] rfl (fun _ => rfl) 1 (by omega) rfl (by simp)

end Verif.Stat
