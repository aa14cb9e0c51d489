import Verif.Signal.Lemmas
import Mathlib.Algebra.BigOperators.Group.Finset.Basic

/-!
C57: the truncated exponential convolution and its transpose; C85: rows of strided arrays.
-/
set_option linter.unusedSectionVars false
namespace Verif.Signal
open Verif.Py

/-- The scalar product of two signals. -/
def dot : List ℝ → List ℝ → ℝ
  | x :: xs, y :: ys => x * y + dot xs ys
  | _, _ => 0

/-! ### The loops as recursive functions -/

/-- The outputs that follow the output `prev`. -/
def fwd (w v prev : ℝ) : List ℝ → List ℝ
  | [] => []
  | x :: xs => (w * prev + v * x) :: fwd w v (w * prev + v * x) xs

/-- The backward loop: the outputs of `l` followed by the outputs `T`. -/
def bwd (w v : ℝ) (l T : List ℝ) : List ℝ := l.foldr (fun a acc => (w * acc.headD 0 + v * a) :: acc) T

theorem fwd_length (w v prev : ℝ) (l : List ℝ) : (fwd w v prev l).length = l.length := by
  induction l generalizing prev with
  | nil => rfl
  | cons x xs ih => simp [fwd, ih]

theorem bwd_length (w v : ℝ) (l T : List ℝ) : (bwd w v l T).length = l.length + T.length := by
  induction l with
  | nil => simp [bwd]
  | cons x xs ih =>
    have : bwd w v (x :: xs) T = (w * (bwd w v xs T).headD 0 + v * x) :: bwd w v xs T := rfl
    rw [this, List.length_cons, ih, List.length_cons]
    omega

theorem at'_append_right (A B : List ℝ) (i : Nat) : at' (A ++ B) (A.length + i) = at' B i := by
  simp [at', List.getElem?_append_right]

theorem at'_append_left (A B : List ℝ) (i : Nat) (h : i < A.length) : at' (A ++ B) i = at' A i := by
  simp [at', List.getElem?_append_left h]

theorem at'_zero (A : List ℝ) : at' A 0 = A.headD 0 := by
  cases A <;> simp [at']

theorem set_append_len {α : Type} (A : List α) (x y : α) (B : List α) : (A ++ x :: B).set A.length y = A ++ y :: B := by
  rw [List.set_append_right _ _ (le_refl _)]
  simp

theorem directInplace_loop (w v : ℝ) (xs A : List ℝ) (prev : ℝ) :
    (List.range' (A.length + 1) xs.length).foldl (fun m i => m.set i (w * at' m (i - 1) + v * at' m i)) (A ++ prev :: xs) =
      A ++ prev :: fwd w v prev xs := by
  induction xs generalizing A prev with
  | nil => simp [fwd]
  | cons x xs ih =>
    rw [List.length_cons, List.range'_succ, List.foldl_cons]
    have e1 : at' (A ++ prev :: x :: xs) (A.length + 1 - 1) = prev := by
      rw [Nat.add_sub_cancel]
      simp [at']
    have e2 : at' (A ++ prev :: x :: xs) (A.length + 1) = x := by
      rw [at'_append_right]
      simp [at']
    rw [e1, e2]
    have e3 : (A ++ prev :: x :: xs).set (A.length + 1) (w * prev + v * x) =
        (A ++ [prev]) ++ (w * prev + v * x) :: xs := by
      simp
    rw [e3]
    have := ih (A ++ [prev]) (w * prev + v * x)
    rw [List.length_append, List.length_singleton] at this
    rw [this]
    simp [fwd]

theorem directOutplace_loop (w v : ℝ) (input : List ℝ) (xs B A I : List ℝ) (prev : ℝ) (hI : input = I ++ xs)
    (hl : I.length = A.length + 1) (hB : B.length = xs.length) :
    (List.range' (A.length + 1) xs.length).foldl (fun m i => m.set i (w * at' m (i - 1) + v * at' input i)) (A ++ prev :: B) =
      A ++ prev :: fwd w v prev xs := by
  induction xs generalizing A B I prev with
  | nil =>
    have : B = [] := List.length_eq_zero_iff.1 hB
    subst this
    simp [fwd]
  | cons x xs ih =>
    obtain ⟨b, B', rfl⟩ : ∃ b B', B = b :: B' := by
      cases B with
      | nil => simp at hB
      | cons b B' => exact ⟨b, B', rfl⟩
    rw [List.length_cons, List.range'_succ, List.foldl_cons]
    have e1 : at' (A ++ prev :: b :: B') (A.length + 1 - 1) = prev := by
      rw [Nat.add_sub_cancel]
      simp [at']
    have e2 : at' input (A.length + 1) = x := by
      rw [hI, ← hl]
      simp [at']
    rw [e1, e2]
    have e3 : (A ++ prev :: b :: B').set (A.length + 1) (w * prev + v * x) =
        (A ++ [prev]) ++ (w * prev + v * x) :: B' := by
      simp
    rw [e3]
    have := ih B' (A ++ [prev]) (I ++ [x]) (w * prev + v * x) (by simp [hI]) (by simp [hl]) (by simpa using hB)
    rw [List.length_append, List.length_singleton] at this
    rw [this]
    simp [fwd]

theorem transposeInplace_loop (w v : ℝ) (A T : List ℝ) :
    (List.range A.length).reverse.foldl (fun m i => m.set i (w * at' m (i + 1) + v * at' m i)) (A ++ T) = bwd w v A T := by
  induction A using List.reverseRecOn generalizing T with
  | nil => simp [bwd]
  | append_singleton A a ih =>
    rw [List.length_append, List.length_singleton, List.range_succ, List.reverse_append, List.reverse_singleton,
      List.singleton_append, List.foldl_cons]
    have e1 : at' (A ++ [a] ++ T) (A.length + 1) = T.headD 0 := by
      have := at'_append_right (A ++ [a]) T 0
      rw [List.length_append, List.length_singleton, Nat.add_zero] at this
      rw [this, at'_zero]
    have e2 : at' (A ++ [a] ++ T) A.length = a := by
      simp [at']
    rw [e1, e2, List.append_assoc, List.singleton_append, set_append_len, ih]
    simp [bwd, List.foldr_append]

theorem transposeOutplace_loop (w v : ℝ) (input A R B T : List ℝ) (hi : input = A ++ R) (hB : B.length = A.length) :
    (List.range A.length).reverse.foldl (fun m i => m.set i (w * at' m (i + 1) + v * at' input i)) (B ++ T) = bwd w v A T := by
  induction A using List.reverseRecOn generalizing T R B with
  | nil =>
    have : B = [] := List.length_eq_zero_iff.1 hB
    subst this
    simp [bwd]
  | append_singleton A a ih =>
    obtain ⟨B', b, rfl⟩ : ∃ B' b, B = B' ++ [b] := by
      have hne : B ≠ [] := by rintro rfl; simp at hB
      exact ⟨B.dropLast, B.getLast hne, (List.dropLast_append_getLast hne).symm⟩
    have hB' : B'.length = A.length := by simpa using hB
    rw [List.length_append, List.length_singleton, List.range_succ, List.reverse_append, List.reverse_singleton,
      List.singleton_append, List.foldl_cons]
    have e1 : at' (B' ++ [b] ++ T) (A.length + 1) = T.headD 0 := by
      have := at'_append_right (B' ++ [b]) T 0
      rw [List.length_append, List.length_singleton, Nat.add_zero, hB'] at this
      rw [this, at'_zero]
    have e2 : at' input A.length = a := by
      rw [hi, List.append_assoc]
      simp [at']
    rw [e1, e2, List.append_assoc, List.singleton_append, ← hB', set_append_len, hB', ih ([a] ++ R) B' _ (by simp [hi]) hB']
    simp [bwd, List.foldr_append]

theorem directInplace_eq (tau : ℝ) (h : 0 < tau) (x : ℝ) (xs : List ℝ) :
    directInplace tau (x :: xs) = x :: fwd (trexpW tau) (1 - trexpW tau) x xs := by
  unfold directInplace
  rw [if_neg h.ne', if_neg (not_lt.2 h.le)]
  have := directInplace_loop (trexpW tau) (1 - trexpW tau) xs [] x
  simpa using this

theorem directOutplace_eq (tau : ℝ) (h : 0 < tau) (x : ℝ) (xs out : List ℝ) (ho : out.length = xs.length + 1) :
    directOutplace tau (x :: xs) out = x :: fwd (trexpW tau) (1 - trexpW tau) x xs := by
  obtain ⟨b, B, rfl⟩ : ∃ b B, out = b :: B := by
    cases out with
    | nil => simp at ho
    | cons b B => exact ⟨b, B, rfl⟩
  unfold directOutplace
  rw [if_neg h.ne', if_neg (not_lt.2 h.le)]
  have := directOutplace_loop (trexpW tau) (1 - trexpW tau) (x :: xs) xs B [] [x] x rfl rfl (by simpa using ho)
  simpa [at'] using this

/-- Division of the first element. -/
noncomputable def scaleFirst (v : ℝ) : List ℝ → List ℝ
  | [] => []
  | o :: os => o / v :: os

theorem set_zero_eq (v : ℝ) (m : List ℝ) : m.set 0 (at' m 0 / v) = scaleFirst v m := by
  cases m <;> simp [scaleFirst, at']

theorem transposeInplace_eq (tau : ℝ) (h : 0 < tau) (A : List ℝ) (b : ℝ) :
    transposeInplace tau (A ++ [b]) = scaleFirst (1 - trexpW tau) (bwd (trexpW tau) (1 - trexpW tau) A [b]) := by
  unfold transposeInplace
  rw [if_neg h.ne', if_neg (not_lt.2 h.le)]
  dsimp only
  rw [set_zero_eq, List.length_append, List.length_singleton, Nat.add_sub_cancel, transposeInplace_loop]

theorem transposeOutplace_eq (tau : ℝ) (h : 0 ≤ tau) (A : List ℝ) (b : ℝ) (out : List ℝ) (ho : out.length = A.length + 1) :
    transposeOutplace tau (A ++ [b]) out = scaleFirst (1 - trexpW tau) (bwd (trexpW tau) (1 - trexpW tau) (A ++ [b]) []) := by
  unfold transposeOutplace
  dsimp only
  rw [if_neg (not_lt.2 h)]
  have hlen : (if tau = 0 then A ++ [b] else out).length = A.length + 1 := by
    split
    · simp
    · exact ho
  generalize (if tau = 0 then A ++ [b] else out) = out' at hlen
  obtain ⟨B, c, rfl⟩ : ∃ B c, out' = B ++ [c] := by
    have hne : out' ≠ [] := by rintro rfl; simp at hlen
    exact ⟨out'.dropLast, out'.getLast hne, (List.dropLast_append_getLast hne).symm⟩
  have hB : B.length = A.length := by simpa using hlen
  have e1 : at' (A ++ [b]) A.length = b := by
    simp [at']
  rw [set_zero_eq, List.length_append, List.length_singleton, Nat.add_sub_cancel, e1]
  rw [show (B ++ [c]).set A.length ((1 - trexpW tau) * b) = B ++ [(1 - trexpW tau) * b] by
    rw [← hB]; exact set_append_len B c _ []]
  rw [transposeOutplace_loop _ _ (A ++ [b]) A [b] B _ rfl hB]
  simp [bwd, List.foldr_append]

/-! ### Adjointness -/

theorem trexpW_lt (tau : ℝ) (h : 0 ≤ tau) : trexpW tau < 1 := by
  unfold trexpW
  split
  · norm_num
  · rename_i h0
    have : 0 < tau := lt_of_le_of_ne h (Ne.symm h0)
    rw [Real.exp_lt_one_iff]
    exact div_neg_of_neg_of_pos (by norm_num) this

theorem dot_fwd (w v : ℝ) (hv : v ≠ 0) (xs ys : List ℝ) (h : xs.length = ys.length) (prev : ℝ) :
    dot (fwd w v prev xs) ys = w * prev * (bwd w v ys []).headD 0 / v + dot xs (bwd w v ys []) := by
  induction xs generalizing ys prev with
  | nil =>
    have : ys = [] := (List.length_eq_zero_iff.1 h.symm)
    subst this
    simp [fwd, dot, bwd]
  | cons x xs ih =>
    cases ys with
    | nil => simp at h
    | cons y ys =>
      have hb : bwd w v (y :: ys) [] = (w * (bwd w v ys []).headD 0 + v * y) :: bwd w v ys [] := rfl
      rw [hb, fwd, dot, ih ys (by simpa using h), List.headD_cons, dot]
      field_simp
      ring

theorem dot_direct (w v : ℝ) (hv : v ≠ 0) (x : ℝ) (xs ys : List ℝ) (h : ys.length = xs.length + 1) :
    dot (x :: fwd w v x xs) ys = dot (x :: xs) (scaleFirst v (bwd w v ys [])) := by
  cases ys with
  | nil => simp at h
  | cons y ys =>
    have hb : bwd w v (y :: ys) [] = (w * (bwd w v ys []).headD 0 + v * y) :: bwd w v ys [] := rfl
    rw [hb, scaleFirst, dot, dot, dot_fwd w v hv xs ys (by simpa using h.symm)]
    field_simp
    ring

theorem dot_zero_left (xs ys : List ℝ) : dot (xs.map fun _ => 0) ys = 0 := by
  induction xs generalizing ys with
  | nil => rfl
  | cons x xs ih =>
    cases ys with
    | nil => rfl
    | cons y ys => rw [List.map_cons, dot, ih]; ring

theorem dot_comm (xs ys : List ℝ) : dot xs ys = dot ys xs := by
  induction xs generalizing ys with
  | nil => cases ys <;> rfl
  | cons x xs ih =>
    cases ys with
    | nil => rfl
    | cons y ys => simp [dot, ih, mul_comm]

theorem bwd_zero (l : List ℝ) : bwd 0 1 l [] = l := by
  induction l with
  | nil => rfl
  | cons x xs ih =>
    have : bwd 0 1 (x :: xs) [] = (0 * (bwd 0 1 xs []).headD 0 + 1 * x) :: bwd 0 1 xs [] := rfl
    rw [this, ih]
    simp

/-- For a time constant equal to zero the transpose, which goes on with the loop, returns the input. -/
theorem transposeOutplace_zero (A : List ℝ) (b : ℝ) (out : List ℝ) (ho : out.length = A.length + 1) :
    transposeOutplace 0 (A ++ [b]) out = A ++ [b] := by
  rw [transposeOutplace_eq 0 (le_refl 0) A b out ho]
  have hw : trexpW 0 = 0 := by simp [trexpW]
  rw [hw, sub_zero, bwd_zero]
  cases A <;> simp [scaleFirst]

/-- C57.  The direct application does not depend on whether it is done in place, nor on the previous contents of the output. -/
theorem C57_inplace_direct (tau : ℝ) (x out : List ℝ) (hx : 0 < x.length) (ho : out.length = x.length) :
    directInplace tau x = directOutplace tau x out := by
  cases x with
  | nil => simp at hx
  | cons x xs =>
    by_cases h : 0 < tau
    · rw [directInplace_eq tau h, directOutplace_eq tau h x xs out (by simpa using ho)]
    · unfold directInplace directOutplace
      split
      · rfl
      · have : tau < 0 := lt_of_le_of_ne (not_lt.1 h) (by assumption)
        rw [if_pos this, if_pos this]
        apply List.ext_getElem
        · simp [ho]
        · intro i h1 h2
          rw [List.getElem_map, List.getElem_map]

/-- C57.  The transpose, out of place, is the adjoint of the direct application. -/
theorem C57_adjoint (tau : ℝ) (x y out out' : List ℝ) (hx : 0 < x.length) (hxy : y.length = x.length)
    (ho : out.length = x.length) (ho' : out'.length = x.length) :
    dot (directOutplace tau x out) y = dot x (transposeOutplace tau y out') := by
  obtain ⟨x, xs, rfl⟩ : ∃ a l, x = a :: l := by
    cases x with
    | nil => simp at hx
    | cons a l => exact ⟨a, l, rfl⟩
  obtain ⟨A, b, rfl⟩ : ∃ A b, y = A ++ [b] := by
    have hne : y ≠ [] := by rintro rfl; simp at hxy
    exact ⟨y.dropLast, y.getLast hne, (List.dropLast_append_getLast hne).symm⟩
  have hA : out'.length = A.length + 1 := by
    rw [ho', ← hxy]; simp
  rcases lt_trichotomy tau 0 with h | rfl | h
  · unfold directOutplace transposeOutplace
    dsimp only
    rw [if_neg h.ne, if_pos h, if_pos h, dot_zero_left, dot_comm, dot_zero_left]
  · rw [transposeOutplace_zero A b out' hA]
    simp [directOutplace]
  · rw [directOutplace_eq tau h x xs out (by simpa using ho), transposeOutplace_eq tau h.le A b out' hA]
    exact dot_direct _ _ (sub_pos.2 (trexpW_lt tau h.le)).ne' x xs (A ++ [b]) (by simpa using hxy)

example : dot (directOutplace 1 [1, 2] [0, 0]) [3, 4] = dot [1, 2] (transposeOutplace 1 [3, 4] [5, 6]) :=
  C57_adjoint 1 _ _ _ _ (by simp) rfl rfl rfl

/-- C57.  Constant signals are unchanged by the direct application. -/
theorem C57_constant (tau : ℝ) (h : 0 ≤ tau) (c : ℝ) (n : Nat) (out : List ℝ) (hn : 0 < n) (ho : out.length = n) :
    directOutplace tau (List.replicate n c) out = List.replicate n c ∧
      directInplace tau (List.replicate n c) = List.replicate n c := by
  have h1 : directOutplace tau (List.replicate n c) out = List.replicate n c := by
    rcases h.eq_or_lt with rfl | h
    · simp [directOutplace]
    · obtain ⟨m, rfl⟩ : ∃ m, n = m + 1 := ⟨n - 1, by omega⟩
      rw [List.replicate_succ, directOutplace_eq tau h c _ out (by simpa using ho)]
      congr 1
      generalize trexpW tau = w
      clear ho hn
      induction m with
      | zero => rfl
      | succ m ih =>
        rw [List.replicate_succ, fwd, show w * c + (1 - w) * c = c by ring, ih]
  exact ⟨h1, by rw [C57_inplace_direct tau _ out (by simpa using hn) (by simpa using ho), h1]⟩

example : directOutplace 2 [3, 3, 3] [0, 0, 0] = [3, 3, 3] := (C57_constant 2 (by norm_num) 3 3 [0, 0, 0] (by norm_num) rfl).1

/-- C57.  The value of the direct application is `out[i] = w out[i-1] + (1 - w) in[i]`, with `w = exp(-1 / tau)`. -/
theorem C57_recurrence (tau : ℝ) (h : 0 < tau) (x out : List ℝ) (hx : 0 < x.length) (ho : out.length = x.length) :
    ∃ o, directOutplace tau x out = o ∧ o.length = x.length ∧ at' o 0 = at' x 0 ∧
      ∀ i, i + 1 < x.length → at' o (i + 1) = Real.exp (-1 / tau) * at' o i + (1 - Real.exp (-1 / tau)) * at' x (i + 1) := by
  obtain ⟨x, xs, rfl⟩ : ∃ a l, x = a :: l := by
    cases x with
    | nil => simp at hx
    | cons a l => exact ⟨a, l, rfl⟩
  have hw : trexpW tau = Real.exp (-1 / tau) := by unfold trexpW; rw [if_neg h.ne']
  have e := directOutplace_eq tau h x xs out (by simpa using ho)
  rw [hw] at e
  refine ⟨_, e, by simp [fwd_length], by simp [at'], ?_⟩
  generalize Real.exp (-1 / tau) = w
  clear e hw ho hx
  intro i hi
  induction xs generalizing x i with
  | nil => simp at hi
  | cons y ys ih =>
    cases i with
    | zero => simp [at', fwd]
    | succ i =>
      have := ih (w * x + (1 - w) * y) i (by simp at hi ⊢; omega)
      simpa [at', fwd] using this

example : ∃ o, directOutplace 1 [1, 2] [0, 0] = o ∧ at' o 1 = Real.exp (-1 / 1) * at' o 0 + (1 - Real.exp (-1 / 1)) * 2 := by
  obtain ⟨o, h1, _, _, h4⟩ := C57_recurrence 1 (by norm_num) [1, 2] [0, 0] (by simp) rfl
  exact ⟨o, h1, by have := h4 0 (by simp); simpa [at'] using this⟩

theorem bwd_append (w v : ℝ) (A B T : List ℝ) : bwd w v (A ++ B) T = bwd w v A (bwd w v B T) := by
  simp [bwd, List.foldr_append]

/-- C57.  In place, the transpose is the adjoint applied to the signal whose last element has been divided by `1 - w`: it is the adjoint
for the signals whose last element is zero. -/
theorem C57_inplace_partial (tau : ℝ) (h : 0 < tau) (A : List ℝ) (b : ℝ) (x out out' : List ℝ) (hx : x.length = A.length + 1)
    (ho : out.length = x.length) (ho' : out'.length = x.length) :
    transposeInplace tau (A ++ [b]) = transposeOutplace tau (A ++ [b / (1 - Real.exp (-1 / tau))]) out' ∧
      dot (directOutplace tau x out) (A ++ [0]) = dot x (transposeInplace tau (A ++ [0])) := by
  have hw : trexpW tau = Real.exp (-1 / tau) := by unfold trexpW; rw [if_neg h.ne']
  have hv : 1 - trexpW tau ≠ 0 := (sub_pos.2 (trexpW_lt tau h.le)).ne'
  have key : ∀ b, transposeInplace tau (A ++ [b]) = transposeOutplace tau (A ++ [b / (1 - Real.exp (-1 / tau))]) out' := by
    intro b
    rw [transposeInplace_eq tau h, transposeOutplace_eq tau h.le A _ out' (by omega), bwd_append]
    congr 2
    simp only [bwd, List.foldr_cons, List.foldr_nil, List.headD_nil, mul_zero, zero_add]
    rw [← hw, mul_div_cancel₀ _ hv]
  refine ⟨key b, ?_⟩
  rw [key 0, zero_div]
  exact C57_adjoint tau x (A ++ [0]) out out' (by omega) (by simp [hx]) ho ho'

example : dot (directOutplace 1 [1, 2] [0, 0]) ([3] ++ [0]) = dot [1, 2] (transposeInplace 1 ([3] ++ [0])) :=
  (C57_inplace_partial 1 (by norm_num) [3] 0 [1, 2] [0, 0] [0, 0] rfl rfl rfl).2

/-- C57 is false in place: for every positive time constant and length, the transpose in place is not the adjoint. -/
theorem C57_violation_inplace (tau : ℝ) (h : 0 < tau) (n : Nat) (hn : 0 < n) :
    ∃ x y : List ℝ, x.length = n ∧ y.length = n ∧
      ∀ out : List ℝ, out.length = n → dot (directOutplace tau x out) y ≠ dot x (transposeInplace tau y) := by
  obtain ⟨m, rfl⟩ : ∃ m, n = m + 1 := ⟨n - 1, by omega⟩
  have hv : 0 < 1 - trexpW tau := sub_pos.2 (trexpW_lt tau h.le)
  have hw : 0 < trexpW tau := by unfold trexpW; rw [if_neg h.ne']; exact Real.exp_pos _
  have hone : (1 : ℝ) - Real.exp (-1 / tau) = 1 - trexpW tau := by unfold trexpW; rw [if_neg h.ne']
  -- the last column of the two matrices is different: evaluate both on the last unit vector
  refine ⟨List.replicate m 0 ++ [1], List.replicate m 0 ++ [1], by simp, by simp, ?_⟩
  intro out ho hcontra
  have hin := (C57_inplace_partial tau h (List.replicate m 0) 1 (List.replicate m 0 ++ [1]) out out (by simp) (by simp [ho])
    (by simp [ho])).1
  rw [hin, ← C57_adjoint tau _ _ out out (by simp) (by simp) (by simp [ho]) (by simp [ho]), hone] at hcontra
  have hlast : ∀ c : ℝ, dot (directOutplace tau (List.replicate m 0 ++ [1]) out) (List.replicate m 0 ++ [c]) =
      c * (if m = 0 then 1 else 1 - trexpW tau) := by
    intro c
    cases m with
    | zero =>
      rw [List.replicate_zero, List.nil_append, directOutplace_eq tau h 1 [] out (by simpa using ho)]
      simp [dot, fwd]
    | succ m =>
      rw [List.replicate_succ, List.cons_append, directOutplace_eq tau h 0 _ out (by simpa using ho)]
      rw [if_neg (by omega), List.cons_append, dot, zero_mul, zero_add]
      clear hcontra hin ho hn
      generalize trexpW tau = w
      induction m with
      | zero => simp [fwd, dot]; ring
      | succ m ih =>
        rw [List.replicate_succ, List.cons_append, List.cons_append, fwd, dot]
        rw [show w * 0 + (1 - w) * 0 = 0 by ring, ih]
        ring
  rw [hlast, hlast] at hcontra
  have hne : (if m = 0 then (1 : ℝ) else 1 - trexpW tau) ≠ 0 := by
    split
    · norm_num
    · exact hv.ne'
  have := mul_right_cancel₀ hne hcontra
  rw [eq_div_iff hv.ne'] at this
  linarith

/-! ### Rows -/

/-- The scalar product of two signals of several rows. -/
def dot2 : List (List ℝ) → List (List ℝ) → ℝ
  | x :: xs, y :: ys => dot x y + dot2 xs ys
  | _, _ => 0

theorem C57_rows_aux (f g : Nat → List ℝ × List ℝ → List ℝ) (P : List ℝ → Prop)
    (hfg : ∀ i x y o o', P x → y.length = x.length → o.length = x.length → o'.length = x.length →
      dot (f i (x, o)) y = dot x (g i (y, o'))) (xs ys os os' : List (List ℝ)) (hP : ∀ x ∈ xs, P x)
    (h1 : ys.map List.length = xs.map List.length) (h2 : os.map List.length = xs.map List.length)
    (h3 : os'.map List.length = xs.map List.length) :
    dot2 ((xs.zip os).mapIdx f) ys = dot2 xs ((ys.zip os').mapIdx g) := by
  induction xs generalizing ys os os' f g with
  | nil =>
    have : ys = [] := by simpa using h1
    subst this
    simp [dot2]
  | cons x xs ih =>
    match ys, os, os', h1, h2, h3 with
    | y :: ys, o :: os, o' :: os', h1, h2, h3 =>
      simp only [List.map_cons, List.cons.injEq] at h1 h2 h3
      simp only [List.zip_cons_cons, List.mapIdx_cons, dot2]
      rw [hfg 0 x y o o' (hP x (by simp)) h1.1 h2.1 h3.1]
      rw [ih (fun i => f (i + 1)) (fun i => g (i + 1)) (fun i => hfg (i + 1)) ys os os' (fun a ha => hP a (by simp [ha])) h1.2 h2.2 h3.2]

/-- C57.  The transpose of the operator, out of place, is the adjoint of its direct application, for any number of detectors and any
time constants. -/
theorem C57_operator_partial (taus : List ℝ) (xs ys os os' : List (List ℝ)) (hn : ∀ x ∈ xs, 0 < x.length)
    (h1 : ys.map List.length = xs.map List.length) (h2 : os.map List.length = xs.map List.length)
    (h3 : os'.map List.length = xs.map List.length) :
    dot2 (trexpDirect taus xs (some os)) ys = dot2 xs (trexpTranspose taus ys (some os')) := by
  unfold trexpDirect trexpTranspose
  split
  · rfl
  · exact C57_rows_aux _ _ (fun x => 0 < x.length) (fun i x y o o' hx hy ho ho' => C57_adjoint (tauOf taus i) x y o o' hx hy ho ho')
      xs ys os os' hn h1 h2 h3

example : dot2 (trexpDirect [1, 2] [[1, 2], [3, 4]] (some [[0, 0], [0, 0]])) [[5, 6], [7, 8]] =
    dot2 [[1, 2], [3, 4]] (trexpTranspose [1, 2] [[5, 6], [7, 8]] (some [[0, 0], [0, 0]])) :=
  C57_operator_partial _ _ _ _ _ (by simp) rfl rfl rfl

/-- C57.  The time constant of each detector: the only one, or its own. -/
theorem C57_constants (taus : List ℝ) (n i : Nat) (hv : trexpValid taus n) (hi : i < n) :
    taus[if taus.length = 1 then 0 else i]? = some (tauOf taus i) := by
  unfold tauOf
  rcases hv with h | h
  · rw [if_pos h, h, show min (i + 1) 1 - 1 = 0 by omega]
    rw [List.getElem?_eq_getElem (by omega)]
    rfl
  · rw [show min (i + 1) taus.length - 1 = i by omega]
    by_cases h1 : taus.length = 1
    · rw [if_pos h1, show i = 0 by omega, List.getElem?_eq_getElem (by omega)]
      rfl
    · rw [if_neg h1, List.getElem?_eq_getElem (by omega)]
      rfl

example : tauOf [5] 7 = 5 ∧ tauOf [5, 6] 1 = 6 := by simp [tauOf]

/-! ### Strided arrays -/

/-- C85.  For the arrays of 8 byte items whose rows are a whole number of items apart, the element j of the row i of the view passed to
the compiled code is the element (i, j) of the array, and it is inside of the view if the rows do not overlap. -/
theorem C85_rows_partial (n m : Nat) (s0 : Int) (h8 : s0 % 8 = 0) (hrow : (m : Int) * 8 ≤ s0) :
    ∃ rowlen size, ravelStrided ⟨[n, m], [s0, 8], 8⟩ = .ok (n, m, rowlen, size, 8) ∧
      ∀ i j : Nat, i < n → j < m →
        ((i : Int) * rowlen + j) * 8 = i * s0 + j * 8 ∧ 0 ≤ (i : Int) * rowlen + j ∧ (i : Int) * rowlen + j < size := by
  have hs : 0 ≤ s0 / 8 := by omega
  refine ⟨s0 / 8, n * (s0 / 8), ?_, ?_⟩
  · have : ¬ (n : Int) * (s0 / 8) < 0 := not_lt.2 (mul_nonneg (by omega) hs)
    simp [ravelStrided, this]
  · intro i j hi hj
    have e : s0 / 8 * 8 = s0 := by omega
    refine ⟨by rw [add_mul, mul_assoc, e], by positivity, ?_⟩
    have h1 : (i : Int) + 1 ≤ n := by omega
    have h2 : (j : Int) < s0 / 8 := by omega
    nlinarith

example : ∃ rowlen size, ravelStrided ⟨[3, 4], [40, 8], 8⟩ = .ok (3, 4, rowlen, size, 8) ∧
    ((2 : Int) * rowlen + 1) * 8 = 2 * 40 + 1 * 8 := ⟨5, 15, by decide, by decide⟩

/-- C85 is false in single precision: the contiguous two-dimensional signals are rejected, although the compiled code handles them, and
the signal made of every other column is accepted but the elements read are not those of the array. -/
theorem C85_violation_single (n m : Nat) :
    ravelStrided ⟨[n, m], [4 * m, 4], 4⟩ = .error .valueError ∧
    ∃ rowlen size step, ravelStrided ⟨[2, 2], [16, 8], 4⟩ = .ok (2, 2, rowlen, size, step) ∧
      -- byte of the element (1, 1) read by code compiled for 4 byte items, and of the element of the array
      ((1 : Int) * rowlen + 1) * 4 ≠ 1 * 16 + 1 * 8 :=
  ⟨by simp [ravelStrided], 2, 4, 8, by decide, by decide⟩

/-- C85 is false for rows that share memory: a row repeated by broadcasting is accepted and the code reads out of the view. -/
theorem C85_violation_broadcast :
    ∃ rowlen size step, ravelStrided ⟨[2, 3], [0, 8], 8⟩ = .ok (2, 3, rowlen, size, step) ∧ ¬ (1 : Int) * rowlen + 2 < size :=
  ⟨0, 0, 8, by decide, by decide⟩

/-- C85.  The signals of more than two dimensions are rejected. -/
theorem C85_rejects (x : Strided) (h : x.shape.length ≠ 1) (h2 : x.shape.length ≠ 2) :
    ravelStrided x = .error .notImplementedError := by
  obtain ⟨shape, strides, itemsize⟩ := x
  unfold ravelStrided
  match shape, strides with
  | [], _ => rfl
  | [_], _ => simp at h
  | [_, _], _ => simp at h2
  | _ :: _ :: _ :: _, _ => rfl

example : ravelStrided ⟨[2, 3, 4], [96, 32, 8], 8⟩ = .error .notImplementedError := by decide

end Verif.Signal
