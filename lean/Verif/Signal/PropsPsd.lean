import Verif.Signal.Lemmas

/-!
C54: folding and unfolding a power spectrum density.
-/
set_option linter.unusedSectionVars false
namespace Verif.Signal
open Verif.Py

section
variable {K : Type} [Field K] [CharZero K]

/-- C54.  Unfolding a one-sided spectrum of at least two elements succeeds whatever the contents of the allocated buffer; the result is
even under the negation of the frequency, it has the same total power, the zero and Nyquist frequencies are unchanged and the other
positive frequencies get half of the power. -/
theorem C54_unfold (buf p : List K) (hp : 2 ≤ p.length) (hb : buf.length = 2 * (p.length - 1)) :
    ∃ q, unfoldPsd buf p = .ok q ∧ q.length = 2 * (p.length - 1) ∧ q.sum = p.sum ∧
      (∀ (k : Nat), k < q.length → q[k]? = q[(q.length - k) % q.length]?) ∧
      q[0]? = p[0]? ∧ q[p.length - 1]? = p[p.length - 1]? ∧
      ∀ (k : Nat), 0 < k → k < p.length - 1 → q[k]? = (p[k]?).map (· / 2) := by
  obtain ⟨a, mid, b, rfl⟩ := exists_ends p hp
  have hl : (a :: mid ++ [b]).length - 1 = mid.length + 1 := by simp
  rw [hl] at hb ⊢
  refine ⟨_, unfoldPsd_eq buf a b mid hb, ?_, ?_, ?_, ?_, ?_, ?_⟩
  · simp; omega
  · simp only [List.sum_append, List.sum_cons, List.sum_nil, List.sum_reverse, List.sum_map_mul_right, List.map_id']
    ring
  · generalize hm : mid.map (· * (1 / 2 : K)) = m
    have hml : m.length = mid.length := by rw [← hm]; simp
    have hN : (a :: m ++ [b] ++ m.reverse).length = 2 * m.length + 2 := by simp; omega
    rw [hN]
    intro k hk
    rcases Nat.eq_zero_or_pos k with rfl | h0
    · simp
    rw [Nat.mod_eq_of_lt (by omega)]
    rcases Nat.lt_trichotomy k (m.length + 1) with h1 | h1 | h1
    · rw [List.getElem?_append_left (by simp; omega), List.getElem?_append_left (by simp; omega),
        List.getElem?_append_right (by simp; omega)]
      obtain ⟨j, rfl⟩ : ∃ j, k = j + 1 := ⟨k - 1, by omega⟩
      rw [List.getElem?_cons_succ, List.getElem?_reverse (by simp; omega)]
      congr 1
      simp
      omega
    · congr 1
      omega
    · rw [List.getElem?_append_right (by simp; omega), List.getElem?_append_left (by simp; omega),
        List.getElem?_append_left (by simp; omega)]
      obtain ⟨j, hj⟩ : ∃ j, 2 * m.length + 2 - k = j + 1 := ⟨2 * m.length + 1 - k, by omega⟩
      rw [hj, List.getElem?_cons_succ, List.getElem?_reverse (by simp; omega)]
      congr 1
      simp
      omega
  · simp
  · rw [List.getElem?_append_left (by simp), List.getElem?_append_right (by simp), List.getElem?_append_right (by simp)]
    simp
  · intro k h0 hk
    obtain ⟨j, rfl⟩ : ∃ j, k = j + 1 := ⟨k - 1, by omega⟩
    rw [List.getElem?_append_left (by simp; omega), List.getElem?_append_left (by simp; omega),
      List.getElem?_append_left (by simp; omega)]
    rw [List.getElem?_cons_succ, List.getElem?_cons_succ, List.getElem?_map]
    congr 1
    funext v
    ring

example : unfoldPsd [7, 7, 7, 7] [1, 2, 3] = .ok [(1 : ℚ), 1, 3, 1] := by decide +kernel

/-- C54.  A one-sided spectrum of fewer than two elements is rejected. -/
theorem C54_unfold_short (buf p : List K) (hp : p.length < 2) (hb : buf.length = 2 * (p.length - 1)) :
    unfoldPsd buf p = .error .valueError ∨ unfoldPsd buf p = .error .indexError := by
  match p, hp with
  | [], _ => exact Or.inl rfl
  | [a], _ =>
    right
    have : buf = [] := by simpa using hb
    subst this
    simp [unfoldPsd]

example : unfoldPsd [] [(5 : ℚ)] = .error .indexError := by decide +kernel

/-- C54.  Folding an even spectrum of even length `2 m + 2` (`m ≥ 1`): the elements of the zero and inner frequencies are those of the
one-sided spectrum, but the last one is the element that follows the Nyquist frequency, so that the power changes by the difference. -/
theorem C54_fold_partial (buf q : List K) (m : Nat) (hm : 1 ≤ m) (hq : q.length = 2 * m + 2) (hb : buf.length = m + 2)
    (hsym : ∀ (k : Nat), k < q.length → q[k]? = q[(q.length - k) % q.length]?) :
    ∃ r, foldPsd buf q = .ok r ∧ r.length = m + 2 ∧ r[0]? = q[0]? ∧
      (∀ (k : Nat), 0 < k → k < m + 1 → r[k]? = (q[k]?).map (2 * ·)) ∧ r[m + 1]? = q[m + 2]? ∧
      r.sum = q.sum + (q[m + 2]?).getD 0 - (q[m + 1]?).getD 0 := by
  obtain ⟨A, B, rfl, hA, hB⟩ := split_buf q (m + 1) (m + 1) (by omega)
  obtain ⟨a, L, rfl⟩ : ∃ a L, A = a :: L := by
    cases A with
    | nil => simp at hA
    | cons a L => exact ⟨a, L, rfl⟩
  obtain ⟨c, R, rfl⟩ : ∃ c R, B = c :: R := by
    cases B with
    | nil => simp at hB
    | cons c R => exact ⟨c, R, rfl⟩
  have hL : L.length = m := by simpa using hA
  have hR : R.length = m := by simpa using hB
  have hrev : R = L.reverse := by
    apply List.ext_getElem?
    intro j
    by_cases hj : j < m
    · have h := hsym (j + 1) (by omega)
      rw [hq, Nat.mod_eq_of_lt (by omega), List.getElem?_append_left (by simp; omega), List.getElem?_cons_succ,
        List.getElem?_append_right (by simp; omega)] at h
      rw [show 2 * m + 2 - (j + 1) - (a :: L).length = (m - 1 - j) + 1 by simp; omega, List.getElem?_cons_succ] at h
      have h' := hsym (m + 2 + j) (by omega)
      rw [hq, Nat.mod_eq_of_lt (by omega), List.getElem?_append_right (by simp; omega),
        show m + 2 + j - (a :: L).length = j + 1 by simp; omega, List.getElem?_cons_succ,
        List.getElem?_append_left (by simp; omega), show 2 * m + 2 - (m + 2 + j) = (m - 1 - j) + 1 by omega,
        List.getElem?_cons_succ] at h'
      rw [h', List.getElem?_reverse (by omega), hL]
    · rw [List.getElem?_eq_none (by omega), List.getElem?_eq_none (by simp; omega)]
  obtain ⟨r, R', rfl⟩ : ∃ r R', R = r :: R' := by
    cases R with
    | nil => simp at hR; omega
    | cons r R' => exact ⟨r, R', rfl⟩
  have h := foldPsd_even buf a c L (r :: R') (by omega) (by omega)
  simp only [List.append_assoc, List.singleton_append] at h
  refine ⟨_, h, ?_, ?_, ?_, ?_, ?_⟩
  · simp [hL]
  · simp
  · intro k h0 hk
    obtain ⟨j, rfl⟩ : ∃ j, k = j + 1 := ⟨k - 1, by omega⟩
    rw [List.getElem?_append_left (by simp; omega), List.getElem?_append_left (by simp; omega), List.getElem?_cons_succ,
      List.getElem?_cons_succ, List.getElem?_map]
    congr 1
    funext v
    ring
  · rw [List.getElem?_append_right (by simp [hL]), List.getElem?_append_right (by simp [hL])]
    simp [hL]
  · have e1 : (a :: L ++ c :: r :: R')[m + 2]? = some r := by
      rw [List.getElem?_append_right (by simp [hL])]
      simp [hL]
    have e2 : (a :: L ++ c :: r :: R')[m + 1]? = some c := by
      rw [List.getElem?_append_right (by simp [hL])]
      simp [hL]
    rw [e1, e2]
    have e3 : L.sum = r + R'.sum := by
      rw [← List.sum_reverse L, ← hrev, List.sum_cons]
    simp only [List.cons_append, List.sum_cons, List.sum_append, List.sum_map_mul_right, List.map_id', List.sum_nil,
      Option.getD_some]
    rw [e3]
    ring

example : foldPsd [7, 7, 7, 7] [(1 : ℚ), 2, 3, 3, 3, 2] = .ok [1, 4, 6, 3] := by decide +kernel

/-- C54.  Folding the unfolded spectrum gives it back except for the last element, which is replaced by half of the previous one. -/
theorem C54_roundtrip_partial (buf buf' p : List K) (hp : 3 ≤ p.length) (hb : buf.length = 2 * (p.length - 1))
    (hb' : buf'.length = p.length) :
    ∃ q r, unfoldPsd buf p = .ok q ∧ foldPsd buf' q = .ok r ∧
      (∀ (k : Nat), k < p.length - 1 → r[k]? = p[k]?) ∧ r[p.length - 1]? = (p[p.length - 2]?).map (· / 2) ∧
      (r = p ↔ p[p.length - 1]? = (p[p.length - 2]?).map (· / 2)) := by
  obtain ⟨a, mid, b, rfl⟩ := exists_ends p (by omega)
  have hl : (a :: mid ++ [b]).length = mid.length + 2 := by simp
  rw [hl] at hb hb' hp ⊢
  have h1 := unfoldPsd_eq buf a b mid (by omega)
  obtain ⟨l', c, rfl⟩ : ∃ l' c, mid = l' ++ [c] := by
    have hmid : mid ≠ [] := by rintro rfl; simp at hp
    exact ⟨mid.dropLast, mid.getLast hmid, (List.dropLast_append_getLast hmid).symm⟩
  have h2 := foldPsd_even buf' a b ((l' ++ [c]).map (· * (1 / 2))) (c * (1 / 2) :: (l'.map (· * (1 / 2))).reverse) (by simp)
    (by simp at hb' ⊢; omega)
  have e : ((l' ++ [c]).map (· * (1 / 2 : K))).reverse = c * (1 / 2) :: (l'.map (· * (1 / 2))).reverse := by simp
  have e2 : ((l' ++ [c]).map (· * (1 / 2 : K))).map (· * 2) = l' ++ [c] := by
    rw [List.map_map]
    conv_rhs => rw [← List.map_id (l' ++ [c])]
    apply List.map_congr_left
    intro v _
    simp
  simp only [e2] at h2
  rw [e] at h1
  have hlen : (l' ++ [c]).length = l'.length + 1 := by simp
  rw [hlen]
  have g2 : (a :: (l' ++ [c]) ++ [b])[l'.length + 1 + 2 - 2]? = some c := by
    rw [List.getElem?_append_left (by simp)]
    simp
  have g1 : (a :: (l' ++ [c]) ++ [b])[l'.length + 1 + 2 - 1]? = some b := by
    rw [List.getElem?_append_right (by simp)]
    simp
  refine ⟨_, _, h1, h2, ?_, ?_, ?_⟩
  · intro k hk
    rw [List.getElem?_append_left (by simp; omega), List.getElem?_append_left (by simp; omega)]
  · rw [g2, List.getElem?_append_right (by simp)]
    simp [div_eq_mul_inv]
  · rw [g1, g2]
    simp only [List.cons_append, List.cons.injEq, true_and, List.append_cancel_left_eq, and_true, Option.map_some, Option.some.injEq,
      div_eq_mul_inv, one_mul]
    exact eq_comm

example : unfoldPsd [0, 0, 0, 0] [(1 : ℚ), 2, 1] = .ok [1, 1, 1, 1] ∧ foldPsd [0, 0, 0] [(1 : ℚ), 1, 1, 1] = .ok [1, 2, 1] := by
  decide +kernel

end

/-- C54 is false: folding an unfolded spectrum does not give it back. -/
theorem C54_violation_roundtrip :
    ∃ p q r : List ℚ, unfoldPsd [0, 0, 0, 0] p = .ok q ∧ foldPsd [0, 0, 0] q = .ok r ∧ r ≠ p :=
  ⟨[1, 2, 3], [1, 1, 3, 1], [1, 2, 1], by decide +kernel, by decide +kernel, by decide +kernel⟩

/-- C54 is false: folding an even spectrum does not preserve the total power, for an even as well as for an odd length. -/
theorem C54_violation_power :
    (∃ r, foldPsd [0, 0, 0] [(1 : ℚ), 1, 3, 1] = .ok r ∧ r.sum ≠ ([1, 1, 3, 1] : List ℚ).sum) ∧
    ∃ r, foldPsd [0, 0, 0] [(1 : ℚ), 2, 3, 3, 2] = .ok r ∧ r.sum ≠ ([1, 2, 3, 3, 2] : List ℚ).sum :=
  ⟨⟨[1, 2, 1], by decide +kernel, by decide +kernel⟩, ⟨[1, 4, 3], by decide +kernel, by decide +kernel⟩⟩

/-- C54 is false: the two-sided spectra of one or two elements are not folded, whatever their values. -/
theorem C54_violation_short {K : Type} [Field K] (buf p : List K) (hp : p.length ≤ 2) :
    foldPsd buf p = .error .indexError := by
  match p, hp with
  | [], _ => rfl
  | [a], _ => rfl
  | [a, b], _ => simp [foldPsd]

example : foldPsd [0, 0] [(1 : ℚ), 2] = .error .indexError := C54_violation_short _ _ (by decide)

end Verif.Signal
