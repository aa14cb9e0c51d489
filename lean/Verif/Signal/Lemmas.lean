import Verif.Signal.Model
import Mathlib.Tactic.Ring
import Mathlib.Tactic.Linarith
import Mathlib.Tactic.FieldSimp
import Mathlib.Algebra.BigOperators.Group.List.Basic

/-! Lemmas on the noise functions. -/
set_option linter.unusedSectionVars false
namespace Verif.Signal
open Verif.Py

theorem writeAt_length {α : Type} (out : List α) (s : Nat) (vals : List α) : (writeAt out s vals).length = out.length := by
  simp [writeAt]

theorem writeAt_getElem? {α : Type} (out : List α) (s : Nat) (vals : List α) (k : Nat) :
    (writeAt out s vals)[k]? = (out[k]?).map fun e => if s ≤ k then (vals[k - s]?).getD e else e := by
  simp [writeAt, List.getElem?_mapIdx]

/-- Writing after a first part. -/
theorem writeAt_append {α : Type} (A B C vals : List α) (h : B.length = vals.length) :
    writeAt (A ++ B ++ C) A.length vals = A ++ vals ++ C := by
  apply List.ext_getElem?
  intro k
  rw [writeAt_getElem?]
  rw [List.append_assoc, List.append_assoc]
  by_cases h1 : k < A.length
  · rw [List.getElem?_append_left h1, List.getElem?_append_left h1]
    have h2 : ¬ A.length ≤ k := by omega
    simp [h2]
  · have h2 : A.length ≤ k := by omega
    rw [List.getElem?_append_right h2, List.getElem?_append_right h2]
    simp only [h2, if_true]
    by_cases h3 : k - A.length < B.length
    · rw [List.getElem?_append_left h3, List.getElem?_append_left (by omega)]
      rw [List.getElem?_eq_getElem h3, List.getElem?_eq_getElem (h ▸ h3)]
      simp
    · have h4 : B.length ≤ k - A.length := by omega
      rw [List.getElem?_append_right h4, List.getElem?_append_right (by omega), h]
      have h5 : vals[k - A.length]? = none := by simp; omega
      rw [h5]
      simp

section
variable {K : Type} [Field K]

theorem exists_ends {α : Type} (p : List α) (h : 2 ≤ p.length) : ∃ a mid b, p = a :: mid ++ [b] := by
  cases p with
  | nil => simp at h
  | cons a t =>
    have ht : t ≠ [] := by rintro rfl; simp at h
    exact ⟨a, t.dropLast, t.getLast ht, by rw [List.cons_append, List.dropLast_append_getLast]⟩

theorem split_buf {α : Type} (buf : List α) (a b : Nat) (h : buf.length = a + b) :
    ∃ A B, buf = A ++ B ∧ A.length = a ∧ B.length = b :=
  ⟨buf.take a, buf.drop a, (List.take_append_drop a buf).symm, by simp; omega, by simp; omega⟩

/-- The result of `_unfold_psd`. -/
theorem unfoldPsd_eq (buf : List K) (a b : K) (mid : List K) (hb : buf.length = 2 * (mid.length + 1)) :
    unfoldPsd buf (a :: mid ++ [b]) =
      .ok (a :: mid.map (· * (1 / 2)) ++ [b] ++ (mid.map (· * (1 / 2))).reverse) := by
  obtain ⟨B1, B', rfl, h1, h'⟩ := split_buf buf 1 (2 * mid.length + 1) (by omega)
  obtain ⟨B2, B'', rfl, h2, h''⟩ := split_buf B' mid.length (mid.length + 1) (by omega)
  obtain ⟨B3, B4, rfl, h3, h4⟩ := split_buf B'' 1 mid.length (by omega)
  obtain ⟨b1, rfl⟩ := List.length_eq_one_iff.1 h1
  obtain ⟨b3, rfl⟩ := List.length_eq_one_iff.1 h3
  unfold unfoldPsd
  simp only [List.cons_append, List.nil_append, List.getElem?_cons_zero, List.length_cons, List.length_append, List.length_nil]
  rw [if_neg (by omega)]
  have e1 : ((a :: (mid ++ [b])).drop 1).take (mid.length + (0 + 1) + 1 - 1 - 1) = mid := by
    rw [List.drop_one, List.tail_cons]
    rw [show mid.length + (0 + 1) + 1 - 1 - 1 = mid.length by omega]
    simp
  rw [e1]
  have e2 : (a :: (mid ++ [b]))[mid.length + (0 + 1) + 1 - 1]? = some b := by
    rw [show mid.length + (0 + 1) + 1 - 1 = mid.length + 1 by omega]
    simp
  rw [e2]
  simp only
  have e3 : (b1 :: (B2 ++ b3 :: B4)).set 0 a = [a] ++ B2 ++ (b3 :: B4) := by simp
  rw [e3]
  have e4 := writeAt_append [a] B2 (b3 :: B4) (mid.map fun v => v * (1 / 2)) (by simp [h2])
  rw [show ([a] : List K).length = 1 from rfl] at e4
  rw [e4]
  generalize hm : (mid.map fun v => v * (1 / 2)) = m
  have hml : m.length = mid.length := by rw [← hm]; simp
  have e5 : ([a] ++ m ++ b3 :: B4).set (mid.length + (0 + 1) + 1 - 1) b = ([a] ++ m ++ [b]) ++ B4 ++ [] := by
    rw [List.set_append_right _ _ (by simp [hml])]
    simp [hml]
  rw [e5]
  have e6 : ((([a] ++ m ++ [b]) ++ B4 ++ []).take (mid.length + (0 + 1) + 1 - 1)).drop 1 = m := by
    rw [show mid.length + (0 + 1) + 1 - 1 = m.length + 1 by omega]
    simp
  rw [e6]
  have e7 := writeAt_append ([a] ++ m ++ [b]) B4 [] m.reverse (by simp [h4, hml])
  rw [show ([a] ++ m ++ [b]).length = mid.length + (0 + 1) + 1 by simp [hml]] at e7
  rw [e7]
  simp

/-- The result of `_fold_psd` on a spectrum of even length. -/
theorem foldPsd_even (buf : List K) (a c : K) (L R : List K) (hLR : L.length = R.length) (hb : buf.length = L.length + 2) :
    foldPsd buf (a :: L ++ [c] ++ R) =
      match R with
      | [] => .error .indexError
      | r :: _ => .ok (a :: L.map (· * 2) ++ [r]) := by
  obtain ⟨B1, B', rfl, h1, h'⟩ := split_buf buf 1 (L.length + 1) (by omega)
  obtain ⟨B2, B3, rfl, h2, h3⟩ := split_buf B' L.length 1 (by omega)
  obtain ⟨b1, rfl⟩ := List.length_eq_one_iff.1 h1
  obtain ⟨b3, rfl⟩ := List.length_eq_one_iff.1 h3
  have hn : (a :: L ++ [c] ++ R).length / 2 + 1 = L.length + 2 := by simp; omega
  unfold foldPsd
  dsimp only
  rw [hn]
  have e0 : (a :: L ++ [c] ++ R)[0]? = some a := by simp
  rw [e0]
  have e1 : ((a :: L ++ [c] ++ R).drop 1).take (L.length + 2 - 1 - 1) = L := by
    rw [show L.length + 2 - 1 - 1 = L.length by omega]
    simp
  rw [e1]
  have e2 : (a :: L ++ [c] ++ R)[L.length + 2]? = R[0]? := by
    rw [List.getElem?_append_right (by simp)]
    simp
  rw [e2]
  simp only
  have e3 : ([b1] ++ (B2 ++ [b3])).set 0 a = [a] ++ B2 ++ [b3] := by simp
  have e4 := writeAt_append [a] B2 [b3] (L.map fun v => v * 2) (by simp [h2])
  rw [show ([a] : List K).length = 1 from rfl] at e4
  rw [e3, e4]
  cases R with
  | nil => simp
  | cons r R => simp

end
end Verif.Signal
