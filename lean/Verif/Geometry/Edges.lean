import Verif.Geometry.Model
import Mathlib.Data.List.Rotate
import Mathlib.Algebra.BigOperators.Group.List.Basic
import Mathlib.Algebra.BigOperators.Ring.List
import Mathlib.Tactic.Ring
import Mathlib.Tactic.Abel

/-! Lemmas about the edges of a polygon. -/
namespace Verif.Geometry
variable {K : Type}

theorem loopPairs_eq (j : K × K) (l : List (K × K)) : loopPairs j l = l.zip (j :: l) := by
  induction l generalizing j with
  | nil => rfl
  | cons i t ih => rw [loopPairs, ih]; rfl

theorem zip_dropLast {α} (l : List α) (x : α) : l.zip (x :: l) = l.zip (x :: l.dropLast) := by
  induction l generalizing x with
  | nil => rfl
  | cons a t ih =>
    cases t with
    | nil => rfl
    | cons b t => exact congrArg (List.cons (a, x)) (ih a)

theorem rotate_pred {α} (l : List α) (x : α) : (l ++ [x]).rotate ((l ++ [x]).length - 1) = x :: l := by
  have : (l ++ [x]).length - 1 = l.length := by simp
  rw [this, List.rotate_append_length_eq]; rfl

theorem edges_eq (vs : List (K × K)) : edges vs = vs.zip (vs.rotate (vs.length - 1)) := by
  rcases List.eq_nil_or_concat vs with rfl | ⟨l, x, rfl⟩
  · rfl
  · rw [List.concat_eq_append, rotate_pred, edges]
    simp only [List.getLast?_append, List.getLast?_singleton, Option.some_or]
    rw [loopPairs_eq, zip_dropLast]
    simp

@[simp] theorem length_edges (vs : List (K × K)) : (edges vs).length = vs.length := by
  rw [edges_eq]; simp

theorem edges_fst (vs : List (K × K)) : (edges vs).map Prod.fst = vs := by
  rw [edges_eq, List.map_fst_zip (by simp)]

theorem edges_snd (vs : List (K × K)) : (edges vs).map Prod.snd = vs.rotate (vs.length - 1) := by
  rw [edges_eq, List.map_snd_zip (by simp)]

theorem edges_map {L : Type} (f : K × K → L × L) (vs : List (K × K)) :
    edges (vs.map f) = (edges vs).map (fun e => (f e.1, f e.2)) := by
  rw [edges_eq, edges_eq, List.length_map, ← List.map_rotate, List.zip_map]
  rfl

theorem edges_rotate (vs : List (K × K)) (k : Nat) : edges (vs.rotate k) = (edges vs).rotate k := by
  rw [edges_eq, edges_eq, List.length_rotate, List.rotate_rotate, Nat.add_comm, ← List.rotate_rotate]
  have := List.zipWith_rotate_distrib Prod.mk vs (vs.rotate (vs.length - 1)) k (by simp)
  exact this.symm

theorem edges_reverse (vs : List (K × K)) : (edges vs.reverse).Perm ((edges vs).map Prod.swap) := by
  rw [edges_eq, List.length_reverse, List.rotate_reverse]
  rcases Nat.eq_zero_or_pos vs.length with h0 | h0
  · rw [List.eq_nil_of_length_eq_zero h0]; exact List.Perm.refl _
  have h1 : vs.length - (vs.length - 1) % vs.length = 1 := by
    rw [Nat.mod_eq_of_lt (by omega)]; omega
  rw [h1, List.zip, ← List.reverse_zipWith (by simp)]
  refine (List.reverse_perm _).trans ?_
  have h2 : (List.zipWith Prod.mk vs (vs.rotate 1)).rotate (vs.length - 1) = (edges vs).map Prod.swap := by
    rw [List.zipWith_rotate_distrib _ _ _ _ (by simp), List.rotate_rotate]
    have : 1 + (vs.length - 1) = vs.length := by omega
    rw [this, List.rotate_length, edges_eq, List.zip_swap]
    rfl
  rw [← h2]
  exact (List.rotate_perm _ _).symm

theorem mem_edges (vs : List (K × K)) (e : (K × K) × (K × K)) (h : e ∈ edges vs) : e.1 ∈ vs ∧ e.2 ∈ vs := by
  rw [edges_eq] at h
  have := List.of_mem_zip (a := e.1) (b := e.2) h
  exact ⟨this.1, List.mem_rotate.mp this.2⟩

theorem edges_nodup (vs : List (K × K)) (h : vs.Nodup) : (edges vs).Nodup := by
  apply List.Nodup.of_map Prod.fst
  rw [edges_fst]; exact h

/-- A sum over the edges of a function of the second end point is the sum over the first end points. -/
theorem sum_edges_snd {M : Type} [AddCommMonoid M] (f : K × K → M) (vs : List (K × K)) :
    ((edges vs).map fun e => f e.2).sum = ((edges vs).map fun e => f e.1).sum := by
  have h1 : (edges vs).map (fun e => f e.2) = ((edges vs).map Prod.snd).map f := by simp [List.map_map, Function.comp_def]
  have h2 : (edges vs).map (fun e => f e.1) = ((edges vs).map Prod.fst).map f := by simp [List.map_map, Function.comp_def]
  rw [h1, h2, edges_fst, edges_snd]
  exact ((List.rotate_perm _ _).map f).sum_eq

theorem foldl_add_eq {α M : Type} [AddCommMonoid M] (f : α → M) (l : List α) (a : M) :
    l.foldl (fun out e => out + f e) a = a + (l.map f).sum := by
  induction l generalizing a with
  | nil => simp
  | cons x t ih => rw [List.foldl_cons, ih, List.map_cons, List.sum_cons, add_assoc]

end Verif.Geometry
