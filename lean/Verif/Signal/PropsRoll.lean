import Verif.Signal.Lemmas
import Mathlib.Data.Fintype.Pi
import Mathlib.Algebra.BigOperators.Fin
import Mathlib.Data.Fintype.BigOperators

/-!
C58: the rolls are orthogonal.
-/
namespace Verif.Signal
open Verif.Py

variable {r : Nat} {d : Fin r → Nat} {K : Type}

theorem rollIdx_add {m : Nat} (i : Fin m) (n n' : Int) : rollIdx (rollIdx i n) n' = rollIdx i (n + n') := by
  apply Fin.ext
  have hm : (0 : Int) < m := by exact_mod_cast Fin.pos i
  have h1 := Int.emod_nonneg ((i : Int) - n) hm.ne'
  simp only [rollIdx]
  congr 1
  rw [Int.toNat_of_nonneg h1, Int.emod_sub_emod, sub_sub]

theorem rollIdx_zero {m : Nat} (i : Fin m) : rollIdx i 0 = i := by
  apply Fin.ext
  simp only [rollIdx, sub_zero]
  rw [Int.emod_eq_of_lt (by omega) (by exact_mod_cast i.2)]
  simp

theorem roll_roll (x : Arr r d K) (n n' : Int) (a : Fin r) : roll (roll x n a) n' a = roll x (n + n') a := by
  funext idx
  simp only [roll, Function.update_self, Function.update_idem]
  rw [rollIdx_add, add_comm]

theorem roll_zero (x : Arr r d K) (a : Fin r) : roll x 0 a = x := by
  funext idx
  simp [roll, rollIdx_zero]

theorem roll_comm (x : Arr r d K) (n n' : Int) (a a' : Fin r) : roll (roll x n a) n' a' = roll (roll x n' a') n a := by
  by_cases h : a = a'
  · subst h
    rw [roll_roll, roll_roll, add_comm]
  · funext idx
    simp only [roll]
    rw [Function.update_of_ne (fun e => h e), Function.update_of_ne (fun e => h e.symm), Function.update_comm h]

/-- A sequence of rolls along valid axes. -/
def rolls (x : Arr r d K) (ps : List (Int × Fin r)) : Arr r d K := ps.foldl (fun o p => roll o p.1 p.2) x

theorem rolls_roll (ps : List (Int × Fin r)) (x : Arr r d K) (n : Int) (a : Fin r) :
    rolls (roll x n a) ps = roll (rolls x ps) n a := by
  induction ps generalizing x with
  | nil => rfl
  | cons p ps ih =>
    show rolls (roll (roll x n a) p.1 p.2) ps = roll (rolls (roll x p.1 p.2) ps) n a
    rw [roll_comm, ih]

/-- The opposite rolls. -/
def opposite (ps : List (Int × Fin r)) : List (Int × Fin r) := ps.map fun p => (-p.1, p.2)

theorem rolls_opposite (ps : List (Int × Fin r)) (x : Arr r d K) : rolls (rolls x ps) (opposite ps) = x := by
  induction ps generalizing x with
  | nil => rfl
  | cons p ps ih =>
    show rolls (roll (rolls (roll x p.1 p.2) ps) (-p.1) p.2) (opposite ps) = x
    rw [← rolls_roll, roll_roll, add_neg_cancel, roll_zero, ih]

/-- The sequence of the calls to `np.roll`: either an axis is not valid, or all of them are. -/
theorem foldlM_npRoll (s : Int → Int) (ps : List (Int × Int)) :
    (∃ p ∈ ps, axisOf r p.2 = none) ∧ (∀ x : Arr r d K, ps.foldlM (fun o p => npRoll o (s p.1) p.2) x = .error .valueError) ∨
    ∃ as : List (Fin r), ps.map (fun p => axisOf r p.2) = as.map some ∧
      ∀ x : Arr r d K, ps.foldlM (fun o p => npRoll o (s p.1) p.2) x = .ok (rolls x ((ps.map fun p => s p.1).zip as)) := by
  induction ps with
  | nil => exact Or.inr ⟨[], rfl, fun x => rfl⟩
  | cons p ps ih =>
    cases ha : axisOf r p.2 with
    | none =>
      left
      refine ⟨⟨p, by simp, ha⟩, fun x => ?_⟩
      simp only [List.foldlM_cons, npRoll, ha]
      rfl
    | some a =>
      rcases ih with ⟨⟨q, hq, hn⟩, h2⟩ | ⟨as, h1, h2⟩
      · left
        refine ⟨⟨q, by simp [hq], hn⟩, fun x => ?_⟩
        rw [List.foldlM_cons]
        simp only [npRoll, ha]
        exact h2 _
      · right
        refine ⟨a :: as, by simp [ha, h1], fun x => ?_⟩
        rw [List.foldlM_cons]
        simp only [npRoll, ha]
        exact h2 _

theorem rollDirect_eq (n0 a0 : Int) (ns as : List Int) (x : Arr r d K) :
    rollDirect (n0 :: ns) (a0 :: as) x = ((n0, a0) :: ns.zip as).foldlM (fun o p => npRoll o p.1 p.2) x := by
  simp only [rollDirect, List.foldlM_cons]
  rfl

theorem rollTranspose_eq (n0 a0 : Int) (ns as : List Int) (x : Arr r d K) :
    rollTranspose (n0 :: ns) (a0 :: as) x = ((n0, a0) :: ns.zip as).foldlM (fun o p => npRoll o (-p.1) p.2) x := by
  simp only [rollTranspose, List.foldlM_cons]
  rfl

/-- The direct and transpose operations fail together, or are opposite rolls. -/
theorem roll_cases (n axis : List Int) :
    (∃ e, ∀ x : Arr r d K, rollDirect n axis x = .error e ∧ rollTranspose n axis x = .error e) ∨
    ∃ ps : List (Int × Fin r), ∀ x : Arr r d K, rollDirect n axis x = .ok (rolls x ps) ∧ rollTranspose n axis x = .ok (rolls x (opposite ps)) := by
  match n, axis with
  | [], _ => exact Or.inl ⟨.indexError, fun x => ⟨rfl, rfl⟩⟩
  | _ :: _, [] => exact Or.inl ⟨.indexError, fun x => ⟨rfl, rfl⟩⟩
  | n0 :: ns, a0 :: as =>
    simp only [rollDirect_eq, rollTranspose_eq]
    generalize (n0, a0) :: ns.zip as = l
    rcases foldlM_npRoll (d := d) (K := K) (r := r) id l with ⟨⟨p, hp, hn⟩, h1⟩ | ⟨bs, h1, h2⟩ <;>
      rcases foldlM_npRoll (d := d) (K := K) (r := r) (fun z => -z) l with ⟨⟨p', hp', hn'⟩, h1'⟩ | ⟨bs', h1', h2'⟩
    · exact Or.inl ⟨.valueError, fun x => ⟨h1 x, h1' x⟩⟩
    · exfalso
      have : axisOf r p.2 ∈ l.map (fun p => axisOf r p.2) := List.mem_map_of_mem hp
      rw [h1', hn] at this
      simp at this
    · exfalso
      have : axisOf r p'.2 ∈ l.map (fun p => axisOf r p.2) := List.mem_map_of_mem hp'
      rw [h1, hn'] at this
      simp at this
    · right
      have hbs : bs = bs' := by
        have : bs.map some = bs'.map some := h1.symm.trans h1'
        exact (List.map_injective_iff.2 (Option.some_injective _)) this
      subst hbs
      refine ⟨(l.map fun (p : Int × Int) => id p.1).zip bs, fun x => ⟨h2 x, ?_⟩⟩
      rw [h2' x]
      congr 2
      rw [opposite, show (l.map fun p => -p.1) = (l.map fun p => id p.1).map (fun z => -z) by simp, List.zip_map_left]
      rfl

/-- C58.  The transpose undoes the direct operation, and conversely. -/
theorem C58_inverse (n axis : List Int) (x y : Arr r d K) :
    (rollDirect n axis x = .ok y → rollTranspose n axis y = .ok x) ∧ (rollTranspose n axis x = .ok y → rollDirect n axis y = .ok x) := by
  rcases roll_cases (d := d) (K := K) n axis with ⟨e, h⟩ | ⟨ps, h⟩
  · exact ⟨fun hx => by rw [(h x).1] at hx; simp at hx, fun hx => by rw [(h x).2] at hx; simp at hx⟩
  · constructor
    · intro hx
      rw [(h x).1] at hx
      have hx := Except.ok.inj hx
      rw [(h y).2, ← hx, rolls_opposite]
    · intro hx
      rw [(h x).2] at hx
      have hx := Except.ok.inj hx
      have := rolls_opposite (opposite ps) x
      rw [show opposite (opposite ps) = ps by simp [opposite, Function.comp_def]] at this
      rw [(h y).1, ← hx, this]

/-- The successive rolls permute the elements. -/
theorem rolls_perm (ps : List (Int × Fin r)) :
    ∃ σ : Equiv.Perm (∀ a : Fin r, Fin (d a)), ∀ (K : Type) (x : Arr r d K), rolls x ps = fun idx => x (σ idx) := by
  induction ps with
  | nil => exact ⟨Equiv.refl _, fun K x => rfl⟩
  | cons p ps ih =>
    obtain ⟨σ, hσ⟩ := ih
    have hinv : ∀ n : Int, Function.LeftInverse (fun idx : (∀ a : Fin r, Fin (d a)) => Function.update idx p.2 (rollIdx (idx p.2) (-n)))
        (fun idx => Function.update idx p.2 (rollIdx (idx p.2) n)) := by
      intro n idx
      simp only [Function.update_self, Function.update_idem, rollIdx_add, add_neg_cancel, rollIdx_zero, Function.update_eq_self]
    let τ : Equiv.Perm (∀ a : Fin r, Fin (d a)) :=
      ⟨fun idx => Function.update idx p.2 (rollIdx (idx p.2) p.1), fun idx => Function.update idx p.2 (rollIdx (idx p.2) (-p.1)),
        hinv p.1, by
          have := hinv (-p.1)
          rw [neg_neg] at this
          exact this⟩
    refine ⟨σ.trans τ, fun K x => ?_⟩
    show rolls (roll x p.1 p.2) ps = _
    rw [hσ]
    rfl

/-- C58.  Scalar products are preserved by both operations. -/
theorem C58_scalar [CommRing K] (n axis : List Int) (x x' y y' : Arr r d K) :
    (rollDirect n axis x = .ok y → rollDirect n axis x' = .ok y' → ∑ idx, y idx * y' idx = ∑ idx, x idx * x' idx) ∧
    (rollTranspose n axis x = .ok y → rollTranspose n axis x' = .ok y' → ∑ idx, y idx * y' idx = ∑ idx, x idx * x' idx) := by
  rcases roll_cases (d := d) (K := K) n axis with ⟨e, h⟩ | ⟨ps, h⟩
  · exact ⟨fun hx => by rw [(h x).1] at hx; simp at hx, fun hx => by rw [(h x).2] at hx; simp at hx⟩
  · constructor
    · intro hx hx'
      rw [(h x).1] at hx
      rw [(h x').1] at hx'
      obtain ⟨σ, hσ⟩ := rolls_perm (d := d) ps
      rw [← Except.ok.inj hx, ← Except.ok.inj hx', hσ, hσ]
      exact Equiv.sum_comp σ fun idx => x idx * x' idx
    · intro hx hx'
      rw [(h x).2] at hx
      rw [(h x').2] at hx'
      obtain ⟨σ, hσ⟩ := rolls_perm (d := d) (opposite ps)
      rw [← Except.ok.inj hx, ← Except.ok.inj hx', hσ, hσ]
      exact Equiv.sum_comp σ fun idx => x idx * x' idx

/-- C58.  The transpose is the adjoint. -/
theorem C58_adjoint [CommRing K] (n axis : List Int) (x x' y z : Arr r d K) (h1 : rollDirect n axis x = .ok y)
    (h2 : rollTranspose n axis x' = .ok z) : ∑ idx, y idx * x' idx = ∑ idx, x idx * z idx := by
  have h3 := (C58_inverse n axis x' z).2 h2
  exact (C58_scalar n axis x z y x').1 h1 h3

/-- C58.  Meaning of the direct operation along one axis: the element at i + n, modulo the length of the axis, is the element i of the
input; the other positions are not moved. -/
theorem C58_shift (n : Int) (a : Fin r) (x : Arr r d K) :
    ∃ y, rollDirect [n] [(a : Int)] x = .ok y ∧ rollDirect [n] [(a : Int) - r] x = .ok y ∧
      ∀ idx idx' : (∀ a : Fin r, Fin (d a)), (∀ b, b ≠ a → idx' b = idx b) →
        ((idx' a : Nat) : Int) = ((idx a : Nat) + n) % (d a : Nat) → y idx' = x idx := by
  have ha1 : axisOf r (a : Int) = some a := by
    unfold axisOf
    rw [dif_pos (by omega)]
    simp
  have ha2 : axisOf r ((a : Int) - r) = some a := by
    unfold axisOf
    rw [dif_neg (by omega), dif_pos (by omega)]
    simp
  refine ⟨roll x n a, ?_, ?_, ?_⟩
  · simp only [rollDirect_eq, List.zip_nil_left, List.foldlM_cons, npRoll, ha1]
    rfl
  · simp only [rollDirect_eq, List.zip_nil_left, List.foldlM_cons, npRoll, ha2]
    rfl
  · intro idx idx' hne he
    unfold roll
    congr 1
    funext b
    by_cases hb : b = a
    · subst hb
      rw [Function.update_self]
      apply Fin.ext
      simp only [rollIdx]
      rw [he, Int.emod_sub_emod, add_sub_cancel_right, Int.emod_eq_of_lt (by omega) (by exact_mod_cast (idx b).2)]
      simp
    · rw [Function.update_of_ne hb, hne b hb]

/-- C58.  The constructor and the operations succeed when there is at least one offset, as many offsets as axes, and valid axes; they
raise an exception otherwise. -/
theorem C58_decision (n axis : List Int) (x : Arr r d K) :
    (∃ y, rollInit (.tuple n) (some (.tuple axis)) = .ok (n, axis) ∧ rollDirect n axis x = .ok y) ↔
      n.length = axis.length ∧ n ≠ [] ∧ ∀ a ∈ axis, -(r : Int) ≤ a ∧ a < r := by
  have hax : ∀ a : Int, axisOf r a = none ↔ ¬ (-(r : Int) ≤ a ∧ a < r) := by
    intro a
    unfold axisOf
    split
    · simp; omega
    · split
      · simp; omega
      · simp; omega
  by_cases hl : n.length = axis.length
  · have hi : rollInit (.tuple n) (some (.tuple axis)) = .ok (n, axis) := by simp [rollInit, hl]
    simp only [hi, true_and, hl]
    match n, axis, hl with
    | [], [], _ => simp [rollDirect]
    | n0 :: ns, a0 :: as, hl =>
      rw [List.length_cons, List.length_cons, Nat.add_right_cancel_iff] at hl
      rw [rollDirect_eq]
      have hmap : ((n0, a0) :: ns.zip as).map (fun p => axisOf r p.2) = (a0 :: as).map (axisOf r) := by
        have : ((n0, a0) :: ns.zip as).map Prod.snd = a0 :: as := by
          rw [List.map_cons, List.map_snd_zip (by omega)]
        rw [← this, List.map_map]
        rfl
      rcases foldlM_npRoll (d := d) (K := K) (r := r) id ((n0, a0) :: ns.zip as) with ⟨⟨p, hp, hn⟩, h1⟩ | ⟨bs, h1, h2⟩
      · have h1 := h1 x
        simp only [id] at h1
        rw [h1]
        constructor
        · rintro ⟨y, hy⟩
          simp at hy
        · rintro ⟨-, hv⟩
          exfalso
          have : axisOf r p.2 ∈ (a0 :: as).map (axisOf r) := by
            rw [← hmap]
            exact List.mem_map_of_mem hp
          rw [hn, List.mem_map] at this
          obtain ⟨a, ha, hna⟩ := this
          exact (hax a).1 hna (hv a ha)
      · have h2 := h2 x
        simp only [id] at h2
        rw [h2]
        refine ⟨fun _ => ⟨by simp, ?_⟩, fun _ => ⟨_, rfl⟩⟩
        intro a ha
        by_contra hcon
        have : axisOf r a ∈ (a0 :: as).map (axisOf r) := List.mem_map_of_mem ha
        rw [← hmap, h1, (hax a).2 hcon] at this
        simp at this
  · constructor
    · rintro ⟨y, h, -⟩
      simp [rollInit, Ne.symm hl] at h
    · rintro ⟨h, -⟩
      exact absurd h hl

/-- C58.  The defaults: a scalar offset is along the last axis, a tuple of offsets along the last axes, and a scalar offset given with
several axes is used for each of them. -/
theorem C58_defaults (n : Int) (l as : List Int) :
    rollInit (.scalar n) none = .ok ([n], [-1]) ∧
    (∃ axis, rollInit (.tuple l) none = .ok (l, axis) ∧ axis.length = l.length ∧
      ∀ (i : Nat), i < l.length → axis[i]? = some (-(l.length : Int) + i)) ∧
    rollInit (.scalar n) (some (.tuple as)) = .ok (List.replicate as.length n, as) := by
  refine ⟨rfl, ?_, by simp [rollInit]⟩
  have hl : (progression (-(l.length : Int)) 1 l.length).length = l.length := by simp [progression]
  refine ⟨progression (-(l.length : Int)) 1 l.length, by simp [rollInit, hl], hl, ?_⟩
  intro i hi
  simp [progression, hi]

example : rollInit (.tuple [3, 4]) none = .ok ([3, 4], [-2, -1]) := by decide
example : ∃ y, rollDirect (r := 1) (d := fun _ => 3) [1] [-1] (fun i => (i 0 : Nat)) = .ok y ∧
    y (fun _ => 0) = 2 ∧ y (fun _ => 1) = 0 ∧ rollTranspose [1] [-1] y = .ok fun i => (i 0 : Nat) :=
  ⟨_, rfl, by decide, by decide, (C58_inverse _ _ _ _).1 rfl⟩

end Verif.Signal
