import Verif.Pointing.Spec
import Verif.Sparse.Lemmas
import Verif.Py.Lemmas
import Mathlib.Data.List.TakeWhile

/-! Lemmas on the legacy pointing matrices. -/
namespace Verif.Pointing
set_option linter.unusedSectionVars false
open Verif.Py Verif.Sparse Finset

variable {R : Type} [CommRing R] [DecidableEq R]

/-- A valid element. -/
def EValid (n : Nat) (e : Elem R) : Prop := e.index = -1 ∨ (0 ≤ e.index ∧ e.index < n)

theorem rd_ok {α} {v : List α} {i : Int} (h0 : 0 ≤ i) (h1 : i < v.length) (d : α) : rd v i = .ok (v.getD i.toNat d) := by
  rw [rd, if_neg (by omega), readAt, List.getElem?_eq_getElem (by omega), List.getD_eq_getElem?_getD, List.getElem?_eq_getElem (by omega)]
  rfl

theorem addI_adds {N : Nat} {i : Int} (h0 : 0 ≤ i) (h1 : i < N) (x : R) :
    Adds N (fun o => addI o i x) (fun q => if i = (q : Int) then x else 0) := by
  refine ((Adds.addAt (p := i.toNat) (by omega) x).congr_fun ?_).congr ?_
  · intro o _
    rw [addI, if_neg (by omega)]
  · intro q _
    by_cases hq : q = i.toNat
    · rw [if_pos hq, if_pos (by omega)]
    · rw [if_neg hq, if_neg (by omega)]

theorem seen_cons (e : Elem R) (es : List (Elem R)) : seen (e :: es) = if e.index = -1 then [] else e :: seen es := by
  rw [seen, List.takeWhile_cons]
  by_cases h : e.index = -1 <;> simp [h, seen]

theorem mem_seen {row : List (Elem R)} {e : Elem R} (h : e ∈ seen row) : e ∈ row ∧ e.index ≠ -1 :=
  ⟨(List.takeWhile_prefix _).subset h, by have := List.mem_takeWhile_imp h; simpa using this⟩

theorem entry_cons (e : Elem R) (es : List (Elem R)) (k : Nat) :
    entry (e :: es) k = if e.index = -1 then 0 else (if e.index = (k : Int) then e.value else 0) + entry es k := by
  rw [entry, seen_cons]
  by_cases h : e.index = -1 <;> simp [h, entry]

theorem pixel_sum {e : Elem R} {n : Nat} (h0 : 0 ≤ e.index) (h1 : e.index < n) (f : Nat → R) :
    ∑ k ∈ range n, (if e.index = (k : Int) then e.value else 0) * f k = e.value * f e.index.toNat := by
  rw [Finset.sum_eq_single e.index.toNat]
  · rw [if_pos (by omega)]
  · intro k _ hk
    rw [if_neg (by omega), zero_mul]
  · intro h
    exact absurd (Finset.mem_range.2 (by omega)) h

theorem project_cons {e : Elem R} {n : Nat} (h0 : 0 ≤ e.index) (h1 : e.index < n) (es : List (Elem R)) (map : List R) :
    project n (e :: es) map = e.value * map.getD e.index.toNat 0 + project n es map := by
  rw [project, project, ← pixel_sum h0 h1 fun k => map.getD k 0, ← Finset.sum_add_distrib]
  refine Finset.sum_congr rfl fun k _ => ?_
  rw [entry_cons, if_neg (by omega), add_mul]

theorem project_missing {e : Elem R} {n : Nat} (h : e.index = -1) (es : List (Elem R)) (map : List R) : project n (e :: es) map = 0 := by
  rw [project]
  refine Finset.sum_eq_zero fun k _ => ?_
  rw [entry_cons, if_pos h, zero_mul]

theorem project_nil {n : Nat} (map : List R) : project n [] map = 0 := by
  rw [project]
  refine Finset.sum_eq_zero fun k _ => ?_
  simp [entry, seen]

/-- The projection of a sample, as a sum over its elements. -/
theorem project_seen {n : Nat} {row : List (Elem R)} (h : ∀ e ∈ row, EValid n e) (map : List R) :
    project n row map = ((seen row).map fun e => e.value * map.getD e.index.toNat 0).sum := by
  induction row with
  | nil => rw [project_nil]; simp [seen]
  | cons e es ih =>
    have ih := ih fun a ha => h a (List.mem_cons_of_mem _ ha)
    rw [seen_cons]
    by_cases hi : e.index = -1
    · rw [project_missing hi, if_pos hi]; simp
    · obtain ⟨h0, h1⟩ := (h e (List.mem_cons_self ..)).resolve_left hi
      rw [if_neg hi, project_cons h0 h1, ih, List.map_cons, List.sum_cons]

theorem directRow_ok {map : List R} {n : Nat} (hm : map.length = n) : ∀ (row : List (Elem R)) (acc : R), (∀ e ∈ row, EValid n e) →
    directRow map row acc = .ok (acc + project n row map)
  | [], acc, _ => by rw [directRow, project_nil, add_zero]
  | e :: es, acc, h => by
    rw [directRow]
    by_cases hi : e.index = -1
    · rw [if_pos hi, project_missing hi, add_zero]
    · obtain ⟨h0, h1⟩ := (h e (List.mem_cons_self ..)).resolve_left hi
      rw [if_neg hi, rd_ok h0 (by omega) 0, Except.bind, directRow_ok hm es _ fun a ha => h a (List.mem_cons_of_mem _ ha),
        project_cons h0 h1]
      congr 1
      ring

theorem pmatrixDirect_ok {P : PMat R} {n : Nat} (hv : Valid P n) {map : List R} (hm : map.length = n) :
    pmatrixDirect P.rows map = .ok (P.rows.map fun row => project n row map) := by
  refine mapM_ok' fun row hr => ?_
  rw [directRow_ok hm _ _ (hv row hr), zero_add]

/-- The value written for a sample with one element. -/
def oneValue (n : Nat) (map : List R) (p : List (Elem R) × R) : R := if seen p.1 = [] then p.2 else project n p.1 map

theorem directOne_ok {map : List R} {n : Nat} (hm : map.length = n) {row : List (Elem R)} (hl : row.length = 1)
    (hv : ∀ e ∈ row, EValid n e) (old : R) : directOne map row old = .ok (oneValue n map (row, old)) := by
  obtain ⟨e, rfl⟩ := List.length_eq_one_iff.1 hl
  rw [directOne, oneValue, seen_cons]
  by_cases hi : e.index = -1
  · rw [if_neg (by omega), if_pos (by rw [if_pos hi])]
  · obtain ⟨h0, h1⟩ := (hv e (List.mem_cons_self ..)).resolve_left hi
    simp only
    rw [if_pos h0, if_neg (by rw [if_neg hi]; simp), project_cons h0 h1, project_nil, add_zero, rd_ok h0 (by omega) 0, Except.map,
      mul_comm]

theorem direct_one {P : PMat R} {n : Nat} (hw : Wf P) (hv : Valid P n) (h1 : P.npps = 1) {map out : List R} (hm : map.length = n)
    (ho : out.length = P.rows.length) : direct P map out = .ok ((P.rows.zip out).map (oneValue n map)) := by
  rw [direct, if_neg (by omega), if_pos h1]
  refine mapM_ok' fun p hp => ?_
  have := (List.of_mem_zip hp).1
  exact directOne_ok hm (by rw [hw _ this, h1]) (hv _ this) _

theorem direct_many {P : PMat R} {n : Nat} (hv : Valid P n) (h1 : P.npps ≠ 1) {map out : List R} (hm : map.length = n)
    (ho : out.length = P.rows.length) : direct P map out = .ok (P.rows.map fun row => project n row map) := by
  rw [direct, if_neg (by omega), if_neg h1, pmatrixDirect_ok hv hm]

/-! ### Transpose -/

theorem transposeRow_adds {n : Nat} (x : R) : ∀ row : List (Elem R), (∀ e ∈ row, EValid n e) →
    Adds n (transposeRow x row) (fun k => entry row k * x)
  | [], _ => ((Adds.skip n).congr_fun fun _ _ => rfl).congr fun k _ => by simp [entry, seen]
  | e :: es, h => by
    by_cases hi : e.index = -1
    · refine ((Adds.skip n).congr_fun fun o _ => ?_).congr fun k _ => ?_
      · rw [transposeRow, if_pos hi]
      · rw [entry_cons, if_pos hi, zero_mul]
    · obtain ⟨h0, h1⟩ := (h e (List.mem_cons_self ..)).resolve_left hi
      refine (((addI_adds h0 h1 (e.value * x)).seq
        (transposeRow_adds x es fun a ha => h a (List.mem_cons_of_mem _ ha))).congr_fun fun o _ => ?_).congr fun k _ => ?_
      · rw [transposeRow, if_neg hi]
      · rw [entry_cons, if_neg hi]
        split_ifs <;> ring

theorem transposeOne_adds {n : Nat} (x : R) {row : List (Elem R)} (hl : row.length = 1) (h : ∀ e ∈ row, EValid n e) :
    Adds n (transposeOne x row) (fun k => entry row k * x) := by
  obtain ⟨e, rfl⟩ := List.length_eq_one_iff.1 hl
  refine (transposeRow_adds x [e] h).congr_fun fun o ho => ?_
  rw [transposeOne, transposeRow]
  by_cases hi : e.index = -1
  · rw [if_pos hi, if_neg (by omega)]
  · obtain ⟨h0, h1⟩ := (h e (List.mem_cons_self ..)).resolve_left hi
    rw [if_neg hi, if_pos h0]
    obtain ⟨o', a, _⟩ := addI_adds h0 h1 (e.value * x) o ho
    simp only at a
    rw [a]
    rfl

theorem transpose_adds {P : PMat R} {n : Nat} (hw : Wf P) (hv : Valid P n) {t : List R} (ht : t.length = P.rows.length) :
    Adds n (transpose P t) (backproject P.rows t) := by
  have hz : ∀ k, ((P.rows.zip t).map fun p => entry p.1 k * p.2).sum = backproject P.rows t k := by
    intro k
    rw [backproject, List.zip_eq_zipWith, List.map_zipWith]
  by_cases h1 : P.npps = 1
  · refine ((Adds.foldList (l := P.rows.zip t) (f := fun map p => transposeOne p.2 p.1 map) (g := fun p k => entry p.1 k * p.2)
      fun p hp => ?_).congr_fun fun o _ => ?_).congr fun k _ => hz k
    · have := (List.of_mem_zip hp).1
      exact transposeOne_adds p.2 (by rw [hw _ this, h1]) (hv _ this)
    · rw [transpose, if_neg (by omega), if_pos h1]
  · refine ((Adds.foldList (l := P.rows.zip t) (f := fun map p => transposeRow p.2 p.1 map) (g := fun p k => entry p.1 k * p.2)
      fun p hp => ?_).congr_fun fun o _ => ?_).congr fun k _ => hz k
    · exact transposeRow_adds p.2 _ (hv _ (List.of_mem_zip hp).1)
    · rw [transpose, if_neg (by omega), if_neg h1]

/-- The back projection when the matrix is empty. -/
theorem backproject_size {P : PMat R} (hw : Wf P) (h : P.size = 0) (t : List R) (k : Nat) : backproject P.rows t k = 0 := by
  rw [PMat.size, Nat.mul_eq_zero] at h
  rw [backproject]
  refine List.sum_eq_zero fun x hx => ?_
  obtain ⟨i, hi, rfl⟩ := List.mem_iff_getElem.1 hx
  rw [List.getElem_zipWith]
  rcases h with h | h
  · simp only [List.length_zipWith] at hi
    omega
  · have hr : P.rows[i]'(by simp only [List.length_zipWith] at hi; omega) = [] :=
      List.length_eq_zero_iff.1 (by rw [hw _ (List.getElem_mem _), h])
    rw [hr]
    simp [entry, seen]

theorem project_size {P : PMat R} (hw : Wf P) (h : P.size = 0) (n : Nat) (map : List R) :
    (P.rows.map fun row => project n row map) = List.replicate P.rows.length 0 := by
  rw [PMat.size, Nat.mul_eq_zero] at h
  rw [List.eq_replicate_iff]
  refine ⟨by simp, fun x hx => ?_⟩
  obtain ⟨row, hr, rfl⟩ := List.mem_map.1 hx
  rcases h with h | h
  · have h := List.length_eq_zero_iff.1 h
    simp [h] at hr
  · have h0 : row = [] := List.length_eq_zero_iff.1 (by rw [hw _ hr, h])
    rw [h0, project_nil]

/-! ### Scalar products -/

theorem dot_eq (a b : List R) {n : Nat} (ha : a.length = n) (hb : b.length = n) : dot a b = ∑ k ∈ range n, a.getD k 0 * b.getD k 0 := by
  induction a generalizing b n with
  | nil => subst ha; simp [dot]
  | cons x a ih =>
    cases b with
    | nil => simp at ha hb; omega
    | cons y b =>
      cases n with
      | zero => simp at ha
      | succ n =>
        have := ih b (by simpa using ha) (by simpa using hb)
        rw [dot] at this ⊢
        rw [List.zipWith_cons_cons, List.sum_cons, this, Finset.sum_range_succ']
        simp [add_comm]

/-- The dense product and its transpose are adjoint. -/
theorem dense_adjoint (rows : List (List (Elem R))) (n : Nat) (map t : List R) (hm : map.length = n) (ht : t.length = rows.length)
    {b : List R} (hb : b.length = n) (hb' : ∀ k, k < n → b.getD k 0 = backproject rows t k) :
    dot (rows.map fun row => project n row map) t = dot map b := by
  rw [dot_eq map b hm hb]
  have : ∑ k ∈ range n, map.getD k 0 * b.getD k 0 = ∑ k ∈ range n, map.getD k 0 * backproject rows t k :=
    Finset.sum_congr rfl fun k hk => by rw [hb' k (Finset.mem_range.1 hk)]
  rw [this]
  clear this hb hb' b
  induction rows generalizing t with
  | nil => simp [dot, backproject]
  | cons row rows ih =>
    cases t with
    | nil => simp at ht
    | cons x t =>
      have ih := ih t (by simpa using ht)
      rw [dot] at ih ⊢
      rw [List.map_cons, List.zipWith_cons_cons, List.sum_cons, ih, project, Finset.sum_mul, ← Finset.sum_add_distrib]
      refine Finset.sum_congr rfl fun k _ => ?_
      simp only [backproject, List.zipWith_cons_cons, List.sum_cons]
      ring

end Verif.Pointing
