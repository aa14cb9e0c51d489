import Verif.Pointing.Lemmas

/-! Lemmas on masking and packing. -/
namespace Verif.Pointing
set_option linter.unusedSectionVars false
open Verif.Py Verif.Sparse Finset

variable {R : Type} [CommRing R] [DecidableEq R]

theorem packTable_get (junk : Int) : ∀ (c : Nat) (mask : List Bool) (k : Nat), mask[k]? = some false →
    (packTable junk c mask)[k]? = some ((c : Int) + rank mask k)
  | _, [], k, h => by simp at h
  | c, true :: ms, k, h => by
    cases k with
    | zero => simp at h
    | succ k =>
      rw [packTable, List.getElem?_cons_succ, packTable_get junk c ms k (by simpa using h)]
      simp [rank]
  | c, false :: ms, k, h => by
    cases k with
    | zero => simp [packTable, rank]
    | succ k =>
      rw [packTable, List.getElem?_cons_succ, packTable_get junk (c + 1) ms k (by simpa using h)]
      simp only [rank, List.take_succ_cons, List.countP_cons]
      simp
      omega

theorem packTable_length (junk : Int) : ∀ (c : Nat) (mask : List Bool), (packTable junk c mask).length = mask.length
  | _, [] => rfl
  | c, true :: ms => by simp [packTable, packTable_length junk c ms]
  | c, false :: ms => by simp [packTable, packTable_length junk (c + 1) ms]

theorem rank_lt {mask : List Bool} {k : Nat} (h : mask[k]? = some false) : rank mask k < mask.countP (· = false) := by
  induction mask generalizing k with
  | nil => simp at h
  | cons m ms ih =>
    cases k with
    | zero =>
      simp only [List.getElem?_cons_zero, Option.some.injEq] at h
      subst h
      simp [rank]
    | succ k =>
      have := ih (k := k) (by simpa using h)
      simp only [rank, List.take_succ_cons, List.countP_cons] at this ⊢
      omega

theorem count_false (mask : List Bool) : mask.length - mask.countP (· = true) = mask.countP (· = false) := by
  have := List.length_eq_countP_add_countP (fun b : Bool => b = true) (l := mask)
  have h2 : mask.countP (fun b => decide (b = false)) = mask.countP (fun a => decide ¬ (decide (a = true) = true)) := by
    congr 1
    funext b
    cases b <;> rfl
  rw [h2]
  omega

theorem restrict_length {α} (mask : List Bool) (map : List α) (h : map.length = mask.length) :
    (restrict mask map).length = mask.countP (· = false) := by
  induction mask generalizing map with
  | nil => simp [restrict]
  | cons m ms ih =>
    cases map with
    | nil => simp at h
    | cons x map =>
      have := ih map (by simpa using h)
      simp only [restrict] at this ⊢
      cases m <;> simp [this]

theorem restrict_get {α} (mask : List Bool) (map : List α) (h : map.length = mask.length) {k : Nat} (hk : mask[k]? = some false) :
    (restrict mask map)[rank mask k]? = map[k]? := by
  induction mask generalizing map k with
  | nil => simp at hk
  | cons m ms ih =>
    cases map with
    | nil => simp at h
    | cons x map =>
      have h : map.length = ms.length := by simpa using h
      cases k with
      | zero =>
        simp only [List.getElem?_cons_zero, Option.some.injEq] at hk
        subst hk
        simp [rank, restrict]
      | succ k =>
        have := ih map h (k := k) (by simpa using hk)
        simp only [restrict, rank] at this ⊢
        cases m <;> simpa using this

theorem zeroed_get (mask : List Bool) (map : List R) (h : map.length = mask.length) (k : Nat) :
    (zeroed mask map).getD k 0 = if mask[k]? = some true then 0 else map.getD k 0 := by
  rw [zeroed, List.getD_eq_getElem?_getD, List.getD_eq_getElem?_getD, List.getElem?_zipWith]
  by_cases hk : k < mask.length
  · rw [List.getElem?_eq_getElem hk, List.getElem?_eq_getElem (show k < map.length by omega)]
    cases mask[k] <;> simp
  · rw [List.getElem?_eq_none (show mask.length ≤ k by omega), List.getElem?_eq_none (show map.length ≤ k by omega)]
    simp

/-- An element that is kept by the packing. -/
def keeps (mask : List Bool) (e : Elem R) : Bool := e.value ≠ 0 ∧ mask[e.index.toNat]? = some false

/-- The renumbered element. -/
def renumber (mask : List Bool) (e : Elem R) : Elem R := ⟨(rank mask e.index.toNat : Nat), e.value⟩

theorem packRow_eq (table : List Int) (mask : List Bool) (fuel ip : Nat) (row : List (Elem R)) : packRow table mask fuel ip row =
    match row[ip]? with
    | none => .ok row
    | some e =>
      if e.index = -1 then .ok row
      else
        match fuel with
        | 0 => .error .recursionError
        | fuel + 1 =>
          (rd mask e.index).bind fun m =>
            if e.value = 0 ∨ m = true then
              packRow table mask fuel ip (row.take ip ++ row.drop (ip + 1) ++ [⟨-1, 0⟩])
            else
              (rd table e.index).bind fun t =>
                packRow table mask fuel (ip + 1) (row.set ip ⟨t, e.value⟩) := by
  cases fuel <;> (rw [packRow]; rfl)

/-- The packing of a sample whose first elements `done` have been treated. -/
theorem packRow_ok {junk : Int} {mask : List Bool} : ∀ (rest done : List (Elem R)) (k fuel : Nat), rest.length ≤ fuel →
    (∀ e ∈ rest, EValid mask.length e) →
    packRow (packTable junk 0 mask) mask fuel done.length (done ++ rest ++ List.replicate k ⟨-1, 0⟩) =
      .ok (done ++ ((seen rest).filter (keeps mask)).map (renumber mask) ++ rest.drop (seen rest).length ++
        List.replicate (k + ((seen rest).length - ((seen rest).filter (keeps mask)).length)) ⟨-1, 0⟩)
  | [], done, k, fuel, _, _ => by
    rw [packRow_eq]
    simp only [seen, List.takeWhile_nil, List.append_nil, List.filter_nil, List.map_nil, List.length_nil, List.drop_nil, Nat.sub_self,
      Nat.add_zero]
    rw [List.getElem?_append_right (le_refl _), Nat.sub_self]
    cases k with
    | zero => simp
    | succ k => simp [List.replicate_succ]
  | e :: es, done, k, fuel, hf, hv => by
    rw [packRow_eq]
    have hget : (done ++ e :: es ++ List.replicate k ⟨-1, 0⟩)[done.length]? = some e := by
      rw [List.append_assoc, List.getElem?_append_right (le_refl _), Nat.sub_self]
      rfl
    rw [hget]
    by_cases hi : e.index = -1
    · simp [seen_cons, hi]
    · obtain ⟨h0, h1⟩ := (hv e (List.mem_cons_self ..)).resolve_left hi
      have hv' : ∀ a ∈ es, EValid mask.length a := fun a ha => hv a (List.mem_cons_of_mem _ ha)
      cases fuel with
      | zero => simp at hf
      | succ fuel =>
        have hf' : es.length ≤ fuel := by simpa using hf
        simp only [if_neg hi]
        rw [rd_ok h0 h1 true, Except.bind, seen_cons, if_neg hi]
        have hm : mask[e.index.toNat]? = some (mask.getD e.index.toNat true) := by
          rw [List.getElem?_eq_getElem (show e.index.toNat < mask.length by omega), List.getD_eq_getElem?_getD,
            List.getElem?_eq_getElem (show e.index.toNat < mask.length by omega)]
          rfl
        by_cases hr : e.value = 0 ∨ mask.getD e.index.toNat true = true
        · rw [if_pos hr]
          have hk : keeps mask e = false := by
            rw [keeps, decide_eq_false_iff_not]
            rintro ⟨a, b⟩
            rw [hm, Option.some.injEq] at b
            rcases hr with hr | hr
            · exact a hr
            · rw [hr] at b; simp at b
          have e1 : (done ++ e :: es ++ List.replicate k (⟨-1, 0⟩ : Elem R)).take done.length ++
              (done ++ e :: es ++ List.replicate k (⟨-1, 0⟩ : Elem R)).drop (done.length + 1) ++ [⟨-1, 0⟩] =
              done ++ es ++ List.replicate (k + 1) (⟨-1, 0⟩ : Elem R) := by
            have a1 : (done ++ e :: es ++ List.replicate k (⟨-1, 0⟩ : Elem R)) = done ++ (e :: (es ++ List.replicate k ⟨-1, 0⟩)) := by simp
            rw [a1, List.take_left, List.drop_length_add_append, List.replicate_succ']
            simp
          rw [e1, packRow_ok es done (k + 1) fuel hf' hv']
          have hle := List.length_filter_le (keeps mask) (seen es)
          rw [List.filter_cons_of_neg (by simp [hk]), List.length_cons, List.drop_succ_cons]
          have e3 : k + 1 + ((seen es).length - ((seen es).filter (keeps mask)).length) =
              k + ((seen es).length + 1 - ((seen es).filter (keeps mask)).length) := by omega
          rw [e3]
        · rw [if_neg hr]
          have hr' := not_or.1 hr
          have hmf : mask[e.index.toNat]? = some false := by rw [hm]; simpa using hr'.2
          have hk : keeps mask e = true := by
            rw [keeps, decide_eq_true_eq]
            exact ⟨hr'.1, hmf⟩
          have ht := packTable_get junk 0 mask _ hmf
          rw [rd_ok h0 (by rw [packTable_length]; exact h1) 0, List.getD_eq_getElem?_getD, ht]
          simp only [Except.bind, Option.getD_some]
          have e2 : (done ++ e :: es ++ List.replicate k (⟨-1, 0⟩ : Elem R)).set done.length ⟨((0 : Nat) : Int) + rank mask e.index.toNat, e.value⟩ =
              (done ++ [renumber mask e]) ++ es ++ List.replicate k (⟨-1, 0⟩ : Elem R) := by
            rw [List.append_assoc, List.set_append_right _ _ (le_refl _), Nat.sub_self]
            simp [renumber]
          rw [e2]
          have := packRow_ok (junk := junk) es (done ++ [renumber mask e]) k fuel hf' hv'
          rw [List.length_append, List.length_singleton] at this
          rw [this, List.filter_cons_of_pos hk, List.length_cons, List.length_cons, List.drop_succ_cons, List.map_cons]
          simp

/-- The packing of a sample. -/
theorem packRow_row {junk : Int} {mask : List Bool} {row : List (Elem R)} (hv : ∀ e ∈ row, EValid mask.length e) :
    ∃ tail, packRow (packTable junk 0 mask) mask row.length 0 row =
        .ok (((seen row).filter (keeps mask)).map (renumber mask) ++ tail) ∧ (∀ e ∈ tail.head?, e.index = -1) ∧
      (((seen row).filter (keeps mask)).map (renumber mask) ++ tail).length = row.length ∧
      (∀ e ∈ tail, e ∈ row.drop (seen row).length ∨ e.index = -1) := by
  have h := packRow_ok (junk := junk) row [] 0 row.length le_rfl hv
  simp only [List.length_nil, List.nil_append, List.replicate_zero, List.append_nil, Nat.zero_add] at h
  refine ⟨row.drop (seen row).length ++ List.replicate ((seen row).length - ((seen row).filter (keeps mask)).length) ⟨-1, 0⟩,
    by rw [h, List.append_assoc], ?_, ?_, ?_⟩
  · intro e he
    have hd : row.drop (seen row).length = row.dropWhile fun e => e.index ≠ -1 := by
      have := List.takeWhile_append_dropWhile (p := fun e : Elem R => decide (e.index ≠ -1)) (l := row)
      have h2 := List.drop_left (l₁ := seen row) (l₂ := row.dropWhile fun e => decide (e.index ≠ -1))
      rw [seen] at h2 ⊢
      rw [this] at h2
      exact h2
    rw [hd] at he
    cases hc : row.dropWhile fun e => decide (e.index ≠ -1) with
    | nil =>
      rw [hc, List.nil_append] at he
      cases hn : (seen row).length - ((seen row).filter (keeps mask)).length with
      | zero => rw [hn] at he; simp at he
      | succ n => rw [hn] at he; simp [List.replicate_succ] at he; rw [← he]
    | cons a l =>
      rw [hc] at he
      simp only [List.cons_append, List.head?_cons, Option.mem_def, Option.some.injEq] at he
      have := List.head?_dropWhile_not (fun e : Elem R => decide (e.index ≠ -1)) row
      rw [hc] at this
      simp only [List.head?_cons] at this
      rw [← he]
      simpa using this
  · have h1 := List.length_filter_le (keeps mask) (seen row)
    have h2 : (seen row).length ≤ row.length := (List.takeWhile_prefix _).length_le
    simp only [List.length_append, List.length_map, List.length_drop, List.length_replicate]
    omega
  · intro e he
    rcases List.mem_append.1 he with he | he
    · exact .inl he
    · rw [List.mem_replicate] at he
      rw [he.2]
      exact .inr rfl

/-- The elements of a packed sample. -/
theorem seen_packed {mask : List Bool} {l tail : List (Elem R)} (h : ∀ e ∈ tail.head?, e.index = -1) :
    seen (l.map (renumber mask) ++ tail) = l.map (renumber mask) := by
  induction l with
  | nil =>
    cases tail with
    | nil => rfl
    | cons a t =>
      have := h a (by simp)
      simp [seen_cons, this]
  | cons e l ih =>
    rw [List.map_cons, List.cons_append, seen_cons, ih, if_neg]
    simp only [renumber]
    omega

end Verif.Pointing
