import Verif.Dist.Model
import Verif.Dist.PropsHeader
import Mathlib.Tactic.Linarith
import Mathlib.Data.List.Perm.Basic

/-! Property C49: parallel output; C77: the data read back. -/
namespace Verif.Dist
open Verif.Py

variable {β : Type}

theorem writeAt_length (zero : β) (file bytes : List β) (off : Nat) :
    (writeAt zero file off bytes).length = max file.length (off + bytes.length) := by
  simp only [writeAt, List.length_append, List.length_take, List.length_drop, List.length_replicate]
  omega

theorem writeAt_in (zero : β) (file bytes : List β) (off j : Nat) (hj : j < bytes.length) :
    (writeAt zero file off bytes)[off + j]? = bytes[j]? := by
  have h : ((file ++ List.replicate (off - file.length) zero).take off).length = off := by
    rw [List.length_take, List.length_append, List.length_replicate]; omega
  rw [writeAt, List.getElem?_append_left (by rw [List.length_append, h]; omega),
    List.getElem?_append_right (by rw [h]; omega), h, Nat.add_sub_cancel_left]

theorem writeAt_out (zero : β) (file bytes : List β) (off k : Nat) (hk : k < file.length) (h : k < off ∨ off + bytes.length ≤ k) :
    (writeAt zero file off bytes)[k]? = file[k]? := by
  have hl : ((file ++ List.replicate (off - file.length) zero).take off).length = off := by
    rw [List.length_take, List.length_append, List.length_replicate]; omega
  rw [writeAt]
  rcases h with h | h
  · rw [List.getElem?_append_left (by rw [List.length_append, hl]; omega), List.getElem?_append_left (by rw [hl]; omega),
      List.getElem?_take_of_lt h, List.getElem?_append_left hk]
  · rw [List.getElem?_append_right (by rw [List.length_append, hl]; omega), List.length_append, hl, List.getElem?_drop,
      show off + bytes.length + (k - (off + bytes.length)) = k by omega, List.getElem?_append_left hk]

/-- Bytes of a list of local arrays that were written, whatever the order. -/
theorem writes_ok (zero : β) (head full : List β) (off : Nat → Nat) (bytes : Nat → List β) : ∀ (order : List Nat) (file : List β) (done : Nat → Prop),
    (∀ r ∈ order, off r + (bytes r).length ≤ full.length ∧ ∀ j, j < (bytes r).length → full[off r + j]? = (bytes r)[j]?) →
    head.length ≤ full.length → (∀ k : Nat, k < head.length ∨ done k → k < full.length ∧ file[k]? = full[k]?) → file.length ≤ full.length →
    (∀ k : Nat, (k < head.length ∨ done k ∨ ∃ r ∈ order, off r ≤ k ∧ k < off r + (bytes r).length) →
      (order.foldl (fun file r => writeAt zero file (off r) (bytes r)) file)[k]? = full[k]?) ∧
    (order.foldl (fun file r => writeAt zero file (off r) (bytes r)) file).length ≤ full.length
  | [], file, done, _, _, hd, hf => by
    refine ⟨?_, hf⟩
    rintro k (h | h | ⟨r, hr, _⟩)
    · exact (hd k (Or.inl h)).2
    · exact (hd k (Or.inr h)).2
    · simp at hr
  | r :: order, file, done, hb, hh, hd, hf => by
    obtain ⟨hr, hr'⟩ := hb r (List.mem_cons_self ..)
    have := writes_ok zero head full off bytes order (writeAt zero file (off r) (bytes r))
      (fun k => done k ∨ (off r ≤ k ∧ k < off r + (bytes r).length)) (fun r' h => hb r' (List.mem_cons_of_mem _ h)) hh ?_ ?_
    · refine ⟨?_, this.2⟩
      intro k hk
      refine this.1 k ?_
      rcases hk with h | h | ⟨r', hr', h⟩
      · exact Or.inl h
      · exact Or.inr (Or.inl (Or.inl h))
      · rcases List.mem_cons.1 hr' with rfl | hr'
        · exact Or.inr (Or.inl (Or.inr h))
        · exact Or.inr (Or.inr ⟨r', hr', h⟩)
    · intro k hk
      by_cases hin : off r ≤ k ∧ k < off r + (bytes r).length
      · refine ⟨by omega, ?_⟩
        have e : off r + (k - off r) = k := by omega
        have h1 := writeAt_in zero file (bytes r) (off r) (k - off r) (by omega)
        have h2 := hr' (k - off r) (by omega)
        rw [e] at h1 h2
        rw [h1, h2]
      · have hk' : k < full.length ∧ file[k]? = full[k]? := by
          refine hd k ?_
          tauto
        refine ⟨hk'.1, ?_⟩
        have hkf : k < file.length := by
          by_contra hc
          rw [List.getElem?_eq_none (by omega), List.getElem?_eq_getElem hk'.1] at hk'
          simp at hk'
        rw [writeAt_out _ _ _ _ _ hkf (by omega), hk'.2]
    · rw [writeAt_length]
      omega

theorem flatMap_take_length {locals : List (Nat × List β)} {n c : Nat}
    (hlen : ∀ r : Nat, ∀ p ∈ locals[r]?, p.1 = splitLen n locals.length r ∧ p.2.length = p.1 * c) : ∀ r, r ≤ locals.length →
    ((locals.take r).flatMap (·.2)).length = splitStart n locals.length r * c
  | 0, _ => by simp [splitStart_zero]
  | r + 1, h => by
    have hr : r < locals.length := by omega
    obtain ⟨h1, h2⟩ := hlen r locals[r] (by rw [List.getElem?_eq_getElem hr]; rfl)
    rw [List.take_succ_eq_append_getElem hr, List.flatMap_append, List.length_append, flatMap_take_length hlen r (by omega),
      List.flatMap_singleton, h2, h1, splitStart_succ, Nat.add_mul]

/-- C49 when every process has rows to write: whatever the order in which the processes write, the file is made of the header, the local
arrays one after another, and zeros up to a multiple of 2880 bytes. -/
theorem C49_file_partial (zero : β) (head : List β) (chunk itemsize : Nat) (locals : List (Nat × List β)) (order : List Nat)
    (hn : locals.length ≤ (locals.map (·.1)).sum) (hs : 0 < locals.length) (hchunk : 0 < chunk)
    (hlen : ∀ r : Nat, ∀ p ∈ locals[r]?, p.1 = splitLen (locals.map (·.1)).sum locals.length r ∧ p.2.length = p.1 * chunk * itemsize)
    (horder : order.Perm (List.range locals.length)) :
    ∃ npad, 0 < npad ∧ npad ≤ 2880 ∧
      writeFits zero head chunk itemsize locals order = .ok (head ++ locals.flatMap (·.2) ++ List.replicate npad zero) ∧
      (2880 ∣ head.length → 2880 ∣ (head ++ locals.flatMap (·.2) ++ List.replicate npad zero).length) := by
  generalize hN : (locals.map (·.1)).sum = n at *
  have hlen' : ∀ r : Nat, ∀ p ∈ locals[r]?, p.1 = splitLen n locals.length r ∧ p.2.length = p.1 * (chunk * itemsize) := by
    intro r p hp
    obtain ⟨h1, h2⟩ := hlen r p hp
    exact ⟨h1, by rw [h2, Nat.mul_assoc]⟩
  have htot : (locals.flatMap (·.2)).length = n * (chunk * itemsize) := by
    have := flatMap_take_length hlen' locals.length (le_refl _)
    rwa [List.take_length, splitStart_last hs] at this
  have hdata : n * chunk * itemsize = n * (chunk * itemsize) := Nat.mul_assoc ..
  -- the writes
  have hbytes : ∀ r ∈ order, head.length + splitStart n locals.length r * chunk * itemsize + (locals.getD r (0, [])).2.length
        ≤ (head ++ locals.flatMap (·.2)).length ∧
      ∀ j, j < (locals.getD r (0, [])).2.length → (head ++ locals.flatMap (·.2))[head.length + splitStart n locals.length r * chunk * itemsize + j]?
        = (locals.getD r (0, [])).2[j]? := by
    intro r hr
    have hr' : r < locals.length := List.mem_range.1 (horder.mem_iff.1 hr)
    have hget : locals.getD r (0, []) = locals[r] := by rw [List.getD_eq_getElem?_getD, List.getElem?_eq_getElem hr']; rfl
    obtain ⟨h1, h2⟩ := hlen' r locals[r] (by rw [List.getElem?_eq_getElem hr']; rfl)
    rw [hget]
    have hsplit : locals.flatMap (·.2) = (locals.take r).flatMap (·.2) ++ (locals[r].2 ++ (locals.drop (r + 1)).flatMap (·.2)) := by
      conv_lhs => rw [← List.take_append_drop r locals]
      rw [List.flatMap_append, List.drop_eq_getElem_cons hr', List.flatMap_cons]
    have hpre := flatMap_take_length hlen' r (by omega)
    constructor
    · rw [List.length_append, htot, h2, h1, Nat.mul_assoc, Nat.add_assoc, ← Nat.add_mul]
      exact Nat.add_le_add_left (Nat.mul_le_mul_right _ (splitStop_le hr')) _
    · intro j hj
      rw [Nat.add_assoc, List.getElem?_append_right (by omega), Nat.add_sub_cancel_left, hsplit,
        List.getElem?_append_right (by rw [hpre, Nat.mul_assoc]; omega), hpre, Nat.mul_assoc, Nat.add_sub_cancel_left,
        List.getElem?_append_left hj]
  have hfile : order.foldl (fun file r => writeAt zero file (head.length + splitStart n locals.length r * chunk * itemsize)
      (locals.getD r (0, [])).2) head = head ++ locals.flatMap (·.2) := by
    obtain ⟨h1, h2⟩ := writes_ok zero head (head ++ locals.flatMap (·.2))
      (fun r => head.length + splitStart n locals.length r * chunk * itemsize) (fun r => (locals.getD r (0, [])).2) order head (fun _ => False)
      hbytes (by simp) (by
        rintro k (h | h)
        · rw [List.length_append, List.getElem?_append_left h]
          exact ⟨by omega, rfl⟩
        · exact h.elim) (by simp)
    apply List.ext_getElem?
    intro k
    rcases Nat.lt_or_ge k (head ++ locals.flatMap (·.2)).length with hk | hk
    · refine h1 k ?_
      rcases Nat.lt_or_ge k head.length with hk' | hk'
      · exact Or.inl hk'
      · right; right
        -- the process that writes this byte
        rw [List.length_append, htot] at hk
        have hw : ∀ m, m ≤ locals.length → k - head.length < splitStart n locals.length m * (chunk * itemsize) →
            ∃ r, r < m ∧ splitStart n locals.length r * (chunk * itemsize) ≤ k - head.length ∧
              k - head.length < splitStart n locals.length (r + 1) * (chunk * itemsize) := by
          intro m
          induction m with
          | zero => intro _ h; rw [splitStart_zero, Nat.zero_mul] at h; omega
          | succ m ih =>
            intro hm h
            rcases Nat.lt_or_ge (k - head.length) (splitStart n locals.length m * (chunk * itemsize)) with h' | h'
            · obtain ⟨r, hr, h3⟩ := ih (by omega) h'
              exact ⟨r, by omega, h3⟩
            · exact ⟨m, by omega, h', h⟩
        obtain ⟨r, hr, h3, h4⟩ := hw locals.length (le_refl _) (by rw [splitStart_last hs]; omega)
        obtain ⟨h5, h6⟩ := hlen' r locals[r] (by rw [List.getElem?_eq_getElem hr]; rfl)
        have hget : locals.getD r (0, []) = locals[r] := by rw [List.getD_eq_getElem?_getD, List.getElem?_eq_getElem hr]; rfl
        refine ⟨r, horder.mem_iff.2 (List.mem_range.2 hr), ?_⟩
        rw [splitStart_succ, Nat.add_mul] at h4
        rw [hget, h6, h5, Nat.mul_assoc]
        omega
    · rw [List.getElem?_eq_none (by omega), List.getElem?_eq_none hk]
  refine ⟨2880 - n * chunk * itemsize % 2880, ?_, by omega, ?_, ?_⟩
  · have := Nat.mod_lt (n * chunk * itemsize) (show 0 < 2880 by omega)
    omega
  · rw [writeFits]
    dsimp only
    rw [hN, if_neg, if_neg (by rw [Nat.min_eq_left hn]; omega), if_neg (by omega), if_neg (by omega : ¬ min locals.length n = 0), hfile, if_neg]
    · rw [List.length_append, Nat.add_sub_cancel_left, htot, hdata]
      simp
    · rw [List.any_eq_true]
      rintro ⟨⟨p, r⟩, hp, h⟩
      obtain ⟨h1, _⟩ := hlen r p (List.mem_zipIdx_iff_getElem?.1 hp)
      simp only [ne_eq, decide_not, Bool.not_eq_eq_eq_not, Bool.not_true, decide_eq_false_iff_not] at h
      exact h h1
  · intro hd
    rw [List.length_append, List.length_append, List.length_replicate, htot, ← hdata]
    have := Nat.mod_lt (n * chunk * itemsize) (show 0 < 2880 by omega)
    omega

/-- The hypotheses of C49: two processes with two and one rows of three bytes, the second one writes first. -/
example : ∃ npad, writeFits 0 (List.replicate 2880 7) 3 1 [(2, [1, 2, 3, 4, 5, 6]), (1, [7, 8, 9])] [1, 0]
    = .ok (List.replicate 2880 7 ++ [1, 2, 3, 4, 5, 6, 7, 8, 9] ++ List.replicate npad 0) := by
  obtain ⟨npad, _, _, h, _⟩ := C49_file_partial 0 (List.replicate 2880 7) 3 1 [(2, [1, 2, 3, 4, 5, 6]), (1, [7, 8, 9])] [1, 0]
    (by decide) (by decide) (by decide) (by
      intro r p hp
      match r, hp with
      | 0, hp => cases hp; decide
      | 1, hp => cases hp; decide
      | r + 2, hp => simp at hp) (by decide)
  exact ⟨npad, h⟩

/-- C49 fails if some processes have no row to write: the group without them is not used to open the file, and the others wait for
them. -/
theorem C49_violation_deadlock (zero : β) (head : List β) (chunk itemsize : Nat) (locals : List (Nat × List β)) (order : List Nat)
    (h0 : 0 < (locals.map (·.1)).sum) (hn : (locals.map (·.1)).sum < locals.length)
    (hlen : ∀ r : Nat, ∀ p ∈ locals[r]?, p.1 = splitLen (locals.map (·.1)).sum locals.length r) :
    writeFits zero head chunk itemsize locals order = .error .deadlock := by
  rw [writeFits]
  dsimp only
  rw [if_neg, if_pos (by omega)]
  rw [List.any_eq_true]
  rintro ⟨⟨p, r⟩, hp, h⟩
  have h1 := hlen r p (List.mem_zipIdx_iff_getElem?.1 hp)
  simp only [ne_eq, decide_not, Bool.not_eq_eq_eq_not, Bool.not_true, decide_eq_false_iff_not] at h
  exact h h1

/-- One row, two processes. -/
example : writeFits 0 [] 3 1 [(1, [1, 2, 3]), (0, [])] [0, 1] = .error .deadlock := by decide

/-- C49: arrays that are not split as expected are rejected. -/
theorem C49_rejects (zero : β) (head : List β) (chunk itemsize : Nat) (locals : List (Nat × List β)) (order : List Nat) (r : Nat) (p : Nat × List β)
    (hp : locals[r]? = some p) (h : p.1 ≠ splitLen (locals.map (·.1)).sum locals.length r) :
    writeFits zero head chunk itemsize locals order = .error .valueError := by
  rw [writeFits]
  dsimp only
  rw [if_pos]
  rw [List.any_eq_true]
  exact ⟨(p, r), List.mem_zipIdx_iff_getElem?.2 hp, by simpa using h⟩

example : writeFits 0 [] 1 1 [(1, [1]), (2, [2, 3])] [0, 1] = .error .valueError := by decide

theorem flatten_drop {rows : List (List β)} {w : Nat} (h : ∀ x ∈ rows, x.length = w) : ∀ k, rows.flatten.drop (k * w) = (rows.drop k).flatten := by
  induction rows with
  | nil => simp
  | cons x rows ih =>
    intro k
    have hx := h x (List.mem_cons_self ..)
    match k with
    | 0 => simp
    | k + 1 =>
      rw [List.flatten_cons, List.drop_succ_cons, ← ih (fun y hy => h y (List.mem_cons_of_mem _ hy)) k, Nat.add_mul, Nat.one_mul, ← hx,
        Nat.add_comm, List.drop_length_add_append]

theorem flatten_take {rows : List (List β)} {w : Nat} (h : ∀ x ∈ rows, x.length = w) : ∀ k, rows.flatten.take (k * w) = (rows.take k).flatten := by
  induction rows with
  | nil => simp
  | cons x rows ih =>
    intro k
    have hx := h x (List.mem_cons_self ..)
    match k with
    | 0 => simp
    | k + 1 =>
      rw [List.flatten_cons, List.take_succ_cons, List.flatten_cons, ← ih (fun y hy => h y (List.mem_cons_of_mem _ hy)) k, Nat.add_mul, Nat.one_mul, ← hx,
        Nat.add_comm, List.take_length_add_append]

/-- C77: each process reads its part of the rows of the file, and the parts are all the rows, in order. -/
theorem C77_data (head pad : List β) (rows : List (List β)) (chunk itemsize size : Nat) (hw : ∀ x ∈ rows, x.length = chunk * itemsize)
    (hs : 0 < size) :
    (∀ r, r < size → readFits (head ++ rows.flatten ++ pad) head.length rows.length chunk itemsize size r
      = ((rows.drop (splitStart rows.length size r)).take (splitLen rows.length size r)).flatten) ∧
    (List.range size).flatMap (fun r => (rows.drop (splitStart rows.length size r)).take (splitLen rows.length size r)) = rows := by
  refine ⟨?_, split_concat rows hs⟩
  intro r hr
  have hstop := splitStop_le (n := rows.length) hr
  have hfl : rows.flatten.length = rows.length * (chunk * itemsize) := by
    have := flatten_drop hw rows.length
    rw [List.drop_length, List.flatten_nil, List.drop_eq_nil_iff] at this
    have h2 := flatten_take hw rows.length
    rw [List.take_length] at h2
    have h3 := congrArg List.length h2
    rw [List.length_take] at h3
    have h4 : rows.flatten.length ≥ rows.length * (chunk * itemsize) := by
      rw [List.length_flatten]
      clear this h2 h3 hstop
      induction rows with
      | nil => simp
      | cons x rows ih =>
        have := ih (fun y hy => hw y (List.mem_cons_of_mem _ hy))
        have hx := hw x (List.mem_cons_self ..)
        simp only [List.map_cons, List.sum_cons, List.length_cons, Nat.add_mul, Nat.one_mul]
        omega
    omega
  rw [readFits, List.append_assoc, List.drop_left, List.drop_append_of_le_length, List.take_append_of_le_length, flatten_drop hw, flatten_take]
  · intro x hx
    exact hw x (List.mem_of_mem_drop hx)
  · rw [List.length_drop, hfl, ← Nat.sub_mul]
    exact Nat.mul_le_mul_right _ (by omega)
  · rw [hfl]
    exact Nat.mul_le_mul_right _ (by omega)

/-- Two processes read three rows of two bytes. -/
example : readFits ([9, 9, 9] ++ [[1, 2], [3, 4], [5, 6]].flatten ++ [0]) 3 3 2 1 2 0 = [1, 2, 3, 4] ∧
    readFits ([9, 9, 9] ++ [[1, 2], [3, 4], [5, 6]].flatten ++ [0]) 3 3 2 1 2 1 = [5, 6] := by decide

end Verif.Dist
