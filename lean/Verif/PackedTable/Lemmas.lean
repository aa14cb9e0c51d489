import Verif.Py.Lemmas
import Verif.PackedTable.Spec

/-! Lemmas on the normalisation of selections. -/
namespace Verif.PackedTable
open Verif.Py

/-! ### `_normalize_slice` -/

theorem ceilQuot_pos {a b c : Int} (hc : 0 < c) :
    ceilQuot (max (b - a) 0) c = (rangeLen a b c : Int) := by
  unfold ceilQuot rangeLen
  rw [if_pos hc]
  by_cases h : 0 ≤ b - a
  · rw [Int.max_eq_left h]
    have : 0 ≤ (b - a + c - 1) / c := Int.ediv_nonneg (by omega) (by omega)
    omega
  · rw [Int.max_eq_right (by omega)]
    have h1 : (b - a + c - 1) / c < 1 := Int.ediv_lt_of_lt_mul hc (by omega)
    have h2 : (0 + c - 1) / c = 0 := Int.ediv_eq_zero_of_lt (by omega) (by omega)
    omega

theorem ceilQuot_neg {a b c : Int} (hc : c < 0) :
    ceilQuot (max (a - b) 0) (-c) = (rangeLen a b c : Int) := by
  unfold ceilQuot rangeLen
  rw [if_neg (by omega), if_pos hc]
  by_cases h : 0 ≤ a - b
  · rw [Int.max_eq_left h]
    have : 0 ≤ (a - b + -c - 1) / (-c) := Int.ediv_nonneg (by omega) (by omega)
    omega
  · rw [Int.max_eq_right (by omega)]
    have h1 : (a - b + -c - 1) / (-c) < 1 := Int.ediv_lt_of_lt_mul (by omega) (by omega)
    have h2 : (0 + -c - 1) / (-c) = 0 := Int.ediv_eq_zero_of_lt (by omega) (by omega)
    omega

/-- What `_normalize_slice` guarantees. -/
def NSliceSpec (s : PySlice) (n : Nat) : NSlice → Prop
  | .all => sliceIndices s n = .ok (progression 0 1 n)
  | .slice a b c => c = s.step.getD 1 ∧ ∃ m : Nat, b = a + m * c ∧
      sliceIndices s n = .ok (progression a c m) ∧
      (m = 0 → n ≠ 0 → 0 ≤ a ∧ a < n)

theorem normalizeSlice_pos {s : PySlice} {n : Nat} (hc : 0 < s.step.getD 1) :
    ∃ r, normalizeSlice s n = .ok r ∧ NSliceSpec s n r := by
  unfold normalizeSlice
  simp only
  rw [if_neg (by omega)]
  have hsi : sliceIndices s n =
      .ok (pyRange (sliceStart n (s.step.getD 1) s.start) (sliceStop n (s.step.getD 1) s.stop)
        (s.step.getD 1)) := by
    unfold sliceIndices; simp only; rw [if_neg (by omega)]
  generalize hstep : s.step.getD 1 = c at *
  -- start bound
  have hst : (normStart s.start c n = .inr (sliceStart n c s.start)) ∨
      (normStart s.start c n = .inl ((n : Int) - 1, (n : Int) - 1, c) ∧
        sliceStart n c s.start = n) := by
    unfold normStart sliceStart clipBound
    cases s.start with
    | none => left; simp only; rw [if_pos hc, if_neg (by omega)]
    | some st =>
      simp only
      rw [if_neg (show ¬ c < 0 by omega), if_neg (show ¬ c < 0 by omega), if_pos hc]
      split
      · left; split <;> congr 1 <;> omega
      · split
        · right; exact ⟨rfl, by omega⟩
        · left; congr 1; omega
  -- stop bound
  have hsp : normStop s.stop c n = sliceStop n c s.stop ∨
      (normStop s.stop c n ≤ 0 ∧ sliceStop n c s.stop = 0) := by
    unfold normStop sliceStop clipBound
    cases s.stop with
    | none => left; simp only; rw [if_pos hc, if_neg (by omega)]
    | some st =>
      simp only
      rw [if_neg (show ¬ c < 0 by omega)]
      split
      · by_cases h : (n : Int) + st < 0
        · right; omega
        · left; omega
      · left; split <;> omega
  have hb := sliceStart_pos (n := n) hc s.start
  have hb' := sliceStop_pos (n := n) hc s.stop
  rcases hst with hst | ⟨hst, hst'⟩
  · rw [hst]
    simp only
    rw [if_pos hc, show (c.natAbs : Int) = c by omega, ceilQuot_pos hc]
    have hlen : rangeLen (sliceStart n c s.start) (normStop s.stop c n) c
        = rangeLen (sliceStart n c s.start) (sliceStop n c s.stop) c := by
      rcases hsp with h | ⟨h1, h2⟩
      · rw [h]
      · rw [rangeLen_eq_zero_of_pos hc (by omega), rangeLen_eq_zero_of_pos hc (by omega)]
    rw [hlen]
    split
    · rename_i h
      refine ⟨_, rfl, ?_⟩
      simp only [NSliceSpec]
      rw [hsi, pyRange]
      have h1 : rangeLen (sliceStart n c s.start) (sliceStop n c s.stop) c = n := by omega
      rw [h1, h.2]
      congr 1
      cases hn : n with
      | zero => rfl
      | succ k =>
        have hk : k < rangeLen (sliceStart n c s.start) (sliceStop n c s.stop) c := by omega
        have := rangeLen_pos_bound hc hk
        rw [h.2] at this
        have h0 : sliceStart n 1 s.start = 0 := by
          have := h.2; subst this; omega
        rw [hn] at h0
        rw [h0]
    · refine ⟨_, rfl, ?_⟩
      refine ⟨hstep.symm, _, rfl, ?_, ?_⟩
      · rw [hsi, pyRange]
      · intro _ h
        refine ⟨by omega, ?_⟩
        revert hst
        unfold normStart sliceStart clipBound
        cases s.start with
        | none => simp only; rw [if_neg (show ¬ c < 0 by omega)]; intro _; omega
        | some st =>
          simp only
          rw [if_neg (show ¬ c < 0 by omega), if_neg (show ¬ c < 0 by omega), if_pos hc]
          intro h1
          split at h1
          · split at h1 <;> injection h1 <;> rw [if_pos (by assumption)] <;> omega
          · split at h1
            · cases h1
            · rw [if_neg (by assumption)]; omega
  · rw [hst]
    refine ⟨_, rfl, hstep.symm, 0, by simp, ?_, ?_⟩
    · rw [hsi, pyRange, rangeLen_eq_zero_of_pos hc (by omega), progression_zero, progression_zero]
    · intro _ h; omega

theorem normalizeSlice_neg {s : PySlice} {n : Nat} (hc : s.step.getD 1 < 0)
    (hs : ∀ b, s.stop = some b → -(n : Int) - 1 ≤ b) :
    ∃ r, normalizeSlice s n = .ok r ∧ NSliceSpec s n r := by
  unfold normalizeSlice
  simp only
  rw [if_neg (by omega)]
  have hsi : sliceIndices s n =
      .ok (pyRange (sliceStart n (s.step.getD 1) s.start) (sliceStop n (s.step.getD 1) s.stop)
        (s.step.getD 1)) := by
    unfold sliceIndices; simp only; rw [if_neg (by omega)]
  generalize hstep : s.step.getD 1 = c at *
  have hst : (normStart s.start c n = .inr (sliceStart n c s.start)) ∨
      (normStart s.start c n = .inl (0, 0, c) ∧ sliceStart n c s.start = -1) := by
    unfold normStart sliceStart clipBound
    cases s.start with
    | none => left; simp only; rw [if_neg (by omega), if_pos hc]
    | some st =>
      simp only
      rw [if_pos hc, if_pos hc, if_neg (show ¬ c > 0 by omega)]
      split
      · split
        · right; exact ⟨rfl, by omega⟩
        · left; congr 1; omega
      · split <;> left <;> congr 1 <;> omega
  have hsp : normStop s.stop c n = sliceStop n c s.stop ∨
      (normStop s.stop c n ≥ (n : Int) - 1 ∧ sliceStop n c s.stop = (n : Int) - 1) := by
    unfold normStop sliceStop clipBound
    cases h : s.stop with
    | none => left; simp only; rw [if_neg (by omega), if_pos hc]
    | some st =>
      have := hs st h
      simp only
      rw [if_pos hc]
      split
      · left; omega
      · by_cases h : st ≥ n
        · right; split <;> omega
        · left; rw [if_neg (by omega)]; omega
  have hb := sliceStart_neg (n := n) hc s.start
  have hb' := sliceStop_neg (n := n) hc s.stop
  rcases hst with hst | ⟨hst, hst'⟩
  · rw [hst]
    simp only
    rw [if_neg (show ¬ c > 0 by omega), show (c.natAbs : Int) = -c by omega, ceilQuot_neg hc]
    have hlen : rangeLen (sliceStart n c s.start) (normStop s.stop c n) c
        = rangeLen (sliceStart n c s.start) (sliceStop n c s.stop) c := by
      rcases hsp with h | ⟨h1, h2⟩
      · rw [h]
      · rw [rangeLen_eq_zero_of_neg hc (by omega), rangeLen_eq_zero_of_neg hc (by omega)]
    rw [hlen, if_neg (by omega)]
    refine ⟨_, rfl, hstep.symm, _, rfl, ?_, ?_⟩
    · rw [hsi, pyRange]
    · intro _ hn
      apply Classical.byContradiction
      intro h
      have h : sliceStart n c s.start < 0 := by omega
      · -- a negative start can only come from an explicit start, which returns early
        revert hst h
        unfold normStart sliceStart clipBound
        cases s.start with
        | none => simp only; rw [if_pos hc]; intro _ _; omega
        | some st =>
          simp only
          rw [if_pos hc, if_pos hc]
          intro h1
          split at h1
          · split at h1
            · cases h1
            · rw [if_pos (by assumption)]; intro _; omega
          · intro h2; omega
  · rw [hst]
    refine ⟨_, rfl, hstep.symm, 0, by simp, ?_, ?_⟩
    · rw [hsi, pyRange, rangeLen_eq_zero_of_neg hc (by omega), progression_zero, progression_zero]
    · intro _ h; omega

theorem normalizeSlice_spec {s : PySlice} {n : Nat} (hc : s.step.getD 1 ≠ 0) (hs : SliceStopOk s n) :
    ∃ r, normalizeSlice s n = .ok r ∧ NSliceSpec s n r := by
  rcases Int.lt_or_gt_of_ne hc with h | h
  · rcases hs with hs | hs
    · omega
    · exact normalizeSlice_neg h hs
  · exact normalizeSlice_pos h

theorem normalizeSlice_zero {s : PySlice} {n : Int} (hc : s.step.getD 1 = 0) :
    normalizeSlice s n = .error .valueError := by
  unfold normalizeSlice; simp [hc]


/-! ### well-formed indices -/

/-- The components designated by an index. -/
def Idx.comps (i : Idx) (size : Nat) : List Int :=
  match i with
  | .all => progression 0 1 size
  | .slice a b c => pyRange a b c
  | .arr l => l

/-- Well-formed index of a table of `size` components. -/
def Idx.WF (i : Idx) (size : Nat) : Prop :=
  match i with
  | .all => True
  | .slice a b c => c ≠ 0 ∧ ∃ m : Nat, b = a + m * c ∧
      (∀ x ∈ progression a c m, 0 ≤ x ∧ x < size) ∧ (m = 0 → a < 0 → size = 0)
  | .arr l => ∀ x ∈ l, 0 ≤ x ∧ x < size

theorem Idx.WF.bounds {i : Idx} {size : Nat} (h : i.WF size) :
    ∀ x ∈ i.comps size, 0 ≤ x ∧ x < size := by
  cases i with
  | all =>
    intro x hx
    simp only [Idx.comps, mem_progression] at hx
    obtain ⟨k, hk, rfl⟩ := hx
    omega
  | slice a b c =>
    obtain ⟨hc, m, rfl, h1, _⟩ := h
    simp only [Idx.comps]
    rw [pyRange_progression _ _ _ hc]
    exact h1
  | arr l => exact h

theorem progression_repeats {a c : Int} {m : Nat} (h : Repeats (progression a c m)) : c = 0 := by
  obtain ⟨k, x, hk⟩ := h
  have hlen := congrArg List.length hk
  simp at hlen
  subst hlen
  have h0 := congrArg (fun l => l[0]?) hk
  have h1 := congrArg (fun l => l[1]?) hk
  simp only [progression_getElem?, List.getElem?_replicate] at h0 h1
  rw [if_pos (by omega), if_pos (by omega)] at h0 h1
  simp at h0 h1
  omega

theorem nodup_not_repeats {l : List Int} (h : l.Nodup) : ¬ Repeats l := by
  rintro ⟨m, a, rfl⟩
  simp [List.replicate_succ] at h

theorem progression_zero_step (a : Int) (n : Nat) : progression a 0 n = List.replicate n a := by
  apply List.ext_getElem <;> simp

theorem normalizeInt_wf {l : List Int} {n : Nat} (h : ∀ i ∈ l, 0 ≤ i ∧ i < n) (hr : ¬ Repeats l) :
    (normalizeInt l n).WF n ∧ (normalizeInt l n).comps n = l := by
  unfold normalizeInt
  split
  · exact ⟨h, rfl⟩
  · exact ⟨h, rfl⟩
  · rename_i a b r
    simp only
    split
    · rename_i hp
      have hc : b - a ≠ 0 := by
        intro hc
        apply hr
        rw [hp, hc, progression_zero_step]
        exact ⟨_, _, rfl⟩
      split
      · rename_i hn
        refine ⟨trivial, ?_⟩
        rw [hp]
        simp only [Idx.comps]
        rw [hn.2, ← hn.1]
        have h0 := h a (by simp)
        have hl : a + (b - a) * ((r.length + 1 : Nat) : Int) ∈ a :: b :: r := by
          rw [hp, mem_progression]
          exact ⟨r.length + 1, by omega, rfl⟩
        have hl' := h _ hl
        rw [hn.2] at hl'
        have : a = 0 := by omega
        rw [this]
      · refine ⟨⟨hc, r.length + 2, by simp, ?_, by simp⟩, ?_⟩
        · rw [← hp]; exact h
        · simp only [Idx.comps]
          rw [pyRange_progression _ _ _ hc, ← hp]
    · exact ⟨h, rfl⟩

theorem len_of_wf {t : Table} (h : t.idx.WF t.size) : t.len = .ok (t.idx.comps t.size).length := by
  unfold Table.len
  cases hi : t.idx with
  | all => simp [Idx.comps]
  | slice a b c =>
    rw [hi] at h
    obtain ⟨hc, m, rfl, _, _⟩ := h
    simp only [Idx.comps]
    rw [if_neg hc, pyRange_progression _ _ _ hc]
    have : (a + ↑m * c - a).fdiv c = m := by
      rw [show a + ↑m * c - a = ↑m * c by omega, Int.mul_fdiv_cancel _ hc]
    rw [this]
    simp
  | arr l => rfl

theorem index_of_wf {t : Table} (h : t.idx.WF t.size) : t.index = .ok (t.idx.comps t.size) := by
  unfold Table.index
  cases hi : t.idx with
  | all => simp [Idx.comps, pyRange_zero_one]
  | slice a b c =>
    rw [hi] at h
    simp only [Idx.comps, arange]
    rw [if_neg h.1]
  | arr l => rfl


theorem rangeLen_unique_pos {a b c : Int} {m : Nat} (hc : 0 < c) (h1 : 0 < m → a + c * ((m : Int) - 1) < b)
    (h2 : b ≤ a + c * m) : rangeLen a b c = m := by
  unfold rangeLen
  rw [if_pos hc]
  rcases Nat.eq_zero_or_pos m with hm | hm
  · subst hm
    have : (b - a + c - 1) / c < 1 := Int.ediv_lt_of_lt_mul hc (by simp at h2; omega)
    omega
  · have h1 := h1 hm
    rw [Int.mul_sub] at h1
    have hl : (m : Int) ≤ (b - a + c - 1) / c := Int.le_ediv_of_mul_le hc (by rw [Int.mul_comm]; omega)
    have hu : (b - a + c - 1) / c < (m : Int) + 1 :=
      Int.ediv_lt_of_lt_mul hc (by rw [Int.add_mul, Int.mul_comm]; omega)
    omega

theorem rangeLen_unique_neg {a b c : Int} {m : Nat} (hc : c < 0) (h1 : 0 < m → b < a + c * ((m : Int) - 1))
    (h2 : a + c * m ≤ b) : rangeLen a b c = m := by
  have h := rangeLen_unique_pos (a := -a) (b := -b) (c := -c) (m := m) (by omega)
    (by intro hm; have := h1 hm; rw [Int.neg_mul]; omega) (by rw [Int.neg_mul]; omega)
  unfold rangeLen at h ⊢
  rw [if_pos (by omega)] at h
  rw [if_neg (by omega), if_pos hc, ← h]
  congr 2
  omega

/-- The slice stored in the table, used as an index after `_indexable`, designates the
components. -/
theorem sliceIndices_indexable {a b c : Int} {size : Nat} (h : (Idx.slice a b c).WF size) :
    sliceIndices (if b < 0 then ⟨some a, none, some c⟩ else ⟨some a, some b, some c⟩) size
      = .ok (pyRange a b c) := by
  obtain ⟨hc, m, hb, hx, hm⟩ := h
  have hsi : ∀ st, sliceIndices ⟨some a, st, some c⟩ size
      = .ok (pyRange (clipBound size c a) (sliceStop size c st) c) := by
    intro st
    unfold sliceIndices
    simp only [Option.getD_some]
    rw [if_neg hc]
    rfl
  have hrl : rangeLen a b c = m := by rw [hb]; exact rangeLen_progression _ _ _ hc
  rcases Nat.eq_zero_or_pos m with h0 | h0
  · -- no component
    subst h0
    have hba : b = a := by rw [hb]; simp
    have hr : pyRange a b c = [] := by rw [pyRange, hrl, progression_zero]
    rw [hr]
    have key : ∀ st, rangeLen (clipBound size c a) (sliceStop size c st) c = 0 →
        sliceIndices ⟨some a, st, some c⟩ size = .ok [] := by
      intro st h; rw [hsi, pyRange, h, progression_zero]
    split
    · rename_i hneg
      have hs0 := hm rfl (by omega)
      subst hs0
      apply key
      rcases Int.lt_or_gt_of_ne hc with hc' | hc'
      · have h1 := clipBound_neg (n := 0) (i := a) hc'
        have h2 := sliceStop_neg (n := 0) hc' none
        exact rangeLen_eq_zero_of_neg hc' (by omega)
      · have h1 := clipBound_pos (n := 0) (i := a) hc'
        have h2 := sliceStop_pos (n := 0) hc' none
        exact rangeLen_eq_zero_of_pos hc' (by omega)
    · apply key
      rw [hba]
      rcases Int.lt_or_gt_of_ne hc with hc' | hc'
      · exact rangeLen_eq_zero_of_neg hc' (Int.le_refl _)
      · exact rangeLen_eq_zero_of_pos hc' (Int.le_refl _)
  · have hfirst := hx a (mem_progression.2 ⟨0, h0, by simp⟩)
    have hlast := hx (a + c * ((m : Int) - 1)) (mem_progression.2 ⟨m - 1, by omega, by congr 2; omega⟩)
    have hba : b = a + c * m := by rw [hb, Int.mul_comm]
    have hpr : ∀ st, rangeLen (clipBound size c a) (sliceStop size c st) c = m →
        clipBound size c a = a →
        sliceIndices ⟨some a, st, some c⟩ size = .ok (pyRange a b c) := by
      intro st h h'; rw [hsi, pyRange, pyRange, h, h', hrl]
    have hclip : clipBound size c a = a := by
      unfold clipBound; simp only
      rw [if_neg (show ¬ a < 0 by omega)]
      split <;> omega
    rcases Int.lt_or_gt_of_ne hc with hc' | hc'
    · split
      · rename_i hneg
        apply hpr _ _ hclip
        rw [hclip]
        unfold sliceStop
        simp only
        rw [if_pos hc']
        exact rangeLen_unique_neg hc' (fun _ => by omega) (by omega)
      · apply hpr _ _ hclip
        rw [hclip]
        unfold sliceStop clipBound
        simp only
        rw [if_pos hc', if_neg (by omega)]
        have h4 : c * (m : Int) ≤ 0 := Int.mul_nonpos_of_nonpos_of_nonneg (by omega) (by omega)
        rw [show max (-1) (min b ((size : Int) - 1)) = b by omega]
        exact rangeLen_unique_neg hc' (fun _ => by rw [Int.mul_sub]; omega) (by omega)
    · have h4 : 0 ≤ c * (m : Int) := Int.mul_nonneg (by omega) (by omega)
      rw [if_neg (by omega)]
      apply hpr _ _ hclip
      rw [hclip]
      unfold sliceStop clipBound
      simp only
      rw [if_neg (by omega), if_neg (by omega)]
      exact rangeLen_unique_pos hc' (fun _ => by rw [Int.mul_sub] at *; omega) (by omega)

/-! ### pack -/

theorem takeIdx_range {α} (l : List α) : takeIdx l (progression 0 1 l.length) = .ok l := by
  rw [takeIdx_eq_ok]
  apply List.ext_getElem?
  intro k
  simp only [List.getElem?_map, progression_getElem?]
  split
  · rename_i h
    simp [wrapIndex_nonneg (show (0 : Int) ≤ k by omega) (show (k : Int) < l.length by omega), h]
  · rename_i h
    rw [List.getElem?_eq_none (by omega)]
    simp

theorem gatherRows_of_wf {α} {t : Table} (h : t.idx.WF t.size) (rows : List α)
    (hr : rows.length = t.size) : t.gatherRows rows = takeIdx rows (t.idx.comps t.size) := by
  unfold Table.gatherRows
  cases hi : t.idx with
  | all => simp only [Idx.comps]; rw [← hr, takeIdx_range]
  | slice a b c =>
    rw [hi] at h
    have := sliceIndices_indexable h
    simp only [Idx.comps]
    unfold takeSlice
    rw [hr]
    split <;> rename_i hb
    · rw [if_pos hb] at this; rw [this]; rfl
    · rw [if_neg hb] at this; rw [this]; rfl
  | arr l => rfl

theorem takeIdx_picks {α} {rows : List α} {index : List Int} (h : ∀ i ∈ index, 0 ≤ i ∧ i < rows.length) :
    ∃ out, takeIdx rows index = .ok out ∧ PicksRows rows index out := by
  obtain ⟨r, hr⟩ := takeIdx_ok_of_valid (l := rows) (is := index)
    (fun i hi => by have := h i hi; omega)
  refine ⟨r, hr, takeIdx_length hr, ?_⟩
  intro k i hk
  refine ⟨(h i (List.mem_of_getElem? hk)).1, ?_⟩
  rw [takeIdx_getElem? hr (fun i hi => (h i hi).1), hk]
  rfl

/-! ### unpack -/

theorem assignAt_length {α} (buf : List α) (ps : List Nat) (vs : List α) :
    (assignAt buf ps vs).length = buf.length := by
  induction ps generalizing buf vs with
  | nil => simp [assignAt]
  | cons p ps ih =>
    cases vs with
    | nil => simp [assignAt]
    | cons v vs => simp [assignAt, ih]

theorem assignAt_not_mem {α} {buf : List α} {ps : List Nat} {vs : List α} {q : Nat} (h : q ∉ ps) :
    (assignAt buf ps vs)[q]? = buf[q]? := by
  induction ps generalizing buf vs with
  | nil => simp [assignAt]
  | cons p ps ih =>
    cases vs with
    | nil => simp [assignAt]
    | cons v vs =>
      simp only [List.mem_cons, not_or] at h
      rw [assignAt, ih h.2, List.getElem?_set_ne (by omega)]

theorem assignAt_mem {α} {buf : List α} {ps : List Nat} {vs : List α} {k q : Nat} (hn : ps.Nodup)
    (hl : vs.length = ps.length) (hb : q < buf.length) (h : ps[k]? = some q) :
    (assignAt buf ps vs)[q]? = vs[k]? := by
  induction ps generalizing buf vs k with
  | nil => simp at h
  | cons p ps ih =>
    cases vs with
    | nil => simp at hl
    | cons v vs =>
      rw [List.nodup_cons] at hn
      rw [assignAt]
      cases k with
      | zero =>
        simp at h; subst h
        rw [assignAt_not_mem hn.1]
        simp [hb]
      | succ k =>
        simp only [List.getElem?_cons_succ] at h ⊢
        exact ih hn.2 (by simpa using hl) (by simpa using hb) h

theorem positions_of_wf {t : Table} (h : t.idx.WF t.size) :
    t.idx.positions t.size = .ok ((t.idx.comps t.size).map Int.toNat) := by
  unfold Idx.positions
  cases hi : t.idx with
  | all =>
    simp only [Idx.comps]
    congr 1
    apply List.ext_getElem <;> simp
  | slice a b c =>
    rw [hi] at h
    have := sliceIndices_indexable h
    simp only [Idx.comps]
    split <;> rename_i hb
    · rw [if_pos hb] at this; rw [this]; rfl
    · rw [if_neg hb] at this; rw [this]; rfl
  | arr l =>
    rw [hi] at h
    simp only [Idx.comps]
    have h1 : l.all (fun i => (wrapIndex t.size i).isSome) = true := by
      rw [List.all_eq_true]
      intro i hi
      have := h i hi
      exact wrapIndex_isSome.2 (by omega)
    rw [if_pos h1]
    congr 1
    have h' : ∀ i ∈ l, 0 ≤ i ∧ i < t.size := h
    clear h h1 hi
    induction l with
    | nil => rfl
    | cons i l ih =>
      have hi := h' i (by simp)
      rw [List.filterMap_cons, wrapIndex_nonneg hi.1 hi.2, List.map_cons]
      simp only
      rw [ih (fun j hj => h' j (by simp [hj]))]

/-- A list of distinct numbers below `n` that is as long as `n` contains all of them. -/
theorem mem_of_nodup_of_length {l : List Int} {n : Nat} (hn : l.Nodup)
    (hb : ∀ x ∈ l, 0 ≤ x ∧ x < n) (hl : n ≤ l.length) {p : Nat} (hp : p < n) : (p : Int) ∈ l := by
  apply Classical.byContradiction
  intro h
  have h1 : ((p : Int) :: l).Nodup := List.nodup_cons.2 ⟨h, hn⟩
  have h2 : ((p : Int) :: l) ⊆ progression 0 1 n := by
    intro x hx
    rw [mem_progression]
    rcases List.mem_cons.1 hx with rfl | hx
    · exact ⟨p, hp, by omega⟩
    · have := hb x hx
      exact ⟨x.toNat, by omega, by omega⟩
  have h3 := List.Nodup.length_le_of_subset h1 h2
  simp at h3
  omega

theorem nodup_map_toNat {l : List Int} (hn : l.Nodup) (hb : ∀ x ∈ l, 0 ≤ x) :
    (l.map Int.toNat).Nodup := by
  rw [List.nodup_iff_pairwise_ne] at *
  rw [List.pairwise_map]
  apply List.Pairwise.imp_of_mem _ hn
  intro a b ha hb' hab h
  have h1 := hb a ha
  have h2 := hb b hb'
  omega

/-- Assignment of a packed array (with broadcasting) on distinct positions. -/
theorem assignIdx_spec {α} {t : Table} (h : t.idx.WF t.size) (hn : (t.idx.comps t.size).Nodup)
    (buf : List α) (hb : buf.length = t.size) (x : List α)
    (hx : x.length = 1 ∨ x.length = (t.idx.comps t.size).length) :
    ∃ out, assignIdx buf t.idx x = .ok out ∧ out.length = t.size ∧
      (∀ (k : Nat) (i : Int), (t.idx.comps t.size)[k]? = some i → out[i.toNat]? = packedValue x k) ∧
      (∀ p : Nat, (p : Int) ∉ t.idx.comps t.size → out[p]? = buf[p]?) := by
  have hbd := h.bounds
  unfold assignIdx
  rw [hb, positions_of_wf h]
  simp only [Except.bind, List.length_map]
  have hnd := nodup_map_toNat hn (fun x hx => (hbd x hx).1)
  have key : ∀ vals : List α, vals.length = (t.idx.comps t.size).length →
      (∀ k : Nat, k < (t.idx.comps t.size).length → vals[k]? = packedValue x k) →
      ∃ out, (.ok (assignAt buf ((t.idx.comps t.size).map Int.toNat) vals) : Res (List α)) = .ok out ∧
      out.length = t.size ∧
      (∀ (k : Nat) (i : Int), (t.idx.comps t.size)[k]? = some i → out[i.toNat]? = packedValue x k) ∧
      (∀ p : Nat, (p : Int) ∉ t.idx.comps t.size → out[p]? = buf[p]?) := by
    intro vals hl hv
    refine ⟨_, rfl, by rw [assignAt_length, hb], ?_, ?_⟩
    · intro k i hk
      have hki := hbd i (List.mem_of_getElem? hk)
      have hk' : k < (t.idx.comps t.size).length := by
        obtain ⟨h, _⟩ := List.getElem?_eq_some_iff.1 hk; exact h
      rw [← hv k hk']
      apply assignAt_mem hnd (by simpa using hl) (by omega)
      rw [List.getElem?_map, hk]; rfl
    · intro p hp
      apply assignAt_not_mem
      intro hm
      obtain ⟨y, hy, hyp⟩ := List.mem_map.1 hm
      have := hbd y hy
      apply hp
      rwa [show (p : Int) = y by omega]
  split
  · apply key
    · simp
    · intro k hk
      simp [packedValue, hk]
  · rename_i x' hne
    have hx1 : x.length = (t.idx.comps t.size).length := by
      rcases hx with hx | hx
      · obtain ⟨a, rfl⟩ := List.length_eq_one_iff.1 hx
        exact absurd rfl (hne a)
      · exact hx
    rw [if_pos hx1]
    apply key _ hx1
    intro k hk
    unfold packedValue
    split
    · rename_i a
      exact absurd rfl (hne a)
    · rfl


/-! ### boolean selections -/

theorem mem_whereTrue {m : List Bool} {i : Int} :
    i ∈ whereTrue m ↔ ∃ k : Nat, i = k ∧ m[k]? = some true := by
  unfold whereTrue
  simp only [List.mem_filterMap]
  constructor
  · rintro ⟨⟨b, k⟩, h, h'⟩
    rw [List.mem_zipIdx_iff_getElem?] at h
    simp only at h h'
    cases b with
    | false => simp at h'
    | true => simp at h'; exact ⟨k, h'.symm, h⟩
  · rintro ⟨k, rfl, h⟩
    exact ⟨(true, k), List.mem_zipIdx_iff_getElem?.2 h, by simp⟩

theorem whereTrue_sorted (m : List Bool) : (whereTrue m).Pairwise (· < ·) := by
  unfold whereTrue
  rw [List.pairwise_filterMap]
  have h : (m.zipIdx.map Prod.snd).Pairwise (· < ·) := by
    rw [List.zipIdx_map_snd]; exact List.pairwise_lt_range' 1
  rw [List.pairwise_map] at h
  apply h.imp
  intro a b hab x hx y hy
  split at hx
  · split at hy
    · simp at hx hy; omega
    · cases hy
  · cases hx

theorem pairwise_lt_nodup {l : List Int} (h : l.Pairwise (· < ·)) : l.Nodup := by
  rw [List.nodup_iff_pairwise_ne]
  exact h.imp (by intro a b h; omega)

theorem whereTrue_nodup (m : List Bool) : (whereTrue m).Nodup :=
  pairwise_lt_nodup (whereTrue_sorted m)

theorem whereTrue_bounds {m : List Bool} {i : Int} (h : i ∈ whereTrue m) : 0 ≤ i ∧ i < m.length := by
  obtain ⟨k, rfl, hk⟩ := mem_whereTrue.1 h
  obtain ⟨hk, _⟩ := List.getElem?_eq_some_iff.1 hk
  omega

theorem takeMask_eq {α} {l : List α} {mask : List Bool} (h : mask.length = l.length) :
    takeMask l mask = takeIdx l (whereTrue mask) := by
  unfold takeMask
  rw [if_pos h]
  symm
  rw [takeIdx_eq_ok]
  unfold whereTrue
  rw [List.map_filterMap, List.map_filterMap]
  have key : ∀ (l' : List α) (mask : List Bool) (i : Nat), l' = l.drop i →
      mask.length = l'.length →
      List.filterMap (fun x => Option.map some (if x.2 = true then some x.1 else none)) (l'.zip mask) =
      List.filterMap (fun x => Option.map (fun i => (wrapIndex l.length i).bind fun k => l[k]?)
        (if x.1 = true then some (x.2 : Int) else none)) (mask.zipIdx i) := by
    intro l' mask
    induction mask generalizing l' with
    | nil => intro i _ _; simp
    | cons b mask ih =>
      intro i hd hl
      cases l' with
      | nil => simp at hl
      | cons a l' =>
        have hi : i < l.length := by
          apply Classical.byContradiction; intro hi
          rw [List.drop_eq_nil_of_le (by omega)] at hd; cases hd
        have hd' := hd
        rw [List.drop_eq_getElem_cons hi] at hd'
        injection hd' with ha hl'
        have := ih l' (i + 1) hl' (by simpa using hl)
        cases b with
        | false => simpa using this
        | true =>
          simp only [List.zip_cons_cons, List.zipIdx_cons, List.filterMap_cons, if_true,
            Option.map_some]
          rw [this, wrapIndex_nonneg (by omega) (by omega)]
          simp [ha, hi]
  exact key l mask 0 rfl h

/-! ### ordering -/

theorem le_trans_dec {v : Nat → Int} (a b c : Nat) :
    decide (v a ≤ v b) = true → decide (v b ≤ v c) = true → decide (v a ≤ v c) = true := by
  simp only [decide_eq_true_eq]; omega

theorem le_total_dec {v : Nat → Int} (a b : Nat) :
    (decide (v a ≤ v b) || decide (v b ≤ v a)) = true := by
  simp only [Bool.or_eq_true, decide_eq_true_eq]; omega

theorem argsort_perm (v : List Int) : (argsort v).Perm (List.range v.length) :=
  List.mergeSort_perm _ _

theorem argsort_nodup (v : List Int) : (argsort v).Nodup :=
  (argsort_perm v).nodup_iff.2 List.nodup_range

theorem pair_sublist_nodup {l : List Nat} (hn : l.Nodup) {a b : Nat} (h1 : [a, b].Sublist l)
    (h2 : [b, a].Sublist l) : False := by
  have hab : a ≠ b := by
    have := hn.sublist h1
    simpa using this
  induction l with
  | nil => cases h1
  | cons x l ih =>
    rw [List.nodup_cons] at hn
    by_cases hxa : x = a
    · subst hxa
      have hb : [b, x].Sublist l := by
        cases h2 with
        | cons _ h => exact h
        | cons_cons _ h => exact absurd rfl hab
      exact hn.1 (hb.subset (by simp))
    · by_cases hxb : x = b
      · subst hxb
        have hb : [a, x].Sublist l := by
          cases h1 with
          | cons _ h => exact h
          | cons_cons _ h => exact absurd rfl hab
        exact hn.1 (hb.subset (by simp))
      · have h1' : [a, b].Sublist l := by
          cases h1 with
          | cons _ h => exact h
          | cons_cons _ h => exact absurd rfl hxa
        have h2' : [b, a].Sublist l := by
          cases h2 with
          | cons _ h => exact h
          | cons_cons _ h => exact absurd rfl hxb
        exact ih hn.2 h1' h2'

theorem pair_sublist_range {n a b : Nat} (h : a < b) (hb : b < n) : [a, b].Sublist (List.range n) := by
  have h1 : ((List.range n).filter (fun x => x == a || x == b)).Sublist (List.range n) :=
    List.filter_sublist
  have h2 : (List.range n).filter (fun x => x == a || x == b) = [a, b] := by
    apply List.Perm.eq_of_pairwise (le := (· < ·))
    · intro x y _ _ hxy hyx; omega
    · exact List.Pairwise.filter _ List.pairwise_lt_range
    · simp [h]
    · rw [List.perm_iff_count]
      intro x
      by_cases hxa : x = a
      · subst hxa
        rw [List.count_filter (by simp), List.Nodup.count List.nodup_range]
        simp [(show x < n by omega), (show b ≠ x by omega)]
      · by_cases hxb : x = b
        · subst hxb
          rw [List.count_filter (by simp), List.Nodup.count List.nodup_range]
          simp [(show x < n by omega), (show a ≠ x by omega)]
        · rw [List.count_eq_zero.2 (by simp [hxa, hxb]), List.count_eq_zero.2 (by simp [hxa, hxb])]
  rwa [h2] at h1

/-- `argsort(kind='mergesort')` orders by value then by position. -/
theorem argsort_sorted (v : List Int) :
    (argsort v).Pairwise (fun a b => v.getD a 0 < v.getD b 0 ∨ (v.getD a 0 = v.getD b 0 ∧ a < b)) := by
  have h1 : (argsort v).Pairwise (fun a b => decide (v.getD a 0 ≤ v.getD b 0) = true) :=
    List.pairwise_mergeSort (fun a b c => le_trans_dec (v := fun k => v.getD k 0) a b c)
      (fun a b => le_total_dec (v := fun k => v.getD k 0) a b) _
  have hn := argsort_nodup v
  rw [List.pairwise_iff_forall_sublist] at h1 ⊢
  intro a b hab
  have h := h1 hab
  rw [decide_eq_true_eq] at h
  have hne : a ≠ b := by
    have := hn.sublist hab
    simpa using this
  by_cases heq : v.getD a 0 = v.getD b 0
  · right
    refine ⟨heq, ?_⟩
    apply Classical.byContradiction
    intro hlt
    have hba : b < a := by omega
    have ha : a < v.length := by
      have : a ∈ argsort v := hab.subset (by simp)
      rw [(argsort_perm v).mem_iff] at this
      simpa using this
    have h3 : [b, a].Sublist (argsort v) := by
      apply List.pair_sublist_mergeSort
        (fun a b c => le_trans_dec (v := fun k => v.getD k 0) a b c)
        (fun a b => le_total_dec (v := fun k => v.getD k 0) a b)
      · rw [decide_eq_true_eq]; omega
      · exact pair_sublist_range hba ha
    exact pair_sublist_nodup hn hab h3
  · left; omega

theorem drop_eq_filter {l : List Nat} {f : Nat → Int} (h : l.Pairwise (fun a b => f a ≤ f b)) :
    l.drop (l.length - (l.filter (fun a => decide (0 ≤ f a))).length)
      = l.filter (fun a => decide (0 ≤ f a)) := by
  induction l with
  | nil => simp
  | cons a l ih =>
    rw [List.pairwise_cons] at h
    by_cases ha : 0 ≤ f a
    · have hall : (a :: l).filter (fun a => decide (0 ≤ f a)) = a :: l := by
        rw [List.filter_eq_self]
        intro b hb
        rw [decide_eq_true_eq]
        rcases List.mem_cons.1 hb with rfl | hb
        · exact ha
        · have := h.1 b hb; omega
      rw [hall]; simp
    · have hf : (a :: l).filter (fun a => decide (0 ≤ f a)) = l.filter (fun a => decide (0 ≤ f a)) := by
        rw [List.filter_cons_of_neg (by simpa using ha)]
      rw [hf]
      have hlen : (l.filter (fun a => decide (0 ≤ f a))).length ≤ l.length := List.length_filter_le ..
      rw [List.length_cons, show l.length + 1 - (l.filter (fun a => decide (0 ≤ f a))).length
        = (l.length - (l.filter (fun a => decide (0 ≤ f a))).length) + 1 by omega,
        List.drop_succ_cons]
      exact ih h.2

theorem map_getD_range (v : List Int) : (List.range v.length).map (fun k => v.getD k 0) = v := by
  apply List.ext_getElem
  · simp
  · intro k h1 h2
    simp [List.getD_eq_getElem?_getD, h2]

/-- The list of components defined by an ordering. -/
def orderedComps (v : List Int) : List Nat :=
  (argsort v).filter (fun a => decide (0 ≤ v.getD a 0))

theorem orderingIndex_eq (v : List Int) (size : Nat) :
    orderingIndex v size = normalizeInt ((orderedComps v).map (fun (k : Nat) => (k : Int))) size := by
  have hcount : (v.filter (fun x => decide (0 ≤ x))).length = (orderedComps v).length := by
    unfold orderedComps
    rw [((argsort_perm v).filter _).length_eq]
    conv => lhs; rw [← map_getD_range v]
    rw [List.filter_map, List.length_map]
    rfl
  unfold orderingIndex
  simp only
  rw [hcount]
  split
  · rename_i h
    rw [List.length_eq_zero_iff.1 h]
    rfl
  · congr 2
    unfold orderedComps
    apply drop_eq_filter (f := fun a => v.getD a 0)
    exact (argsort_sorted v).imp (by intro a b h; omega)

theorem orderedComps_nodup (v : List Int) :
    ((orderedComps v).map (fun (k : Nat) => (k : Int))).Nodup := by
  have : (orderedComps v).Nodup := (argsort_nodup v).sublist List.filter_sublist
  rw [List.nodup_iff_pairwise_ne] at *
  rw [List.pairwise_map]
  exact this.imp (by intro a b h; omega)

theorem mem_orderedComps {v : List Int} {i : Nat} :
    i ∈ orderedComps v ↔ ∃ x, v[i]? = some x ∧ 0 ≤ x := by
  unfold orderedComps
  rw [List.mem_filter, (argsort_perm v).mem_iff, List.mem_range, decide_eq_true_eq]
  constructor
  · rintro ⟨h, h'⟩
    refine ⟨v[i], List.getElem?_eq_getElem h, ?_⟩
    rwa [List.getD_eq_getElem?_getD, List.getElem?_eq_getElem h] at h'
  · rintro ⟨x, h, h'⟩
    obtain ⟨hi, hx⟩ := List.getElem?_eq_some_iff.1 h
    refine ⟨hi, ?_⟩
    rw [List.getD_eq_getElem?_getD, h]
    exact h'

end Verif.PackedTable
