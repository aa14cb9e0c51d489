import Verif.Py.Basic

/-! Lemmas on the Python / numpy vocabulary. -/
namespace Verif.Py

@[simp] theorem progression_length (a c : Int) (n : Nat) : (progression a c n).length = n := by
  simp [progression]

theorem bind_eq_ok {α β} {x : Res α} {f : α → Res β} {b : β} :
    x.bind f = .ok b ↔ ∃ a, x = .ok a ∧ f a = .ok b := by
  cases x with
  | error e => constructor
               · intro h; cases h
               · rintro ⟨a, h, _⟩; cases h
  | ok a => constructor
            · intro h; exact ⟨a, rfl, h⟩
            · rintro ⟨a', h, h'⟩; injection h with h; subst h; exact h'

theorem map_eq_ok {α β} {x : Res α} {f : α → β} {b : β} :
    x.map f = .ok b ↔ ∃ a, x = .ok a ∧ f a = b := by
  cases x with
  | error e => constructor
               · intro h; cases h
               · rintro ⟨a, h, _⟩; cases h
  | ok a => constructor
            · intro h; injection h with h; exact ⟨a, rfl, h⟩
            · rintro ⟨a', h, h'⟩; injection h with h; subst h; subst h'; rfl

theorem progression_zero (a c : Int) : progression a c 0 = [] := rfl

theorem progression_getElem? (a c : Int) (n k : Nat) :
    (progression a c n)[k]? = if k < n then some (a + c * k) else none := by
  simp only [progression, List.getElem?_map]
  split
  · rw [List.getElem?_range (by assumption)]; simp
  · rw [List.getElem?_eq_none (by simp; omega)]; simp

@[simp] theorem progression_getElem (a c : Int) (n k : Nat) (h : k < (progression a c n).length) :
    (progression a c n)[k] = a + c * k := by
  simp [progression]

theorem mem_progression {a c x : Int} {n : Nat} :
    x ∈ progression a c n ↔ ∃ k : Nat, k < n ∧ x = a + c * k := by
  simp only [progression, List.mem_map, List.mem_range]
  constructor
  · rintro ⟨k, h, rfl⟩; exact ⟨k, h, rfl⟩
  · rintro ⟨k, h, rfl⟩; exact ⟨k, h, rfl⟩

theorem progression_succ (a c : Int) (n : Nat) :
    progression a c (n + 1) = a :: progression (a + c) c n := by
  apply List.ext_getElem
  · simp
  · intro k h1 h2
    cases k with
    | zero => simp
    | succ k => simp [Int.mul_add]; omega

theorem progression_nodup (a c : Int) (hc : c ≠ 0) (n : Nat) : (progression a c n).Nodup := by
  rw [List.nodup_iff_pairwise_ne, List.pairwise_iff_getElem]
  intro i j hi hj hij
  simp only [progression_getElem]
  intro h
  have : c * (i : Int) = c * j := by omega
  have := Int.eq_of_mul_eq_mul_left hc this
  omega

/-- A division that is exact. -/
theorem ediv_aux {m c : Int} (hc : 0 < c) : (m * c + c - 1) / c = m := by
  have h : m * c + c - 1 = (c - 1) + m * c := by omega
  rw [h, Int.add_mul_ediv_right _ _ (by omega), Int.ediv_eq_zero_of_lt (by omega) (by omega)]
  omega

theorem rangeLen_progression (a c : Int) (m : Nat) (hc : c ≠ 0) :
    rangeLen a (a + m * c) c = m := by
  unfold rangeLen
  split
  · have : a + m * c - a + c - 1 = m * c + c - 1 := by omega
    rw [this, ediv_aux (by assumption)]; simp
  · split
    · have : a - (a + ↑m * c) + -c - 1 = m * (-c) + (-c) - 1 := by rw [Int.mul_neg]; omega
      rw [this, ediv_aux (by omega)]; simp
    · omega

theorem pyRange_progression (a c : Int) (m : Nat) (hc : c ≠ 0) :
    pyRange a (a + m * c) c = progression a c m := by
  rw [pyRange, rangeLen_progression _ _ _ hc]

theorem pyRange_zero_one (n : Nat) : pyRange 0 n 1 = progression 0 1 n := by
  have := pyRange_progression 0 1 n (by decide)
  simpa using this

theorem rangeLen_eq_zero_of_pos {a b c : Int} (hc : 0 < c) (h : b ≤ a) : rangeLen a b c = 0 := by
  unfold rangeLen
  rw [if_pos hc]
  have : (b - a + c - 1) / c < 1 := Int.ediv_lt_of_lt_mul hc (by omega)
  omega

theorem rangeLen_eq_zero_of_neg {a b c : Int} (hc : c < 0) (h : a ≤ b) : rangeLen a b c = 0 := by
  unfold rangeLen
  rw [if_neg (by omega), if_pos hc]
  have : (a - b + -c - 1) / (-c) < 1 := Int.ediv_lt_of_lt_mul (by omega) (by omega)
  omega

/-- Bound on the elements of a range with a positive step. -/
theorem rangeLen_pos_bound {a b c : Int} (hc : 0 < c) {k : Nat} (h : k < rangeLen a b c) :
    a + c * k < b := by
  unfold rangeLen at h
  rw [if_pos hc] at h
  have h1 : (k : Int) + 1 ≤ (b - a + c - 1) / c := by omega
  have h2 := Int.mul_le_mul_of_nonneg_left h1 (Int.le_of_lt hc)
  have h3 : c * ((b - a + c - 1) / c) ≤ b - a + c - 1 := Int.mul_ediv_self_le (by omega)
  rw [Int.mul_add] at h2
  omega

theorem rangeLen_neg_bound {a b c : Int} (hc : c < 0) {k : Nat} (h : k < rangeLen a b c) :
    b < a + c * k := by
  unfold rangeLen at h
  rw [if_neg (by omega), if_pos hc] at h
  have h1 : (k : Int) + 1 ≤ (a - b + -c - 1) / (-c) := by omega
  have h2 := Int.mul_le_mul_of_nonneg_left h1 (show (0 : Int) ≤ -c by omega)
  have h3 : (-c) * ((a - b + -c - 1) / (-c)) ≤ a - b + -c - 1 := Int.mul_ediv_self_le (by omega)
  rw [Int.mul_add, Int.neg_mul] at h2
  omega

theorem clipBound_pos {n : Nat} {step i : Int} (h : 0 < step) :
    0 ≤ clipBound n step i ∧ clipBound n step i ≤ n := by
  unfold clipBound; simp only; split <;> split <;> omega

theorem clipBound_neg {n : Nat} {step i : Int} (h : step < 0) :
    -1 ≤ clipBound n step i ∧ clipBound n step i ≤ (n : Int) - 1 := by
  unfold clipBound; simp only; split <;> split <;> omega

theorem sliceStart_pos {n : Nat} {step : Int} (h : 0 < step) (o : Option Int) :
    0 ≤ sliceStart n step o ∧ sliceStart n step o ≤ n := by
  cases o with
  | none => unfold sliceStart; simp only; split <;> omega
  | some i => exact clipBound_pos h

theorem sliceStart_neg {n : Nat} {step : Int} (h : step < 0) (o : Option Int) :
    -1 ≤ sliceStart n step o ∧ sliceStart n step o ≤ (n : Int) - 1 := by
  cases o with
  | none => unfold sliceStart; simp only; split <;> omega
  | some i => exact clipBound_neg h

theorem sliceStop_pos {n : Nat} {step : Int} (h : 0 < step) (o : Option Int) :
    0 ≤ sliceStop n step o ∧ sliceStop n step o ≤ n := by
  cases o with
  | none => unfold sliceStop; simp only; split <;> omega
  | some i => exact clipBound_pos h

theorem sliceStop_neg {n : Nat} {step : Int} (h : step < 0) (o : Option Int) :
    -1 ≤ sliceStop n step o ∧ sliceStop n step o ≤ (n : Int) - 1 := by
  cases o with
  | none => unfold sliceStop; simp only; split <;> omega
  | some i => exact clipBound_neg h

/-- The positions designated by a slice are valid. -/
theorem sliceIndices_bounds {s : PySlice} {n : Nat} {l : List Int} (h : sliceIndices s n = .ok l) :
    ∀ i ∈ l, 0 ≤ i ∧ i < n := by
  unfold sliceIndices at h
  simp only at h
  split at h
  · cases h
  · rename_i hc
    injection h with h
    subst h
    intro i hi
    rw [pyRange, mem_progression] at hi
    obtain ⟨k, hk, rfl⟩ := hi
    have hk0 : (0 : Int) ≤ k := by omega
    rcases Int.lt_or_gt_of_ne hc with hc' | hc'
    · have h1 := rangeLen_neg_bound hc' hk
      have h2 := (sliceStart_neg (n := n) hc' s.start).2
      have h3 := (sliceStop_neg (n := n) hc' s.stop).1
      have h4 : s.step.getD 1 * (k : Int) ≤ 0 := Int.mul_nonpos_of_nonpos_of_nonneg (by omega) hk0
      omega
    · have h1 := rangeLen_pos_bound hc' hk
      have h2 := (sliceStart_pos (n := n) hc' s.start).1
      have h3 := (sliceStop_pos (n := n) hc' s.stop).2
      have h4 : 0 ≤ s.step.getD 1 * (k : Int) := Int.mul_nonneg (by omega) hk0
      omega

theorem sliceIndices_nodup {s : PySlice} {n : Nat} {l : List Int} (h : sliceIndices s n = .ok l) :
    l.Nodup := by
  unfold sliceIndices at h
  simp only at h
  split at h
  · cases h
  · rename_i hc
    injection h with h
    subst h
    exact progression_nodup _ _ hc _

/-! ### indexing -/

theorem wrapIndex_nonneg {n : Nat} {i : Int} (h : 0 ≤ i) (h' : i < n) :
    wrapIndex n i = some i.toNat := by
  unfold wrapIndex; rw [if_pos h, if_pos h']

theorem wrapIndex_neg {n : Nat} {i : Int} (h : i < 0) (h' : -(n : Int) ≤ i) :
    wrapIndex n i = some (i + n).toNat := by
  unfold wrapIndex; rw [if_neg (by omega), if_pos h']

theorem wrapIndex_isSome {n : Nat} {i : Int} :
    (wrapIndex n i).isSome ↔ -(n : Int) ≤ i ∧ i < n := by
  unfold wrapIndex
  split
  · split <;> simp <;> omega
  · split <;> simp <;> omega

theorem wrapIndex_lt {n : Nat} {i : Int} {k : Nat} (h : wrapIndex n i = some k) : k < n := by
  unfold wrapIndex at h
  split at h
  · split at h
    · injection h with h; omega
    · cases h
  · split at h
    · injection h with h; omega
    · cases h

theorem wrapIndex_eq_none {n : Nat} {i : Int} :
    wrapIndex n i = none ↔ i < -(n : Int) ∨ (n : Int) ≤ i := by
  unfold wrapIndex
  split
  · split <;> simp <;> omega
  · split <;> simp <;> omega

/-- Characterisation of the numpy integer indexing. -/
theorem takeIdx_eq_ok {α} {l : List α} {is : List Int} {r : List α} :
    takeIdx l is = .ok r ↔
      r.map some = is.map (fun i => (wrapIndex l.length i).bind (fun k => l[k]?)) := by
  induction is generalizing r with
  | nil => cases r <;> simp [takeIdx]
  | cons i is ih =>
    unfold takeIdx
    cases hi : (wrapIndex l.length i).bind (fun k => l[k]?) with
    | none => cases r <;> simp [hi]
    | some a =>
      cases ht : takeIdx l is with
      | error e =>
        have : ∀ r' : List α, ¬ (r'.map some = is.map (fun i => (wrapIndex l.length i).bind (fun k => l[k]?))) := by
          intro r' h
          rw [← ih, ht] at h; cases h
        cases r with
        | nil => simp [Except.map]
        | cons b r => simp only [Except.map, List.map_cons, List.cons.injEq, reduceCtorEq, false_iff, not_and]; exact fun _ => this r
      | ok r' =>
        have h' := ih.1 ht
        constructor
        · intro h
          simp only [Except.map] at h
          injection h with h
          subst h
          simp only [List.map_cons, hi, h']
        · intro h
          cases r with
          | nil => simp at h
          | cons b r =>
            simp only [List.map_cons, hi, List.cons.injEq, Option.some.injEq] at h
            have := ih.2 h.2
            rw [ht] at this
            injection this with this
            simp [Except.map, this, h.1]

theorem takeIdx_length {α} {l : List α} {is : List Int} {r : List α} (h : takeIdx l is = .ok r) :
    r.length = is.length := by
  have := congrArg List.length (takeIdx_eq_ok.1 h)
  simpa using this

theorem takeIdx_getElem? {α} {l : List α} {is : List Int} {r : List α} (h : takeIdx l is = .ok r)
    (hi : ∀ i ∈ is, 0 ≤ i) (k : Nat) : r[k]? = is[k]?.bind (fun i => l[i.toNat]?) := by
  have h' := takeIdx_eq_ok.1 h
  have h2 := congrArg (fun x => x[k]?) h'
  simp only [List.getElem?_map] at h2
  cases hk : is[k]? with
  | none =>
    have : r.length = is.length := takeIdx_length h
    rw [List.getElem?_eq_none_iff] at hk
    rw [List.getElem?_eq_none (by omega)]; rfl
  | some i =>
    rw [hk] at h2
    cases hr : r[k]? with
    | none => rw [hr] at h2; simp at h2
    | some a =>
      rw [hr] at h2
      simp only [Option.map_some, Option.some.injEq] at h2
      have hpos := hi i (List.mem_of_getElem? hk)
      unfold wrapIndex at h2
      rw [if_pos hpos] at h2
      split at h2
      · simpa using h2
      · simp at h2

/-- Valid integer indices never fail. -/
theorem takeIdx_ok_of_valid {α} {l : List α} {is : List Int}
    (h : ∀ i ∈ is, -(l.length : Int) ≤ i ∧ i < l.length) : ∃ r, takeIdx l is = .ok r := by
  induction is with
  | nil => exact ⟨[], rfl⟩
  | cons i is ih =>
    obtain ⟨r, hr⟩ := ih (fun j hj => h j (List.mem_cons_of_mem _ hj))
    have hv := wrapIndex_isSome.2 (h i (List.mem_cons_self ..))
    obtain ⟨k, hk⟩ := Option.isSome_iff_exists.1 hv
    have hkl := wrapIndex_lt hk
    refine ⟨l[k] :: r, ?_⟩
    simp [takeIdx, hk, hr, Except.map, hkl]

theorem takeIdx_error {α} {l : List α} {is : List Int} {i : Int} (hi : i ∈ is)
    (h : wrapIndex l.length i = none) : takeIdx l is = .error .indexError := by
  induction is with
  | nil => cases hi
  | cons j is ih =>
    unfold takeIdx
    cases hj : (wrapIndex l.length j).bind (fun k => l[k]?) with
    | none => rfl
    | some a =>
      rcases List.mem_cons.1 hi with rfl | hi
      · rw [h] at hj; cases hj
      · simp [ih hi, Except.map]

/-- Non-negative in-range indices: `takeIdx` is a plain gather. -/
theorem takeIdx_eq_map {α} {l : List α} {is : List Int} (h : ∀ i ∈ is, 0 ≤ i ∧ i < l.length)
    (d : α) : takeIdx l is = .ok (is.map (fun i => l.getD i.toNat d)) := by
  rw [takeIdx_eq_ok, List.map_map]
  apply List.map_congr_left
  intro i hi
  have := h i hi
  rw [wrapIndex_nonneg this.1 this.2]
  simp only [Function.comp, Option.bind_some]
  rw [List.getD_eq_getElem?_getD, List.getElem?_eq_getElem (by omega)]
  simp

end Verif.Py
