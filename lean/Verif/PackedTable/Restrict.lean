import Verif.PackedTable.Lemmas

/-! The constructor and `__getitem__` keep the index well-formed. -/
namespace Verif.PackedTable
open Verif.Py

theorem NSliceSpec.wf {s : PySlice} {n : Nat} {a b c : Int} (h : NSliceSpec s n (.slice a b c))
    (hc : s.step.getD 1 ≠ 0) :
    (Idx.slice a b c).WF n ∧ sliceIndices s n = .ok ((Idx.slice a b c).comps n) := by
  obtain ⟨rfl, m, rfl, h1, h2⟩ := h
  refine ⟨⟨hc, m, rfl, sliceIndices_bounds h1, ?_⟩, ?_⟩
  · intro hm ha
    apply Classical.byContradiction
    intro hn
    have := h2 hm hn
    omega
  · simp only [Idx.comps]
    rw [pyRange_progression _ _ _ hc, h1]

theorem normalizeSlice_ok_step {s : PySlice} {n : Int} {r : NSlice} (h : normalizeSlice s n = .ok r) :
    s.step.getD 1 ≠ 0 := by
  intro hc
  rw [normalizeSlice_zero hc] at h
  cases h

theorem normStart_inl_step {o : Option Int} {step n a b c : Int}
    (h : normStart o step n = .inl (a, b, c)) : c = step := by
  unfold normStart at h
  split at h
  · cases h
  · repeat' split at h
    all_goals first
      | (cases h; done)
      | (simp only [Sum.inl.injEq, Prod.mk.injEq] at h; exact h.2.2.symm)

theorem normalizeSlice_step {s : PySlice} {n : Int} {a b c : Int}
    (h : normalizeSlice s n = .ok (.slice a b c)) : c = s.step.getD 1 := by
  unfold normalizeSlice at h
  dsimp only at h
  split at h
  · cases h
  · split at h
    · rename_i hst
      simp only [Except.ok.injEq, NSlice.slice.injEq] at h
      rw [← h.2.2]
      exact normStart_inl_step hst
    · generalize ceilQuot _ _ = q at h
      split at h
      · cases h
      · simp only [Except.ok.injEq, NSlice.slice.injEq] at h
        exact h.2.2.symm

theorem selection2bool_length {dims : List Nat} {sel : NSel} {flat : List Bool}
    (h : selection2bool dims sel = .ok flat)
    (hb : ∀ f, sel = .bools f → f.length = dims.prod) : flat.length = dims.prod := by
  unfold selection2bool at h
  simp only at h
  split at h
  · injection h with h; subst h; simp
  · injection h with h; subst h; exact hb _ rfl
  · split at h
    · injection h with h; subst h; simp
    · cases h
  · rename_i a b c
    cases h' : itemPositions (dims.headD 0) (.slice a b c) with
    | error e => rw [h'] at h; cases h
    | ok r => rw [h'] at h; injection h with h; subst h; simp
  · rename_i l
    cases h' : expandItems l dims.length with
    | error e => rw [h'] at h; cases h
    | ok r =>
      rw [h'] at h
      simp only [Except.bind] at h
      cases h'' : axisPositions dims r with
      | error e => rw [h''] at h; cases h
      | ok r => rw [h''] at h; injection h with h; subst h; simp

theorem stripEllipsis_prefix (l : List NItem) : stripEllipsis l <+: l := by
  unfold stripEllipsis
  rw [← List.reverse_suffix, List.reverse_reverse]
  exact List.dropWhile_suffix _

theorem whereTrue_wf {flat : List Bool} {n : Nat} (h : flat.length = n) :
    (normalizeInt (whereTrue flat) n).WF n ∧ (normalizeInt (whereTrue flat) n).comps n = whereTrue flat :=
  normalizeInt_wf (fun i hi => by have := whereTrue_bounds hi; omega)
    (nodup_not_repeats (whereTrue_nodup flat))

theorem orderingIndex_wf {v : List Int} {n : Nat} (h : v.length = n) :
    (orderingIndex v n).WF n ∧
    (orderingIndex v n).comps n = (orderedComps v).map (fun (k : Nat) => (k : Int)) := by
  rw [orderingIndex_eq]
  apply normalizeInt_wf
  · intro i hi
    obtain ⟨k, hk, rfl⟩ := List.mem_map.1 hi
    obtain ⟨x, hx, _⟩ := mem_orderedComps.1 hk
    obtain ⟨hk, _⟩ := List.getElem?_eq_some_iff.1 hx
    omega
  · exact nodup_not_repeats (orderedComps_nodup v)

/-- The slice computed for a tuple whose first item is a slice (core.py 222-223). -/
theorem tupleSlice_wf {a b c : Int} {d n : Nat} (h : (Idx.slice a b c).WF d) (hc : n = 1 ∨ c = 1) :
    (Idx.slice (a * n) (b * n) c).WF (d * n) := by
  obtain ⟨h0, m, rfl, h1, h2⟩ := h
  rcases hc with hn | hc
  · subst hn
    refine ⟨h0, m, by simp, ?_, ?_⟩
    · simpa using h1
    · intro hm ha
      have := h2 hm (by simpa using ha)
      simp [this]
  · subst hc
    refine ⟨by decide, m * n, by simp [Int.add_mul], ?_, ?_⟩
    · intro x hx
      obtain ⟨k, hk, rfl⟩ := mem_progression.1 hx
      have hm : 0 < m := by
        rcases Nat.eq_zero_or_pos m with hm | hm
        · subst hm; simp at hk
        · exact hm
      have hfirst := h1 a (mem_progression.2 ⟨0, hm, by simp⟩)
      have hlast := h1 (a + 1 * ((m : Int) - 1)) (mem_progression.2 ⟨m - 1, by omega, by congr 2; omega⟩)
      have hle : (a + m) * (n : Int) ≤ (d : Int) * n :=
        Int.mul_le_mul_of_nonneg_right (by omega) (by omega)
      have hge : 0 ≤ a * (n : Int) := Int.mul_nonneg hfirst.1 (by omega)
      have hk' : (k : Int) < (m : Int) * n := by rw [← Int.natCast_mul]; omega
      rw [Int.add_mul] at hle
      rw [Int.natCast_mul]
      omega
    · intro hm ha
      rcases Nat.mul_eq_zero.1 hm with hm | hn
      · have ha' : a < 0 := by
          apply Classical.byContradiction
          intro hna
          have : 0 ≤ a * (n : Int) := Int.mul_nonneg (by omega) (by omega)
          omega
        rw [h2 hm ha']; simp
      · subst hn; simp

theorem getIndex_wf {dims : List Nat} {sel : Sel} {ordering : Option (List Nat × List Int)} {i : Idx}
    (h : getIndex dims sel ordering = .ok i) (hs : SelOk dims sel) (ho : OrderingOk ordering) :
    i.WF dims.prod := by
  unfold getIndex at h
  cases hn : normalizeSelection sel dims with
  | error e => rw [hn] at h; cases h
  | ok nsel =>
    rw [hn] at h
    simp only [Except.bind] at h
    cases ordering with
    | some o =>
      obtain ⟨osh, values⟩ := o
      simp only at h
      split at h
      · cases h
      · rename_i hsh
        rw [Decidable.not_not] at hsh
        subst hsh
        simp only [OrderingOk] at ho
        unfold maskOrdering at h
        split at h
        · injection h with h; subst h; exact (orderingIndex_wf ho).1
        · cases h' : selection2bool osh nsel with
          | error e => rw [h'] at h; cases h
          | ok flat =>
            rw [h'] at h
            simp only [Except.map] at h
            injection h with h
            subst h
            apply (orderingIndex_wf _).1
            have := selection2bool_length h' (by
              rintro f rfl
              cases sel with
              | bools sh flat =>
                unfold normalizeSelection at hn; dsimp only at hn
                split at hn
                · cases hn
                · rename_i hsh
                  rw [Decidable.not_not] at hsh
                  injection hn with hn; injection hn with hn
                  subst hn; subst hsh; exact hs
              | tuple l =>
                unfold normalizeSelection at hn; dsimp only at hn
                split at hn
                · cases hn
                · cases h : normalizeItems l osh with
                  | error e => rw [h] at hn; cases hn
                  | ok its =>
                    rw [h] at hn
                    simp only [Except.map] at hn
                    split at hn <;> cases hn
              | slice s =>
                unfold normalizeSelection at hn; dsimp only at hn
                cases h : normalizeSlice s (osh.prod : Nat) with
                | error e => rw [h] at hn; cases hn
                | ok r => rw [h] at hn; cases r <;> cases hn
              | _ => cases hn)
            rw [List.length_zipWith]; omega
    | none =>
      simp only at h
      cases sel with
      | all => cases hn; injection h with h; subst h; trivial
      | scalar k =>
        cases hn; injection h with h; subst h
        intro x hx
        simp only [List.mem_singleton] at hx
        subst hx; exact hs
      | ints l =>
        cases hn; injection h with h; subst h
        exact (normalizeInt_wf hs.1 hs.2).1
      | slice s =>
        unfold normalizeSelection at hn; dsimp only at hn
        cases hr : normalizeSlice s (dims.prod : Nat) with
        | error e => rw [hr] at hn; cases hn
        | ok r =>
          have hc := normalizeSlice_ok_step hr
          obtain ⟨r', hr', hspec⟩ := normalizeSlice_spec hc hs
          rw [hr] at hr'; injection hr' with hr'; subst hr'
          rw [hr] at hn
          cases r with
          | all => cases hn; injection h with h; subst h; trivial
          | slice a b c =>
            cases hn; injection h with h; subst h
            exact (hspec.wf hc).1
      | bools sh flat =>
        unfold normalizeSelection at hn; dsimp only at hn
        split at hn
        · cases hn
        · rename_i hsh
          rw [Decidable.not_not] at hsh
          subst hsh
          cases hn; injection h with h; subst h
          exact (whereTrue_wf hs).1
      | tuple l =>
        unfold normalizeSelection at hn; dsimp only at hn
        split at hn
        · cases hn
        · cases hits : normalizeItems l dims with
          | error e => rw [hits] at hn; cases hn
          | ok its =>
            rw [hits] at hn
            simp only [Except.map] at hn
            split at hn
            · cases hn; injection h with h; subst h; trivial
            · rename_i its' _
              injection hn with hn; subst hn
              simp only at h
              have viaBool : ∀ {i}, Except.map (fun flat => normalizeInt (whereTrue flat) dims.prod)
                  (selection2bool dims (.tuple (stripEllipsis its))) = .ok i → i.WF dims.prod := by
                intro i h
                cases h' : selection2bool dims (.tuple (stripEllipsis its)) with
                | error e => rw [h'] at h; cases h
                | ok flat =>
                  rw [h'] at h
                  injection h with h; subst h
                  exact (whereTrue_wf (selection2bool_length h' (by rintro f hf; cases hf))).1
              split at h
              · rename_i a b c rest hstrip
                split at h
                · rename_i hcond
                  injection h with h; subst h
                  have hpre := stripEllipsis_prefix its
                  rw [hstrip] at hpre
                  obtain ⟨tl, htl⟩ := hpre
                  cases l with
                  | nil => unfold normalizeItems at hits; injection hits with hits; rw [← hits] at htl; cases htl
                  | cons it l =>
                    cases dims with
                    | nil => unfold normalizeItems at hits; injection hits with hits; rw [← hits] at htl; cases htl
                    | cons d ds =>
                      unfold normalizeItems at hits
                      cases it with
                      | ellipsis =>
                        simp only [Except.bind] at hits
                        cases h2 : normalizeItems l ds with
                        | error e => rw [h2] at hits; cases hits
                        | ok r => rw [h2] at hits; injection hits with hits; rw [← hits] at htl; cases htl
                      | int k =>
                        simp only [Except.bind] at hits
                        cases h2 : normalizeItems l ds with
                        | error e => rw [h2] at hits; cases hits
                        | ok r => rw [h2] at hits; injection hits with hits; rw [← hits] at htl; cases htl
                      | slice s =>
                        simp only at hits
                        cases hr : normalizeSlice s d with
                        | error e => rw [hr] at hits; cases hits
                        | ok r =>
                          have hc := normalizeSlice_ok_step hr
                          rw [hr] at hits
                          simp only [Except.map, Except.bind] at hits
                          cases h2 : normalizeItems l ds with
                          | error e => rw [h2] at hits; cases hits
                          | ok r2 =>
                            rw [h2] at hits; injection hits with hits; rw [← hits] at htl
                            cases r with
                            | all => cases htl
                            | slice a' b' c' =>
                              simp only [NSlice.toNItem, List.cons_append, List.cons.injEq,
                                NItem.slice.injEq] at htl
                              obtain ⟨⟨rfl, rfl, rfl⟩, _⟩ := htl
                              have hstop : SliceStopOk s d := by
                                rcases hcond with h1 | ⟨_, h1⟩
                                · have hds : ds = [] := by
                                    cases ds with
                                    | nil => rfl
                                    | cons _ _ => simp at h1
                                  subst hds
                                  have := hs s l rfl h1
                                  simpa using this
                                · left
                                  have := normalizeSlice_step hr
                                  omega
                              obtain ⟨r', hr', hspec⟩ := normalizeSlice_spec hc hstop
                              rw [hr] at hr'; injection hr' with hr'; subst hr'
                              have hwf := (hspec.wf hc).1
                              simp only [List.drop_one, List.tail_cons, List.prod_cons]
                              apply tupleSlice_wf hwf
                              rcases hcond with h1 | ⟨_, h1⟩
                              · left
                                cases ds with
                                | nil => rfl
                                | cons _ _ => simp at h1
                              · right; exact h1
                · exact viaBool h
              · exact viaBool h

theorem make_wf {shape : List Nat} {sel : Sel} {ordering : Option (List Nat × List Int)}
    {ndim : Option Int} {t : Table} (h : Table.make shape sel ordering ndim = .ok t)
    (hs : SelOk t.dims sel) (ho : OrderingOk ordering) : t.idx.WF t.size := by
  unfold Table.make at h
  split at h
  · cases hg : getIndex shape sel ordering with
    | error e => rw [hg] at h; cases h
    | ok i =>
      rw [hg] at h; injection h with h; subst h
      simp only [Table.size, Table.dims, List.take_length] at *
      exact getIndex_wf hg hs ho
  · split at h
    · cases h
    · rename_i d _
      cases hg : getIndex (shape.take d.toNat) sel ordering with
      | error e => rw [hg] at h; cases h
      | ok i =>
        rw [hg] at h; injection h with h; subst h
        exact getIndex_wf hg hs ho


/-! ### `__getitem__` -/

/-- The outcome expected from a restriction. -/
def Restricts (t : Table) (r : List Int) (t' : Table) : Prop :=
  t'.shape = t.shape ∧ t'.ndim = t.ndim ∧ t'.idx.WF t'.size ∧ t'.index = .ok r

theorem restricts_of_idx {t : Table} {i : Idx} (h : i.WF t.size) :
    Restricts t (i.comps t.size) { t with idx := i } :=
  ⟨rfl, rfl, h, index_of_wf (t := { t with idx := i }) h⟩

theorem takeIdx_mem {α} {l : List α} {is : List Int} {r : List α} (h : takeIdx l is = .ok r) :
    ∀ x ∈ r, x ∈ l := by
  intro x hx
  have h' := takeIdx_eq_ok.1 h
  have : some x ∈ r.map some := List.mem_map.2 ⟨x, hx, rfl⟩
  rw [h', List.mem_map] at this
  obtain ⟨i, _, hi⟩ := this
  cases hw : wrapIndex l.length i with
  | none => rw [hw] at hi; cases hi
  | some k => rw [hw] at hi; exact List.mem_of_getElem? hi

theorem takeIdx_progression {a c : Int} {n : Nat} {is : List Int} (h : ∀ i ∈ is, 0 ≤ i ∧ i < n) :
    takeIdx (progression a c n) is = .ok (is.map (fun i => a + c * i)) := by
  rw [takeIdx_eq_ok, List.map_map]
  apply List.map_congr_left
  intro i hi
  have := h i hi
  rw [wrapIndex_nonneg this.1 (by simpa using this.2)]
  simp only [Function.comp, Option.bind_some, progression_getElem?]
  rw [if_pos (by omega)]
  congr 2
  rw [Int.toNat_of_nonneg this.1]

theorem progression_map (a c A C : Int) (m : Nat) :
    (progression a c m).map (fun i => A + C * i) = progression (A + a * C) (C * c) m := by
  apply List.ext_getElem
  · simp
  · intro k h1 h2
    simp only [List.getElem_map, progression_getElem]
    rw [Int.mul_add, Int.mul_assoc, Int.mul_comm a C]
    omega

theorem sliceIndices_empty {s : PySlice} (hc : s.step.getD 1 ≠ 0) : sliceIndices s 0 = .ok [] := by
  cases h : sliceIndices s 0 with
  | error e => unfold sliceIndices at h; dsimp only at h; rw [if_neg hc] at h; cases h
  | ok l =>
    cases l with
    | nil => rfl
    | cons i l => have := sliceIndices_bounds h i (by simp); omega

/-- The normalised slice used directly by numpy on an array (core.py 329, 344). -/
theorem takeSlice_normalized {α} {l : List α} {a b c : Int} (h : (Idx.slice a b c).WF l.length)
    (hb : 0 ≤ b ∨ l.length = 0) :
    takeSlice l ⟨some a, some b, some c⟩ = takeIdx l ((Idx.slice a b c).comps l.length) := by
  unfold takeSlice
  rcases hb with hb | hb
  · have := sliceIndices_indexable h
    rw [if_neg (by omega)] at this
    rw [this]; rfl
  · have hb' := h.bounds
    have hnil : (Idx.slice a b c).comps l.length = [] := by
      cases hl : (Idx.slice a b c).comps l.length with
      | nil => rfl
      | cons x r => have := hb' x (by rw [hl]; simp); omega
    rw [hnil, hb, sliceIndices_empty (by simpa using h.1)]; rfl

theorem normalizeSlice_empty_start {s : PySlice} {a b c : Int}
    (h : normalizeSlice s (0 : Nat) = .ok (.slice a b c))
    (hs : (s.start = none ∧ 0 < s.step.getD 1) ∨ (∃ i, s.start = some i ∧ i < 0)) : a = 0 := by
  unfold normalizeSlice at h
  dsimp only at h
  split at h
  · cases h
  · rcases hs with ⟨h1, h2⟩ | ⟨i, h1, h2⟩
    · unfold normStart at h
      rw [h1] at h
      dsimp only at h
      generalize ceilQuot _ _ = q at h
      split at h
      · cases h
      · simp only [Except.ok.injEq, NSlice.slice.injEq] at h
        exact h.1.symm
    · unfold normStart at h
      rw [h1] at h
      dsimp only at h
      rw [if_pos h2, if_pos (by omega)] at h
      by_cases h3 : s.step.getD 1 < 0
      · rw [if_pos h3] at h
        simp only [Except.ok.injEq, NSlice.slice.injEq] at h
        exact h.1.symm
      · rw [if_neg h3] at h
        dsimp only at h
        generalize ceilQuot _ _ = q at h
        split at h
        · cases h
        · simp only [Except.ok.injEq, NSlice.slice.injEq] at h
          exact h.1.symm

theorem subIdx_other {t : Table} {nsel : NSel} (h : t.idx.WF t.size)
    (h1 : t.idx = .all → (∀ a b c, nsel ≠ .slice a b c) ∧ ∀ l, nsel ≠ .ints l)
    (h2 : (∃ a b c, t.idx = .slice a b c) → ∀ a b c, nsel ≠ .slice a b c) :
    t.subIdx nsel = (applyNSel (t.idx.comps t.size) nsel).map fun l => normalizeInt l t.size := by
  have hi := index_of_wf h
  unfold Table.subIdx
  split
  · rename_i he; exact absurd rfl ((h1 he).1 _ _ _)
  · rename_i he; exact absurd rfl ((h1 he).2 _)
  · rename_i he; exact absurd rfl (h2 ⟨_, _, _, he⟩ _ _ _)
  · rw [hi]; rfl

/-- `__getitem__` refines numpy's selection of the list of components. -/
theorem getitem_spec {t : Table} {n : Nat} {index : List Int} {sel : Sel} (h : t.idx.WF t.size)
    (hlen : t.len = .ok n) (hidx : t.index = .ok index) (hs : Supported t n index sel) :
    ∃ r t', numpySelect index sel = .ok r ∧ t.getitem sel = .ok t' ∧ Restricts t r t' := by
  have hl := len_of_wf h
  have hi := index_of_wf h
  rw [hlen] at hl; injection hl with hl
  rw [hidx] at hi; injection hi with hi
  have hbd := h.bounds
  -- restriction through the list of components
  have viaList : ∀ {r : List Int}, (∀ x ∈ r, x ∈ index) → ¬ Repeats r →
      Restricts t r { t with idx := normalizeInt r t.size } := by
    intro r hr hrep
    have hw := normalizeInt_wf (l := r) (n := t.size)
      (fun x hx => hbd x (by rw [← hi]; exact hr x hx)) hrep
    have := restricts_of_idx (t := t) hw.1
    rwa [hw.2] at this
  -- integer selections
  have ints : ∀ l : List Int, (∀ i ∈ l, -(n : Int) ≤ i ∧ i < n) → (t.idx = .all → ∀ i ∈ l, 0 ≤ i) →
      (∀ r, takeIdx index l = .ok r → ¬ Repeats r) →
      ∃ r t', takeIdx index l = .ok r ∧ (t.subIdx (.ints l)).map (fun i => { t with idx := i }) = .ok t'
        ∧ Restricts t r t' := by
    intro l hv hpos hrep
    obtain ⟨r, hr⟩ := takeIdx_ok_of_valid (l := index) (is := l) (fun i hi' => by
      have := hv i hi'; rw [hi, ← hl]; exact this)
    by_cases hall : t.idx = .all
    · have hrl : r = l := by
        rw [hi, hall] at hr
        simp only [Idx.comps] at hr
        have hn : n = t.size := by rw [hl, hall]; simp [Idx.comps]
        rw [takeIdx_progression (fun i hi' => ⟨hpos hall i hi', by have := hv i hi'; omega⟩)] at hr
        injection hr with hr
        rw [← hr]
        simp
      subst hrl
      refine ⟨r, { t with idx := normalizeInt r t.size }, hr, ?_, ?_⟩
      · unfold Table.subIdx; rw [hall]; rfl
      · exact viaList (takeIdx_mem hr) (hrep r hr)
    · refine ⟨r, { t with idx := normalizeInt r t.size }, hr, ?_, viaList (takeIdx_mem hr) (hrep r hr)⟩
      rw [subIdx_other h (fun h => absurd h hall) (fun _ => by intros; simp), ← hi]
      simp only [applyNSel]
      rw [hr]; rfl
  cases sel with
  | tuple l => exact absurd hs (by simp [Supported])
  | all =>
    refine ⟨index, t, rfl, ?_, rfl, rfl, h, hidx⟩
    unfold Table.getitem; rw [hlen]; rfl
  | scalar i =>
    obtain ⟨h1, h2, h3⟩ := hs
    obtain ⟨r, t', hr, ht, hres⟩ := ints [i] (by simpa using ⟨h1, h2⟩) (by simpa using h3)
      (by
        intro r hr ⟨m, a, hm⟩
        have := takeIdx_length hr
        rw [hm] at this; simp at this)
    refine ⟨r, t', hr, ?_, hres⟩
    unfold Table.getitem; rw [hlen]; exact ht
  | ints l =>
    obtain ⟨h1, h2, h3⟩ := hs
    obtain ⟨r, t', hr, ht, hres⟩ := ints l h1 h2 h3
    refine ⟨r, t', hr, ?_, hres⟩
    unfold Table.getitem; rw [hlen]; exact ht
  | bools sh flat =>
    obtain ⟨rfl, hf, hrep⟩ := hs
    have hlen' : flat.length = index.length := by rw [hi, ← hl, hf]
    have htm := takeMask_eq (l := index) hlen'
    obtain ⟨r, hr⟩ := takeIdx_ok_of_valid (l := index) (is := whereTrue flat) (fun i hi' => by
      have := whereTrue_bounds hi'; omega)
    rw [← htm] at hr
    refine ⟨r, { t with idx := normalizeInt r t.size }, ?_, ?_, ?_⟩
    · simp only [numpySelect]
      rw [if_pos (by rw [hi, ← hl]), hr]
    · unfold Table.getitem
      rw [hlen]
      simp only [Except.bind, normalizeSelection]
      rw [if_neg (by simp)]
      simp only
      rw [subIdx_other h (fun _ => ⟨by intros; simp, by intros; simp⟩) (fun _ => by intros; simp), ← hi]
      simp only [applyNSel]
      rw [hr]; rfl
    · refine viaList ?_ (hrep r hr)
      rw [htm] at hr
      exact takeIdx_mem hr
  | slice s =>
    obtain ⟨hc, hstop, hcase⟩ := hs
    obtain ⟨ns, hns, hspec⟩ := normalizeSlice_spec hc hstop
    have hget : ∀ t', (match ns.toNSel with
        | .all => .ok t
        | nsel => (t.subIdx nsel).map fun i => { t with idx := i }) = Except.ok t' →
        t.getitem (.slice s) = .ok t' := by
      intro t' h
      unfold Table.getitem
      rw [hlen]
      simp only [Except.bind, normalizeSelection, List.prod_cons, List.prod_nil, Nat.mul_one]
      rw [hns]
      simp only [Except.map]
      exact h
    have hts : ∀ p, sliceIndices s n = .ok p → takeSlice index s = takeIdx index p := by
      intro p hp
      unfold takeSlice
      rw [hi, ← hl, hp]; rfl
    cases ns with
    | all =>
      refine ⟨index, t, ?_, hget t rfl, rfl, rfl, h, hidx⟩
      simp only [numpySelect]
      rw [hts _ hspec, show n = index.length by rw [hi, hl], takeIdx_range]
    | slice a b c =>
      obtain ⟨hwf, hsi⟩ := hspec.wf hc
      have hpb := hwf.bounds
      have htake := hts _ hsi
      cases hidx' : t.idx with
      | all =>
        have hn : n = t.size := by rw [hl, hidx']; simp [Idx.comps]
        rw [hn] at hwf hpb htake
        refine ⟨(Idx.slice a b c).comps t.size, { t with idx := .slice a b c }, ?_, ?_, ?_⟩
        · simp only [numpySelect]
          rw [htake, hi, hidx']
          simp only [Idx.comps] at *
          rw [takeIdx_progression hpb]
          simp
        · apply hget
          simp only [NSlice.toNSel]
          unfold Table.subIdx; rw [hidx']; rfl
        · exact restricts_of_idx hwf
      | arr l =>
        rw [hidx'] at hcase
        simp only at hcase
        have hil : index = l := by rw [hi, hidx']; rfl
        have hnl : n = l.length := by rw [hl, hidx']; rfl
        have hb : 0 ≤ b ∨ l.length = 0 := by
          obtain ⟨hc', m, hb, hx, hm⟩ := hwf
          obtain ⟨hstep, _⟩ := hspec
          apply Classical.byContradiction
          intro hneg
          have hb0 : b < 0 := by omega
          rcases Nat.eq_zero_or_pos m with h0 | h0
          · subst h0
            have := hm rfl (by rw [hb] at hb0; simpa using hb0)
            omega
          · have hfirst := hx a (mem_progression.2 ⟨0, h0, by simp⟩)
            rcases hcase.1 with hpos | hall
            · rw [← hstep] at hpos
              have : 0 ≤ (m : Int) * c := Int.mul_nonneg (by omega) (by omega)
              omega
            · have hlast := hall _ hsi (a + c * ((m - 1 : Nat) : Int)) (by
                simp only [Idx.comps]
                rw [hb, pyRange_progression _ _ _ hc']
                exact mem_progression.2 ⟨m - 1, by omega, rfl⟩)
              rw [← hstep, Int.natCast_sub h0, Int.mul_sub, Int.mul_comm c] at hlast
              simp at hlast
              omega
        rw [hnl] at hwf hpb htake
        have hnorm := takeSlice_normalized (l := l) hwf hb
        obtain ⟨r, hr⟩ := takeIdx_ok_of_valid (l := l) (is := (Idx.slice a b c).comps l.length)
          (fun i hi' => by have := hpb i hi'; omega)
        refine ⟨r, { t with idx := normalizeInt r t.size }, ?_, ?_, ?_⟩
        · simp only [numpySelect]
          rw [htake, hil, hr]
        · apply hget
          simp only [NSlice.toNSel]
          rw [subIdx_other h (fun h => by rw [hidx'] at h; cases h) (fun ⟨_, _, _, h⟩ => by rw [hidx'] at h; cases h),
            hidx']
          simp only [Idx.comps, applyNSel]
          rw [hnorm, hr]; rfl
        · apply viaList
          · rw [hil]; exact takeIdx_mem hr
          · apply hcase.2
            rw [htake, hil, hr]
      | slice A B C =>
        rw [hidx'] at h hcase
        simp only at hcase
        obtain ⟨hC, M, hB, hX, hM⟩ := h
        obtain ⟨hc', m, hb, hx, hm⟩ := hwf
        have hcomps : index = progression A C M := by
          rw [hi, hidx']; simp only [Idx.comps]; rw [hB, pyRange_progression _ _ _ hC]
        have hnM : n = M := by rw [hl, ← hi, hcomps]; simp
        have hpc : (Idx.slice a b c).comps n = progression a c m := by
          simp only [Idx.comps]; rw [hb, pyRange_progression _ _ _ hc']
        rw [hpc] at htake
        have hCc : C * c ≠ 0 := Int.mul_ne_zero hC hc'
        have hres : progression (A + a * C) (C * c) m = (progression a c m).map (fun i => A + C * i) :=
          (progression_map a c A C m).symm
        have hdiv : (b - a).fdiv c = m := by
          rw [hb, show a + ↑m * c - a = ↑m * c by omega, Int.mul_fdiv_cancel _ hc']
        have hwf' : (Idx.slice (A + a * C) (A + a * C + m * (C * c)) (C * c)).WF t.size := by
          refine ⟨hCc, m, rfl, ?_, ?_⟩
          · intro x hx'
            rw [hres, List.mem_map] at hx'
            obtain ⟨i, hi', rfl⟩ := hx'
            have hib := hx i hi'
            apply hX
            exact mem_progression.2 ⟨i.toNat, by omega, by rw [Int.toNat_of_nonneg hib.1]⟩
          · intro hm0 hneg
            apply Classical.byContradiction
            intro hsz
            by_cases hn0 : n = 0
            · rcases hcase hn0 with h1 | h1
              · exact hsz h1
              · rw [hn0] at hns
                have ha0 := normalizeSlice_empty_start hns h1
                subst ha0
                exact hsz (hM (by omega) (by simpa using hneg))
            · obtain ⟨_, m', hb', hsi', hlast⟩ := hspec
              have hmm : m' = m := by
                have h1 : (m' : Int) * c = m * c := by omega
                have := Int.eq_of_mul_eq_mul_right hc' h1
                omega
              have hab := hlast (by omega) hn0
              have := (hX (A + C * a) (mem_progression.2 ⟨a.toNat, by omega, by rw [Int.toNat_of_nonneg hab.1]⟩)).1
              rw [Int.mul_comm] at this
              omega
        refine ⟨progression (A + a * C) (C * c) m,
          { t with idx := .slice (A + a * C) (A + a * C + m * (C * c)) (C * c) }, ?_, ?_, ?_⟩
        · simp only [numpySelect]
          rw [htake, hcomps, takeIdx_progression (by rw [← hnM]; exact hx), hres]
        · apply hget
          simp only [NSlice.toNSel]
          unfold Table.subIdx
          rw [hidx']
          simp only
          rw [if_neg hc', hdiv]
          rfl
        · have := restricts_of_idx (t := t) hwf'
          simp only [Idx.comps] at this
          rwa [pyRange_progression _ _ _ hCc] at this

theorem Reachable.wf {t : Table} (h : Reachable t) : t.idx.WF t.size := by
  induction h with
  | make hm hs ho => exact make_wf hm hs ho
  | getitem _ hlen hidx hs hget ih =>
    obtain ⟨r, t', _, ht', hres⟩ := getitem_spec ih hlen hidx hs
    rw [hget] at ht'
    injection ht' with ht'
    subst ht'
    exact hres.2.2.1

end Verif.PackedTable
