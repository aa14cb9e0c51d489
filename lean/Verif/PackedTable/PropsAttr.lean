import Verif.PackedTable.AttrHeap

/-! Properties C05, C15, C16 and C18: attributes of packed tables. -/
namespace Verif.PackedTable
open Verif.Py

/-! ### Concrete objects -/

/-- `PackedTable(5, x=[10, 11, 12, 13, 14], y=7)`. -/
def o5 : Obj := ⟨⟨[5], 1, .all⟩, ["index", "removed", "x", "y"],
  fun k => if k = "y" then some (.scalar ⟨1, [0]⟩) else if k = "x" then some (.rows ⟨0, [0, 1, 2, 3, 4]⟩) else none⟩
/-- Its arrays. -/
def h5 : Heap Int := [[10, 11, 12, 13, 14], [7]]

theorem o5_make : ∃ o, Obj.make ([] : Heap Int) [5] .all none none
    [("x", some (.array [5] [10, 11, 12, 13, 14])), ("y", some (.scalar 7))] = .ok (h5, o) ∧
    o.tab = o5.tab ∧ o.special = o5.special ∧ o.attrs = o5.attrs :=
  ⟨_, rfl, rfl, rfl, rfl⟩

theorem o5_consistent : Consistent o5 := by
  intro k a h
  simp only [o5] at h
  split at h
  · rename_i hk; subst hk
    injection h with h; subst h
    exact ⟨by decide, by decide, by intro v h; cases h⟩
  · split at h
    · rename_i hk; subst hk
      injection h with h; subst h
      refine ⟨by decide, by decide, ?_⟩
      intro v h; injection h with h; subst h; decide
    · cases h

theorem o5_heap : HeapOk h5 o5 := by
  intro k v h
  simp only [o5] at h
  split at h
  · rcases h with h | h
    · cases h
    · injection h with h; injection h with h; subst h
      exact ⟨by decide, by decide⟩
  · split at h
    · rcases h with h | h
      · injection h with h; injection h with h; subst h
        exact ⟨by decide, by decide⟩
      · cases h
    · rcases h with h | h <;> cases h

/-! ### C05 -/

/-- C05: a restriction takes the same rows `js` in the list of components and in every attribute with a component
dimension; the other attributes are those of the parent, with the same value. -/
theorem C05_aligned_partial {α} {h : Heap α} {o : Obj} (hr : Reachable o.tab) (hc : Consistent o)
    (hh : HeapOk h o) {n : Nat} {index : List Int} (hlen : o.tab.len = .ok n) (hi : o.tab.index = .ok index)
    {sel : Sel} (hs : Supported o.tab n index sel) (ha : AttrOk n sel) :
    ∃ (h' : Heap α) (o' : Obj) (js : List Nat) (index' : List Int),
      o.getitem h sel = .ok (h', o') ∧ numpySelect (List.range n) sel = .ok js ∧ (∀ j ∈ js, j < n) ∧
      o'.tab.index = .ok index' ∧ index'.map some = js.map (index[·]?) ∧
      (∀ k v, o.attrs k = some (.rows v) →
        ∃ v', o'.attrs k = some (.rows v') ∧ v'.read h' = js.map (fun j => ((v.read h)[j]?).join)) ∧
      (∀ k, (∀ v, o.attrs k ≠ some (.rows v)) → o'.attrs k = o.attrs k) ∧
      (∀ k v, o.attrs k = some (.scalar v) → v.read h' = v.read h) ∧
      HeapOk h' o' := by
  have hlen' := len_of_wf hr.wf
  have hidx := index_of_wf hr.wf
  rw [hi] at hidx; injection hidx with hidx
  rw [hlen] at hlen'; injection hlen' with hlen'
  rw [← hidx] at hlen'
  obtain ⟨r, t', h1, h2, h3, h4, h5, h6⟩ := getitem_spec hr.wf hlen hi hs
  -- the selected positions
  have hpos : ∃ js, numpySelect (List.range n) sel = .ok js := by
    cases sel with
    | all => exact ⟨_, rfl⟩
    | scalar i =>
      exact takeIdx_ok_of_valid (by intro j hj; simp at hj; subst hj; simp; exact ⟨hs.1, hs.2.1⟩)
    | ints is => exact takeIdx_ok_of_valid (by intro j hj; have := hs.1 j hj; simp; exact this)
    | slice s =>
      simp only [numpySelect]
      unfold takeSlice
      rw [List.length_range]
      cases hsi : sliceIndices s n with
      | error e =>
        unfold sliceIndices at hsi; dsimp only at hsi
        rw [if_neg hs.1] at hsi; cases hsi
      | ok p =>
        have := sliceIndices_bounds hsi
        exact takeIdx_ok_of_valid (l := List.range n) (by intro j hj; have := this j hj; simp; omega)
    | bools sh flat =>
      simp only [numpySelect, List.length_range]
      rw [if_pos hs.1]
      unfold takeMask
      rw [if_pos (by simpa using hs.2.1)]
      exact ⟨_, rfl⟩
    | tuple l => exact hs.elim
  obtain ⟨js, hjs⟩ := hpos
  have hjs' := hjs
  rw [hlen'] at hjs'
  obtain ⟨hlt, r', hr', hrm⟩ := numpySelect_natural hjs'
  rw [h1] at hr'; injection hr' with hr'; subst hr'
  have hrl : r.length = js.length := by have := congrArg List.length hrm; simpa using this
  have h2' := h2
  unfold Table.getitem at h2'
  rw [hlen] at h2'
  obtain ⟨n', hn', h2'⟩ := bind_eq_ok.1 h2'
  injection hn' with hn'; subst hn'
  obtain ⟨nsel, hnsel, h2'⟩ := bind_eq_ok.1 h2'
  have hsel : ∀ l : List Nat, l.length = n →
      ∃ q, applyNSel l nsel = .ok q ∧ q.map some = js.map (l[·]?) := by
    intro l hl
    subst hl
    rw [applyNSel_spec hnsel hs ha]
    exact (numpySelect_natural hjs).2
  have hlt' : ∀ j ∈ js, j < n := by rw [hlen']; exact hlt
  have hlens : ∀ k v, o.attrs k = some (.rows v) → v.pos.length = n := by
    intro k v hv
    have := (hc k _ hv).2.2 v rfl
    rw [hlen] at this; injection this with this; exact this.symm
  unfold Obj.getitem
  rw [hlen]
  simp only [Except.bind]
  rw [hnsel]
  simp only
  split
  · rename_i heq
    -- the table itself
    simp only at h2'
    injection h2' with h2'; subst h2'
    rw [hi] at h6; injection h6 with h6; subst h6
    refine ⟨h, o, js, index, rfl, hjs, hlt', hi, hrm, ?_, fun k _ => rfl, fun k v _ => rfl, hh⟩
    intro k v hv
    refine ⟨v, hv, ?_⟩
    obtain ⟨q, hq1, hq2⟩ := hsel v.pos (hlens k v hv)
    simp only [applyNSel] at hq1
    injection hq1 with hq1; subst hq1
    have hvr : v.read h = (v.pos.map some).map (fun o => o.bind (fun (p : Nat) => (h[v.buf]?.getD [])[p]?)) := by
      rw [List.map_map]; rfl
    conv => lhs; rw [hvr, hq2, List.map_map]
    apply List.map_congr_left
    intro j _
    simp only [Function.comp, View.read, List.getElem?_map]
    cases hvp : v.pos[j]? <;> simp [Option.join]
  · rename_i hne
    simp only at h2'
    obtain ⟨i, hi', h2'⟩ := map_eq_ok.1 h2'
    rw [hi']
    simp only
    have hout : ({ o with tab := { o.tab with idx := i } } : Obj).tab.len = .ok js.length := by
      show ({ o.tab with idx := i } : Table).len = _
      rw [h2']
      rw [len_of_wf h5]
      have := index_of_wf h5
      rw [h6] at this; injection this with this
      rw [← this, hrl]
    obtain ⟨e', out', g1, g2, g3, g4, g5⟩ := selectAttrs_ok hsel hh hlens o.special [] _ hout
    rw [List.append_nil] at g1 g4
    refine ⟨h ++ e', out', js, r, g1, hjs, hlt', ?_, hrm, ?_, ?_, ?_, ?_⟩
    · rw [g2]
      show ({ o.tab with idx := i } : Table).index = _
      rw [h2', h6]
    · intro k v hv
      have hcv := hc k _ hv
      obtain ⟨v', a, b, c⟩ := g4 k v hcv.1 hcv.2.1 hv
      exact ⟨v', a, c⟩
    · intro k hk
      exact g5 k (fun _ _ => hk)
    · intro k v hv
      exact read_append (hh k v (Or.inr hv)).1
    · intro k v hv
      by_cases hk : ∃ w, o.attrs k = some (.rows w)
      · obtain ⟨w, hw⟩ := hk
        have hcv := hc k _ hw
        obtain ⟨v', a, b, c⟩ := g4 k w hcv.1 hcv.2.1 hw
        rcases hv with hv | hv
        · rw [a] at hv; injection hv with hv; injection hv with hv; subst hv; exact b
        · rw [a] at hv; injection hv with hv; cases hv
      · have hk' : ∀ w, o.attrs k ≠ some (.rows w) := fun w hw => hk ⟨w, hw⟩
        have := g5 k (fun _ _ => hk')
        rw [this] at hv
        exact valid_append (hh k v hv)

/-- C05 is violated by descending slices that reach the first component: the restriction of the table with an
attribute fails although numpy accepts the selection. -/
theorem C05_violation_descending :
    takeSlice [0, 1, 2, 3, 4] ⟨none, none, some (-1)⟩ = .ok [(4 : Int), 3, 2, 1, 0] ∧
    (o5.getitem h5 (.slice ⟨none, none, some (-1)⟩)).map (fun p => p.1) = .error .valueError := by decide

example : Reachable o5.tab ∧ Consistent o5 ∧ HeapOk h5 o5 ∧
    Supported o5.tab 5 [0, 1, 2, 3, 4] (.slice ⟨some 4, some 0, some (-2)⟩) ∧
    AttrOk 5 (.slice ⟨some 4, some 0, some (-2)⟩) :=
  ⟨.make (shape := [5]) (sel := .all) (ordering := none) (ndim := none) (by decide) trivial trivial,
   o5_consistent, o5_heap, ⟨by decide, Or.inr (by intro b h; cases h; decide), trivial⟩,
   Or.inr (by intro r h; have h' : sliceIndices ⟨some 4, some 0, some (-2)⟩ 5 = .ok [4, 2] := by decide
              rw [h'] at h; injection h with h; subst h; decide)⟩

/-! ### C15 -/

/-- C15: after any history of assignments and restrictions, successful or not, of a table built by the constructor with
any attributes: every attribute is None, a callable, a scalar or has `len(table)` rows, and the shape
and the number of splittable dimensions have not changed. -/
theorem C15_consistent {α} {h0 h1 : Heap α} {shape : List Nat} {sel : Sel}
    {ordering : Option (List Nat × List Int)} {ndim : Option Int} {kws : List (String × Option (PArg α))}
    {o1 : Obj} (hmake : Obj.make h0 shape sel ordering ndim kws = .ok (h1, o1)) (ops : List (Op α)) :
    let o := (runOps ops h1 o1).2
    (∀ k a, o.attrs k = some a → a = .none ∨ a = .callable ∨ (∃ v, a = .scalar v) ∨
      ∃ v, a = .rows v ∧ o.tab.len = .ok v.pos.length) ∧
    o.tab.shape = shape ∧ o.tab.ndim = o1.tab.ndim := by
  have hinit : Consistent o1 ∧ o1.tab.shape = shape := by
    unfold Obj.make at hmake
    obtain ⟨t, ht, hmake⟩ := bind_eq_ok.1 hmake
    have := addAttrs_consistent (o := ⟨t, ["index", "removed"], fun _ => none⟩)
      (by intro k a h; cases h) hmake
    exact ⟨this.1, by rw [this.2]; exact make_shape ht⟩
  have main : ∀ (ops : List (Op α)) (h : Heap α) (o : Obj), Consistent o →
      Consistent (runOps ops h o).2 ∧ (runOps ops h o).2.tab.shape = o.tab.shape ∧
      (runOps ops h o).2.tab.ndim = o.tab.ndim := by
    intro ops
    induction ops with
    | nil => intro h o hc; exact ⟨hc, rfl, rfl⟩
    | cons op ops ih =>
      intro h o hc
      simp only [runOps]
      split
      · rename_i h' o' hrun
        have : Consistent o' ∧ o'.tab.shape = o.tab.shape ∧ o'.tab.ndim = o.tab.ndim := by
          cases op with
          | set k v => have := setattr_consistent hc hrun; exact ⟨this.1, by rw [this.2.1], by rw [this.2.1]⟩
          | setAll k v => have := setattrAll_consistent hc hrun; exact ⟨this.1, by rw [this.2.1], by rw [this.2.1]⟩
          | restrict s => have := getitem_consistent hc hrun; exact ⟨this.1, this.2.1, this.2.2.1⟩
        obtain ⟨g1, g2, g3⟩ := ih h' o' this.1
        exact ⟨g1, by rw [g2, this.2.1], by rw [g3, this.2.2]⟩
      · exact ih h o hc
  obtain ⟨g1, g2, g3⟩ := main ops h1 o1 hinit.1
  refine ⟨?_, by rw [g2, hinit.2], g3⟩
  intro k a ha
  cases a with
  | none => exact Or.inl rfl
  | callable => exact Or.inr (Or.inl rfl)
  | scalar v => exact Or.inr (Or.inr (Or.inl ⟨v, rfl⟩))
  | rows v => exact Or.inr (Or.inr (Or.inr ⟨v, rfl, (g1 k _ ha).2.2 v rfl⟩))

/-- C15: the reserved attributes are never writeable, and an assignment never changes the components. -/
theorem C15_reserved {α} (h : Heap α) (o : Obj) (key : String) :
    (key ∈ reserved → (∀ val, (o.setattr h key val).isOk = false) ∧ (∀ val, (o.setattrAll h key val).isOk = false)) ∧
    (∀ val h' o', o.setattr h key val = .ok (h', o') → o'.tab = o.tab) ∧
    (∀ val h' o', o.setattrAll h key val = .ok (h', o') → o'.tab = o.tab) := by
  refine ⟨fun hk => ⟨?_, ?_⟩, ?_, ?_⟩
  · intro val
    unfold Obj.setattr
    rw [if_pos hk]; rfl
  · intro val
    unfold Obj.setattrAll
    split
    · rfl
    · rfl
  · intro val h' o' hs
    unfold Obj.setattr at hs
    split at hs
    · cases hs
    · split at hs
      · injection hs with hs; injection hs with h1 h2; rw [← h2]
      · split at hs
        · injection hs with hs; injection hs with h1 h2; rw [← h2]; rfl
        · injection hs with hs; injection hs with h1 h2; rw [← h2]; rfl
        · obtain ⟨n, _, hs⟩ := bind_eq_ok.1 hs
          split at hs
          · cases hs
          · injection hs with hs; injection hs with h1 h2; rw [← h2]; rfl
        · split at hs <;> (injection hs with hs; injection hs with h1 h2; rw [← h2]; try rfl)
  · intro val h' o' hs
    unfold Obj.setattrAll at hs
    split at hs
    · cases hs
    · split at hs
      · cases hs
      · split at hs
        · cases hs
        · obtain ⟨r, _, hs⟩ := map_eq_ok.1 hs
          cases r <;> (injection hs with h1 h2; rw [← h2]; rfl)

/-- C15: an array of another length is rejected. -/
theorem C15_rejects {α} {h : Heap α} {o : Obj} {n : Nat} (hn : o.tab.len = .ok n) {key : String}
    (hk : key ∈ o.special) (hr : key ∉ reserved) {l : List α} (hl : l.length ≠ n) :
    ∃ e, o.setattr h key (.rows l) = .error e ∧ e = .valueError := by
  refine ⟨_, ?_, rfl⟩
  unfold Obj.setattr
  rw [if_neg hr, if_neg (by simpa using hk), hn]
  simp only [Except.bind]
  rw [if_pos hl]

example : ((runOps [.set "x" (.rows [1, 2, 3]), .restrict (.slice ⟨some 1, some 3, none⟩), .set "x" (.rows [1, 2]),
    .setAll "y" (some (.array [5] [1, 2, 3, 4, 5])), .set "shape" .none] h5 o5).2.attrs "y")
    = some (.rows ⟨3, [0, 1]⟩) := by decide

/-! ### C16 -/

/-- C16: assigning an attribute of `sub = table[sel]` (through `sub` or `sub.all`) leaves the attributes of the table
unchanged, unless the assigned value is a scalar and `sub` shares the attribute with the table, which does
not happen for integer or boolean selections of an attribute with a component dimension. -/
theorem C16_parent_unchanged_partial {α} {h h1 h2 : Heap α} {o s s2 : Obj} {sel : Sel} (hh : HeapOk h o)
    (hc : Consistent o) (hget : o.getitem h sel = .ok (h1, s)) {key : String}
    (hset : (∃ val, s.setattr h1 key val = .ok (h2, s2) ∧
              ((∀ a, val ≠ .scalar a) ∨
               ((∃ n nsel, o.tab.len = .ok n ∧ normalizeSelection sel [n] = .ok nsel ∧ nsel.isView = false) ∧
                ∃ v, o.attrs key = some (.rows v)))) ∨
            (∃ val, s.setattrAll h1 key val = .ok (h2, s2))) :
    ∀ k v, (o.attrs k = some (.rows v) ∨ o.attrs k = some (.scalar v)) → v.read h2 = v.read h := by
  intro k v hv
  have hvv := hh k v hv
  -- the restriction only adds buffers
  have hheap : (∃ e, h1 = h ++ e) ∧ ∀ n nsel, o.tab.len = .ok n → normalizeSelection sel [n] = .ok nsel →
      nsel.isView = false → ∀ w, o.attrs key = some (.rows w) → ∀ v', s.attrs key = some (.rows v') →
      h.length ≤ v'.buf := by
    unfold Obj.getitem at hget
    obtain ⟨n, hn, hget⟩ := bind_eq_ok.1 hget
    obtain ⟨nsel, hnsel, hget⟩ := bind_eq_ok.1 hget
    split at hget
    · injection hget with hget; injection hget with e1 e2
      refine ⟨⟨[], by simp [e1]⟩, ?_⟩
      intro n' nsel' hn' hnsel' hview
      rw [hn] at hn'; injection hn' with hn'; subst hn'
      rw [hnsel] at hnsel'; injection hnsel' with hnsel'; subst hnsel'
      cases hview
    · obtain ⟨i, hi, hget⟩ := bind_eq_ok.1 hget
      have hget' : selectAttrs o nsel o.special (h ++ []) { o with tab := { o.tab with idx := i } } = .ok (h1, s) := by
        rw [List.append_nil]; exact hget
      obtain ⟨g1, g2⟩ := selectAttrs_heap hget'
      refine ⟨g1, ?_⟩
      intro n' nsel' hn' hnsel' hview w hw v' hv'
      rw [hn] at hn'; injection hn' with hn'; subst hn'
      rw [hnsel] at hnsel'; injection hnsel' with hnsel'; subst hnsel'
      rcases g2 key v' hv' with ⟨_, b⟩ | b
      · have := hc key _ hw
        exact absurd hw (b this.1 this.2.1 w)
      · exact b hview
  obtain ⟨⟨e, he⟩, hnew⟩ := hheap
  subst he
  have hgrow : ∀ e', v.read (h ++ e ++ e') = v.read h := by
    intro e'; rw [List.append_assoc]; exact read_append hvv.1
  have hsame : v.read (h ++ e) = v.read h := read_append hvv.1
  rcases hset with ⟨val, hset, hval⟩ | ⟨val, hset⟩
  · unfold Obj.setattr at hset
    split at hset
    · cases hset
    · split at hset
      · injection hset with hset; injection hset with a b; rw [← a]; exact hsame
      · split at hset
        · injection hset with hset; injection hset with a b; rw [← a]; exact hsame
        · injection hset with hset; injection hset with a b; rw [← a]; exact hsame
        · obtain ⟨n, _, hset⟩ := bind_eq_ok.1 hset
          split at hset
          · cases hset
          · injection hset with hset; injection hset with a b; rw [← a]; exact hgrow _
        · rename_i a'
          rcases hval with hval | ⟨⟨n, nsel, hn, hnsel, hview⟩, w, hw⟩
          · exact absurd rfl (hval a')
          · split at hset
            · rename_i v' hv'
              -- a restricted attribute with rows stays with rows
              exfalso
              unfold Obj.getitem at hget
              obtain ⟨n', hn', hget⟩ := bind_eq_ok.1 hget
              obtain ⟨nsel', hnsel', hget⟩ := bind_eq_ok.1 hget
              split at hget
              · injection hget with hget; injection hget with e1 e2
                rw [← e2, hw] at hv'; injection hv' with hv'; cases hv'
              · obtain ⟨i, hi, hget⟩ := bind_eq_ok.1 hget
                obtain ⟨_, _, g3⟩ := selectAttrs_spec hget
                have hcw := hc key _ hw
                rcases g3 key with ⟨_, _, _, _, v'', m4, _⟩ | ⟨m1, _⟩
                · rw [hv'] at m4; injection m4 with m4; cases m4
                · exact absurd hw (m1 hcw.1 hcw.2.1 w)
            · rename_i v' hv'
              injection hset with hset; injection hset with a b; rw [← a]
              have hle := hnew n nsel hn hnsel hview w hw v' hv'
              have := hvv.1
              rw [fill_other (by omega)]
              exact hsame
            · injection hset with hset; injection hset with a b; rw [← a]; exact hgrow _
  · unfold Obj.setattrAll at hset
    split at hset
    · cases hset
    · split at hset
      · cases hset
      · split at hset
        · cases hset
        · obtain ⟨r, _, hset⟩ := map_eq_ok.1 hset
          cases r with
          | none => injection hset with a b; rw [← a]; exact hsame
          | scalar x => injection hset with a b; rw [← a]; exact hgrow _
          | array lead l => injection hset with a b; rw [← a]; exact hgrow _

/-- The state of the attribute `key` of `parent` after `parent[sel].key = value`. -/
def parentAfter (h : Heap Int) (parent : Obj) (sel : Sel) (key : String) (val : Val Int) :
    Res (Option (List (Option Int))) :=
  (parent.getitem h sel).bind fun (h1, s) => (s.setattr h1 key val).map fun (h2, _) =>
    match parent.attrs key with
    | some (.rows v) => some (v.read h2)
    | some (.scalar v) => some (v.read h2)
    | _ => none

/-- C16 is violated by scalars: assigned to a slice of the table, they are written in the
table; a scalar attribute is shared whatever the selection. -/
theorem C16_violation :
    parentAfter h5 o5 (.slice ⟨some 1, some 3, none⟩) "x" (.scalar 0)
      = .ok (some [some 10, some 0, some 0, some 13, some 14]) ∧
    parentAfter h5 o5 (.ints [3, 1]) "y" (.scalar 0) = .ok (some [some 0]) := by decide

/-- C16: after a selection by an integer, a list of integers or a mask, nothing that is assigned to an attribute of the sub-table (scalars
included) reaches the table, if the attribute has a component dimension. -/
theorem C16_fancy_partial {α} {h h1 h2 : Heap α} {o s s2 : Obj} {sel : Sel} (hh : HeapOk h o)
    (hc : Consistent o) (hsel : (∃ i, sel = .scalar i) ∨ (∃ l, sel = .ints l) ∨ ∃ sh flat, sel = .bools sh flat)
    (hget : o.getitem h sel = .ok (h1, s)) {key : String} {val : Val α} (hset : s.setattr h1 key val = .ok (h2, s2))
    (hrows : ∃ v, o.attrs key = some (.rows v)) :
    ∀ k v, (o.attrs k = some (.rows v) ∨ o.attrs k = some (.scalar v)) → v.read h2 = v.read h := by
  have hget' := hget
  unfold Obj.getitem at hget'
  obtain ⟨n, hn, hget'⟩ := bind_eq_ok.1 hget'
  obtain ⟨nsel, hnsel, -⟩ := bind_eq_ok.1 hget'
  refine C16_parent_unchanged_partial hh hc hget (Or.inl ⟨val, hset, Or.inr ⟨⟨n, nsel, hn, hnsel, ?_⟩, hrows⟩⟩)
  rcases hsel with ⟨i, rfl⟩ | ⟨l, rfl⟩ | ⟨sh, flat, rfl⟩
  · injection hnsel with hnsel; subst hnsel; rfl
  · injection hnsel with hnsel; subst hnsel; rfl
  · simp only [normalizeSelection] at hnsel
    split at hnsel
    · exact absurd hnsel (by simp)
    · injection hnsel with hnsel; subst hnsel; rfl

example : parentAfter h5 o5 (.ints [3, 1]) "x" (.scalar 0)
      = .ok (some [some 10, some 11, some 12, some 13, some 14]) ∧
    parentAfter h5 o5 (.slice ⟨some 1, some 3, none⟩) "x" (.rows [5, 6])
      = .ok (some [some 10, some 11, some 12, some 13, some 14]) := by decide

/-! ### C18 -/

/-- C18 is violated by every table: `copy()` always raises `AttributeError`, because it assigns the reserved
attribute `comm`. -/
theorem C18_violation {α} (h : Heap α) (o : Obj) :
    (o.copy h).map (fun _ => ()) = .error .attributeError := rfl

end Verif.PackedTable
