import Verif.PackedTable.Props

/-!
Model of the distributed operations of packed tables (core.py 452-548 and 639-645).

A collective call is modelled by the list, indexed by rank, of what each process contributes; MPI is assumed to
deliver the contributions unchanged.  Attributes are lists of rows.  `Allgatherv` with a receive
count that differs from what a rank sends is an MPI error (modelled as `valueError`).
-/
namespace Verif.PackedTable
open Verif.Py

/-- A table with one attribute having `len(table)` rows (attributes are independent of each other). -/
structure ATable (α : Type) where
  tab : Table
  attr : List α
  deriving DecidableEq, Repr

/-- core.py 309-345 restricted to the case of a slice selection on a table with an array attribute: the index
part, then `setattr(out, k, v[selection])` which checks the length (257-270). -/
def ATable.getitemSlice {α} (t : ATable α) (s : PySlice) : Res (ATable α) :=
  t.tab.len.bind fun n =>
  (normalizeSelection (.slice s) [n]).bind fun nsel =>
    match nsel with
    | .all => .ok t
    | nsel =>
      (t.tab.getitem (.slice s)).bind fun tab =>
      (applyNSel t.attr nsel).bind fun attr =>
      tab.len.bind fun n' =>
        if attr.length ≠ n' then .error .valueError else .ok ⟨tab, attr⟩

/-- core.py 452-482 `scatter` on the process `rank` of a communicator of `size` processes. -/
def ATable.scatter {α} (t : ATable α) (size rank : Nat) : Res (ATable α) :=
  if size = 1 then .ok t
  else t.tab.len.bind fun n => t.getitemSlice (splitSlice n size rank)

/-- core.py 506-531 `func` in `gather`: the receive counts are those of `split(ntot, size)`, where
`ntot` is the sum of the `len(self)` (`lens`). -/
def gatherRanks {α} (lens : List Nat) (xs : List (List α)) : Res (List α) :=
  let ntot := lens.sum
  let counts := (List.range xs.length).map (splitLen ntot xs.length)
  if xs.map List.length = counts then .ok xs.flatten else .error .valueError

/-- core.py 484-548 `gather()` of the table, given the local tables of all ranks; `t` is the local one. -/
def ATable.gather {α} (t : ATable α) (locals : List (ATable α)) : Res (ATable α) :=
  (locals.mapM fun (l : ATable α) => l.tab.len).bind fun lens =>
  (locals.mapM fun (l : ATable α) => l.tab.index).bind fun idxs =>
  (gatherRanks lens idxs).bind fun index =>
  (gatherRanks lens (locals.map ATable.attr)).bind fun attr =>
    let tab := { t.tab with idx := normalizeInt index t.tab.size }
    tab.len.bind fun n => if attr.length ≠ n then .error .valueError else .ok ⟨tab, attr⟩

/-- A table and the number of processes of its communicator. -/
structure CTable (α : Type) where
  table : ATable α
  comm : Nat
  deriving DecidableEq, Repr

/-- core.py 463-469, 481: the communicator in `scatter`. -/
def CTable.scatter {α} (t : CTable α) (size rank : Nat) : Res (CTable α) :=
  if t.comm > 1 then .error .valueError
  else if size = 1 then .ok t
  else (t.table.scatter size rank).map fun out => ⟨out, size⟩

/-- core.py 534-548 `gather`: `out = copy.copy(self)` has the communicator of the local table. -/
def CTable.gather {α} (t : CTable α) (locals : List (CTable α)) : Res (CTable α) :=
  (t.table.gather (locals.map CTable.table)).map fun out => ⟨out, t.comm⟩

/-- core.py 642-645: the assignments of all ranks, in rank order. -/
def assignRanks {α} (buf : List α) : List (Idx × List α) → Res (List α)
  | [] => .ok buf
  | (i, x) :: r => (assignIdx buf i x).bind fun buf => assignRanks buf r

/-- core.py 564-648 `unpack` on a process of a distributed table (`comm.size > 1`): `t` and `x` are those of
the process, `locals` are those of all the processes. -/
def Table.unpackDist {α} (t : Table) (buf : List α) (missing : α) (x : List α)
    (locals : List (Table × List α)) : Res (List α) :=
  t.len.bind fun n =>
    if x.length ≠ 1 ∧ x.length ≠ n then .error .valueError
    else
      let buf := if t.size > n then List.replicate t.size missing else buf
      assignRanks buf (locals.map fun p => (p.1.idx, p.2))

/-! ### lemmas -/

theorem assignRanks_spec {α} {size : Nat} (l : List (Idx × List α)) (hwf : ∀ p ∈ l, p.1.WF size)
    (hx : ∀ p ∈ l, p.2.length = (p.1.comps size).length)
    (hn : (l.flatMap fun p => p.1.comps size).Nodup) (buf : List α) (hb : buf.length = size) :
    ∃ out, assignRanks buf l = .ok out ∧ out.length = size ∧
      (∀ (k : Nat) (i : Int), (l.flatMap fun p => p.1.comps size)[k]? = some i →
        out[i.toNat]? = (l.flatMap Prod.snd)[k]?) ∧
      (∀ p : Nat, (p : Int) ∉ (l.flatMap fun p => p.1.comps size) → out[p]? = buf[p]?) := by
  induction l generalizing buf with
  | nil => exact ⟨buf, rfl, hb, by simp, by simp⟩
  | cons p l ih =>
    obtain ⟨i, x⟩ := p
    rw [List.flatMap_cons, List.nodup_append] at hn
    obtain ⟨hn1, hn2, hdis⟩ := hn
    have hwf1 := hwf (i, x) (by simp)
    have hx1 := hx (i, x) (by simp)
    simp only at hn1 hdis hwf1 hx1
    have hsz : (⟨[size], 1, i⟩ : Table).size = size := by simp [Table.size, Table.dims]
    obtain ⟨b1, h1, h2, h3, h4⟩ := assignIdx_spec (t := ⟨[size], 1, i⟩) (by rw [hsz]; exact hwf1)
      (by rw [hsz]; exact hn1) buf (by rw [hsz]; exact hb) x (by rw [hsz]; exact Or.inr hx1)
    rw [hsz] at h2 h3 h4
    simp only at h1 h3 h4
    obtain ⟨out, g1, g2, g3, g4⟩ := ih (fun q hq => hwf q (by simp [hq])) (fun q hq => hx q (by simp [hq])) hn2 b1 h2
    refine ⟨out, ?_, g2, ?_, ?_⟩
    · simp only [assignRanks, h1]; exact g1
    · intro k j hk
      simp only [List.flatMap_cons] at hk ⊢
      rw [List.getElem?_append] at hk ⊢
      rw [hx1]
      split at hk
      · rename_i hlt
        rw [if_pos hlt]
        have hjm := List.mem_of_getElem? hk
        have hj0 := (hwf1.bounds j hjm).1
        have hnot : ((j.toNat : Nat) : Int) ∉ (l.flatMap fun p => p.1.comps size) := by
          rw [Int.toNat_of_nonneg hj0]
          exact fun hm => hdis j hjm j hm rfl
        rw [g4 _ hnot, h3 k j hk]
        unfold packedValue
        split
        · have hk0 : k = 0 := by simp at hx1; omega
          subst hk0; rfl
        · rfl
      · rename_i hlt
        rw [if_neg hlt]
        exact g3 _ j hk
    · intro q hq
      simp only [List.flatMap_cons, List.mem_append, not_or] at hq
      rw [g4 q hq.2, h4 q hq.1]

/-- The part of a list attributed to a rank. -/
def part {α} (l : List α) (m r : Nat) : List α := (l.drop (splitStart l.length m r)).take (splitLen l.length m r)

theorem part_length {α} (l : List α) {m r : Nat} (h : r < m) : (part l m r).length = splitLen l.length m r := by
  have := splitStop_le (n := l.length) h
  simp only [part, List.length_take, List.length_drop]
  omega

theorem parts_flatten {α} (l : List α) {m : Nat} (hm : 0 < m) :
    ((List.range m).map (part l m)).flatten = l := by
  have := split_concat l hm
  rw [List.flatMap_def] at this
  exact this

theorem splitLen_sum (n : Nat) {m : Nat} (hm : 0 < m) :
    ((List.range m).map (splitLen n m)).sum = n := by
  have h : ∀ r, ((List.range r).map (splitLen n m)).sum = splitStart n m r := by
    intro r
    induction r with
    | zero => simp [splitStart]
    | succ r ih => rw [List.range_succ, List.map_append, List.sum_append, ih, splitStart_succ]; simp
  rw [h, splitStart_last hm]

theorem part_nodup {l : List Int} (h : l.Nodup) (m r : Nat) : ¬ Repeats (part l m r) :=
  nodup_not_repeats (h.sublist ((List.take_sublist _ _).trans (List.drop_sublist _ _)))

/-- What the restriction of a reachable table to the part of a rank is. -/
theorem getitem_part {t : Table} (h : Reachable t) {index : List Int} (hi : t.index = .ok index)
    (hne : index ≠ []) {m r : Nat} (hd : ¬ Repeats (part index m r)) (hr : r < m) :
    ∃ t', t.getitem (.slice (splitSlice index.length m r)) = .ok t' ∧ t'.shape = t.shape ∧ t'.ndim = t.ndim ∧
      t'.index = .ok (part index m r) ∧ Reachable t' := by
  have hs : Supported t index.length index (.slice (splitSlice index.length m r)) :=
    slice_supported (fun q hq => by
      rw [takeSlice_split hr] at hq
      injection hq with hq
      rw [← hq]
      exact hd) (fun h => hne (List.length_eq_zero_iff.1 h)) (by simp [splitSlice])
  have hl := C07_len_partial h hi
  obtain ⟨q, t', h1, h2, h3, h4, h5, h6⟩ := getitem_spec h.wf hl hi hs
  refine ⟨t', h2, h3, h4, ?_, .getitem h hl hi hs h2⟩
  have h1' : takeSlice index (splitSlice index.length m r) = .ok q := h1
  rw [h6, ← h1', takeSlice_split hr]
  rfl

/-- The same, also for the empty tables. -/
theorem getitem_part_len {t : Table} (h : Reachable t) {index : List Int} (hi : t.index = .ok index)
    {m r : Nat} (hd : ¬ Repeats (part index m r)) (hr : r < m) :
    ∃ t', t.getitem (.slice (splitSlice index.length m r)) = .ok t' ∧ t'.shape = t.shape ∧ t'.ndim = t.ndim ∧
      t'.index = .ok (part index m r) ∧ t'.len = .ok (part index m r).length := by
  have hl := C07_len_partial h hi
  by_cases hne : index = []
  · subst hne
    obtain ⟨t', h1, h2, h3⟩ := getitem_slice_empty h.wf hl (s := splitSlice ([] : List Int).length m r) (by simp [splitSlice]) (Or.inl (by simp [splitSlice]))
    obtain ⟨q, t'', g1, g2, g3, g4, g5⟩ := C04_slice_partial h hi (splitSlice ([] : List Int).length m r) (by
      intro p hp
      rw [takeSlice_split hr] at hp
      injection hp with hp
      rw [← hp]
      exact hd) (by simp [splitSlice])
    rw [h1] at g2
    injection g2 with g2
    subst g2
    have : part ([] : List Int) m r = [] := by simp [part]
    rw [this]
    exact ⟨t', h1, g4, g5, h2, h3⟩
  · obtain ⟨t', h1, h2, h3, h4, h5⟩ := getitem_part h hi hne hd hr
    exact ⟨t', h1, h2, h3, h4, C07_len_partial h5 h4⟩

/-- The numpy slice of an attribute by the normalised slice of a rank. -/
theorem applyNSel_part {α} {l : List α} {m r : Nat} (hr : r < m) {nsel : NSel}
    (h : normalizeSelection (.slice (splitSlice l.length m r)) [l.length] = .ok nsel) :
    applyNSel l nsel = .ok (part l m r) := by
  have hc : 0 < (splitSlice l.length m r).step.getD 1 := by simp [splitSlice]
  obtain ⟨q, h1, h2⟩ := normalizeSlice_pos (n := l.length) hc
  simp only [normalizeSelection, List.prod_cons, List.prod_nil, Nat.mul_one] at h
  rw [h1] at h
  injection h with h
  subst h
  have hts := takeSlice_split (l := l) hr
  cases q with
  | all =>
    simp only [NSlice.toNSel, applyNSel]
    unfold takeSlice at hts
    have : sliceIndices (splitSlice l.length m r) l.length = .ok (progression 0 1 l.length) := h2
    rw [this] at hts
    have h3 : takeIdx l (progression 0 1 l.length) = .ok l := takeIdx_range l
    have hts' : takeIdx l (progression 0 1 l.length) = _ := hts
    rw [h3] at hts'
    exact hts'
  | slice a b c =>
    simp only [NSlice.toNSel, applyNSel]
    obtain ⟨hwf, hsi⟩ := h2.wf (by omega)
    have hcc := h2.1
    have hb : 0 ≤ b ∨ l.length = 0 := by
      obtain ⟨_, k, hb, hx, hm⟩ := hwf
      rcases Nat.eq_zero_or_pos k with h0 | h0
      · subst h0
        by_cases ha : a < 0
        · exact Or.inr (hm rfl ha)
        · left; simp at hb; omega
      · left
        have := (hx a (mem_progression.2 ⟨0, h0, by simp⟩)).1
        have h3 : 0 ≤ (k : Int) * c := Int.mul_nonneg (by omega) (by omega)
        omega
    rw [takeSlice_normalized hwf hb]
    unfold takeSlice at hts
    rw [hsi] at hts
    exact hts

theorem scatter_spec {α} {t : ATable α} (h : Reachable t.tab) {index : List Int} (hi : t.tab.index = .ok index)
    (ha : t.attr.length = index.length) {m r : Nat} (hd : ¬ Repeats (part index m r)) (hm : 2 ≤ m) (hr : r < m) :
    ∃ t', t.scatter m r = .ok t' ∧ t'.tab.shape = t.tab.shape ∧ t'.tab.ndim = t.tab.ndim ∧
      t'.tab.index = .ok (part index m r) ∧ t'.tab.len = .ok (part index m r).length ∧ t'.attr = part t.attr m r := by
  have hl := C07_len_partial h hi
  obtain ⟨tab, h1, h2, h3, h4, h5⟩ := getitem_part_len h hi hd hr
  unfold ATable.scatter
  rw [if_neg (by omega), hl]
  simp only [Except.bind]
  unfold ATable.getitemSlice
  rw [hl]
  simp only [Except.bind]
  have h1' := h1
  unfold Table.getitem at h1'
  rw [hl] at h1'
  simp only [Except.bind] at h1'
  cases hn : normalizeSelection (.slice (splitSlice index.length m r)) [index.length] with
  | error e => rw [hn] at h1'; cases h1'
  | ok nsel =>
    rw [hn] at h1'
    rw [← ha] at hn
    have happ := applyNSel_part hr hn
    rw [ha] at hn
    simp only
    cases nsel with
    | all =>
      simp only at h1' ⊢
      injection h1' with h1'
      subst h1'
      refine ⟨t, rfl, rfl, rfl, h4, h5, ?_⟩
      simp only [applyNSel] at happ
      injection happ
    | _ =>
      simp only at h1' ⊢
      rw [h1, happ]
      simp only
      rw [h5]
      simp only
      rw [if_neg (by rw [part_length _ hr, part_length _ hr, ha]; simp)]
      exact ⟨_, rfl, h2, h3, h4, h5, rfl⟩

theorem mapM_ok {α β} {f : α → Res β} {g : α → β} {l : List α} (h : ∀ a ∈ l, f a = .ok (g a)) :
    l.mapM f = .ok (l.map g) := by
  induction l with
  | nil => rfl
  | cons a l ih =>
    rw [List.mapM_cons, h a (by simp), ih (fun b hb => h b (by simp [hb]))]; rfl

theorem gatherRanks_parts {α} (l : List α) {m : Nat} (hm : 0 < m) :
    gatherRanks ((List.range m).map (splitLen l.length m)) ((List.range m).map (part l m)) = .ok l := by
  unfold gatherRanks
  simp only [splitLen_sum _ hm, List.length_map, List.length_range, List.map_map]
  rw [if_pos]
  · rw [parts_flatten l hm]
  · apply List.map_congr_left
    intro r hr
    exact part_length l (List.mem_range.1 hr)

end Verif.PackedTable
