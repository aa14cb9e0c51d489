import Verif.PackedTable.Mpi

/-! Properties C12 and C13: distributed tables. -/
namespace Verif.PackedTable
open Verif.Py

/-- C12: if all the processes scatter a table and gather it, every process obtains
the original shape, components and attribute, unless the components of the table or those of a process are a single one
which is repeated. -/
theorem C12_scatter_gather_partial {α} {t : ATable α} (h : Reachable t.tab) {index : List Int}
    (hi : t.tab.index = .ok index) (ha : t.attr.length = index.length)
    {m : Nat} (hm : 0 < m) (hd : ¬ Repeats index) (hdp : ∀ r, r < m → ¬ Repeats (part index m r)) :
    ∃ locals : List (ATable α), locals.length = m ∧
      (∀ r, r < m → (t.scatter m r).map some = .ok locals[r]?) ∧
      ∀ l ∈ locals, ∃ g, l.gather locals = .ok g ∧ g.tab.shape = t.tab.shape ∧ g.tab.ndim = t.tab.ndim ∧
        g.tab.index = .ok index ∧ g.attr = t.attr := by
  have key : ∀ r, ∃ t' : ATable α, r < m → (t.scatter m r = .ok t' ∧ t'.tab.shape = t.tab.shape ∧
      t'.tab.ndim = t.tab.ndim ∧ t'.tab.index = .ok (part index m r) ∧ t'.tab.len = .ok (part index m r).length ∧
      t'.attr = part t.attr m r) := by
    intro r
    by_cases hr : r < m
    · by_cases hm1 : m = 1
      · subst hm1
        have hr0 : r = 0 := by omega
        subst hr0
        refine ⟨t, fun _ => ⟨by simp [ATable.scatter], rfl, rfl, ?_, ?_, ?_⟩⟩
        · rw [hi]; simp [part, splitStart, splitLen, Nat.mod_one]
        · rw [C07_len_partial h hi]; simp [part, splitStart, splitLen, Nat.mod_one]
        · simp [part, splitStart, splitLen, Nat.mod_one]
      · obtain ⟨t', h'⟩ := scatter_spec h hi ha (hdp r hr) (show 2 ≤ m by omega) hr
        exact ⟨t', fun _ => h'⟩
    · exact ⟨t, fun h => absurd h hr⟩
  obtain ⟨f, hf⟩ := Classical.axiomOfChoice key
  refine ⟨(List.range m).map f, by simp, ?_, ?_⟩
  · intro r hr
    rw [(hf r hr).1, List.getElem?_map, List.getElem?_range hr]; rfl
  · intro l hl
    obtain ⟨r, hr, rfl⟩ := List.mem_map.1 hl
    have hr := List.mem_range.1 hr
    have hlens : (((List.range m).map f).mapM fun (l : ATable α) => l.tab.len)
        = .ok ((List.range m).map (splitLen index.length m)) := by
      rw [mapM_ok (g := fun l => (l.tab.len.toOption.getD 0))]
      · rw [List.map_map]
        congr 1
        apply List.map_congr_left
        intro q hq
        have hq := List.mem_range.1 hq
        simp only [Function.comp]
        rw [(hf q hq).2.2.2.2.1, part_length _ hq]; rfl
      · intro a ha'
        obtain ⟨q, hq, rfl⟩ := List.mem_map.1 ha'
        have hq := List.mem_range.1 hq
        rw [(hf q hq).2.2.2.2.1]; rfl
    have hidxs : (((List.range m).map f).mapM fun (l : ATable α) => l.tab.index)
        = .ok ((List.range m).map (part index m)) := by
      rw [mapM_ok (g := fun l => (l.tab.index.toOption.getD []))]
      · rw [List.map_map]
        congr 1
        apply List.map_congr_left
        intro q hq
        have hq := List.mem_range.1 hq
        simp only [Function.comp]
        rw [(hf q hq).2.2.2.1]; rfl
      · intro a ha'
        obtain ⟨q, hq, rfl⟩ := List.mem_map.1 ha'
        have hq := List.mem_range.1 hq
        rw [(hf q hq).2.2.2.1]; rfl
    have hattrs : ((List.range m).map f).map ATable.attr = (List.range m).map (part t.attr m) := by
      rw [List.map_map]
      apply List.map_congr_left
      intro q hq
      exact (hf q (List.mem_range.1 hq)).2.2.2.2.2
    have hg1 := gatherRanks_parts index hm
    have hg2 := gatherRanks_parts t.attr hm
    rw [ha] at hg2
    have hbd : ∀ i ∈ index, 0 ≤ i ∧ i < t.tab.size := by
      have := h.wf.bounds
      have hidx := index_of_wf h.wf
      rw [hi] at hidx; injection hidx with hidx
      rw [hidx]; exact this
    have hnw := normalizeInt_wf hbd hd
    have hsz : (f r).tab.size = t.tab.size := by
      simp only [Table.size, Table.dims, (hf r hr).2.1, (hf r hr).2.2.1]
    have hwf : ({ (f r).tab with idx := normalizeInt index (f r).tab.size } : Table).idx.WF
        ({ (f r).tab with idx := normalizeInt index (f r).tab.size } : Table).size := by
      show (normalizeInt index (f r).tab.size).WF (f r).tab.size
      rw [hsz]; exact hnw.1
    have hcomps : ({ (f r).tab with idx := normalizeInt index (f r).tab.size } : Table).idx.comps
        ({ (f r).tab with idx := normalizeInt index (f r).tab.size } : Table).size = index := by
      show (normalizeInt index (f r).tab.size).comps (f r).tab.size = index
      rw [hsz]; exact hnw.2
    refine ⟨⟨{ (f r).tab with idx := normalizeInt index (f r).tab.size }, t.attr⟩, ?_, (hf r hr).2.1, (hf r hr).2.2.1, ?_, rfl⟩
    · unfold ATable.gather
      rw [hlens, hidxs]
      simp only [Except.bind]
      rw [hg1, hattrs]
      simp only
      rw [hg2]
      simp only
      rw [len_of_wf hwf, hcomps]
      simp only
      rw [if_neg (by simp [ha])]
    · rw [index_of_wf hwf, hcomps]

/-- C12: the case of distinct components. -/
theorem C12_distinct {α} {t : ATable α} (h : Reachable t.tab) {index : List Int}
    (hi : t.tab.index = .ok index) (hd : index.Nodup) (ha : t.attr.length = index.length)
    {m : Nat} (hm : 0 < m) :
    ∃ locals : List (ATable α), locals.length = m ∧
      (∀ r, r < m → (t.scatter m r).map some = .ok locals[r]?) ∧
      ∀ l ∈ locals, ∃ g, l.gather locals = .ok g ∧ g.tab.shape = t.tab.shape ∧ g.tab.ndim = t.tab.ndim ∧
        g.tab.index = .ok index ∧ g.attr = t.attr :=
  C12_scatter_gather_partial h hi ha hm (nodup_not_repeats hd) fun r _ => part_nodup hd m r

/-- C12: `gather(array)` concatenates, in rank order, local arrays having as many rows as the parts
of a scattered table of `n` components. -/
theorem C12_gather_array {α} (n : Nat) {m : Nat} (hm : 0 < m) (xs : List (List α)) (hx : xs.length = m)
    (hl : ∀ r x, xs[r]? = some x → x.length = splitLen n m r) :
    gatherRanks ((List.range m).map (splitLen n m)) xs = .ok xs.flatten := by
  unfold gatherRanks
  simp only [splitLen_sum _ hm, hx]
  rw [if_pos]
  apply List.ext_getElem
  · simp [hx]
  · intro r h1 h2
    simp only [List.getElem_map, List.getElem_range]
    exact hl r _ (List.getElem?_eq_getElem (by simpa using h1))

/-- C13: unpacking a scattered table gives every process the array that the undistributed table
gives for the concatenation of the local values. -/
theorem C13_distributed_unpack_partial {α} {t : Table} (h : Reachable t) {index : List Int}
    (hi : t.index = .ok index) (hd : index.Nodup) (hne : index ≠ []) {m : Nat} (hm : 2 ≤ m)
    (x : List α) (hx : x.length = index.length) (missing : α) :
    ∃ locals : List Table,
      locals.length = m ∧
      (∀ r, r < m → (t.getitem (.slice (splitSlice index.length m r))).map some = .ok locals[r]?) ∧
      ∀ (r : Nat) (t' : Table), locals[r]? = some t' → ∀ buf : List α, buf.length = t.size →
        ∃ out, t'.unpackDist buf missing (part x m r) (locals.zip ((List.range m).map (part x m))) = .ok out ∧
          UnpacksTo t.size index missing x out := by
  have key : ∀ r, ∃ t' : Table, r < m → (t.getitem (.slice (splitSlice index.length m r)) = .ok t' ∧
      t'.shape = t.shape ∧ t'.ndim = t.ndim ∧ t'.index = .ok (part index m r) ∧ Reachable t') := by
    intro r
    by_cases hr : r < m
    · obtain ⟨t', h'⟩ := getitem_part h hi hne (part_nodup hd m r) hr
      exact ⟨t', fun _ => h'⟩
    · exact ⟨t, fun h => absurd h hr⟩
  obtain ⟨f, hf⟩ := Classical.axiomOfChoice key
  refine ⟨(List.range m).map f, by simp, ?_, ?_⟩
  · intro r hr
    rw [(hf r hr).1, List.getElem?_map, List.getElem?_range hr]; rfl
  · intro r t' ht' buf hb
    have hr : r < m := by
      obtain ⟨hlt, _⟩ := List.getElem?_eq_some_iff.1 ht'
      simpa using hlt
    rw [List.getElem?_map, List.getElem?_range hr] at ht'
    have ht' : f r = t' := by simpa using ht'
    subst ht'
    have hsz : ∀ q, q < m → (f q).size = t.size := by
      intro q hq
      simp only [Table.size, Table.dims, (hf q hq).2.1, (hf q hq).2.2.1]
    have hcomps : ∀ q, q < m → (f q).idx.comps t.size = part index m q := by
      intro q hq
      have h1 := index_of_wf (hf q hq).2.2.2.2.wf
      rw [(hf q hq).2.2.2.1, hsz q hq] at h1
      injection h1 with h1; exact h1.symm
    have hzip : ((List.range m).map f).zip ((List.range m).map (part x m))
        = (List.range m).map (fun q => (f q, part x m q)) := by
      rw [List.zip_map']
    unfold Table.unpackDist
    rw [C07_len_partial (hf r hr).2.2.2.2 (hf r hr).2.2.2.1]
    simp only [Except.bind]
    have hpl : (part x m r).length = (part index m r).length := by
      rw [part_length _ hr, part_length _ hr, hx]
    rw [if_neg (by omega), hzip, List.map_map, hsz r hr]
    -- the local part is strictly smaller than the table unless everything is on one rank
    let buf' := if t.size > (part index m r).length then List.replicate t.size missing else buf
    have hbuf' : buf'.length = t.size := by
      simp only [buf']; split
      · simp
      · exact hb
    obtain ⟨out, h1, h2, h3, h4⟩ := assignRanks_spec (size := t.size)
      ((List.range m).map ((fun p => (p.1.idx, p.2)) ∘ fun q => (f q, part x m q)))
      (by
        intro p hp
        obtain ⟨q, hq, rfl⟩ := List.mem_map.1 hp
        have hq := List.mem_range.1 hq
        have := (hf q hq).2.2.2.2.wf
        rw [hsz q hq] at this
        exact this)
      (by
        intro p hp
        obtain ⟨q, hq, rfl⟩ := List.mem_map.1 hp
        have hq := List.mem_range.1 hq
        simp only [Function.comp]
        rw [hcomps q hq, part_length _ hq, part_length _ hq, hx])
      (by
        rw [List.flatMap_map]
        have : (List.range m).flatMap (fun q => (((fun p : Table × List α => (p.1.idx, p.2)) ∘ fun q => (f q, part x m q)) q).1.comps t.size)
            = ((List.range m).map (part index m)).flatten := by
          rw [List.flatMap_def]
          congr 1
          apply List.map_congr_left
          intro q hq
          exact hcomps q (List.mem_range.1 hq)
        rw [this, parts_flatten _ (by omega)]
        exact hd)
      buf' hbuf'
    have e1 : ((List.range m).map ((fun p : Table × List α => (p.1.idx, p.2)) ∘ fun q => (f q, part x m q))).flatMap
        (fun p => p.1.comps t.size) = index := by
      rw [List.flatMap_map, List.flatMap_def]
      rw [← parts_flatten index (show 0 < m by omega)]
      congr 1
      apply List.map_congr_left
      intro q hq
      exact hcomps q (List.mem_range.1 hq)
    have e2 : ((List.range m).map ((fun p : Table × List α => (p.1.idx, p.2)) ∘ fun q => (f q, part x m q))).flatMap
        Prod.snd = x := by
      rw [List.flatMap_map, List.flatMap_def]
      exact parts_flatten x (show 0 < m by omega)
    rw [e1] at h3 h4
    rw [e2] at h3
    refine ⟨out, h1, h2, ?_, ?_⟩
    · intro k i hk
      rw [h3 k i hk]
      unfold packedValue
      split
      · obtain ⟨hlt, _⟩ := List.getElem?_eq_some_iff.1 hk
        have hk0 : k = 0 := by simp at hx; omega
        subst hk0; rfl
      · rfl
    · intro p hp hm'
      rw [h4 p hm']
      simp only [buf']
      by_cases hgt : t.size > (part index m r).length
      · rw [if_pos hgt]; simp [hp]
      · exfalso
        have hle : (part index m r).length ≤ index.length := by
          rw [part_length _ hr]
          have := splitStop_le (n := index.length) hr
          omega
        have hbd := h.wf.bounds
        have hidx := index_of_wf h.wf
        rw [hi] at hidx; injection hidx with hidx
        rw [← hidx] at hbd
        exact hm' (mem_of_nodup_of_length hd hbd (by omega) hp)

/-- C12 is violated by the communicator: with two processes or more, the gathered table has the original components and attribute but it is
still marked as distributed, so that it cannot be scattered as the original one can. -/
theorem C12_violation_comm {α} {t : ATable α} (h : Reachable t.tab) {index : List Int}
    (hi : t.tab.index = .ok index) (hd : index.Nodup) (ha : t.attr.length = index.length) {m : Nat} (hm : 2 ≤ m) :
    ∃ locals : List (CTable α), locals.length = m ∧ (∀ r, r < m → ((⟨t, 1⟩ : CTable α).scatter m r).map some = .ok locals[r]?) ∧
      ∀ l ∈ locals, ∃ g, l.gather locals = .ok g ∧ g.table.tab.index = .ok index ∧ g.table.attr = t.attr ∧
        ∀ size rank, g.scatter size rank = .error .valueError := by
  obtain ⟨locals, h1, h2, h3⟩ := C12_distinct h hi hd ha (show 0 < m by omega)
  refine ⟨locals.map (⟨·, m⟩), by simp [h1], ?_, ?_⟩
  · intro r hr
    have h4 := h2 r hr
    rw [CTable.scatter, if_neg (by simp), if_neg (by omega), List.getElem?_map]
    dsimp only
    cases hs : t.scatter m r with
    | error e => rw [hs] at h4; cases h4
    | ok out =>
      rw [hs] at h4
      simp only [Except.map, Except.ok.injEq] at h4 ⊢
      rw [← h4]
      rfl
  · intro l hl
    obtain ⟨l', hl', rfl⟩ := List.mem_map.1 hl
    obtain ⟨g, g1, -, -, g2, g3⟩ := h3 l' hl'
    refine ⟨⟨g, m⟩, ?_, g2, g3, fun size rank => ?_⟩
    · rw [CTable.gather, List.map_map]
      have : (CTable.table ∘ fun x : ATable α => (⟨x, m⟩ : CTable α)) = id := rfl
      rw [this, List.map_id, g1]
      rfl
    · rw [CTable.scatter, if_pos (by show m > 1; omega)]

example : ∃ locals : List (CTable Int), locals.length = 2 ∧ (∀ r, r < 2 → ((⟨⟨t23, [7, 8, 6]⟩, 1⟩ : CTable Int).scatter 2 r).map some = .ok locals[r]?) ∧
    ∀ l ∈ locals, ∃ g, l.gather locals = .ok g ∧ g.table.tab.index = .ok [5, 0, 4] ∧ g.table.attr = [7, 8, 6] ∧
      ∀ size rank, g.scatter size rank = .error .valueError :=
  C12_violation_comm (t := ⟨t23, [7, 8, 6]⟩) (index := [5, 0, 4]) (m := 2) t23_reachable (by decide) (by decide) rfl (by omega)

/-- C12 is violated when the components of a process are a single one that is repeated: its local table cannot be made. -/
theorem C12_violation_repeated : (⟨t5r, [1, 2, 3, 4]⟩ : ATable Int).scatter 2 0 = .error .zeroDivisionError ∧
    (⟨t5r, [1, 2, 3, 4]⟩ : ATable Int).scatter 2 1 = .ok ⟨⟨[5], 1, .slice 0 2 1⟩, [3, 4]⟩ := by decide

/-- C13 is violated by empty tables: unpacking nothing fails on every process when
`PackedTable(5)[0:0]` is scattered. -/
theorem C13_violation_empty :
    ∃ t t', t5.getitem (.slice ⟨some 0, some 0, none⟩) = .ok t ∧ t.index = .ok [] ∧
      t.unpack [0, 0, 0, 0, 0] (-1) [] = .ok [-1, -1, -1, -1, -1] ∧
      t.getitem (.slice (splitSlice 0 2 0)) = .ok t' ∧ t.getitem (.slice (splitSlice 0 2 1)) = .ok t' ∧
      t'.unpackDist [0, 0, 0, 0, 0] (-1) [] [(t', []), (t', [])] = .error .valueError :=
  ⟨⟨[5], 1, .slice 0 0 1⟩, ⟨[5], 1, .slice (-1) (-1) 1⟩, by decide, by decide, by decide, by decide, by decide,
    by decide⟩

example : (⟨t23, [7, 8, 6]⟩ : ATable Int).scatter 2 0 = .ok ⟨⟨[2, 3], 2, .slice 5 (-5) (-5)⟩, [7, 8]⟩ ∧
    (⟨t23, [7, 8, 6]⟩ : ATable Int).scatter 2 1 = .ok ⟨⟨[2, 3], 2, .arr [4]⟩, [6]⟩ ∧
    (⟨⟨[2, 3], 2, .arr [4]⟩, [6]⟩ : ATable Int).gather
      [⟨⟨[2, 3], 2, .slice 5 (-5) (-5)⟩, [7, 8]⟩, ⟨⟨[2, 3], 2, .arr [4]⟩, [6]⟩] = .ok ⟨t23, [7, 8, 6]⟩ ∧
    (⟨[2, 3], 2, .arr [4]⟩ : Table).unpackDist [0, 0, 0, 0, 0, 0] (-1) [6]
      [(⟨[2, 3], 2, .slice 5 (-5) (-5)⟩, [7, 8]), (⟨[2, 3], 2, .arr [4]⟩, [6])] = .ok [8, -1, -1, -1, 6, 7] := by
  decide

end Verif.PackedTable
