import Verif.PackedTable.Restrict
import Verif.Py.Split

/-!
Properties of packed tables: C01-C04, C06-C09, C11, C14, C17.

The full statements quantify over every constructor and every selection.  The code violates several
of them; the `_violation` theorems give witnesses, and the `_partial` theorems are about the
`Reachable` tables, i.e. those obtained by the constructor and by restrictions from the selections described by
`SelOk` and `Supported` (Spec.lean), which exclude exactly the witnessed families.
-/
namespace Verif.PackedTable
open Verif.Py

/-! ### Concrete tables used as witnesses -/

/-- `PackedTable(5)`. -/
def t5 : Table := ⟨[5], 1, .all⟩
/-- `PackedTable((2, 3), selection=[5, 0, 4])`. -/
def t23 : Table := ⟨[2, 3], 2, .arr [5, 0, 4]⟩
/-- `PackedTable((2, 3))[4:0:-2]`. -/
def t23s : Table := ⟨[2, 3], 2, .slice 4 0 (-2)⟩

theorem t5_reachable : Reachable t5 :=
  .make (shape := [5]) (sel := .all) (ordering := none) (ndim := none) (by decide) trivial trivial

theorem t23_reachable : Reachable t23 :=
  .make (shape := [2, 3]) (sel := .ints [5, 0, 4]) (ordering := none) (ndim := none) (by decide)
    ⟨by decide, by
      rintro ⟨m, a, h⟩
      have h1 := congrArg (fun l => l[0]?) h
      have h2 := congrArg (fun l => l[1]?) h
      have h3 := congrArg List.length h
      simp at h1 h2 h3
      omega⟩ trivial

theorem t23s_reachable : Reachable t23s :=
  .getitem (t := ⟨[2, 3], 2, .all⟩) (n := 6) (index := [0, 1, 2, 3, 4, 5])
    (sel := .slice ⟨some 4, some 0, some (-2)⟩)
    (.make (shape := [2, 3]) (sel := .all) (ordering := none) (ndim := none) (by decide) trivial trivial)
    (by decide) (by decide)
    ⟨by decide, Or.inr (by intro b h; cases h; decide), trivial⟩ (by decide)

/-! ### C01 pack -/

/-- C01: packing gathers the rows at the positions `table.index`, in order, whichever internal
representation is used; and `len(table)` rows are returned. -/
theorem C01_pack_partial {α} {t : Table} (h : Reachable t) (rows : List α) (hr : rows.length = t.size) :
    ∃ index out, t.index = .ok index ∧ t.len = .ok index.length ∧
      (∃ r, t.pack (.array t.dims rows) = .ok (.array r out) ∧ r = [index.length]) ∧
      PicksRows rows index out := by
  have hwf := h.wf
  obtain ⟨out, ho, hp⟩ := takeIdx_picks (rows := rows) (index := t.idx.comps t.size)
    (fun i hi => by have := hwf.bounds i hi; omega)
  refine ⟨_, out, index_of_wf hwf, len_of_wf hwf, ⟨[out.length], ?_, by rw [hp.1]⟩, hp⟩
  unfold Table.pack
  simp only
  rw [if_neg (by simp), gatherRows_of_wf hwf rows hr, ho]
  rfl

/-- C01: arrays whose leading dimensions differ from the table shape are rejected. -/
theorem C01_pack_rejects {α} (t : Table) (lead : List Nat) (rows : List α) (h : lead ≠ t.dims) :
    ∃ e, t.pack (.array lead rows) = .error e ∧ e = .valueError :=
  ⟨_, by unfold Table.pack; simp only; rw [if_pos h], rfl⟩

/-- C01 is violated by negative integer selections: `PackedTable(5, selection=[-2, -1])` has
two components according to `len` and `index`, but `pack` returns no row. -/
theorem C01_violation_negative_ints :
    ∃ t, Table.make [5] (.ints [-2, -1]) none none = .ok t ∧ t.len = .ok 2 ∧
      t.index = .ok [-2, -1] ∧ t.gatherRows [10, 11, 12, 13, 14] = .ok [] :=
  ⟨⟨[5], 1, .slice (-2) 0 1⟩, by decide, by decide, by decide, by decide⟩

/-- C01 is violated by restrictions of an empty table: `PackedTable(5)[0:0][0:]` is empty, but packs the
last row; `PackedTable(5)[0:0][::-1]` packs everything. -/
theorem C01_violation_empty_table :
    (∃ t, t5.getitems [.slice ⟨some 0, some 0, none⟩, .slice ⟨some 0, none, none⟩] = .ok t ∧
      t.len = .ok 0 ∧ t.gatherRows [10, 11, 12, 13, 14] = .ok [14]) ∧
    (∃ t, t5.getitems [.slice ⟨some 0, some 0, none⟩, .slice ⟨none, none, some (-1)⟩] = .ok t ∧
      t.len = .ok 0 ∧ t.gatherRows [10, 11, 12, 13, 14] = .ok [14, 13, 12, 11, 10]) :=
  ⟨⟨⟨[5], 1, .slice (-1) (-1) 1⟩, by decide, by decide, by decide⟩,
   ⟨⟨[5], 1, .slice (-1) (-1) (-1)⟩, by decide, by decide, by decide⟩⟩

example : Reachable t23s ∧ [10, 11, 12, 13, 14, 15].length = t23s.size ∧
    t23s.index = .ok [4, 2] ∧ t23s.gatherRows [10, 11, 12, 13, 14, 15] = .ok [14, 12] :=
  ⟨t23s_reachable, by decide, by decide, by decide⟩

/-! ### C02 unpack -/

/-- C02: for a table with distinct components, unpacking writes the packed values (with broadcasting)
at the positions `table.index` and the missing value elsewhere, whatever the content of the
output buffer before the call. -/
theorem C02_unpack_partial {α} {t : Table} (h : Reachable t) {index : List Int}
    (hi : t.index = .ok index) (hn : index.Nodup) (buf : List α) (hb : buf.length = t.size)
    (missing : α) (x : List α) (hx : x.length = 1 ∨ x.length = index.length) :
    ∃ out, t.unpack buf missing x = .ok out ∧ UnpacksTo t.size index missing x out := by
  have hwf := h.wf
  have hidx := index_of_wf hwf
  rw [hi] at hidx; injection hidx with hidx
  subst hidx
  unfold Table.unpack
  rw [len_of_wf hwf]
  simp only [Except.bind]
  rw [if_neg (by omega)]
  have hbd := hwf.bounds
  split
  · obtain ⟨out, h1, h2, h3, h4⟩ := assignIdx_spec hwf hn (List.replicate t.size missing) (by simp) x hx
    refine ⟨out, h1, h2, h3, ?_⟩
    intro p hp hm
    rw [h4 p hm]
    simp [hp]
  · rename_i hsz
    split
    · rename_i hfast
      refine ⟨x, rfl, ?_, ?_, ?_⟩
      · rw [hfast.2, hfast.1]; simp [Idx.comps]
      · intro k i hk
        rw [hfast.1] at hk
        simp only [Idx.comps, progression_getElem?] at hk
        split at hk
        · simp at hk
          rw [← hk]
          simp only [Int.toNat_natCast]
          unfold packedValue
          split
          · have : t.size = 1 := by
              have := hfast.2
              rw [hfast.1] at this; simpa [Idx.comps] using this.symm
            have hk0 : k = 0 := by omega
            subst hk0; rfl
          · rfl
        · cases hk
      · intro p hp hm
        exact absurd (mem_of_nodup_of_length hn hbd (by omega) hp) hm
    · obtain ⟨out, h1, h2, h3, h4⟩ := assignIdx_spec hwf hn buf hb x hx
      refine ⟨out, h1, h2, h3, ?_⟩
      intro p hp hm
      exact absurd (mem_of_nodup_of_length hn hbd (by omega) hp) hm

/-- C02, error branch: a packed array of another length is rejected. -/
theorem C02_unpack_rejects {α} {t : Table} (h : Reachable t) {index : List Int}
    (hi : t.index = .ok index) (buf : List α) (missing : α) (x : List α)
    (hx : x.length ≠ 1 ∧ x.length ≠ index.length) : ∃ e, t.unpack buf missing x = .error e ∧ e = .valueError := by
  have hwf := h.wf
  have hidx := index_of_wf hwf
  rw [hi] at hidx; injection hidx with hidx
  subst hidx
  refine ⟨_, ?_, rfl⟩
  unfold Table.unpack
  rw [len_of_wf hwf]
  simp only [Except.bind]
  rw [if_pos hx]

/-- C02 is violated by repeated components: with `PackedTable(3, selection=[0, 0, 1])` the
result depends on uninitialised memory. -/
theorem C02_violation_repeated :
    ∃ t, Table.make [3] (.ints [0, 0, 1]) none none = .ok t ∧
      ∃ buf buf' : List Int, t.unpack buf (-1) [7, 7, 8] ≠ t.unpack buf' (-1) [7, 7, 8] :=
  ⟨⟨[3], 1, .arr [0, 0, 1]⟩, by decide, [0, 0, 0], [1, 1, 1], by decide⟩

example : t23.unpack [9, 9, 9, 9, 9, 9] (-1) [7, 8, 6] = .ok [8, -1, -1, -1, 6, 7] ∧
    t23.index = .ok [5, 0, 4] ∧ [(5 : Int), 0, 4].Nodup := by decide

/-! ### C03 round trips -/

/-- C03: `pack(unpack(v)) == v`. -/
theorem C03_pack_unpack_partial {α} {t : Table} (h : Reachable t) {index : List Int}
    (hi : t.index = .ok index) (hn : index.Nodup) (buf : List α) (hb : buf.length = t.size)
    (missing : α) (v : List α) (hv : v.length = index.length) :
    ∃ u, t.unpack buf missing v = .ok u ∧ u.length = t.size ∧ t.gatherRows u = .ok v := by
  obtain ⟨u, hu, hl, hval, _⟩ := C02_unpack_partial h hi hn buf hb missing v (Or.inr hv)
  refine ⟨u, hu, hl, ?_⟩
  have hwf := h.wf
  have hidx := index_of_wf hwf
  rw [hi] at hidx; injection hidx with hidx
  subst hidx
  obtain ⟨out, ho, hp⟩ := takeIdx_picks (rows := u) (index := t.idx.comps t.size)
    (fun i hi => by have := hwf.bounds i hi; omega)
  rw [gatherRows_of_wf hwf u hl, ho]
  congr 1
  apply List.ext_getElem?
  intro k
  by_cases hk : k < (t.idx.comps t.size).length
  · have hk' := List.getElem?_eq_getElem hk
    rw [(hp.2 k _ hk').2, hval k _ hk']
    unfold packedValue
    split
    · have hk0 : k = 0 := by simp at hv; omega
      subst hk0; rfl
    · rfl
  · rw [List.getElem?_eq_none (by rw [hp.1]; omega), List.getElem?_eq_none (by omega)]

/-- C03: `unpack(pack(x))` equals `x` on the components of the table, and everywhere
when all the components are selected. -/
theorem C03_unpack_pack_partial {α} {t : Table} (h : Reachable t) {index : List Int}
    (hi : t.index = .ok index) (hn : index.Nodup) (buf : List α) (hb : buf.length = t.size)
    (missing : α) (x : List α) (hx : x.length = t.size) :
    ∃ v u, t.gatherRows x = .ok v ∧ t.unpack buf missing v = .ok u ∧ u.length = t.size ∧
      (∀ i ∈ index, u[i.toNat]? = x[i.toNat]?) ∧
      ((∀ p : Nat, p < t.size → (p : Int) ∈ index) → u = x) := by
  have hwf := h.wf
  have hidx := index_of_wf hwf
  rw [hi] at hidx; injection hidx with hidx
  obtain ⟨v, ho, hp⟩ := takeIdx_picks (rows := x) (index := index)
    (fun i hi => by subst hidx; have := hwf.bounds i hi; omega)
  obtain ⟨u, hu, hl, hval, hmis⟩ := C02_unpack_partial h hi hn buf hb missing v (Or.inr hp.1)
  have hcomp : ∀ i ∈ index, u[i.toNat]? = x[i.toNat]? := by
    intro i him
    obtain ⟨k, hk⟩ := List.getElem?_of_mem him
    rw [hval k i hk, ← (hp.2 k i hk).2]
    unfold packedValue
    split
    · have : k < 1 := by
        have h1 := hp.1
        obtain ⟨hk', _⟩ := List.getElem?_eq_some_iff.1 hk
        simp at h1; omega
      have hk0 : k = 0 := by omega
      subst hk0; rfl
    · rfl
  refine ⟨v, u, ?_, hu, hl, hcomp, ?_⟩
  · rw [gatherRows_of_wf hwf x hx, ← hidx, ho]
  · intro hall
    apply List.ext_getElem?
    intro p
    by_cases hps : p < t.size
    · have := hcomp _ (hall p hps)
      simpa using this
    · rw [List.getElem?_eq_none (by omega), List.getElem?_eq_none (by omega)]

/-- C03 is violated by the empty table `PackedTable(5)[0:0][0:]`, whose components are (vacuously)
distinct: unpacking the empty array fails. -/
theorem C03_violation_empty_table :
    ∃ t, t5.getitems [.slice ⟨some 0, some 0, none⟩, .slice ⟨some 0, none, none⟩] = .ok t ∧
      t.index = .ok [] ∧ t.unpack [0, 0, 0, 0, 0] (-1) [] = .error .valueError :=
  ⟨⟨[5], 1, .slice (-1) (-1) 1⟩, by decide, by decide, by decide⟩

example : t23s.unpack [9, 9, 9, 9, 9, 9] (-1) [7, 8] = .ok [-1, -1, 8, -1, 7, -1] ∧
    t23s.gatherRows [-1, -1, 8, -1, 7, -1] = .ok [7, 8] := by decide

/-! ### C04, C06 restriction -/

/-- The table is empty: restricting it by a slice leaves it empty. -/
theorem getitem_slice_empty {t : Table} (h : t.idx.WF t.size) (hlen : t.len = .ok 0) {s : PySlice}
    (hc : s.step.getD 1 ≠ 0) (hs : SliceStopOk s 0) :
    ∃ t', t.getitem (.slice s) = .ok t' ∧ t'.index = .ok [] ∧ t'.len = .ok 0 := by
  have hl := len_of_wf h
  rw [hlen] at hl; injection hl with hl
  have hnil : t.idx.comps t.size = [] := List.length_eq_zero_iff.1 hl.symm
  have hi := index_of_wf h
  obtain ⟨ns, hns, hspec⟩ := normalizeSlice_spec hc hs
  unfold Table.getitem
  rw [hlen]
  simp only [Except.bind, normalizeSelection, List.prod_cons, List.prod_nil, Nat.mul_one]
  rw [hns]
  cases ns with
  | all => exact ⟨t, rfl, by rw [hi, hnil], hlen⟩
  | slice a b c =>
    obtain ⟨hwf, hsi⟩ := hspec.wf hc
    have hcnil : (Idx.slice a b c).comps 0 = [] := by
      rw [sliceIndices_empty hc] at hsi; injection hsi with hsi; exact hsi.symm
    simp only [Except.map, NSlice.toNSel]
    obtain ⟨hc', m, hb, hx, _⟩ := hwf
    have hm : m = 0 := by
      simp only [Idx.comps] at hcnil
      rw [hb, pyRange_progression _ _ _ hc'] at hcnil
      have := congrArg List.length hcnil
      simpa using this
    subst hm
    have hba : b = a := by rw [hb]; simp
    subst hba
    cases hidx : t.idx with
    | all =>
      refine ⟨{ t with idx := .slice b b c }, by unfold Table.subIdx; rw [hidx], ?_, ?_⟩
      · simp only [Table.index, arange]
        rw [if_neg hc']
        simp only [Idx.comps] at hcnil
        rw [hcnil]
      · simp only [Table.len]
        rw [if_neg hc']
        simp
    | slice A B C =>
      rw [hidx] at h
      have hC := h.1
      have hCc := Int.mul_ne_zero hC hc'
      refine ⟨{ t with idx := .slice (A + b * C) (A + b * C) (C * c) }, ?_, ?_, ?_⟩
      · unfold Table.subIdx; rw [hidx]; simp only
        rw [if_neg hc']
        simp
      · simp only [Table.index, arange]
        rw [if_neg hCc]
        have := pyRange_progression (A + b * C) (C * c) 0 hCc
        simp at this
        rw [this, progression_zero]
      · simp only [Table.len]
        rw [if_neg hCc]
        simp
    | arr l =>
      have hl' : l = [] := by rw [hidx] at hnil; exact hnil
      subst hl'
      refine ⟨{ t with idx := .arr [] }, ?_, rfl, rfl⟩
      rw [subIdx_other h (fun h => by rw [hidx] at h; cases h)
        (fun ⟨_, _, _, h⟩ => by rw [hidx] at h; cases h), hidx]
      simp only [Idx.comps, applyNSel, takeSlice, List.length_nil]
      rw [sliceIndices_empty (by simpa using hc')]
      rfl

/-- A slice of distinct components does not repeat one. -/
theorem slice_not_repeats {index : List Int} (hd : index.Nodup) {s : PySlice} {r : List Int} (hr : takeSlice index s = .ok r) : ¬ Repeats r := by
  apply nodup_not_repeats
  unfold takeSlice at hr
  cases hp : sliceIndices s index.length with
  | error e => rw [hp] at hr; cases hr
  | ok p =>
    rw [hp] at hr
    have hpb := sliceIndices_bounds hp
    have hpn := sliceIndices_nodup hp
    have : takeIdx index p = .ok r := hr
    rw [takeIdx_eq_map hpb 0] at this
    injection this with this
    rw [← this, List.nodup_iff_pairwise_ne, List.pairwise_map]
    rw [List.nodup_iff_pairwise_ne] at hpn
    apply hpn.imp_of_mem
    intro a b ha hb hab heq
    have ha' := hpb a ha
    have hb' := hpb b hb
    rw [List.getD_eq_getElem?_getD, List.getD_eq_getElem?_getD,
      List.getElem?_eq_getElem (by omega), List.getElem?_eq_getElem (by omega)] at heq
    simp only [Option.getD_some] at heq
    have := (List.getElem_inj hd).1 heq
    omega

/-- Ascending slices of non-empty tables that do not select a repeated component are supported. -/
theorem slice_supported {t : Table} {index : List Int} {s : PySlice} (hd : ∀ r, takeSlice index s = .ok r → ¬ Repeats r)
    (hn : index.length ≠ 0) (hc : 0 < s.step.getD 1) : Supported t index.length index (.slice s) :=
  ⟨by omega, Or.inl hc, by
    split
    · trivial
    · intro h; omega
    · exact ⟨Or.inl hc, hd⟩⟩

/-- C04: a table restricted by a slice with a positive step has the components
`table.index[slice]` given by the Python definition, for all bounds, unless they are a single component that is
repeated. -/
theorem C04_slice_partial {t : Table} (h : Reachable t) {index : List Int} (hi : t.index = .ok index)
    (s : PySlice) (hd : ∀ r, takeSlice index s = .ok r → ¬ Repeats r) (hc : 0 < s.step.getD 1) :
    ∃ r t', takeSlice index s = .ok r ∧ t.getitem (.slice s) = .ok t' ∧ t'.index = .ok r ∧
      t'.shape = t.shape ∧ t'.ndim = t.ndim := by
  have hwf := h.wf
  have hl := len_of_wf hwf
  have hidx := index_of_wf hwf
  rw [hi] at hidx; injection hidx with hidx
  rw [← hidx] at hl
  by_cases hn : index.length = 0
  · have hnil := List.length_eq_zero_iff.1 hn
    subst hnil
    obtain ⟨t', h1, h2, h3⟩ := getitem_slice_empty hwf hl (s := s) (by omega) (Or.inl hc)
    refine ⟨[], t', ?_, h1, h2, ?_⟩
    · unfold takeSlice
      rw [List.length_nil, sliceIndices_empty (by omega)]; rfl
    · unfold Table.getitem at h1
      rw [hl] at h1
      simp only [Except.bind] at h1
      split at h1
      · cases h1
      · split at h1
        · injection h1 with h1; subst h1; exact ⟨rfl, rfl⟩
        · rename_i v _ _ _
          cases hq : t.subIdx v with
          | error e => rw [hq] at h1; cases h1
          | ok q => rw [hq] at h1; injection h1 with h1; subst h1; exact ⟨rfl, rfl⟩
  · obtain ⟨r, t', h1, h2, h3, h4, h5, h6⟩ := getitem_spec (sel := .slice s) hwf hl hi
      (slice_supported hd hn hc)
    exact ⟨r, t', h1, h2, h6, h3, h4⟩

/-- C04: slices with a negative step, for tables that hold everything or an arithmetic progression,
provided that the stop bound is not more than one below the start of the table. -/
theorem C04_slice_negative_partial {t : Table} (h : Reachable t) (ha : ∀ l, t.idx ≠ .arr l)
    {index : List Int} (hi : t.index = .ok index) (s : PySlice) (hc : s.step.getD 1 < 0)
    (hstop : ∀ b, s.stop = some b → -(index.length : Int) - 1 ≤ b) :
    ∃ r t', takeSlice index s = .ok r ∧ t.getitem (.slice s) = .ok t' ∧ t'.index = .ok r := by
  have hwf := h.wf
  have hl := len_of_wf hwf
  have hidx := index_of_wf hwf
  rw [hi] at hidx; injection hidx with hidx
  rw [← hidx] at hl
  by_cases hn : index.length = 0
  · have hnil := List.length_eq_zero_iff.1 hn
    subst hnil
    obtain ⟨t', h1, h2, h3⟩ := getitem_slice_empty hwf hl (s := s) (by omega) (Or.inr hstop)
    refine ⟨[], t', ?_, h1, h2⟩
    unfold takeSlice
    rw [List.length_nil, sliceIndices_empty (by omega)]; rfl
  · obtain ⟨r, t', h1, h2, h3, h4, h5, h6⟩ := getitem_spec (sel := .slice s) hwf hl hi
      ⟨by omega, Or.inr hstop, by
        split
        · trivial
        · intro h; omega
        · rename_i h; exact absurd h (ha _)⟩
    exact ⟨r, t', h1, h2, h6⟩

/-- C04: a zero step is rejected. -/
theorem C04_zero_step {t : Table} {n : Nat} (h : t.len = .ok n) (s : PySlice) (hc : s.step = some 0) :
    t.getitem (.slice s) = .error .valueError := by
  unfold Table.getitem
  rw [h]
  simp only [Except.bind, normalizeSelection]
  rw [normalizeSlice_zero (by rw [hc]; rfl)]
  rfl

/-- C04 is violated when the stop bound of a descending slice is far below: the slice `[4:-10:-1]`
of five components must give all of them reversed, but the restricted table has nine. -/
theorem C04_violation_stop :
    takeSlice [0, 1, 2, 3, 4] ⟨some 4, some (-10), some (-1)⟩ = .ok [(4 : Int), 3, 2, 1, 0] ∧
    ∃ t, t5.getitem (.slice ⟨some 4, some (-10), some (-1)⟩) = .ok t ∧
      t.index = .ok [4, 3, 2, 1, 0, -1, -2, -3, -4] :=
  ⟨by decide, ⟨[5], 1, .slice 4 (-5) (-1)⟩, by decide, by decide⟩

/-- C04 is violated by descending slices of tables with irregular components: some components, or all of
them, are silently dropped. -/
theorem C04_violation_array :
    (takeSlice [5, 0, 4] ⟨none, none, some (-1)⟩ = .ok [(4 : Int), 0, 5]) ∧
    (∃ t, t23.getitem (.slice ⟨none, none, some (-1)⟩) = .ok t ∧ t.index = .ok []) :=
  ⟨by decide, ⟨[2, 3], 2, .arr []⟩, by decide, by decide⟩

example : (∃ t, t23s.getitem (.slice ⟨some (-10), none, some 3⟩) = .ok t ∧ t.index = .ok [4]) ∧
    (∃ t, t23s.getitem (.slice ⟨none, none, some (-1)⟩) = .ok t ∧ t.index = .ok [2, 4]) :=
  ⟨⟨⟨[2, 3], 2, .slice 4 (-2) (-6)⟩, by decide, by decide⟩,
   ⟨⟨[2, 3], 2, .slice 2 6 2⟩, by decide, by decide⟩⟩

/-- Histories of restrictions by selections on which the code behaves (see `Supported`). -/
inductive Chain : Table → List Sel → Table → Prop
  | nil {t} : Chain t [] t
  | cons {t t' t'' n index sel sels} :
      t.len = .ok n → t.index = .ok index → Supported t n index sel → t.getitem sel = .ok t' →
      Chain t' sels t'' → Chain t (sel :: sels) t''

/-- C06: successive restrictions compose like successive numpy selections of the list of
components. -/
theorem C06_compose_partial {t t' : Table} {sels : List Sel} (h : Reachable t) (hc : Chain t sels t')
    {index : List Int} (hi : t.index = .ok index) :
    ∃ r, numpySelects index sels = .ok r ∧ t'.index = .ok r ∧ t.getitems sels = .ok t' ∧
      t'.shape = t.shape ∧ t'.ndim = t.ndim ∧ Reachable t' := by
  induction hc generalizing index with
  | nil => exact ⟨index, rfl, hi, rfl, rfl, rfl, h⟩
  | cons hlen hidx hs hget hch ih =>
    rw [hi] at hidx; injection hidx with hidx; subst hidx
    obtain ⟨r, t1, h1, h2, h3, h4, h5, h6⟩ := getitem_spec h.wf hlen hi hs
    rw [hget] at h2; injection h2 with h2; subst h2
    obtain ⟨r', g1, g2, g3, g4, g5, g6⟩ := ih (.getitem h hlen hi hs hget) h6
    refine ⟨r', ?_, g2, ?_, by rw [g4, h3], by rw [g5, h4], g6⟩
    · simp only [numpySelects, h1]; exact g1
    · simp only [Table.getitems, hget]; exact g3

/-- C06 is violated by the restrictions witnessed in `C04_violation_array` and, for integers, by
repetitions: `table[[2, 2]]` cannot even be measured. -/
theorem C06_violation_repeated :
    numpySelects [0, 1, 2, 3, 4] [.ints [2, 2]] = .ok [(2 : Int), 2] ∧
    ∃ t, t5.getitems [.ints [2, 2]] = .ok t ∧ t.index = .error .zeroDivisionError ∧
      t.len = .error .zeroDivisionError :=
  ⟨by decide, ⟨[5], 1, .slice 2 2 0⟩, by decide, by decide, by decide⟩

example : Chain t5 [.slice ⟨some 1, none, none⟩, .ints [3, 0], .bools [2] [false, true]] ⟨[5], 1, .arr [1]⟩ := by
  refine .cons (n := 5) (index := [0, 1, 2, 3, 4]) (t' := ⟨[5], 1, .slice 1 5 1⟩) (by decide) (by decide)
    ⟨by decide, Or.inl (by decide), trivial⟩ (by decide) ?_
  refine .cons (n := 4) (index := [1, 2, 3, 4]) (t' := ⟨[5], 1, .slice 4 (-2) (-3)⟩) (by decide) (by decide)
    ⟨by decide, (by intro h; cases h), ?_⟩ (by decide) ?_
  · intro r hr
    have : r = [4, 1] := by
      have h : takeIdx [1, 2, 3, 4] [3, 0] = .ok [(4 : Int), 1] := by decide
      rw [h] at hr; injection hr with hr; exact hr.symm
    subst this
    exact nodup_not_repeats (by decide)
  refine .cons (n := 2) (index := [4, 1]) (by decide) (by decide) ⟨rfl, rfl, ?_⟩ (by decide) .nil
  intro r hr
  have : r = [1] := by
    have h : takeMask [4, 1] [false, true] = .ok [(1 : Int)] := by decide
    rw [h] at hr; injection hr with hr; exact hr.symm
  subst this
  exact nodup_not_repeats (by decide)

/-! ### C07 length -/

/-- C07: `len(table)` is the number of entries of `table.index`. -/
theorem C07_len_partial {t : Table} (h : Reachable t) {index : List Int} (hi : t.index = .ok index) :
    t.len = .ok index.length := by
  have := index_of_wf h.wf
  rw [hi] at this; injection this with this
  rw [this]; exact len_of_wf h.wf

/-- C07: `len` and `index` never fail on these tables. -/
theorem C07_total_partial {t : Table} (h : Reachable t) : ∃ index, t.index = .ok index ∧
    (∀ i ∈ index, 0 ≤ i ∧ i < t.size) :=
  ⟨_, index_of_wf h.wf, h.wf.bounds⟩

/-- C07 is violated by a selection that repeats one component. -/
theorem C07_violation_repeated :
    ∃ t, Table.make [5] (.ints [2, 2]) none none = .ok t ∧ t.len = .error .zeroDivisionError :=
  ⟨⟨[5], 1, .slice 2 2 0⟩, by decide, by decide⟩

/-! ### C08 integer selections -/

/-- C08, exact characterisation: the compression of an integer selection is faithful if and only if the
selection does not repeat one component, and is not the sequence `a, a+1, ..., a+n-1` with
`a ≠ 0` (which can happen with negative integers). -/
theorem C08_ints_iff (l : List Int) (n : Nat) (shape : List Nat) (ndim : Nat)
    (hn : (shape.take ndim).prod = n) :
    (⟨shape, ndim, normalizeInt l n⟩ : Table).index = .ok l ↔
      ¬ Repeats l ∧ ¬ ∃ a, a ≠ 0 ∧ 2 ≤ n ∧ l = progression a 1 n := by
  unfold normalizeInt
  split
  · simp only [Table.index, true_iff]
    refine ⟨nodup_not_repeats (by simp), ?_⟩
    rintro ⟨a, _, h2, h⟩
    have := congrArg List.length h
    simp at this; omega
  · rename_i a
    simp only [Table.index, true_iff]
    refine ⟨nodup_not_repeats (by simp), ?_⟩
    rintro ⟨a, _, h2, h⟩
    have := congrArg List.length h
    simp at this; omega
  · rename_i a b r
    simp only
    split
    · rename_i hp
      split
      · rename_i hn'
        simp only [Table.index, Table.size, Table.dims]
        rw [hn, pyRange_zero_one, hp]
        rw [hn'.2, hn'.1]
        constructor
        · intro h
          injection h with h
          rw [← h]
          refine ⟨fun hr => ?_, ?_⟩
          · have := progression_repeats hr; omega
          · rintro ⟨a', ha', h2, h3⟩
            have := congrArg (fun l => l[0]?) h3
            simp only [progression_getElem?] at this
            rw [if_pos (by omega), if_pos (by omega)] at this
            simp at this
            exact ha' this.symm
        · rintro ⟨_, h⟩
          congr 1
          have ha : a = 0 := by
            apply Classical.byContradiction
            intro ha
            exact h ⟨a, ha, by omega, rfl⟩
          rw [ha]
      · rename_i hn'
        simp only [Table.index, arange]
        by_cases hc : b - a = 0
        · rw [if_pos hc]
          constructor
          · intro h; cases h
          · rintro ⟨h, _⟩
            exfalso; apply h
            rw [hp, hc, progression_zero_step]
            exact ⟨_, _, rfl⟩
        · rw [if_neg hc]
          have hpr := pyRange_progression a (b - a) (r.length + 2) hc
          rw [hpr, ← hp]
          simp only [true_iff]
          refine ⟨fun hr => ?_, ?_⟩
          · rw [hp] at hr
            exact hc (progression_repeats hr)
          · rintro ⟨a', ha', h2, h3⟩
            apply hn'
            have hlen := congrArg List.length h3
            simp at hlen
            refine ⟨by omega, ?_⟩
            have h0 := congrArg (fun l => l[0]?) h3
            have h1 := congrArg (fun l => l[1]?) h3
            simp only [progression_getElem?] at h0 h1
            rw [if_pos (by omega)] at h0
            rw [if_pos (by omega)] at h1
            simp at h0 h1
            omega
    · rename_i hp
      simp only [Table.index, true_iff]
      refine ⟨?_, ?_⟩
      · rintro ⟨m, x, hx⟩
        apply hp
        have hlen := congrArg List.length hx
        simp at hlen
        have h0 := congrArg (fun l => l[0]?) hx
        have h1 := congrArg (fun l => l[1]?) hx
        simp at h0 h1
        subst h0; subst h1
        rw [hx, Int.sub_self, progression_zero_step, hlen]
      · rintro ⟨a', ha', h2, h3⟩
        apply hp
        have hlen := congrArg List.length h3
        simp at hlen
        have h0 := congrArg (fun l => l[0]?) h3
        have h1 := congrArg (fun l => l[1]?) h3
        simp only [progression_getElem?] at h0 h1
        rw [if_pos (by omega)] at h0
        rw [if_pos (by omega)] at h1
        simp at h0 h1
        rw [h3, show b - a = 1 by omega, show r.length + 2 = n by omega, h0]

/-- C08: valid non-negative integers that do not repeat a single component designate exactly themselves
through the constructor. -/
theorem C08_ints_partial (shape : List Nat) (l : List Int) (hv : ∀ i ∈ l, 0 ≤ i ∧ i < (shape.prod : Nat))
    (hr : ¬ Repeats l) : ∃ t, Table.make shape (.ints l) none none = .ok t ∧ t.index = .ok l := by
  refine ⟨⟨shape, shape.length, normalizeInt l shape.prod⟩, rfl, ?_⟩
  apply (C08_ints_iff l shape.prod shape shape.length (by simp)).2
  refine ⟨hr, ?_⟩
  rintro ⟨a, ha, h2, h3⟩
  have h0 := hv a (by rw [h3]; exact mem_progression.2 ⟨0, by omega, by simp⟩)
  have h1 := hv (a + 1 * ((shape.prod - 1 : Nat) : Int))
    (by rw [h3]; exact mem_progression.2 ⟨shape.prod - 1, by omega, rfl⟩)
  omega

/-- C08 is violated by `[-1, 0, 1]` on three components, which gives `[0, 1, 2]` instead of
`[2, 0, 1]` (or `[-1, 0, 1]`), and by `[2, 2]`. -/
theorem C08_violation :
    (takeIdx [0, 1, 2] [-1, 0, 1] = .ok [(2 : Int), 0, 1] ∧
      ∃ t, Table.make [3] (.ints [-1, 0, 1]) none none = .ok t ∧ t.index = .ok [0, 1, 2]) ∧
    (takeIdx [0, 1, 2] [2, 2] = .ok [(2 : Int), 2] ∧
      ∃ t, Table.make [3] (.ints [2, 2]) none none = .ok t ∧ t.index = .error .zeroDivisionError) :=
  ⟨⟨by decide, ⟨[3], 1, .all⟩, by decide, by decide⟩,
   ⟨by decide, ⟨[3], 1, .slice 2 2 0⟩, by decide, by decide⟩⟩

example : (∀ i ∈ [(5 : Int), 3, 1], 0 ≤ i ∧ i < (([2, 3] : List Nat).prod : Nat)) ∧ ¬ Repeats [5, 3, 1] :=
  ⟨by decide, nodup_not_repeats (by decide)⟩

/-! ### C09 ordering -/

/-- C09: with an ordering array and a boolean selection, `table.index` lists exactly the selected
components of non-negative ordering, sorted by ordering then by position.  (These two
conditions determine the list.) -/
theorem C09_ordering (shape : List Nat) (mask : List Bool) (hm : mask.length = shape.prod)
    (ordering : List Int) (ho : ordering.length = shape.prod) :
    ∃ t index, Table.make shape (.bools shape mask) (some (shape, ordering)) none = .ok t ∧
      t.index = .ok index ∧
      (∀ i : Int, i ∈ index ↔ ∃ p : Nat, i = p ∧ mask[p]? = some true ∧ ∃ o, ordering[p]? = some o ∧ 0 ≤ o) ∧
      index.Pairwise (fun i j => ∃ oi oj, ordering[i.toNat]? = some oi ∧ ordering[j.toNat]? = some oj ∧
        (oi < oj ∨ (oi = oj ∧ i < j))) := by
  let v := List.zipWith (fun (v : Int) (m : Bool) => if m then v else -1) ordering mask
  have hv : v.length = shape.prod := by simp only [v, List.length_zipWith]; omega
  have hwf := orderingIndex_wf hv
  have hmake : Table.make shape (.bools shape mask) (some (shape, ordering)) none
      = .ok ⟨shape, shape.length, orderingIndex v shape.prod⟩ := by
    simp [Table.make, getIndex, normalizeSelection, maskOrdering, selection2bool, Except.bind, Except.map, v]
  have hget : ∀ p : Nat, ∀ x : Int, 0 ≤ x → (v[p]? = some x ↔ mask[p]? = some true ∧ ordering[p]? = some x) := by
    intro p x hx
    simp only [v, List.getElem?_zipWith]
    cases h1 : ordering[p]? with
    | none => simp
    | some o =>
      cases h2 : mask[p]? with
      | none => simp
      | some m =>
        cases m with
        | false => simp; omega
        | true => simp
  have hidx : (⟨shape, shape.length, orderingIndex v shape.prod⟩ : Table).index
      = .ok ((orderedComps v).map (fun (k : Nat) => (k : Int))) := by
    rw [← hwf.2]
    have := index_of_wf (t := ⟨shape, shape.length, orderingIndex v shape.prod⟩)
      (by simpa [Table.size, Table.dims] using hwf.1)
    simpa [Table.size, Table.dims] using this
  refine ⟨_, _, hmake, hidx, ?_, ?_⟩
  · intro i
    rw [List.mem_map]
    constructor
    · rintro ⟨p, hp, rfl⟩
      obtain ⟨x, hx, hx0⟩ := mem_orderedComps.1 hp
      have := (hget p x hx0).1 hx
      exact ⟨p, rfl, this.1, x, this.2, hx0⟩
    · rintro ⟨p, rfl, h1, x, h2, h3⟩
      exact ⟨p, mem_orderedComps.2 ⟨x, (hget p x h3).2 ⟨h1, h2⟩, h3⟩, rfl⟩
  · rw [List.pairwise_map]
    have hs : (orderedComps v).Pairwise (fun a b => v.getD a 0 < v.getD b 0 ∨ (v.getD a 0 = v.getD b 0 ∧ a < b)) :=
      (argsort_sorted v).sublist List.filter_sublist
    apply hs.imp_of_mem
    intro a b ha hb hab
    obtain ⟨x, hx, hx0⟩ := mem_orderedComps.1 ha
    obtain ⟨y, hy, hy0⟩ := mem_orderedComps.1 hb
    have hx' := ((hget a x hx0).1 hx).2
    have hy' := ((hget b y hy0).1 hy).2
    refine ⟨x, y, by simpa using hx', by simpa using hy', ?_⟩
    rw [List.getD_eq_getElem?_getD, List.getD_eq_getElem?_getD, hx, hy] at hab
    simp only [Option.getD_some] at hab
    omega

/-- C09: without a selection, the same with every component. -/
theorem C09_ordering_all (shape : List Nat) (ordering : List Int) (ho : ordering.length = shape.prod) :
    ∃ t index, Table.make shape .all (some (shape, ordering)) none = .ok t ∧
      t.index = .ok index ∧
      (∀ i : Int, i ∈ index ↔ ∃ p : Nat, i = p ∧ ∃ o, ordering[p]? = some o ∧ 0 ≤ o) ∧
      index.Pairwise (fun i j => ∃ oi oj, ordering[i.toNat]? = some oi ∧ ordering[j.toNat]? = some oj ∧
        (oi < oj ∨ (oi = oj ∧ i < j))) := by
  obtain ⟨t, index, h1, h2, h3, h4⟩ := C09_ordering shape (List.replicate shape.prod true) (by simp) ordering ho
  have hmake : Table.make shape .all (some (shape, ordering)) none
      = Table.make shape (.bools shape (List.replicate shape.prod true)) (some (shape, ordering)) none := by
    have hz : List.zipWith (fun (v : Int) (m : Bool) => if m then v else -1) ordering
        (List.replicate shape.prod true) = ordering := by
      apply List.ext_getElem
      · simp [ho]
      · intro k h1 h2; simp
    simp [Table.make, getIndex, normalizeSelection, maskOrdering, selection2bool, Except.bind, Except.map, hz]
  refine ⟨t, index, by rw [hmake, h1], h2, ?_, h4⟩
  intro i
  rw [h3]
  constructor
  · rintro ⟨p, hp, _, ho⟩; exact ⟨p, hp, ho⟩
  · rintro ⟨p, hp, o, ho', ho0⟩
    refine ⟨p, hp, ?_, o, ho', ho0⟩
    obtain ⟨hlt, _⟩ := List.getElem?_eq_some_iff.1 ho'
    simp [← ho, hlt]

example : (Table.make [2, 3] .all (some ([2, 3], [1, -1, 0, 1, 0, 7])) none).bind Table.index
    = .ok [2, 4, 0, 3, 5] := by
  have h : argsort [1, -1, 0, 1, 0, 7] = [1, 2, 4, 0, 3, 5] := by
    simp [argsort, List.mergeSort, List.MergeSort.Internal.splitInTwo, List.range, List.range.loop]
  have h' : Table.make [2, 3] .all (some ([2, 3], [1, -1, 0, 1, 0, 7])) none =
      .ok ⟨[2, 3], 2, orderingIndex [1, -1, 0, 1, 0, 7] 6⟩ := rfl
  rw [h']
  unfold orderingIndex
  rw [h]
  decide

/-- C09: an ordering that does not have the shape of the components is rejected, whatever the selection (the mask may be rejected
first). -/
theorem C09_rejects (shape oshape : List Nat) (ordering : List Int) (sel : Sel) (h : oshape ≠ shape) :
    ∀ t, Table.make shape sel (some (oshape, ordering)) none ≠ .ok t ∧
      (sel = .all → Table.make shape sel (some (oshape, ordering)) none = .error .valueError) := by
  intro t
  constructor
  · intro ht
    rw [Table.make, getIndex] at ht
    dsimp only at ht
    cases hn : normalizeSelection sel shape with
    | error e => rw [hn] at ht; cases ht
    | ok nsel =>
      rw [hn] at ht
      simp only [Except.bind] at ht
      rw [if_pos h] at ht
      cases ht
  · rintro rfl
    simp [Table.make, getIndex, normalizeSelection, Except.bind, Except.map, h]

example : Table.make [2, 3] .all (some ([3, 2], [1, 0, 2, 3, 4, 5])) none = .error .valueError := by decide

/-! ### C11 split -/

/-- core.py 550-562 `split`. -/
def Table.split (t : Table) (m : Nat) : Res (List Table) :=
  t.len.bind fun n => (Verif.Py.split n m).mapM (fun s => t.getitem (.slice s))

/-- C11: the component lists of the groups, concatenated, give the component list of the table;
there are `m` groups whose sizes differ by at most one.  The excluded case, a group which is a single component repeated,
cannot happen when the components are distinct (`C11_distinct`). -/
theorem C11_split_partial {t : Table} (h : Reachable t) {index : List Int} (hi : t.index = .ok index)
    {m : Nat} (hm : 0 < m) (hd : ∀ r, r < m → ∀ p, takeSlice index (splitSlice index.length m r) = .ok p → ¬ Repeats p) :
    ∃ (groups : List Table) (parts : List (List Int)), t.split m = .ok groups ∧ groups.length = m ∧
      groups.map Table.index = parts.map .ok ∧ parts.flatten = index ∧
      ∀ a ∈ parts, ∀ b ∈ parts, a.length ≤ b.length + 1 := by
  have hlen := C07_len_partial h hi
  have key : ∀ r, r < m → ∃ t', t.getitem (.slice (splitSlice index.length m r)) = .ok t' ∧
      t'.index = .ok ((index.drop (splitStart index.length m r)).take (splitLen index.length m r)) := by
    intro r hr
    obtain ⟨q, t', h1, h2, h3, _⟩ := C04_slice_partial h hi (splitSlice index.length m r) (hd r hr)
      (by simp [splitSlice])
    refine ⟨t', h2, ?_⟩
    rw [h3, ← h1, takeSlice_split hr]
  have build : ∀ rs : List Nat, (∀ r ∈ rs, r < m) → ∃ groups,
      (rs.map (splitSlice index.length m)).mapM (fun s => t.getitem (.slice s)) = .ok groups ∧
      groups.map Table.index = (rs.map fun r =>
        (index.drop (splitStart index.length m r)).take (splitLen index.length m r)).map .ok := by
    intro rs
    induction rs with
    | nil => intro _; exact ⟨[], rfl, rfl⟩
    | cons r rs ih =>
      intro hr
      obtain ⟨g, hg1, hg2⟩ := ih (fun r' h' => hr r' (by simp [h']))
      obtain ⟨t', h1, h2⟩ := key r (hr r (by simp))
      refine ⟨t' :: g, ?_, ?_⟩
      · rw [List.map_cons, List.mapM_cons, h1, hg1]; rfl
      · simp only [List.map_cons, h2, hg2]
  obtain ⟨groups, h1, h2⟩ := build (List.range m) (by simp)
  refine ⟨groups, (List.range m).map fun r =>
    (index.drop (splitStart index.length m r)).take (splitLen index.length m r), ?_, ?_, h2, ?_, ?_⟩
  · unfold Table.split; rw [hlen]; exact h1
  · have := congrArg List.length h2; simpa using this
  · have := split_concat index hm
    rw [List.flatMap_def] at this
    exact this
  · intro a ha b hb
    rw [List.mem_map] at ha hb
    obtain ⟨r, hr, rfl⟩ := ha
    obtain ⟨r', hr', rfl⟩ := hb
    have h1 := splitStop_le (n := index.length) (List.mem_range.1 hr)
    have h2 := splitStop_le (n := index.length) (List.mem_range.1 hr')
    have h3 := splitLen_balanced index.length m r r'
    simp only [List.length_take, List.length_drop]
    omega

/-- C11: the case of distinct components. -/
theorem C11_distinct {t : Table} (h : Reachable t) {index : List Int} (hi : t.index = .ok index)
    (hd : index.Nodup) {m : Nat} (hm : 0 < m) :
    ∃ (groups : List Table) (parts : List (List Int)), t.split m = .ok groups ∧ groups.length = m ∧
      groups.map Table.index = parts.map .ok ∧ parts.flatten = index ∧
      ∀ a ∈ parts, ∀ b ∈ parts, a.length ≤ b.length + 1 :=
  C11_split_partial h hi hm fun _ _ _ hp => slice_not_repeats hd hp

/-- `PackedTable(5, selection=[2, 2, 0, 1])`. -/
def t5r : Table := ⟨[5], 1, .arr [2, 2, 0, 1]⟩

/-- C11 is violated when a group is a single component that is repeated: it has neither components nor length. -/
theorem C11_violation_repeated : Table.make [5] (.ints [2, 2, 0, 1]) none none = .ok t5r ∧ t5r.index = .ok [2, 2, 0, 1] ∧
    ∃ a b, t5r.split 2 = .ok [a, b] ∧ a.index = .error .zeroDivisionError ∧ a.len = .error .zeroDivisionError :=
  ⟨by decide, by decide, ⟨[5], 1, .slice 2 2 0⟩, ⟨[5], 1, .slice 0 2 1⟩, by decide, by decide, by decide⟩

example : (t23.split 2).map (·.map Table.idx) = .ok [.slice 5 (-5) (-5), .arr [4]] ∧
    (t23.split 5).map (·.map Table.idx) = .ok [.arr [5], .arr [0], .arr [4], .arr [], .arr []] := by decide

/-! ### C14 removed -/

/-- C14: `table.all.removed` is the complement of the selection. -/
theorem C14_removed_partial {t : Table} (h : Reachable t) {index : List Int} (hi : t.index = .ok index)
    (hn : index.Nodup) (buf : List Bool) (hb : buf.length = t.size) :
    ∃ out, t.removed buf = .ok out ∧ out.length = t.size ∧
      ∀ p : Nat, p < t.size → (out[p]? = some false ↔ (p : Int) ∈ index) ∧
        (out[p]? = some true ↔ (p : Int) ∉ index) := by
  obtain ⟨out, h1, h2, h3, h4⟩ := C02_unpack_partial h hi hn buf hb true [false] (Or.inl rfl)
  refine ⟨out, h1, h2, ?_⟩
  intro p hp
  by_cases hm : (p : Int) ∈ index
  · obtain ⟨k, hk⟩ := List.getElem?_of_mem hm
    have := h3 k _ hk
    simp only [Int.toNat_natCast, packedValue] at this
    simp [this, hm]
  · have := h4 p hp hm
    simp [this, hm]

/-- C14 is violated by the empty table `PackedTable(5)[0:0][0:]`: its last component is
reported as not removed. -/
theorem C14_violation_empty_table :
    ∃ t, t5.getitems [.slice ⟨some 0, some 0, none⟩, .slice ⟨some 0, none, none⟩] = .ok t ∧
      t.index = .ok [] ∧ t.removed [false, false, false, false, false] = .ok [true, true, true, true, false] :=
  ⟨⟨[5], 1, .slice (-1) (-1) 1⟩, by decide, by decide, by decide⟩

example : t23.removed [true, true, true, true, true, true] = .ok [false, true, true, true, false, false] := by decide

/-! ### C17 row and column -/

/-- layouts.py 293-294, scenes.py 174-175: `index % shape[1] + startswith1` (Python's modulo). -/
def column (ncolumns : Nat) (startswith1 : Bool) (i : Int) : Int :=
  Int.fmod i ncolumns + (if startswith1 then 1 else 0)

/-- layouts.py 296-297, scenes.py 177-178: `index // shape[1] + startswith1` (Python's floor division). -/
def row (ncolumns : Nat) (startswith1 : Bool) (i : Int) : Int :=
  Int.fdiv i ncolumns + (if startswith1 then 1 else 0)

/-- C17: the row and column numbers identify the component. -/
theorem C17_row_column {t : Table} (h : Reachable t) {nrows ncolumns : Nat}
    (hs : t.dims = [nrows, ncolumns]) {index : List Int} (hi : t.index = .ok index) (s : Bool) :
    (∀ i ∈ index, let c := column ncolumns s i - (if s then 1 else 0)
       let r := row ncolumns s i - (if s then 1 else 0)
       i = r * ncolumns + c ∧ 0 ≤ c ∧ c < ncolumns ∧ 0 ≤ r ∧ r < nrows) ∧
    (∀ i ∈ index, ∀ j ∈ index, row ncolumns s i = row ncolumns s j →
      column ncolumns s i = column ncolumns s j → i = j) := by
  have hb := h.wf.bounds
  have hidx := index_of_wf h.wf
  rw [hi] at hidx; injection hidx with hidx
  rw [← hidx] at hb
  have hsize : t.size = nrows * ncolumns := by simp [Table.size, hs]
  have hpos : ∀ i ∈ index, 0 < ncolumns := by
    intro i him
    have := hb i him
    rcases Nat.eq_zero_or_pos ncolumns with h0 | h0
    · subst h0; simp at hsize; omega
    · exact h0
  have hdiv : ∀ i, ncolumns * Int.fdiv i ncolumns + Int.fmod i ncolumns = i :=
    fun i => Int.mul_fdiv_add_fmod i ncolumns
  constructor
  · intro i him
    have hi' := hb i him
    have hp := hpos i him
    have e1 : column ncolumns s i - (if s then 1 else 0) = Int.fmod i ncolumns := by unfold column; omega
    have e2 : row ncolumns s i - (if s then 1 else 0) = Int.fdiv i ncolumns := by unfold row; omega
    simp only [e1, e2]
    have h1 := hdiv i
    rw [Int.mul_comm] at h1
    have h2 := Int.fmod_nonneg_of_pos i (show (0 : Int) < ncolumns by omega)
    have h3 := Int.fmod_lt_of_pos i (show (0 : Int) < ncolumns by omega)
    have h4 : 0 ≤ Int.fdiv i ncolumns := Int.fdiv_nonneg (by omega) (by omega)
    refine ⟨h1.symm, h2, h3, h4, ?_⟩
    have h5 : Int.fdiv i ncolumns * ncolumns < nrows * ncolumns := by
      rw [← Int.natCast_mul, ← hsize]; omega
    exact Int.lt_of_mul_lt_mul_right h5 (by omega)
  · intro i _ j _ hr hc
    have h1 := hdiv i
    have h2 := hdiv j
    have e1 : Int.fdiv i ncolumns = Int.fdiv j ncolumns := by unfold row at hr; omega
    have e2 : Int.fmod i ncolumns = Int.fmod j ncolumns := by unfold column at hc; omega
    rw [e1, e2] at h1
    omega

example : t23.dims = [2, 3] ∧ ([5, 0, 4].map (row 3 true) = [2, 1, 2]) ∧
    [5, 0, 4].map (column 3 true) = [3, 1, 2] := by decide

end Verif.PackedTable
