/-
The functions `histogram` and `where` of /repo/src/flib/module_sort.f90 676-827.
-/
import Verif.Sort.Reorder

namespace Verif.Sort
open Verif.Py

/-! ### The model -/

/-- The loop of `histogram` (module_sort.f90 686-689, 706-709): the element and whether it is masked. -/
def histLoop (nbins : Nat) : List (Int × Bool) → (Int → Int) → Res (Int → Int)
  | [], h => .ok h
  | (a, m) :: l, h =>
    if a = huge ∨ m then histLoop nbins l h
    else if 1 ≤ a ∧ a ≤ nbins then histLoop nbins l fun b => if b = a then h a + 1 else h b
    else .error .outOfBounds

/-- `histogram_nomask_int` (module_sort.f90 676-691). -/
def histogramNomask (array : List Int) (nbins : Nat) : Res (List Int) := (histLoop nbins (array.map fun a => (a, false)) fun _ => 0).map (listOf nbins)

/-- `histogram_mask_int` (module_sort.f90 697-711); MASK has the size of the array. -/
def histogramMask (array : List Int) (mask : List Bool) (nbins : Nat) : Res (List Int) := (histLoop nbins (array.zip mask) fun _ => 0).map (listOf nbins)

/-- `where_1d_1d` (module_sort.f90 717-737): the indices; the array INDICES_ has room for all of them. -/
def where1d (array : List Bool) : List Nat :=
  (List.range' 1 array.length).foldl (fun out i => if array.getD (i - 1) false then out ++ [i] else out) []

/-- `where_2d_2d` (module_sort.f90 762-788): the two lists of indices, seen as a list of pairs.  `array i j` is the element (i, j) of the array, from 1. -/
def where2d (n1 n2 : Nat) (array : Nat → Nat → Bool) : List (Nat × Nat) :=
  (List.range' 1 n2).foldl (fun out j => (List.range' 1 n1).foldl (fun out i => if array i j then out ++ [(i, j)] else out) out) []

/-- `where_3d_3d` (module_sort.f90 794-827). -/
def where3d (n1 n2 n3 : Nat) (array : Nat → Nat → Nat → Bool) : List (Nat × Nat × Nat) :=
  (List.range' 1 n3).foldl (fun out k => (List.range' 1 n2).foldl (fun out j => (List.range' 1 n1).foldl (fun out i =>
    if array i j k then out ++ [(i, j, k)] else out) out) out) []

/-- `where_2d_1d` (module_sort.f90 743-756): the elements are those of the array reshaped to one dimension, the first index varies first.  The number of elements is
stored in the optional argument N without a test of its presence: the store fails if it is absent. -/
def where2d1d (n1 n2 : Nat) (array : Nat → Nat → Bool) (present : Bool) : Res (List Nat × Nat) :=
  let indices := (List.range' 1 (n1 * n2)).filter fun m => array ((m - 1) % n1 + 1) ((m - 1) / n1 + 1)
  if present then .ok (indices, indices.length) else .error .outOfBounds

/-! ### The properties -/

theorem histLoop_spec {nbins : Nat} : ∀ (l : List (Int × Bool)) (h : Int → Int),
    ((∀ e ∈ l, e.2 = false → e.1 ≠ huge → 1 ≤ e.1 ∧ e.1 ≤ nbins) →
      ∃ h', histLoop nbins l h = .ok h' ∧ ∀ b, b ≠ huge → h' b = h b + l.countP (fun e => e.1 = b ∧ e.2 = false)) ∧
    ((∃ e ∈ l, e.2 = false ∧ e.1 ≠ huge ∧ ¬(1 ≤ e.1 ∧ e.1 ≤ nbins)) → histLoop nbins l h = .error .outOfBounds) := by
  intro l
  induction l with
  | nil =>
    intro h
    exact ⟨fun _ => ⟨h, rfl, by simp⟩, by simp⟩
  | cons e l ih =>
    obtain ⟨a, m⟩ := e
    intro h
    constructor
    · intro hv
      have hv' : ∀ e ∈ l, e.2 = false → e.1 ≠ huge → 1 ≤ e.1 ∧ e.1 ≤ nbins := fun e he => hv e (by simp [he])
      by_cases hs : a = huge ∨ m = true
      · obtain ⟨h', e1, e2⟩ := (ih h).1 hv'
        refine ⟨h', by rw [histLoop, if_pos hs]; exact e1, fun b hb => ?_⟩
        rw [e2 b hb, List.countP_cons_of_neg]
        rcases hs with rfl | hs
        · simp [hb.symm]
        · simp [hs]
      · have hb0 := hv (a, m) (by simp) (by simpa using (not_or.1 hs).2) (not_or.1 hs).1
        obtain ⟨h', e1, e2⟩ := (ih fun b => if b = a then h a + 1 else h b).1 hv'
        refine ⟨h', by rw [histLoop, if_neg hs, if_pos hb0]; exact e1, fun b hb => ?_⟩
        rw [e2 b hb]
        have hm : m = false := by simpa using (not_or.1 hs).2
        by_cases e : b = a
        · subst e
          rw [List.countP_cons_of_pos (by simp [hm])]
          push_cast
          simp only [if_true]
          ring
        · rw [List.countP_cons_of_neg (by simp [Ne.symm e]), if_neg e]
    · rintro ⟨e, he, h1, h2, h3⟩
      by_cases hs : a = huge ∨ m = true
      · rw [histLoop, if_pos hs]
        apply (ih h).2
        rcases List.mem_cons.1 he with rfl | he
        · rcases hs with hs | hs
          · exact absurd hs h2
          · simp only at h1; rw [hs] at h1; simp at h1
        · exact ⟨e, he, h1, h2, h3⟩
      · by_cases hb : 1 ≤ a ∧ a ≤ (nbins : Int)
        · rw [histLoop, if_neg hs, if_pos hb]
          apply (ih _).2
          rcases List.mem_cons.1 he with rfl | he
          · exact absurd hb h3
          · exact ⟨e, he, h1, h2, h3⟩
        · rw [histLoop, if_neg hs, if_neg hb]

/-- C122: the histogram counts the elements equal to the number of each bin, except those that are masked; it fails if an element that is neither masked nor
the largest integer is not the number of a bin. -/
theorem C122_histogram (array : List Int) (mask : List Bool) (hm : mask.length = array.length) {nbins : Nat} (hn : (nbins : Int) < huge) :
    ((∀ (i : Nat) a, array[i]? = some a → mask[i]? = some false → a ≠ huge → 1 ≤ a ∧ a ≤ nbins) →
      ∃ h, histogramMask array mask nbins = .ok h ∧ h.length = nbins ∧
        ∀ b : Nat, b < nbins → h[b]? = some (((Finset.range array.length).filter fun i => array[i]? = some ((b : Int) + 1) ∧ mask[i]? = some false).card : Int)) ∧
    ((∃ (i : Nat) (a : Int), array[i]? = some a ∧ mask[i]? = some false ∧ a ≠ huge ∧ ¬(1 ≤ a ∧ a ≤ nbins)) → histogramMask array mask nbins = .error .outOfBounds) := by
  have hzip : ∀ e, e ∈ array.zip mask ↔ ∃ i : Nat, array[i]? = some e.1 ∧ mask[i]? = some e.2 := by
    intro e
    rw [List.mem_iff_getElem?]
    constructor
    · rintro ⟨i, hi⟩
      exact ⟨i, List.getElem?_zip_eq_some.1 hi⟩
    · rintro ⟨i, hi⟩
      exact ⟨i, List.getElem?_zip_eq_some.2 hi⟩
  have hcount : ∀ (array : List Int) (mask : List Bool) (b : Int), mask.length = array.length → (array.zip mask).countP (fun e => e.1 = b ∧ e.2 = false) =
      ((Finset.range array.length).filter fun i => array[i]? = some b ∧ mask[i]? = some false).card := by
    intro array
    induction array with
    | nil => intro mask b _; simp
    | cons a l ih =>
      intro mask b h
      rcases mask with _ | ⟨m, mask⟩
      · simp at h
      · simp only [List.length_cons, Nat.add_right_cancel_iff] at h
        rw [List.zip_cons_cons, List.countP_cons, ih mask b h, List.length_cons, Finset.range_add_one', Finset.filter_insert]
        have hshift : ((Finset.map ⟨fun i => i + 1, fun i j => by simp⟩ (Finset.range l.length)).filter fun i => (a :: l)[i]? = some b ∧ (m :: mask)[i]? = some false).card =
            ((Finset.range l.length).filter fun i => l[i]? = some b ∧ mask[i]? = some false).card := by
          rw [Finset.filter_map, Finset.card_map]
          congr 1
        have h0 : (0 : Nat) ∉ (Finset.map ⟨fun i => i + 1, fun i j => by simp⟩ (Finset.range l.length)).filter fun i => (a :: l)[i]? = some b ∧ (m :: mask)[i]? = some false := by
          simp
        by_cases hc : a = b ∧ m = false
        · rw [if_pos (by simpa using hc), if_pos (by simpa using hc), Finset.card_insert_of_notMem h0, hshift]
        · rw [if_neg (by simpa using hc), if_neg (by simpa using hc), hshift, Nat.add_zero]
  constructor
  · intro hv
    obtain ⟨h', e1, e2⟩ := (histLoop_spec (nbins := nbins) (array.zip mask) fun _ => 0).1 (by
      intro e he h1 h2
      obtain ⟨i, hi1, hi2⟩ := (hzip e).1 he
      exact hv i e.1 hi1 (h1 ▸ hi2) h2)
    refine ⟨listOf nbins h', by rw [histogramMask, e1]; rfl, by simp [listOf], fun b hb => ?_⟩
    have : (listOf nbins h')[b]? = some (h' ((b : Int) + 1)) := by simp [listOf, hb]
    rw [this, e2 _ (by omega), hcount array mask _ hm, zero_add]
  · rintro ⟨i, a, h1, h2, h3, h4⟩
    rw [histogramMask, (histLoop_spec (nbins := nbins) (array.zip mask) fun _ => 0).2 ⟨(a, false), (hzip _).2 ⟨i, h1, h2⟩, rfl, h3, h4⟩]
    rfl

/-- C122: without a mask, the histogram is that of the array of which nothing is masked. -/
theorem C122_histogram_nomask (array : List Int) (nbins : Nat) : histogramNomask array nbins = histogramMask array (List.replicate array.length false) nbins := by
  have : array.map (fun a => (a, false)) = array.zip (List.replicate array.length false) := by
    induction array with
    | nil => rfl
    | cons a l ih => rw [List.map_cons, ih, List.length_cons, List.replicate_succ, List.zip_cons_cons]
  rw [histogramNomask, histogramMask, this]

/-- C122: the histogram of the index of `reorder` counts the elements of the array that have each value of the table. -/
theorem C122_reorder {F : Type} [Field F] [LinearOrder F] [IsStrictOrderedRing F] {values : List (Option F)} {index : List Int} {table : List F}
    (h : Reordered 0 values index table) (hn : (values.length : Int) < huge) :
    ∃ hist, histogramNomask index table.length = .ok hist ∧ hist.length = table.length ∧
      ∀ (r : Nat) (t : F), table[r]? = some t → hist[r]? = some (((Finset.range values.length).filter fun i => values[i]? = some (some t)).card : Int) := by
  have hcases : ∀ (i : Nat), i < values.length → values[i]? = some none ∨ ∃ v, values[i]? = some (some v) := by
    intro i hi
    rw [List.getElem?_eq_getElem hi]
    rcases values[i] with _ | v
    · exact Or.inl rfl
    · exact Or.inr ⟨v, rfl⟩
  have htl : table.length ≤ values.length := by
    have hnd : (table.map some).Nodup := (h.increasing.imp fun hh => ne_of_lt hh).map _ fun a b hh => by simpa using hh
    have := (hnd.subperm fun x hx => by
      obtain ⟨t, ht, rfl⟩ := List.mem_map.1 hx
      exact h.member t ht).length_le
    simpa using this
  have hex := C121_exact h
  obtain ⟨hist, e1, e2, e3⟩ := (C122_histogram index (List.replicate index.length false) (by simp) (nbins := table.length) (by omega)).1 (by
    intro i a hi _ ha
    have hlt : i < values.length := by rw [← h.length]; exact (List.getElem?_eq_some_iff.1 hi).1
    rcases hcases i hlt with hv | ⟨v, hv⟩
    · rw [h.nan i hv] at hi
      exact absurd (Option.some.inj hi).symm ha
    · obtain ⟨r, hr1, hr2⟩ := hex.1 i v hv
      rw [hr1] at hi
      have : r < table.length := (List.getElem?_eq_some_iff.1 hr2).1
      have := Option.some.inj hi
      omega)
  refine ⟨hist, by rw [C122_histogram_nomask]; exact e1, e2, fun r t ht => ?_⟩
  have hr : r < table.length := (List.getElem?_eq_some_iff.1 ht).1
  rw [e3 r hr, h.length]
  congr 3
  apply Finset.filter_congr
  intro i hi
  rw [Finset.mem_range] at hi
  have hlt : i < index.length := by rw [h.length]; exact hi
  constructor
  · rintro ⟨h1, -⟩
    rcases hcases i hi with hv | ⟨v, hv⟩
    · rw [h.nan i hv] at h1
      have := Option.some.inj h1
      omega
    · obtain ⟨r', hr1, hr2⟩ := hex.1 i v hv
      rw [h1] at hr1
      have : r = r' := by have := Option.some.inj hr1; omega
      subst this
      rw [hv, ← hr2, ht]
  · intro hv
    obtain ⟨r', hr1, hr2⟩ := hex.1 i t hv
    refine ⟨?_, by rw [List.getElem?_replicate, if_pos hi]⟩
    have hr' : r' < table.length := (List.getElem?_eq_some_iff.1 hr2).1
    have : r' = r := by
      have hnd : table.Nodup := h.increasing.imp fun hh => ne_of_lt hh
      rw [List.getElem?_eq_getElem hr'] at hr2
      rw [List.getElem?_eq_getElem hr] at ht
      exact (List.Nodup.getElem_inj_iff hnd).1 (Option.some.inj (hr2.trans ht.symm))
    rw [hr1, this]

theorem foldl_if {β γ : Type} (l : List β) (f : β → γ) (p : β → Bool) (out : List γ) :
    l.foldl (fun out i => if p i then out ++ [f i] else out) out = out ++ (l.filter p).map f := by
  induction l generalizing out with
  | nil => simp
  | cons a l ih =>
    rw [List.foldl_cons, ih]
    by_cases h : p a <;> simp [h]

theorem foldl_append {β γ : Type} (l : List β) (f : β → List γ) (out : List γ) : l.foldl (fun out i => out ++ f i) out = out ++ l.flatMap f := by
  induction l generalizing out with
  | nil => simp
  | cons a l ih => rw [List.foldl_cons, ih]; simp

/-- C122: the indices of the true elements of an array, in order. -/
theorem C122_where_1d (array : List Bool) : (where1d array).Pairwise (· < ·) ∧ ∀ i, i ∈ where1d array ↔ 1 ≤ i ∧ array[i - 1]? = some true := by
  have h : where1d array = (List.range' 1 array.length).filter fun i => array.getD (i - 1) false := by
    rw [where1d, foldl_if (f := fun i => i)]
    simp
  rw [h]
  refine ⟨List.Pairwise.sublist List.filter_sublist (List.pairwise_lt_range' (s := 1) (n := array.length)), fun i => ?_⟩
  rw [List.mem_filter, List.mem_range'_1]
  constructor
  · rintro ⟨⟨h1, h2⟩, h3⟩
    have h4 : i - 1 < array.length := by omega
    refine ⟨h1, ?_⟩
    rw [List.getD, List.getElem?_eq_getElem h4] at h3
    rw [List.getElem?_eq_getElem h4]
    exact congrArg some h3
  · rintro ⟨h1, h2⟩
    have h4 : i - 1 < array.length := (List.getElem?_eq_some_iff.1 h2).1
    exact ⟨⟨h1, by omega⟩, by rw [List.getD, h2]; rfl⟩

theorem where2d_eq (n1 n2 : Nat) (array : Nat → Nat → Bool) :
    where2d n1 n2 array = (List.range' 1 n2).flatMap fun j => ((List.range' 1 n1).filter fun i => array i j).map fun i => (i, j) := by
  rw [where2d]
  simp only [foldl_if]
  rw [foldl_append]
  simp

/-- C122: the pairs of indices of the true elements of an array of two dimensions, the first index varies first. -/
theorem C122_where_2d (n1 n2 : Nat) (array : Nat → Nat → Bool) :
    (where2d n1 n2 array).Pairwise (fun a b => a.2 < b.2 ∨ (a.2 = b.2 ∧ a.1 < b.1)) ∧
    ∀ i j, (i, j) ∈ where2d n1 n2 array ↔ (1 ≤ i ∧ i ≤ n1) ∧ (1 ≤ j ∧ j ≤ n2) ∧ array i j = true := by
  rw [where2d_eq]
  constructor
  · rw [List.pairwise_flatMap]
    constructor
    · intro j _
      rw [List.pairwise_map]
      exact (List.Pairwise.sublist List.filter_sublist (List.pairwise_lt_range' (s := 1) (n := n1))).imp fun h => Or.inr ⟨rfl, h⟩
    · refine (List.pairwise_lt_range' (s := 1) (n := n2)).imp ?_
      intro j j' hj a ha b hb
      obtain ⟨i, -, rfl⟩ := List.mem_map.1 ha
      obtain ⟨i', -, rfl⟩ := List.mem_map.1 hb
      exact Or.inl hj
  · intro i j
    simp only [List.mem_flatMap, List.mem_map, List.mem_filter, List.mem_range'_1, Prod.mk.injEq]
    constructor
    · rintro ⟨j', ⟨h1, h2⟩, i', ⟨⟨h3, h4⟩, h5⟩, rfl, rfl⟩
      exact ⟨⟨h3, by omega⟩, ⟨h1, by omega⟩, h5⟩
    · rintro ⟨⟨h3, h4⟩, ⟨h1, h2⟩, h5⟩
      exact ⟨j, ⟨h1, by omega⟩, i, ⟨⟨h3, by omega⟩, h5⟩, rfl, rfl⟩

/-- C122: the same for three dimensions. -/
theorem C122_where_3d (n1 n2 n3 : Nat) (array : Nat → Nat → Nat → Bool) :
    (where3d n1 n2 n3 array).Pairwise (fun a b => a.2.2 < b.2.2 ∨ (a.2.2 = b.2.2 ∧ (a.2.1 < b.2.1 ∨ (a.2.1 = b.2.1 ∧ a.1 < b.1)))) ∧
    ∀ i j k, (i, j, k) ∈ where3d n1 n2 n3 array ↔ (1 ≤ i ∧ i ≤ n1) ∧ (1 ≤ j ∧ j ≤ n2) ∧ (1 ≤ k ∧ k ≤ n3) ∧ array i j k = true := by
  have he : where3d n1 n2 n3 array = (List.range' 1 n3).flatMap fun k => (List.range' 1 n2).flatMap fun j =>
      ((List.range' 1 n1).filter fun i => array i j k).map fun i => (i, j, k) := by
    rw [where3d]
    simp only [foldl_if]
    simp only [foldl_append]
    simp
  rw [he]
  constructor
  · rw [List.pairwise_flatMap]
    constructor
    · intro k _
      rw [List.pairwise_flatMap]
      constructor
      · intro j _
        rw [List.pairwise_map]
        exact (List.Pairwise.sublist List.filter_sublist (List.pairwise_lt_range' (s := 1) (n := n1))).imp fun h => Or.inr ⟨rfl, Or.inr ⟨rfl, h⟩⟩
      · refine (List.pairwise_lt_range' (s := 1) (n := n2)).imp ?_
        intro j j' hj a ha b hb
        obtain ⟨i, -, rfl⟩ := List.mem_map.1 ha
        obtain ⟨i', -, rfl⟩ := List.mem_map.1 hb
        exact Or.inr ⟨rfl, Or.inl hj⟩
    · refine (List.pairwise_lt_range' (s := 1) (n := n3)).imp ?_
      intro k k' hk a ha b hb
      simp only [List.mem_flatMap, List.mem_map] at ha hb
      obtain ⟨j, -, i, -, rfl⟩ := ha
      obtain ⟨j', -, i', -, rfl⟩ := hb
      exact Or.inl hk
  · intro i j k
    simp only [List.mem_flatMap, List.mem_map, List.mem_filter, List.mem_range'_1, Prod.mk.injEq]
    constructor
    · rintro ⟨k', ⟨h6, h7⟩, j', ⟨h1, h2⟩, i', ⟨⟨h3, h4⟩, h5⟩, rfl, rfl, rfl⟩
      exact ⟨⟨h3, by omega⟩, ⟨h1, by omega⟩, ⟨h6, by omega⟩, h5⟩
    · rintro ⟨⟨h3, h4⟩, ⟨h1, h2⟩, ⟨h6, h7⟩, h5⟩
      exact ⟨k, ⟨h6, by omega⟩, j, ⟨h1, by omega⟩, i, ⟨⟨h3, by omega⟩, h5⟩, rfl, rfl, rfl⟩

/-- C122: the indices of the array of two dimensions seen in one dimension are those of the pairs, if the number of elements is asked for. -/
theorem C122_where_2d_1d_partial (n1 n2 : Nat) (array : Nat → Nat → Bool) :
    where2d1d n1 n2 array true = .ok ((where2d n1 n2 array).map fun a => a.1 + (a.2 - 1) * n1, (where2d n1 n2 array).length) := by
  obtain ⟨h1, h2⟩ := C122_where_2d n1 n2 array
  have hin : ∀ a ∈ where2d n1 n2 array, (1 ≤ a.1 ∧ a.1 ≤ n1) ∧ (1 ≤ a.2 ∧ a.2 ≤ n2) ∧ array a.1 a.2 = true := fun a ha => (h2 a.1 a.2).1 ha
  have hpw : ((where2d n1 n2 array).map fun a => a.1 + (a.2 - 1) * n1).Pairwise (· < ·) := by
    rw [List.pairwise_map]
    refine h1.imp_of_mem ?_
    intro a b ha hb hab
    obtain ⟨⟨ha1, ha2⟩, ⟨ha3, ha4⟩, -⟩ := hin a ha
    obtain ⟨⟨hb1, hb2⟩, ⟨hb3, hb4⟩, -⟩ := hin b hb
    rcases hab with h | ⟨h, h'⟩
    · have : a.2 - 1 + 1 ≤ b.2 - 1 := by omega
      have := Nat.mul_le_mul_right n1 this
      rw [Nat.add_mul, Nat.one_mul] at this
      omega
    · rw [h]; omega
  have hpw2 : ((List.range' 1 (n1 * n2)).filter fun m => array ((m - 1) % n1 + 1) ((m - 1) / n1 + 1)).Pairwise (· < ·) :=
    List.Pairwise.sublist List.filter_sublist (List.pairwise_lt_range' (s := 1) (n := n1 * n2))
  have heq : ((List.range' 1 (n1 * n2)).filter fun m => array ((m - 1) % n1 + 1) ((m - 1) / n1 + 1)) =
      (where2d n1 n2 array).map fun a => a.1 + (a.2 - 1) * n1 := by
    refine List.Perm.eq_of_pairwise (le := (· < ·)) (fun a b _ _ h h' => absurd h (not_lt.2 h'.le)) hpw2 hpw ?_
    refine (List.perm_ext_iff_of_nodup (hpw2.imp fun h => ne_of_lt h) (hpw.imp fun h => ne_of_lt h)).2 fun m => ?_
    rw [List.mem_filter, List.mem_range'_1, List.mem_map]
    constructor
    · rintro ⟨⟨h3, h4⟩, h5⟩
      have hn1 : 0 < n1 := by
        rcases Nat.eq_zero_or_pos n1 with e | e
        · subst e; simp at h4; omega
        · exact e
      refine ⟨((m - 1) % n1 + 1, (m - 1) / n1 + 1), (h2 _ _).2 ⟨⟨Nat.le_add_left _ _, ?_⟩, ⟨Nat.le_add_left _ _, ?_⟩, h5⟩, ?_⟩
      · have := Nat.mod_lt (m - 1) hn1; omega
      · have : (m - 1) / n1 < n2 := Nat.div_lt_of_lt_mul (by omega)
        omega
      · have := Nat.mod_add_div (m - 1) n1
        simp only [Nat.add_sub_cancel]
        rw [Nat.mul_comm] at this
        omega
    · rintro ⟨a, ha, rfl⟩
      obtain ⟨⟨ha1, ha2⟩, ⟨ha3, ha4⟩, h5⟩ := hin a ha
      have e : a.1 + (a.2 - 1) * n1 - 1 = (a.1 - 1) + n1 * (a.2 - 1) := by rw [Nat.mul_comm]; omega
      have hn1 : 0 < n1 := by omega
      have hlt : a.1 - 1 < n1 := by omega
      have hmul : (a.2 - 1 + 1) * n1 ≤ n2 * n1 := Nat.mul_le_mul_right n1 (by omega)
      rw [Nat.add_mul, Nat.one_mul, Nat.mul_comm n2] at hmul
      refine ⟨⟨by omega, by omega⟩, ?_⟩
      rw [e, Nat.add_mul_mod_self_left, Nat.mod_eq_of_lt hlt, Nat.add_mul_div_left _ _ hn1, Nat.div_eq_of_lt hlt, Nat.zero_add,
        Nat.sub_add_cancel ha1, Nat.sub_add_cancel ha3]
      exact h5
  rw [where2d1d, if_pos rfl, heq, List.length_map]

/-- C122 is false for the array of two dimensions seen in one dimension, when the number of elements is not asked for: it is stored in an absent argument. -/
theorem C122_violation_where (n1 n2 : Nat) (array : Nat → Nat → Bool) : where2d1d n1 n2 array false = .error .outOfBounds := rfl

example : histogramMask [2, 1, huge, 2, 3] [false, false, false, true, false] 3 = .ok [1, 1, 1] := by decide +kernel
example : histogramNomask [0] 3 = .error .outOfBounds := by decide +kernel
example : where1d [true, false, true] = [1, 3] := by decide
example : where2d 2 2 (fun i j => i = 2 ∨ j = 2) = [(2, 1), (1, 2), (2, 2)] := by decide +kernel
example : where2d1d 2 2 (fun i j => i = 2 ∨ j = 2) true = .ok ([2, 3, 4], 3) := by decide +kernel
example : where3d 1 2 2 (fun _ j k => j = k) = [(1, 1, 1), (1, 2, 2)] := by decide +kernel

end Verif.Sort
