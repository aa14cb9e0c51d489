import Verif.Pointing.Props2
import Mathlib.Algebra.Field.Rat
import Mathlib.Algebra.Field.Basic
import Mathlib.Tactic

/-! The projection of a frame on a map of the pixels that it covers: module_pointingmatrix.f90 542-594. -/
namespace Verif.Pointing
set_option linter.unusedSectionVars false
open Verif.Py Verif.Sparse Finset

variable {R : Type} [Field R] [DecidableEq R]

/-! ### The model -/

/-- MINVAL and MAXVAL of 32-bit integers (module_pointingmatrix.f90 561-564): those of an empty array are the largest and the smallest integer. -/
def minval (l : List Int) : Int := l.foldl min (2 ^ 31 - 1)

def maxval (l : List Int) : Int := l.foldl max (-2 ^ 31)

/-- The array ROI. -/
structure Box where
  xmin : Int
  xmax : Int
  ymin : Int
  ymax : Int
deriving DecidableEq

/-- The indices of the elements that are not missing. -/
def present (rows : List (List (Elem R))) : List Int := (rows.flatten.map (·.index)).filter (· ≠ -1)

/-- module_pointingmatrix.f90 561-564. -/
def boxOf (nx : Int) (rows : List (List (Elem R))) : Box :=
  ⟨minval ((present rows).map fun i => i.fmod nx), maxval ((present rows).map fun i => i.fmod nx), minval ((present rows).map fun i => i.tdiv nx),
    maxval ((present rows).map fun i => i.tdiv nx)⟩

/-- module_pointingmatrix.f90 575-585: the loop over the elements of a detector. -/
def roiRow (nx : Int) (b : Box) (x : R) : List (Elem R) → List R × List R → Res (List R × List R)
  | [], mw => .ok mw
  | e :: es, (m, w) =>
    if e.index = -1 then .ok (m, w)
    else
      let xmap := e.index.tmod nx - b.xmin
      let ymap := e.index.tdiv nx - b.ymin
      let imap := xmap + ymap * (b.xmax - b.xmin + 1)
      (addI m imap (x * e.value)).bind fun m => (addI w imap e.value).bind fun w => roiRow nx b x es (m, w)

/-- module_pointingmatrix.f90 543-594 `backprojection_weighted_roi`: `rows`, `timeline` and `mask` are those of the frame, one row per detector.  The map has
`size` elements, NaN is `none`.  The weights are in the precision of the map (they are in single precision in the code). -/
def backprojectionRoi (nx : Int) (rows : List (List (Elem R))) (timeline : List R) (mask : List Bool) (size : Nat) : Res (Box × List (Option R)) :=
  if nx = 0 then .error .zeroDivisionError
  else
    let b := boxOf nx rows
    ((rows.zip timeline).zipIdx.foldlM (fun mw p => if mask[p.2]? = some true then .ok mw else roiRow nx b p.1.2 p.1.1 mw)
      (List.replicate size (0 : R), List.replicate size (0 : R))).bind fun mw =>
    .ok (b, List.zipWith (fun m w => if w = 0 then none else some (m / w)) mw.1 mw.2)

/-! ### The properties -/

theorem foldl_min (l : List Int) : ∀ a, (∀ x ∈ l, l.foldl min a ≤ x) ∧ l.foldl min a ≤ a ∧ (l.foldl min a = a ∨ l.foldl min a ∈ l) := by
  induction l with
  | nil => intro a; simp
  | cons y l ih =>
    intro a
    obtain ⟨h1, h2, h3⟩ := ih (min a y)
    rw [List.foldl_cons]
    refine ⟨fun x hx => ?_, h2.trans (min_le_left _ _), ?_⟩
    · rcases List.mem_cons.1 hx with rfl | hx
      · exact h2.trans (min_le_right _ _)
      · exact h1 x hx
    · rcases h3 with h3 | h3
      · rw [h3]
        rcases min_choice a y with h | h
        · exact .inl h
        · rw [h]; exact .inr (by simp)
      · exact .inr (List.mem_cons_of_mem _ h3)

theorem foldl_max (l : List Int) : ∀ a, (∀ x ∈ l, x ≤ l.foldl max a) ∧ a ≤ l.foldl max a ∧ (l.foldl max a = a ∨ l.foldl max a ∈ l) := by
  induction l with
  | nil => intro a; simp
  | cons y l ih =>
    intro a
    obtain ⟨h1, h2, h3⟩ := ih (max a y)
    rw [List.foldl_cons]
    refine ⟨fun x hx => ?_, (le_max_left _ _).trans h2, ?_⟩
    · rcases List.mem_cons.1 hx with rfl | hx
      · exact (le_max_right _ _).trans h2
      · exact h1 x hx
    · rcases h3 with h3 | h3
      · rw [h3]
        rcases max_choice a y with h | h
        · exact .inl h
        · rw [h]; exact .inr (by simp)
      · exact .inr (List.mem_cons_of_mem _ h3)

theorem minval_spec {l : List Int} (hl : l ≠ []) (h : ∀ x ∈ l, x < 2 ^ 31) : minval l ∈ l ∧ ∀ x ∈ l, minval l ≤ x := by
  obtain ⟨h1, h2, h3⟩ := foldl_min l (2 ^ 31 - 1)
  refine ⟨?_, h1⟩
  rcases h3 with h3 | h3
  · obtain ⟨x, hx⟩ := List.exists_mem_of_ne_nil l hl
    have h4 := h1 x hx
    have h5 := h x hx
    rw [h3] at h4
    have : x = 2 ^ 31 - 1 := by omega
    unfold minval
    rw [h3, ← this]; exact hx
  · exact h3

theorem maxval_spec {l : List Int} (hl : l ≠ []) (h : ∀ x ∈ l, 0 ≤ x) : maxval l ∈ l ∧ ∀ x ∈ l, x ≤ maxval l := by
  obtain ⟨h1, h2, h3⟩ := foldl_max l (-2 ^ 31)
  refine ⟨?_, h1⟩
  rcases h3 with h3 | h3
  · obtain ⟨x, hx⟩ := List.exists_mem_of_ne_nil l hl
    have h4 := h1 x hx
    have h5 := h x hx
    rw [h3] at h4
    omega
  · exact h3

theorem foldlM_congr_mem {α β : Type} (f g : β → α → Res β) : ∀ (l : List α), (∀ a ∈ l, ∀ b, f b a = g b a) → ∀ b, l.foldlM f b = l.foldlM g b
  | [], _, _ => rfl
  | a :: l, h, b => by
    rw [List.foldlM_cons, List.foldlM_cons, h a (by simp) b]
    congr 1
    funext b'
    exact foldlM_congr_mem f g l (fun a ha => h a (by simp [ha])) b'

/-- The position of a pixel in the map. -/
def place (nx : Int) (b : Box) (i : Int) : Int := (i % nx - b.xmin) + (i / nx - b.ymin) * (b.xmax - b.xmin + 1)

/-- The element with the position of its pixel. -/
def relabel (nx : Int) (b : Box) (e : Elem R) : Elem R := ⟨if e.index = -1 then -1 else place nx b e.index, e.value⟩

theorem place_bounds {nx : Int} {b : Box} {i : Int} (h1 : b.xmin ≤ i % nx) (h2 : i % nx ≤ b.xmax) (h3 : b.ymin ≤ i / nx) (h4 : i / nx ≤ b.ymax) :
    0 ≤ place nx b i ∧ place nx b i < (b.xmax - b.xmin + 1) * (b.ymax - b.ymin + 1) := by
  unfold place
  constructor
  · have : 0 ≤ (i / nx - b.ymin) * (b.xmax - b.xmin + 1) := mul_nonneg (by omega) (by omega)
    omega
  · have : (i / nx - b.ymin) * (b.xmax - b.xmin + 1) ≤ (b.ymax - b.ymin) * (b.xmax - b.xmin + 1) := mul_le_mul_of_nonneg_right (by omega) (by omega)
    nlinarith

theorem place_inj {nx : Int} {b : Box} {i j : Int} (h1 : b.xmin ≤ i % nx) (h2 : i % nx ≤ b.xmax) (h3 : b.xmin ≤ j % nx) (h4 : j % nx ≤ b.xmax)
    (h : place nx b i = place nx b j) : i = j := by
  unfold place at h
  have hy : i / nx = j / nx := by
    by_contra hne
    rcases lt_or_gt_of_ne hne with hlt | hlt
    · have : (i / nx - b.ymin + 1) * (b.xmax - b.xmin + 1) ≤ (j / nx - b.ymin) * (b.xmax - b.xmin + 1) := mul_le_mul_of_nonneg_right (by omega) (by omega)
      nlinarith
    · have : (j / nx - b.ymin + 1) * (b.xmax - b.xmin + 1) ≤ (i / nx - b.ymin) * (b.xmax - b.xmin + 1) := mul_le_mul_of_nonneg_right (by omega) (by omega)
      nlinarith
  rw [hy] at h
  have hx : i % nx = j % nx := by omega
  rw [← Int.mul_ediv_add_emod i nx, ← Int.mul_ediv_add_emod j nx, hx, hy]

theorem roiRow_eq {nx : Int} (hnx : 0 < nx) (b : Box) (x : R) : ∀ (row : List (Elem R)) (mw : List R × List R),
    (∀ e ∈ row, e.index = -1 ∨ (0 ≤ e.index ∧ 0 ≤ place nx b e.index)) → roiRow nx b x row mw = backRow x (row.map (relabel nx b)) mw
  | [], mw, _ => by cases mw; rfl
  | e :: es, (m, w), h => by
    rw [List.map_cons, roiRow, backRow]
    by_cases hi : e.index = -1
    · rw [if_pos hi, if_pos (by rw [relabel]; exact if_pos hi)]
    · obtain ⟨h0, h1⟩ := (h e (by simp)).resolve_left hi
      have hp : (relabel nx b e).index = place nx b e.index := if_neg hi
      rw [if_neg hi, if_neg (by rw [hp]; omega), hp]
      dsimp only
      rw [Int.tmod_eq_emod_of_nonneg h0, Int.tdiv_eq_ediv_of_nonneg h0, mul_comm x e.value]
      have : (e.index % nx - b.xmin + (e.index / nx - b.ymin) * (b.xmax - b.xmin + 1)) = place nx b e.index := rfl
      rw [this]
      congr 1
      funext m'
      congr 1
      funext w'
      exact roiRow_eq hnx b x es (m', w') fun e he => h e (by simp [he])

theorem entry_relabel {nx : Int} {b : Box} {k : Nat} (hk : b.xmin ≤ (k : Int) % nx ∧ (k : Int) % nx ≤ b.xmax) (hp : 0 ≤ place nx b k) : ∀ (row : List (Elem R)),
    (∀ e ∈ row, e.index = -1 ∨ (b.xmin ≤ e.index % nx ∧ e.index % nx ≤ b.xmax ∧ 0 ≤ place nx b e.index)) →
    entry (row.map (relabel nx b)) (place nx b k).toNat = entry row k
  | [], _ => rfl
  | e :: es, h => by
    rw [List.map_cons, entry_cons, entry_cons]
    by_cases hi : e.index = -1
    · rw [if_pos hi, if_pos (by rw [relabel]; exact if_pos hi)]
    · obtain ⟨h1, h2, h3⟩ := (h e (by simp)).resolve_left hi
      have hpl : (relabel nx b e).index = place nx b e.index := if_neg hi
      rw [if_neg hi, if_neg (by rw [hpl]; omega), hpl, entry_relabel hk hp es fun e he => h e (by simp [he])]
      congr 1
      rw [Int.toNat_of_nonneg hp]
      by_cases heq : e.index = k
      · rw [if_pos heq, if_pos (by rw [heq])]; rfl
      · rw [if_neg heq, if_neg fun h' => heq (place_inj h1 h2 hk.1 hk.2 h')]

theorem entry_far {n : Nat} {k : Nat} (hk : n ≤ k) : ∀ (row : List (Elem R)), (∀ e ∈ row, e.index = -1 ∨ (0 ≤ e.index ∧ e.index < n)) → entry row k = 0
  | [], _ => rfl
  | e :: es, h => by
    rw [entry_cons]
    by_cases hi : e.index = -1
    · rw [if_pos hi]
    · have := (h e (by simp)).resolve_left hi
      rw [if_neg hi, if_neg (by omega), entry_far hk es fun e he => h e (by simp [he]), zero_add]

/-- The pixels of the elements of a frame: an element with the index -1 is missing. -/
def pixels (rows : List (List (Elem R))) : Set Int := {i | ∃ row ∈ rows, ∃ e ∈ row, e.index = i ∧ i ≠ -1}

/-- C134: a frame is projected on the map of the pixels that it covers.  The region is the smallest one with the pixels of all the elements; a pixel of the region
holds the mean of the samples of the detectors that are not masked, weighted by the elements, or NaN if the sum of the weights is zero; the rest of the map is NaN. -/
theorem C134_minimap (nx : Int) (hnx : 0 < nx) (rows : List (List (Elem R))) (timeline : List R) (mask : List Bool) (size : Nat)
    (ht : timeline.length = rows.length) (hv : ∀ row ∈ rows, ∀ e ∈ row, e.index = -1 ∨ (0 ≤ e.index ∧ e.index < 2 ^ 31))
    (hsize : ∀ i ∈ pixels rows, ∀ j ∈ pixels rows, ∀ k ∈ pixels rows, ∀ l ∈ pixels rows, (i % nx - j % nx + 1) * (k / nx - l / nx + 1) ≤ size) :
    ∃ b out, backprojectionRoi nx rows timeline mask size = .ok (b, out) ∧ out.length = size ∧
      (∀ i ∈ pixels rows, b.xmin ≤ i % nx ∧ i % nx ≤ b.xmax ∧ b.ymin ≤ i / nx ∧ i / nx ≤ b.ymax) ∧
      ((pixels rows).Nonempty → (∃ i ∈ pixels rows, i % nx = b.xmin) ∧ (∃ i ∈ pixels rows, i % nx = b.xmax) ∧ (∃ i ∈ pixels rows, i / nx = b.ymin) ∧
        ∃ i ∈ pixels rows, i / nx = b.ymax) ∧
      (∀ x y : Nat, (x : Int) < nx → b.xmin ≤ x → x ≤ b.xmax → b.ymin ≤ y → y ≤ b.ymax →
        out[((x - b.xmin) + (y - b.ymin) * (b.xmax - b.xmin + 1)).toNat]? = some
          (if (∑ i ∈ range rows.length, if mask[i]? = some true then 0 else entry (rows.getD i []) (x + y * nx.toNat)) = 0 then none
           else some ((∑ i ∈ range rows.length, if mask[i]? = some true then 0 else entry (rows.getD i []) (x + y * nx.toNat) * timeline.getD i 0) /
             (∑ i ∈ range rows.length, if mask[i]? = some true then 0 else entry (rows.getD i []) (x + y * nx.toNat))))) ∧
      (∀ q : Nat, q < size → (pixels rows = ∅ ∨ (b.xmax - b.xmin + 1) * (b.ymax - b.ymin + 1) ≤ q) → out[q]? = some none) := by
  obtain ⟨b, hb⟩ : ∃ b, b = boxOf nx rows := ⟨_, rfl⟩
  have hmem : ∀ i, i ∈ present rows ↔ i ∈ pixels rows := by
    intro i
    show _ ↔ ∃ row ∈ rows, ∃ e ∈ row, e.index = i ∧ i ≠ -1
    unfold present
    rw [List.mem_filter, List.mem_map]
    constructor
    · rintro ⟨⟨e, he, rfl⟩, hne⟩
      obtain ⟨row, hrow, her⟩ := List.mem_flatten.1 he
      exact ⟨row, hrow, e, her, rfl, by simpa using hne⟩
    · rintro ⟨row, hrow, e, her, rfl, hne⟩
      exact ⟨⟨e, List.mem_flatten.2 ⟨row, hrow, her⟩, rfl⟩, by simpa using hne⟩
  have hpos : ∀ i ∈ present rows, 0 ≤ i ∧ i < 2 ^ 31 := by
    intro i hi
    obtain ⟨row, hrow, e, he, rfl, hne⟩ := (hmem i).1 hi
    exact (hv row hrow e he).resolve_left hne
  have hx : (present rows).map (fun i => i.fmod nx) = (present rows).map fun i => i % nx :=
    List.map_congr_left fun i hi => Int.fmod_eq_emod_of_nonneg i hnx.le
  have hy : (present rows).map (fun i => i.tdiv nx) = (present rows).map fun i => i / nx :=
    List.map_congr_left fun i hi => Int.tdiv_eq_ediv_of_nonneg (hpos i hi).1
  have hbx : b = ⟨minval ((present rows).map fun i => i % nx), maxval ((present rows).map fun i => i % nx), minval ((present rows).map fun i => i / nx), maxval ((present rows).map fun i => i / nx)⟩ := by
    rw [hb, boxOf, hx, hy]
  have hxb : ∀ x ∈ (present rows).map (fun i => i % nx), 0 ≤ x ∧ x < 2 ^ 31 := by
    intro x hx
    obtain ⟨i, hi, rfl⟩ := List.mem_map.1 hx
    have h1 := Int.emod_nonneg i hnx.ne'
    have h2 : i % nx ≤ i := by
      have h4 := Int.mul_ediv_add_emod i nx
      have h5 : 0 ≤ nx * (i / nx) := mul_nonneg hnx.le (Int.ediv_nonneg (hpos i hi).1 hnx.le)
      omega
    have h3 := (hpos i hi).2
    exact ⟨h1, by omega⟩
  have hyb : ∀ x ∈ (present rows).map (fun i => i / nx), 0 ≤ x ∧ x < 2 ^ 31 := by
    intro x hx
    obtain ⟨i, hi, rfl⟩ := List.mem_map.1 hx
    have h1 := Int.ediv_nonneg (hpos i hi).1 hnx.le
    have h2 := Int.ediv_le_self nx (hpos i hi).1
    have h3 := (hpos i hi).2
    exact ⟨h1, by omega⟩
  have hin : ∀ i ∈ present rows, b.xmin ≤ i % nx ∧ i % nx ≤ b.xmax ∧ b.ymin ≤ i / nx ∧ i / nx ≤ b.ymax := by
    intro i hi
    have hne : (present rows) ≠ [] := List.ne_nil_of_mem hi
    rw [hbx]
    exact ⟨(minval_spec (by simpa using hne) fun x hx => (hxb x hx).2).2 _ (List.mem_map_of_mem hi), (maxval_spec (by simpa using hne) fun x hx => (hxb x hx).1).2 _ (List.mem_map_of_mem hi),
      (minval_spec (by simpa using hne) fun x hx => (hyb x hx).2).2 _ (List.mem_map_of_mem hi), (maxval_spec (by simpa using hne) fun x hx => (hyb x hx).1).2 _ (List.mem_map_of_mem hi)⟩
  have hatt : (present rows) ≠ [] → (∃ i ∈ present rows, i % nx = b.xmin) ∧ (∃ i ∈ present rows, i % nx = b.xmax) ∧ (∃ i ∈ present rows, i / nx = b.ymin) ∧ (∃ i ∈ present rows, i / nx = b.ymax) := by
    intro hne
    rw [hbx]
    exact ⟨List.mem_map.1 (minval_spec (by simpa using hne) fun x hx => (hxb x hx).2).1, List.mem_map.1 (maxval_spec (by simpa using hne) fun x hx => (hxb x hx).1).1,
      List.mem_map.1 (minval_spec (by simpa using hne) fun x hx => (hyb x hx).2).1, List.mem_map.1 (maxval_spec (by simpa using hne) fun x hx => (hyb x hx).1).1⟩
  have hsz : (present rows) ≠ [] → (b.xmax - b.xmin + 1) * (b.ymax - b.ymin + 1) ≤ size := by
    intro hne
    obtain ⟨⟨i1, m1, e1⟩, ⟨i2, m2, e2⟩, ⟨i3, m3, e3⟩, ⟨i4, m4, e4⟩⟩ := hatt hne
    rw [← e1, ← e2, ← e3, ← e4]
    exact hsize i2 ((hmem _).1 m2) i1 ((hmem _).1 m1) i4 ((hmem _).1 m4) i3 ((hmem _).1 m3)
  have hel : ∀ row ∈ rows, ∀ e ∈ row, e.index = -1 ∨ (b.xmin ≤ e.index % nx ∧ e.index % nx ≤ b.xmax ∧ 0 ≤ e.index ∧ 0 ≤ place nx b e.index ∧
      place nx b e.index < (b.xmax - b.xmin + 1) * (b.ymax - b.ymin + 1) ∧ place nx b e.index < size) := by
    intro row hrow e he
    by_cases hi : e.index = -1
    · exact .inl hi
    · have hm := (hmem e.index).2 ⟨row, hrow, e, he, rfl, hi⟩
      obtain ⟨h1, h2, h3, h4⟩ := hin _ hm
      have h5 := place_bounds h1 h2 h3 h4
      have h6 := hsz (List.ne_nil_of_mem hm)
      exact .inr ⟨h1, h2, (hpos _ hm).1, h5.1, h5.2, by omega⟩
  -- the rows with the positions of the pixels in the map
  have hval : ∀ p ∈ ((rows.map fun r => r.map (relabel nx b)).zip timeline).zipIdx, ∀ e ∈ p.1.1, EValid size e := by
    intro p hp e he
    have := (List.of_mem_zip (List.fst_mem_of_mem_zipIdx hp)).1
    obtain ⟨row, hrow, hre⟩ := List.mem_map.1 this
    rw [← hre] at he
    obtain ⟨e', he', rfl⟩ := List.mem_map.1 he
    rcases hel row hrow e' he' with h | ⟨-, -, h0, h1, -, h2⟩
    · exact .inl (if_pos h)
    · have : (relabel nx b e').index = place nx b e'.index := if_neg (by omega)
      exact .inr (by rw [this]; exact ⟨h1, h2⟩)
  obtain ⟨m, w, a, hm, hw, d1, d2⟩ := backprojection_ok (some mask) ((rows.map fun r => r.map (relabel nx b)).zip timeline).zipIdx hval (List.replicate size 0) (List.replicate size 0)
    (by simp) (by simp)
  have hsum : ∀ (f : (List (Elem R) × R) × Nat → R), ((((rows.map fun r => r.map (relabel nx b)).zip timeline).zipIdx).map f).sum =
      ∑ i ∈ range rows.length, f (((rows.getD i []).map (relabel nx b), timeline.getD i 0), i) := by
    intro f
    have h1 : ((rows.map fun r => r.map (relabel nx b)).zip timeline).zipIdx.map f = (List.range rows.length).map fun i => f (((rows.getD i []).map (relabel nx b), timeline.getD i 0), i) := by
      apply List.ext_getElem
      · simp; omega
      · intro i hi _
        have h2 : i < rows.length := by simp at hi; omega
        have h3 : i < timeline.length := by omega
        simp [List.getElem?_eq_getElem h2, List.getElem?_eq_getElem h3]
    rw [h1]
    clear h1
    induction rows.length with
    | zero => simp
    | succ n ih => rw [List.range_succ, List.map_append, List.sum_append, ih, Finset.sum_range_succ]; simp
  have hfold : (rows.zip timeline).zipIdx.foldlM (fun mw p => if mask[p.2]? = some true then .ok mw else roiRow nx b p.1.2 p.1.1 mw)
      (List.replicate size (0 : R), List.replicate size (0 : R)) = (.ok (m, w) : Res (List R × List R)) := by
    rw [← a]
    have : ((rows.map fun r => r.map (relabel nx b)).zip timeline).zipIdx = (rows.zip timeline).zipIdx.map fun p => ((p.1.1.map (relabel nx b), p.1.2), p.2) := by
      rw [List.zip_map_left, List.zipIdx_map]
      rfl
    rw [this, List.foldlM_map]
    refine (foldlM_congr_mem _ _ _ (fun p hp mw => ?_) _)
    have hrow := (List.of_mem_zip (List.fst_mem_of_mem_zipIdx hp)).1
    by_cases hmk : mask[p.2]? = some true
    · rw [if_pos hmk, if_pos (by simpa using hmk)]
    · rw [if_neg hmk, if_neg (by simpa using hmk)]
      refine roiRow_eq hnx b _ _ _ fun e he => ?_
      rcases hel _ hrow e he with h | ⟨-, -, h0, h1, -, -⟩
      · exact .inl h
      · exact .inr ⟨h0, h1⟩
  have hmget : ∀ q : Nat, q < size → m[q]? = some (∑ i ∈ range rows.length, if mask[i]? = some true then 0 else entry ((rows.getD i []).map (relabel nx b)) q * timeline.getD i 0) := by
    intro q hq
    rw [d1, hsum, List.getElem?_replicate, if_pos hq]
    simp
  have hwget : ∀ q : Nat, q < size → w[q]? = some (∑ i ∈ range rows.length, if mask[i]? = some true then 0 else entry ((rows.getD i []).map (relabel nx b)) q) := by
    intro q hq
    rw [d2, hsum, List.getElem?_replicate, if_pos hq]
    simp
  have hrowmem : ∀ i, i ∈ range rows.length → rows.getD i [] ∈ rows := by
    intro i hi
    have hi := mem_range.1 hi
    rw [List.getD_eq_getElem?_getD, List.getElem?_eq_getElem hi]
    exact List.getElem_mem hi
  refine ⟨b, List.zipWith (fun m w => if w = 0 then none else some (m / w)) m w, ?_, by simp [hm, hw], ?_, ?_, ?_, ?_⟩
  · rw [backprojectionRoi, if_neg hnx.ne']
    dsimp only
    rw [← hb, hfold]
    rfl
  · exact fun i hi => hin _ ((hmem _).2 hi)
  · rintro ⟨i, hi⟩
    have := hatt (List.ne_nil_of_mem ((hmem i).2 hi))
    simpa only [hmem] using this
  · intro x y hxn hx1 hx2 hy1 hy2
    have hk : ((x + y * nx.toNat : Nat) : Int) = x + y * nx := by push_cast; rw [Int.toNat_of_nonneg hnx.le]
    have hmod : ((x + y * nx.toNat : Nat) : Int) % nx = x := by rw [hk, Int.add_mul_emod_self_right]; exact Int.emod_eq_of_lt (by omega) hxn
    have hdiv : ((x + y * nx.toNat : Nat) : Int) / nx = y := by rw [hk, Int.add_mul_ediv_right _ _ hnx.ne', Int.ediv_eq_zero_of_lt (by omega) hxn, zero_add]
    have hpl : (x - b.xmin) + (y - b.ymin) * (b.xmax - b.xmin + 1) = place nx b ((x + y * nx.toNat : Nat) : Int) := by rw [place, hmod, hdiv]
    have hpb := place_bounds (nx := nx) (b := b) (i := ((x + y * nx.toNat : Nat) : Int)) (by rw [hmod]; exact hx1) (by rw [hmod]; exact hx2) (by rw [hdiv]; exact hy1) (by rw [hdiv]; exact hy2)
    have hne : present rows ≠ [] := by
      intro h
      have h1 := hx1.trans hx2
      rw [hbx, h] at h1
      simp [minval, maxval] at h1
    have hq : (place nx b ((x + y * nx.toNat : Nat) : Int)).toNat < size := by
      have := hsz hne
      omega
    have hent : ∀ i ∈ range rows.length, entry ((rows.getD i []).map (relabel nx b)) (place nx b ((x + y * nx.toNat : Nat) : Int)).toNat = entry (rows.getD i []) (x + y * nx.toNat) := by
      intro i hi
      refine entry_relabel (by rw [hmod]; exact ⟨hx1, hx2⟩) hpb.1 _ fun e he => ?_
      rcases hel _ (hrowmem i hi) e he with h | ⟨h1, h2, -, h3, -, -⟩
      · exact .inl h
      · exact .inr ⟨h1, h2, h3⟩
    rw [hpl, List.getElem?_zipWith, hmget _ hq, hwget _ hq]
    dsimp only
    have hS1 := Finset.sum_congr rfl fun i hi => congrArg (fun v => if mask[i]? = some true then 0 else v) (hent i hi)
    have hS2 := Finset.sum_congr rfl fun i hi => congrArg (fun v => if mask[i]? = some true then 0 else v * timeline.getD i 0) (hent i hi)
    rw [hS1, hS2]
  · intro q hq hor
    have hzero : ∀ i ∈ range rows.length, entry ((rows.getD i []).map (relabel nx b)) q = 0 := by
      intro i hi
      rcases hor with h | h
      · refine entry_far (n := 0) (Nat.zero_le _) _ fun e he => ?_
        obtain ⟨e', he', rfl⟩ := List.mem_map.1 he
        refine .inl (if_pos (by_contra fun hne => ?_))
        have : e'.index ∈ pixels rows := ⟨_, hrowmem i hi, e', he', rfl, hne⟩
        rw [h] at this
        exact this
      · refine entry_far (n := q) le_rfl _ fun e he => ?_
        obtain ⟨e', he', rfl⟩ := List.mem_map.1 he
        rcases hel _ (hrowmem i hi) e' he' with h' | ⟨-, -, h0, h1, h2, -⟩
        · exact .inl (if_pos h')
        · have : (relabel nx b e').index = place nx b e'.index := if_neg (by omega)
          rw [this]
          exact .inr ⟨h1, by omega⟩
    rw [List.getElem?_zipWith, hmget _ hq, hwget _ hq]
    dsimp only
    rw [if_pos]
    refine Finset.sum_eq_zero fun i hi => ?_
    rw [hzero i hi, ite_self]

/-- The frame of two detectors, one element of each being missing, on a map with three columns. -/
example : (backprojectionRoi 3 [[⟨4, 1⟩, ⟨-1, 0⟩], [⟨8, 2⟩, ⟨4, 3⟩]] [(5 : ℚ), 1] [false, false] 4).toOption.map (·.2) = some [some 2, none, none, some 1] := by
  decide +kernel

/-- The map must have the size of the region: a smaller one is written past its end. -/
theorem C134_too_small : ∃ (rows : List (List (Elem ℚ))) (timeline : List ℚ) (mask : List Bool),
    backprojectionRoi 3 rows timeline mask 3 = .error .outOfBounds :=
  ⟨[[⟨4, 1⟩], [⟨8, 1⟩]], [1, 1], [false, false], by decide +kernel⟩

/-- The region is that of all the detectors, the masked ones included: a map with the size of the pixels seen by the others is not filled from its beginning. -/
theorem C134_masked : (backprojectionRoi 3 [[⟨4, 1⟩], [⟨0, 1⟩]] [(5 : ℚ), 1] [false, true] 4).toOption.map (·.2) = some [none, none, none, some 5] := by
  decide +kernel

end Verif.Pointing
