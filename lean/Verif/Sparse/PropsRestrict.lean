import Verif.Sparse.Restrict

/-! C33: restriction and corestriction of a sparse operator. -/
namespace Verif.Sparse
open Verif.Py Finset

variable {R : Type} [CommRing R]

/-- The product of the restricted matrix with the kept blocks of a map is the product of the matrix with the map zeroed
outside of the mask; and the indices of the restricted matrix are in range. -/
def Restricts {β} (matvec : Mat β → List R → Option (List R) → Res (List R)) (q : Nat) (M M' : Mat β) (mask : List Bool) (x : List R) :
    Prop :=
  (∀ e ∈ M'.flat, e.index < mask.count true) ∧ M'.nrow = M.nrow ∧ M'.ncol = mask.count true * M.bs1 ∧
  ∃ y, matvec M' (keptBlocks mask q x) none = .ok y ∧ matvec M (zeroedBlocks mask q x) none = .ok y

theorem initial_none_eq {m p : Nat} {g g' : Nat → Nat → R} {a b : List R} (ha : AddsProduct m p g (initial (m * p) none) a)
    (hb : AddsProduct m p g' (initial (m * p) none) b) (h : ∀ i r, g i r = g' i r) : a = b := by
  rw [ha.eq_map, hb.eq_map]
  simp only [h]

/-- C33, scalar row storage, for any number `ext` of trailing components: compiled (`fi`) and Python renumbering, compiled (`fast`)
and Python products.  The Python renumbering raises IndexError for negative indices smaller than `-n`.
Missing: masks that keep nothing (`C33_violation_empty`). -/
theorem C33_restrict_fsr_partial {M : Mat R} {m n : Nat} (h : RowWf M m n) (hb0 : M.bs0 = 1) (hb1 : M.bs1 = 1)
    {mask : List Bool} (hmask : mask.length = n) (hc : 0 < mask.count true) (fi fast : Bool)
    (hneg : fi = false → ∀ e ∈ M.flat, -(n : Int) ≤ e.index) {ext : Nat} (hext : 0 < ext) (x : List R) :
    ∃ M', restrict fi M n mask = .ok M' ∧ Restricts (fsrMatvec fast) ext M M' mask x := by
  have hn : 0 < n := by have := List.count_le_length (a := true) (l := mask); omega
  have h' := h.restricted fi hmask
  refine ⟨restricted fi mask M, restrict_eq hmask h.index hneg, h'.index, rfl, rfl, ?_⟩
  obtain ⟨a, a1, a2⟩ := fsrMatvec_spec h' hc hb0 hb1 fast hext (keptBlocks_len mask ext x) (out := none) (.inr rfl)
    (by intro o ho; cases ho)
  obtain ⟨b, b1, b2⟩ := fsrMatvec_spec h hn hb0 hb1 fast hext (v := zeroedBlocks mask ext x)
    (by rw [zeroedBlocks_len, hmask]) (out := none) (.inr rfl) (by intro o ho; cases ho)
  refine ⟨a, a1, ?_⟩
  rw [b1, initial_none_eq a2 b2 (rowProduct_restricted homEntry h fi hmask ext x)]

/-- C33, 2d rotations. -/
theorem C33_restrict_rot2d_partial {M : Mat (Rot2d R)} {m n : Nat} (h : RowWf M m n) (hb0 : M.bs0 = 2) (hb1 : M.bs1 = 2)
    {mask : List Bool} (hmask : mask.length = n) (hc : 0 < mask.count true) (fi fast : Bool)
    (hneg : fi = false → ∀ e ∈ M.flat, -(n : Int) ≤ e.index) (x : List R) :
    ∃ M', restrict fi M n mask = .ok M' ∧ Restricts (fsrRot2dMatvec fast) 2 M M' mask x := by
  have hn : 0 < n := by have := List.count_le_length (a := true) (l := mask); omega
  have h' := h.restricted fi hmask
  refine ⟨restricted fi mask M, restrict_eq hmask h.index hneg, h'.index, rfl, rfl, ?_⟩
  obtain ⟨a, a1, a2⟩ := fsrRot2dMatvec_spec h' hc hb0 hb1 fast (keptBlocks_len mask 2 x) (out := none)
    (by intro o ho; cases ho)
  obtain ⟨b, b1, b2⟩ := fsrRot2dMatvec_spec h hn hb0 hb1 fast (v := zeroedBlocks mask 2 x)
    (by rw [zeroedBlocks_len, hmask]) (out := none) (by intro o ho; cases ho)
  refine ⟨a, a1, ?_⟩
  rw [b1, initial_none_eq a2 b2 (rowProduct_restricted rot2dEntry h fi hmask 2 x)]

/-- C33, 3d rotations. -/
theorem C33_restrict_rot3d_partial {M : Mat (Rot3d R)} {m n : Nat} (h : RowWf M m n) (hb0 : M.bs0 = 3) (hb1 : M.bs1 = 3)
    {mask : List Bool} (hmask : mask.length = n) (hc : 0 < mask.count true) (fi fast : Bool)
    (hneg : fi = false → ∀ e ∈ M.flat, -(n : Int) ≤ e.index) (x : List R) :
    ∃ M', restrict fi M n mask = .ok M' ∧ Restricts (fsrRot3dMatvec fast) 3 M M' mask x := by
  have hn : 0 < n := by have := List.count_le_length (a := true) (l := mask); omega
  have h' := h.restricted fi hmask
  refine ⟨restricted fi mask M, restrict_eq hmask h.index hneg, h'.index, rfl, rfl, ?_⟩
  obtain ⟨a, a1, a2⟩ := fsrRot3dMatvec_spec h' hc hb0 hb1 fast (keptBlocks_len mask 3 x) (out := none)
    (by intro o ho; cases ho)
  obtain ⟨b, b1, b2⟩ := fsrRot3dMatvec_spec h hn hb0 hb1 fast (v := zeroedBlocks mask 3 x)
    (by rw [zeroedBlocks_len, hmask]) (out := none) (by intro o ho; cases ho)
  refine ⟨a, a1, ?_⟩
  rw [b1, initial_none_eq a2 b2 (rowProduct_restricted rot3dEntry h fi hmask 3 x)]

/-- C33, blocks. -/
theorem C33_restrict_block_partial {M : Mat (List R)} {m n : Nat} (h : RowWf M m n)
    {mask : List Bool} (hmask : mask.length = n) (hc : 0 < mask.count true) (fi fast : Bool)
    (hb : M.bs0 ≤ 3 ∧ M.bs1 ≤ 3 ∧ ¬ (M.bs0 = 1 ∧ M.bs1 = 1))
    (hneg : fi = false → ∀ e ∈ M.flat, -(n : Int) ≤ e.index) (x : List R) :
    ∃ M', restrict fi M n mask = .ok M' ∧ Restricts (fsrBlockMatvec fast) M.bs1 M M' mask x := by
  have hn : 0 < n := by have := List.count_le_length (a := true) (l := mask); omega
  have h' := h.restricted fi hmask
  have hok : BlockOk M.bs0 M.bs1 := ⟨h.pos.1, hb.1, h.pos.2, hb.2⟩
  refine ⟨restricted fi mask M, restrict_eq hmask h.index hneg, h'.index, rfl, rfl, ?_⟩
  obtain ⟨a, a1, a2⟩ := fsrBlockMatvec_spec h' hc fast (fun _ => hok) (keptBlocks_len mask M.bs1 x) (out := none)
    (by intro o ho; cases ho)
  obtain ⟨b, b1, b2⟩ := fsrBlockMatvec_spec h hn fast (fun _ => hok) (v := zeroedBlocks mask M.bs1 x)
    (by rw [zeroedBlocks_len, hmask]) (out := none) (by intro o ho; cases ho)
  refine ⟨a, a1, ?_⟩
  rw [b1, initial_none_eq a2 b2 (rowProduct_restricted (blockEntry M.bs1) h fi hmask M.bs1 x)]

/-- C33: a mask of another size is rejected. -/
theorem C33_rejects {β} {M : Mat β} {n : Nat} {mask : List Bool} (fi : Bool) (h : mask.length ≠ n) :
    restrict fi M n mask = .error .valueError := by
  unfold restrict
  rw [if_pos h]

example : ∃ M', restrict true exFsr 3 [true, false, true] = .ok M' ∧
    Restricts (fsrMatvec true) 1 exFsr M' [true, false, true] [10, 20, 30] :=
  C33_restrict_fsr_partial exFsr_wf rfl rfl rfl (by decide) true true (by intro h; cases h) (by decide) _

/-- C33 is false for a mask that keeps nothing: the product of the restricted matrix raises. -/
theorem C33_violation_empty :
    let M : Mat Int := { nrow := 1, ncol := 2, bs0 := 1, bs1 := 1, nlines := 1, nmax := 1, flat := [⟨1, 5⟩] }
    (restrict true M 2 [false, false]).bind (fun M' => fsrMatvec true M' [] none) = .error .zeroDivisionError ∧
    fsrMatvec true M [0, 0] none = .ok [0] := by
  constructor <;> rfl

/-- C33, corestriction of the scalar row storage: the product of the corestricted matrix is made of the kept rows of the
product. -/
theorem C33_corestrict_fsr {g : Nat → Elem R} {M : Mat R} {m n : Nat} (h : RowWf M m n) (hn : 0 < n) (hb0 : M.bs0 = 1) (hb1 : M.bs1 = 1)
    {mask : List Bool} (hmask : mask.length = m) (fast : Bool) {ext : Nat} (hext : 0 < ext) {x : List R} (hx : x.length = n * ext) :
    ∃ M' y, corestrict g .fsr M mask = .ok M' ∧ M'.nrow = mask.count true ∧ M'.ncol = M.ncol ∧
      fsrMatvec fast M x none = .ok y ∧ fsrMatvec fast M' x none = .ok (keptBlocks mask ext y) := by
  have h' := h.corestricted hb0 hmask
  obtain ⟨b, b1, b2⟩ := fsrMatvec_spec h hn hb0 hb1 fast hext hx (out := none) (.inr rfl) (by intro o ho; cases ho)
  obtain ⟨a, a1, a2⟩ := fsrMatvec_spec h' hn hb0 hb1 fast hext hx (out := none) (.inr rfl) (by intro o ho; cases ho)
  refine ⟨corestricted mask M, b, ?_, rfl, rfl, b1, ?_⟩
  · have e : mask.flatMap (fun b => List.replicate M.bs0 b) = mask := by
      rw [hb0]; simp
    unfold corestrict
    simp only [e]
    rw [if_neg (by rw [hmask, h.nlines]; simp)]
    have := fsInit_row (g := g) h'
    rw [show (corestricted mask M).bs0 = 1 from hb0, show (corestricted mask M).bs1 = 1 from hb1] at this
    rw [hb0, Nat.mul_one]
    exact this
  · rw [a1]
    congr 1
    apply List.ext_getElem?
    intro P
    by_cases hP : P < mask.count true * ext
    · have hq : P / ext < rank (fun k => mask.getD k false) mask.length := by rw [rank_all]; exact div_lt_of hP
      have hr : P % ext < ext := mod_lt_of hP
      obtain ⟨k, k1, k2, k3⟩ := rank_surj hq
      have e1 := a2.getD (i := P / ext) (r := P % ext) (div_lt_of hP) hr
      have e2 := keptBlocks_get b k1 k2 hr
      have e3 := b2.getD (i := k) (r := P % ext) (by omega) hr
      have e4 := rowProduct_corestricted homEntry h hmask ext x (i := k) (by omega) k2 (P % ext)
      rw [k3] at e2 e4
      rw [Nat.div_add_mod'] at e1 e2
      have hl : P < a.length := by rw [a2.1]; exact hP
      have hl' : P < (keptBlocks mask ext b).length := by rw [keptBlocks_len]; exact hP
      rw [List.getD_eq_getElem?_getD, List.getElem?_eq_getElem hl, Option.getD_some] at e1
      rw [List.getD_eq_getElem?_getD, List.getElem?_eq_getElem hl', Option.getD_some] at e2
      rw [List.getElem?_eq_getElem hl, List.getElem?_eq_getElem hl', e1, e2, e3, e4]
    · rw [List.getElem?_eq_none (by rw [a2.1]; omega), List.getElem?_eq_none (by rw [keptBlocks_len]; omega)]

example : ∃ M' y, corestrict (fun _ => ⟨0, 0⟩) .fsr exFsr [false, true] = .ok M' ∧ M'.nrow = 1 ∧ M'.ncol = exFsr.ncol ∧
    fsrMatvec true exFsr [10, 20, 30] none = .ok y ∧ fsrMatvec true M' [10, 20, 30] none = .ok (keptBlocks [false, true] 1 y) :=
  C33_corestrict_fsr exFsr_wf (by decide) rfl rfl rfl true (by decide) rfl

/-- C33 is false for the corestriction of rotations: the mask is repeated for every component of a block row, although the
structured array has one line per block row: `IndexError`. -/
theorem C33_violation_corestrict (g : Nat → Elem (Rot2d Int)) (g' : Nat → Elem (Rot3d Int)) {M : Mat (Rot2d Int)} {M' : Mat (Rot3d Int)}
    {m n : Nat} (h : RowWf M m n) (h' : RowWf M' m n) (hm : 0 < m) (hb : M.bs0 = 2) (hb' : M'.bs0 = 3) {mask : List Bool} (hmask : mask.length = m) :
    corestrict g .fsrRot2d M mask = .error .indexError ∧ corestrict g' .fsrRot3d M' mask = .error .indexError := by
  have e : ∀ p, (mask.flatMap fun b => List.replicate p b).length = m * p := by
    intro p
    simp [List.length_flatMap, hmask]
  constructor
  · unfold corestrict
    dsimp only
    rw [if_pos (by rw [e, h.nlines, hb]; omega)]
  · unfold corestrict
    dsimp only
    rw [if_pos (by rw [e, h'.nlines, hb']; omega)]

example : RowWf exFsrRot2d 2 1 ∧ (0 < 2) ∧ exFsrRot2d.bs0 = 2 := ⟨exFsrRot2d_wf, by decide, rfl⟩

end Verif.Sparse
