import Verif.Sparse.Props

/-! Properties C36, C69 and C70: constructors, copies, multiples. -/
namespace Verif.Sparse
open Verif.Py Finset

/-! ### C36 -/

/-- The shape of the blocks of a class (`bs` for the block classes). -/
def Storage.blocks (st : Storage) (bs : Nat × Nat) : Nat × Nat :=
  match st with
  | .fsc | .fsr => (1, 1)
  | .fscBlock | .fsrBlock => bs
  | .fscRot2d | .fsrRot2d => (2, 2)
  | .fscRot3d | .fsrRot3d => (3, 3)

theorem fsInit_none {β} {g : Nat → Elem β} {shape bs : Nat × Nat} {k axis : Nat} {M : Mat β}
    (h : fsInit g shape bs (some k) axis none = .ok M) :
    0 < bs.1 ∧ 0 < bs.2 ∧ shape.1 % bs.1 = 0 ∧ shape.2 % bs.2 = 0 ∧
    M = { nrow := shape.1, ncol := shape.2, bs0 := bs.1, bs1 := bs.2, nlines := axisOf shape (1 - axis) / bs.1, nmax := k,
          flat := (List.range (axisOf shape (1 - axis) / bs.1 * k)).map g } := by
  unfold fsInit at h
  by_cases h1 : bs.1 = 0 ∨ bs.2 = 0
  · rw [if_pos h1] at h; cases h
  · rw [if_neg h1] at h
    by_cases h2 : shape.1 % bs.1 ≠ 0 ∨ shape.2 % bs.2 ≠ 0
    · rw [if_pos h2] at h; cases h
    · rw [if_neg h2] at h
      simp only [Except.ok.injEq] at h
      refine ⟨by omega, by omega, by omega, by omega, h.symm⟩

theorem fsInit_again {β} {g g' : Nat → Elem β} {shape bs : Nat × Nat} {k axis : Nat} {M : Mat β}
    (h : fsInit g shape bs (some k) axis none = .ok M) (hb : bs.1 = axisOf bs (1 - axis)) :
    fsInit g' shape bs (some k) axis (some M.data) = .ok M ∧ fsInit g' shape bs none axis (some M.data) = .ok M := by
  obtain ⟨h1, h2, h3, h4, rfl⟩ := fsInit_none h
  have hd : axisOf shape (1 - axis) / bs.1 * axisOf bs (1 - axis) = axisOf shape (1 - axis) := by
    rw [← hb]
    apply Nat.div_mul_cancel
    apply Nat.dvd_of_mod_eq_zero
    unfold axisOf at hb ⊢
    cases hax : 1 - axis with
    | zero => exact h3
    | succ a =>
      rw [hax] at hb
      simp only at hb ⊢
      rw [hb]; exact h4
  constructor
  · unfold fsInit
    rw [if_neg (by omega), if_neg (by omega)]
    simp [Mat.data, hd]
  · unfold fsInit
    rw [if_neg (by omega), if_neg (by omega)]
    simp [Mat.data, hd]

/-- C36: a matrix built from a shape and a number of elements has one storage line per block row (row storages) or block
column (column storages), `nmax` elements per line, and its structured array is accepted by the same constructor, with
or without the number of elements.
Missing: the column storage with blocks that are not square (`C36_violation`). -/
theorem C36_ctor_partial {β} {g g' : Nat → Elem β} {st : Storage} {shape bs : Nat × Nat} {k : Nat} {M : Mat β}
    (hsq : st = .fscBlock → bs.1 = bs.2) (h : construct g st shape bs (some k) none = .ok M) :
    M.nrow = shape.1 ∧ M.ncol = shape.2 ∧ M.nmax = k ∧ M.flat.length = M.nlines * k ∧
    M.nlines * axisOf (st.blocks bs) (1 - st.axis) = axisOf shape (1 - st.axis) ∧
    construct g' st shape bs (some k) (some M.data) = .ok M ∧ construct g' st shape bs none (some M.data) = .ok M := by
  have key : ∀ b axis, b.1 = axisOf b (1 - axis) → fsInit g shape b (some k) axis none = .ok M →
      M.nrow = shape.1 ∧ M.ncol = shape.2 ∧ M.nmax = k ∧ M.flat.length = M.nlines * k ∧
      M.nlines * axisOf b (1 - axis) = axisOf shape (1 - axis) ∧
      fsInit g' shape b (some k) axis (some M.data) = .ok M ∧ fsInit g' shape b none axis (some M.data) = .ok M := by
    intro b axis hb hM
    have h2 := fsInit_again (g' := g') hM hb
    refine ⟨?_, ?_, ?_, ?_, ?_, h2⟩
    · rw [(fsInit_none hM).2.2.2.2]
    · rw [(fsInit_none hM).2.2.2.2]
    · rw [(fsInit_none hM).2.2.2.2]
    · rw [(fsInit_none hM).2.2.2.2]; simp
    · by_contra hne
      have := h2.2
      unfold fsInit at this
      rw [if_neg (by have := fsInit_none hM; omega), if_neg (by have := fsInit_none hM; omega)] at this
      simp [Mat.data, hne] at this
  cases st with
  | fsc => exact key (1, 1) 0 rfl h
  | fsr => exact key (1, 1) 1 rfl h
  | fscRot2d => exact key (2, 2) 0 rfl h
  | fsrRot2d => exact key (2, 2) 1 rfl h
  | fscRot3d => exact key (3, 3) 0 rfl h
  | fsrRot3d => exact key (3, 3) 1 rfl h
  | fsrBlock => exact key bs 1 rfl h
  | fscBlock =>
    have hb := hsq rfl
    have hc : checkBlock bs = .ok () := by
      cases hc : checkBlock bs with
      | ok u => rfl
      | error e =>
        simp only [construct, hc, Except.bind] at h
        cases h
    simp only [construct, hc, Except.bind] at h ⊢
    exact key bs 0 hb h

example : construct (fun i => ⟨(i : Int), (7 : Int)⟩) .fscRot2d (4, 6) (0, 0) (some 2) none = .ok
    { nrow := 4, ncol := 6, bs0 := 2, bs1 := 2, nlines := 3, nmax := 2,
      flat := [⟨0, 7⟩, ⟨1, 7⟩, ⟨2, 7⟩, ⟨3, 7⟩, ⟨4, 7⟩, ⟨5, 7⟩] } := by decide
example : (construct (fun i => ⟨(i : Int), [(7 : Int)]⟩) .fsrBlock (4, 9) (2, 3) (some 1) none).map (·.nlines) = .ok 2 := by decide

/-- C36 is false for column blocks that are not square: 6 columns in blocks of 3 columns need 2 lines, 3 are allocated,
and the array is rejected by the constructor (hence `copy()` and the transpose of the matrix raise). -/
theorem C36_violation :
    let M : Mat (List Int) := { nrow := 2, ncol := 6, bs0 := 2, bs1 := 3, nlines := 3, nmax := 1, flat := [⟨0, []⟩, ⟨0, []⟩, ⟨0, []⟩] }
    construct (fun _ => ⟨0, []⟩) .fscBlock (2, 6) (2, 3) (some 1) none = .ok M ∧
    copyMat (fun _ => ⟨0, []⟩) .fscBlock M = .error .valueError ∧
    transpose (fun _ => ⟨0, []⟩) .fscBlock M = .error .valueError := by decide

/-! ### C69: copies and multiples -/

variable {R : Type} [CommRing R]

/-- C69: a copy of a matrix (row storage) is the matrix. -/
theorem C69_copy_row {β} {g : Nat → Elem β} {M : Mat β} {m n : Nat} (h : RowWf M m n) :
    copyMat g .fsrBlock M = .ok M ∧
    (M.bs0 = 1 → M.bs1 = 1 → copyMat g .fsr M = .ok M) ∧
    (M.bs0 = 2 → M.bs1 = 2 → copyMat g .fsrRot2d M = .ok M) ∧
    (M.bs0 = 3 → M.bs1 = 3 → copyMat g .fsrRot3d M = .ok M) := by
  have t := fsInit_row (g := g) h
  refine ⟨t, ?_, ?_, ?_⟩ <;>
  · intro h0 h1
    rw [h0, h1] at t
    exact t

/-- C69: a copy of a matrix (column storage) is the matrix. -/
theorem C69_copy_col {β} {g : Nat → Elem β} {M : Mat β} {m n : Nat} (h : ColWf M m n) :
    (M.bs0 ≤ 3 ∧ M.bs1 ≤ 3 ∧ ¬ (M.bs0 = 1 ∧ M.bs1 = 1) → copyMat g .fscBlock M = .ok M) ∧
    (M.bs0 = 1 → M.bs1 = 1 → copyMat g .fsc M = .ok M) ∧
    (M.bs0 = 2 → M.bs1 = 2 → copyMat g .fscRot2d M = .ok M) ∧
    (M.bs0 = 3 → M.bs1 = 3 → copyMat g .fscRot3d M = .ok M) := by
  have t := fsInit_col (g := g) h
  refine ⟨?_, ?_, ?_, ?_⟩
  · intro hb
    unfold copyMat construct
    rw [checkBlock_ok ⟨h.pos.1, hb.1, h.pos.2, hb.2⟩]
    exact t
  all_goals
    intro h0 h1
    rw [h0, h1] at t
    exact t

/-- The matrix whose elements are multiplied. -/
def scaled {β} (scale : β → β) (M : Mat β) : Mat β :=
  { M with flat := M.flat.map fun e => { e with value := scale e.value } }

theorem RowWf.scaled {β} {M : Mat β} {m n : Nat} (h : RowWf M m n) (scale : β → β) : RowWf (scaled scale M) m n := by
  refine ⟨h.pos, h.nrow, h.ncol, h.nlines, by simpa [Sparse.scaled] using h.flat, ?_⟩
  intro e he
  simp only [Sparse.scaled, List.mem_map] at he
  obtain ⟨e', he', rfl⟩ := he
  exact h.index e' he'

theorem ColWf.scaled {β} {M : Mat β} {m n : Nat} (h : ColWf M m n) (scale : β → β) : ColWf (scaled scale M) m n := by
  refine ⟨h.pos, h.nrow, h.ncol, h.nlines, by simpa [Sparse.scaled] using h.flat, ?_⟩
  intro e he
  simp only [Sparse.scaled, List.mem_map] at he
  obtain ⟨e', he', rfl⟩ := he
  exact h.index e' he'

theorem lineEntry_scaled {β} {entry : β → Nat → Nat → R} {scale : β → β} {s : R} (hs : ∀ x r c, entry (scale x) r c = s * entry x r c)
    (M : Mat β) (i k r c : Nat) : lineEntry entry (scaled scale M) i k r c = s * lineEntry entry M i k r c := by
  unfold lineEntry Sparse.scaled
  rw [Finset.mul_sum]
  apply Finset.sum_congr rfl
  intro j _
  simp only [List.getElem?_map]
  cases M.flat[i * M.nmax + j]? with
  | none => simp
  | some e =>
    simp only [Option.map_some]
    split
    · rw [hs]
    · simp

theorem AddsProduct.scale {m p : Nat} {g : Nat → Nat → R} {s : R} {a b : List R}
    (ha : AddsProduct m p g (initial (m * p) none) a)
    (hb : AddsProduct m p (fun i r => s * g i r) (initial (m * p) none) b) : b = a.map (s * ·) := by
  apply List.ext_getElem?
  intro P
  by_cases hP : P < m * p
  · have h1 := ha.2 (P / p) (div_lt_of hP) (P % p) (mod_lt_of hP)
    have h2 := hb.2 (P / p) (div_lt_of hP) (P % p) (mod_lt_of hP)
    rw [Nat.div_add_mod'] at h1 h2
    rw [List.getElem?_map, h1, h2]
    simp [initial, hP]
  · rw [List.getElem?_eq_none (by rw [hb.1]; omega), List.getElem?_eq_none (by simp [ha.1]; omega)]

theorem rowProduct_scaled {β} {entry : β → Nat → Nat → R} {scale : β → β} {s : R}
    (hs : ∀ x r c, entry (scale x) r c = s * entry x r c) (M : Mat β) (n q : Nat) (v : List R) (i r : Nat) :
    rowProduct entry (scaled scale M) n q v i r = s * rowProduct entry M n q v i r := by
  unfold rowProduct
  simp only [lineEntry_scaled hs, Finset.mul_sum, mul_assoc]

theorem colProduct_scaled {β} {entry : β → Nat → Nat → R} {scale : β → β} {s : R}
    (hs : ∀ x r c, entry (scale x) r c = s * entry x r c) (M : Mat β) (m q : Nat) (v : List R) (i r : Nat) :
    colProduct entry (scaled scale M) m q v i r = s * colProduct entry M m q v i r := by
  unfold colProduct
  simp only [lineEntry_scaled hs, Finset.mul_sum, mul_assoc]

/-- The multiplication of the fields of a 2d rotation, sparse.py 527-528. -/
def scaleRot2d (s : R) (x : Rot2d R) : Rot2d R := ⟨x.r11 * s, x.r21 * s⟩
/-- The multiplication of the fields of a 3d rotation, sparse.py 665-667. -/
def scaleRot3d (s : R) (x : Rot3d R) : Rot3d R := ⟨x.r11 * s, x.r22 * s, x.r32 * s⟩
/-- The multiplication of a block, sparse.py 186. -/
def scaleBlock (s : R) (x : List R) : List R := x.map (· * s)

/-- C69: `(s * A) x = s * (A x)`, scalar row storage. -/
theorem C69_mul_fsr {g : Nat → Elem R} {M : Mat R} {m n : Nat} (h : RowWf M m n) (hn : 0 < n) (hb0 : M.bs0 = 1)
    (hb1 : M.bs1 = 1) (fast : Bool) {ext : Nat} (hext : 0 < ext) {v : List R} (hv : v.length = n * ext) (s : R) :
    ∃ M' a, scalarMul g .fsr (· * s) M = .ok M' ∧ fsrMatvec fast M v none = .ok a ∧
      fsrMatvec fast M' v none = .ok (a.map (s * ·)) := by
  obtain ⟨a, a1, a2⟩ := fsrMatvec_spec h hn hb0 hb1 fast hext hv (out := none) (.inr rfl) (by intro o ho; cases ho)
  obtain ⟨b, b1, b2⟩ := fsrMatvec_spec (h.scaled (· * s)) hn hb0 hb1 fast hext hv (out := none) (.inr rfl)
    (by intro o ho; cases ho)
  have t := fsInit_row (g := g) (h.scaled (· * s))
  rw [show (scaled (· * s) M).bs0 = 1 from hb0, show (scaled (· * s) M).bs1 = 1 from hb1] at t
  refine ⟨scaled (· * s) M, a, t, a1, ?_⟩
  rw [b1, a2.scale (b2.congr fun i _ r _ => rowProduct_scaled ?_ M n ext v i r)]
  intro x r c
  unfold homEntry
  split
  · ring
  · ring

/-- C69: `(s * A) x = s * (A x)`, scalar column storage. -/
theorem C69_mul_fsc {g : Nat → Elem R} {M : Mat R} {m n : Nat} (h : ColWf M m n) (hm : 0 < m) (hb0 : M.bs0 = 1)
    (hb1 : M.bs1 = 1) (fast : Bool) {ext : Nat} (hext : 0 < ext) {v : List R} (hv : v.length = m * ext) (s : R) :
    ∃ M' a, scalarMul g .fsc (· * s) M = .ok M' ∧ fscMatvec fast M v none = .ok a ∧
      fscMatvec fast M' v none = .ok (a.map (s * ·)) := by
  obtain ⟨a, a1, a2⟩ := fscMatvec_spec h hm hb0 hb1 fast hext hv (out := none) (.inr rfl) (by intro o ho; cases ho)
  obtain ⟨b, b1, b2⟩ := fscMatvec_spec (h.scaled (· * s)) hm hb0 hb1 fast hext hv (out := none) (.inr rfl)
    (by intro o ho; cases ho)
  have t := fsInit_col (g := g) (h.scaled (· * s))
  rw [show (scaled (· * s) M).bs0 = 1 from hb0, show (scaled (· * s) M).bs1 = 1 from hb1] at t
  refine ⟨scaled (· * s) M, a, t, a1, ?_⟩
  rw [b1, a2.scale (b2.congr fun i _ r _ => colProduct_scaled ?_ M m ext v i r)]
  intro x r c
  unfold homEntry
  split
  · ring
  · ring

theorem scaleRot2d_entry (s : R) (x : Rot2d R) : ∀ r c, rot2dEntry (scaleRot2d s x) r c = s * rot2dEntry x r c
  | 0, 0 | 0, 1 | 1, 0 | 1, 1 => by simp only [rot2dEntry, scaleRot2d]; ring
  | 0, _ + 2 | 1, _ + 2 | _ + 2, _ => by simp [rot2dEntry]

theorem scaleRot3d_entry (s : R) (x : Rot3d R) : ∀ r c, rot3dEntry (scaleRot3d s x) r c = s * rot3dEntry x r c
  | 0, 0 | 1, 1 | 1, 2 | 2, 1 | 2, 2 => by simp only [rot3dEntry, scaleRot3d]; ring
  | 0, _ + 1 | 1, 0 | 1, _ + 3 | 2, 0 | 2, _ + 3 | _ + 3, _ => by simp [rot3dEntry]

theorem scaleBlock_entry (s : R) (ncol : Nat) (x : List R) (r c : Nat) :
    blockEntry ncol (scaleBlock s x) r c = s * blockEntry ncol x r c := by
  unfold blockEntry scaleBlock
  rw [List.getD_eq_getElem?_getD, List.getD_eq_getElem?_getD, List.getElem?_map]
  cases x[r * ncol + c]? with
  | none => simp
  | some a => simp [mul_comm]

/-- C69: 2d rotations. -/
theorem C69_mul_rot2d {g : Nat → Elem (Rot2d R)} {M : Mat (Rot2d R)} {m n : Nat} (h : RowWf M m n) (hn : 0 < n)
    (hb0 : M.bs0 = 2) (hb1 : M.bs1 = 2) (fast : Bool) {v : List R} (hv : v.length = n * 2) (s : R) :
    ∃ M' a, scalarMul g .fsrRot2d (scaleRot2d s) M = .ok M' ∧ fsrRot2dMatvec fast M v none = .ok a ∧
      fsrRot2dMatvec fast M' v none = .ok (a.map (s * ·)) := by
  obtain ⟨a, a1, a2⟩ := fsrRot2dMatvec_spec h hn hb0 hb1 fast hv (out := none) (by intro o ho; cases ho)
  obtain ⟨b, b1, b2⟩ := fsrRot2dMatvec_spec (h.scaled (scaleRot2d s)) hn hb0 hb1 fast hv (out := none)
    (by intro o ho; cases ho)
  have t := fsInit_row (g := g) (h.scaled (scaleRot2d s))
  rw [show (scaled (scaleRot2d s) M).bs0 = 2 from hb0, show (scaled (scaleRot2d s) M).bs1 = 2 from hb1] at t
  refine ⟨scaled (scaleRot2d s) M, a, t, a1, ?_⟩
  rw [b1, a2.scale (b2.congr fun i _ r _ => rowProduct_scaled (scaleRot2d_entry s) M n 2 v i r)]

/-- C69: 3d rotations. -/
theorem C69_mul_rot3d {g : Nat → Elem (Rot3d R)} {M : Mat (Rot3d R)} {m n : Nat} (h : RowWf M m n) (hn : 0 < n)
    (hb0 : M.bs0 = 3) (hb1 : M.bs1 = 3) (fast : Bool) {v : List R} (hv : v.length = n * 3) (s : R) :
    ∃ M' a, scalarMul g .fsrRot3d (scaleRot3d s) M = .ok M' ∧ fsrRot3dMatvec fast M v none = .ok a ∧
      fsrRot3dMatvec fast M' v none = .ok (a.map (s * ·)) := by
  obtain ⟨a, a1, a2⟩ := fsrRot3dMatvec_spec h hn hb0 hb1 fast hv (out := none) (by intro o ho; cases ho)
  obtain ⟨b, b1, b2⟩ := fsrRot3dMatvec_spec (h.scaled (scaleRot3d s)) hn hb0 hb1 fast hv (out := none)
    (by intro o ho; cases ho)
  have t := fsInit_row (g := g) (h.scaled (scaleRot3d s))
  rw [show (scaled (scaleRot3d s) M).bs0 = 3 from hb0, show (scaled (scaleRot3d s) M).bs1 = 3 from hb1] at t
  refine ⟨scaled (scaleRot3d s) M, a, t, a1, ?_⟩
  rw [b1, a2.scale (b2.congr fun i _ r _ => rowProduct_scaled (scaleRot3d_entry s) M n 3 v i r)]

/-- C69: blocks. -/
theorem C69_mul_block {g : Nat → Elem (List R)} {M : Mat (List R)} {m n : Nat} (h : RowWf M m n) (hn : 0 < n)
    (fast : Bool) (hb : fast = true → (M.bs0 ≤ 3 ∧ M.bs1 ≤ 3 ∧ ¬ (M.bs0 = 1 ∧ M.bs1 = 1)))
    {v : List R} (hv : v.length = n * M.bs1) (s : R) :
    ∃ M' a, scalarMul g .fsrBlock (scaleBlock s) M = .ok M' ∧ fsrBlockMatvec fast M v none = .ok a ∧
      fsrBlockMatvec fast M' v none = .ok (a.map (s * ·)) := by
  have hok : fast = true → BlockOk M.bs0 M.bs1 := fun hf => ⟨h.pos.1, (hb hf).1, h.pos.2, (hb hf).2⟩
  obtain ⟨a, a1, a2⟩ := fsrBlockMatvec_spec h hn fast hok hv (out := none) (by intro o ho; cases ho)
  obtain ⟨b, b1, b2⟩ := fsrBlockMatvec_spec (h.scaled (scaleBlock s)) hn fast hok hv (out := none)
    (by intro o ho; cases ho)
  refine ⟨scaled (scaleBlock s) M, a, fsInit_row (g := g) (h.scaled (scaleBlock s)), a1, ?_⟩
  rw [b1, a2.scale (b2.congr fun i _ r _ => rowProduct_scaled (scaleBlock_entry s _) M n M.bs1 v i r)]

/-- C69: 2d rotations, column storage. -/
theorem C69_mul_fsc_rot2d {g : Nat → Elem (Rot2d R)} {M : Mat (Rot2d R)} {m n : Nat} (h : ColWf M m n) (hm : 0 < m)
    (hb0 : M.bs0 = 2) (hb1 : M.bs1 = 2) (fast : Bool) {v : List R} (hv : v.length = m * 2) (s : R) :
    ∃ M' a, scalarMul g .fscRot2d (scaleRot2d s) M = .ok M' ∧ fscRot2dMatvec fast M v none = .ok a ∧
      fscRot2dMatvec fast M' v none = .ok (a.map (s * ·)) := by
  obtain ⟨a, a1, a2⟩ := fscRot2dMatvec_spec h hm hb0 hb1 fast hv (out := none) (by intro o ho; cases ho)
  obtain ⟨b, b1, b2⟩ := fscRot2dMatvec_spec (h.scaled (scaleRot2d s)) hm hb0 hb1 fast hv (out := none)
    (by intro o ho; cases ho)
  have t := fsInit_col (g := g) (h.scaled (scaleRot2d s))
  rw [show (scaled (scaleRot2d s) M).bs0 = 2 from hb0, show (scaled (scaleRot2d s) M).bs1 = 2 from hb1] at t
  refine ⟨scaled (scaleRot2d s) M, a, t, a1, ?_⟩
  rw [b1, a2.scale (b2.congr fun i _ r _ => colProduct_scaled (fun x r c => scaleRot2d_entry s x c r) M m 2 v i r)]

/-- C69: 3d rotations, column storage. -/
theorem C69_mul_fsc_rot3d {g : Nat → Elem (Rot3d R)} {M : Mat (Rot3d R)} {m n : Nat} (h : ColWf M m n) (hm : 0 < m)
    (hb0 : M.bs0 = 3) (hb1 : M.bs1 = 3) (fast : Bool) {v : List R} (hv : v.length = m * 3) (s : R) :
    ∃ M' a, scalarMul g .fscRot3d (scaleRot3d s) M = .ok M' ∧ fscRot3dMatvec fast M v none = .ok a ∧
      fscRot3dMatvec fast M' v none = .ok (a.map (s * ·)) := by
  obtain ⟨a, a1, a2⟩ := fscRot3dMatvec_spec h hm hb0 hb1 fast hv (out := none) (by intro o ho; cases ho)
  obtain ⟨b, b1, b2⟩ := fscRot3dMatvec_spec (h.scaled (scaleRot3d s)) hm hb0 hb1 fast hv (out := none)
    (by intro o ho; cases ho)
  have t := fsInit_col (g := g) (h.scaled (scaleRot3d s))
  rw [show (scaled (scaleRot3d s) M).bs0 = 3 from hb0, show (scaled (scaleRot3d s) M).bs1 = 3 from hb1] at t
  refine ⟨scaled (scaleRot3d s) M, a, t, a1, ?_⟩
  rw [b1, a2.scale (b2.congr fun i _ r _ => colProduct_scaled (fun x r c => scaleRot3d_entry s x c r) M m 3 v i r)]

/-- C69: blocks, column storage (the constructor only accepts the sizes that have a kernel). -/
theorem C69_mul_fsc_block {g : Nat → Elem (List R)} {M : Mat (List R)} {m n : Nat} (h : ColWf M m n) (hm : 0 < m)
    (fast : Bool) (hb : M.bs0 ≤ 3 ∧ M.bs1 ≤ 3 ∧ ¬ (M.bs0 = 1 ∧ M.bs1 = 1))
    {v : List R} (hv : v.length = m * M.bs1) (s : R) :
    ∃ M' a, scalarMul g .fscBlock (scaleBlock s) M = .ok M' ∧ fscBlockMatvec fast M v none = .ok a ∧
      fscBlockMatvec fast M' v none = .ok (a.map (s * ·)) := by
  have hok : BlockOk M.bs0 M.bs1 := ⟨h.pos.1, hb.1, h.pos.2, hb.2⟩
  have hok' : BlockOk M.bs1 M.bs0 := ⟨h.pos.2, hb.2.1, h.pos.1, hb.1, fun hh => hb.2.2 ⟨hh.2, hh.1⟩⟩
  obtain ⟨a, a1, a2⟩ := fscBlockMatvec_spec h hm fast (fun _ => hok') hv (out := none) (by intro o ho; cases ho)
  obtain ⟨b, b1, b2⟩ := fscBlockMatvec_spec (h.scaled (scaleBlock s)) hm fast (fun _ => hok') hv (out := none)
    (by intro o ho; cases ho)
  refine ⟨scaled (scaleBlock s) M, a, ?_, a1, ?_⟩
  · unfold scalarMul construct
    simp only
    rw [checkBlock_ok hok]
    exact fsInit_col (g := g) (h.scaled (scaleBlock s))
  · rw [b1, a2.scale (b2.congr fun i _ r _ => colProduct_scaled (fun x r c => scaleBlock_entry s _ x c r) M m M.bs1 v i r)]

example : (scalarMul (fun _ => ⟨0, 0⟩) .fsr (· * 2) exFsr).bind (fun M => fsrMatvec true M [1, 10, 100] none) = .ok [100, -800] := by
  decide
example := C69_mul_fsr (g := fun _ => ⟨0, 0⟩) exFsr_wf (by decide) rfl rfl true (ext := 1) (by decide) (v := [1, 10, 100]) rfl 2
example := C69_mul_fsc (g := fun _ => ⟨0, 0⟩) exFsc_wf (by decide) rfl rfl true (ext := 1) (by decide) (v := [1, 10]) rfl 2
example := C69_mul_rot2d (g := fun _ => ⟨0, 0, 0⟩) exFsrRot2d_wf (by decide) rfl rfl true (v := [1, 10]) rfl 2
example := C69_mul_rot3d (g := fun _ => ⟨0, 0, 0, 0⟩) exFsrRot3d_wf (by decide) rfl rfl true (v := [1, 10, 1, 2, 3, 4]) rfl 2
example := C69_mul_block (g := fun _ => ⟨0, []⟩) exFsrBlock_wf (by decide) true (by decide) (v := [1, 10, 1, 2, 3, 4]) rfl 2
example := C69_mul_fsc_rot2d (g := fun _ => ⟨0, 0, 0⟩) exFscRot2d_wf (by decide) rfl rfl true (v := [1, 10, 3, 4]) rfl 2
example := C69_mul_fsc_rot3d (g := fun _ => ⟨0, 0, 0, 0⟩) exFscRot3d_wf (by decide) rfl rfl true (v := [1, 10, 1]) rfl 2
example := C69_mul_fsc_block (g := fun _ => ⟨0, []⟩) exFscBlock_wf (by decide) true (by decide) (v := [1, 10]) rfl 2
example := C69_copy_row (g := fun _ => ⟨0, 0⟩) exFsr_wf
example := C69_copy_col (g := fun _ => ⟨0, 0⟩) exFsc_wf

/-! ### C70: sizes of the blocks -/

/-- C70: the column storage only accepts the block sizes that have a kernel. -/
theorem C70_fsc_sizes {β} {g : Nat → Elem β} {shape bs : Nat × Nat} {nmax : Option Nat} {data : Option (Data β)} {M : Mat β}
    (h : construct g .fscBlock shape bs nmax data = .ok M) :
    (bs.1 = 1 ∨ bs.1 = 2 ∨ bs.1 = 3) ∧ (bs.2 = 1 ∨ bs.2 = 2 ∨ bs.2 = 3) ∧ ¬ (bs.1 = 1 ∧ bs.2 = 1) := by
  unfold construct checkBlock at h
  simp only at h
  by_cases h1 : bs = (1, 1)
  · rw [if_pos h1] at h; cases h
  · rw [if_neg h1] at h
    by_cases h2 : (bs.1 = 1 ∨ bs.1 = 2 ∨ bs.1 = 3) ∧ (bs.2 = 1 ∨ bs.2 = 2 ∨ bs.2 = 3)
    · exact ⟨h2.1, h2.2, fun hh => h1 (Prod.ext hh.1 hh.2)⟩
    · rw [if_neg h2] at h; cases h

example : ∃ M, construct (fun _ => ⟨0, [(0 : Int)]⟩) .fscBlock (4, 6) (2, 3) (some 1) none = .ok M := ⟨_, rfl⟩
example : construct (fun _ => ⟨0, [(0 : Int)]⟩) .fscBlock (4, 8) (2, 4) (some 1) none = .error .notImplementedError := by decide

/-- C70 is false of the row storage: blocks of shape (1, 1) or (4, 1) are accepted, and then the compiled product
silently leaves the output unchanged whereas the pure Python product is correct. -/
theorem C70_violation :
    (let M : Mat (List Int) := { nrow := 1, ncol := 1, bs0 := 1, bs1 := 1, nlines := 1, nmax := 1, flat := [⟨0, [5]⟩] }
     construct (fun _ => ⟨0, []⟩) .fsrBlock (1, 1) (1, 1) none (some M.data) = .ok M ∧
     fsrBlockMatvec true M [2] none = .ok [0] ∧ fsrBlockMatvec false M [2] none = .ok [10]) ∧
    (let M : Mat (List Int) := { nrow := 4, ncol := 1, bs0 := 4, bs1 := 1, nlines := 1, nmax := 1, flat := [⟨0, [5, 6, 7, 8]⟩] }
     construct (fun _ => ⟨0, []⟩) .fsrBlock (4, 1) (4, 1) none (some M.data) = .ok M ∧
     fsrBlockMatvec true M [2] none = .ok [0, 0, 0, 0] ∧ fsrBlockMatvec false M [2] none = .ok [10, 12, 14, 16]) := by decide

end Verif.Sparse
