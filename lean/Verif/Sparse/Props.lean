import Verif.Sparse.Matvec
import Verif.Sparse.Ctor

/-! Properties C26, C27, C28, C30 and C31: products by fixed-sparse matrices. -/
namespace Verif.Sparse
open Verif.Py Finset

variable {R : Type} [CommRing R]

/-- The scalar product of two arrays. -/
def dot (a b : List R) : R := (List.zipWith (· * ·) a b).sum

/-! ### C26 -/

theorem homEntry_sum {M : Mat R} {ext r : Nat} (hr : r < ext) (i k : Nat) (f : Nat → R) :
    ∑ c ∈ range ext, lineEntry homEntry M i k r c * f c = lineEntry scalarEntry M i k 0 0 * f r := by
  rw [Finset.sum_eq_single r]
  · congr 1
    unfold lineEntry
    apply Finset.sum_congr rfl
    intro j _
    cases M.flat[i * M.nmax + j]? <;> simp [homEntry, scalarEntry]
  · intro c _ hc
    have : lineEntry homEntry M i k r c = 0 := by
      unfold lineEntry
      apply Finset.sum_eq_zero
      intro j _
      cases M.flat[i * M.nmax + j]? with
      | none => rfl
      | some e => simp [homEntry, Ne.symm hc]
    rw [this, zero_mul]
  · intro h
    exact absurd (Finset.mem_range.2 hr) h

omit [CommRing R] in
theorem AddsProduct.congr [CommRing R] {m p : Nat} {g g' : Nat → Nat → R} {o o' : List R} (h : AddsProduct m p g o o')
    (hg : ∀ i, i < m → ∀ r, r < p → g i r = g' i r) : AddsProduct m p g' o o' := by
  refine ⟨h.1, fun i hi r hr => ?_⟩
  rw [h.2 i hi r hr, hg i hi r hr]

/-- C26: for every row storage with `m` rows, `n` columns, for every number `ext` of trailing components, in the
compiled (`fast`, with its special case for one element per row and its block homothety) and in the pure Python
implementations, the product is the dense product; it is added to the output if there is one.
Missing: matrices without column, and matrices without row applied with an output, for which the code raises
(`C26_violation_empty`). -/
theorem C26_fsr_partial {M : Mat R} {m n : Nat} (h : RowWf M m n) (hn : 0 < n) (hb0 : M.bs0 = 1) (hb1 : M.bs1 = 1) (fast : Bool)
    {ext : Nat} (hext : 0 < ext) {v : List R} (hv : v.length = n * ext) {out : Option (List R)}
    (hz : 0 < m ∨ out = none) (hout : ∀ o, out = some o → o.length = m * ext) :
    ∃ out', fsrMatvec fast M v out = .ok out' ∧
      AddsProduct m ext (fun i r => ∑ k ∈ range n, lineEntry scalarEntry M i k 0 0 * v.getD (k * ext + r) 0)
        (initial (m * ext) out) out' := by
  obtain ⟨o, h1, h2⟩ := fsrMatvec_spec h hn hb0 hb1 fast hext hv hz hout
  refine ⟨o, h1, h2.congr ?_⟩
  intro i _ r hr
  unfold rowProduct
  apply Finset.sum_congr rfl
  intro k _
  exact homEntry_sum hr i k (fun c => v.getD (k * ext + c) 0)

/-- C26: the inputs whose size is not a multiple of the number of columns are rejected. -/
theorem C26_rejects {M : Mat R} {fast : Bool} {v : List R} {out : Option (List R)} (hn : 0 < M.ncol)
    (hv : ¬ M.ncol ∣ v.length) : fsrMatvec fast M v out = .error .valueError := by
  unfold fsrMatvec prepare validScalar
  rw [if_neg (by omega), if_pos (fun h => hv (Nat.dvd_of_mod_eq_zero h))]
  rfl

/-- A matrix with two rows, three columns, two elements per row: a repeated index and a missing one. -/
def exFsr : Mat Int :=
  { nrow := 2, ncol := 3, bs0 := 1, bs1 := 1, nlines := 2, nmax := 2, flat := [⟨1, 2⟩, ⟨1, 3⟩, ⟨-1, 7⟩, ⟨2, -4⟩] }

theorem exFsr_wf : RowWf exFsr 2 3 := ⟨by decide, by decide, by decide, by decide, by decide, by decide⟩

example : fsrMatvec true exFsr [10, 20, 30, 40, 50, 60] none = .ok [150, 200, -200, -240] := by decide
example : fsrMatvec false exFsr [10, 20, 30, 40, 50, 60] none = .ok [150, 200, -200, -240] := by decide
example : fsrMatvec true exFsr [1, 10, 100] (some [1000, 1000]) = .ok [1050, 600] := by decide
example : ∃ out', fsrMatvec true exFsr [1, 10, 100] (some [1000, 1000]) = .ok out' ∧ AddsProduct 2 1
    (fun i r => ∑ k ∈ range 3, lineEntry scalarEntry exFsr i k 0 0 * [1, 10, 100].getD (k * 1 + r) 0) [1000, 1000] out' :=
  C26_fsr_partial exFsr_wf (by decide) rfl rfl true (by decide) rfl (by decide) (by intro o ho; cases ho; rfl)
example : fsrMatvec true exFsr [1, 10] none = .error .valueError := C26_rejects (by decide) (by decide)

/-- C26 is false for matrices without row: `SparseOperator.direct` gives its output to `_matvec`, which divides by the
number of rows. -/
theorem C26_violation_empty (fast : Bool) :
    fsrMatvec fast { nrow := 0, ncol := 1, bs0 := 1, bs1 := 1, nlines := 0, nmax := 1, flat := [] } [(1 : Int)] (some [])
      = .error .zeroDivisionError := by
  cases fast <;> decide

/-! ### C27 -/

/-- C27: the same for the column storage with `m` columns and `n` rows: the elements of the line `i` are in the
column `i`. -/
theorem C27_fsc_partial {M : Mat R} {m n : Nat} (h : ColWf M m n) (hm : 0 < m) (hb0 : M.bs0 = 1) (hb1 : M.bs1 = 1) (fast : Bool)
    {ext : Nat} (hext : 0 < ext) {v : List R} (hv : v.length = m * ext) {out : Option (List R)}
    (hz : 0 < n ∨ out = none) (hout : ∀ o, out = some o → o.length = n * ext) :
    ∃ out', fscMatvec fast M v out = .ok out' ∧
      AddsProduct n ext (fun k r => ∑ i ∈ range m, lineEntry scalarEntry M i k 0 0 * v.getD (i * ext + r) 0)
        (initial (n * ext) out) out' := by
  obtain ⟨o, h1, h2⟩ := fscMatvec_spec h hm hb0 hb1 fast hext hv hz hout
  refine ⟨o, h1, h2.congr ?_⟩
  intro k _ r hr
  unfold colProduct
  apply Finset.sum_congr rfl
  intro i _
  exact homEntry_sum hr i k (fun c => v.getD (i * ext + c) 0)

/-- C27: the inputs whose size is not a multiple of the number of columns are rejected. -/
theorem C27_rejects {M : Mat R} {fast : Bool} {v : List R} {out : Option (List R)} (hn : 0 < M.ncol)
    (hv : ¬ M.ncol ∣ v.length) : fscMatvec fast M v out = .error .valueError := by
  unfold fscMatvec prepare validScalar
  rw [if_neg (by omega), if_pos (fun h => hv (Nat.dvd_of_mod_eq_zero h))]
  rfl

/-- The same elements as a column storage. -/
def exFsc : Mat Int :=
  { nrow := 3, ncol := 2, bs0 := 1, bs1 := 1, nlines := 2, nmax := 2, flat := [⟨1, 2⟩, ⟨1, 3⟩, ⟨-1, 7⟩, ⟨2, -4⟩] }

theorem exFsc_wf : ColWf exFsc 2 3 := ⟨by decide, by decide, by decide, by decide, by decide, by decide⟩

example : fscMatvec true exFsc [10, 20, 30, 40] none = .ok [0, 0, 50, 100, -120, -160] := by decide
example : fscMatvec false exFsc [10, 20, 30, 40] none = .ok [0, 0, 50, 100, -120, -160] := by decide
example : fscMatvec true exFsc [1, 10] (some [7, 7, 7]) = .ok [7, 12, -33] := by decide
example : ∃ out', fscMatvec true exFsc [10, 20, 30, 40] none = .ok out' ∧ AddsProduct 3 2
    (fun k r => ∑ i ∈ range 2, lineEntry scalarEntry exFsc i k 0 0 * [10, 20, 30, 40].getD (i * 2 + r) 0)
    (List.replicate 6 0) out' :=
  C27_fsc_partial exFsc_wf (by decide) rfl rfl true (by decide) rfl (by decide) (by intro o ho; cases ho)

/-- C27 is false for matrices without row. -/
theorem C27_violation_empty (fast : Bool) :
    fscMatvec fast { nrow := 0, ncol := 1, bs0 := 1, bs1 := 1, nlines := 1, nmax := 0, flat := [] } [(1 : Int)] (some [])
      = .error .zeroDivisionError := by
  cases fast <;> decide

/-! ### C30 -/

/-- C30, row storage: for every implemented block size in the compiled code (and every block size in the pure Python code)
the component `r` of the block row `i` is the sum over the block columns `k` and their components `c` of the
entry of the dense matrix multiplied by the input.
Missing: matrices without column (`C30_violation_empty`). -/
theorem C30_fsr_partial {M : Mat (List R)} {m n : Nat} (h : RowWf M m n) (hn : 0 < n) (fast : Bool)
    (hb : fast = true → (M.bs0 ≤ 3 ∧ M.bs1 ≤ 3 ∧ ¬ (M.bs0 = 1 ∧ M.bs1 = 1)))
    {v : List R} (hv : v.length = n * M.bs1) {out : Option (List R)}
    (hout : ∀ o, out = some o → o.length = m * M.bs0) :
    ∃ out', fsrBlockMatvec fast M v out = .ok out' ∧
      AddsProduct m M.bs0 (fun i r => ∑ k ∈ range n, ∑ c ∈ range M.bs1,
        lineEntry (blockEntry M.bs1) M i k r c * v.getD (k * M.bs1 + c) 0) (initial (m * M.bs0) out) out' :=
  fsrBlockMatvec_spec h hn fast (fun hf => ⟨h.pos.1, (hb hf).1, h.pos.2, (hb hf).2⟩) hv hout

/-- C30, column storage: the transposed blocks. -/
theorem C30_fsc_partial {M : Mat (List R)} {m n : Nat} (h : ColWf M m n) (hm : 0 < m) (fast : Bool)
    (hb : fast = true → (M.bs0 ≤ 3 ∧ M.bs1 ≤ 3 ∧ ¬ (M.bs0 = 1 ∧ M.bs1 = 1)))
    {v : List R} (hv : v.length = m * M.bs1) {out : Option (List R)}
    (hout : ∀ o, out = some o → o.length = n * M.bs0) :
    ∃ out', fscBlockMatvec fast M v out = .ok out' ∧
      AddsProduct n M.bs0 (fun k r => ∑ i ∈ range m, ∑ c ∈ range M.bs1,
        lineEntry (blockEntry M.bs0) M i k c r * v.getD (i * M.bs1 + c) 0) (initial (n * M.bs0) out) out' :=
  fscBlockMatvec_spec h hm fast (fun hf => ⟨h.pos.2, (hb hf).2.1, h.pos.1, (hb hf).1,
    fun hh => (hb hf).2.2 ⟨hh.2, hh.1⟩⟩) hv hout

/-- One block `[[1, 2, 3], [4, 5, 6]]` in the second block column. -/
def exFsrBlock : Mat (List Int) :=
  { nrow := 2, ncol := 6, bs0 := 2, bs1 := 3, nlines := 1, nmax := 1, flat := [⟨1, [1, 2, 3, 4, 5, 6]⟩] }

/-- Its transpose. -/
def exFscBlock : Mat (List Int) :=
  { nrow := 6, ncol := 2, bs0 := 3, bs1 := 2, nlines := 1, nmax := 1, flat := [⟨1, [1, 2, 3, 4, 5, 6]⟩] }

theorem exFsrBlock_wf : RowWf exFsrBlock 1 2 := ⟨by decide, by decide, by decide, by decide, by decide, by decide⟩
theorem exFscBlock_wf : ColWf exFscBlock 1 2 := ⟨by decide, by decide, by decide, by decide, by decide, by decide⟩

example : fsrBlockMatvec true exFsrBlock [0, 0, 0, 1, 10, 100] none = .ok [321, 654] := by decide
example : fsrBlockMatvec false exFsrBlock [0, 0, 0, 1, 10, 100] none = .ok [321, 654] := by decide
example : fscBlockMatvec true exFscBlock [1, 10] none = .ok [0, 0, 0, 41, 52, 63] := by decide
example : fscBlockMatvec false exFscBlock [1, 10] none = .ok [0, 0, 0, 41, 52, 63] := by decide
example : ∃ out', fsrBlockMatvec true exFsrBlock [0, 0, 0, 1, 10, 100] none = .ok out' ∧ AddsProduct 1 2
    (fun i r => ∑ k ∈ range 2, ∑ c ∈ range 3, lineEntry (blockEntry 3) exFsrBlock i k r c *
      [0, 0, 0, 1, 10, 100].getD (k * 3 + c) 0) [0, 0] out' :=
  C30_fsr_partial exFsrBlock_wf (by decide) true (by decide) rfl (by intro o ho; cases ho)
example : ∃ out', fscBlockMatvec true exFscBlock [1, 10] none = .ok out' ∧ AddsProduct 2 3
    (fun k r => ∑ i ∈ range 1, ∑ c ∈ range 2, lineEntry (blockEntry 3) exFscBlock i k c r *
      [1, 10].getD (i * 2 + c) 0) [0, 0, 0, 0, 0, 0] out' :=
  C30_fsc_partial exFscBlock_wf (by decide) true (by decide) rfl (by intro o ho; cases ho)

/-- C30 is false for matrices without column. -/
theorem C30_violation_empty (fast : Bool) :
    fsrBlockMatvec fast { nrow := 1, ncol := 0, bs0 := 1, bs1 := 2, nlines := 1, nmax := 0, flat := [] } ([] : List Int) none
      = .error .zeroDivisionError ∧
    fscBlockMatvec fast { nrow := 1, ncol := 0, bs0 := 1, bs1 := 2, nlines := 0, nmax := 1, flat := [] } ([] : List Int) none
      = .error .zeroDivisionError := by
  cases fast <;> decide

/-! ### C31 -/

/-- C31: row storage of 2d rotations.  Missing (here and in the three theorems below): matrices without column
(`C31_violation_empty`). -/
theorem C31_fsr_rot2d_partial {M : Mat (Rot2d R)} {m n : Nat} (h : RowWf M m n) (hn : 0 < n) (hb0 : M.bs0 = 2) (hb1 : M.bs1 = 2)
    (fast : Bool) {v : List R} (hv : v.length = n * 2) {out : Option (List R)}
    (hout : ∀ o, out = some o → o.length = m * 2) :
    ∃ out', fsrRot2dMatvec fast M v out = .ok out' ∧
      AddsProduct m 2 (fun i r => ∑ k ∈ range n, ∑ c ∈ range 2, lineEntry rot2dEntry M i k r c * v.getD (k * 2 + c) 0)
        (initial (m * 2) out) out' := fsrRot2dMatvec_spec h hn hb0 hb1 fast hv hout

/-- C31: column storage of 2d rotations, transposed blocks. -/
theorem C31_fsc_rot2d_partial {M : Mat (Rot2d R)} {m n : Nat} (h : ColWf M m n) (hm : 0 < m) (hb0 : M.bs0 = 2) (hb1 : M.bs1 = 2)
    (fast : Bool) {v : List R} (hv : v.length = m * 2) {out : Option (List R)}
    (hout : ∀ o, out = some o → o.length = n * 2) :
    ∃ out', fscRot2dMatvec fast M v out = .ok out' ∧
      AddsProduct n 2 (fun k r => ∑ i ∈ range m, ∑ c ∈ range 2, lineEntry rot2dEntry M i k c r * v.getD (i * 2 + c) 0)
        (initial (n * 2) out) out' := by
  obtain ⟨o, h1, h2⟩ := fscRot2dMatvec_spec h hm hb0 hb1 fast hv hout
  exact ⟨o, h1, h2⟩

/-- C31: row storage of 3d rotations. -/
theorem C31_fsr_rot3d_partial {M : Mat (Rot3d R)} {m n : Nat} (h : RowWf M m n) (hn : 0 < n) (hb0 : M.bs0 = 3) (hb1 : M.bs1 = 3)
    (fast : Bool) {v : List R} (hv : v.length = n * 3) {out : Option (List R)}
    (hout : ∀ o, out = some o → o.length = m * 3) :
    ∃ out', fsrRot3dMatvec fast M v out = .ok out' ∧
      AddsProduct m 3 (fun i r => ∑ k ∈ range n, ∑ c ∈ range 3, lineEntry rot3dEntry M i k r c * v.getD (k * 3 + c) 0)
        (initial (m * 3) out) out' := fsrRot3dMatvec_spec h hn hb0 hb1 fast hv hout

/-- C31: column storage of 3d rotations, transposed blocks. -/
theorem C31_fsc_rot3d_partial {M : Mat (Rot3d R)} {m n : Nat} (h : ColWf M m n) (hm : 0 < m) (hb0 : M.bs0 = 3) (hb1 : M.bs1 = 3)
    (fast : Bool) {v : List R} (hv : v.length = m * 3) {out : Option (List R)}
    (hout : ∀ o, out = some o → o.length = n * 3) :
    ∃ out', fscRot3dMatvec fast M v out = .ok out' ∧
      AddsProduct n 3 (fun k r => ∑ i ∈ range m, ∑ c ∈ range 3, lineEntry rot3dEntry M i k c r * v.getD (i * 3 + c) 0)
        (initial (n * 3) out) out' := by
  obtain ⟨o, h1, h2⟩ := fscRot3dMatvec_spec h hm hb0 hb1 fast hv hout
  exact ⟨o, h1, h2⟩

/-- C31 is false for matrices without column. -/
theorem C31_violation_empty (fast : Bool) :
    fsrRot2dMatvec fast { nrow := 2, ncol := 0, bs0 := 2, bs1 := 2, nlines := 1, nmax := 0, flat := [] } ([] : List Int) none
      = .error .zeroDivisionError ∧
    fscRot3dMatvec fast { nrow := 3, ncol := 0, bs0 := 3, bs1 := 3, nlines := 0, nmax := 1, flat := [] } ([] : List Int) none
      = .error .zeroDivisionError := by
  cases fast <;> decide

/-- Two block rows, one pixel: a rotation and a missing element. -/
def exFsrRot2d : Mat (Rot2d Int) :=
  { nrow := 4, ncol := 2, bs0 := 2, bs1 := 2, nlines := 2, nmax := 1, flat := [⟨0, ⟨3, 4⟩⟩, ⟨-1, ⟨1, 1⟩⟩] }
def exFscRot2d : Mat (Rot2d Int) :=
  { nrow := 2, ncol := 4, bs0 := 2, bs1 := 2, nlines := 2, nmax := 1, flat := [⟨0, ⟨3, 4⟩⟩, ⟨-1, ⟨1, 1⟩⟩] }
def exFsrRot3d : Mat (Rot3d Int) :=
  { nrow := 3, ncol := 6, bs0 := 3, bs1 := 3, nlines := 1, nmax := 1, flat := [⟨1, ⟨2, 3, 4⟩⟩] }
def exFscRot3d : Mat (Rot3d Int) :=
  { nrow := 6, ncol := 3, bs0 := 3, bs1 := 3, nlines := 1, nmax := 1, flat := [⟨1, ⟨2, 3, 4⟩⟩] }

theorem exFsrRot2d_wf : RowWf exFsrRot2d 2 1 := ⟨by decide, by decide, by decide, by decide, by decide, by decide⟩
theorem exFscRot2d_wf : ColWf exFscRot2d 2 1 := ⟨by decide, by decide, by decide, by decide, by decide, by decide⟩
theorem exFsrRot3d_wf : RowWf exFsrRot3d 1 2 := ⟨by decide, by decide, by decide, by decide, by decide, by decide⟩
theorem exFscRot3d_wf : ColWf exFscRot3d 1 2 := ⟨by decide, by decide, by decide, by decide, by decide, by decide⟩

example (fast : Bool) : fsrRot2dMatvec fast exFsrRot2d [1, 10] none = .ok [-37, 34, 0, 0] := by cases fast <;> decide
example (fast : Bool) : fscRot2dMatvec fast exFscRot2d [1, 10, 5, 5] none = .ok [43, 26] := by cases fast <;> decide
example (fast : Bool) : fsrRot3dMatvec fast exFsrRot3d [0, 0, 0, 1, 10, 100] none = .ok [2, -370, 340] := by
  cases fast <;> decide
example (fast : Bool) : fscRot3dMatvec fast exFscRot3d [1, 10, 100] none = .ok [0, 0, 0, 2, 430, 260] := by
  cases fast <;> decide
example (fast : Bool) : ∃ out', fsrRot2dMatvec fast exFsrRot2d [1, 10] none = .ok out' ∧ AddsProduct 2 2
    (fun i r => ∑ k ∈ range 1, ∑ c ∈ range 2, lineEntry rot2dEntry exFsrRot2d i k r c * [1, 10].getD (k * 2 + c) 0)
    [0, 0, 0, 0] out' := C31_fsr_rot2d_partial exFsrRot2d_wf (by decide) rfl rfl fast rfl (by intro o ho; cases ho)
example (fast : Bool) : ∃ out', fscRot2dMatvec fast exFscRot2d [1, 10, 5, 5] none = .ok out' ∧ AddsProduct 1 2
    (fun k r => ∑ i ∈ range 2, ∑ c ∈ range 2, lineEntry rot2dEntry exFscRot2d i k c r * [1, 10, 5, 5].getD (i * 2 + c) 0)
    [0, 0] out' := C31_fsc_rot2d_partial exFscRot2d_wf (by decide) rfl rfl fast rfl (by intro o ho; cases ho)
example (fast : Bool) : ∃ out', fsrRot3dMatvec fast exFsrRot3d [0, 0, 0, 1, 10, 100] none = .ok out' ∧ AddsProduct 1 3
    (fun i r => ∑ k ∈ range 2, ∑ c ∈ range 3, lineEntry rot3dEntry exFsrRot3d i k r c *
      [0, 0, 0, 1, 10, 100].getD (k * 3 + c) 0)
    [0, 0, 0] out' := C31_fsr_rot3d_partial exFsrRot3d_wf (by decide) rfl rfl fast rfl (by intro o ho; cases ho)
example (fast : Bool) : ∃ out', fscRot3dMatvec fast exFscRot3d [1, 10, 100] none = .ok out' ∧ AddsProduct 2 3
    (fun k r => ∑ i ∈ range 1, ∑ c ∈ range 3, lineEntry rot3dEntry exFscRot3d i k c r *
      [1, 10, 100].getD (i * 3 + c) 0)
    [0, 0, 0, 0, 0, 0] out' := C31_fsc_rot3d_partial exFscRot3d_wf (by decide) rfl rfl fast rfl (by intro o ho; cases ho)

/-! ### C28 -/

theorem sum_range_mul (m p : Nat) (f : Nat → R) :
    ∑ P ∈ range (m * p), f P = ∑ i ∈ range m, ∑ r ∈ range p, f (i * p + r) := by
  induction m with
  | zero => simp
  | succ m ih => rw [Nat.add_mul, Nat.one_mul, Finset.sum_range_add, ih, Finset.sum_range_succ]

/-- The scalar product with the result of a product started from zeros. -/
theorem dot_of_adds {m p : Nat} {g : Nat → Nat → R} {a y : List R} (h : AddsProduct m p g (initial (m * p) none) a)
    (hy : y.length = m * p) :
    dot a y = ∑ i ∈ range m, ∑ r ∈ range p, g i r * y.getD (i * p + r) 0 := by
  have ha : a = (List.range (m * p)).map fun P => g (P / p) (P % p) := by
    apply List.ext_getElem?
    intro P
    by_cases hP : P < m * p
    · have := h.2 (P / p) (div_lt_of hP) (P % p) (mod_lt_of hP)
      rw [Nat.div_add_mod'] at this
      rw [this]
      simp [initial, hP]
    · rw [List.getElem?_eq_none (by rw [h.1]; omega), List.getElem?_eq_none (by simp; omega)]
  have hyy : y = (List.range (m * p)).map fun P => y.getD P 0 := by
    apply List.ext_getElem?
    intro P
    by_cases hP : P < m * p
    · simp [hP, List.getElem?_eq_getElem (show P < y.length by omega)]
    · rw [List.getElem?_eq_none (by omega), List.getElem?_eq_none (by simp; omega)]
  unfold dot
  rw [ha]
  conv_lhs => rw [hyy]
  rw [List.zipWith_map_left, List.zipWith_map_right, List.zipWith_self, list_sum_range, sum_range_mul]
  apply Finset.sum_congr rfl
  intro i _
  apply Finset.sum_congr rfl
  intro r hr
  rw [pos_div (Finset.mem_range.1 hr), pos_mod (Finset.mem_range.1 hr)]

theorem dot_comm (a b : List R) : dot a b = dot b a := by
  unfold dot
  rw [List.zipWith_comm]
  congr 2
  funext x y
  ring

/-- The row and the column products by the same elements are adjoint. -/
theorem adjoint {β} (entry : β → Nat → Nat → R) (M : Mat β) {M' : Mat β} (hM : M'.nmax = M.nmax) (hM' : M'.flat = M.flat)
    {m n p q : Nat} {x y a b : List R} (hx : x.length = n * q) (hy : y.length = m * p)
    (ha : AddsProduct m p (rowProduct entry M n q x) (initial (m * p) none) a)
    (hb : AddsProduct n q (colProduct (fun e r c => entry e c r) M' m p y) (initial (n * q) none) b) :
    dot a y = dot x b := by
  rw [dot_of_adds ha hy, dot_comm x b, dot_of_adds hb hx]
  unfold rowProduct colProduct
  have hl : ∀ i k r c, lineEntry (fun e r c => entry e c r) M' i k r c = lineEntry entry M i k c r := by
    intro i k r c
    unfold lineEntry
    rw [hM, hM']
  simp only [hl, Finset.sum_mul]
  -- sums over (i, r, k, c) and (k, c, i, r)
  have e1 : ∀ f : Nat → Nat → Nat → Nat → R,
      ∑ i ∈ range m, ∑ r ∈ range p, ∑ k ∈ range n, ∑ c ∈ range q, f i r k c =
      ∑ k ∈ range n, ∑ c ∈ range q, ∑ i ∈ range m, ∑ r ∈ range p, f i r k c := by
    intro f
    calc _ = ∑ i ∈ range m, ∑ k ∈ range n, ∑ r ∈ range p, ∑ c ∈ range q, f i r k c := by
            exact Finset.sum_congr rfl fun i _ => Finset.sum_comm
      _ = ∑ k ∈ range n, ∑ i ∈ range m, ∑ r ∈ range p, ∑ c ∈ range q, f i r k c := Finset.sum_comm
      _ = ∑ k ∈ range n, ∑ i ∈ range m, ∑ c ∈ range q, ∑ r ∈ range p, f i r k c := by
            exact Finset.sum_congr rfl fun k _ => Finset.sum_congr rfl fun i _ => Finset.sum_comm
      _ = _ := Finset.sum_congr rfl fun k _ => Finset.sum_comm
  rw [e1]
  refine Finset.sum_congr rfl fun k _ => Finset.sum_congr rfl fun c _ => Finset.sum_congr rfl fun i _ =>
    Finset.sum_congr rfl fun r _ => ?_
  ring

/-- The matrix with the same elements, of the reversed shape. -/
def swapMat {β} (M : Mat β) : Mat β :=
  { nrow := M.ncol, ncol := M.nrow, bs0 := M.bs1, bs1 := M.bs0, nlines := M.nlines, nmax := M.nmax, flat := M.flat }

theorem RowWf.swap {β} {M : Mat β} {m n : Nat} (h : RowWf M m n) : ColWf (swapMat M) m n :=
  ⟨⟨h.pos.2, h.pos.1⟩, h.ncol, h.nrow, h.nlines, h.flat, h.index⟩

theorem ColWf.swap {β} {M : Mat β} {m n : Nat} (h : ColWf M m n) : RowWf (swapMat M) m n :=
  ⟨⟨h.pos.2, h.pos.1⟩, h.ncol, h.nrow, h.nlines, h.flat, h.index⟩

theorem fsInit_row {β} {g : Nat → Elem β} {M : Mat β} {m n : Nat} (h : RowWf M m n) :
    fsInit g (M.nrow, M.ncol) (M.bs0, M.bs1) none 1 (some M.data) = .ok M := by
  have := h.pos
  unfold fsInit
  rw [if_neg (by simp only; omega), if_neg (by simp [h.nrow, h.ncol])]
  simp only
  rw [if_neg (by simp [Mat.data, axisOf, h.nlines, h.nrow]), if_neg (by simp)]
  rfl

theorem fsInit_col {β} {g : Nat → Elem β} {M : Mat β} {m n : Nat} (h : ColWf M m n) :
    fsInit g (M.nrow, M.ncol) (M.bs0, M.bs1) none 0 (some M.data) = .ok M := by
  have := h.pos
  unfold fsInit
  rw [if_neg (by simp only; omega), if_neg (by simp [h.nrow, h.ncol])]
  simp only
  rw [if_neg (by simp [Mat.data, axisOf, h.nlines, h.ncol]), if_neg (by simp)]
  rfl

/-- C28, scalar storages: for every matrix (row storage `M`, with `m` rows and `n` columns), its transpose exists, its
transpose is the matrix itself, and they are adjoint, for every number of trailing components.
Missing (here and in the theorems below): matrices without row or without column (`C28_violation_empty`). -/
theorem C28_fsr_partial {g : Nat → Elem R} {M : Mat R} {m n : Nat} (h : RowWf M m n) (hm : 0 < m) (hn : 0 < n) (hb0 : M.bs0 = 1) (hb1 : M.bs1 = 1)
    (fast fast' : Bool) {ext : Nat} (hext : 0 < ext) {x y : List R} (hx : x.length = n * ext) (hy : y.length = m * ext) :
    ∃ Mt a b, transpose g .fsr M = .ok Mt ∧ transpose g .fsc Mt = .ok M ∧
      fsrMatvec fast M x none = .ok a ∧ fscMatvec fast' Mt y none = .ok b ∧ dot a y = dot x b := by
  obtain ⟨a, a1, a2⟩ := fsrMatvec_spec h hn hb0 hb1 fast hext hx (out := none) (.inr rfl) (by intro o ho; cases ho)
  obtain ⟨b, b1, b2⟩ := fscMatvec_spec h.swap hm hb1 hb0 fast' hext hy (out := none) (.inr rfl) (by intro o ho; cases ho)
  have t1 := fsInit_col (g := g) h.swap
  have t2 := fsInit_row (g := g) h
  rw [show (swapMat M).bs0 = 1 from hb1, show (swapMat M).bs1 = 1 from hb0] at t1
  rw [hb0, hb1] at t2
  refine ⟨swapMat M, a, b, t1, t2, a1, b1, ?_⟩
  refine adjoint homEntry M (M' := swapMat M) rfl rfl hx hy a2 ?_
  refine b2.congr ?_
  intro k _ r _
  unfold colProduct
  congr 2
  funext i
  congr 2
  funext c
  congr 2
  funext e r c
  simp [homEntry, eq_comm]

/-- C28, scalar storages, from the column storage. -/
theorem C28_fsc_partial {g : Nat → Elem R} {M : Mat R} {m n : Nat} (h : ColWf M m n) (hm : 0 < m) (hn : 0 < n) (hb0 : M.bs0 = 1) (hb1 : M.bs1 = 1)
    (fast fast' : Bool) {ext : Nat} (hext : 0 < ext) {x y : List R} (hx : x.length = m * ext) (hy : y.length = n * ext) :
    ∃ Mt a b, transpose g .fsc M = .ok Mt ∧ transpose g .fsr Mt = .ok M ∧
      fscMatvec fast M x none = .ok a ∧ fsrMatvec fast' Mt y none = .ok b ∧ dot a y = dot x b := by
  obtain ⟨Mt, a, b, h1, h2, h3, h4, h5⟩ := C28_fsr_partial (g := g) h.swap hm hn hb1 hb0 fast' fast hext hy hx
  have t1 := fsInit_row (g := g) h.swap
  rw [show (swapMat M).bs0 = 1 from hb1, show (swapMat M).bs1 = 1 from hb0] at t1
  have t2 := fsInit_col (g := g) h
  rw [hb0, hb1] at t2
  have e : Mt = M := by
    have : transpose g .fsr (swapMat M) = .ok M := t2
    rw [this] at h1; cases h1; rfl
  subst e
  exact ⟨_, b, a, t1, t2, h4, h3, by rw [dot_comm, dot_comm x a, h5]⟩

/-- C28 is false for the matrices without row: the transpose cannot be applied. -/
theorem C28_violation_empty (g : Nat → Elem Int) :
    let M : Mat Int := { nrow := 0, ncol := 2, bs0 := 1, bs1 := 1, nlines := 0, nmax := 1, flat := [] }
    fsrMatvec true M [1, 2] none = .ok [] ∧
    (transpose g .fsr M).bind (fun Mt => fscMatvec true Mt [] none) = .error .zeroDivisionError := by
  constructor <;> rfl

theorem checkBlock_ok {p q : Nat} (h : BlockOk p q) : checkBlock (p, q) = .ok () := by
  unfold BlockOk at h
  unfold checkBlock
  rw [if_neg (by simp only [Prod.mk.injEq]; omega), if_pos (by simp only; omega)]

/-- C28, block storages. -/
theorem C28_fsr_block_partial {g : Nat → Elem (List R)} {M : Mat (List R)} {m n : Nat} (h : RowWf M m n) (hm : 0 < m) (hn : 0 < n)
    (hb : M.bs0 ≤ 3 ∧ M.bs1 ≤ 3 ∧ ¬ (M.bs0 = 1 ∧ M.bs1 = 1)) (fast fast' : Bool)
    {x y : List R} (hx : x.length = n * M.bs1) (hy : y.length = m * M.bs0) :
    ∃ Mt a b, transpose g .fsrBlock M = .ok Mt ∧ transpose g .fscBlock Mt = .ok M ∧
      fsrBlockMatvec fast M x none = .ok a ∧ fscBlockMatvec fast' Mt y none = .ok b ∧ dot a y = dot x b := by
  have hok : BlockOk M.bs0 M.bs1 := ⟨h.pos.1, hb.1, h.pos.2, hb.2⟩
  have hok' : BlockOk M.bs1 M.bs0 := ⟨h.pos.2, hb.2.1, h.pos.1, hb.1, fun hh => hb.2.2 ⟨hh.2, hh.1⟩⟩
  obtain ⟨a, a1, a2⟩ := fsrBlockMatvec_spec h hn fast (fun _ => hok) hx (out := none) (by intro o ho; cases ho)
  obtain ⟨b, b1, b2⟩ := fscBlockMatvec_spec h.swap hm fast' (fun _ => hok) hy (out := none) (by intro o ho; cases ho)
  refine ⟨swapMat M, a, b, ?_, ?_, a1, b1, adjoint (blockEntry M.bs1) M (M' := swapMat M) rfl rfl hx hy a2 b2⟩
  · unfold transpose construct
    simp only [Storage.transpose]
    rw [checkBlock_ok hok']
    exact fsInit_col (g := g) h.swap
  · exact fsInit_row (g := g) h

/-- C28, block storages, from the column storage. -/
theorem C28_fsc_block_partial {g : Nat → Elem (List R)} {M : Mat (List R)} {m n : Nat} (h : ColWf M m n) (hm : 0 < m) (hn : 0 < n)
    (hb : M.bs0 ≤ 3 ∧ M.bs1 ≤ 3 ∧ ¬ (M.bs0 = 1 ∧ M.bs1 = 1)) (fast fast' : Bool)
    {x y : List R} (hx : x.length = m * M.bs1) (hy : y.length = n * M.bs0) :
    ∃ Mt a b, transpose g .fscBlock M = .ok Mt ∧ transpose g .fsrBlock Mt = .ok M ∧
      fscBlockMatvec fast M x none = .ok a ∧ fsrBlockMatvec fast' Mt y none = .ok b ∧ dot a y = dot x b := by
  obtain ⟨Mt, a, b, h1, h2, h3, h4, h5⟩ := C28_fsr_block_partial (g := g) h.swap hm hn
    ⟨hb.2.1, hb.1, fun hh => hb.2.2 ⟨hh.2, hh.1⟩⟩ fast' fast hy hx
  have hok : BlockOk M.bs0 M.bs1 := ⟨h.pos.1, hb.1, h.pos.2, hb.2⟩
  have t2 : transpose g .fsrBlock (swapMat M) = .ok M := by
    unfold transpose construct
    simp only [Storage.transpose]
    rw [checkBlock_ok (p := (swapMat M).bs1) (q := (swapMat M).bs0) hok]
    exact fsInit_col (g := g) h
  rw [t2] at h1
  cases h1
  exact ⟨_, b, a, fsInit_row (g := g) h.swap, t2, h4, h3, by rw [dot_comm, dot_comm x a, h5]⟩

/-- C28, 2d rotations. -/
theorem C28_fsr_rot2d_partial {g : Nat → Elem (Rot2d R)} {M : Mat (Rot2d R)} {m n : Nat} (h : RowWf M m n) (hm : 0 < m) (hn : 0 < n)
    (hb0 : M.bs0 = 2) (hb1 : M.bs1 = 2) (fast fast' : Bool)
    {x y : List R} (hx : x.length = n * 2) (hy : y.length = m * 2) :
    ∃ Mt a b, transpose g .fsrRot2d M = .ok Mt ∧ transpose g .fscRot2d Mt = .ok M ∧
      fsrRot2dMatvec fast M x none = .ok a ∧ fscRot2dMatvec fast' Mt y none = .ok b ∧ dot a y = dot x b := by
  obtain ⟨a, a1, a2⟩ := fsrRot2dMatvec_spec h hn hb0 hb1 fast hx (out := none) (by intro o ho; cases ho)
  obtain ⟨b, b1, b2⟩ := fscRot2dMatvec_spec h.swap hm hb1 hb0 fast' hy (out := none) (by intro o ho; cases ho)
  have t1 := fsInit_col (g := g) h.swap
  have t2 := fsInit_row (g := g) h
  rw [show (swapMat M).bs0 = 2 from hb1, show (swapMat M).bs1 = 2 from hb0] at t1
  rw [hb0, hb1] at t2
  exact ⟨swapMat M, a, b, t1, t2, a1, b1, adjoint rot2dEntry M (M' := swapMat M) rfl rfl hx hy a2 b2⟩

/-- C28, 2d rotations, from the column storage. -/
theorem C28_fsc_rot2d_partial {g : Nat → Elem (Rot2d R)} {M : Mat (Rot2d R)} {m n : Nat} (h : ColWf M m n) (hm : 0 < m) (hn : 0 < n)
    (hb0 : M.bs0 = 2) (hb1 : M.bs1 = 2) (fast fast' : Bool)
    {x y : List R} (hx : x.length = m * 2) (hy : y.length = n * 2) :
    ∃ Mt a b, transpose g .fscRot2d M = .ok Mt ∧ transpose g .fsrRot2d Mt = .ok M ∧
      fscRot2dMatvec fast M x none = .ok a ∧ fsrRot2dMatvec fast' Mt y none = .ok b ∧ dot a y = dot x b := by
  obtain ⟨Mt, a, b, h1, h2, h3, h4, h5⟩ := C28_fsr_rot2d_partial (g := g) h.swap hm hn hb1 hb0 fast' fast hy hx
  have t1 := fsInit_row (g := g) h.swap
  rw [show (swapMat M).bs0 = 2 from hb1, show (swapMat M).bs1 = 2 from hb0] at t1
  have t2 := fsInit_col (g := g) h
  rw [hb0, hb1] at t2
  have e : transpose g .fsrRot2d (swapMat M) = .ok M := t2
  rw [e] at h1
  cases h1
  exact ⟨_, b, a, t1, t2, h4, h3, by rw [dot_comm, dot_comm x a, h5]⟩

/-- C28, 3d rotations. -/
theorem C28_fsr_rot3d_partial {g : Nat → Elem (Rot3d R)} {M : Mat (Rot3d R)} {m n : Nat} (h : RowWf M m n) (hm : 0 < m) (hn : 0 < n)
    (hb0 : M.bs0 = 3) (hb1 : M.bs1 = 3) (fast fast' : Bool)
    {x y : List R} (hx : x.length = n * 3) (hy : y.length = m * 3) :
    ∃ Mt a b, transpose g .fsrRot3d M = .ok Mt ∧ transpose g .fscRot3d Mt = .ok M ∧
      fsrRot3dMatvec fast M x none = .ok a ∧ fscRot3dMatvec fast' Mt y none = .ok b ∧ dot a y = dot x b := by
  obtain ⟨a, a1, a2⟩ := fsrRot3dMatvec_spec h hn hb0 hb1 fast hx (out := none) (by intro o ho; cases ho)
  obtain ⟨b, b1, b2⟩ := fscRot3dMatvec_spec h.swap hm hb1 hb0 fast' hy (out := none) (by intro o ho; cases ho)
  have t1 := fsInit_col (g := g) h.swap
  have t2 := fsInit_row (g := g) h
  rw [show (swapMat M).bs0 = 3 from hb1, show (swapMat M).bs1 = 3 from hb0] at t1
  rw [hb0, hb1] at t2
  exact ⟨swapMat M, a, b, t1, t2, a1, b1, adjoint rot3dEntry M (M' := swapMat M) rfl rfl hx hy a2 b2⟩

/-- C28, 3d rotations, from the column storage. -/
theorem C28_fsc_rot3d_partial {g : Nat → Elem (Rot3d R)} {M : Mat (Rot3d R)} {m n : Nat} (h : ColWf M m n) (hm : 0 < m) (hn : 0 < n)
    (hb0 : M.bs0 = 3) (hb1 : M.bs1 = 3) (fast fast' : Bool)
    {x y : List R} (hx : x.length = m * 3) (hy : y.length = n * 3) :
    ∃ Mt a b, transpose g .fscRot3d M = .ok Mt ∧ transpose g .fsrRot3d Mt = .ok M ∧
      fscRot3dMatvec fast M x none = .ok a ∧ fsrRot3dMatvec fast' Mt y none = .ok b ∧ dot a y = dot x b := by
  obtain ⟨Mt, a, b, h1, h2, h3, h4, h5⟩ := C28_fsr_rot3d_partial (g := g) h.swap hm hn hb1 hb0 fast' fast hy hx
  have t1 := fsInit_row (g := g) h.swap
  rw [show (swapMat M).bs0 = 3 from hb1, show (swapMat M).bs1 = 3 from hb0] at t1
  have t2 := fsInit_col (g := g) h
  rw [hb0, hb1] at t2
  have e : transpose g .fsrRot3d (swapMat M) = .ok M := t2
  rw [e] at h1
  cases h1
  exact ⟨_, b, a, t1, t2, h4, h3, by rw [dot_comm, dot_comm x a, h5]⟩

example := C28_fsr_partial (g := fun _ => ⟨0, 0⟩) exFsr_wf (by decide) (by decide) rfl rfl true false (ext := 2) (by decide)
  (x := [10, 20, 30, 40, 50, 60]) (y := [1, 2, 3, 4]) rfl rfl
example := C28_fsc_partial (g := fun _ => ⟨0, 0⟩) exFsc_wf (by decide) (by decide) rfl rfl true false (ext := 1) (by decide)
  (x := [10, 20]) (y := [1, 2, 3]) rfl rfl
example := C28_fsr_block_partial (g := fun _ => ⟨0, []⟩) exFsrBlock_wf (by decide) (by decide) (by decide) true true
  (x := [0, 0, 0, 1, 10, 100]) (y := [5, 6]) rfl rfl
example := C28_fsc_block_partial (g := fun _ => ⟨0, []⟩) exFscBlock_wf (by decide) (by decide) (by decide) true false
  (x := [5, 6]) (y := [0, 0, 0, 1, 10, 100]) rfl rfl
example := C28_fsr_rot2d_partial (g := fun _ => ⟨0, 0, 0⟩) exFsrRot2d_wf (by decide) (by decide) rfl rfl true true (x := [1, 10]) (y := [1, 2, 3, 4]) rfl rfl
example := C28_fsc_rot2d_partial (g := fun _ => ⟨0, 0, 0⟩) exFscRot2d_wf (by decide) (by decide) rfl rfl true true (x := [1, 2, 3, 4]) (y := [1, 10]) rfl rfl
example := C28_fsr_rot3d_partial (g := fun _ => ⟨0, 0, 0, 0⟩) exFsrRot3d_wf (by decide) (by decide) rfl rfl true true
  (x := [0, 0, 0, 1, 10, 100]) (y := [1, 2, 3]) rfl rfl
example := C28_fsc_rot3d_partial (g := fun _ => ⟨0, 0, 0, 0⟩) exFscRot3d_wf (by decide) (by decide) rfl rfl true true
  (x := [1, 2, 3]) (y := [0, 0, 0, 1, 10, 100]) rfl rfl
example : dot [150, 200, -200, -240] [1, 2, 3, 4] = (-1010 : Int) := by decide

end Verif.Sparse
