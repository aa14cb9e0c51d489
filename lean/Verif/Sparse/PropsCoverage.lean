import Verif.Sparse.PropsPTp

/-! C35: coverage and back-projection. -/
namespace Verif.Sparse
open Verif.Py Finset

variable {R : Type} [CommRing R]

/-- The result `value` is assigned, or added to the previous content. -/
def accumulated (op : Op) (before value : R) : R :=
  match op with
  | .assign => value
  | .iadd => before + value

/-- The array `out` becomes `out'`: the component `r` of the block `k` is `g k r`, or is incremented by `g k r`. -/
def Accumulates (op : Op) (n p : Nat) (g : Nat → Nat → R) (out out' : List R) : Prop :=
  out'.length = n * p ∧ ∀ k, k < n → ∀ r, r < p → out'[k * p + r]? = some (accumulated op (out.getD (k * p + r) 0) (g k r))

theorem Accumulates.of_adds {op : Op} {n p : Nat} {g : Nat → Nat → R} {out out' : List R} (hout : out.length = n * p)
    (h : AddsProduct n p g (initial (n * p) (some (if op = .assign then List.replicate out.length 0 else out))) out') :
    Accumulates op n p g out out' := by
  refine ⟨h.1, fun k hk r hr => ?_⟩
  have hlt := pos_lt hk hr
  rw [h.2 k hk r hr]
  cases op with
  | assign => simp [initial, accumulated, hout, hlt]
  | iadd =>
    have : k * p + r < out.length := by omega
    simp [initial, accumulated, this]

theorem direct_fsc {M : Mat R} {m n : Nat} (h : ColWf M m n) (hm : 0 < m) (hn : 0 < n) (hb0 : M.bs0 = 1) (hb1 : M.bs1 = 1) (fast : Bool)
    {ext : Nat} (hext : 0 < ext) {v : List R} (hv : v.length = m * ext) (op : Op) {out : List R} (hout : out.length = n * ext) :
    ∃ out', direct (fscMatvec fast M) op v out = .ok out' ∧
      Accumulates op n ext (fun k r => ∑ i ∈ range m, lineEntry scalarEntry M i k 0 0 * v.getD (i * ext + r) 0) out out' := by
  obtain ⟨o, h1, h2⟩ := C27_fsc_partial h hm hb0 hb1 fast hext hv
    (out := some (if op = .assign then List.replicate out.length 0 else out)) (.inl hn)
    (by intro o ho; cases ho; split <;> simp [hout])
  exact ⟨o, h1, .of_adds hout h2⟩

omit [CommRing R] in
theorem transpose_fsr {g : Nat → Elem R} {M : Mat R} {m n : Nat} (h : RowWf M m n) (hb0 : M.bs0 = 1) (hb1 : M.bs1 = 1) :
    transpose g .fsr M = .ok (swapMat M) := by
  have t1 := fsInit_col (g := g) h.swap
  rw [show (swapMat M).bs0 = 1 from hb1, show (swapMat M).bs1 = 1 from hb0] at t1
  exact t1

omit [CommRing R] in
theorem transpose_rot3d {g : Nat → Elem (Rot3d R)} {M : Mat (Rot3d R)} {m n : Nat} (h : RowWf M m n) (hb0 : M.bs0 = 3) (hb1 : M.bs1 = 3) :
    transpose g .fsrRot3d M = .ok (swapMat M) := by
  have t1 := fsInit_col (g := g) h.swap
  rw [show (swapMat M).bs0 = 3 from hb1, show (swapMat M).bs1 = 3 from hb0] at t1
  exact t1

theorem ones_getD {size P : Nat} (h : P < size) : (List.replicate size (1 : R)).getD P 0 = 1 := by
  simp [h]

/-- C35, scalar row storage, `m` rows and `n` pixels, `ext` trailing components: `pT1` is the transpose applied to ones: the
sum of the elements of the column; `pTx_pT1` gives moreover the transpose applied to `x`.  Both are assigned or
added to the outputs.
Missing (here and for the 3d rotations): matrices without row or column, for which the transpose raises (`C28_violation_empty`). -/
theorem C35_fsr_partial {g : Nat → Elem R} {M : Mat R} {m n : Nat} (h : RowWf M m n) (hm : 0 < m) (hn : 0 < n)
    (hb0 : M.bs0 = 1) (hb1 : M.bs1 = 1) (fast : Bool) {ext : Nat} (hext : 0 < ext) (op : Op)
    {x out0 out1 : List R} (hx : x.length = m * ext) (h0 : out0.length = n * ext) (h1 : out1.length = n * ext) :
    ∃ pTx pT1, pTxpT1Fsr g fast M (m * ext) op x out0 out1 = .ok (pTx, pT1) ∧ pT1Fsr g fast M (m * ext) op out1 = .ok pT1 ∧
      Accumulates op n ext (fun k r => ∑ i ∈ range m, lineEntry scalarEntry M i k 0 0 * x.getD (i * ext + r) 0) out0 pTx ∧
      Accumulates op n ext (fun k _ => ∑ i ∈ range m, lineEntry scalarEntry M i k 0 0) out1 pT1 := by
  obtain ⟨a, a1, a2⟩ := direct_fsc h.swap hm hn hb1 hb0 fast hext hx op h0
  obtain ⟨b, b1, b2⟩ := direct_fsc h.swap hm hn hb1 hb0 fast hext (v := List.replicate (m * ext) 1) (by simp) op h1
  have t := transpose_fsr (g := g) h hb0 hb1
  have e1 : pT1Fsr g fast M (m * ext) op out1 = .ok b := by
    unfold pT1Fsr
    rw [t]; exact b1
  refine ⟨a, b, ?_, e1, a2, b2.1, ?_⟩
  · unfold pTxpT1Fsr
    rw [if_neg (by simp [hx]), e1, t]
    show (direct (fscMatvec fast (swapMat M)) op x out0).map _ = _
    rw [a1]; rfl
  · intro k hk r hr
    rw [b2.2 k hk r hr]
    congr 2
    apply Finset.sum_congr rfl
    intro i hi
    rw [ones_getD (pos_lt (Finset.mem_range.1 hi) hr), mul_one]
    rfl

/-- The first component of each block. -/
theorem firstOf_get {n p : Nat} (hp : 0 < p) {y : List R} (hy : y.length = n * p) {k : Nat} (hk : k < n) :
    (firstOf p y)[k]? = some (y.getD (k * p) 0) := by
  unfold firstOf
  rw [hy, Nat.mul_div_cancel _ hp]
  simp [hk]

theorem firstOf_len {n p : Nat} (hp : 0 < p) {y : List R} (hy : y.length = n * p) : (firstOf p y).length = n := by
  unfold firstOf
  rw [hy, Nat.mul_div_cancel _ hp]
  simp

theorem reduce_spec {n : Nat} {g : Nat → R} {value : List R} (hv : value.length = n) (hg : ∀ k, k < n → value[k]? = some (g k)) (op : Op)
    {out : List R} (hout : out.length = n) : ∃ out', reduce op out value = .ok out' ∧ Accumulates op n 1 (fun k _ => g k) out out' := by
  unfold reduce
  rw [if_neg (by omega)]
  refine ⟨_, rfl, ?_⟩
  cases op with
  | assign =>
    refine ⟨by simp [hv], fun k hk r hr => ?_⟩
    have : r = 0 := by omega
    subst this
    simp only [Nat.mul_one, Nat.add_zero, accumulated]
    exact hg k hk
  | iadd =>
    refine ⟨by simp [hv, hout], fun k hk r hr => ?_⟩
    have : r = 0 := by omega
    subst this
    have hk' : k < out.length := by omega
    simp only [Nat.mul_one, Nat.add_zero, accumulated]
    rw [List.getElem?_zipWith, hg k hk]
    simp [hk']

theorem rot3d_first {M : Mat (Rot3d R)} (m k : Nat) (f : Nat → R) :
    ∑ i ∈ range m, ∑ c ∈ range 3, lineEntry (fun x r c => rot3dEntry x c r) M i k 0 c * f (i * 3 + c) =
      ∑ i ∈ range m, lineEntry (fun x _ _ => x.r11) M i k 0 0 * f (i * 3) := by
  apply Finset.sum_congr rfl
  intro i _
  have e0 : lineEntry (fun x r c => rot3dEntry x c r) M i k 0 0 = lineEntry (fun x _ _ => x.r11) M i k 0 0 := rfl
  have e1 : ∀ c, 0 < c → lineEntry (fun x r c => rot3dEntry x c r) M i k 0 c = 0 := by
    intro c hc
    unfold lineEntry
    apply Finset.sum_eq_zero
    intro j _
    cases M.flat[i * M.nmax + j]? with
    | none => rfl
    | some e =>
      simp only
      split
      · rcases c with _ | _ | _ | c
        · omega
        all_goals rfl
      · rfl
  rw [Finset.sum_range_succ, Finset.sum_range_succ, Finset.sum_range_one, e1 1 (by decide), e1 2 (by decide), e0]
  ring_nf

/-- C35, 3d rotations: the first component of the transpose applied to ones is the sum of the elements `r11` of the column, and
the first component of the transpose applied to `x` is the sum of the products by the first components of `x`. -/
theorem C35_rot3d_partial {g : Nat → Elem (Rot3d R)} {M : Mat (Rot3d R)} {m n : Nat} (h : RowWf M m n) (hm : 0 < m)
    (hb0 : M.bs0 = 3) (hb1 : M.bs1 = 3) (fast : Bool) (op : Op)
    {x out0 out1 : List R} (hx : x.length = m * 3) (h0 : out0.length = n) (h1 : out1.length = n) :
    ∃ pTx pT1, pTxpT1Rot3d g fast M (m * 3) op x out0 out1 = .ok (pTx, pT1) ∧ pT1Rot3d g fast M (m * 3) op out1 = .ok pT1 ∧
      Accumulates op n 1 (fun k _ => ∑ i ∈ range m, lineEntry (fun v _ _ => v.r11) M i k 0 0 * x.getD (i * 3) 0) out0 pTx ∧
      Accumulates op n 1 (fun k _ => ∑ i ∈ range m, lineEntry (fun v _ _ => v.r11) M i k 0 0) out1 pT1 := by
  have t := transpose_rot3d (g := g) h hb0 hb1
  have key : ∀ v : List R, v.length = m * 3 → ∀ out : List R, out.length = n → ∃ y out', fscRot3dMatvec fast (swapMat M) v none = .ok y ∧
      reduce op out (firstOf 3 y) = .ok out' ∧
      Accumulates op n 1 (fun k _ => ∑ i ∈ range m, lineEntry (fun v _ _ => v.r11) M i k 0 0 * v.getD (i * 3) 0) out out' := by
    intro v hv out hout
    obtain ⟨y, y1, y2⟩ := fscRot3dMatvec_spec h.swap hm hb1 hb0 fast hv (out := none) (by intro o ho; cases ho)
    obtain ⟨o, o1, o2⟩ := reduce_spec (g := fun k => ∑ i ∈ range m, lineEntry (fun v _ _ => v.r11) M i k 0 0 * v.getD (i * 3) 0)
      (firstOf_len (by decide) y2.1) (by
        intro k hk
        rw [firstOf_get (by decide) y2.1 hk]
        have := y2.getD hk (r := 0) (by decide)
        rw [Nat.add_zero] at this
        rw [this]
        exact congrArg some (rot3d_first (M := swapMat M) m k (fun P => v.getD P 0))) op hout
    exact ⟨y, o, y1, o1, o2⟩
  obtain ⟨y, a, ya, a1, a2⟩ := key x hx out0 h0
  obtain ⟨z, b, zb, b1, b2⟩ := key (List.replicate (m * 3) 1) (by simp) out1 h1
  have e1 : pT1Rot3d g fast M (m * 3) op out1 = .ok b := by
    unfold pT1Rot3d
    rw [t]
    show (fscRot3dMatvec fast (swapMat M) _ none).bind _ = _
    rw [zb]; exact b1
  refine ⟨a, b, ?_, e1, a2, b2.1, ?_⟩
  · unfold pTxpT1Rot3d
    rw [if_neg (by simp [hx]), e1, t]
    show (fscRot3dMatvec fast (swapMat M) x none).bind _ = _
    rw [ya]
    show (reduce op out0 (firstOf 3 y)).map _ = _
    rw [a1]; rfl
  · intro k hk r hr
    rw [b2.2 k hk r hr]
    congr 2
    apply Finset.sum_congr rfl
    intro i hi
    have hi := Finset.mem_range.1 hi
    rw [ones_getD (by omega), mul_one]

/-- The sum of a function over the elements whose index is `k`. -/
def sumIndex {β} (f : β → R) (flat : List (Elem β)) (k : Nat) : R :=
  ((flat.filter fun e => e.index = (k : Int)).map fun e => f e.value).sum

theorem pT1Rot2d_loop (norm : Rot2d R → R) {n : Nat} (flat : List (Elem (Rot2d R))) : ∀ out : List R, out.length = n → (∀ e ∈ flat, e.index < n) →
    ∃ out', flat.foldlM (fun out e =>
        if e.index < 0 then (.ok out : Res (List R))
        else if e.index.toNat < n then
          applyAll ((List.range 1).map fun k => (e.index.toNat * 1 + k, norm e.value)) out
        else .error .indexError) out = .ok out' ∧
      out'.length = n ∧ ∀ k, k < n → out'.getD k 0 = out.getD k 0 + sumIndex norm flat k := by
  induction flat with
  | nil => intro out hout _; exact ⟨out, rfl, hout, fun k _ => by simp [sumIndex]⟩
  | cons e flat ih =>
    intro out hout hidx
    have he := hidx e (List.mem_cons_self ..)
    have hidx' := fun e' he' => hidx e' (List.mem_cons_of_mem _ he')
    rw [List.foldlM_cons]
    by_cases h0 : e.index < 0
    · rw [if_pos h0]
      obtain ⟨o, o1, o2, o3⟩ := ih out hout hidx'
      refine ⟨o, o1, o2, fun k hk => ?_⟩
      rw [o3 k hk]
      have : ¬ e.index = (k : Int) := by omega
      simp [sumIndex, this]
    · rw [if_neg h0, if_pos (by omega)]
      have hlt : e.index.toNat < out.length := by omega
      have ha : applyAll ((List.range 1).map fun k => (e.index.toNat * 1 + k, norm e.value)) out =
          .ok (out.set e.index.toNat (out[e.index.toNat] + norm e.value)) := by
        simp only [List.range_one, List.map_cons, List.map_nil, Nat.mul_one, Nat.add_zero, applyAll, addAt,
          List.getElem?_eq_getElem hlt]
        rfl
      rw [ha]
      obtain ⟨o, o1, o2, o3⟩ := ih (out.set e.index.toNat (out[e.index.toNat] + norm e.value)) (by simp [hout]) hidx'
      refine ⟨o, o1, o2, fun k hk => ?_⟩
      rw [o3 k hk]
      by_cases hek : e.index.toNat = k
      · have : e.index = (k : Int) := by omega
        have hs : sumIndex norm (e :: flat) k = norm e.value + sumIndex norm flat k := by
          unfold sumIndex
          rw [List.filter_cons_of_pos (by simpa using this), List.map_cons, List.sum_cons]
        rw [hs, List.getD_eq_getElem?_getD, List.getD_eq_getElem?_getD, List.getElem?_set, if_pos hek, if_pos hlt, ← hek,
          List.getElem?_eq_getElem hlt, Option.getD_some, Option.getD_some, add_assoc]
      · have : ¬ e.index = (k : Int) := by omega
        simp [sumIndex, this, hek]

/-- C35, 2d rotations and maps of one dimension: the coverage is the sum of the norms of the rotations (the code does not
give the transpose applied to ones). -/
theorem C35_rot2d_partial {norm : Rot2d R → R} {M : Mat (Rot2d R)} {m n : Nat} (h : RowWf M m n) (op : Op) {out : List R}
    (hout : out.length = n) :
    ∃ pT1, pT1Rot2d norm M [n] op out = .ok pT1 ∧ Accumulates op n 1 (fun k _ => sumIndex norm M.flat k) out pT1 := by
  obtain ⟨o, o1, o2, o3⟩ := pT1Rot2d_loop norm M.flat (if op = .assign then List.replicate out.length 0 else out)
    (by split <;> simp [hout]) h.index
  refine ⟨o, o1, by simp [o2], fun k hk r hr => ?_⟩
  have : r = 0 := by omega
  subst this
  have hk' : k < o.length := by omega
  have := o3 k hk
  rw [List.getD_eq_getElem?_getD, List.getElem?_eq_getElem hk', Option.getD_some] at this
  simp only [Nat.mul_one, Nat.add_zero]
  rw [List.getElem?_eq_getElem hk', this]
  cases op with
  | assign => simp [accumulated, hout, hk]
  | iadd => simp [accumulated]

example : pT1Fsr (fun _ => ⟨0, 0⟩) true exFsr 2 .iadd [10, 20, 30] = .ok [10, 25, 26] := by decide
example : pTxpT1Fsr (fun _ => ⟨0, 0⟩) true exFsr 2 .assign [1, 2] [0, 0, 7] [0, 0, 7] = .ok ([0, 5, -8], [0, 5, -4]) := by decide
example : ∃ pTx pT1, pTxpT1Fsr (fun _ => ⟨0, 0⟩) true exFsr (2 * 1) .iadd [1, 2] [0, 0, 7] [0, 0, 7] = .ok (pTx, pT1) ∧
      pT1Fsr (fun _ => ⟨0, 0⟩) true exFsr (2 * 1) .iadd [0, 0, 7] = .ok pT1 ∧
      Accumulates .iadd 3 1 (fun k r => ∑ i ∈ range 2, lineEntry scalarEntry exFsr i k 0 0 * [1, 2].getD (i * 1 + r) 0) [0, 0, 7] pTx ∧
      Accumulates .iadd 3 1 (fun k _ => ∑ i ∈ range 2, lineEntry scalarEntry exFsr i k 0 0) [0, 0, 7] pT1 :=
  C35_fsr_partial exFsr_wf (by decide) (by decide) rfl rfl true (by decide) .iadd rfl rfl rfl
example : pTxpT1Rot3d (fun _ => ⟨0, ⟨0, 0, 0⟩⟩) true exFsrRot3d 3 .iadd [5, 6, 7] [1, 1] [2, 2] = .ok ([1, 11], [2, 4]) := by decide
example : pT1Rot2d (fun v => v.r11) exFsrRot2d [1] .iadd [10] = .ok [13] := by decide

/-- C35 is false for 2d rotations if the map has several dimensions: the flat index of the pixel is used along the first
dimension (here: the pixel `(0, 1)` of a `(2, 2)` map). -/
theorem C35_violation_rot2d :
    let M : Mat (Rot2d Int) := { nrow := 2, ncol := 8, bs0 := 2, bs1 := 2, nlines := 1, nmax := 1, flat := [⟨1, ⟨5, 0⟩⟩] }
    pT1Rot2d (fun v => v.r11) M [2, 2] .assign [0, 0, 0, 0] = .ok [0, 0, 5, 5] := by decide

/-- C35 is false for blocks of one column: the coverage of the first pixel is given to all the pixels. -/
theorem C35_violation_block :
    let M : Mat (List Int) := { nrow := 2, ncol := 2, bs0 := 2, bs1 := 1, nlines := 1, nmax := 2, flat := [⟨0, [1, 2]⟩, ⟨1, [10, 20]⟩] }
    pT1Block (fun _ => ⟨0, []⟩) true M 2 .assign [0, 0] = .ok [3, 3] ∧
    (transpose (fun _ => ⟨0, []⟩) .fsrBlock M).bind (fun Mt => fscBlockMatvec true Mt [1, 1] none) = .ok [3, 30] := by
  constructor <;> decide

end Verif.Sparse
