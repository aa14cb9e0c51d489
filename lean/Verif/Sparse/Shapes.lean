import Verif.Sparse.Props
import Verif.Sparse.Operator

/-!
C145: the sparse operators on arrays with additional dimensions: src/pysimulators/sparse.py 794-811, 833-890 and 988-998, for the scalar storages.
-/
namespace Verif.Sparse
open Verif.Py Finset

variable {R : Type} [CommRing R]

/-! ### The model -/

/-- An operator with a scalar storage (`row` : FSRMatrix, otherwise FSCMatrix): `bin` and `bout` are the attributes `broadcastable_shapein` and
`broadcastable_shapeout`, `explicit` tells whether `shapein` is not None. -/
structure SOp (R : Type) where
  row : Bool
  fast : Bool
  M : Mat R
  bin : List Nat
  bout : List Nat
  explicit : Bool

/-- sparse.py 794-811: the broadcastable shape for a matrix with `n` columns (or rows) : the argument `shapein` (or `shapeout`), the keyword
`broadcastable_shapein` (or `broadcastable_shapeout`).  `np.cumprod(shape) == n` is true for the last time at the end of the result. -/
def broadcastable (n : Nat) (shape keyword : Option (List Nat)) : List Nat :=
  match shape with
  | none => keyword.getD [n]
  | some s =>
    match ((List.range s.length).filter fun (i : Nat) => prodShape (s.take (i + 1)) = n).getLast? with
    | some i => s.take (i + 1)
    | none => [n]

/-- sparse.py 858-863 `reshapein`. -/
def SOp.reshapein (o : SOp R) (shape : List Nat) : List Nat := o.bout ++ shape.drop o.bin.length

/-- sparse.py 865-870 `reshapeout`. -/
def SOp.reshapeout (o : SOp R) (shape : List Nat) : List Nat := o.bin ++ shape.drop o.bout.length

/-- sparse.py 872-880 `validatein`. -/
def SOp.validatein (o : SOp R) (shape : List Nat) : Res Unit :=
  (validScalar (prodShape shape) o.M.ncol).bind fun _ => validScalar (prodShape shape) o.M.ncol

/-- sparse.py 882-890 `validateout`. -/
def SOp.validateout (o : SOp R) (shape : List Nat) : Res Unit :=
  (validScalar (prodShape shape) o.M.nrow).bind fun _ => validScalar (prodShape shape) o.M.nrow

/-- The method `_matvec` of the matrix. -/
def SOp.matvec (o : SOp R) (x : List R) (out : Option (List R)) : Res (List R) := if o.row then fsrMatvec o.fast o.M x out else fscMatvec o.fast o.M x out

/-- The call of an operator without explicit shape (pyoperators): the input is validated, the output is allocated with the shape that is deduced, and
the method `direct` is called. -/
def SOp.call (o : SOp R) (shape : List Nat) (x : List R) : Res (List Nat × List R) :=
  (o.validatein shape).bind fun _ =>
    (direct o.matvec .assign x (List.replicate (prodShape (o.reshapein shape)) 0)).map fun y => (o.reshapein shape, y)

/-- The vector of the canonical basis. -/
def unitVec (n q : Nat) : List R := (List.range n).map fun (k : Nat) => if k = q then 1 else 0

/-- pyoperators `Operator.todense`: the list of the columns. -/
def SOp.dense (o : SOp R) (shape : List Nat) : Res (List (List R)) :=
  (List.range (prodShape shape)).mapM fun q => (o.call shape (unitVec (prodShape shape) q)).map (·.2)

/-- `np.kron(a, np.eye(e))`, as a list of columns. -/
def kronEye (e : Nat) (D : List (List R)) : List (List R) :=
  (List.range (D.length * e)).map fun q => (List.range ((D.getD (q / e) []).length * e)).map fun p => if p % e = q % e then (D.getD (q / e) []).getD (p / e) 0 else 0

/-- sparse.py 840-856 `todense`. -/
def SOp.todense (o : SOp R) (shape : List Nat) : Res (List (List R)) :=
  if o.M.ncol = 0 then .error .zeroDivisionError
  else
    let extra := prodShape shape / o.M.ncol
    if ¬ o.explicit ∧ 1 < extra then (o.dense shape.dropLast).map (kronEye extra) else o.dense shape

/-- sparse.py 988-998 `_rule_transpose`. -/
def SOp.transposed (g : Nat → Elem R) (o : SOp R) : Res (SOp R) :=
  (transpose g (if o.row then .fsr else .fsc) o.M).map fun M => ⟨!o.row, o.fast, M, o.bout, o.bin, false⟩

/-! ### Specification -/

/-- An operator whose matrix has `m` rows and `n` columns, the broadcastable shapes having these sizes. -/
structure SOp.Wf (o : SOp R) (m n : Nat) : Prop where
  mat : if o.row then RowWf o.M m n else ColWf o.M n m
  bs0 : o.M.bs0 = 1
  bs1 : o.M.bs1 = 1
  bin : o.bin.prod = n
  bout : o.bout.prod = m
  m0 : 0 < m
  n0 : 0 < n

/-- The matrix. -/
def SOp.entry (o : SOp R) (i j : Nat) : R := if o.row then lineEntry scalarEntry o.M i j 0 0 else lineEntry scalarEntry o.M j i 0 0

theorem prodShape_eq (s : List Nat) : prodShape s = s.prod := by
  unfold prodShape
  rw [List.prod_eq_foldl]

variable {o : SOp R} {m n : Nat}

omit [CommRing R] in
theorem SOp.Wf.ncol (h : o.Wf m n) : o.M.ncol = n := by
  have := h.mat
  split at this
  · rw [this.ncol, h.bs1, mul_one]
  · rw [this.ncol, h.bs1, mul_one]

omit [CommRing R] in
theorem SOp.Wf.nrow (h : o.Wf m n) : o.M.nrow = m := by
  have := h.mat
  split at this
  · rw [this.nrow, h.bs0, mul_one]
  · rw [this.nrow, h.bs0, mul_one]

theorem valid_ok {k n : Nat} (hn : 0 < n) : validScalar (n * k) n = .ok () := by
  unfold validScalar
  rw [if_neg (by omega), if_neg (by simp)]

theorem SOp.call_spec (h : o.Wf m n) (extra : List Nat) (he : 0 < extra.prod) (x : List R) (hx : x.length = n * extra.prod) :
    ∃ y, o.call (o.bin ++ extra) x = .ok (o.bout ++ extra, y) ∧ y.length = m * extra.prod ∧
      ∀ i, i < m → ∀ r, r < extra.prod → y[i * extra.prod + r]? = some (∑ j ∈ range n, o.entry i j * x.getD (j * extra.prod + r) 0) := by
  have hre : o.reshapein (o.bin ++ extra) = o.bout ++ extra := by unfold SOp.reshapein; rw [List.drop_left]
  have hsi : prodShape (o.bin ++ extra) = n * extra.prod := by rw [prodShape_eq, List.prod_append, h.bin]
  have hso : prodShape (o.bout ++ extra) = m * extra.prod := by rw [prodShape_eq, List.prod_append, h.bout]
  have hval : o.validatein (o.bin ++ extra) = .ok () := by
    unfold SOp.validatein
    rw [hsi, h.ncol, valid_ok h.n0]; rfl
  have key : ∃ y, o.matvec x (some (List.replicate (m * extra.prod) 0)) = .ok y ∧
      AddsProduct m extra.prod (fun i r => ∑ j ∈ range n, o.entry i j * x.getD (j * extra.prod + r) 0) (initial (m * extra.prod) (some (List.replicate (m * extra.prod) 0))) y := by
    have hm := h.mat
    unfold SOp.matvec SOp.entry
    split
    · rename_i hr
      rw [if_pos hr] at hm
      obtain ⟨y, h1, h2⟩ := C26_fsr_partial hm h.n0 h.bs0 h.bs1 o.fast he hx (out := some (List.replicate (m * extra.prod) 0)) (.inl h.m0) (by rintro _ ⟨⟩; simp)
      exact ⟨y, h1, h2⟩
    · rename_i hr
      rw [if_neg hr] at hm
      obtain ⟨y, h1, h2⟩ := C27_fsc_partial hm h.n0 h.bs0 h.bs1 o.fast he hx (out := some (List.replicate (m * extra.prod) 0)) (.inl h.m0) (by rintro _ ⟨⟩; simp)
      exact ⟨y, h1, h2⟩
  obtain ⟨y, h1, h2, h3⟩ := key
  refine ⟨y, ?_, h2, fun i hi r hr => ?_⟩
  · unfold SOp.call direct
    rw [hval, hre, hso]
    simp only [Except.bind, if_true, List.length_replicate]
    rw [h1]; rfl
  · rw [h3 i hi r hr, initial, List.getElem?_replicate, if_pos]
    · simp
    · calc i * extra.prod + r < i * extra.prod + extra.prod := by omega
        _ = (i + 1) * extra.prod := by ring
        _ ≤ m * extra.prod := Nat.mul_le_mul_right _ hi

/-- C145: an array whose first dimensions are those of the operator is accepted, whatever its other dimensions; they are those of the result, and each of the
vectors is multiplied by the matrix. -/
theorem C145_extra (h : o.Wf m n) (extra : List Nat) (he : 0 < extra.prod) (x : List R) (hx : x.length = n * extra.prod) :
    o.validatein (o.bin ++ extra) = .ok () ∧ o.validateout (o.bout ++ extra) = .ok () ∧ o.reshapeout (o.bout ++ extra) = o.bin ++ extra ∧
    ∃ y, o.call (o.bin ++ extra) x = .ok (o.bout ++ extra, y) ∧ y.length = m * extra.prod ∧
      ∀ i, i < m → ∀ r, r < extra.prod → y[i * extra.prod + r]? = some (∑ j ∈ range n, o.entry i j * x.getD (j * extra.prod + r) 0) := by
  refine ⟨?_, ?_, ?_, SOp.call_spec h extra he x hx⟩
  · unfold SOp.validatein
    rw [prodShape_eq, List.prod_append, h.bin, h.ncol, valid_ok h.n0]; rfl
  · unfold SOp.validateout
    rw [prodShape_eq, List.prod_append, h.bout, h.nrow, valid_ok h.m0]; rfl
  · unfold SOp.reshapeout
    rw [List.drop_left]

/-- C145: the transposed operator exchanges the shapes, and is the adjoint. -/
theorem C145_transpose {g : Nat → Elem R} (h : o.Wf m n) : ∃ t, o.transposed g = .ok t ∧ t.Wf n m ∧ t.bin = o.bout ∧ t.bout = o.bin ∧ ∀ i j, t.entry j i = o.entry i j := by
  have hm := h.mat
  by_cases hr : o.row
  · rw [if_pos hr] at hm
    have t1 := fsInit_col (g := g) hm.swap
    rw [show (swapMat o.M).bs0 = 1 from h.bs1, show (swapMat o.M).bs1 = 1 from h.bs0] at t1
    have ht : transpose g .fsr o.M = .ok (swapMat o.M) := by
      unfold transpose construct
      rw [h.bs0, h.bs1]
      exact t1
    refine ⟨⟨false, o.fast, swapMat o.M, o.bout, o.bin, false⟩, ?_, ⟨?_, h.bs1, h.bs0, h.bout, h.bin, h.n0, h.m0⟩, rfl, rfl, fun i j => ?_⟩
    · unfold SOp.transposed
      rw [if_pos hr, ht, hr]; rfl
    · exact hm.swap
    · unfold SOp.entry
      rw [if_pos hr]; rfl
  · rw [if_neg hr] at hm
    have t1 := fsInit_row (g := g) hm.swap
    rw [show (swapMat o.M).bs0 = 1 from h.bs1, show (swapMat o.M).bs1 = 1 from h.bs0] at t1
    have ht : transpose g .fsc o.M = .ok (swapMat o.M) := by
      unfold transpose construct
      rw [h.bs0, h.bs1]
      exact t1
    refine ⟨⟨true, o.fast, swapMat o.M, o.bout, o.bin, false⟩, ?_, ⟨?_, h.bs1, h.bs0, h.bout, h.bin, h.n0, h.m0⟩, rfl, rfl, fun i j => ?_⟩
    · unfold SOp.transposed
      rw [if_neg hr, ht]
      simp only [Except.map]
      simp only [Bool.not_eq_true] at hr
      rw [hr]; rfl
    · exact hm.swap
    · unfold SOp.entry
      rw [if_neg hr]; rfl

theorem unitVec_getD {N q k : Nat} (hk : k < N) : (unitVec N q : List R).getD k 0 = if k = q then 1 else 0 := by
  unfold unitVec
  rw [List.getD_eq_getElem?_getD, List.getElem?_map, List.getElem?_range hk]
  rfl

/-- The image of a vector of the canonical basis. -/
theorem SOp.call_unit (h : o.Wf m n) (extra : List Nat) (he : 0 < extra.prod) (q : Nat) (hq : q < n * extra.prod) :
    ∃ y, o.call (o.bin ++ extra) (unitVec (n * extra.prod) q) = .ok (o.bout ++ extra, y) ∧ y.length = m * extra.prod ∧
      ∀ p, p < m * extra.prod → y[p]? = some (if p % extra.prod = q % extra.prod then o.entry (p / extra.prod) (q / extra.prod) else 0) := by
  obtain ⟨y, h1, h2, h3⟩ := SOp.call_spec h extra he (unitVec (n * extra.prod) q) (by simp [unitVec])
  refine ⟨y, h1, h2, fun p hp => ?_⟩
  have h4 := h3 (p / extra.prod) ((Nat.div_lt_iff_lt_mul he).2 hp) (p % extra.prod) (Nat.mod_lt _ he)
  rw [Nat.div_add_mod'] at h4
  rw [h4, Finset.sum_congr rfl fun j hj => by rw [unitVec_getD (pos_lt (mem_range.1 hj) (Nat.mod_lt p he))]]
  congr 1
  have hqn : q / extra.prod < n := (Nat.div_lt_iff_lt_mul he).2 hq
  split
  · rename_i hpq
    rw [Finset.sum_eq_single (q / extra.prod)]
    · rw [hpq, Nat.div_add_mod', if_pos rfl, mul_one]
    · intro j _ hj
      rw [if_neg, mul_zero]
      intro hh
      apply hj
      rw [← hh, pos_div (Nat.mod_lt p he)]
    · intro hh
      exact absurd (mem_range.2 hqn) hh
  · rename_i hpq
    refine Finset.sum_eq_zero fun j _ => ?_
    rw [if_neg, mul_zero]
    intro hh
    apply hpq
    rw [← hh, pos_mod (Nat.mod_lt p he)]

theorem SOp.dense_spec (h : o.Wf m n) (extra : List Nat) (he : 0 < extra.prod) : ∃ D, o.dense (o.bin ++ extra) = .ok D ∧ D.length = n * extra.prod ∧
    ∀ q, q < n * extra.prod → ∃ y, D[q]? = some y ∧ o.call (o.bin ++ extra) (unitVec (n * extra.prod) q) = .ok (o.bout ++ extra, y) := by
  have hsi : prodShape (o.bin ++ extra) = n * extra.prod := by rw [prodShape_eq, List.prod_append, h.bin]
  choose y h1 h2 h3 using SOp.call_unit h extra he
  refine ⟨(List.range (n * extra.prod)).map fun q => if hq : q < n * extra.prod then y q hq else [], ?_, by simp, fun q hq => ⟨y q hq, ?_, h1 q hq⟩⟩
  · unfold SOp.dense
    rw [hsi]
    refine mapM_ok' fun q hq => ?_
    have hq := List.mem_range.1 hq
    rw [h1 q hq, dif_pos hq]; rfl
  · rw [List.getElem?_map, List.getElem?_range hq]
    simp [hq]

/-- C145, if at most one of the additional dimensions, the last one, is not 1 (or if the shape of the operator is explicit): the columns of the dense matrix are the images of
the vectors of the canonical basis.  The others: `C145_violation_dense`. -/
theorem C145_dense_partial (h : o.Wf m n) (extra : List Nat) (he : 0 < extra.prod) (hd : o.explicit = true ∨ extra.dropLast.prod = 1) :
    ∃ D, o.todense (o.bin ++ extra) = .ok D ∧ D.length = n * extra.prod ∧
      ∀ q, q < n * extra.prod → ∃ y, D[q]? = some y ∧ o.call (o.bin ++ extra) (unitVec (n * extra.prod) q) = .ok (o.bout ++ extra, y) := by
  have hsi : prodShape (o.bin ++ extra) = n * extra.prod := by rw [prodShape_eq, List.prod_append, h.bin]
  have hn := h.n0
  unfold SOp.todense
  rw [h.ncol, if_neg (by omega), hsi, Nat.mul_div_cancel_left _ hn]
  dsimp only
  by_cases hb : ¬ o.explicit = true ∧ 1 < extra.prod
  · rw [if_pos hb]
    have hd := hd.resolve_left hb.1
    have hne : extra ≠ [] := by rintro rfl; simp at hb
    rw [List.dropLast_append_of_ne_nil hne]
    obtain ⟨D, d1, d2, d3⟩ := SOp.dense_spec h extra.dropLast (by omega)
    rw [hd, mul_one] at d2 d3
    refine ⟨kronEye extra.prod D, by rw [d1]; rfl, by simp [kronEye, d2], fun q hq => ?_⟩
    obtain ⟨y, y1, y2, y3⟩ := SOp.call_unit h extra he q hq
    have hqn : q / extra.prod < n := (Nat.div_lt_iff_lt_mul he).2 hq
    obtain ⟨z, z1, z2⟩ := d3 _ hqn
    obtain ⟨w, w1, w2, w3⟩ := SOp.call_unit h extra.dropLast (by omega) (q / extra.prod) (by rw [hd, mul_one]; exact hqn)
    rw [hd, mul_one] at w1 w2 w3
    rw [w1] at z2
    cases z2
    refine ⟨y, ?_, y1⟩
    unfold kronEye
    have hz : D.getD (q / extra.prod) [] = z := by rw [List.getD_eq_getElem?_getD, z1]; rfl
    rw [List.getElem?_map, List.getElem?_range (by rw [d2]; exact hq), Option.map_some, hz, w2]
    congr 1
    apply List.ext_getElem?
    intro p
    by_cases hp : p < m * extra.prod
    · have hpm : p / extra.prod < m := (Nat.div_lt_iff_lt_mul he).2 hp
      rw [y3 p hp, List.getElem?_map, List.getElem?_range hp, Option.map_some, List.getD_eq_getElem?_getD, w3 _ hpm]
      simp [Nat.mod_one]
    · rw [List.getElem?_eq_none (by simp; omega), List.getElem?_eq_none (by omega)]
  · rw [if_neg hb]
    exact SOp.dense_spec h extra he

/-- With other additional dimensions, the dense matrix does not have the right number of columns: they are counted twice. -/
theorem C145_violation_dense (h : o.Wf m n) (extra : List Nat) (he : 0 < extra.prod) (hne : extra ≠ []) (hx : o.explicit = false) (hd : extra.dropLast.prod ≠ 1) :
    ∃ D, o.todense (o.bin ++ extra) = .ok D ∧ D.length = n * extra.dropLast.prod * extra.prod ∧ D.length ≠ n * extra.prod := by
  have hsi : prodShape (o.bin ++ extra) = n * extra.prod := by rw [prodShape_eq, List.prod_append, h.bin]
  have hn := h.n0
  have hsplit : extra.dropLast.prod * extra.getLast hne = extra.prod := by
    conv_rhs => rw [← List.dropLast_append_getLast hne]
    simp
  have h0 : 0 < extra.dropLast.prod := Nat.pos_of_ne_zero fun h => by rw [h] at hsplit; omega
  have hl : 0 < extra.getLast hne := Nat.pos_of_ne_zero fun h => by rw [h] at hsplit; omega
  have h1 : 1 < extra.prod := by
    rw [← hsplit]
    calc 1 < extra.dropLast.prod := by omega
      _ ≤ _ := Nat.le_mul_of_pos_right _ hl
  obtain ⟨D, d1, d2, d3⟩ := SOp.dense_spec h extra.dropLast h0
  have hlen : (kronEye extra.prod D).length = n * extra.dropLast.prod * extra.prod := by simp [kronEye, d2]
  refine ⟨kronEye extra.prod D, ?_, hlen, ?_⟩
  · unfold SOp.todense
    rw [h.ncol, if_neg (by omega), hsi, Nat.mul_div_cancel_left _ hn]
    dsimp only
    rw [if_pos ⟨by simp [hx], h1⟩, List.dropLast_append_of_ne_nil hne, d1]
    rfl
  · rw [hlen]
    intro hh
    have h2 := Nat.eq_of_mul_eq_mul_right he hh
    have h3 : n * 1 < n * extra.dropLast.prod := Nat.mul_lt_mul_of_pos_left (by omega) hn
    omega

/-- C145: the broadcastable shape is the longest beginning of the explicit shape with the number of columns (or rows) of the matrix. -/
theorem C145_broadcastable (n : Nat) (s : List Nat) (keyword : Option (List Nat)) (k : Nat) (hk0 : 0 < k) (hk : k ≤ s.length) (hp : (s.take k).prod = n)
    (hlast : ∀ j, k < j → j ≤ s.length → (s.take j).prod ≠ n) : broadcastable n (some s) keyword = s.take k ∧ broadcastable n none keyword = keyword.getD [n] := by
  refine ⟨?_, rfl⟩
  unfold broadcastable
  dsimp only
  have : ((List.range s.length).filter fun (i : Nat) => prodShape (s.take (i + 1)) = n).getLast? = some (k - 1) := by
    have hsplit : List.range s.length = List.range (k - 1) ++ [k - 1] ++ (List.range (s.length - k)).map (k + ·) := by
      rw [← List.range_succ, show (k - 1).succ = k by omega, ← List.range_add]
      congr 1; omega
    rw [hsplit, List.filter_append, List.filter_append]
    have h1 : ((List.range (s.length - k)).map (k + ·)).filter (fun (i : Nat) => prodShape (s.take (i + 1)) = n) = [] := by
      rw [List.filter_eq_nil_iff]
      intro i hi
      obtain ⟨j, hj, rfl⟩ := List.mem_map.1 hi
      have hj := List.mem_range.1 hj
      simpa [prodShape_eq] using hlast (k + j + 1) (by omega) (by omega)
    have h2 : [k - 1].filter (fun (i : Nat) => prodShape (s.take (i + 1)) = n) = [k - 1] := by
      rw [List.filter_cons_of_pos (by rw [show k - 1 + 1 = k by omega, prodShape_eq, hp]; simp)]
      rfl
    rw [h1, h2, List.append_nil, List.getLast?_append]
    rfl
  rw [this]
  dsimp only
  rw [show k - 1 + 1 = k by omega]

example : broadcastable 6 (some [2, 3, 4]) none = [2, 3] ∧ broadcastable 6 (some [6, 1, 5]) none = [6, 1] := by decide

/-- C145 fails for an array with the right number of elements and other dimensions: the operator accepts it, and the product is refused. -/
theorem C145_violation_validated : ∃ (o : SOp Int) (x : List Int), o.Wf 2 3 ∧ o.validatein [1, 3] = .ok () ∧ x.length = 3 ∧ o.call [1, 3] x = .error .valueError :=
  ⟨⟨true, true, exFsr, [3], [2], false⟩, [1, 2, 3], ⟨by simpa using exFsr_wf, rfl, rfl, rfl, rfl, by decide, by decide⟩, by decide, rfl, by decide⟩

/-- C145 fails for an explicit shape without the right beginning: it is accepted by the constructor, the input is validated and the product refused. -/
theorem C145_violation_shapein : ∃ (o : SOp Int) (x : List Int), o.Wf 2 3 ∧ o.bin = broadcastable 3 (some [2, 3]) none ∧ o.validatein [2, 3] = .ok () ∧ x.length = 6 ∧
    o.call [2, 3] x = .error .valueError :=
  ⟨⟨true, true, exFsr, [3], [2], true⟩, [1, 2, 3, 4, 5, 6], ⟨by simpa using exFsr_wf, rfl, rfl, rfl, rfl, by decide, by decide⟩, by decide, by decide, rfl, by decide⟩

/-- The matrix of the examples, on arrays of three vectors with two components, and its dense form. -/
def exOp : SOp Int := ⟨true, true, exFsr, [3], [2], false⟩

theorem exOp_wf : exOp.Wf 2 3 := ⟨by simpa [exOp] using exFsr_wf, rfl, rfl, rfl, rfl, by decide, by decide⟩

example : exOp.call [3, 2] [10, 20, 30, 40, 50, 60] = .ok ([2, 2], [150, 200, -200, -240]) := by decide
example : exOp.todense [3, 2] = .ok [[0, 0, 0, 0], [0, 0, 0, 0], [5, 0, 0, 0], [0, 5, 0, 0], [0, 0, -4, 0], [0, 0, 0, -4]] := by decide
example : (exOp.todense [3, 2, 2]).toOption.map List.length = some 24 := by decide

end Verif.Sparse
