import Verif.Sparse.Props
import Verif.Sparse.Operator

/-! C32: the rule for `P.T * P`. -/
namespace Verif.Sparse
open Verif.Py Finset

variable {R : Type} [CommRing R]

/-- An array to which a product has been added, starting from zeros, is known. -/
theorem AddsProduct.eq_map {m p : Nat} {g : Nat → Nat → R} {a : List R} (h : AddsProduct m p g (initial (m * p) none) a) :
    a = (List.range (m * p)).map fun P => g (P / p) (P % p) := by
  apply List.ext_getElem?
  intro P
  by_cases hP : P < m * p
  · have := h.2 (P / p) (div_lt_of hP) (P % p) (mod_lt_of hP)
    rw [Nat.div_add_mod'] at this
    rw [this]
    simp [initial, hP]
  · rw [List.getElem?_eq_none (by rw [h.1]; omega), List.getElem?_eq_none (by simp; omega)]

theorem AddsProduct.getD {m p : Nat} {g : Nat → Nat → R} {a : List R} (h : AddsProduct m p g (initial (m * p) none) a)
    {i r : Nat} (hi : i < m) (hr : r < p) : a.getD (i * p + r) 0 = g i r := by
  have := h.2 i hi r hr
  rw [List.getD_eq_getElem?_getD, this]
  have hP := pos_lt hi hr
  simp [initial, hP]

/-- The diagonal element for the component `r` of the block `k`. -/
def diagEntry {β} (D : β → Nat → R) (M : Mat β) (m k r : Nat) : R :=
  ∑ i ∈ range m, lineSum M i fun e => if e.index = (k : Int) then D e.value r else 0

/-- If there is one element per row, and if the transpose of each block times the block is diagonal. -/
theorem pTp_product {β} {E : β → Nat → Nat → R} {D : β → Nat → R} {p : Nat}
    (hE : ∀ x r, r < p → ∀ d, d < p → ∑ c ∈ range p, E x c r * E x c d = if r = d then D x r else 0)
    {M : Mat β} (hnmax : M.nmax = 1) {m n : Nat} {x y : List R}
    (hy : ∀ i, i < m → ∀ c, c < p → y.getD (i * p + c) 0 = rowProduct E M n p x i c) {k r : Nat} (hk : k < n) (hr : r < p) :
    colProduct (fun x r c => E x c r) M m p y k r = diagEntry D M m k r * x.getD (k * p + r) 0 := by
  unfold colProduct diagEntry
  rw [Finset.sum_mul]
  apply Finset.sum_congr rfl
  intro i hi
  have hi := Finset.mem_range.1 hi
  rw [Finset.sum_congr rfl (fun c hc => by rw [hy i hi c (Finset.mem_range.1 hc)])]
  unfold rowProduct lineEntry lineSum
  simp only [hnmax, Finset.sum_range_one]
  cases he : M.flat[i * 1 + 0]? with
  | none => simp
  | some e =>
    simp only
    by_cases hek : e.index = (k : Int)
    · simp only [if_pos hek]
      have e1 : ∀ c, ∑ k' ∈ range n, ∑ d ∈ range p,
          (if e.index = (k' : Int) then E e.value c d else 0) * x.getD (k' * p + d) 0 =
          ∑ d ∈ range p, E e.value c d * x.getD (k * p + d) 0 := by
        intro c
        rw [Finset.sum_eq_single k]
        · apply Finset.sum_congr rfl
          intro d _
          rw [if_pos hek]
        · intro k' _ hk'
          apply Finset.sum_eq_zero
          intro d _
          rw [if_neg (by omega), zero_mul]
        · intro h; exact absurd (Finset.mem_range.2 hk) h
      simp only [e1, Finset.mul_sum]
      rw [Finset.sum_comm, Finset.sum_eq_single r]
      · rw [Finset.sum_congr rfl (fun c _ => (mul_assoc (E e.value c r) (E e.value c r) (x.getD (k * p + r) 0)).symm),
          ← Finset.sum_mul, hE e.value r hr r hr, if_pos rfl]
      · intro d hd hdr
        rw [Finset.sum_congr rfl (fun c _ => (mul_assoc (E e.value c r) (E e.value c d) (x.getD (k * p + d) 0)).symm),
          ← Finset.sum_mul, hE e.value r hr d (Finset.mem_range.1 hd), if_neg (Ne.symm hdr), zero_mul]
      · intro h; exact absurd (Finset.mem_range.2 hr) h
    · simp [hek]

theorem diagLoop_adds {β} {M : Mat β} (hnmax : M.nmax = 1) {m n p : Nat} (hp : 0 < p) (hflat : M.flat.length = m * M.nmax)
    (hidx : ∀ e ∈ M.flat, e.index < n) {D : β → Nat → R} {upd : β → Nat → List (Nat × R)}
    (hupd : ∀ x col, upd x col = genUpdates p col (D x)) :
    Adds (n * p) (diagLoop M.flat upd) (fun P => diagEntry D M m (P / p) (P % p)) := by
  unfold diagLoop
  have hm : M.flat.length = m := by rw [hflat, hnmax, Nat.mul_one]
  rw [hm]
  have h := loops_adds (M := M) (m := m) (N := n * p) hflat
    (body := fun i j => (elemAt M.flat 1 i j).bind fun e => cycleNeg e fun col => .ok (upd e.value col))
    (eff := fun i e => elemEff e p e.index.toNat (D e.value)) ?_
  · refine (h.congr_fun (f' := fun o => loop1 m (fun i => (elemAt M.flat 1 i 0).bind fun e =>
        cycleNeg e fun col => .ok (upd e.value col)) o) ?_).congr ?_
    · intro o _
      rw [hnmax]
      exact (loop1_eq m (fun i j => (elemAt M.flat 1 i j).bind fun e => cycleNeg e fun col => .ok (upd e.value col)) o)
    · intro P _
      unfold diagEntry
      apply Finset.sum_congr rfl
      intro i _
      apply lineSum_congr
      intro e _
      unfold elemEff
      generalize P / p = a
      by_cases h0 : e.index < 0
      · rw [if_pos h0, if_neg (by omega)]
      · rw [if_neg h0]
        by_cases h1 : a = e.index.toNat
        · rw [if_pos h1, if_pos (by omega)]
        · rw [if_neg h1, if_neg (by omega)]
  · intro i hi j hj e he
    have hj0 : j = 0 := by omega
    subst hj0
    rw [hnmax] at he
    exact elem_adds (f := fun e col => .ok (upd e.value col)) he hp
      (fun h0 => ⟨congrArg _ (hupd ..), by have := hidx e (List.mem_of_getElem? he); omega⟩)

/-- The diagonal, and its product. -/
theorem diagLoop_spec {β} {M : Mat β} (hnmax : M.nmax = 1) {m n p : Nat} (hp : 0 < p) (hflat : M.flat.length = m * M.nmax)
    (hidx : ∀ e ∈ M.flat, e.index < n) {D : β → Nat → R} {upd : β → Nat → List (Nat × R)}
    (hupd : ∀ x col, upd x col = genUpdates p col (D x)) {x z : List R} (hx : x.length = n * p)
    (hz : AddsProduct n p (fun k r => diagEntry D M m k r * x.getD (k * p + r) 0) (initial (n * p) none) z) :
    ∃ d, diagLoop M.flat upd (List.replicate (n * p) 0) = .ok d ∧ diagonal d x = z := by
  obtain ⟨d, d1, d2⟩ := AddsProduct.of_adds (g := diagEntry D M m) (diagLoop_adds hnmax hp hflat hidx hupd)
    (o := List.replicate (n * p) 0) (by simp)
  refine ⟨d, d1, ?_⟩
  have e1 := AddsProduct.eq_map (m := n) (p := p) (a := d) d2
  have e2 := hz.eq_map
  rw [e1, e2]
  have hxx : x = (List.range (n * p)).map fun P => x.getD P 0 := by
    apply List.ext_getElem?
    intro P
    by_cases hP : P < n * p
    · simp [hP, List.getElem?_eq_getElem (show P < x.length by omega)]
    · rw [List.getElem?_eq_none (by omega), List.getElem?_eq_none (by simp; omega)]
  unfold diagonal
  conv_lhs => rw [hxx]
  rw [List.zipWith_map_left, List.zipWith_map_right, List.zipWith_self]
  apply List.map_congr_left
  intro P _
  rw [Nat.div_add_mod']

/-- C32, scalar storage: for every matrix with one element per row, if the rule applies its diagonal operator gives the product by the
matrix followed by the product by its transpose.
Missing: the operators whose explicit input shape has trailing dimensions, for which the rule is wrong
(`C32_violation`). -/
theorem C32_fsr_partial {g : Nat → Elem R} {M : Mat R} {m n : Nat} (h : RowWf M m n) (hm : 0 < m) (hn : 0 < n) (hb0 : M.bs0 = 1)
    (hb1 : M.bs1 = 1) (fast fast' : Bool) {x : List R} (hx : x.length = n) {shapein : Option (List Nat)}
    (hs : ∀ s, shapein = some s → prodShape s = n) {types : Bool} {r : Res (List R)}
    (hr : rulePTp fscFsrNcolmax1 types M shapein = some r) :
    ∃ d Mt y z, r = .ok d ∧ transpose g .fsr M = .ok Mt ∧ fsrMatvec fast M x none = .ok y ∧
      fscMatvec fast' Mt y none = .ok z ∧ diagonal d x = z := by
  unfold rulePTp at hr
  by_cases hnmax : M.nmax = 1
  · rw [if_neg (by simpa using hnmax)] at hr
    cases shapein with
    | none => cases hr
    | some s =>
      cases types with
      | false => cases hr
      | true =>
        simp only [if_true, Option.some.injEq] at hr
        rw [hs s rfl] at hr
        have hx1 : x.length = n * 1 := by omega
        obtain ⟨y, y1, y2⟩ := fsrMatvec_spec h hn hb0 hb1 fast Nat.one_pos hx1 (out := none) (.inr rfl)
          (by intro o ho; cases ho)
        obtain ⟨z, z1, z2⟩ := fscMatvec_spec h.swap hm hb1 hb0 fast' Nat.one_pos (v := y) y2.1 (out := none) (.inr rfl)
          (by intro o ho; cases ho)
        have t1 := fsInit_col (g := g) h.swap
        rw [show (swapMat M).bs0 = 1 from hb1, show (swapMat M).bs1 = 1 from hb0] at t1
        obtain ⟨d, d1, d2⟩ := diagLoop_spec (D := fun x _ => x ^ 2) (upd := fun x col => [(col, x ^ 2)]) hnmax Nat.one_pos
          h.flat h.index (by intro x col; simp [genUpdates, List.range_succ]) hx1 (z2.congr (by
            intro k hk r hr
            have := pTp_product (E := homEntry) (D := fun x _ => x ^ 2) (p := 1)
              (by
                intro x r hr d hd
                have h1 : r = 0 := by omega
                have h2 : d = 0 := by omega
                subst h1; subst h2
                simp [homEntry]; ring)
              hnmax (fun i hi c hc => y2.getD hi hc) hk hr
            rw [← this]
            unfold colProduct
            refine Finset.sum_congr rfl fun i _ => Finset.sum_congr rfl fun c _ => ?_
            congr 1
            unfold lineEntry
            refine Finset.sum_congr rfl fun j _ => ?_
            show (match M.flat[i * M.nmax + j]? with | some e => _ | none => _) = _
            cases M.flat[i * M.nmax + j]? with
            | none => rfl
            | some e => simp only [homEntry, eq_comm]))
        rw [Nat.mul_one] at d1
        exact ⟨d, _, y, z, by rw [← hr]; exact d1, t1, y1, z1, d2⟩
  · rw [if_pos hnmax] at hr
    cases hr

/-- C32, 2d rotations. -/
theorem C32_rot2d {g : Nat → Elem (Rot2d R)} {M : Mat (Rot2d R)} {m n : Nat} (h : RowWf M m n) (hm : 0 < m) (hn : 0 < n)
    (hb0 : M.bs0 = 2) (hb1 : M.bs1 = 2) (fast fast' : Bool) {x : List R} (hx : x.length = n * 2) {shapein : Option (List Nat)}
    (hs : ∀ s, shapein = some s → prodShape s = n * 2) {types : Bool} {r : Res (List R)}
    (hr : rulePTp fscFsrRot2dNcolmax1 types M shapein = some r) :
    ∃ d Mt y z, r = .ok d ∧ transpose g .fsrRot2d M = .ok Mt ∧ fsrRot2dMatvec fast M x none = .ok y ∧
      fscRot2dMatvec fast' Mt y none = .ok z ∧ diagonal d x = z := by
  unfold rulePTp at hr
  by_cases hnmax : M.nmax = 1
  · rw [if_neg (by simpa using hnmax)] at hr
    cases shapein with
    | none => cases hr
    | some s =>
      cases types with
      | false => cases hr
      | true =>
        simp only [if_true, Option.some.injEq] at hr
        rw [hs s rfl] at hr
        obtain ⟨y, y1, y2⟩ := fsrRot2dMatvec_spec h hn hb0 hb1 fast hx (out := none) (by intro o ho; cases ho)
        obtain ⟨z, z1, z2⟩ := fscRot2dMatvec_spec h.swap hm hb1 hb0 fast' (v := y) y2.1 (out := none) (by intro o ho; cases ho)
        have t1 := fsInit_col (g := g) h.swap
        rw [show (swapMat M).bs0 = 2 from hb1, show (swapMat M).bs1 = 2 from hb0] at t1
        obtain ⟨d, d1, d2⟩ := diagLoop_spec (D := fun x : Rot2d R => fun _ => x.r11 ^ 2 + x.r21 ^ 2)
          (upd := fun x col => [(col * 2, x.r11 ^ 2 + x.r21 ^ 2), (col * 2 + 1, x.r11 ^ 2 + x.r21 ^ 2)]) hnmax (by decide : 0 < 2)
          h.flat h.index (by intro x col; simp [genUpdates, List.range_succ]) hx (z2.congr (by
            intro k hk r hr
            exact pTp_product (E := rot2dEntry) (M := M) (D := fun x _ => x.r11 ^ 2 + x.r21 ^ 2)
              (by
                intro x r hr d hd
                have h1 : r = 0 ∨ r = 1 := by omega
                have h2 : d = 0 ∨ d = 1 := by omega
                rcases h1 with rfl | rfl <;> rcases h2 with rfl | rfl <;>
                  simp [Finset.sum_range_succ, rot2dEntry] <;> ring)
              hnmax (fun i hi c hc => y2.getD hi hc) hk hr))
        exact ⟨d, _, y, z, by rw [← hr]; exact d1, t1, y1, z1, d2⟩
  · rw [if_pos hnmax] at hr
    cases hr

/-- C32, 3d rotations. -/
theorem C32_rot3d {g : Nat → Elem (Rot3d R)} {M : Mat (Rot3d R)} {m n : Nat} (h : RowWf M m n) (hm : 0 < m) (hn : 0 < n)
    (hb0 : M.bs0 = 3) (hb1 : M.bs1 = 3) (fast fast' : Bool) {x : List R} (hx : x.length = n * 3) {shapein : Option (List Nat)}
    (hs : ∀ s, shapein = some s → prodShape s = n * 3) {types : Bool} {r : Res (List R)}
    (hr : rulePTp fscFsrRot3dNcolmax1 types M shapein = some r) :
    ∃ d Mt y z, r = .ok d ∧ transpose g .fsrRot3d M = .ok Mt ∧ fsrRot3dMatvec fast M x none = .ok y ∧
      fscRot3dMatvec fast' Mt y none = .ok z ∧ diagonal d x = z := by
  unfold rulePTp at hr
  by_cases hnmax : M.nmax = 1
  · rw [if_neg (by simpa using hnmax)] at hr
    cases shapein with
    | none => cases hr
    | some s =>
      cases types with
      | false => cases hr
      | true =>
        simp only [if_true, Option.some.injEq] at hr
        rw [hs s rfl] at hr
        obtain ⟨y, y1, y2⟩ := fsrRot3dMatvec_spec h hn hb0 hb1 fast hx (out := none) (by intro o ho; cases ho)
        obtain ⟨z, z1, z2⟩ := fscRot3dMatvec_spec h.swap hm hb1 hb0 fast' (v := y) y2.1 (out := none) (by intro o ho; cases ho)
        have t1 := fsInit_col (g := g) h.swap
        rw [show (swapMat M).bs0 = 3 from hb1, show (swapMat M).bs1 = 3 from hb0] at t1
        obtain ⟨d, d1, d2⟩ := diagLoop_spec
          (D := fun x : Rot3d R => fun r => if r = 0 then x.r11 ^ 2 else x.r22 ^ 2 + x.r32 ^ 2)
          (upd := fun x col => [(col * 3, x.r11 ^ 2), (col * 3 + 1, x.r22 ^ 2 + x.r32 ^ 2), (col * 3 + 2, x.r22 ^ 2 + x.r32 ^ 2)])
          hnmax (by decide : 0 < 3)
          h.flat h.index (by intro x col; simp [genUpdates, List.range_succ]) hx (z2.congr (by
            intro k hk r hr
            exact pTp_product (E := rot3dEntry) (M := M) (D := fun x r => if r = 0 then x.r11 ^ 2 else x.r22 ^ 2 + x.r32 ^ 2)
              (by
                intro x r hr d hd
                have h1 : r = 0 ∨ r = 1 ∨ r = 2 := by omega
                have h2 : d = 0 ∨ d = 1 ∨ d = 2 := by omega
                rcases h1 with rfl | rfl | rfl <;> rcases h2 with rfl | rfl | rfl <;>
                  simp [Finset.sum_range_succ, rot3dEntry] <;> ring)
              hnmax (fun i hi c hc => y2.getD hi hc) hk hr))
        exact ⟨d, _, y, z, by rw [← hr]; exact d1, t1, y1, z1, d2⟩
  · rw [if_pos hnmax] at hr
    cases hr

/-! ### Concrete cases -/

/-- Three rows, two columns; one of the rows has no element. -/
def exOne : Mat Int :=
  { nrow := 3, ncol := 2, bs0 := 1, bs1 := 1, nlines := 3, nmax := 1, flat := [⟨1, 2⟩, ⟨-1, 5⟩, ⟨1, 3⟩] }
theorem exOne_wf : RowWf exOne 3 2 := ⟨by decide, by decide, by decide, by decide, by decide, by decide⟩

example : rulePTp fscFsrNcolmax1 true exOne (some [2]) = some (.ok [0, 13]) := by decide
example := C32_fsr_partial (g := fun _ => ⟨0, 0⟩) exOne_wf (by decide) (by decide) rfl rfl true true (x := [5, 7]) rfl
  (shapein := some [2]) (by decide) (types := true) rfl
example : rulePTp fscFsrRot2dNcolmax1 true exFsrRot2d (some [1, 2]) = some (.ok [25, 25]) := by decide
example := C32_rot2d (g := fun _ => ⟨0, 0, 0⟩) exFsrRot2d_wf (by decide) (by decide) rfl rfl true true (x := [5, 7]) rfl
  (shapein := some [1, 2]) (by decide) (types := true) rfl
example : rulePTp fscFsrRot3dNcolmax1 true exFsrRot3d (some [2, 3]) = some (.ok [0, 0, 0, 4, 25, 25]) := by decide
example := C32_rot3d (g := fun _ => ⟨0, 0, 0, 0⟩) exFsrRot3d_wf (by decide) (by decide) rfl rfl true true
  (x := [5, 7, 1, 2, 3, 4]) rfl (shapein := some [2, 3]) (by decide) (types := true) rfl

/-- C32 is false of the code if the explicit input shape has a trailing dimension: for the shape (2, 2) the diagonal is
[0, 13, 0, 0] instead of [0, 0, 13, 13]. -/
theorem C32_violation (g : Nat → Elem Int) :
    rulePTp fscFsrNcolmax1 true exOne (some [2, 2]) = some (.ok [0, 13, 0, 0]) ∧
    ((transpose g .fsr exOne).bind fun Mt => (fsrMatvec true exOne [1, 2, 3, 4] none).bind fun y => fscMatvec true Mt y none) =
      .ok [0, 0, 39, 52] ∧
    diagonal [(0 : Int), 13, 0, 0] [1, 2, 3, 4] ≠ [0, 0, 39, 52] := ⟨by decide, rfl, by decide⟩

end Verif.Sparse
