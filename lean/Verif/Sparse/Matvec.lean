import Verif.Sparse.Bodies

/-! The products of all the storages, in a common form. -/
namespace Verif.Sparse
open Verif.Py Finset

variable {R : Type} [CommRing R]

/-- A generic product by a row storage: `m` blocks of `p` components from `n` blocks of `q` components. -/
def rowProduct {β} (entry : β → Nat → Nat → R) (M : Mat β) (n q : Nat) (v : List R) (i r : Nat) : R :=
  ∑ k ∈ range n, ∑ c ∈ range q, lineEntry entry M i k r c * v.getD (k * q + c) 0

/-- A generic product by a column storage: `n` blocks of `p` components from `m` blocks of `q` components. -/
def colProduct {β} (entry : β → Nat → Nat → R) (M : Mat β) (m q : Nat) (v : List R) (k r : Nat) : R :=
  ∑ i ∈ range m, ∑ c ∈ range q, lineEntry entry M i k r c * v.getD (i * q + c) 0

theorem AddsProduct.of_adds {m p : Nat} {f : List R → Res (List R)} {g : Nat → Nat → R}
    (h : Adds (m * p) f (fun P => g (P / p) (P % p))) {o : List R} (ho : o.length = m * p) :
    ∃ out', f o = .ok out' ∧ AddsProduct m p g o out' := by
  obtain ⟨o', a, b, c⟩ := h o ho
  refine ⟨o', a, b, ?_⟩
  intro i hi r hr
  rw [c]
  simp only [pos_div hr, pos_mod hr]

theorem row_adds {β} {entry : β → Nat → Nat → R} {M : Mat β} {m n p q : Nat}
    (hflat : M.flat.length = m * M.nmax) (hidx : ∀ e ∈ M.flat, e.index < n) {v : List R}
    {body : Nat → Nat → Res (List (Nat × R))}
    (hbody : ∀ i, i < m → ∀ j, j < M.nmax → ∀ e, M.flat[i * M.nmax + j]? = some e → e.index < n →
      Adds (m * p) (fun o => (body i j).bind fun us => applyAll us o)
        (elemEff e p i (dotBlock (entry e.value) q v e.index.toNat))) :
    Adds (m * p) (loops m M.nmax body) (fun P => rowProduct entry M n q v (P / p) (P % p)) := by
  refine (loops_adds hflat (fun i hi j hj e he => hbody i hi j hj e he (hidx e (List.mem_of_getElem? he)))).congr ?_
  intro P hP
  exact row_total entry hidx v hP

theorem col_adds {β} {entry : β → Nat → Nat → R} {M : Mat β} {m n p q : Nat}
    (hflat : M.flat.length = m * M.nmax) (hidx : ∀ e ∈ M.flat, e.index < n) {v : List R}
    {body : Nat → Nat → Res (List (Nat × R))}
    (hbody : ∀ i, i < m → ∀ j, j < M.nmax → ∀ e, M.flat[i * M.nmax + j]? = some e → e.index < n →
      Adds (n * p) (fun o => (body i j).bind fun us => applyAll us o)
        (elemEff e p e.index.toNat (dotBlock (entry e.value) q v i))) :
    Adds (n * p) (loops m M.nmax body) (fun P => colProduct entry M m q v (P / p) (P % p)) := by
  refine (loops_adds hflat (fun i hi j hj e he => hbody i hi j hj e he (hidx e (List.mem_of_getElem? he)))).congr ?_
  intro P hP
  exact col_total entry v

theorem fsrPython_row {β} {entry : β → Nat → Nat → R} {M : Mat β} {m n p q : Nat} (hp : 0 < p)
    (hflat : M.flat.length = m * M.nmax) (hidx : ∀ e ∈ M.flat, e.index < n) {v : List R}
    {val : Elem β → Nat → Res (List R)}
    (hval : ∀ e : Elem β, ∀ k, k < n → ∃ l, val e k = .ok l ∧ ∀ r, r < p → l.getD r 0 = dotBlock (entry e.value) q v k r) :
    Adds (m * p) (fsrPython M.flat M.nmax m p val) (fun P => rowProduct entry M n q v (P / p) (P % p)) := by
  refine (fsrPython_adds (inc := fun e r => dotBlock (entry e.value) q v e.index.toNat r) hp hflat ?_).congr ?_
  · intro e he h0
    exact hval e _ (by have := hidx e he; omega)
  · intro P hP
    exact row_total entry hidx v hP

theorem fscPython_col {β} {entry : β → Nat → Nat → R} {M : Mat β} {m n p q : Nat} (hp : 0 < p)
    (hflat : M.flat.length = m * M.nmax) (hidx : ∀ e ∈ M.flat, e.index < n) {v : List R}
    {upd : Nat → Elem β → Nat → Res (List (Nat × R))}
    (hupd : ∀ i, i < m → ∀ e : Elem β, ∀ k, k < n → upd i e k = .ok (genUpdates p k (dotBlock (entry e.value) q v i))) :
    Adds (n * p) (fscPython M.flat M.nmax m upd) (fun P => colProduct entry M m q v (P / p) (P % p)) := by
  refine (fscPython_adds (eff := fun i e P => if P / p = e.index.toNat then dotBlock (entry e.value) q v i (P % p) else 0)
    hflat ?_).congr ?_
  · intro i hi e he h0
    have hk : e.index.toNat < n := by have := hidx e he; omega
    rw [hupd i hi e _ hk]
    simp only [Except.bind]
    refine (Adds.npAddAll (genUpdates_lt hk _)).congr ?_
    intro P _
    rw [genUpdates_sum hp]
  · intro P hP
    exact col_total entry v

/-! ### Preparation -/

theorem prepare_scalar {β} {M : Mat β} {m n ext : Nat} {v : List R} (hn : 0 < n) (hrow : M.nrow = m) (hcol : M.ncol = n)
    (hv : v.length = n * ext) {out : Option (List R)} (hm : 0 < m ∨ out = none)
    (hout : ∀ o, out = some o → o.length = m * ext) :
    prepare validScalar M v out = .ok (initial (m * ext) out) ∧ (initial (m * ext) out).length = m * ext ∧
      v.length / M.ncol = ext := by
  have h1 : v.length * M.nrow / M.ncol = m * ext := by
    rw [hv, hrow, hcol, Nat.mul_assoc, Nat.mul_div_cancel_left _ hn, Nat.mul_comm]
  have h2 : validScalar v.length M.ncol = .ok () := by
    unfold validScalar
    rw [if_neg (by omega), if_neg]
    rw [hv, hcol]; simp
  refine ⟨?_, ?_, ?_⟩
  · unfold prepare
    rw [h2]
    simp only [Except.bind]
    rw [if_neg (by omega)]
    cases out with
    | none => simp only [h1]; rfl
    | some o =>
      have ho := hout o rfl
      have hm : 0 < m := by
        rcases hm with hm | hm
        · exact hm
        · cases hm
      simp only
      rw [if_neg (by rw [h1]; simpa using ho)]
      have h3 : validScalar o.length M.nrow = .ok () := by
        unfold validScalar
        rw [if_neg (by omega), if_neg]
        rw [ho, hrow]; simp
      rw [h3]; rfl
  · cases out with
    | none => simp [initial]
    | some o => exact hout o rfl
  · rw [hv, hcol, Nat.mul_div_cancel_left _ hn]

theorem prepare_block {β} {M : Mat β} {v : List R} (hcol : 0 < M.ncol)
    (hv : v.length = M.ncol) {out : Option (List R)} (hout : ∀ o, out = some o → o.length = M.nrow) :
    prepare validBlock M v out = .ok (initial M.nrow out) ∧ (initial M.nrow out).length = M.nrow := by
  have h1 : v.length * M.nrow / M.ncol = M.nrow := by rw [hv, Nat.mul_div_cancel_left _ hcol]
  have h2 : validBlock v.length M.ncol = .ok () := by unfold validBlock; rw [if_pos hv]
  refine ⟨?_, ?_⟩
  · unfold prepare
    rw [h2]
    simp only [Except.bind]
    rw [if_neg (by omega)]
    cases out with
    | none => simp only [h1]; rfl
    | some o =>
      have ho := hout o rfl
      simp only
      rw [if_neg (by rw [h1]; simpa using ho)]
      have h3 : validBlock o.length M.nrow = .ok () := by unfold validBlock; rw [if_pos ho]
      rw [h3]; rfl
  · cases out with
    | none => simp [initial]
    | some o => exact hout o rfl

omit [CommRing R] in
theorem f2py_ok {β} {M : Mat β} {m : Nat} (h : M.flat.length = m * M.nmax) (k : Res (List R)) : f2pyCheck M m k = k := by
  unfold f2pyCheck
  rw [if_pos (by rw [h, Nat.mul_comm])]

theorem loop1_or {M : Mat R} {m : Nat} {body : Nat → Nat → Res (List (Nat × R))} {o : List R} :
    (if M.nmax = 1 then loop1 m (fun i => body i 0) o else loops m M.nmax body o) = loops m M.nmax body o := by
  split
  · rename_i h; rw [loop1_eq, h]
  · rfl

/-! ### Scalar storages -/

theorem fsrMatvec_spec {M : Mat R} {m n : Nat} (h : RowWf M m n) (hn : 0 < n) (hb0 : M.bs0 = 1) (hb1 : M.bs1 = 1)
    (fast : Bool) {ext : Nat} (hext : 0 < ext) {v : List R} (hv : v.length = n * ext) {out : Option (List R)}
    (hz : 0 < m ∨ out = none)
    (hout : ∀ o, out = some o → o.length = m * ext) :
    ∃ out', fsrMatvec fast M v out = .ok out' ∧
      AddsProduct m ext (rowProduct homEntry M n ext v) (initial (m * ext) out) out' := by
  obtain ⟨hp, hl, he⟩ := prepare_scalar hn (by rw [h.nrow, hb0, Nat.mul_one])
    (by rw [h.ncol, hb1, Nat.mul_one]) hv hz hout
  unfold fsrMatvec
  rw [hp]
  simp only [Except.bind, he, hl]
  have hr : M.nrow = m := by rw [h.nrow, hb0, Nat.mul_one]
  cases fast with
  | true =>
    simp only [if_true]
    by_cases h1 : 1 < ext
    · rw [if_pos h1, hr, f2py_ok h.flat, loop1_or (body := fsrHomothetyBody M.flat M.nmax v ext)]
      exact AddsProduct.of_adds (row_adds h.flat h.index (fun i hi j hj e he hn => fsrHom_elem he hi hext hv hn)) hl
    · have h1 : ext = 1 := by omega
      subst h1
      rw [if_neg h1, f2py_ok (by rw [Nat.mul_one]; exact h.flat), loop1_or (body := fsrBody M.flat M.nmax v)]
      have := AddsProduct.of_adds (row_adds h.flat h.index (fun i hi j hj e he hn => fsr_elem he hi hv hn)) hl
      rw [Nat.mul_one] at this ⊢
      exact this
  | false =>
    rw [if_neg (by simp), hr]
    refine AddsProduct.of_adds (fsrPython_row hext h.flat h.index ?_) hl
    intro e k hk
    refine ⟨_, mapM_ok' (g := fun c => e.value * v.getD (k * ext + c) 0) ?_, ?_⟩
    · intro c hc
      rw [npRead_ok (in_lt hv hk (List.mem_range.1 hc))]; rfl
    · intro r hr'
      rw [dotBlock_hom hr']
      simp [hr']

theorem fscMatvec_spec {M : Mat R} {m n : Nat} (h : ColWf M m n) (hm : 0 < m) (hb0 : M.bs0 = 1) (hb1 : M.bs1 = 1)
    (fast : Bool) {ext : Nat} (hext : 0 < ext) {v : List R} (hv : v.length = m * ext) {out : Option (List R)}
    (hz : 0 < n ∨ out = none)
    (hout : ∀ o, out = some o → o.length = n * ext) :
    ∃ out', fscMatvec fast M v out = .ok out' ∧
      AddsProduct n ext (colProduct homEntry M m ext v) (initial (n * ext) out) out' := by
  obtain ⟨hp, hl, he⟩ := prepare_scalar hm (by rw [h.nrow, hb0, Nat.mul_one])
    (by rw [h.ncol, hb1, Nat.mul_one]) hv hz hout
  unfold fscMatvec
  rw [hp]
  simp only [Except.bind, he]
  have hr : M.ncol = m := by rw [h.ncol, hb1, Nat.mul_one]
  cases fast with
  | true =>
    simp only [if_true]
    by_cases h1 : 1 < ext
    · rw [if_pos h1, hr, f2py_ok h.flat, loop1_or (body := fscHomothetyBody M.flat M.nmax v ext)]
      exact AddsProduct.of_adds (col_adds h.flat h.index (fun i hi j hj e he hn => fscHom_elem he hi hext hv hn)) hl
    · have h1 : ext = 1 := by omega
      subst h1
      rw [if_neg h1, hv, f2py_ok (by rw [Nat.mul_one]; exact h.flat), loop1_or (body := fscBody M.flat M.nmax v), Nat.mul_one]
      have := AddsProduct.of_adds (col_adds h.flat h.index (fun i hi j hj e he hn => fsc_elem he hi hv hn)) hl
      simpa only [Nat.mul_one] using this
  | false =>
    rw [if_neg (by simp), hr]
    refine AddsProduct.of_adds (fscPython_col hext h.flat h.index ?_) hl
    intro i hi e k hk
    rw [mapM_ok' (g := fun c => (k * ext + c, e.value * v.getD (i * ext + c) 0))]
    · congr 1
      unfold genUpdates
      apply List.map_congr_left
      intro r hr'
      rw [dotBlock_hom (List.mem_range.1 hr')]
    · intro c hc
      rw [npRead_ok (in_lt hv hi (List.mem_range.1 hc))]; rfl

/-! ### Rotations -/

theorem fsrRot2dMatvec_spec {M : Mat (Rot2d R)} {m n : Nat} (h : RowWf M m n) (hn : 0 < n) (hb0 : M.bs0 = 2) (hb1 : M.bs1 = 2)
    (fast : Bool) {v : List R} (hv : v.length = n * 2) {out : Option (List R)}
    (hout : ∀ o, out = some o → o.length = m * 2) :
    ∃ out', fsrRot2dMatvec fast M v out = .ok out' ∧
      AddsProduct m 2 (rowProduct rot2dEntry M n 2 v) (initial (m * 2) out) out' := by
  have hnr := h.nrow; have hnc := h.ncol
  have hpos := h.pos
  rw [hb0] at hnr; rw [hb1] at hnc
  obtain ⟨hp, hl⟩ := prepare_block (M := M) (v := v) (by omega) (by omega) (out := out) (by rw [hnr]; exact hout)
  rw [hnr] at hl hp
  unfold fsrRot2dMatvec
  rw [hp]
  simp only [Except.bind, hl]
  cases fast with
  | true =>
    rw [if_pos rfl, show m * 2 / 2 = m by omega, f2py_ok h.flat]
    exact AddsProduct.of_adds (row_adds h.flat h.index (fun i hi j hj e he hn => fsrRot2d_elem he hi hv hn)) hl
  | false =>
    rw [if_neg (by simp), show M.nrow / 2 = m by omega]
    refine AddsProduct.of_adds (fsrPython_row (by omega) h.flat h.index ?_) hl
    intro e k hk
    refine ⟨_, by rw [npRead_ok (by omega), npRead_ok (by omega)]; rfl, ?_⟩
    intro r hr
    rcases (show r = 0 ∨ r = 1 by omega) with rfl | rfl <;>
      (simp [dotBlock, rot2dEntry, Finset.sum_range_succ]; try ring)

theorem fscRot2dMatvec_spec {M : Mat (Rot2d R)} {m n : Nat} (h : ColWf M m n) (hm : 0 < m) (hb0 : M.bs0 = 2) (hb1 : M.bs1 = 2)
    (fast : Bool) {v : List R} (hv : v.length = m * 2) {out : Option (List R)}
    (hout : ∀ o, out = some o → o.length = n * 2) :
    ∃ out', fscRot2dMatvec fast M v out = .ok out' ∧
      AddsProduct n 2 (colProduct (fun x r c => rot2dEntry x c r) M m 2 v) (initial (n * 2) out) out' := by
  have hnr := h.nrow; have hnc := h.ncol
  have hpos := h.pos
  rw [hb0] at hnr; rw [hb1] at hnc
  obtain ⟨hp, hl⟩ := prepare_block (M := M) (v := v) (by omega) (by omega) (out := out) (by rw [hnr]; exact hout)
  rw [hnr] at hl hp
  unfold fscRot2dMatvec
  rw [hp]
  simp only [Except.bind]
  cases fast with
  | true =>
    rw [if_pos rfl, show v.length / 2 = m by omega, f2py_ok h.flat]
    exact AddsProduct.of_adds (col_adds (entry := fun x r c => rot2dEntry x c r) h.flat h.index
      (fun i hi j hj e he hn => fscRot2d_elem he hi hv hn)) hl
  | false =>
    rw [if_neg (by simp), show M.ncol / 2 = m by omega]
    refine AddsProduct.of_adds (fscPython_col (by omega) h.flat h.index ?_) hl
    intro i hi e k hk
    rw [npRead_ok (by omega), npRead_ok (by omega)]
    simp [genUpdates, dotBlock, rot2dEntry, List.range_succ, Finset.sum_range_succ, bind, Except.bind, pure, Except.pure]

theorem fsrRot3dMatvec_spec {M : Mat (Rot3d R)} {m n : Nat} (h : RowWf M m n) (hn : 0 < n) (hb0 : M.bs0 = 3) (hb1 : M.bs1 = 3)
    (fast : Bool) {v : List R} (hv : v.length = n * 3) {out : Option (List R)}
    (hout : ∀ o, out = some o → o.length = m * 3) :
    ∃ out', fsrRot3dMatvec fast M v out = .ok out' ∧
      AddsProduct m 3 (rowProduct rot3dEntry M n 3 v) (initial (m * 3) out) out' := by
  have hnr := h.nrow; have hnc := h.ncol
  have hpos := h.pos
  rw [hb0] at hnr; rw [hb1] at hnc
  obtain ⟨hp, hl⟩ := prepare_block (M := M) (v := v) (by omega) (by omega) (out := out) (by rw [hnr]; exact hout)
  rw [hnr] at hl hp
  unfold fsrRot3dMatvec
  rw [hp]
  simp only [Except.bind, hl]
  cases fast with
  | true =>
    rw [if_pos rfl, show m * 3 / 3 = m by omega, f2py_ok h.flat]
    exact AddsProduct.of_adds (row_adds h.flat h.index (fun i hi j hj e he hn => fsrRot3d_elem he hi hv hn)) hl
  | false =>
    rw [if_neg (by simp), show M.nrow / 3 = m by omega]
    refine AddsProduct.of_adds (fsrPython_row (by omega) h.flat h.index ?_) hl
    intro e k hk
    refine ⟨_, by rw [npRead_ok (by omega), npRead_ok (by omega), npRead_ok (by omega)]; rfl, ?_⟩
    intro r hr
    rcases (show r = 0 ∨ r = 1 ∨ r = 2 by omega) with rfl | rfl | rfl <;>
      (simp [dotBlock, rot3dEntry, Finset.sum_range_succ]; try ring)

theorem fscRot3dMatvec_spec {M : Mat (Rot3d R)} {m n : Nat} (h : ColWf M m n) (hm : 0 < m) (hb0 : M.bs0 = 3) (hb1 : M.bs1 = 3)
    (fast : Bool) {v : List R} (hv : v.length = m * 3) {out : Option (List R)}
    (hout : ∀ o, out = some o → o.length = n * 3) :
    ∃ out', fscRot3dMatvec fast M v out = .ok out' ∧
      AddsProduct n 3 (colProduct (fun x r c => rot3dEntry x c r) M m 3 v) (initial (n * 3) out) out' := by
  have hnr := h.nrow; have hnc := h.ncol
  have hpos := h.pos
  rw [hb0] at hnr; rw [hb1] at hnc
  obtain ⟨hp, hl⟩ := prepare_block (M := M) (v := v) (by omega) (by omega) (out := out) (by rw [hnr]; exact hout)
  rw [hnr] at hl hp
  unfold fscRot3dMatvec
  rw [hp]
  simp only [Except.bind]
  cases fast with
  | true =>
    rw [if_pos rfl, show v.length / 3 = m by omega, f2py_ok h.flat]
    exact AddsProduct.of_adds (col_adds (entry := fun x r c => rot3dEntry x c r) h.flat h.index
      (fun i hi j hj e he hn => fscRot3d_elem he hi hv hn)) hl
  | false =>
    rw [if_neg (by simp), show M.ncol / 3 = m by omega]
    refine AddsProduct.of_adds (fscPython_col (by omega) h.flat h.index ?_) hl
    intro i hi e k hk
    rw [npRead_ok (by omega), npRead_ok (by omega), npRead_ok (by omega)]
    simp [genUpdates, dotBlock, rot3dEntry, List.range_succ, Finset.sum_range_succ, bind, Except.bind, pure, Except.pure]

/-! ### Blocks -/

theorem fsrBlockMatvec_spec {M : Mat (List R)} {m n : Nat} (h : RowWf M m n) (hn : 0 < n) (fast : Bool)
    (hb : fast = true → BlockOk M.bs0 M.bs1) {v : List R} (hv : v.length = n * M.bs1) {out : Option (List R)}
    (hout : ∀ o, out = some o → o.length = m * M.bs0) :
    ∃ out', fsrBlockMatvec fast M v out = .ok out' ∧
      AddsProduct m M.bs0 (rowProduct (blockEntry M.bs1) M n M.bs1 v) (initial (m * M.bs0) out) out' := by
  have hnr := h.nrow; have hnc := h.ncol
  have hpos := h.pos
  obtain ⟨hp, hl⟩ := prepare_block (M := M) (v := v) (by rw [hnc]; exact Nat.mul_pos hn hpos.2)
    (by rw [hnc]; exact hv) (out := out) (by rw [hnr]; exact hout)
  rw [hnr] at hl hp
  unfold fsrBlockMatvec
  rw [hp]
  simp only [Except.bind]
  have hd : M.nrow / M.bs0 = m := by rw [hnr, Nat.mul_div_cancel _ hpos.1]
  rw [hd]
  cases fast with
  | true =>
    rw [if_pos rfl, f2py_ok h.flat]
    exact AddsProduct.of_adds (row_adds h.flat h.index
      (fun i hi j hj e he hn => fsrBlock_elem (hb rfl) he hi hv hn)) hl
  | false =>
    rw [if_neg (by simp)]
    refine AddsProduct.of_adds (fsrPython_row hpos.1 h.flat h.index ?_) hl
    intro e k hk
    refine ⟨_, mapM_ok' (g := fun r => dotBlock (blockEntry M.bs1 e.value) M.bs1 v k r) ?_, ?_⟩
    · intro r _
      rw [mapM_ok' (g := fun c => e.value.getD (r * M.bs1 + c) 0 * v.getD (k * M.bs1 + c) 0)]
      · simp only [Except.map]
        rw [list_sum_range]; rfl
      · intro c hc
        rw [npRead_ok (in_lt hv hk (List.mem_range.1 hc))]; rfl
    · intro r hr'
      simp [hr']

theorem fscBlockMatvec_spec {M : Mat (List R)} {m n : Nat} (h : ColWf M m n) (hm : 0 < m) (fast : Bool)
    (hb : fast = true → BlockOk M.bs1 M.bs0) {v : List R} (hv : v.length = m * M.bs1) {out : Option (List R)}
    (hout : ∀ o, out = some o → o.length = n * M.bs0) :
    ∃ out', fscBlockMatvec fast M v out = .ok out' ∧
      AddsProduct n M.bs0 (colProduct (fun x r c => blockEntry M.bs0 x c r) M m M.bs1 v) (initial (n * M.bs0) out) out' := by
  have hnr := h.nrow; have hnc := h.ncol
  have hpos := h.pos
  obtain ⟨hp, hl⟩ := prepare_block (M := M) (v := v) (by rw [hnc]; exact Nat.mul_pos hm hpos.2)
    (by rw [hnc]; exact hv) (out := out) (by rw [hnr]; exact hout)
  rw [hnr] at hl hp
  unfold fscBlockMatvec
  rw [hp]
  simp only [Except.bind]
  have hd : M.ncol / M.bs1 = m := by rw [hnc, Nat.mul_div_cancel _ hpos.2]
  rw [hd]
  cases fast with
  | true =>
    rw [if_pos rfl, f2py_ok h.flat]
    exact AddsProduct.of_adds (col_adds (entry := fun x r c => blockEntry M.bs0 x c r) h.flat h.index
      (fun i hi j hj e he hn => fscBlock_elem (hb rfl) he hi hv hn)) hl
  | false =>
    rw [if_neg (by simp)]
    refine AddsProduct.of_adds (fscPython_col hpos.1 h.flat h.index ?_) hl
    intro i hi e k hk
    rw [mapM_ok' (g := fun r => (k * M.bs0 + r, dotBlock (fun r c => blockEntry M.bs0 e.value c r) M.bs1 v i r))]
    · rfl
    · intro r _
      rw [mapM_ok' (g := fun c => e.value.getD (c * M.bs0 + r) 0 * v.getD (i * M.bs1 + c) 0)]
      · simp only [Except.map]
        rw [list_sum_range]; rfl
      · intro c hc
        rw [npRead_ok (in_lt hv hi (List.mem_range.1 hc))]; rfl

end Verif.Sparse
