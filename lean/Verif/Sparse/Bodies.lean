import Verif.Sparse.Lemmas

/-! Effect of the bodies of the kernels. -/
namespace Verif.Sparse
open Verif.Py Finset

variable {R : Type} [CommRing R]

theorem readAt_ok {v : List R} {p : Nat} (h : p < v.length) : readAt v p = .ok (v.getD p 0) := by
  simp [readAt, h]

theorem npRead_ok {v : List R} {p : Nat} (h : p < v.length) : npRead v p = .ok (v.getD p 0) := by
  simp [npRead, h]

theorem elemAt_ok {β} {flat : List (Elem β)} {nmax i j : Nat} {e : Elem β} (h : flat[i * nmax + j]? = some e) :
    elemAt flat nmax i j = .ok e := by
  simp [elemAt, h]

/-- Effect of an element: `p` components of the block `b` receive `inc`. -/
def elemEff {β} (e : Elem β) (p b : Nat) (inc : Nat → R) (P : Nat) : R :=
  if e.index < 0 then 0 else if P / p = b then inc (P % p) else 0

theorem elem_adds {β} {flat : List (Elem β)} {nmax i j m : Nat} {e : Elem β} (he : flat[i * nmax + j]? = some e)
    {f : Elem β → Nat → Res (List (Nat × R))} {p b : Nat} {inc : Nat → R} (hp : 0 < p)
    (hf : 0 ≤ e.index → f e e.index.toNat = .ok (genUpdates p b inc) ∧ b < m) :
    Adds (m * p) (fun o => ((elemAt flat nmax i j).bind fun e => cycleNeg e (f e)).bind fun us => applyAll us o)
      (elemEff e p b inc) := by
  rw [elemAt_ok he]
  simp only [Except.bind, cycleNeg]
  by_cases h0 : e.index < 0
  · simp only [if_pos h0]
    refine (Adds.skip (m * p)).congr ?_
    intro P _
    simp [elemEff, h0]
  · obtain ⟨h1, h2⟩ := hf (by omega)
    simp only [if_neg h0, h1]
    refine (Adds.applyAll (genUpdates_lt h2 inc)).congr ?_
    intro P _
    rw [genUpdates_sum hp]
    simp [elemEff, h0]

omit [CommRing R] in
/-- Position of the component `c` of a block of the input. -/
theorem in_lt {v : List R} {n q k c : Nat} (hv : v.length = n * q) (hk : k < n) (hc : c < q) : k * q + c < v.length := by
  rw [hv]; exact pos_lt hk hc

/-- Entry of the blocks of a homothety. -/
def homEntry (x : R) (r c : Nat) : R := if r = c then x else 0

theorem dotBlock_hom {x : R} {q : Nat} {v : List R} {b r : Nat} (hr : r < q) :
    dotBlock (homEntry x) q v b r = x * v.getD (b * q + r) 0 := by
  unfold dotBlock homEntry
  rw [Finset.sum_eq_single r]
  · simp
  · intro c _ hc
    rw [if_neg (Ne.symm hc), zero_mul]
  · intro h; exact absurd (Finset.mem_range.2 hr) h

omit [CommRing R] in
theorem gen_congr {p b : Nat} {f g : Nat → R} (h : ∀ r, r < p → f r = g r) : genUpdates p b f = genUpdates p b g := by
  unfold genUpdates
  apply List.map_congr_left
  intro r hr
  rw [h r (List.mem_range.1 hr)]

theorem fsrHom_elem {flat : List (Elem R)} {nmax i j m n q : Nat} {e : Elem R} (he : flat[i * nmax + j]? = some e)
    (hi : i < m) (hq : 0 < q) {v : List R} (hv : v.length = n * q) (hn : e.index < n) :
    Adds (m * q) (fun o => (fsrHomothetyBody flat nmax v q i j).bind fun us => applyAll us o)
      (elemEff e q i (dotBlock (homEntry e.value) q v e.index.toNat)) := by
  refine elem_adds (f := fun e col => (List.range q).mapM fun k => do
      let x ← readAt v (col * q + k)
      return (i * q + k, e.value * x)) he hq ?_
  intro h0
  refine ⟨?_, hi⟩
  rw [mapM_ok' (g := fun k => (i * q + k, e.value * v.getD (e.index.toNat * q + k) 0))]
  · congr 1
    unfold genUpdates
    apply List.map_congr_left
    intro r hr
    rw [dotBlock_hom (List.mem_range.1 hr)]
  · intro k hk
    rw [readAt_ok (in_lt hv (by omega) (List.mem_range.1 hk))]
    rfl

theorem fscHom_elem {flat : List (Elem R)} {nmax i j m n q : Nat} {e : Elem R} (he : flat[i * nmax + j]? = some e)
    (hi : i < m) (hq : 0 < q) {v : List R} (hv : v.length = m * q) (hn : e.index < n) :
    Adds (n * q) (fun o => (fscHomothetyBody flat nmax v q i j).bind fun us => applyAll us o)
      (elemEff e q e.index.toNat (dotBlock (homEntry e.value) q v i)) := by
  refine elem_adds (f := fun e col => (List.range q).mapM fun k => do
      let x ← readAt v (i * q + k)
      return (col * q + k, e.value * x)) he hq ?_
  intro h0
  refine ⟨?_, by omega⟩
  rw [mapM_ok' (g := fun k => (e.index.toNat * q + k, e.value * v.getD (i * q + k) 0))]
  · congr 1
    unfold genUpdates
    apply List.map_congr_left
    intro r hr
    rw [dotBlock_hom (List.mem_range.1 hr)]
  · intro k hk
    rw [readAt_ok (in_lt hv hi (List.mem_range.1 hk))]
    rfl

theorem fsr_elem {flat : List (Elem R)} {nmax i j m n : Nat} {e : Elem R} (he : flat[i * nmax + j]? = some e)
    (hi : i < m) {v : List R} (hv : v.length = n * 1) (hn : e.index < n) :
    Adds (m * 1) (fun o => (fsrBody flat nmax v i j).bind fun us => applyAll us o)
      (elemEff e 1 i (dotBlock (homEntry e.value) 1 v e.index.toNat)) := by
  refine elem_adds (f := fun e col => do
      let x ← readAt v col
      return [(i, e.value * x)]) he Nat.one_pos ?_
  intro h0
  refine ⟨?_, hi⟩
  rw [readAt_ok (by omega)]
  simp [genUpdates, dotBlock, homEntry, List.range_succ, bind, Except.bind, pure, Except.pure]

theorem fsc_elem {flat : List (Elem R)} {nmax i j m n : Nat} {e : Elem R} (he : flat[i * nmax + j]? = some e)
    (hi : i < m) {v : List R} (hv : v.length = m * 1) (hn : e.index < n) :
    Adds (n * 1) (fun o => (fscBody flat nmax v i j).bind fun us => applyAll us o)
      (elemEff e 1 e.index.toNat (dotBlock (homEntry e.value) 1 v i)) := by
  refine elem_adds (f := fun e col => do
      let x ← readAt v i
      return [(col, e.value * x)]) he Nat.one_pos ?_
  intro h0
  refine ⟨?_, by omega⟩
  rw [readAt_ok (by omega)]
  simp [genUpdates, dotBlock, homEntry, List.range_succ, bind, Except.bind, pure, Except.pure]

theorem fsrRot2d_elem {flat : List (Elem (Rot2d R))} {nmax i j m n : Nat} {e : Elem (Rot2d R)}
    (he : flat[i * nmax + j]? = some e)
    (hi : i < m) {v : List R} (hv : v.length = n * 2) (hn : e.index < n) :
    Adds (m * 2) (fun o => (fsrRot2dBody flat nmax v i j).bind fun us => applyAll us o)
      (elemEff e 2 i (dotBlock (rot2dEntry e.value) 2 v e.index.toNat)) := by
  refine elem_adds (f := fun e col => do
    let x1 ← readAt v (col * 2)
    let x2 ← readAt v (col * 2 + 1)
    return [(i * 2, e.value.r11 * x1 - e.value.r21 * x2),
            (i * 2 + 1, e.value.r21 * x1 + e.value.r11 * x2)]) he (by omega) ?_
  intro h0
  refine ⟨?_, hi⟩
  rw [readAt_ok (by omega), readAt_ok (by omega)]
  simp [genUpdates, dotBlock, rot2dEntry, List.range_succ, Finset.sum_range_succ, bind, Except.bind, pure, Except.pure]
  ring

theorem fscRot2d_elem {flat : List (Elem (Rot2d R))} {nmax i j m n : Nat} {e : Elem (Rot2d R)}
    (he : flat[i * nmax + j]? = some e)
    (hi : i < m) {v : List R} (hv : v.length = m * 2) (hn : e.index < n) :
    Adds (n * 2) (fun o => (fscRot2dBody flat nmax v i j).bind fun us => applyAll us o)
      (elemEff e 2 e.index.toNat (dotBlock (fun r c => rot2dEntry e.value c r) 2 v i)) := by
  refine elem_adds (f := fun e col => do
    let x1 ← readAt v (i * 2)
    let x2 ← readAt v (i * 2 + 1)
    return [(col * 2, e.value.r11 * x1 + e.value.r21 * x2),
            (col * 2 + 1, -e.value.r21 * x1 + e.value.r11 * x2)]) he (by omega) ?_
  intro h0
  refine ⟨?_, by omega⟩
  rw [readAt_ok (by omega), readAt_ok (by omega)]
  simp [genUpdates, dotBlock, rot2dEntry, List.range_succ, Finset.sum_range_succ, bind, Except.bind, pure, Except.pure]

theorem fsrRot3d_elem {flat : List (Elem (Rot3d R))} {nmax i j m n : Nat} {e : Elem (Rot3d R)}
    (he : flat[i * nmax + j]? = some e)
    (hi : i < m) {v : List R} (hv : v.length = n * 3) (hn : e.index < n) :
    Adds (m * 3) (fun o => (fsrRot3dBody flat nmax v i j).bind fun us => applyAll us o)
      (elemEff e 3 i (dotBlock (rot3dEntry e.value) 3 v e.index.toNat)) := by
  refine elem_adds (f := fun e col => do
    let x1 ← readAt v (col * 3)
    let x2 ← readAt v (col * 3 + 1)
    let x3 ← readAt v (col * 3 + 2)
    return [(i * 3, e.value.r11 * x1),
            (i * 3 + 1, e.value.r22 * x2 - e.value.r32 * x3),
            (i * 3 + 2, e.value.r32 * x2 + e.value.r22 * x3)]) he (by omega) ?_
  intro h0
  refine ⟨?_, hi⟩
  rw [readAt_ok (by omega), readAt_ok (by omega), readAt_ok (by omega)]
  simp [genUpdates, dotBlock, rot3dEntry, List.range_succ, Finset.sum_range_succ, bind, Except.bind, pure, Except.pure]
  ring

theorem fscRot3d_elem {flat : List (Elem (Rot3d R))} {nmax i j m n : Nat} {e : Elem (Rot3d R)}
    (he : flat[i * nmax + j]? = some e)
    (hi : i < m) {v : List R} (hv : v.length = m * 3) (hn : e.index < n) :
    Adds (n * 3) (fun o => (fscRot3dBody flat nmax v i j).bind fun us => applyAll us o)
      (elemEff e 3 e.index.toNat (dotBlock (fun r c => rot3dEntry e.value c r) 3 v i)) := by
  refine elem_adds (f := fun e col => do
    let x1 ← readAt v (i * 3)
    let x2 ← readAt v (i * 3 + 1)
    let x3 ← readAt v (i * 3 + 2)
    return [(col * 3, e.value.r11 * x1),
            (col * 3 + 1, e.value.r22 * x2 + e.value.r32 * x3),
            (col * 3 + 2, -e.value.r32 * x2 + e.value.r22 * x3)]) he (by omega) ?_
  intro h0
  refine ⟨?_, by omega⟩
  rw [readAt_ok (by omega), readAt_ok (by omega), readAt_ok (by omega)]
  simp [genUpdates, dotBlock, rot3dEntry, List.range_succ, Finset.sum_range_succ, bind, Except.bind, pure, Except.pure]

/-- The block sizes that have a kernel. -/
def BlockOk (m n : Nat) : Prop := 1 ≤ m ∧ m ≤ 3 ∧ 1 ≤ n ∧ n ≤ 3 ∧ ¬ (m = 1 ∧ n = 1)

theorem blockOk_cases {m n : Nat} (h : BlockOk m n) : (m = 1 ∧ n = 2) ∨ (m = 1 ∧ n = 3) ∨ (m = 2 ∧ n = 1) ∨
    (m = 2 ∧ n = 2) ∨ (m = 2 ∧ n = 3) ∨ (m = 3 ∧ n = 1) ∨ (m = 3 ∧ n = 2) ∨ (m = 3 ∧ n = 3) := by
  unfold BlockOk at h; omega

theorem fsrBlock_elem {p q : Nat} (hpq : BlockOk p q) {flat : List (Elem (List R))} {nmax i j m n : Nat}
    {e : Elem (List R)} (he : flat[i * nmax + j]? = some e)
    (hi : i < m) {v : List R} (hv : v.length = n * q) (hn : e.index < n) :
    Adds (m * p) (fun o => (fsrBlockBody p q flat nmax v i j).bind fun us => applyAll us o)
      (elemEff e p i (dotBlock (blockEntry q e.value) q v e.index.toNat)) := by
  rcases blockOk_cases hpq with ⟨rfl, rfl⟩ | ⟨rfl, rfl⟩ | ⟨rfl, rfl⟩ | ⟨rfl, rfl⟩ | ⟨rfl, rfl⟩ | ⟨rfl, rfl⟩ |
    ⟨rfl, rfl⟩ | ⟨rfl, rfl⟩
  all_goals
    refine elem_adds (b := i) he (by omega) ?_
    intro h0
    refine ⟨?_, hi⟩
    have hb : e.index.toNat < n := by omega
    simp (disch := omega) [readAt_ok, genUpdates, dotBlock, blockEntry, fval, List.range_succ, Finset.sum_range_succ, bind, Except.bind, pure, Except.pure]

theorem fscBlock_elem {p q : Nat} (hpq : BlockOk q p) {flat : List (Elem (List R))} {nmax i j m n : Nat}
    {e : Elem (List R)} (he : flat[i * nmax + j]? = some e)
    (hi : i < m) {v : List R} (hv : v.length = m * q) (hn : e.index < n) :
    Adds (n * p) (fun o => (fscBlockBody q p flat nmax v i j).bind fun us => applyAll us o)
      (elemEff e p e.index.toNat (dotBlock (fun r c => blockEntry p e.value c r) q v i)) := by
  rcases blockOk_cases hpq with ⟨rfl, rfl⟩ | ⟨rfl, rfl⟩ | ⟨rfl, rfl⟩ | ⟨rfl, rfl⟩ | ⟨rfl, rfl⟩ | ⟨rfl, rfl⟩ |
    ⟨rfl, rfl⟩ | ⟨rfl, rfl⟩
  all_goals
    refine elem_adds (b := e.index.toNat) he (by omega) ?_
    intro h0
    refine ⟨?_, by omega⟩
    have hb : e.index.toNat < n := by omega
    simp (disch := omega) [readAt_ok, genUpdates, dotBlock, blockEntry, fval, List.range_succ, Finset.sum_range_succ, bind, Except.bind, pure, Except.pure]

end Verif.Sparse
