import Verif.Sparse.PropsPTp

/-! Lemmas on restrictions and corestrictions of sparse matrices. -/
namespace Verif.Sparse
open Verif.Py Finset

/-- Number of elements that are kept before the position `k`. -/
def rank (keep : Nat → Bool) : Nat → Nat
  | 0 => 0
  | k + 1 => rank keep k + (if keep k then 1 else 0)

theorem rank_succ (keep : Nat → Bool) (k : Nat) : rank keep (k + 1) = rank keep k + (if keep k then 1 else 0) := rfl

theorem rank_lt {keep : Nat → Bool} {n : Nat} : ∀ {k : Nat}, k < n → keep k = true → rank keep k < rank keep n := by
  induction n with
  | zero => intro k h; omega
  | succ n ih =>
    intro k hk hkk
    rw [rank_succ]
    by_cases h : k = n
    · subst h; rw [hkk]; simp
    · have := ih (show k < n by omega) hkk
      omega

/-- Every number smaller than the number of kept elements is the rank of a kept element. -/
theorem rank_surj {keep : Nat → Bool} {n : Nat} : ∀ {r : Nat}, r < rank keep n → ∃ k, k < n ∧ keep k = true ∧ rank keep k = r := by
  induction n with
  | zero => intro r h; simp [rank] at h
  | succ n ih =>
    intro r hr
    rw [rank_succ] at hr
    by_cases h : r < rank keep n
    · obtain ⟨k, h1, h2, h3⟩ := ih h
      exact ⟨k, by omega, h2, h3⟩
    · by_cases hk : keep n = true
      · rw [if_pos hk] at hr
        exact ⟨n, by omega, hk, by omega⟩
      · rw [if_neg hk] at hr
        omega

theorem flatMap_len {α} {q : Nat} {f : Nat → List α} {keep : Nat → Bool} {n : Nat} (hf : ∀ i, i < n → (f i).length = q) :
    ((List.range n).flatMap fun i => if keep i then f i else []).length = rank keep n * q := by
  induction n with
  | zero => simp [rank]
  | succ n ih =>
    rw [List.range_succ, List.flatMap_append, List.length_append, ih (fun i hi => hf i (by omega))]
    rw [rank_succ]
    by_cases h : keep n = true
    · simp [h, hf n (by omega), Nat.add_mul]
    · simp [h]

/-- The blocks that are kept. -/
theorem flatMap_get {α} {q : Nat} {f : Nat → List α} {keep : Nat → Bool} {n : Nat} (hf : ∀ i, i < n → (f i).length = q)
    {k j : Nat} (hk : k < n) (hkk : keep k = true) (hj : j < q) :
    ((List.range n).flatMap fun i => if keep i then f i else [])[rank keep k * q + j]? = (f k)[j]? := by
  induction n with
  | zero => omega
  | succ n ih =>
    have hlen := flatMap_len (keep := keep) (n := n) (fun i hi => hf i (by omega))
    rw [List.range_succ, List.flatMap_append]
    by_cases h : k = n
    · subst h
      rw [List.getElem?_append_right (by rw [hlen]; omega), hlen]
      simp [hkk]
    · have hr := rank_lt (show k < n by omega) hkk
      rw [List.getElem?_append_left (by rw [hlen]; exact pos_lt hr hj)]
      exact ih (fun i hi => hf i (by omega)) (by omega)

theorem rank_count (mask : List Bool) : ∀ n, n ≤ mask.length → rank (fun k => mask.getD k false) n = (mask.take n).count true := by
  intro n
  induction n with
  | zero => intro _; simp [rank]
  | succ n ih =>
    intro hn
    rw [rank_succ]
    rw [ih (by omega), List.take_add_one, List.count_append]
    have hn' : n < mask.length := by omega
    cases hb : mask[n] <;> simp [hn', hb]

theorem rank_all (mask : List Bool) : rank (fun k => mask.getD k false) mask.length = mask.count true := by
  rw [rank_count mask mask.length (Nat.le_refl _), List.take_length]

theorem newIndices_eq (mask : List Bool) :
    newIndices mask =
      ((List.range mask.length).map fun k => if mask.getD k false then ((rank (fun k => mask.getD k false) k : Nat) : Int) else -1,
       mask.count true) := by
  induction mask using List.reverseRecOn with
  | nil => rfl
  | append_singleton mask b ih =>
    have e : newIndices (mask ++ [b]) =
        (fun (p : List Int × Nat) (b : Bool) => if b then (p.1 ++ [(p.2 : Int)], p.2 + 1) else (p.1 ++ [-1], p.2))
          (newIndices mask) b := by
      unfold newIndices
      rw [List.foldl_append]; rfl
    rw [e, ih]
    have hrank : ∀ k, k ≤ mask.length → rank (fun k => (mask ++ [b]).getD k false) k = rank (fun k => mask.getD k false) k := by
      intro k hk
      rw [rank_count _ _ (by simp; omega), rank_count _ _ hk, List.take_append_of_le_length hk]
    have hmap : (List.range mask.length).map (fun k => if (mask ++ [b]).getD k false then
          ((rank (fun k => (mask ++ [b]).getD k false) k : Nat) : Int) else -1) =
        (List.range mask.length).map fun k => if mask.getD k false then ((rank (fun k => mask.getD k false) k : Nat) : Int) else -1 := by
      apply List.map_congr_left
      intro k hk
      have hk := List.mem_range.1 hk
      rw [hrank k (by omega)]
      simp only [List.getD_eq_getElem?_getD, List.getElem?_append_left hk]
    have hlast : (mask ++ [b]).getD mask.length false = b := by simp
    rw [List.length_append, List.length_singleton, List.range_succ, List.map_append, hmap]
    simp only [List.map_cons, List.map_nil, hlast, List.count_append]
    rw [hrank mask.length (Nat.le_refl _), rank_all]
    cases b <;> simp

/-! ### Restriction -/

section
variable {R : Type} [CommRing R]

/-- A row product as a sum over the elements. -/
theorem rowProduct_lineSum {β} (entry : β → Nat → Nat → R) {M : Mat β} {n q : Nat} (hidx : ∀ e ∈ M.flat, e.index < n)
    (v : List R) (i r : Nat) :
    rowProduct entry M n q v i r =
      lineSum M i fun e => if e.index < 0 then 0 else dotBlock (entry e.value) q v e.index.toNat r := by
  have h := row_total (m := i + 1) (p := r + 1) (q := q) (M := M) entry hidx v (P := i * (r + 1) + r)
    (by have := Nat.add_mul i 1 (r + 1); omega)
  rw [pos_div (by omega), pos_mod (by omega)] at h
  unfold rowProduct
  rw [← h, Finset.sum_eq_single i]
  · apply lineSum_congr
    intro e _
    rw [if_pos rfl]
  · intro i' _ hi'
    have : ∀ e ∈ M.flat, (if e.index < 0 then (0 : R)
        else if i = i' then dotBlock (entry e.value) q v e.index.toNat r else 0) = 0 := by
      intro e _
      rw [if_neg (Ne.symm hi')]; simp
    rw [lineSum_congr this, lineSum_zero]
  · intro hh
    exact absurd (Finset.mem_range.2 (by omega)) hh

/-- `x[mask]`: the kept blocks of `q` components. -/
def keptBlocks (mask : List Bool) (q : Nat) (x : List R) : List R :=
  (List.range mask.length).flatMap fun k =>
    if mask.getD k false then (List.range q).map fun c => x.getD (k * q + c) 0 else []

/-- `x` with zeros in the blocks that are not kept. -/
def zeroedBlocks (mask : List Bool) (q : Nat) (x : List R) : List R :=
  (List.range (mask.length * q)).map fun P => if mask.getD (P / q) false then x.getD P 0 else 0

theorem keptBlocks_len (mask : List Bool) (q : Nat) (x : List R) : (keptBlocks mask q x).length = mask.count true * q := by
  unfold keptBlocks
  rw [flatMap_len (keep := fun k => mask.getD k false) (q := q) (by intro i _; simp), rank_all]

theorem keptBlocks_get {mask : List Bool} {q k c : Nat} (x : List R) (hk : k < mask.length) (hkk : mask.getD k false = true)
    (hc : c < q) : (keptBlocks mask q x).getD (rank (fun k => mask.getD k false) k * q + c) 0 = x.getD (k * q + c) 0 := by
  unfold keptBlocks
  rw [List.getD_eq_getElem?_getD, flatMap_get (keep := fun k => mask.getD k false)
    (f := fun k => (List.range q).map fun c => x.getD (k * q + c) 0) (by intro i _; simp) hk hkk hc]
  simp [hc]

theorem zeroedBlocks_len (mask : List Bool) (q : Nat) (x : List R) : (zeroedBlocks mask q x).length = mask.length * q := by
  simp [zeroedBlocks]

theorem zeroedBlocks_get {mask : List Bool} {q k c : Nat} (x : List R) (hk : k < mask.length) (hc : c < q) :
    (zeroedBlocks mask q x).getD (k * q + c) 0 = if mask.getD k false then x.getD (k * q + c) 0 else 0 := by
  have := pos_lt hk hc
  simp only [zeroedBlocks, List.getD_eq_getElem?_getD, List.getElem?_map, List.getElem?_range this, Option.map_some,
    Option.getD_some, pos_div hc]

/-- The renumbering of an element. -/
def renumbered {β} (fast : Bool) (mask : List Bool) (e : Elem β) : Elem β :=
  if e.index < 0 then (if fast then e else { e with index := -1 })
  else { e with index := if mask.getD e.index.toNat false then
    ((rank (fun k => mask.getD k false) e.index.toNat : Nat) : Int) else -1 }

theorem restrict_eq {β} {fast : Bool} {M : Mat β} {n : Nat} {mask : List Bool} (hmask : mask.length = n)
    (hidx : ∀ e ∈ M.flat, e.index < n) (hneg : fast = false → ∀ e ∈ M.flat, -(n : Int) ≤ e.index) :
    restrict fast M n mask =
      .ok { M with flat := M.flat.map (renumbered fast mask), ncol := mask.count true * M.bs1 } := by
  unfold restrict
  rw [if_neg (by simpa using hmask), newIndices_eq]
  simp only
  rw [mapM_ok' (g := renumbered fast mask)]
  · rfl
  · intro e he
    have h1 := hidx e he
    unfold renumbered
    cases fast with
    | true =>
      simp only [if_true, renumber]
      by_cases h0 : e.index < 0
      · rw [if_pos h0, if_pos h0]
      · rw [if_neg h0, if_neg h0]
        have : e.index.toNat < mask.length := by omega
        simp only [List.getElem?_map, List.getElem?_range this, Option.map_some]
    | false =>
      have h2 := hneg rfl e he
      simp only [Bool.false_eq_true, if_false, renumberPython]
      have hl : ((List.range mask.length).map fun k => if mask.getD k false = true then
        ((rank (fun k => mask.getD k false) k : Nat) : Int) else -1).length = mask.length := by simp
      simp only [hl]
      by_cases h0 : e.index < 0
      · rw [if_pos h0]
        rw [if_neg (by omega)]
        have : (e.index + (mask.length : Int)).toNat < mask.length := by omega
        simp only [List.getElem?_map, List.getElem?_range this, Option.map_some, if_pos h0]
      · rw [if_neg h0]
        rw [if_neg (by omega)]
        have : e.index.toNat < mask.length := by omega
        simp only [List.getElem?_map, List.getElem?_range this, Option.map_some, if_neg h0]

theorem renumbered_lt {β} (fast : Bool) {mask : List Bool} {e : Elem β} (h : e.index < mask.length) :
    (renumbered fast mask e).index < mask.count true := by
  unfold renumbered
  by_cases h0 : e.index < 0
  · rw [if_pos h0]
    cases fast <;> simp <;> omega
  · rw [if_neg h0]
    simp only
    by_cases hm : mask.getD e.index.toNat false = true
    · rw [if_pos hm]
      have := rank_lt (keep := fun k => mask.getD k false) (show e.index.toNat < mask.length by omega) hm
      rw [rank_all] at this
      omega
    · rw [if_neg hm]; omega

/-- The restricted matrix. -/
def restricted {β} (fast : Bool) (mask : List Bool) (M : Mat β) : Mat β :=
  { M with flat := M.flat.map (renumbered fast mask), ncol := mask.count true * M.bs1 }

theorem RowWf.restricted {β} {M : Mat β} {m n : Nat} (h : RowWf M m n) (fast : Bool) {mask : List Bool} (hmask : mask.length = n) :
    RowWf (restricted fast mask M) m (mask.count true) := by
  refine ⟨h.pos, h.nrow, rfl, h.nlines, by simp [Sparse.restricted, h.flat], ?_⟩
  intro e he
  simp only [Sparse.restricted, List.mem_map] at he
  obtain ⟨e', he', rfl⟩ := he
  exact renumbered_lt fast (by rw [hmask]; exact h.index e' he')

theorem rowProduct_restricted {β} (entry : β → Nat → Nat → R) {M : Mat β} {m n : Nat} (h : RowWf M m n) (fast : Bool) {mask : List Bool}
    (hmask : mask.length = n) (q : Nat) (x : List R) (i r : Nat) :
    rowProduct entry (restricted fast mask M) (mask.count true) q (keptBlocks mask q x) i r =
      rowProduct entry M n q (zeroedBlocks mask q x) i r := by
  rw [rowProduct_lineSum entry (h.restricted fast hmask).index, rowProduct_lineSum entry h.index]
  have e1 : ∀ f : Elem β → R, lineSum (restricted fast mask M) i f = lineSum M i (fun e => f (renumbered fast mask e)) := by
    intro f
    unfold lineSum Sparse.restricted
    apply Finset.sum_congr rfl
    intro j _
    simp only [List.getElem?_map]
    cases M.flat[i * M.nmax + j]? <;> rfl
  rw [e1]
  apply lineSum_congr
  intro e he
  have hlt := h.index e he
  unfold renumbered
  by_cases h0 : e.index < 0
  · rw [if_pos h0, if_pos h0]
    cases fast <;> simp [h0]
  · rw [if_neg h0, if_neg h0]
    have hk : e.index.toNat < mask.length := by omega
    by_cases hm : mask.getD e.index.toNat false = true
    · simp only [if_pos hm]
      rw [if_neg (by omega)]
      unfold dotBlock
      apply Finset.sum_congr rfl
      intro c hc
      rw [Int.toNat_natCast, keptBlocks_get x hk hm (Finset.mem_range.1 hc), zeroedBlocks_get x hk (Finset.mem_range.1 hc), if_pos hm]
    · simp only [if_neg hm]
      rw [if_pos (by omega)]
      unfold dotBlock
      symm
      apply Finset.sum_eq_zero
      intro c hc
      rw [zeroedBlocks_get x hk (Finset.mem_range.1 hc), if_neg hm, mul_zero]

/-! ### Corestriction -/

/-- The corestricted matrix. -/
def corestricted {β} (mask : List Bool) (M : Mat β) : Mat β :=
  { M with nrow := mask.count true, nlines := mask.count true, flat := selectLines M.nmax M.flat mask }

theorem line_len {β} {M : Mat β} {m i : Nat} (hflat : M.flat.length = m * M.nmax) (hi : i < m) :
    ((M.flat.drop (i * M.nmax)).take M.nmax).length = M.nmax := by
  rw [List.length_take, List.length_drop, hflat]
  have := Nat.mul_le_mul_right M.nmax (show i + 1 ≤ m by omega)
  rw [Nat.add_mul, Nat.one_mul] at this
  omega

theorem RowWf.corestricted {β} {M : Mat β} {m n : Nat} (h : RowWf M m n) (hb0 : M.bs0 = 1) {mask : List Bool}
    (hmask : mask.length = m) : RowWf (corestricted mask M) (mask.count true) n := by
  refine ⟨h.pos, by simp [Sparse.corestricted, hb0], h.ncol, rfl, ?_, ?_⟩
  · simp only [Sparse.corestricted, selectLines]
    rw [flatMap_len (keep := fun k => mask.getD k false) (q := M.nmax) (fun i hi => line_len h.flat (by omega)), rank_all]
  · intro e he
    simp only [Sparse.corestricted, selectLines, List.mem_flatMap] at he
    obtain ⟨i, _, he⟩ := he
    split at he
    · exact h.index e (List.mem_of_mem_drop (List.mem_of_mem_take he))
    · cases he

theorem rowProduct_corestricted {β} (entry : β → Nat → Nat → R) {M : Mat β} {m n : Nat} (h : RowWf M m n) {mask : List Bool}
    (hmask : mask.length = m) (q : Nat) (x : List R) {i : Nat} (hi : i < m) (hk : mask.getD i false = true) (r : Nat) :
    rowProduct entry (corestricted mask M) n q x (rank (fun k => mask.getD k false) i) r = rowProduct entry M n q x i r := by
  unfold rowProduct
  refine Finset.sum_congr rfl fun k _ => Finset.sum_congr rfl fun c _ => ?_
  congr 1
  unfold lineEntry
  refine Finset.sum_congr rfl fun j hj => ?_
  have hj : j < M.nmax := Finset.mem_range.1 hj
  have e : (corestricted mask M).flat[rank (fun k => mask.getD k false) i * (corestricted mask M).nmax + j]? =
      M.flat[i * M.nmax + j]? := by
    show (selectLines M.nmax M.flat mask)[rank (fun k => mask.getD k false) i * M.nmax + j]? = _
    unfold selectLines
    rw [flatMap_get (keep := fun k => mask.getD k false) (f := fun i => (M.flat.drop (i * M.nmax)).take M.nmax)
      (fun i hi => line_len h.flat (by omega)) (by omega) hk hj]
    rw [List.getElem?_take, if_pos hj, List.getElem?_drop]
  rw [e]

end
end Verif.Sparse
