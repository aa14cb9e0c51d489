import Verif.Sparse.Spec
import Mathlib.Tactic.Ring
import Mathlib.Algebra.BigOperators.Group.Finset.Sigma
import Mathlib.Algebra.Order.Ring.Nat

/-! Lemmas on the sparse kernels: a piece of code that only adds numbers in the output is characterised by what it adds at
each position. -/
namespace Verif.Sparse
open Verif.Py Finset

variable {R : Type} [CommRing R]

/-- The code `f`, for an output of size `N`, succeeds and adds `g p` at every position `p`. -/
def Adds (N : Nat) (f : List R → Res (List R)) (g : Nat → R) : Prop :=
  ∀ out, out.length = N → ∃ out', f out = .ok out' ∧ out'.length = N ∧ ∀ p, out'[p]? = (out[p]?).map (· + g p)

theorem Adds.skip (N : Nat) : Adds (R := R) N (fun o => .ok o) (fun _ => 0) := by
  intro out h
  refine ⟨out, rfl, h, fun p => ?_⟩
  cases out[p]? <;> simp

theorem Adds.seq {N : Nat} {f f' : List R → Res (List R)} {g g' : Nat → R} (h : Adds N f g) (h' : Adds N f' g') :
    Adds N (fun o => (f o).bind f') (fun p => g p + g' p) := by
  intro out hl
  obtain ⟨o1, a1, a2, a3⟩ := h out hl
  obtain ⟨o2, b1, b2, b3⟩ := h' o1 a2
  refine ⟨o2, by simp only [a1, Except.bind]; exact b1, b2, fun p => ?_⟩
  rw [b3, a3]
  cases out[p]? <;> simp [add_assoc]

theorem Adds.congr {N : Nat} {f : List R → Res (List R)} {g g' : Nat → R} (h : Adds N f g)
    (hg : ∀ p, p < N → g p = g' p) : Adds N f g' := by
  intro out hl
  obtain ⟨o1, a1, a2, a3⟩ := h out hl
  refine ⟨o1, a1, a2, fun p => ?_⟩
  rw [a3]
  by_cases hp : p < N
  · rw [hg p hp]
  · rw [List.getElem?_eq_none (by omega)]; rfl

theorem Adds.congr_fun {N : Nat} {f f' : List R → Res (List R)} {g : Nat → R} (h : Adds N f g)
    (hf : ∀ o, o.length = N → f' o = f o) : Adds N f' g := by
  intro out hl
  rw [hf out hl]
  exact h out hl

theorem Adds.addAt {N p : Nat} (hp : p < N) (x : R) : Adds N (fun o => addAt o p x) (fun q => if q = p then x else 0) := by
  intro out hl
  subst hl
  refine ⟨out.set p (out[p] + x), ?_, by simp, fun q => ?_⟩
  · simp only [Sparse.addAt, List.getElem?_eq_getElem hp]
  · rw [List.getElem?_set]
    by_cases hq : p = q
    · subst hq
      simp [hp]
    · simp only [if_neg hq, if_neg (Ne.symm hq), add_zero, Option.map_id']

theorem Adds.npAdd {N p : Nat} (hp : p < N) (x : R) : Adds N (fun o => npAdd o p x) (fun q => if q = p then x else 0) := by
  intro out hl
  obtain ⟨o', a, b⟩ := Adds.addAt hp x out hl
  refine ⟨o', ?_, b⟩
  subst hl
  simp only [Sparse.addAt, List.getElem?_eq_getElem hp] at a
  simp only [Sparse.npAdd, List.getElem?_eq_getElem hp]
  exact a

theorem Adds.applyAll {N : Nat} : ∀ {us : List (Nat × R)}, (∀ u ∈ us, u.1 < N) →
    Adds N (applyAll us) (fun q => (us.map fun u => if q = u.1 then u.2 else 0).sum)
  | [], _ => by simpa [Sparse.applyAll] using Adds.skip N
  | (p, x) :: us, h => by
    have h1 := Adds.addAt (R := R) (h _ (List.mem_cons_self ..)) x
    have h2 := Adds.applyAll (us := us) (fun u hu => h u (List.mem_cons_of_mem _ hu))
    simpa [Sparse.applyAll] using h1.seq h2

theorem Adds.npAddAll {N : Nat} : ∀ {us : List (Nat × R)}, (∀ u ∈ us, u.1 < N) →
    Adds N (npAddAll us) (fun q => (us.map fun u => if q = u.1 then u.2 else 0).sum)
  | [], _ => by simpa [Sparse.npAddAll] using Adds.skip N
  | (p, x) :: us, h => by
    have h1 := Adds.npAdd (R := R) (h _ (List.mem_cons_self ..)) x
    have h2 := Adds.npAddAll (us := us) (fun u hu => h u (List.mem_cons_of_mem _ hu))
    simpa [Sparse.npAddAll] using h1.seq h2

theorem Adds.foldRange {N : Nat} {f : List R → Nat → Res (List R)} {g : Nat → Nat → R} :
    ∀ {n : Nat}, (∀ i, i < n → Adds N (fun o => f o i) (g i)) →
    Adds N (fun o => (List.range n).foldlM f o) (fun p => ∑ i ∈ range n, g i p)
  | 0, _ => ((Adds.skip N).congr_fun (fun _ _ => rfl)).congr (by simp)
  | n + 1, h => by
    have h1 := Adds.foldRange (n := n) (fun i hi => h i (Nat.lt_succ_of_lt hi))
    have h2 := h1.seq (h n (Nat.lt_succ_self n))
    refine (h2.congr_fun (f' := fun o => (List.range (n + 1)).foldlM f o) ?_).congr ?_
    · intro o _
      rw [List.range_succ, List.foldlM_append]
      simp only [List.foldlM_cons, List.foldlM_nil, bind_pure]
      rfl
    · intro p _
      simp [Finset.sum_range_succ]

theorem Adds.foldList {N : Nat} {α} {f : List R → α → Res (List R)} {g : α → Nat → R} :
    ∀ {l : List α}, (∀ a ∈ l, Adds N (fun o => f o a) (g a)) →
    Adds N (fun o => l.foldlM f o) (fun p => (l.map (fun a => g a p)).sum)
  | [], _ => ((Adds.skip N).congr_fun (fun _ _ => rfl)).congr (by simp)
  | a :: l, h => by
    have h1 := Adds.foldList (l := l) (fun b hb => h b (List.mem_cons_of_mem _ hb))
    have h2 := (h a (List.mem_cons_self ..)).seq h1
    simpa [List.foldlM_cons, bind] using h2

/-! ### Positions -/

theorem pos_lt {i m r p : Nat} (hi : i < m) (hr : r < p) : i * p + r < m * p := by
  have : (i + 1) * p ≤ m * p := Nat.mul_le_mul_right p hi
  rw [Nat.add_mul] at this
  omega

theorem pos_div {i r p : Nat} (hr : r < p) : (i * p + r) / p = i := by
  rw [Nat.add_comm, Nat.mul_comm, Nat.add_mul_div_left _ _ (by omega), Nat.div_eq_of_lt hr]; omega

theorem pos_mod {i r p : Nat} (hr : r < p) : (i * p + r) % p = r := by
  rw [Nat.add_comm, Nat.mul_comm, Nat.add_mul_mod_self_left, Nat.mod_eq_of_lt hr]

theorem div_lt_of {P m p : Nat} (hP : P < m * p) : P / p < m :=
  Nat.div_lt_of_lt_mul (by rwa [Nat.mul_comm])

theorem mod_lt_of {P m p : Nat} (hP : P < m * p) : P % p < p :=
  Nat.mod_lt _ (Nat.pos_of_ne_zero (by rintro rfl; simp at hP))

/-- The updates of the `p` components of the block `base`. -/
def genUpdates (p base : Nat) (inc : Nat → R) : List (Nat × R) :=
  (List.range p).map fun r => (base * p + r, inc r)

theorem list_sum_range (n : Nat) (f : Nat → R) : ((List.range n).map f).sum = ∑ i ∈ range n, f i := by
  induction n with
  | zero => simp
  | succ n ih => rw [List.range_succ, List.map_append, List.sum_append, ih, Finset.sum_range_succ]; simp

theorem genUpdates_sum {p : Nat} (hp : 0 < p) (base : Nat) (inc : Nat → R) (q : Nat) :
    ((genUpdates p base inc).map fun u => if q = u.1 then u.2 else 0).sum = if q / p = base then inc (q % p) else 0 := by
  unfold genUpdates
  rw [List.map_map, show ((fun u : Nat × R => if q = u.1 then u.2 else 0) ∘ fun r => (base * p + r, inc r))
    = fun r => if q = base * p + r then inc r else 0 from rfl, list_sum_range]
  split
  · rename_i hq
    rw [Finset.sum_eq_single (q % p)]
    · rw [if_pos]
      rw [← hq, Nat.mul_comm]; exact (Nat.div_add_mod q p).symm
    · intro r hr hne
      rw [if_neg]
      intro h
      apply hne
      rw [h, pos_mod (Finset.mem_range.1 hr)]
    · intro h
      exact absurd (Finset.mem_range.2 (Nat.mod_lt q hp)) h
  · rename_i hq
    apply Finset.sum_eq_zero
    intro r hr
    rw [if_neg]
    intro h
    apply hq
    rw [h, pos_div (Finset.mem_range.1 hr)]

omit [CommRing R] in
theorem genUpdates_lt {p base m : Nat} (hb : base < m) (inc : Nat → R) : ∀ u ∈ genUpdates p base inc, u.1 < m * p := by
  intro u hu
  simp only [genUpdates, List.mem_map, List.mem_range] at hu
  obtain ⟨r, hr, rfl⟩ := hu
  exact pos_lt hb hr

/-! ### Sums over the elements of a line -/

/-- Sum over the elements of the line `i`. -/
def lineSum {β} (M : Mat β) (i : Nat) (f : Elem β → R) : R :=
  ∑ j ∈ range M.nmax, match M.flat[i * M.nmax + j]? with
    | some e => f e
    | none => 0

theorem lineEntry_eq {β} (entry : β → Nat → Nat → R) (M : Mat β) (i k r c : Nat) :
    lineEntry entry M i k r c = lineSum M i (fun e => if e.index = (k : Int) then entry e.value r c else 0) := rfl

theorem lineSum_congr {β} {M : Mat β} {i : Nat} {f g : Elem β → R} (h : ∀ e ∈ M.flat, f e = g e) :
    lineSum M i f = lineSum M i g := by
  unfold lineSum
  apply Finset.sum_congr rfl
  intro j _
  cases he : M.flat[i * M.nmax + j]? with
  | none => rfl
  | some e => exact h e (List.mem_of_getElem? he)

theorem lineSum_sum {β} {M : Mat β} {i : Nat} {s : Finset Nat} {f : Nat → Elem β → R} :
    lineSum M i (fun e => ∑ k ∈ s, f k e) = ∑ k ∈ s, lineSum M i (f k) := by
  unfold lineSum
  rw [Finset.sum_comm]
  apply Finset.sum_congr rfl
  intro j _
  cases M.flat[i * M.nmax + j]? with
  | none => simp
  | some e => rfl

theorem lineSum_mul {β} {M : Mat β} {i : Nat} {f : Elem β → R} (x : R) :
    lineSum M i (fun e => f e * x) = lineSum M i f * x := by
  unfold lineSum
  rw [Finset.sum_mul]
  apply Finset.sum_congr rfl
  intro j _
  cases M.flat[i * M.nmax + j]? with
  | none => simp
  | some e => rfl

theorem lineSum_add {β} {M : Mat β} {i : Nat} {f g : Elem β → R} :
    lineSum M i (fun e => f e + g e) = lineSum M i f + lineSum M i g := by
  unfold lineSum
  rw [← Finset.sum_add_distrib]
  apply Finset.sum_congr rfl
  intro j _
  cases M.flat[i * M.nmax + j]? with
  | none => simp
  | some e => rfl

theorem lineSum_zero {β} {M : Mat β} {i : Nat} : lineSum M i (fun _ => (0 : R)) = 0 := by
  unfold lineSum
  apply Finset.sum_eq_zero
  intro j _
  cases M.flat[i * M.nmax + j]? <;> rfl

/-- A sum over the elements, whose index is a valid block number or is negative, is a sum over the blocks. -/
theorem index_sum {β} {e : Elem β} {n : Nat} (h : e.index < n) (f : Nat → R) :
    (if e.index < 0 then 0 else f e.index.toNat) = ∑ k ∈ range n, if e.index = (k : Int) then f k else 0 := by
  split
  · symm
    apply Finset.sum_eq_zero
    intro k _
    rw [if_neg (by omega)]
  · rename_i h0
    rw [Finset.sum_eq_single e.index.toNat]
    · rw [if_pos (by omega)]
    · intro k _ hk
      rw [if_neg (by omega)]
    · intro hk
      exact absurd (Finset.mem_range.2 (by omega)) hk

/-! ### The two families of kernels -/

/-- Scalar product of a row of a block with a block of the input. -/
def dotBlock (entry : Nat → Nat → R) (q : Nat) (v : List R) (b r : Nat) : R :=
  ∑ c ∈ range q, entry r c * v.getD (b * q + c) 0

/-- Sum over the elements of all the lines, for a row storage. -/
theorem row_total {β} (entry : β → Nat → Nat → R) {M : Mat β} {m n p q : Nat} (hidx : ∀ e ∈ M.flat, e.index < n)
    (v : List R) {P : Nat} (hP : P < m * p) :
    (∑ i ∈ range m, lineSum M i (fun e => if e.index < 0 then 0
        else if P / p = i then dotBlock (entry e.value) q v e.index.toNat (P % p) else 0)) =
    ∑ k ∈ range n, ∑ c ∈ range q, lineEntry entry M (P / p) k (P % p) c * v.getD (k * q + c) 0 := by
  rw [Finset.sum_eq_single (P / p)]
  · have : ∀ e ∈ M.flat, (if e.index < 0 then 0
        else if P / p = P / p then dotBlock (entry e.value) q v e.index.toNat (P % p) else 0) =
        ∑ k ∈ range n, ∑ c ∈ range q,
          (if e.index = (k : Int) then entry e.value (P % p) c else 0) * v.getD (k * q + c) 0 := by
      intro e he
      simp only [if_true]
      rw [index_sum (hidx e he) (fun k => dotBlock (entry e.value) q v k (P % p))]
      apply Finset.sum_congr rfl
      intro k _
      split
      · rfl
      · simp
    rw [lineSum_congr this, lineSum_sum]
    apply Finset.sum_congr rfl
    intro k _
    rw [lineSum_sum]
    apply Finset.sum_congr rfl
    intro c _
    rw [lineSum_mul, lineEntry_eq]
  · intro i _ hi
    have : ∀ e ∈ M.flat, (if e.index < 0 then 0
        else if P / p = i then dotBlock (entry e.value) q v e.index.toNat (P % p) else 0) = 0 := by
      intro e _
      rw [if_neg (Ne.symm hi)]; simp
    rw [lineSum_congr this, lineSum_zero]
  · intro h
    exact absurd (Finset.mem_range.2 (div_lt_of hP)) h

/-- Sum over the elements of all the lines, for a column storage. -/
theorem col_total {β} (entry : β → Nat → Nat → R) {M : Mat β} {m p q : Nat}
    (v : List R) {P : Nat} :
    (∑ i ∈ range m, lineSum M i (fun e => if e.index < 0 then 0
        else if P / p = e.index.toNat then dotBlock (entry e.value) q v i (P % p) else 0)) =
    ∑ i ∈ range m, ∑ c ∈ range q, lineEntry entry M i (P / p) (P % p) c * v.getD (i * q + c) 0 := by
  apply Finset.sum_congr rfl
  intro i _
  have : ∀ e ∈ M.flat, (if e.index < 0 then 0
      else if P / p = e.index.toNat then dotBlock (entry e.value) q v i (P % p) else 0) =
      ∑ c ∈ range q,
        (if e.index = ((P / p : Nat) : Int) then entry e.value (P % p) c else 0) * v.getD (i * q + c) 0 := by
    intro e he
    generalize P / p = a
    by_cases h0 : e.index < 0
    · rw [if_pos h0]
      symm
      apply Finset.sum_eq_zero
      intro c _
      rw [if_neg (by omega), zero_mul]
    · rw [if_neg h0]
      by_cases h1 : a = e.index.toNat
      · rw [if_pos h1]
        unfold dotBlock
        apply Finset.sum_congr rfl
        intro c _
        rw [if_pos (by omega)]
      · rw [if_neg h1]
        symm
        apply Finset.sum_eq_zero
        intro c _
        rw [if_neg (by omega), zero_mul]
  rw [lineSum_congr this, lineSum_sum]
  apply Finset.sum_congr rfl
  intro c _
  rw [lineSum_mul, lineEntry_eq]

/-- Fortran loops in which each element has a known effect. -/
theorem loops_adds {β} {M : Mat β} {m N : Nat} (hflat : M.flat.length = m * M.nmax)
    {body : Nat → Nat → Res (List (Nat × R))} {eff : Nat → Elem β → Nat → R}
    (hbody : ∀ i, i < m → ∀ j, j < M.nmax → ∀ e, M.flat[i * M.nmax + j]? = some e →
      Adds N (fun o => (body i j).bind fun us => applyAll us o) (eff i e)) :
    Adds N (loops m M.nmax body) (fun P => ∑ i ∈ range m, lineSum M i (fun e => eff i e P)) := by
  unfold loops
  apply Adds.foldRange
  intro i hi
  refine (Adds.foldRange (g := fun j P => match M.flat[i * M.nmax + j]? with | some e => eff i e P | none => 0) ?_).congr
    ?_
  · intro j hj
    have : i * M.nmax + j < M.flat.length := by rw [hflat]; exact pos_lt hi hj
    rw [List.getElem?_eq_getElem this]
    exact hbody i hi j hj _ (List.getElem?_eq_getElem this)
  · intro P _
    rfl

theorem loop1_eq {R} [CommRing R] (n : Nat) (body : Nat → Nat → Res (List (Nat × R))) (out : List R) :
    loop1 n (fun i => body i 0) out = loops n 1 body out := by
  unfold loop1 loops
  simp [List.range_succ]

theorem sum_map_take {β} (f : β → R) (l : List β) : ∀ n : Nat,
    ((l.take n).map f).sum = ∑ j ∈ range n, match l[j]? with | some e => f e | none => 0
  | 0 => by simp
  | n + 1 => by
    rw [List.take_add_one, List.map_append, List.sum_append, sum_map_take f l n, Finset.sum_range_succ]
    cases l[n]? <;> simp

theorem sum_line {β} {M : Mat β} {i : Nat} (f : Elem β → R) :
    (((M.flat.drop (i * M.nmax)).take M.nmax).map f).sum = lineSum M i f := by
  rw [sum_map_take]
  unfold lineSum
  apply Finset.sum_congr rfl
  intro j _
  rw [List.getElem?_drop]
  cases M.flat[i * M.nmax + j]? <;> rfl

theorem line_ok {β} {M : Mat β} {m i : Nat} (hflat : M.flat.length = m * M.nmax) (hi : i < m) :
    line M.flat M.nmax i = .ok ((M.flat.drop (i * M.nmax)).take M.nmax) := by
  unfold line
  rw [if_pos]
  rw [hflat]
  exact Nat.mul_le_mul_right _ hi

theorem mem_line {β} {M : Mat β} {i : Nat} {e : Elem β} (h : e ∈ (M.flat.drop (i * M.nmax)).take M.nmax) : e ∈ M.flat :=
  List.mem_of_mem_drop (List.mem_of_mem_take h)

/-- Python loops of a column storage. -/
theorem fscPython_adds {β} {M : Mat β} {m N : Nat} (hflat : M.flat.length = m * M.nmax)
    {upd : Nat → Elem β → Nat → Res (List (Nat × R))} {eff : Nat → Elem β → Nat → R}
    (hupd : ∀ i, i < m → ∀ e ∈ M.flat, 0 ≤ e.index →
      Adds N (fun o => (upd i e e.index.toNat).bind fun us => npAddAll us o) (eff i e)) :
    Adds N (fscPython M.flat M.nmax m upd)
      (fun P => ∑ i ∈ range m, lineSum M i (fun e => if e.index < 0 then 0 else eff i e P)) := by
  unfold fscPython
  apply Adds.foldRange
  intro i hi
  rw [line_ok hflat hi]
  simp only [Except.bind]
  refine (Adds.foldList (g := fun (e : Elem β) P => if e.index < 0 then 0 else eff i e P) ?_).congr
    (fun P _ => sum_line _)
  intro e he
  by_cases h0 : e.index < 0
  · simp only [if_pos h0, if_neg (show ¬ 0 ≤ e.index by omega)]
    exact Adds.skip N
  · simp only [if_neg h0, if_pos (show 0 ≤ e.index by omega)]
    exact hupd i hi e (mem_line he) (by omega)

theorem mapM_ok' {α γ : Type} {l : List α} {f : α → Res γ} {g : α → γ} (h : ∀ a ∈ l, f a = .ok (g a)) :
    l.mapM f = .ok (l.map g) := by
  induction l with
  | nil => rfl
  | cons a l ih =>
    rw [List.mapM_cons, h a (List.mem_cons_self ..), ih (fun b hb => h b (List.mem_cons_of_mem _ hb))]
    rfl

theorem filter_sum {α : Type} (l : List α) (p : α → Bool) (f : α → R) :
    ((l.filter p).map f).sum = (l.map fun a => if p a then f a else 0).sum := by
  induction l with
  | nil => rfl
  | cons a l ih =>
    rw [List.filter_cons]
    split
    · rename_i h; simp [ih, h]
    · rename_i h; simp [ih, h]

/-- Python loops of a row storage. -/
theorem fsrPython_adds {β} {M : Mat β} {m p : Nat} (hp : 0 < p) (hflat : M.flat.length = m * M.nmax)
    {val : Elem β → Nat → Res (List R)} {inc : Elem β → Nat → R}
    (hval : ∀ e ∈ M.flat, 0 ≤ e.index → ∃ l, val e e.index.toNat = .ok l ∧ ∀ r, r < p → l.getD r 0 = inc e r) :
    Adds (m * p) (fsrPython M.flat M.nmax m p val)
      (fun P => ∑ i ∈ range m, lineSum M i (fun e => if e.index < 0 then 0 else if P / p = i then inc e (P % p) else 0)) := by
  unfold fsrPython
  apply Adds.foldRange
  intro i hi
  rw [line_ok hflat hi]
  simp only [Except.bind]
  have hval' : ∀ e : Elem β, ∃ l, e ∈ M.flat → 0 ≤ e.index →
      val e e.index.toNat = .ok l ∧ ∀ r, r < p → l.getD r 0 = inc e r := by
    intro e
    by_cases h : e ∈ M.flat ∧ 0 ≤ e.index
    · obtain ⟨l, hl⟩ := hval e h.1 h.2
      exact ⟨l, fun _ _ => hl⟩
    · exact ⟨[], fun a b => absurd ⟨a, b⟩ h⟩
  choose g hg using hval'
  rw [mapM_ok' (g := g)]
  · simp only
    refine Adds.congr (Adds.npAddAll (genUpdates_lt hi _)) ?_
    intro P hP
    refine (genUpdates_sum hp i _ P).trans ?_
    rw [← sum_line]
    by_cases h : P / p = i
    · simp only [if_pos h]
      rw [List.map_map, filter_sum]
      congr 1
      apply List.map_congr_left
      intro e he
      simp only [decide_eq_true_eq, Function.comp]
      by_cases h0 : e.index < 0
      · rw [if_pos h0, if_neg (by omega)]
      · rw [if_neg h0, if_pos (by omega)]
        exact (hg e (mem_line he) (by omega)).2 _ (Nat.mod_lt _ hp)
    · simp [h]
  · intro e he
    rw [List.mem_filter] at he
    have h0 : 0 ≤ e.index := by simpa using he.2
    exact (hg e (mem_line he.1) h0).1

end Verif.Sparse
