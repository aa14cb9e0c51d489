import Verif.Sparse.KernelThreads
import Verif.Sparse.PropsPTp

/-! C34: `canonical_basis_in_kernel`. -/
namespace Verif.Sparse
open Verif.Py Finset KernelThreads

/-! ### Sequential execution -/

/-- Some element that is not zero has the index `k`. -/
def Observed {β} (nonzero : β → Bool) (flat : List (Elem β)) (k : Nat) : Prop :=
  ∃ e ∈ flat, e.index = (k : Int) ∧ nonzero e.value = true

instance {β} (nonzero : β → Bool) (flat : List (Elem β)) (k : Nat) : Decidable (Observed nonzero flat k) := by
  unfold Observed; infer_instance

/-- `out` is `kernel` in which the observed positions are False. -/
def Clears {β} (nonzero : β → Bool) (flat : List (Elem β)) (kernel out : List Bool) : Prop :=
  out.length = kernel.length ∧ ∀ k, k < kernel.length → (out[k]? = some true ↔ kernel[k]? = some true ∧ ¬ Observed nonzero flat k)

theorem fsrKernel_spec {β} (words : β → List Int) (flat : List (Elem β)) : ∀ kernel : List Bool,
    (∀ e ∈ flat, e.index < kernel.length) →
    ∃ out, fsrKernel words flat kernel = .ok out ∧ Clears (fun v => (words v).any (· ≠ 0)) flat kernel out := by
  induction flat with
  | nil =>
    intro kernel _
    exact ⟨kernel, rfl, rfl, fun k _ => by simp [Observed]⟩
  | cons e flat ih =>
    intro kernel hk
    have he := hk e (List.mem_cons_self ..)
    have hobs : ∀ k, Observed (fun v => (words v).any (· ≠ 0)) (e :: flat) k ↔
        (e.index = (k : Int) ∧ (words e.value).any (· ≠ 0) = true) ∨ Observed (fun v => (words v).any (· ≠ 0)) flat k := by
      intro k; simp [Observed]
    by_cases hc : 0 ≤ e.index ∧ (words e.value).any (· ≠ 0) = true
    · obtain ⟨out, h1, h2, h3⟩ := ih (kernel.set e.index.toNat false) (by
        intro e' he'; rw [List.length_set]; exact hk e' (List.mem_cons_of_mem _ he'))
      rw [List.length_set] at h2 h3
      refine ⟨out, ?_, h2, ?_⟩
      · rw [← h1]
        unfold fsrKernel
        rw [List.foldlM_cons, if_neg (by omega), if_pos hc.2, setFalse, if_pos (by omega)]
        rfl
      · intro k hlt
        rw [h3 k hlt, hobs, List.getElem?_set]
        by_cases hek : e.index.toNat = k
        · rw [if_pos hek, if_pos (by omega)]
          have : e.index = (k : Int) := by omega
          constructor
          · rintro ⟨hh, _⟩; simp at hh
          · rintro ⟨_, hh⟩; exact absurd (.inl ⟨this, hc.2⟩) hh
        · rw [if_neg hek]
          have : ¬ e.index = (k : Int) := by omega
          simp [this]
    · obtain ⟨out, h1, h2, h3⟩ := ih kernel (fun e' he' => hk e' (List.mem_cons_of_mem _ he'))
      refine ⟨out, ?_, h2, ?_⟩
      · rw [← h1]
        unfold fsrKernel
        rw [List.foldlM_cons]
        by_cases h0 : e.index < 0
        · rw [if_pos h0]; rfl
        · rw [if_neg h0, if_neg (by intro hh; exact hc ⟨by omega, hh⟩)]; rfl
      · intro k hlt
        rw [h3 k hlt, hobs]
        have : ¬ (e.index = (k : Int) ∧ (words e.value).any (· ≠ 0) = true) := fun hh => hc ⟨by omega, hh.2⟩
        simp only [this, false_or]

theorem histogramKernel_spec {β} (nonzero : β → Bool) (flat : List (Elem β)) {n : Nat} (hidx : ∀ e ∈ flat, e.index < n) :
    Clears nonzero flat (List.replicate n true) (histogramKernel nonzero flat n) := by
  refine ⟨by simp [histogramKernel], ?_⟩
  intro k hk
  rw [List.length_replicate] at hk
  simp only [histogramKernel, List.getElem?_map, List.getElem?_range hk, Option.map_some, Option.some.injEq, Bool.not_eq_true',
    List.getElem?_replicate, if_pos hk, true_and, Bool.eq_false_iff, ne_eq, List.any_eq_true, decide_eq_true_eq]
  rw [not_iff_not]
  constructor
  · rintro ⟨i, hi, h⟩
    obtain ⟨e, he, rfl⟩ := List.mem_map.1 hi
    rw [List.mem_filter] at he
    have := hidx e he.1
    exact ⟨e, he.1, by omega, he.2⟩
  · rintro ⟨e, he, h1, h2⟩
    exact ⟨e.index, List.mem_map.2 ⟨e, List.mem_filter.2 ⟨he, h2⟩, rfl⟩, .inl h1⟩

section
variable {R : Type} [CommRing R]

/-- The map whose component `K` is one and the other ones are zero. -/
def basis (size K : Nat) : List R := (List.range size).map fun P => if P = K then 1 else 0

theorem rowProduct_basis {β} (entry : β → Nat → Nat → R) {M : Mat β} {n q k c : Nat} (hc : c < q)
    (hzero : ∀ e ∈ M.flat, e.index = (k : Int) → ∀ r, entry e.value r c = 0) (i r : Nat) :
    rowProduct entry M n q (basis (n * q) (k * q + c)) i r = 0 := by
  unfold rowProduct
  refine Finset.sum_eq_zero fun k' hk' => Finset.sum_eq_zero fun c' hc' => ?_
  have hk' := Finset.mem_range.1 hk'
  have hc' := Finset.mem_range.1 hc'
  by_cases hkc : k' * q + c' = k * q + c
  · have h1 : k' = k := by
      have := congrArg (· / q) hkc
      simpa only [pos_div hc, pos_div hc'] using this
    subst h1
    have h2 : c' = c := by omega
    subst h2
    have : lineEntry entry M i k' r c' = 0 := by
      unfold lineEntry
      refine Finset.sum_eq_zero fun j _ => ?_
      cases hj : M.flat[i * M.nmax + j]? with
      | none => rfl
      | some e =>
        simp only
        by_cases he : e.index = (k' : Int)
        · rw [if_pos he, hzero e (List.mem_of_getElem? hj) he]
        · rw [if_neg he]
    rw [this, zero_mul]
  · have : (basis (n * q) (k * q + c) : List R).getD (k' * q + c') 0 = 0 := by
      rw [List.getD_eq_getElem?_getD]
      simp only [basis, List.getElem?_map, List.getElem?_range (pos_lt hk' hc'), Option.map_some, Option.getD_some, if_neg hkc]
    rw [this, mul_zero]

theorem AddsProduct.zero {m p : Nat} {g : Nat → Nat → R} {a : List R} (h : AddsProduct m p g (initial (m * p) none) a)
    (hg : ∀ i r, g i r = 0) : a = List.replicate (m * p) 0 := by
  rw [h.eq_map]
  simp only [hg]
  rw [List.map_const', List.length_range]

/-- The result for every storage but the blocks, executed sequentially, for maps of `n` pixels (one dimension). -/
theorem canonicalKernel_spec {β} {st : Storage} (hst : st ≠ .fsrBlock) {words : β → List Int} {nonzero : β → Bool} {M : Mat β} {m n : Nat}
    (h : RowWf M m n) (types : Bool) :
    ∃ out, canonicalKernel st words nonzero types M [n] = .ok out ∧ out.length = n ∧
      (∀ k, k < n → (out[k]? = some true ↔
        ∀ e ∈ M.flat, e.index = (k : Int) → if types then ∀ w ∈ words e.value, w = 0 else nonzero e.value = false)) := by
  unfold canonicalKernel
  have hp : prodShape [n] = n := by simp [prodShape]
  simp only [hp]
  by_cases h0 : M.nlines * M.nmax = 0
  · rw [if_pos h0]
    refine ⟨_, rfl, by simp, ?_⟩
    have hf : M.flat = [] := List.eq_nil_of_length_eq_zero (by rw [h.flat, ← h.nlines, h0])
    intro k hk
    simp [hf, hk]
  · rw [if_neg h0, if_neg hst]
    cases types with
    | true =>
      rw [if_pos rfl]
      obtain ⟨out, h1, h2, h3⟩ := fsrKernel_spec words M.flat (List.replicate n true) (by simpa using h.index)
      rw [List.length_replicate] at h2 h3
      refine ⟨out, h1, h2, ?_⟩
      intro k hk
      rw [h3 k hk]
      simp [hk, Observed]
    | false =>
      rw [if_neg (by decide), if_neg (by simp)]
      obtain ⟨h2, h3⟩ := histogramKernel_spec nonzero M.flat h.index
      rw [List.length_replicate] at h2 h3
      refine ⟨_, rfl, h2, ?_⟩
      intro k hk
      rw [h3 k hk]
      simp [hk, Observed]

theorem lt_of_getElem? {out : List Bool} {n k : Nat} (h : out.length = n) (hk : out[k]? = some true) : k < n := by
  have := (List.getElem?_eq_some_iff.1 hk).1
  omega

/-- C34, scalar row storage, executed by one thread (`types = true`) or in Python (`types = false`), for a map without trailing
dimension (`shape = [n]`): the result is True exactly for the pixels without a stored element that is not zero, and then the
projection of the basis map is zero.  `words` are the bits of a value: they are all zero only for the number zero
(the number `-0.0` has bits that are not zero and counts as observed in the compiled code).
Missing (here and in the two next theorems): several threads (`C34_threads_partial`, `C34_violation_race`), trailing
dimensions (`C34_violation_trailing`). -/
theorem C34_fsr_partial {words : R → List Int} {nonzero : R → Bool} (hw : ∀ v, (∀ w ∈ words v, w = 0) → v = 0)
    (hz : ∀ v, nonzero v = true ↔ v ≠ 0) {M : Mat R} {m n : Nat} (h : RowWf M m n) (hn : 0 < n)
    (hb0 : M.bs0 = 1) (hb1 : M.bs1 = 1) (types fast : Bool) :
    ∃ out, canonicalKernel .fsr words nonzero types M [n] = .ok out ∧ out.length = n ∧
      (∀ k, k < n → (out[k]? = some true ↔
        ∀ e ∈ M.flat, e.index = (k : Int) → if types then ∀ w ∈ words e.value, w = 0 else e.value = 0)) ∧
      ∀ k, out[k]? = some true → fsrMatvec fast M (basis n k) none = .ok (List.replicate m 0) := by
  obtain ⟨out, h1, h2, h3⟩ := canonicalKernel_spec (st := .fsr) (by decide) (words := words) (nonzero := nonzero) h types
  have hz' : ∀ v, nonzero v = false ↔ v = 0 := by
    intro v
    have := hz v
    cases hv : nonzero v <;> simp_all
  simp only [hz'] at h3
  refine ⟨out, h1, h2, h3, ?_⟩
  intro k hk
  have hall := (h3 k (lt_of_getElem? h2 hk)).1 hk
  obtain ⟨a, a1, a2⟩ := fsrMatvec_spec h hn hb0 hb1 fast (ext := 1) (by decide) (v := basis n k) (by simp [basis]) (out := none) (.inr rfl)
    (by intro o ho; cases ho)
  have hzero : ∀ e ∈ M.flat, e.index = (k : Int) → ∀ r, homEntry e.value r 0 = 0 := by
    intro e he hek r
    have := hall e he hek
    have hv : e.value = 0 := by
      cases types with
      | true => exact hw _ (by simpa using this)
      | false => simpa using this
    simp [homEntry, hv]
  have e := a2.zero (by
    intro i r
    have := rowProduct_basis (n := n) (q := 1) (c := 0) homEntry (by decide) hzero i r
    simpa using this)
  rw [a1, e, Nat.mul_one]

/-- C34, 2d rotations: the two components of a basis pixel. -/
theorem C34_rot2d_partial {words : Rot2d R → List Int} {nonzero : Rot2d R → Bool}
    (hw : ∀ v, (∀ w ∈ words v, w = 0) → v.r11 = 0 ∧ v.r21 = 0)
    (hz : ∀ v, nonzero v = true ↔ v.r11 ≠ 0 ∨ v.r21 ≠ 0) {M : Mat (Rot2d R)} {m n : Nat} (h : RowWf M m n) (hn : 0 < n)
    (hb0 : M.bs0 = 2) (hb1 : M.bs1 = 2) (types fast : Bool) :
    ∃ out, canonicalKernel .fsrRot2d words nonzero types M [n] = .ok out ∧ out.length = n ∧
      (∀ k, k < n → (out[k]? = some true ↔
        ∀ e ∈ M.flat, e.index = (k : Int) →
          if types then ∀ w ∈ words e.value, w = 0 else e.value.r11 = 0 ∧ e.value.r21 = 0)) ∧
      ∀ k, out[k]? = some true → ∀ c, c < 2 → fsrRot2dMatvec fast M (basis (n * 2) (k * 2 + c)) none = .ok (List.replicate (m * 2) 0) := by
  obtain ⟨out, h1, h2, h3⟩ := canonicalKernel_spec (st := .fsrRot2d) (by decide) (words := words) (nonzero := nonzero) h types
  have hz' : ∀ v, nonzero v = false ↔ v.r11 = 0 ∧ v.r21 = 0 := by
    intro v
    have := hz v
    cases hv : nonzero v
    · simp only [hv, Bool.false_eq_true, false_iff, not_or, not_not] at this
      simp [this]
    · simp only [hv, true_iff] at this
      simp only [Bool.true_eq_false, false_iff]
      rintro ⟨a, b⟩
      rcases this with t | t
      · exact t a
      · exact t b
  simp only [hz'] at h3
  refine ⟨out, h1, h2, h3, ?_⟩
  intro k hk c hc
  have hall := (h3 k (lt_of_getElem? h2 hk)).1 hk
  obtain ⟨a, a1, a2⟩ := fsrRot2dMatvec_spec h hn hb0 hb1 fast (v := basis (n * 2) (k * 2 + c)) (by simp [basis]) (out := none)
    (by intro o ho; cases ho)
  have hzero : ∀ e ∈ M.flat, e.index = (k : Int) → ∀ r, rot2dEntry e.value r c = 0 := by
    intro e he hek r
    have := hall e he hek
    have hv : e.value.r11 = 0 ∧ e.value.r21 = 0 := by
      cases types with
      | true => exact hw _ (by simpa using this)
      | false => simpa using this
    unfold rot2dEntry
    split <;> simp [hv]
  rw [a1, a2.zero (rowProduct_basis rot2dEntry hc hzero)]

/-- C34, 3d rotations, compiled code. -/
theorem C34_rot3d_partial {words : Rot3d R → List Int} {nonzero : Rot3d R → Bool}
    (hw : ∀ v, (∀ w ∈ words v, w = 0) → v.r11 = 0 ∧ v.r22 = 0 ∧ v.r32 = 0) {M : Mat (Rot3d R)} {m n : Nat} (h : RowWf M m n) (hn : 0 < n)
    (hb0 : M.bs0 = 3) (hb1 : M.bs1 = 3) (fast : Bool) :
    ∃ out, canonicalKernel .fsrRot3d words nonzero true M [n] = .ok out ∧ out.length = n ∧
      (∀ k, k < n → (out[k]? = some true ↔ ∀ e ∈ M.flat, e.index = (k : Int) → ∀ w ∈ words e.value, w = 0)) ∧
      ∀ k, out[k]? = some true → ∀ c, c < 3 → fsrRot3dMatvec fast M (basis (n * 3) (k * 3 + c)) none = .ok (List.replicate (m * 3) 0) := by
  obtain ⟨out, h1, h2, h3⟩ := canonicalKernel_spec (st := .fsrRot3d) (by decide) (words := words) (nonzero := nonzero) h true
  simp only [if_true] at h3
  refine ⟨out, h1, h2, h3, ?_⟩
  intro k hk c hc
  have hall := (h3 k (lt_of_getElem? h2 hk)).1 hk
  obtain ⟨a, a1, a2⟩ := fsrRot3dMatvec_spec h hn hb0 hb1 fast (v := basis (n * 3) (k * 3 + c)) (by simp [basis]) (out := none)
    (by intro o ho; cases ho)
  have hzero : ∀ e ∈ M.flat, e.index = (k : Int) → ∀ r, rot3dEntry e.value r c = 0 := by
    intro e he hek r
    have hv := hw _ (hall e he hek)
    unfold rot3dEntry
    split <;> simp [hv]
  rw [a1, a2.zero (rowProduct_basis rot3dEntry hc hzero)]

end

/-! ### Parallel execution -/

/-- Every thread starts with the assignment of the pointer. -/
def NoTestFirst : List Instr → Prop
  | .test _ :: _ => False
  | _ => True

theorem code_noTest {β} (words : β → List Int) (elems : List (Elem β)) : NoTestFirst (code words elems) := by
  induction elems with
  | nil => trivial
  | cons e elems ih =>
    unfold code at ih ⊢
    rw [List.flatMap_cons]
    by_cases h : e.index < 0
    · rw [if_pos h]; exact ih
    · rw [if_neg h]; trivial

/-- Invariant of the executions. -/
structure KInv {β} (words : β → List Int) (flat : List (Elem β)) (kernel : List Bool) (s : State) : Prop where
  len : s.kernel.length = kernel.length
  point : ∀ t ∈ s.threads, ∀ w, Instr.point w ∈ t → ∃ e ∈ flat, 0 ≤ e.index ∧ w = words e.value
  test : ∀ t ∈ s.threads, ∀ k, Instr.test k ∈ t → ∃ e ∈ flat, e.index = (k : Int)
  mono : ∀ k : Nat, s.kernel[k]? = some true → kernel[k]? = some true
  sound : ∀ k : Nat, kernel[k]? = some true → s.kernel[k]? ≠ some true → ∃ e ∈ flat, e.index = (k : Int)
  complete : (∀ e ∈ flat, 0 ≤ e.index → (words e.value).any (· ≠ 0) = true) →
    ((s.val.any (· ≠ 0) = true) ∨ ∀ t ∈ s.threads, NoTestFirst t) ∧
    ∀ e ∈ flat, 0 ≤ e.index → s.kernel[e.index.toNat]? ≠ some true ∨ ∃ t ∈ s.threads, Instr.test e.index.toNat ∈ t

theorem KInv.step {β} {words : β → List Int} {flat : List (Elem β)} {kernel : List Bool} {s s' : State}
    (h : KInv words flat kernel s) (st : Step s s') : KInv words flat kernel s' := by
  obtain ⟨hst⟩ := st
  rename_i t i rest
  have hmem : (i :: rest) ∈ s.threads := List.mem_of_getElem? hst
  have htlt : t < s.threads.length := (List.getElem?_eq_some_iff.1 hst).1
  have hget : s.threads[t]'htlt = i :: rest := (List.getElem?_eq_some_iff.1 hst).2
  have hsub : ∀ t' ∈ s.threads.set t rest, t' ∈ s.threads ∨ t' = rest := fun t' ht' => List.mem_or_eq_of_mem_set ht'
  have hkeep : ∀ t' ∈ s.threads, t' = i :: rest ∨ t' ∈ s.threads.set t rest := by
    intro t' ht'
    obtain ⟨j, hj, rfl⟩ := List.mem_iff_getElem.1 ht'
    by_cases hjt : j = t
    · subst hjt; exact .inl hget
    · refine .inr (List.mem_iff_getElem.2 ⟨j, by simpa using hj, ?_⟩)
      rw [List.getElem_set_ne (by omega)]
  have hrest : rest ∈ s.threads.set t rest := List.mem_iff_getElem.2 ⟨t, by simpa using htlt, by simp⟩
  refine ⟨?_, ?_, ?_, ?_, ?_, ?_⟩
  · cases i with
    | point w => exact h.len
    | test k => simp only [exec]; split <;> simp [h.len]
  · intro t' ht' w hw
    rcases hsub t' ht' with h' | rfl
    · exact h.point t' h' w hw
    · exact h.point _ hmem w (List.mem_cons_of_mem _ hw)
  · intro t' ht' k hk
    rcases hsub t' ht' with h' | rfl
    · exact h.test t' h' k hk
    · exact h.test _ hmem k (List.mem_cons_of_mem _ hk)
  · intro k hk
    cases i with
    | point w => exact h.mono k hk
    | test k' =>
      simp only [exec] at hk
      split at hk
      · rw [List.getElem?_set] at hk
        by_cases hkk : k' = k
        · rw [if_pos hkk] at hk; split at hk <;> simp at hk
        · rw [if_neg hkk] at hk; exact h.mono k hk
      · exact h.mono k hk
  · intro k h1 h2
    cases i with
    | point w => exact h.sound k h1 h2
    | test k' =>
      simp only [exec] at h2
      split at h2
      · rw [List.getElem?_set] at h2
        by_cases hkk : k' = k
        · subst hkk; exact h.test _ hmem k' (List.mem_cons_self ..)
        · rw [if_neg hkk] at h2; exact h.sound k h1 h2
      · exact h.sound k h1 h2
  · intro hall
    obtain ⟨c1, c2⟩ := h.complete hall
    cases i with
    | point w =>
      obtain ⟨e, he, h0, rfl⟩ := h.point _ hmem w (List.mem_cons_self ..)
      refine ⟨.inl (hall e he h0), ?_⟩
      intro e' he' h0'
      rcases c2 e' he' h0' with c | ⟨t', ht', c⟩
      · exact .inl c
      · refine .inr ?_
        rcases hkeep t' ht' with rfl | hh
        · refine ⟨rest, hrest, ?_⟩
          rcases List.mem_cons.1 c with c | c
          · cases c
          · exact c
        · exact ⟨t', hh, c⟩
    | test k =>
      have hval : s.val.any (· ≠ 0) = true := by
        rcases c1 with c | c
        · exact c
        · exact absurd (c _ hmem) (by simp [NoTestFirst])
      refine ⟨.inl hval, ?_⟩
      intro e' he' h0'
      simp only [exec, if_pos hval]
      rcases c2 e' he' h0' with c | ⟨t', ht', c⟩
      · refine .inl ?_
        rw [List.getElem?_set]
        by_cases hkk : k = e'.index.toNat
        · rw [if_pos hkk]; split <;> simp
        · rw [if_neg hkk]; exact c
      · rcases hkeep t' ht' with rfl | hh
        · rcases List.mem_cons.1 c with c | c
          · refine .inl ?_
            injection c with c
            rw [List.getElem?_set, if_pos c.symm]
            split <;> simp
          · exact .inr ⟨rest, hrest, c⟩
        · exact .inr ⟨t', hh, c⟩

theorem KInv.start {β} (words : β → List Int) {flat : List (Elem β)} (val : List Int) (kernel : List Bool)
    {chunks : List (List (Elem β))} (hc : chunks.flatten.Perm flat) : KInv words flat kernel (start words val kernel chunks) := by
  have hin : ∀ c ∈ chunks, ∀ e ∈ c, e ∈ flat := fun c hc' e he => hc.mem_iff.1 (List.mem_flatten.2 ⟨c, hc', he⟩)
  refine ⟨rfl, ?_, ?_, fun _ h => h, fun k h1 h2 => absurd h1 h2, ?_⟩
  · intro t ht w hw
    obtain ⟨c, hc', rfl⟩ := List.mem_map.1 ht
    obtain ⟨e, he, hw⟩ := List.mem_flatMap.1 hw
    by_cases h0 : e.index < 0
    · rw [if_pos h0] at hw; cases hw
    · rw [if_neg h0] at hw
      simp only [List.mem_cons, Instr.point.injEq, reduceCtorEq, List.not_mem_nil, or_false] at hw
      exact ⟨e, hin c hc' e he, by omega, hw⟩
  · intro t ht k hk
    obtain ⟨c, hc', rfl⟩ := List.mem_map.1 ht
    obtain ⟨e, he, hk⟩ := List.mem_flatMap.1 hk
    by_cases h0 : e.index < 0
    · rw [if_pos h0] at hk; cases hk
    · rw [if_neg h0] at hk
      simp only [List.mem_cons, Instr.test.injEq, reduceCtorEq, List.not_mem_nil, or_false, false_or] at hk
      exact ⟨e, hin c hc' e he, by omega⟩
  · intro _
    refine ⟨.inr ?_, ?_⟩
    · intro t ht
      obtain ⟨c, _, rfl⟩ := List.mem_map.1 ht
      exact code_noTest words c
    · intro e he h0
      refine .inr ?_
      obtain ⟨c, hc', hec⟩ := List.mem_flatten.1 (hc.mem_iff.2 he)
      refine ⟨code words c, List.mem_map.2 ⟨c, hc', rfl⟩, List.mem_flatMap.2 ⟨e, hec, ?_⟩⟩
      rw [if_neg (by omega)]
      simp

theorem KInv.exec {β} {words : β → List Int} {flat : List (Elem β)} {kernel : List Bool} {s s' : State}
    (h : KInv words flat kernel s) (st : Exec s s') : KInv words flat kernel s' := by
  induction st with
  | refl => exact h
  | tail _ hs ih => exact ih.step hs

/-- C34, any number of threads, any distribution of the elements over the threads and any interleaving: a pixel to which no
element points is reported in the kernel and, if no element that is stored is zero, the result is exact.
Missing: matrices that store zeros, for which the result depends on the schedule (`C34_violation_race`). -/
theorem C34_threads_partial {β} (words : β → List Int) {flat : List (Elem β)} (val : List Int) {n : Nat}
    {chunks : List (List (Elem β))} (hc : chunks.flatten.Perm flat) {s : State}
    (hs : Exec (start words val (List.replicate n true) chunks) s) (hdone : s.Done) :
    s.kernel.length = n ∧
    (∀ k, k < n → (¬ ∃ e ∈ flat, e.index = (k : Int)) → s.kernel[k]? = some true) ∧
    ((∀ e ∈ flat, 0 ≤ e.index → ∃ w ∈ words e.value, w ≠ 0) →
      ∀ k, k < n → (s.kernel[k]? = some true ↔ ¬ ∃ e ∈ flat, e.index = (k : Int))) := by
  have h := (KInv.start words val (List.replicate n true) hc).exec hs
  have h2 : ∀ k, k < n → (¬ ∃ e ∈ flat, e.index = (k : Int)) → s.kernel[k]? = some true := by
    intro k hk hno
    by_contra hh
    exact hno (h.sound k (by simp [hk]) hh)
  refine ⟨by rw [h.len, List.length_replicate], h2, ?_⟩
  intro hall k hk
  refine ⟨?_, h2 k hk⟩
  rintro ht ⟨e, he, hek⟩
  rcases (h.complete (by intro e he h0; simpa using hall e he h0)).2 e he (by omega) with c | ⟨t, ht', c⟩
  · rw [hek, Int.toNat_natCast] at c
    exact c ht
  · rw [hdone t ht'] at c
    cases c

/-- Execution of the instructions by one thread. -/
def run (val : List Int) (kernel : List Bool) (is : List Instr) : List Int × List Bool :=
  is.foldl (fun p i => exec p.1 p.2 i) (val, kernel)

theorem run_code {β} (words : β → List Int) (flat : List (Elem β)) : ∀ (val : List Int) (kernel : List Bool),
    (∀ e ∈ flat, e.index < kernel.length) → fsrKernel words flat kernel = .ok (run val kernel (code words flat)).2 := by
  induction flat with
  | nil => intro _ _ _; rfl
  | cons e flat ih =>
    intro val kernel hk
    have he := hk e (List.mem_cons_self ..)
    have hk' := fun e' he' => hk e' (List.mem_cons_of_mem _ he')
    unfold code fsrKernel
    rw [List.flatMap_cons, List.foldlM_cons]
    by_cases h0 : e.index < 0
    · rw [if_pos h0, if_pos h0]
      exact ih val kernel hk'
    · rw [if_neg h0, if_neg h0]
      by_cases hw : (words e.value).any (· ≠ 0) = true
      · rw [if_pos hw, setFalse, if_pos (by omega)]
        refine (ih (words e.value) (kernel.set e.index.toNat false) (by simpa using hk')).trans ?_
        congr 1
        simp only [run, List.foldl_append, List.foldl_cons, List.foldl_nil, KernelThreads.exec, if_pos hw]
        rfl
      · rw [if_neg hw]
        refine (ih (words e.value) kernel hk').trans ?_
        congr 1
        simp only [run, List.foldl_append, List.foldl_cons, List.foldl_nil, KernelThreads.exec, if_neg hw]
        rfl

/-- With one thread the parallel loop is `fsrKernel`. -/
theorem single_thread {β} (words : β → List Int) {flat : List (Elem β)} (val : List Int) {kernel : List Bool}
    (hk : ∀ e ∈ flat, e.index < kernel.length) {s : State} (hs : Exec (start words val kernel [flat]) s) (hdone : s.Done) :
    fsrKernel words flat kernel = .ok s.kernel := by
  have inv : ∃ is, s.threads = [is] ∧ run s.val s.kernel is = run val kernel (code words flat) := by
    clear hdone
    induction hs with
    | refl => exact ⟨_, rfl, rfl⟩
    | tail _ hst ih =>
      obtain ⟨is, h1, h2⟩ := ih
      obtain ⟨hg⟩ := hst
      rename_i t i rest
      rw [h1] at hg
      have ht : t = 0 := by
        have := (List.getElem?_eq_some_iff.1 hg).1
        simpa using this
      subst ht
      simp only [List.getElem?_cons_zero, Option.some.injEq] at hg
      subst hg
      exact ⟨rest, by rw [h1]; rfl, by rw [← h2]; rfl⟩
  obtain ⟨is, h1, h2⟩ := inv
  have : is = [] := hdone is (by rw [h1]; simp)
  subst this
  rw [run_code words flat val kernel hk, ← h2]
  rfl

/-- Two elements: pixel 0 with a value that is zero, pixel 1 with another value. -/
def exRace : List (Elem Int) := [⟨0, 0⟩, ⟨1, 5⟩]

/-- Bits of the integers used as values in the examples. -/
def exWords (v : Int) : List Int := [v]

theorem KernelThreads.Step.of {s s' : State} (t : Nat) (i : Instr) (rest : List Instr) (h : s.threads[t]? = some (i :: rest))
    (h' : s' = ⟨(exec s.val s.kernel i).1, (exec s.val s.kernel i).2, s.threads.set t rest⟩) : Step s s' := by
  subst h'
  exact ⟨h⟩

/-- C34 is false of the code with two threads: the pointer `val` is not private.  In an execution, the pixel 0, whose only
element is zero, is reported as observed; in another one the pixel 1, which is observed, is reported in the kernel. -/
theorem C34_violation_race :
    (∃ s, Exec (start exWords [] [true, true] [[⟨0, 0⟩], [⟨1, 5⟩]]) s ∧ s.Done ∧ s.kernel = [false, false]) ∧
    (∃ s, Exec (start exWords [] [true, true] [[⟨0, 0⟩], [⟨1, 5⟩]]) s ∧ s.Done ∧ s.kernel = [true, true]) ∧
    fsrKernel exWords [⟨0, 0⟩, ⟨1, 5⟩] [true, true] = .ok [true, false] := by
  refine ⟨⟨⟨[5], [false, false], [[], []]⟩, ?_, by simp [State.Done], rfl⟩, ⟨⟨[0], [true, true], [[], []]⟩, ?_, by simp [State.Done], rfl⟩, rfl⟩
  · refine .head (b := ⟨[0], [true, true], [[.test 0], [.point [5], .test 1]]⟩) (.of 0 (.point [0]) [.test 0] rfl rfl) ?_
    refine .head (b := ⟨[5], [true, true], [[.test 0], [.test 1]]⟩) (.of 1 (.point [5]) [.test 1] rfl rfl) ?_
    refine .head (b := ⟨[5], [false, true], [[], [.test 1]]⟩) (.of 0 (.test 0) [] rfl rfl) ?_
    exact .single (.of 1 (.test 1) [] rfl rfl)
  · refine .head (b := ⟨[5], [true, true], [[.point [0], .test 0], [.test 1]]⟩) (.of 1 (.point [5]) [.test 1] rfl rfl) ?_
    refine .head (b := ⟨[0], [true, true], [[.test 0], [.test 1]]⟩) (.of 0 (.point [0]) [.test 0] rfl rfl) ?_
    refine .head (b := ⟨[0], [true, true], [[.test 0], []]⟩) (.of 1 (.test 1) [] rfl rfl) ?_
    exact .single (.of 0 (.test 0) [] rfl rfl)

/-- C34 is false for blocks: `AttributeError`. -/
theorem C34_violation_block {β} (words : β → List Int) (nonzero : β → Bool) (types : Bool) {M : Mat β} (shape : List Nat)
    (h : 0 < M.nlines * M.nmax) : canonicalKernel .fsrBlock words nonzero types M shape = .error .attributeError := by
  unfold canonicalKernel
  dsimp only
  rw [if_neg (by omega), if_pos rfl]

/-- C34 is false with trailing dimensions: for maps of shape `(2, 2)` the basis map `(1, 0)` is reported in the kernel,
although its projection is not zero. -/
theorem C34_violation_trailing :
    let M : Mat Int := { nrow := 1, ncol := 2, bs0 := 1, bs1 := 1, nlines := 1, nmax := 1, flat := [⟨1, 5⟩] }
    canonicalKernel .fsr exWords (· ≠ 0) true M [2, 2] = .ok [true, false, true, true] ∧
    fsrMatvec true M [0, 0, 1, 0] none = .ok [5, 0] := by
  constructor <;> decide

/-- C34 is false in Python for 3d rotations: only the field `r11` is tested. -/
theorem C34_violation_rot3d :
    let M : Mat (Rot3d Int) := { nrow := 3, ncol := 3, bs0 := 3, bs1 := 3, nlines := 1, nmax := 1, flat := [⟨0, ⟨0, 1, 0⟩⟩] }
    canonicalKernel .fsrRot3d (fun v => [v.r11, v.r22, v.r32]) (fun v => v.r11 ≠ 0) false M [1] = .ok [true] ∧
    fsrRot3dMatvec false M [0, 1, 0] none = .ok [0, 1, 0] := by
  constructor <;> decide

example : canonicalKernel .fsr exWords (· ≠ 0) true exFsr [3] = .ok [true, false, false] := by decide
example : canonicalKernel .fsr exWords (· ≠ 0) false exFsr [3] = .ok [true, false, false] := by decide
example : ∃ out, canonicalKernel .fsr exWords (· ≠ 0) true exFsr [3] = .ok out ∧ out.length = 3 ∧
      (∀ k : Nat, k < 3 → (out[k]? = some true ↔
        ∀ e ∈ exFsr.flat, e.index = (k : Int) → if true then ∀ w ∈ exWords e.value, w = 0 else e.value = 0)) ∧
      ∀ k : Nat, out[k]? = some true → fsrMatvec true exFsr (basis 3 k) none = .ok (List.replicate 2 0) :=
  C34_fsr_partial (nonzero := fun v : Int => v ≠ 0) (by simp [exWords]) (by simp) exFsr_wf (by decide) rfl rfl true true
example : canonicalKernel .fsrRot2d (fun v => [v.r11, v.r21]) (fun v => v.r11 ≠ 0 ∨ v.r21 ≠ 0) true exFsrRot2d [1] = .ok [false] := by
  decide
example : canonicalKernel .fsrRot3d (fun v => [v.r11, v.r22, v.r32]) (fun v => v.r11 ≠ 0) true exFsrRot3d [2] = .ok [true, false] := by
  decide

end Verif.Sparse
