import Verif.Dist.Model
import Verif.Dist.PropsHeader
import Mathlib.Tactic.Linarith
import Mathlib.Algebra.Order.Ring.Int

/-! Properties C50, C51, C52: process grid, blocks and operator of an acquisition. -/
namespace Verif.Dist
open Verif.Py

/-! ### C50 -/

/-- C50: the accepted numbers of processes use every process, and the requested ones are honoured (the second one only if the first one is
not given). -/
theorem C50_grid_partial (size : Int) (hs : 1 ≤ size) (ni ns : Option Int) (a b : Int) (h : processGrid size ni ns = .ok (a, b)) :
    a * b = size ∧ 1 ≤ a ∧ 1 ≤ b ∧ (∀ n ∈ ni, a = n) ∧ (ni = none → ∀ n ∈ ns, b = n) := by
  have key : a * b = size ∧ (∀ n ∈ ni, a = n) ∧ (ni = none → ∀ n ∈ ns, b = n) ∧ (1 ≤ a ∨ 1 ≤ b) := by
    rcases ni with _ | ni
    · rcases ns with _ | ns
      · simp only [processGrid, one_mul, ne_eq, not_true_eq_false, if_false, Except.ok.injEq, Prod.mk.injEq] at h
        obtain ⟨rfl, rfl⟩ := h
        simp
      · simp only [processGrid] at h
        split at h
        · cases h
        · split at h
          · cases h
          · rename_i h1 h2
            simp only [Except.ok.injEq, Prod.mk.injEq] at h
            obtain ⟨rfl, rfl⟩ := h
            simp only [ne_eq, not_not] at h2
            refine ⟨h2, by simp, by simp, Or.inr (by omega)⟩
    · simp only [processGrid] at h
      split at h
      · cases h
      · split at h
        · cases h
        · rename_i h1 h2
          simp only [Except.ok.injEq, Prod.mk.injEq] at h
          obtain ⟨rfl, rfl⟩ := h
          simp only [ne_eq, not_not] at h2
          refine ⟨h2, by simp, by simp, Or.inl (by omega)⟩
  obtain ⟨h1, h2, h3, h4⟩ := key
  refine ⟨h1, ?_, ?_, h2, h3⟩
  · rcases h4 with h4 | h4
    · exact h4
    · by_contra hc
      have : a * b ≤ 0 := mul_nonpos_of_nonpos_of_nonneg (by omega) (by omega)
      omega
  · rcases h4 with h4 | h4
    · by_contra hc
      have : a * b ≤ 0 := mul_nonpos_of_nonneg_of_nonpos (by omega) (by omega)
      omega
    · exact h4

example : processGrid 6 (some 2) none = .ok (2, 3) ∧ processGrid 6 none (some 2) = .ok (3, 2) ∧ processGrid 6 none none = .ok (1, 6) := by decide

/-- C50: a single request is rejected exactly if it is not a divisor of the number of processes. -/
theorem C50_rejects (size : Int) (hs : 1 ≤ size) (n : Int) :
    (processGrid size (some n) none = .error .valueError ↔ ¬ (1 ≤ n ∧ n ∣ size)) ∧
    (processGrid size none (some n) = .error .valueError ↔ ¬ (1 ≤ n ∧ n ∣ size)) := by
  have key : 1 ≤ n → (n * size.fdiv n = size ↔ n ∣ size) := by
    intro hn
    constructor
    · intro h; exact ⟨_, h.symm⟩
    · intro h
      rw [Int.fdiv_eq_ediv_of_dvd h, Int.mul_ediv_cancel' h]
  have hle : n ∣ size → n ≤ size := fun h => Int.le_of_dvd (by omega) h
  constructor
  · simp only [processGrid]
    by_cases h : n < 1 ∨ size < n
    · rw [if_pos h]
      simp only [true_iff]
      rintro ⟨h1, h2⟩
      have := hle h2
      omega
    · rw [if_neg h]
      have := key (by omega)
      by_cases h2 : n * size.fdiv n = size
      · simp [h2, this.1 h2]; omega
      · simp only [h2, ne_eq, not_false_eq_true, if_true, true_iff]
        exact fun h3 => h2 (this.2 h3.2)
  · simp only [processGrid]
    by_cases h : n < 1 ∨ size < n
    · rw [if_pos h]
      simp only [true_iff]
      rintro ⟨h1, h2⟩
      have := hle h2
      omega
    · rw [if_neg h]
      have := key (by omega)
      rw [mul_comm] at this
      by_cases h2 : size.fdiv n * n = size
      · simp [h2, this.1 h2]; omega
      · simp only [h2, ne_eq, not_false_eq_true, if_true, true_iff]
        exact fun h3 => h2 (this.2 h3.2)

example : processGrid 6 (some 4) none = .error .valueError ∧ processGrid 6 none (some 0) = .error .valueError := by decide

/-- C50 fails when both numbers are given: the second one is not looked at, even if the request is inconsistent. -/
theorem C50_violation_both (size : Int) (hs : 1 ≤ size) (ni : Int) (h1 : 1 ≤ ni) (h2 : ni ∣ size) (ns : Int) (h : ni * ns ≠ size) :
    ∃ b, b ≠ ns ∧ processGrid size (some ni) (some ns) = .ok (ni, b) := by
  have hle : ni ≤ size := Int.le_of_dvd (by omega) h2
  have e : ni * size.fdiv ni = size := by rw [Int.fdiv_eq_ediv_of_dvd h2, Int.mul_ediv_cancel' h2]
  refine ⟨size.fdiv ni, ?_, ?_⟩
  · rintro rfl
    exact h e
  · simp only [processGrid]
    rw [if_neg (by omega), if_neg (by simpa using e)]

example : processGrid 6 (some 2) (some 2) = .ok (2, 3) := by decide

/-- The part of a partition that has an item. -/
theorem split_unique {n m d : Nat} (hm : 0 < m) (hd : d < n) :
    ∃ j, j < m ∧ ∀ k, k < m → ((splitStart n m k ≤ d ∧ d < splitStart n m k + splitLen n m k) ↔ k = j) := by
  have ex : ∀ k, k ≤ m → d < splitStart n m k → ∃ j, j < k ∧ splitStart n m j ≤ d ∧ d < splitStart n m (j + 1) := by
    intro k
    induction k with
    | zero => intro _ h; rw [splitStart_zero] at h; omega
    | succ k ih =>
      intro hk h
      rcases Nat.lt_or_ge d (splitStart n m k) with h' | h'
      · obtain ⟨j, hj, h3⟩ := ih (by omega) h'
        exact ⟨j, by omega, h3⟩
      · exact ⟨k, by omega, h', h⟩
  obtain ⟨j, hj, h1, h2⟩ := ex m (le_refl _) (by rw [splitStart_last hm]; exact hd)
  refine ⟨j, hj, ?_⟩
  intro k hk
  rw [← splitStart_succ]
  constructor
  · rintro ⟨h3, h4⟩
    rcases Nat.lt_trichotomy k j with h | h | h
    · have := splitStart_mono (n := n) (m := m) (show k + 1 ≤ j from h)
      omega
    · exact h
    · have := splitStart_mono (n := n) (m := m) (show j + 1 ≤ k from h)
      omega
  · rintro rfl
    exact ⟨h1, h2⟩

/-- C50: every pair of a detector and a sample belongs to exactly one process of the grid. -/
theorem C50_partition (ni ns ndetectors nsamples d t : Nat) (hi : 0 < ni) (hs : 0 < ns) (hd : d < ndetectors) (ht : t < nsamples) :
    ∃! r, r < ni * ns ∧
      ((gridPart ni ns ndetectors nsamples r).1.1 ≤ d ∧ d < (gridPart ni ns ndetectors nsamples r).1.1 + (gridPart ni ns ndetectors nsamples r).1.2) ∧
      ((gridPart ni ns ndetectors nsamples r).2.1 ≤ t ∧ t < (gridPart ni ns ndetectors nsamples r).2.1 + (gridPart ni ns ndetectors nsamples r).2.2) := by
  obtain ⟨j, hj, huj⟩ := split_unique hi hd
  obtain ⟨i, hi', hui⟩ := split_unique hs ht
  have hr : i * ni + j < ni * ns := by
    have : (i + 1) * ni ≤ ns * ni := Nat.mul_le_mul_right _ hi'
    rw [Nat.add_mul, Nat.one_mul, Nat.mul_comm ns ni] at this
    omega
  have hdiv : (i * ni + j) / ni = i := by
    rw [Nat.mul_comm, Nat.mul_add_div hi, Nat.div_eq_of_lt hj, Nat.add_zero]
  have hmod : (i * ni + j) % ni = j := by
    rw [Nat.mul_comm, Nat.mul_add_mod, Nat.mod_eq_of_lt hj]
  refine ⟨i * ni + j, ⟨hr, ?_, ?_⟩, ?_⟩
  · simp only [gridPart, hmod]
    exact (huj j hj).2 rfl
  · simp only [gridPart, hdiv]
    exact (hui i hi').2 rfl
  · rintro r ⟨hr', h1, h2⟩
    simp only [gridPart] at h1 h2
    have e1 := (huj (r % ni) (Nat.mod_lt _ hi)).1 h1
    have e2 := (hui (r / ni) (by rw [Nat.div_lt_iff_lt_mul hi, Nat.mul_comm]; exact hr')).1 h2
    have := Nat.div_add_mod r ni
    rw [e1, e2, Nat.mul_comm] at this
    exact this.symm

/-- The sixth process of a grid of three by two, five detectors and four samples. -/
example : gridPart 2 3 5 4 5 = ((3, 2), (3, 1)) := by decide

/-! ### C51 -/

theorem slice_append {α} (l : List α) {a b : Nat} (h : a ≤ b) : l.take a ++ slice l (a, b) = l.take b := by
  rw [slice]
  have : l.take a = (l.take b).take a := by rw [List.take_take, Nat.min_eq_left h]
  rw [this, List.take_append_drop]

/-- C51: for every positive memory limit the blocks are consecutive and cover the sampling: the parts of the sampling put one after
another are the sampling.  This is also so for the samplings that have been shortened by a restriction. -/
theorem C51_blocks (n nbytes : Nat) (maxNbytes : Option Nat) (hmax : maxNbytes ≠ some 0) :
    ∃ bs, blocks n nbytes maxNbytes = .ok bs ∧ bs ≠ [] ∧ (∀ b ∈ bs, b.1 ≤ b.2 ∧ b.2 ≤ n) ∧
      ∀ {α : Type} (l : List α), l.length ≤ n → bs.flatMap (slice l) = l := by
  have hone : ∀ {α : Type} (l : List α), l.length ≤ n → [(0, n)].flatMap (slice l) = l := by
    intro α l hl
    simp [slice, List.take_of_length_le hl]
  rcases maxNbytes with _ | m
  · exact ⟨[(0, n)], rfl, by simp, by simp, fun l hl => hone l hl⟩
  · have hm : m ≠ 0 := fun h => hmax (by rw [h])
    rw [blocks]
    dsimp only
    by_cases h : m < nbytes
    · rw [if_pos h, if_neg hm]
      have hnb : 0 < ceilDiv nbytes m := Nat.div_pos (by omega) (by omega)
      refine ⟨_, rfl, by simp; omega, ?_, ?_⟩
      · intro b hb
        obtain ⟨r, hr, rfl⟩ := List.mem_map.1 hb
        exact ⟨Nat.le_add_right .., splitStop_le (List.mem_range.1 hr)⟩
      · intro α l hl
        have : ∀ k, ((List.range k).map fun r => (splitStart n (ceilDiv nbytes m) r,
            splitStart n (ceilDiv nbytes m) r + splitLen n (ceilDiv nbytes m) r)).flatMap (slice l) = l.take (splitStart n (ceilDiv nbytes m) k) := by
          intro k
          induction k with
          | zero => simp [splitStart_zero]
          | succ k ih =>
            rw [List.range_succ, List.map_append, List.flatMap_append, ih, List.map_singleton, List.flatMap_singleton,
              slice_append l (Nat.le_add_right ..), ← splitStart_succ]
        rw [this, splitStart_last hnb, List.take_of_length_le hl]
    · rw [if_neg h]
      exact ⟨[(0, n)], rfl, by simp, by simp, fun l hl => hone l hl⟩

/-- Seven samples, an operator of 10 bytes and a limit of 4 bytes: three blocks. -/
example : blocks 7 10 (some 4) = .ok [(0, 3), (3, 5), (5, 7)] := by decide

/-- C51 for a limit of zero bytes. -/
theorem C51_violation_zero (n nbytes : Nat) (h : 0 < nbytes) : blocks n nbytes (some 0) = .error .zeroDivisionError := by
  rw [blocks]; dsimp only; rw [if_pos h, if_pos rfl]

/-- `l` is the concatenation of the parts of the blocks. -/
def Tiles : Nat → List (Nat × Nat) → Nat → Prop
  | a, [], n => a = n
  | a, b :: bs, n => b.1 = a ∧ b.1 ≤ b.2 ∧ Tiles b.2 bs n

theorem tiles_le : ∀ {a n : Nat} {bs : List (Nat × Nat)}, Tiles a bs n → a ≤ n
  | _, _, [], h => Nat.le_of_eq h
  | _, _, _ :: _, ⟨h1, h2, h3⟩ => by have := tiles_le h3; omega

theorem getNoise_tiles {σ α} (op : α → α → α) (noise : List σ → List α) (hnoise : ∀ s, (noise s).length = s.length) (sampling : List σ) :
    ∀ (bs : List (Nat × Nat)) (a : Nat) (out : List α), Tiles a bs sampling.length → out.length = sampling.length →
      getNoise op noise sampling out bs = out.take a ++ List.zipWith op (out.drop a) (bs.flatMap fun b => noise (slice sampling b))
  | [], a, out, ht, ho => by
    have : a = out.length := by rw [ho]; exact ht
    subst this
    simp [getNoise]
  | b :: bs, a, out, ⟨h1, h2, h3⟩, ho => by
    have hb := tiles_le h3
    subst h1
    have hsl : (slice out b).length = b.2 - b.1 := by
      rw [slice, List.length_drop, List.length_take]; omega
    have hsl' : (slice sampling b).length = b.2 - b.1 := by
      rw [slice, List.length_drop, List.length_take]; omega
    have hz : (List.zipWith op (slice out b) (noise (slice sampling b))).length = b.2 - b.1 := by
      rw [List.length_zipWith, hnoise, hsl, hsl', Nat.min_self]
    have htk : (out.take b.1).length = b.1 := by rw [List.length_take]; omega
    have hpre : (out.take b.1 ++ List.zipWith op (slice out b) (noise (slice sampling b))).length = b.2 := by
      rw [List.length_append, hz, htk]; omega
    have hd : (out.drop b.1).drop (slice out b).length = out.drop b.2 := by
      rw [List.drop_drop, hsl]; congr 1; omega
    rw [getNoise, getNoise_tiles op noise hnoise sampling bs b.2 _ h3 (by
      rw [updSlice, hd, List.length_append, hpre, List.length_drop]; omega)]
    rw [updSlice, hd, List.take_left' hpre, List.drop_left' hpre, List.flatMap_cons, List.append_assoc]
    congr 1
    have hsplit : out.drop b.1 = slice out b ++ out.drop b.2 := by
      have h4 := slice_append out h2
      have h5 := List.take_append_drop b.2 out
      rw [← h4, List.append_assoc] at h5
      have h6 := List.take_append_drop b.1 out
      exact List.append_cancel_left (h6.trans h5.symm)
    rw [hsplit, List.zipWith_append (by rw [hsl, hnoise, hsl'])]

/-- The blocks of an acquisition tile the sampling. -/
theorem blocks_tiles {n nbytes : Nat} {maxNbytes : Option Nat} {bs : List (Nat × Nat)} (h : blocks n nbytes maxNbytes = .ok bs) : Tiles 0 bs n := by
  have hone : Tiles 0 [(0, n)] n := ⟨rfl, Nat.zero_le _, rfl⟩
  rcases maxNbytes with _ | m
  · cases h; exact hone
  · rw [blocks] at h
    dsimp only at h
    split at h
    · split at h
      · cases h
      · rename_i h1 h2
        have hnb : 0 < ceilDiv nbytes m := Nat.div_pos (by omega) (by omega)
        simp only [Except.ok.injEq] at h
        subst h
        have : ∀ k j, j + k = ceilDiv nbytes m → Tiles (splitStart n (ceilDiv nbytes m) j) ((List.range' j k).map fun r => (splitStart n (ceilDiv nbytes m) r,
            splitStart n (ceilDiv nbytes m) r + splitLen n (ceilDiv nbytes m) r)) n := by
          intro k
          induction k with
          | zero =>
            intro j hj
            have : j = ceilDiv nbytes m := by omega
            subst this
            exact splitStart_last hnb
          | succ k ih =>
            intro j hj
            rw [List.range'_succ, List.map_cons]
            refine ⟨rfl, Nat.le_add_right .., ?_⟩
            rw [← splitStart_succ]
            exact ih (j + 1) (by omega)
        have := this (ceilDiv nbytes m) 0 (by omega)
        rwa [splitStart_zero, ← List.range_eq_range'] at this
    · cases h; exact hone

/-- C51: `get_noise` writes (or adds) every sample once: the result is the one of a single assignment of the noises of the blocks put one
after another. -/
theorem C51_noise {σ α : Type} (op : α → α → α) (noise : List σ → List α) (hnoise : ∀ s, (noise s).length = s.length) (sampling : List σ)
    (out : List α) (ho : out.length = sampling.length) (nbytes : Nat) (maxNbytes : Option Nat) (bs : List (Nat × Nat))
    (h : blocks sampling.length nbytes maxNbytes = .ok bs) :
    getNoise op noise sampling out bs = List.zipWith op out (bs.flatMap fun b => noise (slice sampling b)) ∧
    (bs.flatMap fun b => noise (slice sampling b)).length = sampling.length := by
  have ht := blocks_tiles h
  refine ⟨by simpa using getNoise_tiles op noise hnoise sampling bs 0 out ht ho, ?_⟩
  have : ∀ (bs : List (Nat × Nat)) a, Tiles a bs sampling.length → a + (bs.flatMap fun b => noise (slice sampling b)).length = sampling.length := by
    intro bs
    induction bs with
    | nil => intro a ha; simpa [Tiles] using ha
    | cons b bs ih =>
      rintro a ⟨h1, h2, h3⟩
      have := ih _ h3
      have hb := tiles_le h3
      have hsl' : (slice sampling b).length = b.2 - b.1 := by
        rw [slice, List.length_drop, List.length_take]; omega
      rw [List.flatMap_cons, List.length_append, hnoise, hsl']
      omega
  simpa using this bs 0 ht

example : getNoise (· + ·) (fun s => s.map (10 * ·)) [1, 2, 3, 4, 5] [100, 200, 300, 400, 500] [(0, 3), (3, 5)] = [110, 220, 330, 440, 550] := by
  decide

/-! ### C52 -/

variable {S O Sel : Type}

/-- Specification: the states of the acquisitions after some calls. -/
def specStates (res : Sel → S → S) (states : List S) : List (Call Sel) → List S
  | [] => states
  | .getOperator _ :: cs => specStates res states cs
  | .all i :: cs => specStates res (states ++ (states[i]?).toList) cs
  | .restrict i sel :: cs => specStates res (states ++ ((states[i]?).map (res sel)).toList) cs

/-- No acquisition is restricted while its operator is stored. -/
def NoStale (op : S → O) (res : Sel → S → S) : List (Acq S O) → List (Call Sel) → Prop
  | _, [] => True
  | h, c :: cs => (∀ i sel, c = .restrict i sel → ∀ a ∈ h[i]?, a.operator = none) ∧
      ∀ p, step op res h c = .ok p → NoStale op res p.1 cs

theorem run_coherent (op : S → O) (res : Sel → S → S) : ∀ (cs : List (Call Sel)) (h h' : List (Acq S O)),
    (∀ a ∈ h, ∀ o ∈ a.operator, o = op a.state) → NoStale op res h cs → run op res h cs = .ok h' →
    (∀ a ∈ h', ∀ o ∈ a.operator, o = op a.state) ∧ h'.map (·.state) = specStates res (h.map (·.state)) cs
  | [], h, h', hc, _, hr => by
    cases hr
    exact ⟨hc, rfl⟩
  | c :: cs, h, h', hc, ⟨hn1, hn2⟩, hr => by
    rw [run] at hr
    cases hst : step op res h c with
    | error e => rw [hst] at hr; cases hr
    | ok p =>
      rw [hst] at hr
      change run op res p.1 cs = .ok h' at hr
      have hset : ∀ (i : Nat) (a b : Acq S O), h[i]? = some a → b.state = a.state → (h.set i b).map (·.state) = h.map (·.state) := by
        intro i a b hi hb
        rw [List.map_set, hb]
        apply List.ext_getElem?
        intro k
        rw [List.getElem?_set]
        split
        · rename_i hk
          subst hk
          obtain ⟨hl, e⟩ := List.getElem?_eq_some_iff.1 hi
          simp [hl, e]
        · rfl
      have key : (∀ a ∈ p.1, ∀ o ∈ a.operator, o = op a.state) ∧
          specStates res (h.map (·.state)) (c :: cs) = specStates res (p.1.map (·.state)) cs := by
        cases c with
        | getOperator i =>
          simp only [step] at hst
          cases hi : h[i]? with
          | none => rw [hi] at hst; cases hst
          | some a =>
            rw [hi] at hst
            dsimp only at hst
            cases ho : a.operator with
            | some o =>
              rw [ho] at hst
              cases hst
              exact ⟨hc, rfl⟩
            | none =>
              rw [ho] at hst
              cases hst
              refine ⟨?_, ?_⟩
              · intro b hb o hob
                rcases List.mem_or_eq_of_mem_set hb with hb | rfl
                · exact hc b hb o hob
                · simpa using hob.symm
              · have e := hset i a ⟨a.state, some (op a.state)⟩ hi rfl
                rw [specStates, e]
        | all i =>
          simp only [step] at hst
          cases hi : h[i]? with
          | none => rw [hi] at hst; cases hst
          | some a =>
            rw [hi] at hst
            cases hst
            refine ⟨?_, ?_⟩
            · intro b hb
              rcases List.mem_append.1 hb with hb | hb
              · exact hc b hb
              · rw [List.mem_singleton.1 hb]
                exact hc a (List.mem_of_getElem? hi)
            · rw [specStates, List.getElem?_map, hi]
              simp
        | restrict i sel =>
          simp only [step] at hst
          cases hi : h[i]? with
          | none => rw [hi] at hst; cases hst
          | some a =>
            rw [hi] at hst
            cases hst
            have hno := hn1 i sel rfl a (by rw [hi]; rfl)
            refine ⟨?_, ?_⟩
            · intro b hb o hob
              rcases List.mem_append.1 hb with hb | hb
              · rcases List.mem_or_eq_of_mem_set hb with hb | rfl
                · exact hc b hb o hob
                · cases hob
              · rw [List.mem_singleton.1 hb] at hob ⊢
                rw [hno] at hob
                cases hob
            · have e := hset i a ⟨a.state, none⟩ hi rfl
              rw [specStates, List.getElem?_map, hi, List.map_append, e]
              simp
      rw [key.2]
      exact run_coherent op res cs p.1 h' key.1 (hn2 p hst) hr

/-- C52 as long as no acquisition is restricted while it has a stored operator: after any sequence of calls, `get_operator` returns the
operator of the instrument, sampling and scene of the acquisition. -/
theorem C52_operator_partial (op : S → O) (res : Sel → S → S) (s : S) (cs : List (Call Sel)) (h' : List (Acq S O))
    (hns : NoStale op res [⟨s, none⟩] cs) (hr : run op res [⟨s, none⟩] cs = .ok h') (i : Nat) (p : List (Acq S O) × Option O)
    (hp : step op res h' (.getOperator i) = .ok p) :
    ∃ t, (specStates res [s] cs)[i]? = some t ∧ p.2 = some (op t) := by
  obtain ⟨h1, h2⟩ := run_coherent op res cs [⟨s, none⟩] h' (by simp) hns hr
  simp only [step] at hp
  cases hi : h'[i]? with
  | none => rw [hi] at hp; cases hp
  | some a =>
    rw [hi] at hp
    dsimp only at hp
    refine ⟨a.state, ?_, ?_⟩
    · have : (h'.map (·.state))[i]? = some a.state := by rw [List.getElem?_map, hi]; rfl
      rw [h2] at this
      exact this
    · cases ho : a.operator with
      | some o =>
        rw [ho] at hp
        cases hp
        rw [h1 a (List.mem_of_getElem? hi) o (by rw [ho]; rfl)]
      | none =>
        rw [ho] at hp
        cases hp
        rfl

/-- Restrictions before the operators are requested. -/
example : NoStale (· + 1) (fun sel s => sel * s) [(⟨5, none⟩ : Acq Nat Nat)] [.restrict 0 2, .restrict 1 3, .getOperator 1, .all 1] ∧
    (run (· + 1) (fun sel s => sel * s) [(⟨5, none⟩ : Acq Nat Nat)] [.restrict 0 2, .restrict 1 3, .getOperator 1, .all 1]) =
      .ok [⟨5, none⟩, ⟨10, some 11⟩, ⟨30, none⟩, ⟨10, some 11⟩] := by
  refine ⟨?_, by decide⟩
  simp [NoStale, step]

/-- C52 fails for a restriction of an acquisition whose operator has already been requested: the copy is made before the stored operator is
deleted, so that the restricted acquisition returns the operator of the whole one. -/
theorem C52_violation_stale (op : S → O) (res : Sel → S → S) (s : S) (sel : Sel) (hdiff : op (res sel s) ≠ op s) :
    ∃ h' p t, run op res [⟨s, none⟩] [.getOperator 0, .restrict 0 sel] = .ok h' ∧
      (specStates res [s] [.getOperator 0, .restrict 0 sel])[1]? = some t ∧
      step op res h' (.getOperator 1) = .ok p ∧ p.2 = some (op s) ∧ p.2 ≠ some (op t) := by
  refine ⟨[⟨s, none⟩, ⟨res sel s, some (op s)⟩], (_, some (op s)), res sel s, rfl, rfl, rfl, rfl, ?_⟩
  intro h
  exact hdiff (Option.some.inj h).symm

example : (fun n : Nat => n) ((fun (k n : Nat) => min k n) 3 10) ≠ (fun n : Nat => n) 10 := by decide

end Verif.Dist
