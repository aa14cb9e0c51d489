import Verif.Py.Basic
import Mathlib.Algebra.BigOperators.Group.List.Basic
import Mathlib.Tactic

set_option linter.unusedSectionVars false

/-!
Observations in the MADMAP1 format (C65): src/pysimulators/interfaces/madmap1.py.
-/
namespace Verif.Data
open Verif.Py

variable {K : Type}

/-! ### Model -/

/-- A filter file (madmap1.py 204-208 `_read_one_filter`): the first and last samples of the block, and the coefficients. -/
structure Filter (K : Type) where
  first : Int
  last : Int
  data : List K

/-- madmap1.py 109-115: a block of samples. -/
structure Block where
  n : Int
  start : Int
  stop : Int
deriving DecidableEq, Repr

/-- `np.cumsum(l)`. -/
def cumsum (acc : Int) : List Int → List Int
  | [] => []
  | n :: ns => (acc + n) :: cumsum (acc + n) ns

/-- The list `[l[0], l[d], l[2*d], ...]`, `l[::d]`. -/
def stride (l : List (Filter K)) (d : Nat) : List (Filter K) :=
  (List.range ((l.length + d - 1) / d)).filterMap fun k => l[k * d]?

/-- madmap1.py 53-60 and 109-118 `MadMap1Observation.__init__`, with 225-226 `_read_filters`: the blocks, and the filters by block then
detector. -/
def init (ndetectors : Nat) (filters : List (Filter K)) : Res (List Block × List (List (List K))) :=
  match filters with
  | [] => .error .keyError  -- FileNotFoundError
  | f :: fs =>
    let ncorr := f.data.length
    if (f :: fs).any fun g => g.data.length != ncorr then .error .valueError
    else if ndetectors = 0 then .error .zeroDivisionError
    else
      let nblocks := filters.length / ndetectors
      let ns := (stride filters ndetectors).map fun g => g.last - g.first + 1
      if filters.length * ncorr ≠ nblocks * ndetectors * ncorr then .error .valueError
      else if ns.length ≠ nblocks then .error .valueError
      else if ns.sum < 0 then .error .valueError
      else
        let starts := (cumsum 0 (0 :: ns)).dropLast
        let stops := cumsum 0 ns
        .ok ((ns.zip (starts.zip stops)).map fun b => ⟨b.1, b.2.1, b.2.2⟩,
          (List.range nblocks).map fun k => (List.range ndetectors).map fun d => ((filters[k * ndetectors + d]?).map Filter.data).getD [])

/-- madmap1.py 123-134 `get_invntt_operator`: for each block the number of samples and the filters that are given to the Toeplitz operator. -/
def invntt (blocks : List Block) (filters : List (List (List K))) : List (Int × List (List (List K))) := blocks.map fun b => (b.n, filters)

/-- madmap1.py 170-201 `_read_tod_pmatrix`: the records of a block are assigned to the samples of the block, from the position `pos` in the file;
`tod d t` is the record of a detector at a time, if it has been read. -/
def readBlocks (ndet : Nat) (records : List K) : List Block → Nat → (Int → Int → Option K) → Int → Int → Option K
  | [], _, tod => tod
  | b :: bs, pos, tod =>
    readBlocks ndet records bs (pos + b.n.toNat * ndet) fun d t =>
      if 0 ≤ d ∧ d < ndet ∧ b.start ≤ t ∧ t < b.stop then records[pos + (d * b.n + (t - b.start)).toNat]? else tod d t

/-- madmap1.py 170-201 `_read_tod_pmatrix` for a file of `records` records, each of `8 * (npps + 1)` bytes, after 32 bytes. -/
def readTod (ndet npps : Nat) (records : List K) (blocks : List Block) : Res (Int → Int → Option K) :=
  let nsamples := (blocks.map Block.n).sum
  if ((32 + (npps + 1) * 8 * records.length : Nat) : Int) ≠ 32 + (npps + 1) * ndet * nsamples * 8 then .error .valueError
  else .ok (readBlocks ndet records blocks 0 fun _ _ => none)

/-! ### Properties -/

/-- The blocks follow each other from a sample. -/
def Consecutive : Int → List Block → Prop
  | _, [] => True
  | s, b :: bs => b.start = s ∧ b.stop = s + b.n ∧ Consecutive b.stop bs

theorem consecutive_of (acc : Int) (ns : List Int) :
    Consecutive acc ((ns.zip ((acc :: cumsum acc ns).dropLast.zip (cumsum acc ns))).map fun b => (⟨b.1, b.2.1, b.2.2⟩ : Block)) ∧
    ((ns.zip ((acc :: cumsum acc ns).dropLast.zip (cumsum acc ns))).map fun b => (⟨b.1, b.2.1, b.2.2⟩ : Block)).map Block.n = ns := by
  induction ns generalizing acc with
  | nil => exact ⟨trivial, rfl⟩
  | cons n ns ih =>
    obtain ⟨h1, h2⟩ := ih (acc + n)
    simp only [cumsum, List.dropLast_cons_cons, List.zip_cons_cons, List.map_cons]
    exact ⟨⟨rfl, rfl, h1⟩, by rw [h2]⟩

theorem stride_get {l : List (Filter K)} {d n : Nat} (hd : 0 < d) (hl : l.length = n * d) :
    stride l d = (List.range n).filterMap fun k => l[k * d]? := by
  unfold stride
  have : (l.length + d - 1) / d = n := by
    rw [hl]
    apply Nat.div_eq_of_lt_le
    · exact Nat.le_sub_one_of_lt (Nat.lt_add_of_pos_right hd)
    · rw [Nat.succ_mul]
      omega
  rw [this]

theorem filterMap_get {β : Type} (n : Nat) (l : Nat → Option β) (h : ∀ k < n, ∃ b, l k = some b) :
    ((List.range n).filterMap l).length = n ∧ ∀ (k : Nat), k < n → ((List.range n).filterMap l)[k]? = l k := by
  induction n with
  | zero => exact ⟨rfl, fun k hk => absurd hk (Nat.not_lt_zero k)⟩
  | succ n ih =>
    obtain ⟨h1, h2⟩ := ih fun k hk => h k (hk.trans (Nat.lt_succ_self n))
    obtain ⟨b, hb⟩ := h n (Nat.lt_succ_self n)
    have e : (List.range (n + 1)).filterMap l = (List.range n).filterMap l ++ [b] := by
      rw [List.range_succ, List.filterMap_append]
      simp [hb]
    rw [e]
    refine ⟨by simp [h1], ?_⟩
    intro k hk
    rcases Nat.lt_succ_iff_lt_or_eq.1 hk with hk | rfl
    · rw [List.getElem?_append_left (by omega), h2 k hk]
    · rw [List.getElem?_append_right (by omega), h1, hb]
      simp

/-- C65: the blocks, as many as the filters of a detector, begin at the first sample, follow each other and have the length of the filters of
the first detector; the filters are arranged by block then detector. -/
theorem C65_blocks {ndet : Nat} {filters : List (Filter K)} {blocks : List Block} {fs : List (List (List K))}
    (hc : ∀ f ∈ filters, f.data ≠ []) (h : init ndet filters = .ok (blocks, fs)) :
    filters.length = blocks.length * ndet ∧ Consecutive 0 blocks ∧ 0 ≤ (blocks.map Block.n).sum ∧
    (∀ (k : Nat) (b : Block), blocks[k]? = some b → ∃ f, filters[k * ndet]? = some f ∧ b.n = f.last - f.first + 1) ∧
    fs.length = blocks.length ∧ ∀ (k d : Nat), k < blocks.length → d < ndet → ∃ f row, filters[k * ndet + d]? = some f ∧ fs[k]? = some row ∧
      row.length = ndet ∧ row[d]? = some f.data := by
  unfold init at h
  split at h
  · cases h
  · rename_i f0 fs0
    dsimp only at h
    split at h
    · cases h
    split at h
    · cases h
    split at h
    · cases h
    split at h
    · cases h
    split at h
    · cases h
    rename_i hany hd hlen hns hsum
    simp only [Except.ok.injEq, Prod.mk.injEq] at h
    obtain ⟨rfl, rfl⟩ := h
    set filters := f0 :: fs0
    set nb := filters.length / ndet
    have hd' : 0 < ndet := Nat.pos_of_ne_zero hd
    have hf0 : 0 < f0.data.length := List.length_pos_of_ne_nil (hc f0 (by simp [filters]))
    have hl : filters.length = nb * ndet := Nat.eq_of_mul_eq_mul_right hf0 (not_not.1 hlen)
    have hget : ∀ (k d : Nat), k < nb → d < ndet → ∃ f, filters[k * ndet + d]? = some f := by
      intro k d hk hdn
      have : k * ndet + d < filters.length := by
        rw [hl]
        calc k * ndet + d < k * ndet + ndet := by omega
          _ = (k + 1) * ndet := by ring
          _ ≤ nb * ndet := Nat.mul_le_mul_right _ hk
      exact ⟨_, List.getElem?_eq_getElem this⟩
    set ns := (stride filters ndet).map fun g => g.last - g.first + 1
    have hcum : (cumsum 0 (0 :: ns)).dropLast = (0 :: cumsum 0 ns).dropLast := rfl
    rw [hcum]
    obtain ⟨c1, c2⟩ := consecutive_of 0 ns
    have hbl : ((ns.zip ((0 :: cumsum 0 ns).dropLast.zip (cumsum 0 ns))).map fun b => (⟨b.1, b.2.1, b.2.2⟩ : Block)).length = nb := by
      have := congrArg List.length c2
      rw [List.length_map] at this
      rw [this]
      exact not_not.1 hns
    refine ⟨by rw [hbl]; exact hl, c1, by rw [c2]; omega, ?_, by rw [hbl]; simp, ?_⟩
    · intro k b hb
      have hk : k < nb := by
        by_contra hk
        rw [List.getElem?_eq_none (by omega)] at hb
        cases hb
      obtain ⟨f, hf⟩ := hget k 0 hk hd'
      refine ⟨f, hf, ?_⟩
      have h1 : ns[k]? = some b.n := by
        conv_lhs => rw [← c2]
        rw [List.getElem?_map, hb, Option.map_some]
      have h2 : ns[k]? = some (f.last - f.first + 1) := by
        change ((stride filters ndet).map fun g => g.last - g.first + 1)[k]? = _
        rw [stride_get hd' hl, List.getElem?_map, (filterMap_get nb (fun k => filters[k * ndet]?) fun k hk => hget k 0 hk hd').2 k hk]
        simp only [Nat.add_zero] at hf
        rw [hf, Option.map_some]
      rw [h2] at h1
      exact (Option.some.inj h1).symm
    · intro k d hk hdn
      rw [hbl] at hk
      obtain ⟨f, hf⟩ := hget k d hk hdn
      refine ⟨f, (List.range ndet).map fun d => ((filters[k * ndet + d]?).map Filter.data).getD [], hf, ?_, by simp, ?_⟩
      · rw [List.getElem?_map, List.getElem?_range hk, Option.map_some]
      · rw [List.getElem?_map, List.getElem?_range hdn, Option.map_some, hf, Option.map_some, Option.getD_some]

theorem consecutive_range {s : Int} {bs : List Block} (hc : Consecutive s bs) (hn : ∀ b ∈ bs, 0 ≤ b.n) :
    ∀ b ∈ bs, s ≤ b.start ∧ b.stop ≤ s + (bs.map Block.n).sum := by
  induction bs generalizing s with
  | nil => intro b hb; cases hb
  | cons a bs ih =>
    obtain ⟨h1, h2, h3⟩ := hc
    have hs : 0 ≤ (bs.map Block.n).sum := by
      apply List.sum_nonneg
      intro x hx
      obtain ⟨b, hb, rfl⟩ := List.mem_map.1 hx
      exact hn b (List.mem_cons_of_mem _ hb)
    have ha := hn a (by simp)
    intro b hb
    rw [List.map_cons, List.sum_cons]
    rcases List.mem_cons.1 hb with rfl | hb
    · omega
    · obtain ⟨k1, k2⟩ := ih h3 (fun b hb => hn b (List.mem_cons_of_mem _ hb)) b hb
      omega

/-- C65: if no length is negative, each sample is in exactly one block. -/
theorem C65_partition {s : Int} {bs : List Block} (hc : Consecutive s bs) (hn : ∀ b ∈ bs, 0 ≤ b.n) (t : Int) (h0 : s ≤ t)
    (h1 : t < s + (bs.map Block.n).sum) :
    ∃ (k : Nat) (b : Block), bs[k]? = some b ∧ (b.start ≤ t ∧ t < b.stop) ∧
      ∀ (k' : Nat) (b' : Block), bs[k']? = some b' → b'.start ≤ t → t < b'.stop → k' = k := by
  induction bs generalizing s with
  | nil => simp at h1; omega
  | cons a bs ih =>
    obtain ⟨c1, c2, c3⟩ := hc
    have hn' : ∀ b ∈ bs, 0 ≤ b.n := fun b hb => hn b (List.mem_cons_of_mem _ hb)
    rw [List.map_cons, List.sum_cons] at h1
    by_cases ht : t < a.stop
    · refine ⟨0, a, rfl, ⟨by omega, ht⟩, ?_⟩
      intro k' b' hb' hs' _
      cases k' with
      | zero => rfl
      | succ k' =>
        have := (consecutive_range c3 hn' b' (List.mem_of_getElem? (by simpa using hb'))).1
        omega
    · obtain ⟨k, b, hb, hin, huni⟩ := ih c3 hn' (by omega) (by omega)
      refine ⟨k + 1, b, by simpa using hb, hin, ?_⟩
      intro k' b' hb' hs' he'
      cases k' with
      | zero =>
        simp only [List.getElem?_cons_zero, Option.some.injEq] at hb'
        subst hb'
        omega
      | succ k' => rw [huni k' b' (by simpa using hb') hs' he']

theorem readBlocks_out (ndet : Nat) (records : List K) (bs : List Block) (pos : Nat) (tod : Int → Int → Option K) (d t : Int)
    (h : ¬ (0 ≤ d ∧ d < ndet) ∨ ∀ b ∈ bs, ¬ (b.start ≤ t ∧ t < b.stop)) : readBlocks ndet records bs pos tod d t = tod d t := by
  induction bs generalizing pos tod with
  | nil => rfl
  | cons a bs ih =>
    unfold readBlocks
    rw [ih]
    · rw [if_neg]
      rintro ⟨h1, h2, h3, h4⟩
      rcases h with h | h
      · exact h ⟨h1, h2⟩
      · exact h a (by simp) ⟨h3, h4⟩
    · exact h.imp id fun h b hb => h b (List.mem_cons_of_mem _ hb)

theorem readBlocks_in (ndet : Nat) (records : List K) (bs : List Block) {s : Int} (pos : Nat) (tod : Int → Int → Option K) (d t : Int)
    (hc : Consecutive s bs) (hn : ∀ b ∈ bs, 0 ≤ b.n) (hd : 0 ≤ d ∧ d < ndet) {b : Block} (hb : b ∈ bs) (hin : b.start ≤ t ∧ t < b.stop) :
    readBlocks ndet records bs pos tod d t = records[pos + ((b.start - s) * ndet + d * b.n + (t - b.start)).toNat]? := by
  induction bs generalizing s pos tod with
  | nil => cases hb
  | cons a bs ih =>
    obtain ⟨c1, c2, c3⟩ := hc
    have hn' : ∀ b ∈ bs, 0 ≤ b.n := fun b hb => hn b (List.mem_cons_of_mem _ hb)
    have ha := hn a (by simp)
    unfold readBlocks
    rcases List.mem_cons.1 hb with rfl | hb'
    · rw [readBlocks_out]
      · rw [if_pos ⟨hd.1, hd.2, hin.1, hin.2⟩, c1]
        simp
      · right
        intro b' hb' hin'
        have := (consecutive_range c3 hn' b' hb').1
        omega
    · rw [ih _ _ c3 hn' hb']
      congr 1
      have k1 := (consecutive_range c3 hn' b hb').1
      have k2 := hn b hb
      have k3 : 0 ≤ d * b.n := mul_nonneg hd.1 k2
      have e1 : (b.start - s) * (ndet : Int) = a.n * ndet + (b.start - a.stop) * ndet := by rw [c2]; ring
      have e2 : 0 ≤ a.n * (ndet : Int) := mul_nonneg ha (by positivity)
      have e3 : 0 ≤ (b.start - a.stop) * (ndet : Int) := mul_nonneg (by omega) (by positivity)
      have e4 : ((a.n.toNat * ndet : Nat) : Int) = a.n * ndet := by push_cast; rw [Int.toNat_of_nonneg ha]
      rw [e1]
      omega

/-- C65: after the size of the file has been checked, each sample of each detector is read from its own record of the file: the records
are ordered by block, detector and sample; all the records are used. -/
theorem C65_read {ndet npps : Nat} {records : List K} {blocks : List Block} {tod : Int → Int → Option K} (hc : Consecutive 0 blocks)
    (hn : ∀ b ∈ blocks, 0 ≤ b.n) (h : readTod ndet npps records blocks = .ok tod) :
    (records.length : Int) = ndet * (blocks.map Block.n).sum ∧
    (∀ b ∈ blocks, ∀ d t : Int, 0 ≤ d → d < ndet → b.start ≤ t → t < b.stop →
      ∃ i : Nat, (i : Int) = b.start * ndet + d * b.n + (t - b.start) ∧ i < records.length ∧ tod d t = records[i]?) ∧
    ∀ i : Nat, i < records.length → ∃ b ∈ blocks, ∃ d t : Int, (0 ≤ d ∧ d < ndet ∧ b.start ≤ t ∧ t < b.stop) ∧
      (i : Int) = b.start * ndet + d * b.n + (t - b.start) := by
  unfold readTod at h
  dsimp only at h
  split at h
  · cases h
  · rename_i hsize
    simp only [Except.ok.injEq] at h
    subst h
    set N := (blocks.map Block.n).sum with hN
    have hlen : (records.length : Int) = ndet * N := by
      have h1 := not_not.1 hsize
      push_cast at h1
      have h2 : ((npps : Int) + 1) * 8 * (records.length : Int) = ((npps : Int) + 1) * 8 * (ndet * N) := by linear_combination h1
      exact Int.eq_of_mul_eq_mul_left (by positivity) h2
    refine ⟨hlen, ?_, ?_⟩
    · intro b hb d t hd0 hd1 ht0 ht1
      have k1 := consecutive_range hc hn b hb
      have k2 := hn b hb
      have k3 : 0 ≤ d * b.n := mul_nonneg hd0 k2
      have k4 : 0 ≤ b.start * (ndet : Int) := mul_nonneg k1.1 (by positivity)
      refine ⟨(b.start * ndet + d * b.n + (t - b.start)).toNat, by omega, ?_, ?_⟩
      · have hst : b.stop = b.start + b.n := by
          have : ∀ {s : Int} {bs : List Block}, Consecutive s bs → ∀ b ∈ bs, b.stop = b.start + b.n := by
            intro s bs hc
            induction bs generalizing s with
            | nil => intro b hb; cases hb
            | cons a bs ih =>
              intro b hb
              rcases List.mem_cons.1 hb with rfl | hb
              · rw [hc.2.1, hc.1]
              · exact ih hc.2.2 b hb
          exact this hc b hb
        have e1 : d * b.n + (t - b.start) < (d + 1) * b.n := by linarith
        have e2 : (d + 1) * b.n ≤ ndet * b.n := mul_le_mul_of_nonneg_right (by omega) k2
        have e3 : (b.start + b.n) * (ndet : Int) ≤ N * ndet := mul_le_mul_of_nonneg_right (by omega) (by positivity)
        have e4 : (records.length : Int) = N * ndet := by rw [hlen]; ring
        have e5 : (b.start + b.n) * (ndet : Int) = b.start * ndet + ndet * b.n := by ring
        omega
      · rw [readBlocks_in ndet records blocks 0 _ d t hc hn ⟨hd0, hd1⟩ hb ⟨ht0, ht1⟩]
        simp
    · intro i hi
      have key : ∀ (bs : List Block) (s : Int), Consecutive s bs → (∀ b ∈ bs, 0 ≤ b.n) → ∀ j : Int, 0 ≤ j → j < ndet * (bs.map Block.n).sum →
          ∃ b ∈ bs, ∃ d t : Int, (0 ≤ d ∧ d < ndet ∧ b.start ≤ t ∧ t < b.stop) ∧ j = (b.start - s) * ndet + d * b.n + (t - b.start) := by
        intro bs
        induction bs with
        | nil =>
          intro s _ _ j h0 h1
          simp at h1
          omega
        | cons a bs ih =>
          intro s hc hn j h0 h1
          obtain ⟨c1, c2, c3⟩ := hc
          have ha := hn a (by simp)
          rw [List.map_cons, List.sum_cons, mul_add] at h1
          by_cases hj : j < ndet * a.n
          · have hpos : 0 < a.n := by
              rcases lt_or_eq_of_le ha with h | h
              · exact h
              · rw [← h, mul_zero] at hj
                omega
            refine ⟨a, by simp, j / a.n, a.start + j % a.n, ⟨Int.ediv_nonneg h0 ha, Int.ediv_lt_of_lt_mul hpos hj, ?_, ?_⟩, ?_⟩
            · have := Int.emod_nonneg j hpos.ne'
              omega
            · have := Int.emod_lt_of_pos j hpos
              omega
            · have h5 := Int.mul_ediv_add_emod j a.n
              rw [c1]
              linear_combination -h5
          · obtain ⟨b, hb, d, t, hdt, he⟩ := ih a.stop c3 (fun b hb => hn b (List.mem_cons_of_mem _ hb)) (j - ndet * a.n) (by omega) (by omega)
            refine ⟨b, List.mem_cons_of_mem _ hb, d, t, hdt, ?_⟩
            rw [c2] at he
            linear_combination he
      obtain ⟨b, hb, d, t, hdt, he⟩ := key blocks 0 hc hn i (by positivity) (by rw [← hN]; omega)
      exact ⟨b, hb, d, t, hdt, by rw [he]; ring⟩

/-- C65: with one block, each detector has its own filter. -/
theorem C65_filters_partial {ndet : Nat} {filters : List (Filter K)} {b : Block} {fs : List (List (List K))} (hc : ∀ f ∈ filters, f.data ≠ [])
    (h : init ndet filters = .ok ([b], fs)) : invntt [b] fs = [(b.n, [filters.map Filter.data])] := by
  obtain ⟨h1, -, -, -, h5, h6⟩ := C65_blocks hc h
  rw [List.length_singleton] at h1 h5 h6
  obtain ⟨row, rfl⟩ := List.length_eq_one_iff.1 h5
  unfold invntt
  simp only [List.map_cons, List.map_nil, List.cons.injEq, Prod.mk.injEq, true_and, and_true]
  by_cases hn : ndet = 0
  · exfalso
    unfold init at h
    split at h
    · cases h
    · dsimp only at h
      split at h
      · cases h
      · cases h
  obtain ⟨f, row', -, e2, e3, -⟩ := h6 0 0 (by omega) (Nat.pos_of_ne_zero hn)
  simp only [List.getElem?_cons_zero, Option.some.injEq] at e2
  subst e2
  apply List.ext_getElem?
  intro i
  by_cases hi : i < ndet
  · obtain ⟨f, row', k1, k2, -, k4⟩ := h6 0 i (by omega) hi
    simp only [List.getElem?_cons_zero, Option.some.injEq] at k2
    subst k2
    rw [k4, List.getElem?_map]
    rw [Nat.zero_mul, Nat.zero_add] at k1
    rw [k1, Option.map_some]
  · rw [List.getElem?_eq_none (by omega), List.getElem?_eq_none (by rw [List.length_map]; omega)]

/-- C65 does not hold for the filters of several blocks: each block is given the filters of all the blocks. -/
theorem C65_violation_filters : ∃ filters : List (Filter Nat), ∃ blocks fs, (∀ f ∈ filters, f.data ≠ []) ∧ init 1 filters = .ok (blocks, fs) ∧
    blocks = [⟨3, 0, 3⟩, ⟨2, 3, 5⟩] ∧ invntt blocks fs = [(3, [[[7]], [[8]]]), (2, [[[7]], [[8]]])] :=
  ⟨[⟨0, 2, [7]⟩, ⟨3, 4, [8]⟩], _, _, by simp, rfl, by decide +kernel, by decide +kernel⟩

/-- C65 does not hold for negative lengths, which are accepted: two blocks, of which the second one is read backwards. -/
theorem C65_violation_length : ∃ filters : List (Filter Nat), ∃ blocks fs, (∀ f ∈ filters, f.data ≠ []) ∧ init 1 filters = .ok (blocks, fs) ∧
    blocks = [⟨5, 0, 5⟩, ⟨-2, 5, 3⟩] :=
  ⟨[⟨0, 4, [7]⟩, ⟨3, 0, [8]⟩], _, _, by simp, rfl, by decide +kernel⟩

/-- Two detectors and two blocks. -/
example : ∃ blocks fs tod, init 2 [⟨0, 1, [1, 2]⟩, ⟨0, 1, [3, 4]⟩, ⟨2, 2, [5, 6]⟩, ⟨2, 2, [7, 8]⟩] = .ok (blocks, fs) ∧
    blocks = [⟨2, 0, 2⟩, ⟨1, 2, 3⟩] ∧ readTod 2 1 [10, 11, 20, 21, 12, 22] blocks = .ok tod ∧
    (List.range 3).map (fun t : Nat => tod 0 t) = [some 10, some 11, some 12] ∧
    (List.range 3).map (fun t : Nat => tod 1 t) = [some 20, some 21, some 22] :=
  ⟨_, _, _, rfl, by decide +kernel, rfl, by decide +kernel, by decide +kernel⟩

end Verif.Data
