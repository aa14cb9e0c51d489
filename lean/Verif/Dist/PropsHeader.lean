import Verif.Dist.Model
import Mathlib.Tactic.Ring
import Mathlib.Tactic.Linarith
import Mathlib.Algebra.Order.Ring.Rat
import Mathlib.Algebra.BigOperators.Group.List.Basic

/-! Properties C47, C77 and C78: distributed FITS headers. -/
namespace Verif.Dist
open Verif.Py

theorem Header.ext' {h h' : Header} (h1 : h.naxis = h'.naxis) (h2 : ∀ k, h.naxes k = h'.naxes k) (h3 : ∀ k, h.crpix k = h'.crpix k)
    (h4 : h.crval = h'.crval) (h5 : h.cdelt = h'.cdelt) (h6 : h.ctype = h'.ctype) (h7 : h.other = h'.other) : h = h' := by
  cases h; cases h'
  simp only [Header.mk.injEq]
  exact ⟨h1, funext h2, funext h3, h4, h5, h6, h7⟩

/-- The lengths of the parts add up. -/
theorem splitLen_sum (n m r : Nat) : ((List.range r).map (splitLen n m)).sum = splitStart n m r := by
  induction r with
  | zero => simp [splitStart_zero]
  | succ r ih => rw [List.range_succ, List.map_append, List.sum_append, ih, splitStart_succ]; simp

theorem mapM_get {α β} {l : List α} {f : α → Res β} {g : α → β} (h : ∀ a ∈ l, f a = .ok (g a)) : l.mapM f = .ok (l.map g) := by
  induction l with
  | nil => rfl
  | cons a l ih =>
    rw [List.mapM_cons, h a (List.mem_cons_self ..), ih fun b hb => h b (List.mem_cons_of_mem _ hb)]
    rfl

/-- The local header of a process. -/
def localHeader (h : Header) (naxis nglobal size r : Nat) : Header :=
  h.shift naxis (splitLen nglobal size r) (-(splitStart nglobal size r : ℚ))

theorem scatterHeader_ok {h : Header} {naxis nglobal n1 : Nat} (h1 : h.naxis = some naxis) (h2 : h.naxes 1 = some n1)
    (h3 : h.naxes naxis = some nglobal) (size r : Nat) : scatterHeader h size r = .ok (localHeader h naxis nglobal size r) := by
  rw [scatterHeader, h1, h2]
  simp only [get, Except.bind]
  rw [h3]
  rfl

theorem shift_shift {h : Header} {n N len : Nat} (hn : h.naxes n = some N) (d : ℚ) : (h.shift n len (-d)).shift n N d = h := by
  apply Header.ext' <;> try rfl
  · intro k
    simp only [Header.shift, upd]
    split_ifs with hk
    · rw [hk, hn]
    · rfl
  · intro k
    cases hc : h.crpix n with
    | none => simp [Header.shift, hc]
    | some c =>
      simp only [Header.shift, hc, upd, if_true]
      split_ifs with hk
      · rw [hk, hc]
        congr 1
        ring
      · rfl

theorem gatherHeader_ok {h : Header} {naxis nglobal n1 : Nat} (h1 : h.naxis = some naxis) (h2 : h.naxes 1 = some n1)
    (h3 : h.naxes naxis = some nglobal) {size : Nat} (hs : 0 < size) (r : Nat) :
    gatherHeader ((List.range size).map fun r => localHeader h naxis nglobal size r) r (localHeader h naxis nglobal size r) = .ok h := by
  rw [gatherHeader]
  have e1 : (localHeader h naxis nglobal size r).naxis = some naxis := h1
  have e2 : ∃ m, (localHeader h naxis nglobal size r).naxes 1 = some m := by
    simp only [localHeader, Header.shift, upd]
    split_ifs
    · exact ⟨_, rfl⟩
    · exact ⟨_, h2⟩
  obtain ⟨m, e2⟩ := e2
  rw [e1, e2]
  simp only [get, Except.bind]
  have e3 : ((List.range size).map fun r => localHeader h naxis nglobal size r).mapM
      (fun h => (get h.naxis).bind fun n => get (h.naxes n)) = .ok ((List.range size).map fun r => splitLen nglobal size r) := by
    rw [List.mapM_map]
    refine mapM_get fun r _ => ?_
    simp [localHeader, Header.shift, h1, get, Except.bind, upd]
  have e4 : (List.map (fun r => splitLen nglobal size r) (List.range size)).sum = nglobal := by
    rw [splitLen_sum, splitStart_last hs]
  simp only [get, Except.bind] at e3 ⊢
  rw [e3]
  simp only [List.length_map, List.length_range]
  rw [e4]
  congr 1
  exact shift_shift h3 _

/-- C47: if every process takes its local header, the gathered header is the global one on every process. -/
theorem C47_roundtrip (h : Header) (naxis nglobal n1 : Nat) (h1 : h.naxis = some naxis) (h2 : h.naxes 1 = some n1)
    (h3 : h.naxes naxis = some nglobal) (size : Nat) :
    ∃ locals : List Header, locals.length = size ∧ (∀ r, r < size → scatterHeader h size r = get locals[r]?) ∧
      ∀ r l, locals[r]? = some l → gatherHeader locals r l = .ok h := by
  refine ⟨(List.range size).map fun r => localHeader h naxis nglobal size r, by simp, fun r hr => ?_, fun r l hl => ?_⟩
  · rw [scatterHeader_ok h1 h2 h3, List.getElem?_map, List.getElem?_range hr]
    rfl
  · rw [List.getElem?_map] at hl
    by_cases hr : r < size
    · rw [List.getElem?_range hr] at hl
      cases hl
      exact gatherHeader_ok h1 h2 h3 (by omega) r
    · rw [List.getElem?_eq_none (by simpa using hr)] at hl
      simp at hl

/-- C47: the local axes are a partition of the global one, and a pixel has, with respect to the reference pixel, the same position in the
local and in the global header. -/
theorem C47_position (h l : Header) (naxis nglobal n1 : Nat) (h1 : h.naxis = some naxis) (h2 : h.naxes 1 = some n1)
    (h3 : h.naxes naxis = some nglobal) (size r : Nat) (hr : r < size) (hl : scatterHeader h size r = .ok l) :
    ∃ start len, l.naxes naxis = some len ∧ start + len ≤ nglobal ∧
      (r = 0 → start = 0) ∧ (r + 1 = size → start + len = nglobal) ∧
      (r + 1 < size → ∃ l' len', scatterHeader h size (r + 1) = .ok l' ∧ l'.naxes naxis = some len' ∧ len' ≤ len ∧ len ≤ len' + 1) ∧
      (∀ c, h.crpix naxis = some c → ∃ c', l.crpix naxis = some c' ∧ ∀ p : ℚ, p - c' = (p + start) - c) ∧
      (h.crpix naxis = none → l.crpix naxis = none) ∧
      (∀ k, k ≠ naxis → l.naxes k = h.naxes k ∧ l.crpix k = h.crpix k) ∧
      l.naxis = h.naxis ∧ l.crval = h.crval ∧ l.cdelt = h.cdelt ∧ l.ctype = h.ctype ∧ l.other = h.other := by
  rw [scatterHeader_ok h1 h2 h3] at hl
  cases hl
  refine ⟨splitStart nglobal size r, splitLen nglobal size r, by simp [localHeader, Header.shift, upd], splitStop_le hr, ?_, ?_, ?_, ?_, ?_,
    ?_, rfl, rfl, rfl, rfl, rfl⟩
  · rintro rfl
    exact splitStart_zero _ _
  · intro h'
    rw [← splitStart_succ, h', splitStart_last (by omega)]
  · intro h'
    exact ⟨_, splitLen nglobal size (r + 1), scatterHeader_ok h1 h2 h3 .., by simp [localHeader, Header.shift, upd],
      splitLen_antitone (by omega), splitLen_balanced ..⟩
  · intro c hc
    refine ⟨c + -(splitStart nglobal size r : ℚ), by simp [localHeader, Header.shift, upd, hc], fun p => by ring⟩
  · intro hc
    simp [localHeader, Header.shift, hc]
  · intro k hk
    refine ⟨by simp [localHeader, Header.shift, upd, hk], ?_⟩
    cases hc : h.crpix naxis <;> simp [localHeader, Header.shift, upd, hk, hc]

/-- A header of 5 by 3 pixels. -/
def sampleHeader : Header where
  naxis := some 2
  naxes := fun k => if k = 1 then some 3 else if k = 2 then some 5 else none
  crpix := fun k => if k = 1 ∨ k = 2 then some 2 else none
  crval := fun k => if k = 1 ∨ k = 2 then some 10 else none
  cdelt := fun k => if k = 1 ∨ k = 2 then some 1 else none
  ctype := fun k => if k = 1 then some "RA---TAN" else if k = 2 then some "DEC--TAN" else none
  other := fun _ => none

/-- The hypotheses of C47. -/
example : sampleHeader.naxis = some 2 ∧ sampleHeader.naxes 1 = some 3 ∧ sampleHeader.naxes 2 = some 5 ∧
    (scatterHeader sampleHeader 2 1).map (fun l => (l.naxes 2, l.crpix 2)) = .ok (some 2, some (-1)) := by
  refine ⟨rfl, rfl, rfl, ?_⟩
  simp only [scatterHeader, sampleHeader, get, Except.bind, Header.shift, Except.map, splitLen, splitStart]
  norm_num [upd]

/-! ### C78 -/

theorem sameValue_ok {α} [DecidableEq α] {headers : List Header} {header : Header} {key : Header → Option α}
    (h : ∀ l ∈ headers, key l = key header) : sameValue headers header key = .ok () := by
  rw [sameValue]
  cases hk : key header with
  | none => rfl
  | some v =>
    simp only
    have : headers.mapM (fun h => get (key h)) = .ok (headers.map fun _ => v) :=
      mapM_get fun l hl => by rw [h l hl, hk]; rfl
    rw [this]
    simp only [Except.bind]
    rw [if_neg]
    simp only [Bool.not_eq_true, List.any_eq_false]
    intro x hx
    obtain ⟨_, _, rfl⟩ := List.mem_map.1 hx
    cases headers with
    | nil => simp at hx
    | cons a l => simp

theorem forM_ok {α} {l : List α} {f : α → Res Unit} (h : ∀ a ∈ l, f a = .ok ()) : l.forM f = .ok () := by
  induction l with
  | nil => rfl
  | cons a l ih =>
    have := ih fun b hb => h b (List.mem_cons_of_mem _ hb)
    simp only [List.forM_eq_forM, List.forM_cons] at this ⊢
    rw [h a (List.mem_cons_self ..)]
    exact this

/-- When the keywords that are checked agree. -/
theorem gatherHeaderIfNeeded_ok {headers : List Header} {r naxis : Nat} {l : Header} (h1 : l.naxis = some naxis) {m : Nat}
    (h2 : l.naxes 1 = some m) (hw : l.hasWcs naxis = true) (hl : headers.length ≠ 1)
    (hv : ∀ h ∈ headers, h.crval = l.crval ∧ h.cdelt = l.cdelt ∧ h.other = l.other ∧
      ∀ k, k ≠ naxis → h.naxes k = l.naxes k ∧ h.crpix k = l.crpix k) {g : Header → ℚ} (hc : ∀ h ∈ headers, h.crpix naxis = some (g h)) :
    gatherHeaderIfNeeded headers r l =
      if (headers.map g).all (fun c => some c = (headers.map g).head?) then .ok l else gatherHeader headers r l := by
  rw [gatherHeaderIfNeeded, h1, h2]
  simp only [get, Except.bind]
  rw [if_neg hl, hw, if_neg (by simp)]
  rw [sameValue_ok (key := fun h => h.crval 1) fun h hh => by rw [(hv h hh).1],
    sameValue_ok (key := fun h => h.crval 2) fun h hh => by rw [(hv h hh).1],
    sameValue_ok (key := fun h => h.other "CRTYPE1") fun h hh => by rw [(hv h hh).2.2.1],
    sameValue_ok (key := fun h => h.other "CRTYPE2") fun h hh => by rw [(hv h hh).2.2.1],
    sameValue_ok (key := fun h => h.cdelt 1) fun h hh => by rw [(hv h hh).2.1],
    sameValue_ok (key := fun h => h.cdelt 2) fun h hh => by rw [(hv h hh).2.1]]
  simp only
  rw [forM_ok fun i hi => sameValue_ok (key := fun h => h.naxes (i + 1)) fun h hh =>
      ((hv h hh).2.2.2 (i + 1) (by have := List.mem_range.1 hi; omega)).1,
    forM_ok fun i hi => sameValue_ok (key := fun h => h.crpix (i + 1)) fun h hh =>
      ((hv h hh).2.2.2 (i + 1) (by have := List.mem_range.1 hi; omega)).2]
  simp only
  have := mapM_get (l := headers) (f := fun h => get (h.crpix naxis)) (g := g) fun h hh => by rw [hc h hh]; rfl
  simp only [get] at this
  rw [this]

/-- C78: on local headers the global header is recovered; on global headers, the header is returned unchanged. -/
theorem C78_local_global (h : Header) (naxis nglobal n1 : Nat) (h1 : h.naxis = some naxis) (h2 : h.naxes 1 = some n1) (hn : 1 ≤ naxis)
    (h3 : h.naxes naxis = some nglobal) (hw : ∀ k, 1 ≤ k → k ≤ naxis → (h.crpix k).isSome ∧ (h.crval k).isSome ∧ (h.ctype k).isSome)
    (size : Nat) (locals : List Header) (hl : locals.length = size) (hloc : ∀ r, r < size → scatterHeader h size r = get locals[r]?) :
    (∀ r l, locals[r]? = some l → gatherHeaderIfNeeded locals r l = .ok h) ∧
    (∀ r, r < size → gatherHeaderIfNeeded (List.replicate size h) r h = .ok h) := by
  have hw' : h.hasWcs naxis = true := by
    rw [Header.hasWcs, List.all_eq_true]
    intro i hi
    obtain ⟨a, b, c⟩ := hw (i + 1) (by omega) (by have := List.mem_range.1 hi; omega)
    simp [a, b, c]
  obtain ⟨c, hc⟩ := Option.isSome_iff_exists.1 (hw naxis hn (le_refl _)).1
  have hlocals : locals = (List.range size).map fun r => localHeader h naxis nglobal size r := by
    apply List.ext_getElem?
    intro r
    by_cases hr : r < size
    · have := hloc r hr
      rw [scatterHeader_ok h1 h2 h3, List.getElem?_eq_getElem (by omega)] at this
      rw [List.getElem?_eq_getElem (by omega), List.getElem?_map, List.getElem?_range hr]
      simp only [get, Except.ok.injEq] at this
      rw [← this]
      rfl
    · rw [List.getElem?_eq_none (by omega), List.getElem?_eq_none (by simp; omega)]
  have hcl : ∀ r, (localHeader h naxis nglobal size r).crpix naxis = some (c + -(splitStart nglobal size r : ℚ)) := by
    intro r
    simp [localHeader, Header.shift, upd, hc]
  have hother : ∀ r k, k ≠ naxis → (localHeader h naxis nglobal size r).naxes k = h.naxes k ∧
      (localHeader h naxis nglobal size r).crpix k = h.crpix k := by
    intro r k hk
    simp [localHeader, Header.shift, upd, hc, hk]
  constructor
  · intro r l hr
    have hrs : r < size := by
      by_contra hcon
      rw [List.getElem?_eq_none (by omega)] at hr
      simp at hr
    have hlr : l = localHeader h naxis nglobal size r := by
      rw [hlocals, List.getElem?_map, List.getElem?_range hrs] at hr
      simpa using hr.symm
    subst hlr
    have e1 : (localHeader h naxis nglobal size r).naxis = some naxis := h1
    have e2 : ∃ m, (localHeader h naxis nglobal size r).naxes 1 = some m := by
      simp only [localHeader, Header.shift, upd]
      split_ifs
      · exact ⟨_, rfl⟩
      · exact ⟨_, h2⟩
    obtain ⟨m, e2⟩ := e2
    have e3 : (localHeader h naxis nglobal size r).hasWcs naxis = true := by
      rw [Header.hasWcs, List.all_eq_true]
      intro i hi
      obtain ⟨a, b, c'⟩ := hw (i + 1) (by omega) (by have := List.mem_range.1 hi; omega)
      have : ((localHeader h naxis nglobal size r).crpix (i + 1)).isSome := by
        by_cases hk : i + 1 = naxis
        · rw [hk, hcl]; rfl
        · rw [(hother r _ hk).2]; exact a
      have hb : ((localHeader h naxis nglobal size r).crval (i + 1)).isSome := b
      have hc' : ((localHeader h naxis nglobal size r).ctype (i + 1)).isSome := c'
      simp [this, hb, hc']
    by_cases hs1 : size = 1
    · rw [gatherHeaderIfNeeded, e1, e2]
      simp only [get, Except.bind]
      rw [if_pos (by omega)]
      subst hs1
      obtain rfl : r = 0 := by omega
      congr 1
      rw [localHeader, splitStart_zero]
      have : splitLen nglobal 1 0 = nglobal := by
        have := splitStart_succ nglobal 1 0
        rw [splitStart_last (by decide), splitStart_zero] at this
        omega
      rw [this]
      have := shift_shift (len := nglobal) h3 (0 : ℚ)
      apply Header.ext' <;> try rfl
      · intro k
        simp only [Header.shift, upd]
        split_ifs with hk
        · rw [hk, h3]
        · rfl
      · intro k
        simp only [Header.shift, hc, upd]
        split_ifs with hk
        · rw [hk, hc]; simp
        · rfl
    · rw [gatherHeaderIfNeeded_ok (g := fun h => (h.crpix naxis).getD 0) e1 e2 e3 (by omega) ?_ ?_]
      · split_ifs with hall
        · -- all the reference pixels are the same: the axis is empty
          have h0 : locals.map (fun h => (h.crpix naxis).getD 0) =
              (List.range size).map fun r => c + -(splitStart nglobal size r : ℚ) := by
            rw [hlocals, List.map_map]
            refine List.map_congr_left fun r _ => ?_
            simp [hcl]
          rw [h0, List.all_eq_true] at hall
          have hlast := hall (c + -(splitStart nglobal size (size - 1) : ℚ)) (List.mem_map.2 ⟨size - 1, by simp; omega, rfl⟩)
          have hhead : ((List.range size).map fun r => c + -(splitStart nglobal size r : ℚ)).head? = some (c + -(splitStart nglobal size 0 : ℚ)) := by
            obtain ⟨k, rfl⟩ : ∃ k, size = k + 1 := ⟨size - 1, by omega⟩
            rw [List.range_succ_eq_map]
            rfl
          rw [hhead, splitStart_zero] at hlast
          simp only [Option.some.injEq, decide_eq_true_eq, Nat.cast_zero, neg_zero, add_right_inj, neg_eq_zero, Nat.cast_eq_zero] at hlast
          have hng : nglobal = 0 := by
            by_contra hne
            unfold splitStart at hlast
            have h5 := Nat.div_add_mod nglobal size
            rcases Nat.eq_zero_or_pos (nglobal / size) with hz | hp
            · rw [hz] at h5
              simp at h5
              omega
            · have : 0 < nglobal / size * (size - 1) := Nat.mul_pos hp (by omega)
              omega
          congr 1
          subst hng
          apply Header.ext' <;> try rfl
          · intro k
            simp only [localHeader, Header.shift, upd]
            split_ifs with hk
            · rw [hk, h3]; simp [splitLen]
            · rfl
          · intro k
            by_cases hk : k = naxis
            · rw [hk, hcl, hc]; simp [splitStart]
            · exact (hother r k hk).2
        · rw [hlocals]
          exact gatherHeader_ok h1 h2 h3 (by omega) r
      · intro l' hl'
        rw [hlocals] at hl'
        obtain ⟨r', _, rfl⟩ := List.mem_map.1 hl'
        refine ⟨rfl, rfl, rfl, fun k hk => ?_⟩
        rw [(hother r' k hk).1, (hother r k hk).1, (hother r' k hk).2, (hother r k hk).2]
        exact ⟨rfl, rfl⟩
      · intro l' hl'
        rw [hlocals] at hl'
        obtain ⟨r', _, rfl⟩ := List.mem_map.1 hl'
        rw [hcl]
        rfl
  · intro r hr
    by_cases hs1 : size = 1
    · rw [gatherHeaderIfNeeded, h1, h2]
      simp only [get, Except.bind]
      rw [if_pos (by simpa using hs1)]
    · rw [gatherHeaderIfNeeded_ok (g := fun h => (h.crpix naxis).getD 0) h1 h2 hw' (by simpa using hs1) ?_ ?_]
      · rw [if_pos]
        rw [List.all_eq_true]
        intro x hx
        rw [List.map_replicate] at hx ⊢
        rw [List.eq_of_mem_replicate hx, List.head?_replicate, if_neg (by omega)]
        simp
      · intro l hl
        rw [List.eq_of_mem_replicate hl]
        exact ⟨rfl, rfl, rfl, fun _ _ => ⟨rfl, rfl⟩⟩
      · intro l hl
        rw [List.eq_of_mem_replicate hl, hc]
        rfl

/-- C78: a header without world coordinate system is rejected, unless there is one process. -/
theorem C78_rejects (h : Header) (headers : List Header) (naxis n1 k r : Nat) (h1 : h.naxis = some naxis) (h2 : h.naxes 1 = some n1)
    (hl : headers.length ≠ 1) (hk : 1 ≤ k ∧ k ≤ naxis) (hw : h.crpix k = none ∨ h.crval k = none ∨ h.ctype k = none) :
    gatherHeaderIfNeeded headers r h = .error .valueError := by
  rw [gatherHeaderIfNeeded, h1, h2]
  simp only [get, Except.bind]
  rw [if_neg hl, if_pos]
  rw [Bool.not_eq_true', Header.hasWcs, List.all_eq_false]
  refine ⟨k - 1, List.mem_range.2 (by omega), ?_⟩
  rw [show k - 1 + 1 = k by omega]
  rcases hw with hw | hw | hw <;> simp [hw]

/-- The hypotheses of C78. -/
example : ∀ k, 1 ≤ k → k ≤ 2 → (sampleHeader.crpix k).isSome ∧ (sampleHeader.crval k).isSome ∧ (sampleHeader.ctype k).isSome := by
  intro k h1 h2
  rcases (show k = 1 ∨ k = 2 by omega) with rfl | rfl <;> simp [sampleHeader]

/-- C78 fails for the projection: headers with different projections are accepted (the keyword that is compared is not `CTYPE1`). -/
theorem C78_violation_ctype : ∃ h h' : Header, h.ctype 1 ≠ h'.ctype 1 ∧ h.hasWcs 2 = true ∧ h'.hasWcs 2 = true ∧
    gatherHeaderIfNeeded [h, h'] 0 h = .ok h ∧ gatherHeaderIfNeeded [h, h'] 1 h' = .ok h' := by
  refine ⟨sampleHeader, { sampleHeader with ctype := fun _ => some "GLON-CAR" }, by simp [sampleHeader], by decide, by decide, ?_, ?_⟩
  · rw [gatherHeaderIfNeeded_ok (naxis := 2) (m := 3) (g := fun _ => 2) rfl rfl (by decide) (by decide) ?_ ?_]
    · rfl
    · intro h hh
      simp only [List.mem_cons, List.not_mem_nil, or_false] at hh
      rcases hh with rfl | rfl <;> exact ⟨rfl, rfl, rfl, fun _ _ => ⟨rfl, rfl⟩⟩
    · intro h hh
      simp only [List.mem_cons, List.not_mem_nil, or_false] at hh
      rcases hh with rfl | rfl <;> simp [sampleHeader]
  · rw [gatherHeaderIfNeeded_ok (naxis := 2) (m := 3) (g := fun _ => 2) rfl rfl (by decide) (by decide) ?_ ?_]
    · rfl
    · intro h hh
      simp only [List.mem_cons, List.not_mem_nil, or_false] at hh
      rcases hh with rfl | rfl <;> exact ⟨rfl, rfl, rfl, fun _ _ => ⟨rfl, rfl⟩⟩
    · intro h hh
      simp only [List.mem_cons, List.not_mem_nil, or_false] at hh
      rcases hh with rfl | rfl <;> simp [sampleHeader]

/-! ### C77 -/

/-- C77 for two-dimensional maps in the tangent projection: the header returned by `read_fits` is the local header. -/
theorem C77_header_partial (h : Header) (n1 nglobal size r : Nat) (h1 : h.naxis = some 2) (h2 : h.naxes 1 = some n1)
    (h3 : h.naxes 2 = some nglobal) (hc : h.ctype 1 = some "RA---TAN" ∧ h.ctype 2 = some "DEC--TAN") :
    readHeader h size r = scatterHeader h size r := by
  rw [scatterHeader_ok h1 h2 h3, readHeader, h1]
  simp only [get, Except.bind]
  rw [h3]
  simp only
  rw [if_pos hc]
  cases hcr : h.crpix 2 with
  | none => simp [localHeader, Header.shift, hcr, h1]
  | some c => simp [localHeader, Header.shift, hcr, h1, sub_eq_add_neg]

/-- The hypotheses of C77. -/
example : sampleHeader.ctype 1 = some "RA---TAN" ∧ sampleHeader.ctype 2 = some "DEC--TAN" := by simp [sampleHeader]

/-- C77 fails for three axes (the reference pixel of the second axis is moved instead of the third one) and for another projection (the
reference pixel is not moved). -/
theorem C77_violation : ∃ h h' : Header,
    (readHeader h 2 1).map (fun l => (l.crpix 2, l.crpix 3)) = .ok (some 0, some 1) ∧
    (scatterHeader h 2 1).map (fun l => (l.crpix 2, l.crpix 3)) = .ok (some 1, some 0) ∧
    (readHeader h' 2 1).map (fun l => l.crpix 2) = .ok (some 1) ∧ (scatterHeader h' 2 1).map (fun l => l.crpix 2) = .ok (some 0) := by
  refine ⟨{ sampleHeader with naxis := some 3, naxes := fun _ => some 2, crpix := fun _ => some 1 },
    { sampleHeader with naxes := fun _ => some 2, crpix := fun _ => some 1, ctype := fun _ => some "GLON-CAR" }, ?_, ?_, ?_, ?_⟩
  · simp only [readHeader, sampleHeader, get, Except.bind, Except.map, splitLen, splitStart]
    norm_num [upd]
  · simp only [scatterHeader, sampleHeader, get, Except.bind, Header.shift, upd, Except.map, splitLen, splitStart]
    norm_num [upd]
  · have : ¬ ("GLON-CAR" = "RA---TAN" ∧ "GLON-CAR" = "DEC--TAN") := by decide
    simp only [readHeader, sampleHeader, get, Except.bind, Except.map, splitLen, splitStart, Option.some.injEq]
    rw [if_neg this]
  · simp only [scatterHeader, sampleHeader, get, Except.bind, Header.shift, upd, Except.map, splitLen, splitStart]
    norm_num [upd]

end Verif.Dist
