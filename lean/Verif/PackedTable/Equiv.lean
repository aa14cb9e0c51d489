import Verif.PackedTable.Restrict

/-! Equivalent selections (C10): auxiliary lemmas. -/
namespace Verif.PackedTable
open Verif.Py

/-- A component, given by its coordinates, belongs to a tuple of slices (one per axis; the missing
ones are full). -/
def inBox : List Nat → List PySlice → List Nat → Bool
  | n :: ns, s :: ss, i :: is =>
    (match sliceIndices s n with
      | .ok l => l.contains (i : Int)
      | .error _ => false) && inBox ns ss is
  | _, _, _ => true

/-- The boolean mask of the components in a tuple of slices. -/
def boxMask (dims : List Nat) (ss : List PySlice) : List Bool :=
  (List.range dims.prod).map fun p => inBox dims ss (unravel dims p)

/-- The tuples of slices that `_normalize_selection` handles: in the normalised tuple without its
trailing full slices, there is no full slice, or only one and then the tuple has an item
for each axis. -/
def BoxOk (dims : List Nat) (ss : List PySlice) : Prop :=
  ∃ items, normalizeItems (ss.map .slice) dims = .ok items ∧
    (((stripEllipsis items).filter (· == .ellipsis)).length = 0 ∨
     (((stripEllipsis items).filter (· == .ellipsis)).length = 1 ∧
       (stripEllipsis items).length = dims.length))

theorem sorted_ext {l l' : List Int} (h : l.Pairwise (· < ·)) (h' : l'.Pairwise (· < ·))
    (hm : ∀ i, i ∈ l ↔ i ∈ l') : l = l' := by
  have hp : l.Perm l' :=
    (List.perm_ext_iff_of_nodup (pairwise_lt_nodup h) (pairwise_lt_nodup h')).2 hm
  exact List.Perm.eq_of_pairwise (le := (· < ·)) (fun x y _ _ hxy hyx => by omega) h h' hp

theorem progression_sorted {a c : Int} (hc : 0 < c) (n : Nat) : (progression a c n).Pairwise (· < ·) := by
  rw [List.pairwise_iff_getElem]
  intro i j hi hj hij
  simp only [progression_getElem]
  have : c * (i : Int) < c * j := Int.mul_lt_mul_of_pos_left (by omega) hc
  omega

theorem mem_takeWhile {α} {f : α → Bool} {l : List α} {x : α} (h : x ∈ l.takeWhile f) : f x = true := by
  induction l with
  | nil => simp at h
  | cons a l ih =>
    rw [List.takeWhile_cons] at h
    split at h
    · rcases List.mem_cons.1 h with rfl | h
      · assumption
      · exact ih h
    · cases h

theorem stripEllipsis_append (l : List NItem) :
    ∃ j, l = stripEllipsis l ++ List.replicate j .ellipsis := by
  have h : l.reverse = l.reverse.takeWhile (· == .ellipsis) ++ l.reverse.dropWhile (· == .ellipsis) :=
    (List.takeWhile_append_dropWhile).symm
  refine ⟨(l.reverse.takeWhile (· == .ellipsis)).length, ?_⟩
  have h2 : l.reverse.takeWhile (· == .ellipsis)
      = List.replicate (l.reverse.takeWhile (· == .ellipsis)).length .ellipsis := by
    apply List.eq_replicate_of_mem
    intro b hb
    have := mem_takeWhile hb
    simpa using this
  have h3 := congrArg List.reverse h
  rw [List.reverse_reverse, List.reverse_append] at h3
  unfold stripEllipsis
  rw [h2, List.reverse_replicate] at h3
  exact h3

theorem expandItems_none {l : List NItem} {n : Nat} (h : (l.filter (· == .ellipsis)).length = 0)
    (hl : l.length ≤ n) : expandItems l n = .ok (l ++ List.replicate (n - l.length) .ellipsis) := by
  have hne : ∀ x ∈ l, (x != .ellipsis) = true := by
    intro x hx
    rw [List.length_eq_zero_iff, List.filter_eq_nil_iff] at h
    have := h x hx
    simpa [bne] using this
  unfold expandItems
  simp only [h, if_true]
  rw [if_neg (by omega), if_neg (by simp; omega)]
  rw [List.takeWhile_append_of_pos hne, List.dropWhile_append_of_pos hne]
  simp

theorem expandItems_one {l : List NItem} {n : Nat} (h : (l.filter (· == .ellipsis)).length = 1)
    (hl : l.length = n) : expandItems l n = .ok l := by
  unfold expandItems
  simp only [h, Nat.one_ne_zero, if_false]
  rw [if_neg (by omega), if_neg (by omega)]
  have hsplit : l = l.takeWhile (· != .ellipsis) ++ l.dropWhile (· != .ellipsis) :=
    (List.takeWhile_append_dropWhile).symm
  congr 1
  have hr : n + 1 - l.length = 1 := by omega
  rw [hr]
  have hd : ∃ r, l.dropWhile (· != .ellipsis) = .ellipsis :: r := by
    cases hd : l.dropWhile (· != .ellipsis) with
    | nil =>
      exfalso
      rw [hd, List.append_nil] at hsplit
      have : l.filter (· == .ellipsis) = [] := by
        rw [List.filter_eq_nil_iff]
        intro x hx
        rw [hsplit] at hx
        have := mem_takeWhile hx
        simpa [bne] using this
      rw [this] at h; simp at h
    | cons x r =>
      have := List.head_dropWhile_not (p := fun x => x != NItem.ellipsis) (l := l) (by rw [hd]; simp)
      simp only [hd, List.head_cons] at this
      refine ⟨r, ?_⟩
      simp [bne] at this
      rw [this]
  obtain ⟨r, hd⟩ := hd
  rw [hd]
  conv => rhs; rw [hsplit, hd]
  simp

theorem expandItems_strip {items : List NItem} {n : Nat} (hl : items.length ≤ n)
    (h : ((stripEllipsis items).filter (· == .ellipsis)).length = 0 ∨
     (((stripEllipsis items).filter (· == .ellipsis)).length = 1 ∧
       (stripEllipsis items).length = n)) :
    expandItems (stripEllipsis items) n = .ok (items ++ List.replicate (n - items.length) .ellipsis) := by
  obtain ⟨j, hj⟩ := stripEllipsis_append items
  have hlen := congrArg List.length hj
  simp at hlen
  rcases h with h | ⟨h, h'⟩
  · rw [expandItems_none h (by omega)]
    congr 1
    conv => rhs; rw [hj]
    rw [List.append_assoc, List.replicate_append_replicate]
    congr 2
    simp; omega
  · rw [expandItems_one h h']
    congr 1
    have h0 : n - items.length = 0 := by omega
    have hj0 : j = 0 := by omega
    rw [h0]
    subst hj0
    simpa using hj.symm

theorem itemPositions_normalized {s : PySlice} {n : Nat} {r : NSlice} (hc : 0 < s.step.getD 1)
    (h : normalizeSlice s n = .ok r) : itemPositions n r.toNItem = sliceIndices s n := by
  obtain ⟨r', h1, h2⟩ := normalizeSlice_pos (n := n) hc
  rw [h] at h1; injection h1 with h1; subst h1
  cases r with
  | all =>
    simp only [NSlice.toNItem, itemPositions]
    rw [h2, pyRange_zero_one]
  | slice a b c =>
    have hcc := h2.1
    obtain ⟨hwf, hsi⟩ := h2.wf (by omega)
    simp only [NSlice.toNItem, itemPositions]
    rcases Nat.eq_zero_or_pos n with hn | hn
    · subst hn
      rw [sliceIndices_empty (by simp; omega), sliceIndices_empty (by omega)]
    · have hb : 0 ≤ b := by
        obtain ⟨_, m, hb, hx, hm⟩ := hwf
        rcases Nat.eq_zero_or_pos m with h0 | h0
        · subst h0
          have : ¬ a < 0 := fun ha => by have := hm rfl ha; omega
          simp at hb; omega
        · have := (hx a (mem_progression.2 ⟨0, h0, by simp⟩)).1
          have h3 : 0 ≤ (m : Int) * c := Int.mul_nonneg (by omega) (by omega)
          omega
      have := sliceIndices_indexable hwf
      rw [if_neg (by omega)] at this
      rw [this, hsi]
      rfl

/-- Coordinates within the dimensions. -/
def Below : List Nat → List Nat → Prop
  | [], _ => True
  | _ :: _, [] => False
  | n :: ns, i :: is => i < n ∧ Below ns is

theorem unravel_below {dims : List Nat} {p : Nat} (h : p < dims.prod) : Below dims (unravel dims p) := by
  induction dims generalizing p with
  | nil => trivial
  | cons n ns ih =>
    simp only [List.prod_cons] at h
    have hpos : 0 < ns.prod := by
      rcases Nat.eq_zero_or_pos ns.prod with h0 | h0
      · rw [h0] at h; simp at h
      · exact h0
    refine ⟨?_, ih (Nat.mod_lt _ hpos)⟩
    exact Nat.div_lt_of_lt_mul (by rw [Nat.mul_comm]; exact h)

theorem mem_full {n i : Nat} (h : i < n) : (pyRange 0 n 1).contains (i : Int) = true := by
  rw [List.contains_iff_mem, pyRange_zero_one]
  exact mem_progression.2 ⟨i, h, by simp⟩

theorem axes_full (dims : List Nat) (coords : List Nat) (hb : Below dims coords) :
    ∃ axes, axisPositions dims (List.replicate dims.length .ellipsis) = .ok axes ∧
      inAxes coords axes = true := by
  induction dims generalizing coords with
  | nil => exact ⟨[], rfl, by cases coords <;> rfl⟩
  | cons n ns ih =>
    cases coords with
    | nil => exact hb.elim
    | cons i is =>
      obtain ⟨axes, h1, h2⟩ := ih is hb.2
      refine ⟨pyRange 0 n 1 :: axes, ?_, ?_⟩
      · simp only [List.length_cons, List.replicate_succ, axisPositions, itemPositions, h1]; rfl
      · simp only [inAxes, mem_full hb.1, h2, Bool.and_self]

theorem normalizeItems_length {l : List SelItem} {dims : List Nat} {items : List NItem}
    (h : normalizeItems l dims = .ok items) : items.length = min l.length dims.length := by
  induction l generalizing dims items with
  | nil => simp only [normalizeItems] at h; injection h with h; subst h; simp
  | cons a l ih =>
    cases dims with
    | nil => simp only [normalizeItems] at h; injection h with h; subst h; simp
    | cons n ns =>
      simp only [normalizeItems] at h
      obtain ⟨x, _, h⟩ := bind_eq_ok.1 h
      obtain ⟨r, hB, h⟩ := map_eq_ok.1 h
      subst h
      simp [ih hB]

theorem axes_box {dims : List Nat} {ss : List PySlice} {items : List NItem}
    (h : normalizeItems (ss.map .slice) dims = .ok items) (hc : ∀ s ∈ ss, 0 < s.step.getD 1) :
    ∃ axes, axisPositions dims (items ++ List.replicate (dims.length - items.length) .ellipsis) = .ok axes ∧
      ∀ coords, Below dims coords → inAxes coords axes = inBox dims ss coords := by
  induction dims generalizing ss items with
  | nil =>
    refine ⟨[], rfl, ?_⟩
    intro coords _
    cases coords <;> cases ss <;> rfl
  | cons n ns ih =>
    cases ss with
    | nil =>
      simp only [List.map_nil, normalizeItems] at h
      injection h with h; subst h
      simp only [List.nil_append, List.length_nil, Nat.sub_zero]
      have hax : ∃ axes, axisPositions (n :: ns) (List.replicate (n :: ns).length .ellipsis) = .ok axes := by
        generalize n :: ns = d
        induction d with
        | nil => exact ⟨_, rfl⟩
        | cons n ns ih =>
          obtain ⟨a, ha⟩ := ih
          exact ⟨pyRange 0 n 1 :: a, by simp only [List.length_cons, List.replicate_succ, axisPositions, itemPositions, ha]; rfl⟩
      obtain ⟨axes, hax⟩ := hax
      refine ⟨axes, hax, ?_⟩
      intro coords hb
      obtain ⟨axes', h1, h2⟩ := axes_full _ _ hb
      rw [hax] at h1; injection h1 with h1; subst h1
      rw [h2]
      cases coords <;> rfl
    | cons s ss =>
      simp only [List.map_cons, normalizeItems] at h
      cases hA : normalizeSlice s (n : Int) with
      | error e => rw [hA] at h; cases h
      | ok r =>
        rw [hA] at h
        cases hB : normalizeItems (ss.map .slice) ns with
        | error e => rw [hB] at h; cases h
        | ok its =>
          rw [hB] at h; injection h with h; subst h
          obtain ⟨axes, h1, h2⟩ := ih hB (fun s hs => hc s (by simp [hs]))
          have hs := hc s (by simp)
          have hip := itemPositions_normalized hs hA
          cases hsi : sliceIndices s n with
          | error e =>
            exfalso
            unfold sliceIndices at hsi
            dsimp only at hsi
            rw [if_neg (by omega)] at hsi; cases hsi
          | ok l =>
            rw [hsi] at hip
            refine ⟨l :: axes, ?_, ?_⟩
            · simp only [List.cons_append, List.length_cons, axisPositions, hip]
              rw [show ns.length + 1 - (its.length + 1) = ns.length - its.length by omega, h1]; rfl
            · intro coords hb
              cases coords with
              | nil => exact hb.elim
              | cons i is => simp only [inAxes, inBox, hsi, h2 is hb.2]

theorem getElem?_boxMask {dims : List Nat} {ss : List PySlice} {p : Nat} :
    (boxMask dims ss)[p]? = some true ↔ p < dims.prod ∧ inBox dims ss (unravel dims p) = true := by
  unfold boxMask
  rw [List.getElem?_map]
  by_cases h : p < dims.prod
  · rw [List.getElem?_range h]; simp [h]
  · rw [List.getElem?_eq_none (by simpa using h)]; simp [h]

theorem selection2bool_box {dims : List Nat} {ss : List PySlice} {items : List NItem}
    (hl : ss.length ≤ dims.length) (hc : ∀ s ∈ ss, 0 < s.step.getD 1)
    (h : normalizeItems (ss.map .slice) dims = .ok items)
    (hok : ((stripEllipsis items).filter (· == .ellipsis)).length = 0 ∨
     (((stripEllipsis items).filter (· == .ellipsis)).length = 1 ∧
       (stripEllipsis items).length = dims.length)) :
    selection2bool dims (.tuple (stripEllipsis items)) = .ok (boxMask dims ss) := by
  have hlen := normalizeItems_length h
  rw [List.length_map] at hlen
  obtain ⟨axes, h1, h2⟩ := axes_box h hc
  unfold selection2bool
  simp only
  rw [expandItems_strip (by omega) hok]
  simp only [Except.bind]
  rw [h1]
  simp only [Except.map, boxMask]
  congr 1
  apply List.map_congr_left
  intro p hp
  exact h2 _ (unravel_below (List.mem_range.1 hp))

/-- A slice on the first axis. -/
theorem whereTrue_firstAxis {n : Nat} {ns : List Nat} {s : PySlice} {a b c : Int}
    (hc : 0 < c) (h : sliceIndices s n = .ok (pyRange a b c)) (hwf : (Idx.slice a b c).WF n)
    (hn : ns.prod = 1 ∨ c = 1) :
    pyRange (a * ns.prod) (b * ns.prod) c = whereTrue (boxMask (n :: ns) [s]) := by
  have hmem : ∀ p : Nat, (boxMask (n :: ns) [s])[p]? = some true ↔
      p < n * ns.prod ∧ ((p / ns.prod : Nat) : Int) ∈ pyRange a b c := by
    intro p
    rw [getElem?_boxMask]
    simp [inBox, unravel, h]
  have hsort : (pyRange (a * ns.prod) (b * ns.prod) c).Pairwise (· < ·) := progression_sorted hc _
  apply sorted_ext hsort (whereTrue_sorted _)
  intro i
  rw [mem_whereTrue]
  simp only [hmem]
  obtain ⟨_, m, hb, hx, _⟩ := hwf
  rcases hn with hn | hn
  · rw [hn]
    simp only [Int.natCast_one, Int.mul_one, Nat.mul_one, Nat.div_one]
    rw [hb, pyRange_progression _ _ _ (by omega)]
    constructor
    · intro hi
      have := hx i hi
      refine ⟨i.toNat, by omega, by omega, ?_⟩
      rw [Int.toNat_of_nonneg this.1]; exact hi
    · rintro ⟨p, rfl, _, h⟩; exact h
  · subst hn
    rw [hb, pyRange_progression a 1 m (by omega)]
    rw [Int.mul_one, Int.add_mul, ← Int.natCast_mul]
    have := pyRange_progression (a * ns.prod) 1 (m * ns.prod) (by omega)
    rw [Int.mul_one] at this
    rw [this]
    simp only [mem_progression, Int.one_mul]
    constructor
    · rintro ⟨k, hk, rfl⟩
      have hN : 0 < ns.prod := by
        rcases Nat.eq_zero_or_pos ns.prod with h0 | h0
        · rw [h0] at hk; simp at hk
        · exact h0
      have hm : 0 < m := by
        rcases Nat.eq_zero_or_pos m with h0 | h0
        · subst h0; simp at hk
        · exact h0
      have ha := (hx a (mem_progression.2 ⟨0, hm, by simp⟩)).1
      have hl := (hx (a + 1 * ((m - 1 : Nat) : Int)) (mem_progression.2 ⟨m - 1, by omega, rfl⟩)).2
      obtain ⟨a', rfl⟩ := Int.eq_ofNat_of_zero_le ha
      refine ⟨a' * ns.prod + k, by simp, ?_, k / ns.prod, ?_, ?_⟩
      · have h1 : (a' + m) * ns.prod ≤ n * ns.prod := Nat.mul_le_mul_right _ (by omega)
        rw [Nat.add_mul] at h1
        omega
      · exact Nat.div_lt_of_lt_mul (by rw [Nat.mul_comm]; exact hk)
      · rw [Nat.mul_comm a', Nat.mul_add_div hN]; simp
    · rintro ⟨p, rfl, hp, k, hk, he⟩
      have hN : 0 < ns.prod := by
        rcases Nat.eq_zero_or_pos ns.prod with h0 | h0
        · rw [h0] at hp; simp at hp
        · exact h0
      have h1 := Nat.div_add_mod p ns.prod
      have h2 := Nat.mod_lt p hN
      refine ⟨k * ns.prod + p % ns.prod, ?_, ?_⟩
      · have : (k + 1) * ns.prod ≤ m * ns.prod := Nat.mul_le_mul_right _ hk
        rw [Nat.add_mul] at this
        omega
      · have h3 : (p : Int) = ns.prod * ((p / ns.prod : Nat) : Int) + ((p % ns.prod : Nat) : Int) := by
          rw [← Int.natCast_mul, ← Int.natCast_add, h1]
        rw [h3, he, Int.mul_add, Int.mul_comm]
        simp [Int.mul_comm, Int.add_assoc]

theorem getIndex_box {dims : List Nat} {ss : List PySlice} (hss : ss ≠ []) (hl : ss.length ≤ dims.length)
    (hc : ∀ s ∈ ss, 0 < s.step.getD 1) (hok : BoxOk dims ss) :
    ∃ i, getIndex dims (.tuple (ss.map .slice)) none = .ok i ∧ i.WF dims.prod ∧
      i.comps dims.prod = whereTrue (boxMask dims ss) := by
  obtain ⟨items, hit, hok⟩ := hok
  have hbool := selection2bool_box hl hc hit hok
  have hmlen : (boxMask dims ss).length = dims.prod := by simp [boxMask]
  have hlen := normalizeItems_length hit
  unfold getIndex normalizeSelection
  simp only [List.length_map]
  rw [if_neg (by omega), hit]
  simp only [Except.map, Except.bind]
  cases hst : stripEllipsis items with
  | nil =>
    refine ⟨.all, rfl, trivial, ?_⟩
    have h1 : boxMask dims ss = List.replicate dims.prod true := by
      rw [hst] at hbool
      have := expandItems_none (l := []) (n := dims.length) rfl (by simp)
      unfold selection2bool at hbool
      simp only at hbool
      rw [this] at hbool
      simp only [Except.bind, List.nil_append, List.length_nil, Nat.sub_zero] at hbool
      obtain ⟨axes, h1, h2⟩ := map_eq_ok.1 hbool
      rw [← h2]
      apply List.ext_getElem
      · simp
      · intro p hp hp'
        simp only [List.getElem_map, List.getElem_range, List.getElem_replicate]
        obtain ⟨axes', h3, h4⟩ := axes_full dims (unravel dims p) (unravel_below (by simpa using hp))
        rw [h1] at h3; injection h3 with h3; subst h3; exact h4
    rw [h1]
    apply sorted_ext (progression_sorted (by decide) _) (whereTrue_sorted _)
    intro i
    rw [mem_whereTrue]
    simp only [mem_progression]
    constructor
    · rintro ⟨k, hk, rfl⟩
      exact ⟨k, by simp, by simp [hk]⟩
    · rintro ⟨k, rfl, hk⟩
      obtain ⟨h, _⟩ := List.getElem?_eq_some_iff.1 hk
      exact ⟨k, by simpa using h, by simp⟩
  | cons it rest =>
    have hvia : (selection2bool dims (.tuple (it :: rest))).map
        (fun flat => normalizeInt (whereTrue flat) dims.prod)
        = .ok (normalizeInt (whereTrue (boxMask dims ss)) dims.prod) := by
      rw [← hst, hbool]; rfl
    have hviaok := whereTrue_wf hmlen
    simp only
    split
    · rename_i a b c rest' heq
      injection heq with heq1 heq2
      subst heq1; subst heq2
      split
      · rename_i hcond
        -- the first slice
        cases ss with
        | nil => exact absurd rfl hss
        | cons s ss =>
          cases dims with
          | nil => simp at hl
          | cons n ns =>
            have hit' := hit
            simp only [List.map_cons, normalizeItems] at hit'
            obtain ⟨x, hx, hit'⟩ := bind_eq_ok.1 hit'
            obtain ⟨r, hr, hit'⟩ := map_eq_ok.1 hit'
            obtain ⟨q, hq, hqx⟩ := map_eq_ok.1 hx
            obtain ⟨j, hj⟩ := stripEllipsis_append items
            rw [hst, ← hit'] at hj
            simp only [List.cons_append] at hj
            injection hj with hj1 hj2
            subst hj1
            cases q with
            | all => cases hqx
            | slice a' b' c' =>
              simp only [NSlice.toNItem] at hqx
              injection hqx with e1 e2 e3
              subst e1; subst e2; subst e3
              have hcs := hc s (by simp)
              obtain ⟨r', hr1, hr2⟩ := normalizeSlice_pos (n := n) hcs
              rw [hq] at hr1; injection hr1 with hr1; subst hr1
              have hcc := hr2.1
              obtain ⟨hwf, hsi⟩ := hr2.wf (by omega)
              have hprod : (n :: ns).prod = n * ns.prod := by simp
              have hdrop : (n :: ns).drop 1 = ns := rfl
              have hn1 : ns.prod = 1 ∨ c' = 1 := by
                rcases hcond with h | h
                · left
                  have : ns = [] := by simpa using h
                  subst this; rfl
                · exact Or.inr h.2
              refine ⟨_, rfl, ?_, ?_⟩
              · rw [hprod, hdrop]; exact tupleSlice_wf hwf hn1
              · simp only [Idx.comps, hdrop]
                simp only [Idx.comps] at hsi
                rw [whereTrue_firstAxis (by omega) hsi hwf hn1]
                congr 1
                -- the following slices, if any, are full
                cases ss with
                | nil => rfl
                | cons s' ss =>
                  have hns : ¬ (n :: ns).length = 1 := by
                    intro h
                    simp at h hl
                    subst h; simp at hl
                  have hrest : rest = [] := by
                    rcases hcond with h | h
                    · exact absurd h hns
                    · exact h.1
                  rw [hrest, List.nil_append] at hj2
                  unfold boxMask
                  apply List.map_congr_left
                  intro p hp
                  have hbelow := unravel_below (List.mem_range.1 hp)
                  generalize unravel (n :: ns) p = coords at hbelow
                  cases coords with
                  | nil => exact hbelow.elim
                  | cons i is =>
                    simp only [inBox, hsi]
                    congr 1
                    obtain ⟨axes, h1, h2⟩ := axes_box hr (fun s hs => hc s (by simp [hs]))
                    have hrlen := normalizeItems_length hr
                    rw [← h2 is hbelow.2]
                    obtain ⟨axes', h3, h4⟩ := axes_full ns is hbelow.2
                    rw [hj2, List.replicate_append_replicate] at h1
                    have hjl := congrArg List.length hj2
                    simp at hjl hrlen
                    rw [List.length_replicate, show j + (ns.length - j) = ns.length by omega, h3] at h1
                    injection h1 with h1
                    subst h1
                    rw [h4]
      · exact ⟨_, hvia, hviaok.1, hviaok.2⟩
    · exact ⟨_, hvia, hviaok.1, hviaok.2⟩

end Verif.PackedTable
