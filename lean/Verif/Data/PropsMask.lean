import Verif.Data.Model

set_option linter.unusedSectionVars false
set_option linter.unusedSimpArgs false

/-!
The masks of time-ordered arrays: alignment (C62) and sharing (C63).
-/
namespace Verif.Data
open Verif.Py

variable {α : Type}

/-! ### Specification -/

/-- The array exists. -/
def View.Valid (h : Heap) (v : View) : Prop := v.buf < h.next ∧ v.offs.length = v.shape.prod

/-- The Tod has no mask, or a mask of its shape. -/
def Aligned (h : Heap) (t : Tod α) : Prop := ∀ m, t.mask = some m → m.shape = t.shape ∧ m.Valid h

/-- The masked samples: the values of the mask. -/
def maskValues (h : Heap) (t : Tod α) : Option (List Bool) := t.mask.map h.read

/-- No array of the first heap has changed. -/
def Unchanged (h h' : Heap) : Prop := h.next ≤ h'.next ∧ ∀ b < h.next, ∀ i, h'.cell b i = h.cell b i

/-! ### Lemmas -/

theorem Unchanged.refl (h : Heap) : Unchanged h h := ⟨le_refl _, fun _ _ _ => rfl⟩

theorem Unchanged.trans {h h' h'' : Heap} (h1 : Unchanged h h') (h2 : Unchanged h' h'') : Unchanged h h'' :=
  ⟨h1.1.trans h2.1, fun b hb i => (h2.2 b (lt_of_lt_of_le hb h1.1) i).trans (h1.2 b hb i)⟩

theorem Unchanged.read {h h' : Heap} (hu : Unchanged h h') {v : View} (hv : v.Valid h) : h'.read v = h.read v := by
  unfold Heap.read
  exact List.map_congr_left fun i _ => hu.2 _ hv.1 i

theorem Unchanged.valid {h h' : Heap} (hu : Unchanged h h') {v : View} (hv : v.Valid h) : v.Valid h' :=
  ⟨lt_of_lt_of_le hv.1 hu.1, hv.2⟩

theorem unchanged_new (h : Heap) (s : List Nat) (bs : List Bool) : Unchanged h (h.newArray s bs).1 := by
  refine ⟨Nat.le_succ _, fun b hb i => ?_⟩
  change (if b = h.next then _ else _) = _
  rw [if_neg (Nat.ne_of_lt hb)]

theorem valid_new (h : Heap) (s : List Nat) (bs : List Bool) : (h.newArray s bs).2.Valid (h.newArray s bs).1 :=
  ⟨Nat.lt_succ_self _, by simp [Heap.newArray]⟩

theorem read_new (h : Heap) (s : List Nat) (bs : List Bool) (hb : bs.length = s.prod) : (h.newArray s bs).1.read (h.newArray s bs).2 = bs := by
  unfold Heap.newArray Heap.read
  apply List.ext_getElem?
  intro i
  rw [List.getElem?_map]
  by_cases hi : i < s.prod
  · rw [List.getElem?_range hi, Option.map_some]
    dsimp only
    rw [if_pos rfl, List.getElem?_eq_getElem (by omega), List.getD_eq_getElem?_getD,
      List.getElem?_eq_getElem (by omega), Option.getD_some]
  · rw [List.getElem?_eq_none (by simpa using hi), List.getElem?_eq_none (by omega), Option.map_none]

/-- The selection of a mask: the same positions, nothing else changes. -/
theorem index_view {h h' : Heap} {v w : View} {k : Key} (hv : v.Valid h) (hi : index h v k = .ok (h', .inr w)) :
    ∃ s ps, k.sel v.shape = .ok (s, ps) ∧ w.shape = s ∧ w.Valid h' ∧ Unchanged h h' ∧ h'.read w = ps.map fun p => (h.read v).getD p false := by
  unfold index at hi
  split at hi
  · cases hi
  · rename_i s ps hs
    obtain ⟨hl, hb⟩ := k.ok _ _ _ hs
    refine ⟨s, ps, hs, ?_⟩
    split at hi
    · cases hi
    · split at hi
      · simp only [Except.ok.injEq, Prod.mk.injEq, Sum.inr.injEq] at hi
        obtain ⟨rfl, rfl⟩ := hi
        exact ⟨rfl, valid_new _ _ _, unchanged_new _ _ _, read_new _ _ _ (by simpa using hl)⟩
      · simp only [Except.ok.injEq, Prod.mk.injEq, Sum.inr.injEq] at hi
        obtain ⟨rfl, rfl⟩ := hi
        refine ⟨rfl, ⟨hv.1, by simpa using hl⟩, Unchanged.refl _, ?_⟩
        unfold Heap.read
        rw [List.map_map]
        apply List.map_congr_left
        intro p hp
        have hp' : p < v.offs.length := by rw [hv.2]; exact hb p hp
        simp [List.getD_eq_getElem?_getD, hp']

theorem index_error {h : Heap} {v : View} {k : Key} {s ps} (hs : k.sel v.shape = .ok (s, ps)) (e : PyErr) : index h v k ≠ .error e := by
  unfold index
  rw [hs]
  dsimp only
  split
  · simp
  · split <;> simp

theorem index_scalar {h h' : Heap} {v : View} {k : Key} {b : Bool} (hi : index h v k = .ok (h', .inl b)) :
    ∃ ps, k.sel v.shape = .ok ([], ps) ∧ k.isArray = false := by
  unfold index at hi
  split at hi
  · cases hi
  · rename_i s ps hs
    split at hi
    · rename_i h1
      exact ⟨ps, by rw [hs, h1.1], h1.2⟩
    · split at hi <;> cases hi

/-- What `__getitem__` and `reshape` have in common. -/
theorem item_mask {h h' : Heap} {t u : Tod α} {m w : View} {k : Key} {s ps : List Nat} {d : List α} (ha : Aligned h t) (hm : t.mask = some m)
    (hs : k.sel t.shape = .ok (s, ps)) (hi : index h m k = .ok (h', .inr w)) (hne : s ≠ [])
    {h'' : Heap} (hset : setMask h' (inherit t s d) (.view w) = .ok (h'', u)) :
    Aligned h'' u ∧ Unchanged h h'' ∧ u.shape = s ∧ u.data = d ∧ maskValues h'' u = some (ps.map fun p => (h.read m).getD p false) := by
  obtain ⟨e1, hv⟩ := ha m hm
  obtain ⟨s', ps', hs', hw, hwv, hun, hr⟩ := index_view hv hi
  rw [e1, hs] at hs'
  simp only [Except.ok.injEq, Prod.mk.injEq] at hs'
  obtain ⟨rfl, rfl⟩ := hs'
  unfold setMask at hset
  dsimp only at hset
  rw [if_neg (by rw [hw]; exact hne)] at hset
  unfold setArray at hset
  rw [if_neg (by simp [inherit, hw])] at hset
  simp only [Except.ok.injEq, Prod.mk.injEq] at hset
  obtain ⟨rfl, rfl⟩ := hset
  refine ⟨?_, hun, rfl, rfl, ?_⟩
  · intro m' hm'
    simp only [inherit, Option.some.injEq] at hm'
    subst hm'
    exact ⟨hw, hwv⟩
  · simp [maskValues, inherit, hr]

/-! ### C62 -/

/-- C62: an item with dimensions has the data and the mask of the same positions, and extracting it does not change any array. -/
theorem C62_getitem [Inhabited α] {h h' : Heap} {t u : Tod α} {k : Key} (ha : Aligned h t) (hg : getitem h t k = .ok (h', .inr u))
    (hne : u.shape ≠ []) :
    Aligned h' u ∧ Unchanged h h' ∧ ∃ ps : List Nat, (∀ p ∈ ps, p < t.shape.prod) ∧ ps.length = u.shape.prod ∧
      u.data = (ps.map fun p => t.data.getD p default) ∧
      maskValues h' u = (maskValues h t).map fun m => ps.map fun p => m.getD p false := by
  unfold getitem at hg
  split at hg
  · cases hg
  · rename_i s ps hs
    obtain ⟨hl, hb⟩ := k.ok _ _ _ hs
    dsimp only at hg
    split at hg
    · cases hg
    · rename_i hk
      split at hg
      · rename_i hm
        simp only [Except.ok.injEq, Prod.mk.injEq, Sum.inr.injEq] at hg
        obtain ⟨rfl, rfl⟩ := hg
        refine ⟨?_, Unchanged.refl _, ps, hb, hl, rfl, ?_⟩
        · intro m hm'
          simp [inherit, hm] at hm'
        · simp [maskValues, inherit, hm]
      · rename_i m hm
        split at hg
        · cases hg
        · rename_i hi
          obtain ⟨ps', hs', hia⟩ := index_scalar hi
          rw [(ha m hm).1, hs] at hs'
          simp only [Except.ok.injEq, Prod.mk.injEq] at hs'
          exact absurd ⟨hs'.1, hia⟩ hk
        · rename_i h1 w hi
          cases hset : setMask h1 (inherit t s (ps.map fun p => t.data.getD p default)) (.view w) with
          | error e => rw [hset] at hg; cases hg
          | ok r =>
            rw [hset] at hg
            simp only [Except.map, Except.ok.injEq, Prod.mk.injEq, Sum.inr.injEq] at hg
            obtain ⟨rfl, rfl⟩ := hg
            have hsne : s ≠ [] := by
              rintro rfl
              obtain ⟨s', ps', hs', hw, -⟩ := index_view (ha m hm).2 hi
              rw [(ha m hm).1, hs] at hs'
              simp only [Except.ok.injEq, Prod.mk.injEq] at hs'
              obtain ⟨rfl, rfl⟩ := hs'
              unfold setMask at hset
              dsimp only at hset
              rw [if_pos hw] at hset
              unfold setScalar at hset
              simp only [inherit, hm] at hset
              split at hset
              · cases hset
              · simp only [Except.ok.injEq] at hset
                rw [← hset] at hne
                exact hne rfl
            obtain ⟨e1, e2, e3, e4, e5⟩ := item_mask ha hm hs hi hsne hset
            exact ⟨e1, e2, ps, hb, by rw [e3]; exact hl, e4, by rw [e5]; simp [maskValues, hm]⟩

/-- C62: an item of an aligned Tod can be extracted whenever the item of its data can; the mask does not raise errors. -/
theorem C62_getitem_ok [Inhabited α] {h : Heap} {t : Tod α} {k : Key} (ha : Aligned h t) {s ps : List Nat} (hs : k.sel t.shape = .ok (s, ps))
    (hne : s ≠ []) : ∃ h' u, getitem h t k = .ok (h', .inr u) ∧ u.shape = s := by
  unfold getitem
  rw [hs]
  dsimp only
  rw [if_neg (fun h => hne h.1)]
  cases hm : t.mask with
  | none => exact ⟨h, _, rfl, rfl⟩
  | some m =>
    obtain ⟨e1, hv⟩ := ha m hm
    have hs' : k.sel m.shape = .ok (s, ps) := by rw [e1, hs]
    dsimp only
    cases hi : index h m k with
    | error e => exact absurd hi (index_error hs' e)
    | ok r =>
      obtain ⟨h', b | w⟩ := r
      · obtain ⟨ps', h1, -⟩ := index_scalar hi
        rw [hs'] at h1
        simp only [Except.ok.injEq, Prod.mk.injEq] at h1
        exact absurd h1.1 hne
      · obtain ⟨s', ps', h1, h2, -⟩ := index_view hv hi
        rw [hs'] at h1
        simp only [Except.ok.injEq, Prod.mk.injEq] at h1
        obtain ⟨rfl, rfl⟩ := h1
        refine ⟨h', { inherit t s (ps.map fun p => t.data.getD p default) with mask := some w }, ?_, rfl⟩
        simp only [setMask, if_neg (show ¬ w.shape = [] by rw [h2]; exact hne), setArray]
        rw [if_neg (by simp [inherit, h2])]
        rfl

/-- C62: the same for the changes of shape. -/
theorem C62_reshape [Inhabited α] {h h' : Heap} {t u : Tod α} {k : Key} (ha : Aligned h t) (hk : k.isArray = true)
    (hg : reshape h t k = .ok (h', u)) (hne : u.shape ≠ []) :
    Aligned h' u ∧ Unchanged h h' ∧ ∃ ps : List Nat, (∀ p ∈ ps, p < t.shape.prod) ∧ ps.length = u.shape.prod ∧
      u.data = (ps.map fun p => t.data.getD p default) ∧
      maskValues h' u = (maskValues h t).map fun m => ps.map fun p => m.getD p false := by
  unfold reshape at hg
  split at hg
  · cases hg
  · rename_i s ps hs
    obtain ⟨hl, hb⟩ := k.ok _ _ _ hs
    dsimp only at hg
    split at hg
    · rename_i hm
      simp only [setMask, Except.ok.injEq, Prod.mk.injEq] at hg
      obtain ⟨rfl, rfl⟩ := hg
      refine ⟨?_, Unchanged.refl _, ps, hb, hl, rfl, ?_⟩
      · intro m hm'
        simp at hm'
      · simp [maskValues, hm]
    · rename_i m hm
      split at hg
      · cases hg
      · rename_i hi
        obtain ⟨ps', hs', hia⟩ := index_scalar hi
        rw [hk] at hia
        cases hia
      · rename_i h1 w hi
        have hsne : s ≠ [] := by
          rintro rfl
          obtain ⟨s', ps', hs', hw, -⟩ := index_view (ha m hm).2 hi
          rw [(ha m hm).1, hs] at hs'
          simp only [Except.ok.injEq, Prod.mk.injEq] at hs'
          obtain ⟨rfl, rfl⟩ := hs'
          unfold setMask at hg
          dsimp only at hg
          rw [if_pos hw] at hg
          unfold setScalar at hg
          simp only [inherit, hm] at hg
          split at hg
          · cases hg
          · simp only [Except.ok.injEq, Prod.mk.injEq] at hg
            rw [← hg.2] at hne
            exact hne rfl
        obtain ⟨e1, e2, e3, e4, e5⟩ := item_mask ha hm hs hi hsne hg
        exact ⟨e1, e2, ps, hb, by rw [e3]; exact hl, e4, by rw [e5]; simp [maskValues, hm]⟩

/-- An assigned mask exists. -/
def MaskValue.Valid (h : Heap) : MaskValue → Prop
  | .none => True
  | .scalar _ => True
  | .view v => v.Valid h
  | .values s bs => bs.length = s.prod

theorem setScalar_spec {h h' : Heap} {t u : Tod α} {b : Bool} (ha : Aligned h t) (hs : setScalar h t b = .ok (h', u)) :
    Aligned h' u ∧ u.shape = t.shape ∧ u.data = t.data ∧ maskValues h' u = some (List.replicate t.shape.prod b) ∧
      h.next ≤ h'.next := by
  unfold setScalar at hs
  split at hs
  · simp only [Except.ok.injEq, Prod.mk.injEq] at hs
    obtain ⟨rfl, rfl⟩ := hs
    refine ⟨?_, rfl, rfl, ?_, (unchanged_new _ _ _).1⟩
    · intro m hm
      simp only [Option.some.injEq] at hm
      subst hm
      exact ⟨rfl, valid_new _ _ _⟩
    · simp only [maskValues, Option.map_some]
      rw [read_new _ _ _ (by simp)]
  · rename_i m hm
    split at hs
    · cases hs
    · simp only [Except.ok.injEq, Prod.mk.injEq] at hs
      obtain ⟨rfl, rfl⟩ := hs
      obtain ⟨e1, hv⟩ := ha m hm
      refine ⟨?_, rfl, rfl, ?_, le_refl _⟩
      · intro m' hm'
        rw [hm] at hm'
        cases hm'
        exact ⟨e1, hv⟩
      · simp only [maskValues, hm, Option.map_some, Option.some.injEq]
        unfold Heap.read Heap.fill
        rw [List.eq_replicate_iff]
        refine ⟨by rw [List.length_map, hv.2, e1], ?_⟩
        intro x hx
        obtain ⟨i, hi, rfl⟩ := List.mem_map.1 hx
        simp [hi]

/-- What an assignment gives: the mask that has been assigned. -/
def assigned (h : Heap) (n : Nat) : MaskValue → Option (List Bool)
  | .none => none
  | .scalar b => some (List.replicate n b)
  | .view v => if v.shape = [] then some (List.replicate n ((h.read v).headD false)) else some (h.read v)
  | .values s bs => if s = [] then some (List.replicate n (bs.headD false)) else some bs

/-- C62: after the assignment of a mask the Tod is aligned, its data are the same, and its mask is the assigned one (a scalar stands for all
the samples). -/
theorem C62_assign {h h' : Heap} {t u : Tod α} {mv : MaskValue} (ha : Aligned h t) (hv : mv.Valid h) (hs : setMask h t mv = .ok (h', u)) :
    Aligned h' u ∧ u.shape = t.shape ∧ u.data = t.data ∧ maskValues h' u = assigned h t.shape.prod mv := by
  match mv, hv, hs with
  | .none, _, hs =>
    simp only [setMask, Except.ok.injEq, Prod.mk.injEq] at hs
    obtain ⟨rfl, rfl⟩ := hs
    exact ⟨fun m hm => by simp at hm, rfl, rfl, rfl⟩
  | .scalar b, _, hs =>
    obtain ⟨h1, h2, h3, h4, -⟩ := setScalar_spec ha hs
    exact ⟨h1, h2, h3, h4⟩
  | .view v, hv, hs =>
    unfold setMask at hs
    dsimp only at hs
    split at hs
    · rename_i h0
      obtain ⟨h1, h2, h3, h4, -⟩ := setScalar_spec ha hs
      exact ⟨h1, h2, h3, by rw [h4, assigned, if_pos h0]⟩
    · rename_i h0
      unfold setArray at hs
      split at hs
      · cases hs
      · rename_i h1
        simp only [Except.ok.injEq, Prod.mk.injEq] at hs
        obtain ⟨rfl, rfl⟩ := hs
        refine ⟨?_, rfl, rfl, by simp [maskValues, assigned, h0]⟩
        intro m hm
        simp only [Option.some.injEq] at hm
        subst hm
        exact ⟨(not_not.1 h1).symm, hv⟩
  | .values s bs, hv, hs =>
    unfold setMask at hs
    dsimp only at hs
    have ha' : Aligned (h.newArray s bs).1 t := fun m hm => ⟨(ha m hm).1, (unchanged_new h s bs).valid (ha m hm).2⟩
    split at hs
    · rename_i h0
      obtain ⟨h1, h2, h3, h4, -⟩ := setScalar_spec ha' hs
      exact ⟨h1, h2, h3, by rw [h4, assigned, if_pos h0]⟩
    · rename_i h0
      unfold setArray at hs
      split at hs
      · cases hs
      · rename_i h1
        simp only [Except.ok.injEq, Prod.mk.injEq] at hs
        obtain ⟨rfl, rfl⟩ := hs
        refine ⟨?_, rfl, rfl, ?_⟩
        · intro m hm
          simp only [Option.some.injEq] at hm
          subst hm
          exact ⟨(not_not.1 h1).symm, valid_new _ _ _⟩
        · simp only [maskValues, Option.map_some, assigned, if_neg h0]
          rw [read_new _ _ _ hv]

theorem setMask_next {h h' : Heap} {t u : Tod α} {mv : MaskValue} (hs : setMask h t mv = .ok (h', u)) : h.next ≤ h'.next := by
  have key : ∀ {h h' : Heap} {b : Bool}, setScalar h t b = .ok (h', u) → h.next ≤ h'.next := by
    intro h h' b hs
    unfold setScalar at hs
    split at hs
    · simp only [Except.ok.injEq, Prod.mk.injEq] at hs
      rw [← hs.1]
      exact Nat.le_succ _
    · split at hs
      · cases hs
      · simp only [Except.ok.injEq, Prod.mk.injEq] at hs
        rw [← hs.1]
        exact le_refl _
  have key2 : ∀ {h h' : Heap} {v : View}, setArray h t v = .ok (h', u) → h.next ≤ h'.next := by
    intro h h' v hs
    unfold setArray at hs
    split at hs
    · cases hs
    · simp only [Except.ok.injEq, Prod.mk.injEq] at hs
      rw [← hs.1]
  match mv, hs with
  | .none, hs =>
    simp only [setMask, Except.ok.injEq, Prod.mk.injEq] at hs
    rw [← hs.1]
  | .scalar b, hs => exact key hs
  | .view v, hs =>
    unfold setMask at hs
    dsimp only at hs
    split at hs
    · exact key hs
    · exact key2 hs
  | .values s bs, hs =>
    unfold setMask at hs
    dsimp only at hs
    split at hs
    · exact (Nat.le_succ _).trans (key hs)
    · exact (Nat.le_succ _).trans (key2 hs)

/-- The operations on the Tods of a program. -/
inductive Step [Inhabited α] : Heap × List (Tod α) → Heap × List (Tod α) → Prop
  /-- A new Tod with a mask of its shape, or none. -/
  | new {h h' : Heap} {env : List (Tod α)} {shape : List Nat} {data : List α} {mv : MaskValue} {copy : Bool} {t : Tod α} (hv : mv.Valid h)
      (hmv : mv = .none ∨ (∃ v, mv = .view v ∧ v.shape = shape) ∨ ∃ bs, mv = .values shape bs)
      (hn : Data.new h shape data mv copy = (h', t)) : Step (h, env) (h', env ++ [t])
  /-- `Tod(t)`. -/
  | newFrom {h h' : Heap} {env : List (Tod α)} {t u : Tod α} {copy : Bool} (ht : t ∈ env) (hn : Data.newFrom h t copy = (h', u)) :
      Step (h, env) (h', env ++ [u])
  /-- `t[k]`. -/
  | getitem {h h' : Heap} {env : List (Tod α)} {t u : Tod α} {k : Key} (ht : t ∈ env) (hg : Data.getitem h t k = .ok (h', .inr u))
      (hne : u.shape ≠ []) : Step (h, env) (h', env ++ [u])
  /-- `t.reshape(...)` and `t.ravel()`. -/
  | reshape {h h' : Heap} {env : List (Tod α)} {t u : Tod α} {k : Key} (ht : t ∈ env) (hk : k.isArray = true)
      (hg : Data.reshape h t k = .ok (h', u)) (hne : u.shape ≠ []) : Step (h, env) (h', env ++ [u])
  /-- `t.copy()`, `t + 1`, etc: an operation that does not change the shape. -/
  | inherit {h : Heap} {env : List (Tod α)} {t : Tod α} {data : List α} (ht : t ∈ env) :
      Step (h, env) (h, env ++ [Data.inherit t t.shape data])
  /-- `t.mask = ...`. -/
  | assign {h h' : Heap} {env : List (Tod α)} {i : Nat} {t u : Tod α} {mv : MaskValue} (ht : env[i]? = some t) (hv : mv.Valid h)
      (hs : setMask h t mv = .ok (h', u)) : Step (h, env) (h', env.set i u)
  /-- `t[...]`. -/
  | ellipsis {h h' : Heap} {env : List (Tod α)} {i : Nat} {t u : Tod α} (ht : env[i]? = some t) (hs : getEllipsis h t = .ok (h', u)) :
      Step (h, env) (h', env.set i u)
  /-- `t.mask[...] = ...`, or any other change of the contents of the arrays. -/
  | write {h : Heap} {env : List (Tod α)} {cell : Nat → Nat → Bool} : Step (h, env) (⟨h.next, cell⟩, env)

/-- C62, partial: whatever the sequence of operations, each Tod has no mask or a mask of its shape.  Full statement: with the other
operations of numpy, with the masks that are given to the constructor, and with the items that have no dimension; it is false, see the theorems
`C62_violation_...`. -/
theorem C62_history_partial [Inhabited α] {s s' : Heap × List (Tod α)} (hr : Relation.ReflTransGen Step s s')
    (h0 : ∀ t ∈ s.2, Aligned s.1 t) : ∀ t ∈ s'.2, Aligned s'.1 t := by
  induction hr with
  | refl => exact h0
  | tail _ hstep ih =>
    clear h0
    have mono : ∀ {h h' : Heap} {t : Tod α}, h.next ≤ h'.next → Aligned h t → Aligned h' t :=
      fun hn ha m hm => ⟨(ha m hm).1, lt_of_lt_of_le (ha m hm).2.1 hn, (ha m hm).2.2⟩
    have happ : ∀ {h h' : Heap} {env : List (Tod α)} {u : Tod α}, (∀ t ∈ env, Aligned h t) → h.next ≤ h'.next → Aligned h' u →
        ∀ t ∈ env ++ [u], Aligned h' t := by
      intro h h' env u he hn hu t ht
      rcases List.mem_append.1 ht with ht | ht
      · exact mono hn (he t ht)
      · rw [List.mem_singleton.1 ht]
        exact hu
    have hset : ∀ {h h' : Heap} {env : List (Tod α)} {u : Tod α} {i : Nat}, (∀ t ∈ env, Aligned h t) → h.next ≤ h'.next → Aligned h' u →
        ∀ t ∈ env.set i u, Aligned h' t := by
      intro h h' env u i he hn hu t ht
      rcases List.mem_or_eq_of_mem_set ht with ht | rfl
      · exact mono hn (he t ht)
      · exact hu
    have hnew : ∀ {h h' : Heap} {shape : List Nat} {data : List α} {mv : MaskValue} {copy : Bool} {t : Tod α}, mv.Valid h →
        (mv = .none ∨ (∃ v, mv = .view v ∧ v.shape = shape) ∨ ∃ bs, mv = .values shape bs) → Data.new h shape data mv copy = (h', t) →
        h.next ≤ h'.next ∧ Aligned h' t := by
      intro h h' shape data mv copy t hv hmv hn
      rcases hmv with rfl | ⟨v, rfl, rfl⟩ | ⟨bs, rfl⟩
      · simp only [Data.new, Prod.mk.injEq] at hn
        obtain ⟨rfl, rfl⟩ := hn
        exact ⟨le_refl _, fun m hm => by simp at hm⟩
      · unfold Data.new at hn
        dsimp only at hn
        split at hn
        · simp only [Prod.mk.injEq] at hn
          obtain ⟨rfl, rfl⟩ := hn
          refine ⟨Nat.le_succ _, fun m hm => ?_⟩
          simp only [Option.some.injEq] at hm
          subst hm
          exact ⟨rfl, valid_new _ _ _⟩
        · simp only [Prod.mk.injEq] at hn
          obtain ⟨rfl, rfl⟩ := hn
          refine ⟨le_refl _, fun m hm => ?_⟩
          simp only [Option.some.injEq] at hm
          subst hm
          exact ⟨rfl, hv⟩
      · simp only [Data.new, Prod.mk.injEq] at hn
        obtain ⟨rfl, rfl⟩ := hn
        refine ⟨Nat.le_succ _, fun m hm => ?_⟩
        simp only [Option.some.injEq] at hm
        subst hm
        exact ⟨rfl, valid_new _ _ _⟩
    cases hstep with
    | new hv hmv hn =>
      obtain ⟨h1, h2⟩ := hnew hv hmv hn
      exact happ ih h1 h2
    | @newFrom h h' env t u copy ht hn =>
      unfold Data.newFrom at hn
      split at hn
      · rename_i hm
        simp only [Prod.mk.injEq] at hn
        obtain ⟨rfl, rfl⟩ := hn
        exact happ ih (le_refl _) (ih _ ht)
      · rename_i m hm
        obtain ⟨e1, e2⟩ := ih t ht m hm
        obtain ⟨h1, h2⟩ := hnew (mv := .view m) e2 (Or.inr (Or.inl ⟨m, rfl, e1⟩)) hn
        exact happ ih h1 h2
    | getitem ht hg hne =>
      obtain ⟨h1, h2, -⟩ := C62_getitem (ih _ ht) hg hne
      exact happ ih h2.1 h1
    | reshape ht hk hg hne =>
      obtain ⟨h1, h2, -⟩ := C62_reshape (ih _ ht) hk hg hne
      exact happ ih h2.1 h1
    | inherit ht => exact happ ih (le_refl _) (fun m hm => ih _ ht m hm)
    | assign ht hv hs => exact hset ih (setMask_next hs) (C62_assign (ih _ (List.mem_of_getElem? ht)) hv hs).1
    | @ellipsis h h' env i t u ht hs =>
      unfold getEllipsis at hs
      have hta := ih t (List.mem_of_getElem? ht)
      split at hs
      · simp only [Except.ok.injEq, Prod.mk.injEq] at hs
        obtain ⟨rfl, rfl⟩ := hs
        exact hset ih (le_refl _) hta
      · rename_i m hm
        exact hset ih (setMask_next hs) (C62_assign (mv := .view m) hta (hta m hm).2 hs).1
    | write => exact fun t ht => mono (le_refl _) (ih t ht)

/-- A heap with one mask of six samples. -/
def heap0 : Heap := ⟨1, fun _ i => i == 1 || i == 5⟩

/-- Two detectors and three samples. -/
def tod0 : Tod Nat := ⟨[2, 3], [10, 11, 12, 13, 14, 15], some ⟨0, [2, 3], [0, 1, 2, 3, 4, 5]⟩⟩

/-- Six samples. -/
def tod1 : Tod Nat := ⟨[6], [10, 11, 12, 13, 14, 15], some ⟨0, [6], [0, 1, 2, 3, 4, 5]⟩⟩

/-- `t[1:2].ravel()`. -/
example : Aligned heap0 tod0 ∧ ∃ h u h' w, getitem heap0 tod0 (Key.rows 1 2) = .ok (h, .inr u) ∧ u.shape = [1, 3] ∧
    u.data = [13, 14, 15] ∧ maskValues h u = some [false, false, true] ∧ reshape h u Key.ravel = .ok (h', w) ∧ w.shape = [3] ∧
    maskValues h' w = some [false, false, true] := by
  refine ⟨?_, _, _, _, _, rfl, rfl, rfl, rfl, rfl, rfl, rfl⟩
  intro m hm
  simp only [tod0, Option.some.injEq] at hm
  subst hm
  exact ⟨rfl, by unfold View.Valid; decide⟩

/-- C62 does not hold for the transpose, which has the mask of the array, nor for the other operations of numpy that change the shape. -/
theorem C62_violation_transpose : ∃ t : Tod Nat, Aligned heap0 t ∧ ¬ Aligned heap0 (inherit t [3, 2] [10, 13, 11, 14, 12, 15]) := by
  refine ⟨tod0, fun m hm => ?_, fun h => ?_⟩
  · simp only [tod0, Option.some.injEq] at hm
    subst hm
    exact ⟨rfl, by unfold View.Valid; decide⟩
  · exact absurd (h _ rfl).1 (by decide)

/-- C62 does not hold for a scalar mask, or a mask of another shape, given to the constructor. -/
theorem C62_violation_new (h : Heap) (shape : List Nat) (data : List α) (hs : shape ≠ []) :
    (∀ b copy, ¬ Aligned (new h shape data (.scalar b) copy).1 (new h shape data (.scalar b) copy).2) ∧
    ∀ s bs copy, s ≠ shape → ¬ Aligned (new h shape data (.values s bs) copy).1 (new h shape data (.values s bs) copy).2 := by
  constructor
  · intro b copy ha
    exact hs (ha _ rfl).1.symm
  · intro s bs copy hne ha
    exact hne (ha _ rfl).1

/-- C62 does not hold for an item without dimension that is an array (`t[..., 0]`): it has the mask of the whole array, whose samples are all
given the value of the item. -/
theorem C62_violation_item : Aligned heap0 tod1 ∧ ∃ h u, getitem heap0 tod1 Key.firstArray = .ok (h, .inr u) ∧ ¬ Aligned h u ∧
    maskValues heap0 tod1 = some [false, true, false, false, false, true] ∧
    maskValues h tod1 = some [false, false, false, false, false, false] := by
  refine ⟨?_, _, _, rfl, ?_, rfl, by decide⟩
  · intro m hm
    simp only [tod1, Option.some.injEq] at hm
    subst hm
    exact ⟨rfl, by unfold View.Valid; decide⟩
  · intro h
    exact absurd (h _ rfl).1 (by decide)

/-! ### C63 -/

/-- C63: the assignment of None, of a sequence or of an array with dimensions, or of a scalar if there is no mask, does not change any other mask. -/
theorem C63_assign {h h' : Heap} {t u : Tod α} {mv : MaskValue} (hs : setMask h t mv = .ok (h', u))
    (hmv : t.mask = none ∨ mv = .none ∨ (∃ v, mv = .view v ∧ v.shape ≠ []) ∨ ∃ s bs, mv = .values s bs ∧ s ≠ []) :
    Unchanged h h' ∧ ∀ w : Tod α, Aligned h w → maskValues h' w = maskValues h w := by
  have key : Unchanged h h' := by
    have hsc : ∀ {h h' : Heap} {b : Bool}, t.mask = none → setScalar h t b = .ok (h', u) → Unchanged h h' := by
      intro h h' b hm hs
      unfold setScalar at hs
      rw [hm] at hs
      simp only [Except.ok.injEq, Prod.mk.injEq] at hs
      rw [← hs.1]
      exact unchanged_new _ _ _
    have har : ∀ {h h' : Heap} {v : View}, setArray h t v = .ok (h', u) → Unchanged h h' := by
      intro h h' v hs
      unfold setArray at hs
      split at hs
      · cases hs
      · simp only [Except.ok.injEq, Prod.mk.injEq] at hs
        rw [← hs.1]
        exact Unchanged.refl _
    match mv, hs, hmv with
    | .none, hs, _ =>
      simp only [setMask, Except.ok.injEq, Prod.mk.injEq] at hs
      rw [← hs.1]
      exact Unchanged.refl _
    | .scalar b, hs, hmv =>
      have hm : t.mask = none := by simpa using hmv
      exact hsc hm hs
    | .view v, hs, hmv =>
      unfold setMask at hs
      dsimp only at hs
      split at hs
      · rename_i h0
        have hm : t.mask = none := by simpa [h0] using hmv
        exact hsc hm hs
      · exact har hs
    | .values s bs, hs, hmv =>
      unfold setMask at hs
      dsimp only at hs
      refine (unchanged_new h s bs).trans ?_
      split at hs
      · rename_i h0
        have hm : t.mask = none := by simpa [h0] using hmv
        exact hsc hm hs
      · exact har hs
  refine ⟨key, fun w hw => ?_⟩
  unfold maskValues
  cases hm : w.mask with
  | none => rfl
  | some m => rw [Option.map_some, Option.map_some, key.read (hw m hm).2]

/-- C63, partial: the assignment of a scalar to a Tod that has a mask writes in this mask, and changes exactly the samples of the other
masks that share its memory.  Full statement: no other mask changes; it is false, see `C63_violation_slice` and `C63_violation_copy`. -/
theorem C63_scalar_partial {h h' : Heap} {t u : Tod α} {b : Bool} {m : View} (hm : t.mask = some m) (hs : setMask h t (.scalar b) = .ok (h', u))
    (v : View) : h'.read v = v.offs.map fun i => if v.buf = m.buf ∧ i ∈ m.offs then b else h.cell v.buf i := by
  unfold setMask at hs
  unfold setScalar at hs
  rw [hm] at hs
  dsimp only at hs
  split at hs
  · cases hs
  · simp only [Except.ok.injEq, Prod.mk.injEq] at hs
    rw [← hs.1]
    rfl

/-- C63 does not hold for a slice of a Tod: masking it with `t[1:2].mask = True` masks the samples in `t`. -/
theorem C63_violation_slice : ∃ h u h' u', getitem heap0 tod0 (Key.rows 1 2) = .ok (h, .inr u) ∧ setMask h u (.scalar true) = .ok (h', u') ∧
    maskValues h tod0 = some [false, true, false, false, false, true] ∧ maskValues h' tod0 = some [false, true, false, true, true, true] :=
  ⟨_, _, _, _, rfl, rfl, rfl, by decide⟩

/-- C63 does not hold for a copy of a Tod by the method `copy`, or for the result of an operation: all of them have the same mask. -/
theorem C63_violation_copy (data : List Nat) : ∃ h u', setMask heap0 (inherit tod0 tod0.shape data) (.scalar true) = .ok (h, u') ∧
    maskValues heap0 tod0 = some [false, true, false, false, false, true] ∧ maskValues h tod0 = some [true, true, true, true, true, true] :=
  ⟨_, _, rfl, rfl, by decide⟩

/-- C63 holds for `Tod(t)`: whatever is assigned to the copy, the mask of `t` is the same. -/
theorem C63_new {h h1 h2 : Heap} {t u w : Tod α} {mv : MaskValue} (ha : Aligned h t) (hn : newFrom h t true = (h1, u))
    (hs : setMask h1 u mv = .ok (h2, w)) : maskValues h2 t = maskValues h t ∧ maskValues h1 u = maskValues h t := by
  unfold newFrom at hn
  cases hm : t.mask with
  | none =>
    rw [hm] at hn
    simp only [Prod.mk.injEq] at hn
    obtain ⟨rfl, rfl⟩ := hn
    exact ⟨(C63_assign hs (Or.inl hm)).2 t ha, rfl⟩
  | some m =>
    rw [hm] at hn
    simp only [new, if_true, Prod.mk.injEq] at hn
    obtain ⟨rfl, rfl⟩ := hn
    obtain ⟨e1, hv⟩ := ha m hm
    have hun := unchanged_new h m.shape (h.read m)
    have hread : (h.newArray m.shape (h.read m)).1.read (h.newArray m.shape (h.read m)).2 = h.read m :=
      read_new _ _ _ (by simp [Heap.read, hv.2])
    refine ⟨?_, by simp only [maskValues, Option.map_some, hread, hm]⟩
    have hat : Aligned (h.newArray m.shape (h.read m)).1 t := fun m' hm' => ⟨(ha m' hm').1, hun.valid (ha m' hm').2⟩
    have hb : maskValues (h.newArray m.shape (h.read m)).1 t = maskValues h t := by
      simp only [maskValues, hm, Option.map_some, hun.read hv]
    rw [← hb]
    have hfill : ∀ {h' h2 : Heap} {b : Bool}, Unchanged (h.newArray m.shape (h.read m)).1 h' →
        setScalar h' ⟨t.shape, t.data, some (h.newArray m.shape (h.read m)).2⟩ b = .ok (h2, w) →
        maskValues h2 t = maskValues (h.newArray m.shape (h.read m)).1 t := by
      intro h' h2 b hu hs
      unfold setScalar at hs
      dsimp only at hs
      split at hs
      · cases hs
      · simp only [Except.ok.injEq, Prod.mk.injEq] at hs
        rw [← hs.1]
        simp only [maskValues, hm, Option.map_some, Option.some.injEq]
        rw [← hu.read (hun.valid hv)]
        unfold Heap.read Heap.fill
        apply List.map_congr_left
        intro i _
        dsimp only
        rw [if_neg]
        rintro ⟨h1, -⟩
        have := hv.1
        simp only [Heap.newArray] at h1
        omega
    match mv, hs with
    | .none, hs => exact (C63_assign hs (Or.inr (Or.inl rfl))).2 t hat
    | .scalar b, hs => exact hfill (Unchanged.refl _) hs
    | .view v, hs =>
      by_cases h0 : v.shape = []
      · unfold setMask at hs
        dsimp only at hs
        rw [if_pos h0] at hs
        exact hfill (Unchanged.refl _) hs
      · exact (C63_assign hs (Or.inr (Or.inr (Or.inl ⟨v, rfl, h0⟩)))).2 t hat
    | .values s bs, hs =>
      by_cases h0 : s = []
      · unfold setMask at hs
        dsimp only at hs
        rw [if_pos h0] at hs
        exact hfill (unchanged_new _ _ _) hs
      · exact (C63_assign hs (Or.inr (Or.inr (Or.inr ⟨s, bs, rfl, h0⟩)))).2 t hat

example : ∃ h1 u h2 w, newFrom heap0 tod0 true = (h1, u) ∧ setMask h1 u (.scalar true) = .ok (h2, w) ∧
    maskValues h2 w = some [true, true, true, true, true, true] := ⟨_, _, _, _, rfl, rfl, by decide⟩

/-- What is assigned to the mask of `u` does not change the mask of an array that is in another buffer. -/
theorem other_buffer {h h2 : Heap} {t u w : Tod α} {mv : MaskValue} (ha : Aligned h t)
    (hd : ∀ m ∈ t.mask, ∀ m' ∈ u.mask, m.buf ≠ m'.buf) (hs : setMask h u mv = .ok (h2, w)) : maskValues h2 t = maskValues h t := by
  have hsc : ∀ {h' h2 : Heap} {b : Bool}, Unchanged h h' → setScalar h' u b = .ok (h2, w) → maskValues h2 t = maskValues h t := by
    intro h' h2 b hu hs
    cases hm : t.mask with
    | none => simp [maskValues, hm]
    | some m =>
      have hv := (ha m hm).2
      unfold setScalar at hs
      simp only [maskValues, hm, Option.map_some, Option.some.injEq]
      rw [← hu.read hv]
      split at hs
      · simp only [Except.ok.injEq, Prod.mk.injEq] at hs
        rw [← hs.1]
        exact (unchanged_new h' _ _).read (hu.valid hv)
      · rename_i m' hm'
        split at hs
        · cases hs
        · simp only [Except.ok.injEq, Prod.mk.injEq] at hs
          rw [← hs.1]
          unfold Heap.read Heap.fill
          apply List.map_congr_left
          intro i _
          dsimp only
          rw [if_neg]
          rintro ⟨h1, -⟩
          exact hd m hm m' hm' h1
  match mv, hs with
  | .none, hs => exact (C63_assign hs (Or.inr (Or.inl rfl))).2 t ha
  | .scalar b, hs => exact hsc (Unchanged.refl _) hs
  | .view v, hs =>
    by_cases h0 : v.shape = []
    · unfold setMask at hs
      dsimp only at hs
      rw [if_pos h0] at hs
      exact hsc (Unchanged.refl _) hs
    · exact (C63_assign hs (Or.inr (Or.inr (Or.inl ⟨v, rfl, h0⟩)))).2 t ha
  | .values s bs, hs =>
    by_cases h0 : s = []
    · unfold setMask at hs
      dsimp only at hs
      rw [if_pos h0] at hs
      exact hsc (unchanged_new _ _ _) hs
    · exact (C63_assign hs (Or.inr (Or.inr (Or.inr ⟨s, bs, rfl, h0⟩)))).2 t ha

/-- C63 holds for an item extracted by a selection that copies (integers, a boolean mask): whatever is assigned to the mask of the item, that of
the array is the same. -/
theorem C63_fancy [Inhabited α] {h h1 h2 : Heap} {t u w : Tod α} {k : Key} {mv : MaskValue} (ha : Aligned h t) (hc : k.copies = true)
    (hg : getitem h t k = .ok (h1, .inr u)) (hne : u.shape ≠ []) (hs : setMask h1 u mv = .ok (h2, w)) : maskValues h2 t = maskValues h t := by
  have hun : Unchanged h h1 := (C62_getitem ha hg hne).2.1
  have hat : Aligned h1 t := fun m hm => ⟨(ha m hm).1, hun.valid (ha m hm).2⟩
  have hb : maskValues h1 t = maskValues h t := by
    cases hm : t.mask with
    | none => simp [maskValues, hm]
    | some m => simp only [maskValues, hm, Option.map_some, hun.read (ha m hm).2]
  rw [← hb]
  refine other_buffer hat ?_ hs
  intro m hm m' hm' he
  have hv := (ha m hm).2.1
  unfold getitem at hg
  split at hg
  · cases hg
  · rename_i s ps hsel
    dsimp only at hg
    split at hg
    · cases hg
    · rename_i hk
      rw [Option.mem_def] at hm hm'
      rw [hm] at hg
      dsimp only at hg
      have hsel' : k.sel m.shape = .ok (s, ps) := by rw [(ha m hm).1, hsel]
      unfold index at hg
      rw [hsel'] at hg
      dsimp only at hg
      rw [if_neg hk, if_pos hc] at hg
      dsimp only at hg
      by_cases h0 : s = []
      · cases hset : setMask (h.newArray s (ps.map fun p => (h.read m).getD p false)).1 (inherit t s (ps.map fun p => t.data.getD p default))
          (.view (h.newArray s (ps.map fun p => (h.read m).getD p false)).2) with
        | error e => rw [hset] at hg; cases hg
        | ok r =>
          rw [hset] at hg
          simp only [Except.map, Except.ok.injEq, Prod.mk.injEq, Sum.inr.injEq] at hg
          obtain ⟨rfl, rfl⟩ := hg
          unfold setMask at hset
          dsimp only at hset
          rw [if_pos (by exact h0)] at hset
          unfold setScalar at hset
          simp only [inherit, hm] at hset
          split at hset
          · cases hset
          · simp only [Except.ok.injEq] at hset
            rw [← hset] at hne
            exact hne h0
      · unfold setMask at hg
        dsimp only at hg
        rw [if_neg (by exact h0)] at hg
        unfold setArray at hg
        rw [if_neg (by simp [inherit, Heap.newArray])] at hg
        simp only [Except.map, Except.ok.injEq, Prod.mk.injEq, Sum.inr.injEq] at hg
        obtain ⟨rfl, rfl⟩ := hg
        simp only [Option.some.injEq] at hm'
        rw [← hm'] at he
        simp only [Heap.newArray] at he
        omega

/-- `a[[1, 0]]` for an array with two rows or more. -/
def Key.swapRows : Key where
  sel s := match s with
    | (n + 2) :: s => .ok (2 :: s, (List.range s.prod).map (fun p => s.prod + p) ++ List.range s.prod)
    | _ => .error .indexError
  ok := by
    intro s t ps h
    match s with
    | [] => cases h
    | [0] => cases h
    | [1] => cases h
    | 0 :: _ :: _ => cases h
    | 1 :: _ :: _ => cases h
    | (n + 2) :: s =>
      simp only [Except.ok.injEq, Prod.mk.injEq] at h
      obtain ⟨rfl, rfl⟩ := h
      refine ⟨by simp; omega, ?_⟩
      intro p hp
      rw [List.prod_cons, Nat.add_mul]
      simp only [List.mem_append, List.mem_map, List.mem_range] at hp
      rcases hp with ⟨q, hq, rfl⟩ | hp <;> omega
  copies := true
  isArray := false

example : ∃ h u h2 w, getitem heap0 tod0 Key.swapRows = .ok (h, .inr u) ∧ maskValues h u = some [false, false, true, false, true, false] ∧
    setMask h u (.scalar true) = .ok (h2, w) ∧ maskValues h2 w = some [true, true, true, true, true, true] ∧
    maskValues h2 tod0 = some [false, true, false, false, false, true] := ⟨_, _, _, _, rfl, by decide, rfl, by decide, by decide⟩

end Verif.Data
