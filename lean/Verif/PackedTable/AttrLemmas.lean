import Verif.PackedTable.Attr

/-! Lemmas on the attributes of packed tables. -/
namespace Verif.PackedTable
open Verif.Py

theorem Obj.bind_same (o : Obj) (k : String) (v : AVal) : (o.bind k v).attrs k = some v := by
  simp [Obj.bind]

theorem Obj.bind_other (o : Obj) {k k' : String} (v : AVal) (h : k' ≠ k) :
    (o.bind k v).attrs k' = o.attrs k' := by
  simp [Obj.bind, h]

/-- Consistency of the attributes of a table: see C15. -/
def Consistent (o : Obj) : Prop :=
  ∀ k a, o.attrs k = some a → k ∈ o.special ∧ k ∉ reserved ∧
    ∀ v, a = .rows v → o.tab.len = .ok v.pos.length

theorem Consistent.bind {o : Obj} (h : Consistent o) {k : String} {a : AVal} (hk : k ∈ o.special)
    (hr : k ∉ reserved) (ha : ∀ v, a = .rows v → o.tab.len = .ok v.pos.length) :
    Consistent (o.bind k a) := by
  intro k' a' h'
  by_cases hkk : k' = k
  · subst hkk
    rw [Obj.bind_same] at h'
    injection h' with h'
    subst h'
    exact ⟨hk, hr, ha⟩
  · rw [Obj.bind_other _ _ hkk] at h'
    exact h k' a' h'

theorem alloc_pos_length {α} (h : Heap α) (l : List α) : (alloc h l).2.pos.length = l.length := by
  simp [alloc]

theorem setattr_consistent {α} {h h' : Heap α} {o o' : Obj} {key : String} {val : Val α}
    (hc : Consistent o) (hs : o.setattr h key val = .ok (h', o')) :
    Consistent o' ∧ o'.tab = o.tab ∧ o'.special = o.special := by
  unfold Obj.setattr at hs
  split at hs
  · cases hs
  · rename_i hr
    split at hs
    · injection hs with hs; injection hs with h1 h2; subst h2; exact ⟨hc, rfl, rfl⟩
    · rename_i hk
      have hk : key ∈ o.special := Classical.not_not.1 hk
      split at hs
      · injection hs with hs; injection hs with h1 h2; subst h2
        exact ⟨hc.bind hk hr (by intro v h; cases h), rfl, rfl⟩
      · injection hs with hs; injection hs with h1 h2; subst h2
        exact ⟨hc.bind hk hr (by intro v h; cases h), rfl, rfl⟩
      · obtain ⟨n, hn, hs⟩ := bind_eq_ok.1 hs
        split at hs
        · cases hs
        · rename_i hl
          injection hs with hs; injection hs with h1 h2; subst h2
          refine ⟨hc.bind hk hr ?_, rfl, rfl⟩
          intro v h
          injection h with h
          rw [hn, ← h, alloc_pos_length, Classical.not_not.1 hl]
      · split at hs
        · injection hs with hs; injection hs with h1 h2; subst h2; exact ⟨hc, rfl, rfl⟩
        · injection hs with hs; injection hs with h1 h2; subst h2; exact ⟨hc, rfl, rfl⟩
        · injection hs with hs; injection hs with h1 h2; subst h2
          exact ⟨hc.bind hk hr (by intro v h; cases h), rfl, rfl⟩

theorem packCopy_length {α} {t : Table} {x : PArg α} {lead : List Nat} {l : List α}
    (h : t.packCopy x = .ok (.array lead l)) : t.len = .ok l.length := by
  unfold Table.packCopy at h
  obtain ⟨r, _, h⟩ := bind_eq_ok.1 h
  split at h
  · obtain ⟨n, hn, h⟩ := bind_eq_ok.1 h
    split at h
    · rename_i hl
      injection h with h; injection h with h1 h2; subst h2
      rw [hn, hl]
    · split at h
      · injection h with h; injection h with h1 h2; subst h2
        rw [hn]; simp
      · cases h
  · injection h with h; subst h
    rename_i h
    exact absurd rfl (h _ _)

theorem setattrAll_consistent {α} {h h' : Heap α} {o o' : Obj} {key : String} {val : Option (PArg α)}
    (hc : Consistent o) (hs : o.setattrAll h key val = .ok (h', o')) :
    Consistent o' ∧ o'.tab = o.tab ∧ o'.special = o.special := by
  unfold Obj.setattrAll at hs
  split at hs
  · cases hs
  · rename_i hk
    have hk : key ∈ o.special := Classical.not_not.1 hk
    split at hs
    · cases hs
    · rename_i hr
      split at hs
      · cases hs
      · obtain ⟨r, hp, hs⟩ := map_eq_ok.1 hs
        cases r with
        | none =>
          injection hs with h1 h2; subst h2
          exact ⟨hc.bind hk hr (by intro v h; cases h), rfl, rfl⟩
        | scalar a =>
          injection hs with h1 h2; subst h2
          exact ⟨hc.bind hk hr (by intro v h; cases h), rfl, rfl⟩
        | array lead l =>
          injection hs with h1 h2; subst h2
          refine ⟨hc.bind hk hr ?_, rfl, rfl⟩
          intro v h
          injection h with h
          rw [packCopy_length hp, ← h, alloc_pos_length]

/-- What the loop on the attributes does. -/
theorem selectAttrs_spec {α} {src : Obj} {nsel : NSel} {ks : List String} {h h' : Heap α} {out out' : Obj}
    (hs : selectAttrs src nsel ks h out = .ok (h', out')) :
    out'.tab = out.tab ∧ out'.special = out.special ∧
    ∀ k, (∃ v, k ∈ ks ∧ k ∉ reserved ∧ src.attrs k = some (.rows v) ∧
            ∃ v', out'.attrs k = some (.rows v') ∧ out.tab.len = .ok v'.pos.length) ∨
         ((k ∈ ks → k ∉ reserved → ∀ v, src.attrs k ≠ some (.rows v)) ∧ out'.attrs k = out.attrs k) := by
  induction ks generalizing h out with
  | nil =>
    simp only [selectAttrs] at hs
    injection hs with hs; injection hs with h1 h2; subst h2
    exact ⟨rfl, rfl, fun k => Or.inr ⟨by intro h; simp at h, rfl⟩⟩
  | cons k0 ks ih =>
    simp only [selectAttrs] at hs
    split at hs
    · rename_i hr
      obtain ⟨h1, h2, h3⟩ := ih hs
      refine ⟨h1, h2, ?_⟩
      intro k
      rcases h3 k with ⟨v, a, b, c⟩ | ⟨a, b⟩
      · exact Or.inl ⟨v, by simp [a], b, c⟩
      · refine Or.inr ⟨?_, b⟩
        intro hk hkr
        rcases List.mem_cons.1 hk with rfl | hk
        · exact absurd hr hkr
        · exact a hk hkr
    · rename_i hr
      split at hs
      · rename_i v hv
        obtain ⟨⟨h1, v'⟩, hsel, hs⟩ := bind_eq_ok.1 hs
        obtain ⟨n, hn, hs⟩ := bind_eq_ok.1 hs
        split at hs
        · cases hs
        · rename_i hl
          have hl := Classical.not_not.1 hl
          obtain ⟨g1, g2, g3⟩ := ih hs
          refine ⟨g1, g2, ?_⟩
          intro k
          rcases g3 k with ⟨w, a, b, c⟩ | ⟨a, b⟩
          · exact Or.inl ⟨w, by simp [a], b, c⟩
          · by_cases hk : k = k0
            · subst hk
              rw [Obj.bind_same] at b
              exact Or.inl ⟨v, by simp, hr, hv, v', b, by rw [hl]; exact hn⟩
            · rw [Obj.bind_other _ _ hk] at b
              refine Or.inr ⟨?_, b⟩
              intro hk'
              rcases List.mem_cons.1 hk' with h | h
              · exact absurd h hk
              · exact a h
      · rename_i hv
        obtain ⟨h1, h2, h3⟩ := ih hs
        refine ⟨h1, h2, ?_⟩
        intro k
        rcases h3 k with ⟨v, a, b, c⟩ | ⟨a, b⟩
        · exact Or.inl ⟨v, by simp [a], b, c⟩
        · refine Or.inr ⟨?_, b⟩
          intro hk hkr
          rcases List.mem_cons.1 hk with rfl | hk
          · exact hv
          · exact a hk hkr

theorem getitem_consistent {α} {h h' : Heap α} {o o' : Obj} {sel : Sel}
    (hc : Consistent o) (hs : o.getitem h sel = .ok (h', o')) :
    Consistent o' ∧ o'.tab.shape = o.tab.shape ∧ o'.tab.ndim = o.tab.ndim ∧ o'.special = o.special := by
  unfold Obj.getitem at hs
  obtain ⟨n, hn, hs⟩ := bind_eq_ok.1 hs
  obtain ⟨nsel, hnsel, hs⟩ := bind_eq_ok.1 hs
  split at hs
  · injection hs with hs; injection hs with h1 h2; subst h2; exact ⟨hc, rfl, rfl, rfl⟩
  · obtain ⟨i, hi, hs⟩ := bind_eq_ok.1 hs
    obtain ⟨h1, h2, h3⟩ := selectAttrs_spec hs
    refine ⟨?_, by rw [h1], by rw [h1], h2⟩
    intro k a ha
    rcases h3 k with ⟨v, m1, m2, m3, v', m4, m5⟩ | ⟨m1, m2⟩
    · rw [ha] at m4; injection m4 with m4
      refine ⟨by rw [h2]; exact m1, m2, ?_⟩
      intro w hw
      rw [m4] at hw; injection hw with hw
      rw [h1, m5, hw]
    · rw [ha] at m2
      have hca := hc k a m2.symm
      refine ⟨by rw [h2]; exact hca.1, hca.2.1, ?_⟩
      intro w hw
      subst hw
      exact absurd m2.symm (m1 hca.1 hca.2.1 w)

theorem addAttrs_consistent {α} {kws : List (String × Option (PArg α))} {h h' : Heap α} {o o' : Obj}
    (hc : Consistent o) (hs : Obj.addAttrs kws h o = .ok (h', o')) : Consistent o' ∧ o'.tab = o.tab := by
  induction kws generalizing h o with
  | nil =>
    simp only [Obj.addAttrs] at hs
    injection hs with hs; injection hs with h1 h2; subst h2; exact ⟨hc, rfl⟩
  | cons kx kws ih =>
    obtain ⟨k, x⟩ := kx
    simp only [Obj.addAttrs] at hs
    obtain ⟨⟨h1, o1⟩, hset, hs⟩ := bind_eq_ok.1 hs
    have hc' : Consistent { o with special := o.special ++ [k] } := by
      intro k' a ha
      have := hc k' a ha
      exact ⟨by simp [this.1], this.2.1, this.2.2⟩
    have key : Consistent o1 ∧ o1.tab = o.tab := by
      cases x with
      | none =>
        have := setattr_consistent hc' hset
        exact ⟨this.1, this.2.1⟩
      | some x =>
        obtain ⟨y, _, hset⟩ := bind_eq_ok.1 hset
        cases y <;> (have := setattr_consistent hc' hset; exact ⟨this.1, this.2.1⟩)
    obtain ⟨g1, g2⟩ := ih key.1 hs
    exact ⟨g1, by rw [g2, key.2]⟩

theorem make_shape {shape : List Nat} {sel : Sel} {ordering : Option (List Nat × List Int)}
    {ndim : Option Int} {t : Table} (h : Table.make shape sel ordering ndim = .ok t) : t.shape = shape := by
  unfold Table.make at h
  split at h
  · obtain ⟨i, _, h⟩ := map_eq_ok.1 h; subst h; rfl
  · split at h
    · cases h
    · obtain ⟨i, _, h⟩ := map_eq_ok.1 h; subst h; rfl

/-! ### Reading attributes after a restriction -/

/-- The positions designated by a selection in a list of `n` items. -/
theorem takeIdx_natural {α} {l : List α} {is : List Int} {js : List Nat}
    (h : takeIdx (List.range l.length) is = .ok js) :
    (∀ j ∈ js, j < l.length) ∧ ∃ r, takeIdx l is = .ok r ∧ r.map some = js.map (l[·]?) := by
  have h1 := takeIdx_eq_ok.1 h
  rw [List.length_range] at h1
  have hval : ∀ i ∈ is, (wrapIndex l.length i).isSome := by
    intro i hi
    have hmem : (wrapIndex l.length i).bind (fun k => (List.range l.length)[k]?) ∈ js.map some := by
      rw [h1]; exact List.mem_map.2 ⟨i, hi, rfl⟩
    obtain ⟨j, _, hj⟩ := List.mem_map.1 hmem
    cases hw : wrapIndex l.length i with
    | none => rw [hw] at hj; cases hj
    | some k => rfl
  obtain ⟨r, hr⟩ := takeIdx_ok_of_valid (l := l) (is := is) (fun i hi => wrapIndex_isSome.1 (hval i hi))
  refine ⟨?_, r, hr, ?_⟩
  · intro j hj
    have : j ∈ List.range l.length := takeIdx_mem h j hj
    exact List.mem_range.1 this
  · rw [takeIdx_eq_ok.1 hr]
    have h3 : js.map (fun j => l[j]?) = (js.map some).map (fun o => o.bind (fun (j : Nat) => l[j]?)) := by
      rw [List.map_map]; rfl
    rw [h3, h1, List.map_map]
    apply List.map_congr_left
    intro i hi
    simp only [Function.comp]
    cases hw : wrapIndex l.length i with
    | none => rfl
    | some k =>
      have := wrapIndex_lt hw
      simp [List.getElem?_range this]

theorem takeSlice_natural {α} {l : List α} {s : PySlice} {js : List Nat}
    (h : takeSlice (List.range l.length) s = .ok js) :
    (∀ j ∈ js, j < l.length) ∧ ∃ r, takeSlice l s = .ok r ∧ r.map some = js.map (l[·]?) := by
  unfold takeSlice at h ⊢
  rw [List.length_range] at h
  obtain ⟨p, hp, h⟩ := bind_eq_ok.1 h
  rw [hp]
  exact takeIdx_natural h

theorem numpySelect_natural {α} {l : List α} {sel : Sel} {js : List Nat}
    (h : numpySelect (List.range l.length) sel = .ok js) :
    (∀ j ∈ js, j < l.length) ∧ ∃ r, numpySelect l sel = .ok r ∧ r.map some = js.map (l[·]?) := by
  have hall : ∀ js, (.ok (List.range l.length) : Res (List Nat)) = .ok js →
      (∀ j ∈ js, j < l.length) ∧ ∃ r, (.ok l : Res (List α)) = .ok r ∧ r.map some = js.map (l[·]?) := by
    intro js h
    injection h with h; subst h
    refine ⟨by simp, l, rfl, ?_⟩
    apply List.ext_getElem
    · simp
    · intro k h1 h2
      have : k < l.length := by simpa using h1
      simp [this]
  cases sel with
  | all => exact hall _ h
  | scalar i => exact takeIdx_natural h
  | ints is => exact takeIdx_natural h
  | slice s => exact takeSlice_natural h
  | bools sh flat =>
    simp only [numpySelect, List.length_range] at h ⊢
    split at h
    · rename_i hsh
      rw [if_pos hsh]
      have hfl : flat.length = l.length := by
        unfold takeMask at h
        split at h
        · rename_i h'; simpa using h'
        · cases h
      rw [takeMask_eq (by simpa using hfl)] at h
      rw [takeMask_eq hfl]
      exact takeIdx_natural h
    · cases h
  | tuple its =>
    match its, h with
    | [], h => exact hall _ h
    | [.slice s], h => exact takeSlice_natural h
    | [.int i], h => exact takeIdx_natural h
    | [.ellipsis], h => exact hall _ h
    | .slice _ :: _ :: _, h => cases h
    | .int _ :: _ :: _, h => cases h
    | .ellipsis :: _ :: _, h => cases h

end Verif.PackedTable
