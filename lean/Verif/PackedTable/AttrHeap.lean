import Verif.PackedTable.AttrLemmas

/-! Attributes of packed tables: reading after a restriction, sharing. -/
namespace Verif.PackedTable
open Verif.Py

/-- The array exists. -/
def View.Valid {α} (h : Heap α) (v : View) : Prop :=
  v.buf < h.length ∧ ∀ p ∈ v.pos, p < (h[v.buf]?.getD []).length

/-- The arrays of a table exist. -/
def HeapOk {α} (h : Heap α) (o : Obj) : Prop :=
  ∀ k v, (o.attrs k = some (.rows v) ∨ o.attrs k = some (.scalar v)) → v.Valid h

theorem getBuf_append {α} {h e : Heap α} {b : Nat} (hb : b < h.length) : (h ++ e)[b]? = h[b]? :=
  List.getElem?_append_left hb

theorem read_append {α} {h e : Heap α} {v : View} (hv : v.buf < h.length) : v.read (h ++ e) = v.read h := by
  simp only [View.read, getBuf_append hv]

theorem valid_append {α} {h e : Heap α} {v : View} (hv : v.Valid h) : v.Valid (h ++ e) :=
  ⟨by simp; have := hv.1; omega, by rw [getBuf_append hv.1]; exact hv.2⟩

/-- Selections that numpy applies to the attributes as expected: descending slices must
not reach the first component (the normalised stop would be negative). -/
def AttrOk (n : Nat) : Sel → Prop
  | .slice s => 0 < s.step.getD 1 ∨ ∀ r, sliceIndices s n = .ok r → ∀ i ∈ r, 0 ≤ i + s.step.getD 1
  | _ => True

theorem applyNSel_spec {α} {t : Table} {index : List Int} {l : List α} {sel : Sel} {nsel : NSel}
    (hn : normalizeSelection sel [l.length] = .ok nsel) (hs : Supported t l.length index sel)
    (ha : AttrOk l.length sel) : applyNSel l nsel = numpySelect l sel := by
  cases sel with
  | all => injection hn with hn; subst hn; rfl
  | scalar i => injection hn with hn; subst hn; rfl
  | ints is => injection hn with hn; subst hn; rfl
  | bools sh flat =>
    obtain ⟨h1, h2, _⟩ := hs
    simp only [normalizeSelection] at hn
    rw [if_neg (by simpa using h1)] at hn
    injection hn with hn; subst hn
    simp only [applyNSel, numpySelect]
    rw [if_pos h1]
  | tuple its => exact hs.elim
  | slice s =>
    obtain ⟨hc, hst, _⟩ := hs
    obtain ⟨q, h1, h2⟩ := normalizeSlice_spec hc hst
    simp only [normalizeSelection, List.prod_cons, List.prod_nil, Nat.mul_one] at hn
    rw [h1] at hn
    injection hn with hn; subst hn
    simp only [numpySelect]
    cases q with
    | all =>
      simp only [NSlice.toNSel, applyNSel]
      have : sliceIndices s l.length = .ok (progression 0 1 l.length) := h2
      unfold takeSlice
      rw [this]
      exact (takeIdx_range l).symm
    | slice a b c =>
      simp only [NSlice.toNSel, applyNSel]
      obtain ⟨hwf, hsi⟩ := h2.wf hc
      have hcc := h2.1
      have hb : 0 ≤ b ∨ l.length = 0 := by
        obtain ⟨h0, m, hb, hx, hm⟩ := hwf
        rcases Nat.eq_zero_or_pos m with hz | hz
        · subst hz
          by_cases haa : a < 0
          · exact Or.inr (hm rfl haa)
          · left; simp at hb; omega
        · left
          rcases ha with ha | ha
          · have := (hx a (mem_progression.2 ⟨0, hz, by simp⟩)).1
            have h3 : 0 ≤ (m : Int) * c := Int.mul_nonneg (by omega) (by omega)
            omega
          · have hmem : a + c * ((m - 1 : Nat) : Int) ∈ (Idx.slice a b c).comps l.length := by
              simp only [Idx.comps]
              rw [hb, pyRange_progression _ _ _ h0]
              exact mem_progression.2 ⟨m - 1, by omega, rfl⟩
            have := ha _ hsi _ hmem
            rw [← hcc] at this
            have h3 : c * ((m - 1 : Nat) : Int) + c = m * c := by
              rw [show ((m : Nat) : Int) = ((m - 1 : Nat) : Int) + 1 by omega, Int.add_mul, Int.mul_comm]
              omega
            omega
      rw [takeSlice_normalized hwf hb]
      unfold takeSlice
      rw [hsi]; rfl

theorem filterMap_all {α β} {f : α → Option β} {l : List α} (h : ∀ a ∈ l, (f a).isSome) :
    (l.filterMap f).map some = l.map f := by
  induction l with
  | nil => rfl
  | cons a l ih =>
    have ha := h a (by simp)
    obtain ⟨b, hb⟩ := Option.isSome_iff_exists.1 ha
    rw [List.filterMap_cons, hb]
    simp only [List.map_cons]
    rw [ih (fun x hx => h x (by simp [hx])), hb]

/-- Selecting in an existing array. -/
theorem select_ok {α} {h : Heap α} {v : View} (hv : v.Valid h) {nsel : NSel} {pos : List Nat}
    (ha : applyNSel v.pos nsel = .ok pos) (hp : ∀ p ∈ pos, p ∈ v.pos) :
    ∃ e v', v.select h nsel = .ok (h ++ e, v') ∧ v'.pos.length = pos.length ∧ v'.Valid (h ++ e) ∧
      v'.read (h ++ e) = pos.map (fun p => (h[v.buf]?.getD [])[p]?) := by
  unfold View.select
  rw [ha]
  simp only [Except.map]
  cases hview : nsel.isView with
  | true =>
    refine ⟨[], ⟨v.buf, pos⟩, by simp, rfl, ?_, ?_⟩
    · rw [List.append_nil]; exact ⟨hv.1, fun p h => hv.2 p (hp p h)⟩
    · simp [View.read]
  | false =>
    have hsome : ∀ p ∈ pos, ((h[v.buf]?.getD [])[p]?).isSome := by
      intro p h
      rw [List.getElem?_eq_getElem (hv.2 p (hp p h))]; rfl
    have hfm := filterMap_all hsome
    have hlen := congrArg List.length hfm
    simp only [List.length_map] at hlen
    refine ⟨[pos.filterMap fun p => (h[v.buf]?.getD [])[p]?], ⟨h.length, List.range pos.length⟩, by simp, by simp, ?_, ?_⟩
    · refine ⟨by simp, ?_⟩
      intro p hp'
      simp only [List.getElem?_concat_length, Option.getD_some]
      rw [hlen]
      exact List.mem_range.1 hp'
    · simp only [View.read, List.getElem?_concat_length, Option.getD_some]
      rw [← hfm]
      apply List.ext_getElem
      · simp [hlen]
      · intro k h1 h2
        have hk : k < (pos.filterMap fun p => (h[v.buf]?.getD [])[p]?).length := by simpa using h2
        simp [hk]

/-- The loop on the attributes succeeds and selects the rows `js` of each of them. -/
theorem selectAttrs_ok {α} {src : Obj} {nsel : NSel} {n : Nat} {js : List Nat}
    (hsel : ∀ l : List Nat, l.length = n → ∃ r, applyNSel l nsel = .ok r ∧ r.map some = js.map (l[·]?))
    {h0 : Heap α} (hval : HeapOk h0 src) (hlen : ∀ k v, src.attrs k = some (.rows v) → v.pos.length = n)
    (ks : List String) (e : Heap α) (out : Obj) (hout : out.tab.len = .ok js.length) :
    ∃ e' out', selectAttrs src nsel ks (h0 ++ e) out = .ok (h0 ++ e ++ e', out') ∧ out'.tab = out.tab ∧
      out'.special = out.special ∧
      (∀ k v, k ∈ ks → k ∉ reserved → src.attrs k = some (.rows v) →
        ∃ v', out'.attrs k = some (.rows v') ∧ v'.Valid (h0 ++ e ++ e') ∧
          v'.read (h0 ++ e ++ e') = js.map (fun j => ((v.read h0)[j]?).join)) ∧
      (∀ k, (k ∈ ks → k ∉ reserved → ∀ v, src.attrs k ≠ some (.rows v)) → out'.attrs k = out.attrs k) := by
  induction ks generalizing e out with
  | nil =>
    exact ⟨[], out, by simp [selectAttrs], rfl, rfl, by intro k v hk; simp at hk, by intro k _; rfl⟩
  | cons k0 ks ih =>
    simp only [selectAttrs]
    by_cases hr : k0 ∈ reserved
    · rw [if_pos hr]
      obtain ⟨e', out', h1, h2, h3, h4, h5⟩ := ih e out hout
      refine ⟨e', out', h1, h2, h3, ?_, ?_⟩
      · intro k v hk hkr hv
        rcases List.mem_cons.1 hk with rfl | hk
        · exact absurd hr hkr
        · exact h4 k v hk hkr hv
      · intro k hk
        exact h5 k (fun hk' => hk (by simp [hk']))
    · rw [if_neg hr]
      split
      · rename_i v hv
        have hvv := hval k0 v (Or.inl hv)
        obtain ⟨pos, hpos, hpmap⟩ := hsel v.pos (hlen k0 v hv)
        have hpm : ∀ p ∈ pos, p ∈ v.pos := by
          intro p hp
          have : some p ∈ js.map (v.pos[·]?) := by rw [← hpmap]; exact List.mem_map.2 ⟨p, hp, rfl⟩
          obtain ⟨j, _, hj⟩ := List.mem_map.1 this
          exact List.mem_of_getElem? hj
        have hvv' := valid_append (e := e) hvv
        obtain ⟨e1, v', g1, g2, g3, g4⟩ := select_ok hvv' hpos hpm
        rw [g1]
        simp only [Except.bind]
        rw [hout]
        simp only
        have hpl : pos.length = js.length := by
          have := congrArg List.length hpmap; simpa using this
        rw [if_neg (by rw [g2, hpl]; simp)]
        rw [List.append_assoc h0 e e1]
        obtain ⟨e', out', h1, h2, h3, h4, h5⟩ := ih (e ++ e1) (out.bind k0 (.rows v')) hout
        refine ⟨e1 ++ e', out', ?_, h2, h3, ?_, ?_⟩
        · rw [h1]; simp [List.append_assoc]
        · intro k w hk hkr hw
          have e2 : h0 ++ e ++ (e1 ++ e') = h0 ++ (e ++ e1) ++ e' := by simp [List.append_assoc]
          rw [e2]
          by_cases hks : k ∈ ks
          · exact h4 k w hks hkr hw
          · have hkk : k = k0 := by
              rcases List.mem_cons.1 hk with h | h
              · exact h
              · exact absurd h hks
            subst hkk
            rw [hv] at hw; injection hw with hw; injection hw with hw; subst hw
            have := h5 k (fun h => absurd h hks)
            rw [Obj.bind_same] at this
            rw [List.append_assoc] at g3 g4
            refine ⟨v', this, valid_append g3, ?_⟩
            rw [read_append g3.1, g4, getBuf_append hvv.1]
            have : pos.map (fun p => (h0[v.buf]?.getD [])[p]?)
                = (pos.map some).map (fun o => o.bind (fun (p : Nat) => (h0[v.buf]?.getD [])[p]?)) := by
              rw [List.map_map]; rfl
            rw [this, hpmap, List.map_map]
            apply List.map_congr_left
            intro j hj
            simp only [Function.comp, View.read, List.getElem?_map]
            cases hvp : v.pos[j]? <;> simp [Option.join]
        · intro k hk
          have hkk : k ≠ k0 := by
            intro h; subst h
            exact hk (by simp) hr v hv
          rw [h5 k (fun hk' => hk (by simp [hk'])), Obj.bind_other _ _ hkk]
      · rename_i hv
        obtain ⟨e', out', h1, h2, h3, h4, h5⟩ := ih e out hout
        refine ⟨e', out', h1, h2, h3, ?_, ?_⟩
        · intro k v hk hkr hv'
          rcases List.mem_cons.1 hk with rfl | hk
          · exact absurd hv' (hv v)
          · exact h4 k v hk hkr hv'
        · intro k hk
          exact h5 k (fun hk' => hk (by simp [hk']))

/-! ### sharing -/

/-- The buffers are kept by a restriction, and arrays selected by integers or booleans are new. -/
theorem selectAttrs_heap {α} {src : Obj} {nsel : NSel} {ks : List String} {h0 h' : Heap α} {e : Heap α} {out out' : Obj}
    (hs : selectAttrs src nsel ks (h0 ++ e) out = .ok (h', out')) :
    (∃ e', h' = h0 ++ e') ∧
    ∀ k v', out'.attrs k = some (.rows v') →
      (out.attrs k = some (.rows v') ∧ (k ∈ ks → k ∉ reserved → ∀ v, src.attrs k ≠ some (.rows v))) ∨
      (nsel.isView = false → h0.length ≤ v'.buf) := by
  induction ks generalizing e out with
  | nil =>
    simp only [selectAttrs] at hs
    injection hs with hs; injection hs with h1 h2; subst h1; subst h2
    exact ⟨⟨e, rfl⟩, fun k v' h => Or.inl ⟨h, by intro h; simp at h⟩⟩
  | cons k0 ks ih =>
    simp only [selectAttrs] at hs
    split at hs
    · rename_i hr
      obtain ⟨h1, h2⟩ := ih hs
      refine ⟨h1, ?_⟩
      intro k v' hk
      rcases h2 k v' hk with ⟨a, b⟩ | b
      · refine Or.inl ⟨a, ?_⟩
        intro hm hkr
        rcases List.mem_cons.1 hm with rfl | hm
        · exact absurd hr hkr
        · exact b hm hkr
      · exact Or.inr b
    · split at hs
      · rename_i v hv
        obtain ⟨⟨h1, w⟩, hsel, hs⟩ := bind_eq_ok.1 hs
        obtain ⟨n, hn, hs⟩ := bind_eq_ok.1 hs
        split at hs
        · cases hs
        · unfold View.select at hsel
          obtain ⟨pos, hpos, hsel⟩ := map_eq_ok.1 hsel
          have key : (∃ e1, h1 = h0 ++ e1) ∧ (nsel.isView = false → h0.length ≤ w.buf) := by
            split at hsel
            · rename_i hview
              injection hsel with a b
              exact ⟨⟨e, a.symm⟩, fun h => by rw [h] at hview; cases hview⟩
            · injection hsel with a b
              refine ⟨⟨_, by rw [← a, List.append_assoc]⟩, fun _ => ?_⟩
              rw [← b]; simp
          obtain ⟨⟨e1, he1⟩, hw⟩ := key
          subst he1
          obtain ⟨g1, g2⟩ := ih hs
          refine ⟨g1, ?_⟩
          intro k v' hk
          rcases g2 k v' hk with ⟨a, b⟩ | b
          · by_cases hkk : k = k0
            · subst hkk
              rw [Obj.bind_same] at a
              injection a with a; injection a with a; subst a
              exact Or.inr hw
            · rw [Obj.bind_other _ _ hkk] at a
              refine Or.inl ⟨a, ?_⟩
              intro hm
              rcases List.mem_cons.1 hm with h | hm
              · exact absurd h hkk
              · exact b hm
          · exact Or.inr b
      · rename_i hv
        obtain ⟨h1, h2⟩ := ih hs
        refine ⟨h1, ?_⟩
        intro k v' hk
        rcases h2 k v' hk with ⟨a, b⟩ | b
        · refine Or.inl ⟨a, ?_⟩
          intro hm hkr
          rcases List.mem_cons.1 hm with rfl | hm
          · exact hv
          · exact b hm hkr
        · exact Or.inr b

theorem fill_other {α} {h : Heap α} {v w : View} {a : α} (hne : v.buf ≠ w.buf) :
    v.read (w.fill h a) = v.read h := by
  simp only [View.read, View.fill]
  rw [List.getElem?_set_ne (Ne.symm hne)]

end Verif.PackedTable
