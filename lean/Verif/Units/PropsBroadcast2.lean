import Verif.Units.PropsBroadcast

/-!
C117: indexing of quantities with broadcastable derived units.
-/
namespace Verif.Units
open Verif.Py

variable {K : Type}

/-! ### Specification -/

/-- The slices select positions of the dimension. -/
def ValidKey (key : List KElem) : Prop := ∀ f, KElem.slice f ∈ key → ∀ n, ∀ p ∈ f n, p < n

/-- The items of a key, one per dimension, that select the elements of a derived unit of `k` dimensions. -/
def partOf (side : Side) (k : Nat) (ks : List KElem) : List KElem :=
  match side with
  | .left => ks.drop (ks.length - k)
  | .right => ks.take k

/-- The derived units have not been used in a conversion, and they do not become scalars. -/
def Selectable (ks : List KElem) (D : List (BEntry K)) : Prop :=
  ∀ e ∈ D, ∀ side v u l, e.bracket = some side → e.val = .quantity v u l → l = false ∧ ∃ f, KElem.slice f ∈ partOf side v.shape.length ks

/-! ### Selections -/

/-- A selection of existing positions. -/
def AxisOk (d : Nat) : Axis → Prop
  | .at p => p < d
  | .sel ps => ∀ p ∈ ps, p < d

theorem position_lt {d : Nat} {i : Int} {p : Nat} (h : position d i = .ok p) : p < d := by
  unfold position at h
  split at h
  · simp only [Except.ok.injEq] at h
    omega
  · split at h
    · simp only [Except.ok.injEq] at h
      omega
    · cases h

theorem resolve_ok {d : Nat} {k : KElem} {a : Axis} (hk : ∀ f, k = .slice f → ∀ n, ∀ p ∈ f n, p < n) (h : resolve d k = .ok a) : AxisOk d a := by
  cases k with
  | int i =>
    obtain ⟨p, hp, rfl⟩ := map_eq_ok.1 h
    exact position_lt hp
  | slice f =>
    simp only [resolve, Except.ok.injEq] at h
    subst h
    exact hk f rfl d
  | ellipsis => cases h

theorem axesOf_cons {d : Nat} {s : List Nat} {k : KElem} {ks : List KElem} {A : List Axis} :
    axesOf (d :: s) (k :: ks) = .ok A ↔ ∃ a as, resolve d k = .ok a ∧ axesOf s ks = .ok as ∧ A = a :: as := by
  constructor
  · intro h
    unfold axesOf at h
    obtain ⟨a, ha, h⟩ := bind_eq_ok.1 h
    obtain ⟨as, has, rfl⟩ := map_eq_ok.1 h
    exact ⟨a, as, ha, has, rfl⟩
  · rintro ⟨a, as, h1, h2, rfl⟩
    unfold axesOf
    rw [h1, h2]
    rfl

theorem axesOf_ok : ∀ {s : List Nat} {ks : List KElem} {A : List Axis}, ValidKey ks → axesOf s ks = .ok A →
    List.Forall₂ AxisOk s A ∧ ks.length = s.length
  | [], [], A, _, h => by
    simp only [axesOf, Except.ok.injEq] at h
    subst h
    exact ⟨.nil, rfl⟩
  | d :: s, k :: ks, A, hk, h => by
    obtain ⟨a, as, h1, h2, rfl⟩ := axesOf_cons.1 h
    obtain ⟨e1, e2⟩ := axesOf_ok (fun f hf => hk f (List.mem_cons_of_mem _ hf)) h2
    exact ⟨.cons (resolve_ok (fun f hf => hk f (by rw [hf]; exact List.mem_cons_self)) h1) e1, by simp [e2]⟩
  | [], _ :: _, A, _, h => by simp [axesOf] at h
  | _ :: _, [], A, _, h => by simp [axesOf] at h

theorem axesOf_drop : ∀ {s : List Nat} {ks : List KElem} {A : List Axis} (m : Nat), axesOf s ks = .ok A →
    axesOf (s.drop m) (ks.drop m) = .ok (A.drop m)
  | s, ks, A, 0, h => h
  | [], [], A, m + 1, h => by
    simp only [axesOf, Except.ok.injEq] at h
    subst h
    rfl
  | d :: s, k :: ks, A, m + 1, h => by
    obtain ⟨a, as, h1, h2, rfl⟩ := axesOf_cons.1 h
    exact axesOf_drop m h2
  | [], _ :: _, A, _ + 1, h => by simp [axesOf] at h
  | _ :: _, [], A, _ + 1, h => by simp [axesOf] at h

theorem axesOf_take : ∀ {s : List Nat} {ks : List KElem} {A : List Axis} (m : Nat), axesOf s ks = .ok A →
    axesOf (s.take m) (ks.take m) = .ok (A.take m)
  | s, ks, A, 0, h => rfl
  | [], [], A, m + 1, h => by
    simp only [axesOf, Except.ok.injEq] at h
    subst h
    rfl
  | d :: s, k :: ks, A, m + 1, h => by
    obtain ⟨a, as, h1, h2, rfl⟩ := axesOf_cons.1 h
    exact axesOf_cons.2 ⟨a, _, h1, axesOf_take m h2, rfl⟩
  | [], _ :: _, A, _ + 1, h => by simp [axesOf] at h
  | _ :: _, [], A, _ + 1, h => by simp [axesOf] at h

theorem axesOf_no_ellipsis : ∀ {s : List Nat} {ks : List KElem} {A : List Axis}, axesOf s ks = .ok A → splitEllipsis ks = none
  | [], [], A, _ => rfl
  | d :: s, k :: ks, A, h => by
    obtain ⟨a, as, h1, h2, rfl⟩ := axesOf_cons.1 h
    have := axesOf_no_ellipsis h2
    cases k with
    | ellipsis => cases h1
    | int i => simp [splitEllipsis, this]
    | slice f => simp [splitEllipsis, this]
  | [], _ :: _, A, h => by simp [axesOf] at h
  | _ :: _, [], A, h => by simp [axesOf] at h

theorem axesOf_slice : ∀ {s : List Nat} {ks : List KElem} {A : List Axis}, axesOf s ks = .ok A → (∃ f, KElem.slice f ∈ ks) → outShape A ≠ []
  | [], [], A, _, h => by simp at h
  | d :: s, k :: ks, A, h, hf => by
    obtain ⟨a, as, h1, h2, rfl⟩ := axesOf_cons.1 h
    cases k with
    | ellipsis => cases h1
    | int i =>
      obtain ⟨p, hp, rfl⟩ := map_eq_ok.1 h1
      obtain ⟨f, hf⟩ := hf
      simp only [List.mem_cons, reduceCtorEq, false_or] at hf
      have := axesOf_slice h2 ⟨f, hf⟩
      simpa [outShape] using this
    | slice f =>
      simp only [resolve, Except.ok.injEq] at h1
      subst h1
      simp [outShape]
  | [], _ :: _, A, h, _ => by simp [axesOf] at h
  | _ :: _, [], A, h, _ => by simp [axesOf] at h

theorem outShape_append : ∀ A B : List Axis, outShape (A ++ B) = outShape A ++ outShape B
  | [], B => rfl
  | .at p :: A, B => outShape_append A B
  | .sel ps :: A, B => by simp [outShape, outShape_append A B]

theorem merge_append : ∀ (A B : List Axis) (i j : List Nat), i.length = (outShape A).length →
    mergeAxes (A ++ B) (i ++ j) = mergeAxes A i ++ mergeAxes B j
  | [], B, i, j, h => by
    have : i = [] := List.length_eq_zero_iff.1 (by simpa [outShape] using h)
    subst this
    simp [mergeAxes]
  | .at p :: A, B, i, j, h => by
    rw [List.cons_append]
    simp only [mergeAxes, List.cons_append]
    rw [merge_append A B i j h]
  | .sel ps :: A, B, [], j, h => by simp [outShape] at h
  | .sel ps :: A, B, x :: i, j, h => by
    rw [List.cons_append, List.cons_append]
    simp only [mergeAxes, List.cons_append]
    rw [merge_append A B i j (by simpa [outShape] using h)]

theorem merge_length : ∀ (A : List Axis) (i : List Nat), i.length = (outShape A).length → (mergeAxes A i).length = A.length
  | [], i, h => by simp [mergeAxes]
  | .at p :: A, i, h => by simp [mergeAxes, merge_length A i h]
  | .sel ps :: A, [], h => by simp [outShape] at h
  | .sel ps :: A, x :: i, h => by simp [mergeAxes, merge_length A i (by simpa [outShape] using h)]

theorem merge_inside : ∀ {s : List Nat} {A : List Axis} {j : List Nat}, List.Forall₂ AxisOk s A → Inside (outShape A) j → Inside s (mergeAxes A j)
  | [], [], j, _, _ => .nil
  | d :: s, .at p :: A, j, h, hj => by
    cases h with
    | cons h1 h2 => exact .cons h1 (merge_inside h2 hj)
  | d :: s, .sel ps :: A, j, h, hj => by
    cases h with
    | cons h1 h2 =>
      cases hj with
      | cons k1 k2 =>
        refine .cons ?_ (merge_inside h2 k2)
        rename_i x j
        simp only [List.getD_eq_getElem?_getD, List.getElem?_eq_getElem k1, Option.getD_some]
        exact h1 _ (List.getElem_mem _)
  | [], _ :: _, j, h, _ => by cases h
  | _ :: _, [], j, h, _ => by cases h

/-! ### Keys -/

theorem splitEllipsis_some : ∀ {key a b : List KElem}, splitEllipsis key = some (a, b) → key = a ++ .ellipsis :: b
  | [], a, b, h => by simp [splitEllipsis] at h
  | .ellipsis :: ks, a, b, h => by
    simp only [splitEllipsis, Option.some.injEq, Prod.mk.injEq] at h
    obtain ⟨rfl, rfl⟩ := h
    rfl
  | .int i :: ks, a, b, h => by
    simp only [splitEllipsis, Option.map_eq_some_iff, Prod.mk.injEq, Prod.exists] at h
    obtain ⟨a', b', h1, rfl, rfl⟩ := h
    rw [splitEllipsis_some h1]
    rfl
  | .slice i :: ks, a, b, h => by
    simp only [splitEllipsis, Option.map_eq_some_iff, Prod.mk.injEq, Prod.exists] at h
    obtain ⟨a', b', h1, rfl, rfl⟩ := h
    rw [splitEllipsis_some h1]
    rfl

theorem codeKey_eq {n : Nat} {key ks : List KElem} (hg : ∀ a b, key = a ++ .ellipsis :: b → b = [] ∨ key.length = n + 1)
    (h : npExpand n key = .ok ks) : codeKey n key = ks := by
  unfold npExpand at h
  unfold codeKey
  split at h
  · rename_i hs
    rw [hs]
    split at h
    · simp only [Except.ok.injEq] at h
      exact h
    · cases h
  · rename_i a b hs
    have hk := splitEllipsis_some hs
    rw [hs]
    split at h
    · cases h
    · split at h
      · rename_i hl
        simp only [Except.ok.injEq] at h
        subst h
        dsimp only
        have hlen : key.length = a.length + (b.length + 1) := by rw [hk]; simp
        rcases hg a b hk with rfl | hn
        · simp only [List.append_nil, List.length_nil, Nat.add_zero, List.length_append, List.length_replicate, List.append_assoc,
            List.replicate_append_replicate] at hl hlen ⊢
          congr 2
          omega
        · have e1 : n - key.length = 0 := by omega
          have e2 : n - (a.length + b.length) = 0 := by omega
          rw [e1, e2]
          simp only [List.replicate_zero, List.append_nil, List.length_append]
          rw [e2]
          simp
      · cases h

theorem npExpand_full {n : Nat} {ks : List KElem} (h : splitEllipsis ks = none) (hn : ks.length = n) : npExpand n ks = .ok ks := by
  unfold npExpand
  rw [h]
  dsimp only
  rw [if_pos (by omega), hn, Nat.sub_self, List.replicate_zero, List.append_nil]

theorem validKey_expand {n : Nat} {key ks : List KElem} (hv : ValidKey key) (h : npExpand n key = .ok ks) : ValidKey ks := by
  have hall : ∀ n, ∀ p ∈ List.range n, p < n := fun n p hp => List.mem_range.1 hp
  unfold npExpand at h
  split at h
  · split at h
    · simp only [Except.ok.injEq] at h
      subst h
      intro f hf
      rcases List.mem_append.1 hf with hf | hf
      · exact hv f hf
      · have := (List.mem_replicate.1 hf).2
        simp only [KElem.all, KElem.slice.injEq] at this
        subst this
        exact hall
    · cases h
  · rename_i a b hs
    have hk := splitEllipsis_some hs
    split at h
    · cases h
    · split at h
      · simp only [Except.ok.injEq] at h
        subst h
        intro f hf
        simp only [List.mem_append] at hf
        rcases hf with (hf | hf) | hf
        · exact hv f (by rw [hk]; simp [hf])
        · have := (List.mem_replicate.1 hf).2
          simp only [KElem.all, KElem.slice.injEq] at this
          subst this
          exact hall
        · exact hv f (by rw [hk]; simp [hf])
      · cases h

/-! ### Derived units of an item -/

/-- The relation between a derived unit and the one of the item. -/
structure ItemOf (A : List Axis) (e e' : BEntry K) : Prop where
  name : e'.name = e.name
  bracket : e'.bracket = e.bracket
  value : ∃ v w u l l', e.val = .quantity v u l ∧ e'.val = .quantity w u l' ∧ FitsShape (outShape A) e.bracket w.shape ∧
    (l = false → l' = false) ∧
    ∀ j, Inside (outShape A) j → elementFor (e.bracket.getD .left) w j = elementFor (e.bracket.getD .left) v (mergeAxes A j)

theorem itemEntry_spec {s : List Nat} {ks : List KElem} {A : List Axis} (hk : ValidKey ks) (hA : axesOf s ks = .ok A) {e : BEntry K} {v : NArr K} {u : UnitD} {l : Bool}
    (he : e.val = .quantity v u l) (hf : FitsShape s e.bracket v.shape)
    (hs : ∀ side, e.bracket = some side → l = false ∧ ∃ f, KElem.slice f ∈ partOf side v.shape.length ks) :
    ∃ e', itemEntry ks e = .ok e' ∧ ItemOf A e e' := by
  obtain ⟨hax, hlen⟩ := axesOf_ok hk hA
  have hAl : A.length = s.length := hax.length_eq.symm
  obtain ⟨name, b, val⟩ := e
  dsimp only at he hf hs
  subst he
  cases b with
  | none =>
    refine ⟨_, rfl, rfl, rfl, v, v, u, l, l, rfl, rfl, hf, id, fun j _ => ?_⟩
    have h0 : v.shape = [] := hf
    simp [elementFor, h0]
  | some side =>
    obtain ⟨rfl, hsl⟩ := hs side rfl
    have common : ∀ {B : List Axis}, axesOf v.shape (partOf side v.shape.length ks) = .ok B → partKey side v.shape.length ks = partOf side v.shape.length ks →
        itemEntry ks ⟨name, some side, .quantity v u false⟩ = .ok ⟨name, some side, .quantity ⟨outShape B, fun j => v.get (mergeAxes B j)⟩ u false⟩ := by
      intro B hB hp
      have hl : (partOf side v.shape.length ks).length = v.shape.length := by
        refine (axesOf_ok (fun f hf => hk f ?_) hB).2
        cases side with
        | left => exact List.mem_of_mem_drop hf
        | right => exact List.mem_of_mem_take hf
      unfold itemEntry itemVal npIndex
      dsimp only
      rw [hp, npExpand_full (axesOf_no_ellipsis hB) hl]
      simp only [Except.bind, hB, Except.map]
      rw [if_neg]
      · rfl
      · unfold npIsScalar
        simp only [decide_eq_true_eq, not_and]
        intro h
        exfalso
        obtain ⟨f, hf⟩ := hsl
        have := List.all_eq_true.1 h _ hf
        cases this
    cases side with
    | left =>
      obtain ⟨hne, hsuf⟩ := hf
      have hB := axesOf_drop (s.length - v.shape.length) hA
      rw [suffix_drop hsuf] at hB
      have hpart : partOf .left v.shape.length ks = ks.drop (s.length - v.shape.length) := by
        unfold partOf
        rw [hlen]
      have hpk : partKey .left v.shape.length ks = partOf .left v.shape.length ks := by
        unfold partKey partOf
        rw [if_neg (by simpa using hne)]
      refine ⟨_, common (by rw [hpart]; exact hB) hpk, rfl, rfl, v, _, u, false, false, rfl, rfl, ⟨?_, ?_⟩, id, fun j hj => ?_⟩
      · exact axesOf_slice hB (by rw [← hpart]; exact hsl)
      · conv_rhs => rw [← List.take_append_drop (s.length - v.shape.length) A]
        rw [outShape_append]
        exact List.suffix_append _ _
      · have hj' := hj.length
        have hO : outShape A = outShape (A.take (s.length - v.shape.length)) ++ outShape (A.drop (s.length - v.shape.length)) := by
          rw [← outShape_append, List.take_append_drop]
        have hOl := congrArg List.length hO
        rw [List.length_append] at hOl
        have hm : mergeAxes A j = mergeAxes (A.take (s.length - v.shape.length)) (j.take (outShape (A.take (s.length - v.shape.length))).length) ++
            mergeAxes (A.drop (s.length - v.shape.length)) (j.drop (outShape (A.take (s.length - v.shape.length))).length) := by
          rw [← merge_append _ _ _ _ (by simp; omega), List.take_append_drop, List.take_append_drop]
        have hml := merge_length (A.take (s.length - v.shape.length)) (j.take (outShape (A.take (s.length - v.shape.length))).length) (by simp; omega)
        have hmA := merge_length A j hj'
        have hsl' := hsuf.length_le
        simp only [Option.getD_some, elementFor]
        congr 1
        have hz : (mergeAxes (A.take (s.length - v.shape.length)) (j.take (outShape (A.take (s.length - v.shape.length))).length)).drop
            (s.length - v.shape.length) = [] := List.drop_of_length_le (by rw [hml]; simp)
        rw [hmA, hm, hAl, List.drop_append_of_le_length (by rw [hml]; simp; omega), hz, List.nil_append]
        congr 2
        omega
    | right =>
      obtain ⟨hne, hpre⟩ := hf
      have hB := axesOf_take v.shape.length hA
      rw [← List.prefix_iff_eq_take.1 hpre] at hB
      refine ⟨_, common hB rfl, rfl, rfl, v, _, u, false, false, rfl, rfl, ⟨?_, ?_⟩, id, fun j hj => ?_⟩
      · exact axesOf_slice hB hsl
      · conv_rhs => rw [← List.take_append_drop v.shape.length A]
        rw [outShape_append]
        exact List.prefix_append _ _
      · have hj' := hj.length
        have hO : outShape A = outShape (A.take v.shape.length) ++ outShape (A.drop v.shape.length) := by
          rw [← outShape_append, List.take_append_drop]
        have hOl := congrArg List.length hO
        rw [List.length_append] at hOl
        have hm : mergeAxes A j = mergeAxes (A.take v.shape.length) (j.take (outShape (A.take v.shape.length)).length) ++
            mergeAxes (A.drop v.shape.length) (j.drop (outShape (A.take v.shape.length)).length) := by
          rw [← merge_append _ _ _ _ (by simp; omega), List.take_append_drop, List.take_append_drop]
        have hml := merge_length (A.take v.shape.length) (j.take (outShape (A.take v.shape.length)).length) (by simp; omega)
        have hsl' := hpre.length_le
        simp only [Option.getD_some, elementFor]
        congr 1
        have hz : (mergeAxes (A.take v.shape.length) (j.take (outShape (A.take v.shape.length)).length)).take v.shape.length =
            mergeAxes (A.take v.shape.length) (j.take (outShape (A.take v.shape.length)).length) := List.take_of_length_le (by rw [hml]; simp)
        rw [hm, List.take_append_of_le_length (by rw [hml]; simp; omega), hz]

theorem mapM_forall₂ {α β : Type} {f : α → Res β} {R : α → β → Prop} : ∀ {l : List α}, (∀ x ∈ l, ∃ y, f x = .ok y ∧ R x y) →
    ∃ l', l.mapM f = .ok l' ∧ List.Forall₂ R l l'
  | [], _ => ⟨[], rfl, .nil⟩
  | x :: l, h => by
    obtain ⟨y, h1, h2⟩ := h x List.mem_cons_self
    obtain ⟨l', h3, h4⟩ := mapM_forall₂ (fun z hz => h z (List.mem_cons_of_mem _ hz))
    refine ⟨y :: l', ?_, .cons h2 h4⟩
    rw [List.mapM_cons, h1, h3]
    rfl

theorem itemOf_find {A : List Axis} (k : Sym) : ∀ {D D' : List (BEntry K)}, List.Forall₂ (ItemOf A) D D' →
    (D.find? (fun e => e.name = k) = none ∧ D'.find? (fun e => e.name = k) = none) ∨
    ∃ e e', D.find? (fun e => e.name = k) = some e ∧ D'.find? (fun e => e.name = k) = some e' ∧ ItemOf A e e'
  | [], [], _ => Or.inl ⟨rfl, rfl⟩
  | e :: D, e' :: D', h => by
    cases h with
    | cons h1 h2 =>
      by_cases hk : e.name = k
      · refine Or.inr ⟨e, e', ?_, ?_, h1⟩
        · rw [List.find?_cons_of_pos (by simpa using hk)]
        · rw [List.find?_cons_of_pos (by simpa [h1.name] using hk)]
      · rw [List.find?_cons_of_neg (by simpa using hk), List.find?_cons_of_neg (by simpa [h1.name] using hk)]
        exact itemOf_find k h2

/-- C117: an integer of a key selects the element at this position from the beginning, or from the end if it is negative. -/
theorem C117_position (d : Nat) (i : Int) (p : Nat) : position d i = .ok p ↔ p < d ∧ (i = p ∨ i = (p : Int) - d) := by
  unfold position
  by_cases h1 : 0 ≤ i ∧ i < d
  · rw [if_pos h1, Except.ok.injEq]
    omega
  · rw [if_neg h1]
    by_cases h2 : i < 0 ∧ -(d : Int) ≤ i
    · rw [if_pos h2, Except.ok.injEq]
      omega
    · rw [if_neg h2]
      constructor
      · intro h
        cases h
      · intro h
        omega

section
variable [Field K] [RatPow K]

/-- C117: the physical amounts of an item are the items of the physical amounts, for any number of dimensions: the derived units of the item are those of
the selected elements.  The key has integers, slices, and possibly an ellipsis that ends the key or stands for no dimension; no derived unit becomes a scalar or has been
used in a conversion. -/
theorem C117_getitem_partial {q : BQ K} {key ks : List KElem} (hq : FitsAll q.mag.shape q.derived) (hv : ValidKey key)
    (hg : ∀ a b, key = a ++ .ellipsis :: b → b = [] ∨ key.length = q.mag.shape.length + 1) (he : npExpand q.mag.shape.length key = .ok ks)
    (hs : Selectable ks q.derived) {r : NArr K} (hr : npIndex q.mag key = .ok r) (hn : npIsScalar q.mag key = false) :
    ∃ item, getitemB q (.tuple key) = .ok (.inr item) ∧ item.mag = r ∧ item.unit = q.unit ∧ FitsAll item.mag.shape item.derived ∧
      ∀ w : Sym → K, ∃ b, npIndex ⟨q.mag.shape, amountAt w q⟩ key = .ok b ∧ b.shape = item.mag.shape ∧
        ∀ j, Inside b.shape j → b.get j = amountAt w item j := by
  have hr' := hr
  unfold npIndex at hr'
  rw [he] at hr'
  simp only [Except.bind] at hr'
  obtain ⟨A, hA, hrA⟩ := map_eq_ok.1 hr'
  have hvk := validKey_expand hv he
  obtain ⟨D', hD', hrel⟩ := mapM_forall₂ (f := itemEntry ks) (R := ItemOf A) (l := q.derived) (by
    intro e hmem
    obtain ⟨v, u, l, hval, hfit⟩ := hq e hmem
    exact itemEntry_spec hvk hA hval hfit fun side hside => hs e hmem side v u l hside hval)
  have hnum : ∀ e' ∈ D', e'.isScalar = false := by
    intro e' he'
    obtain ⟨i, hi, rfl⟩ := List.getElem_of_mem he'
    have hi' : i < q.derived.length := by rw [hrel.length_eq]; exact hi
    obtain ⟨v, w, u, l, l', -, h2, -⟩ := (hrel.get hi' hi).value
    simp only [List.get_eq_getElem] at h2
    unfold BEntry.isScalar
    rw [h2]
    cases (D'[i]).bracket <;> rfl
  have hitem : itemDerived (codeKey q.mag.shape.length key) q.derived = .ok D' := by
    unfold itemDerived
    rw [codeKey_eq hg he, hD']
    simp only [Except.map]
    have f1 : D'.filter (·.isScalar) = [] := List.filter_eq_nil_iff.2 (by intro e h; simp [hnum e h])
    have f2 : (D'.filter fun e => !e.isScalar) = D' := List.filter_eq_self.2 (by intro e h; simp [hnum e h])
    rw [f1, f2]
    rfl
  have hrs : r.shape = outShape A := by rw [← hrA]
  refine ⟨⟨r, q.unit, D'⟩, ?_, rfl, rfl, ?_, fun w => ⟨⟨outShape A, fun j => amountAt w q (mergeAxes A j)⟩, ?_, hrs.symm, fun j hj => ?_⟩⟩
  · unfold getitemB
    dsimp only
    rw [hr]
    simp only [Except.bind, hn, hitem, Except.map]
    rfl
  · intro e' he'
    obtain ⟨i, hi, rfl⟩ := List.getElem_of_mem he'
    have hi' : i < q.derived.length := by rw [hrel.length_eq]; exact hi
    have hI := hrel.get hi' hi
    simp only [List.get_eq_getElem] at hI
    obtain ⟨v, w, u, l, l', -, h2, h3, -⟩ := hI.value
    refine ⟨w, u, l', h2, ?_⟩
    rw [hI.bracket]
    dsimp only
    rw [hrs]
    exact h3
  · unfold npIndex
    dsimp only
    rw [he]
    simp only [Except.bind, hA, Except.map]
  · dsimp only at hj ⊢
    unfold amountAt
    dsimp only
    rw [← hrA]
    congr 1
    apply value_congr
    intro p _
    unfold symbolAt
    rcases itemOf_find p.1 hrel with ⟨h1, h2⟩ | ⟨e, e', h1, h2, h3⟩
    · rw [h1, h2]
    · rw [h1, h2]
      obtain ⟨v, w, u, l, l', k1, k2, -, -, k3⟩ := h3.value
      have hb := h3.bracket
      obtain ⟨n1, b1, v1⟩ := e
      obtain ⟨n2, b2, v2⟩ := e'
      dsimp only at k1 k2 k3 hb
      subst k1 k2 hb
      dsimp only
      rw [k3 j hj]

end

/-! ### Conversion -/

section
variable [Field K] [LinearOrder K] [IsStrictOrderedRing K] [LawfulRatPow K]
open RatPow LawfulRatPow

/-- The definition of a symbol, if there is one, is not broadcast along the first dimensions. -/
def NotLeftward (D : List (BEntry K)) (u : UnitD) : Prop := ∀ p ∈ u, ∀ e ∈ D, e.name = p.1 → e.bracket ≠ some .left

/-- The definition of a symbol, if there is one, is a scalar. -/
def NotBroadcast (D : List (BEntry K)) (u : UnitD) : Prop := ∀ p ∈ u, ∀ e ∈ D, e.name = p.1 → e.bracket = none

omit [Field K] [LinearOrder K] [IsStrictOrderedRing K] [LawfulRatPow K] in
theorem bop_nil (f : K → K → K) {a b c : NArr K} (ha : a.shape = []) (hb : b.shape = []) (h : bop f a b = .ok c) : c.shape = [] := by
  unfold bop at h
  rw [ha, hb] at h
  simp only [List.reverse_nil, bshapeRev, Except.map, Except.ok.injEq] at h
  rw [← h]

theorem siFoldB_slow {s : List Nat} {D : List (BEntry K)} (hD : FitsAll s D) : ∀ (u : UnitD) (f g : Factors K), NotLeftward D u → f.slow.shape = [] →
    u.foldlM (siStepB D) f = .ok g → g.slow.shape = []
  | [], f, g, _, h, hg => by
    simp only [List.foldlM_nil, pure, Except.pure, Except.ok.injEq] at hg
    rw [← hg, h]
  | p :: u, f, g, hu, h, hg => by
    rw [List.foldlM_cons] at hg
    obtain ⟨f', hf', hg⟩ := bind_eq_ok.1 hg
    refine siFoldB_slow hD u f' g (fun q hq => hu q (List.mem_cons_of_mem _ hq)) ?_ hg
    unfold siStepB factorOf checkIn at hf'
    cases hc : D.find? fun e => e.name = p.1 with
    | none =>
      rw [hc] at hf'
      simp only [Except.bind, Except.ok.injEq] at hf'
      rw [← hf']
      exact h
    | some e =>
      have hmem := List.mem_of_find?_eq_some hc
      have hname : e.name = p.1 := by simpa using List.find?_some hc
      have hb := hu p List.mem_cons_self e hmem hname
      obtain ⟨v, w, l, hv, hs⟩ := hD e hmem
      rw [hc] at hf'
      dsimp only at hf'
      rw [hv] at hf'
      cases hbr : e.bracket with
      | none =>
        rw [hbr] at hs hf'
        simp only [Except.bind, Option.getD_none] at hf'
        obtain ⟨c, hc1, rfl⟩ := map_eq_ok.1 hf'
        exact bop_nil _ h (show (v.map _).shape = [] from hs) hc1
      | some side =>
        cases side with
        | left => exact absurd hbr hb
        | right =>
          rw [hbr] at hf'
          simp only [Except.bind, Option.getD_some] at hf'
          obtain ⟨c, hc1, rfl⟩ := map_eq_ok.1 hf'
          exact h

theorem siFoldB_fast {D : List (BEntry K)} : ∀ (u : UnitD) (f g : Factors K), NotBroadcast D u → f.fast.shape = [] →
    u.foldlM (siStepB D) f = .ok g → g.fast.shape = []
  | [], f, g, _, h, hg => by
    simp only [List.foldlM_nil, pure, Except.pure, Except.ok.injEq] at hg
    rw [← hg, h]
  | p :: u, f, g, hu, h, hg => by
    rw [List.foldlM_cons] at hg
    obtain ⟨f', hf', hg⟩ := bind_eq_ok.1 hg
    refine siFoldB_fast u f' g (fun q hq => hu q (List.mem_cons_of_mem _ hq)) ?_ hg
    unfold siStepB factorOf checkIn at hf'
    cases hc : D.find? fun e => e.name = p.1 with
    | none =>
      rw [hc] at hf'
      simp only [Except.bind, Except.ok.injEq] at hf'
      rw [← hf']
      exact h
    | some e =>
      have hname : e.name = p.1 := by simpa using List.find?_some hc
      have hb := hu p List.mem_cons_self e (List.mem_of_find?_eq_some hc) hname
      rw [hc] at hf'
      dsimp only at hf'
      split at hf'
      · simp [Except.bind] at hf'
      · rw [hb] at hf'
        simp only [Except.bind, Option.getD_none] at hf'
        obtain ⟨c, hc1, rfl⟩ := map_eq_ok.1 hf'
        exact h

variable {w : Sym → K}

theorem siScalar_spec (hw : ∀ s, 0 < w s) {s : List Nat} {D : List (BEntry K)} (hD : FitsAll s D) (hp : PositiveAll D) {u : UnitD} (hu : NotLeftward D u)
    (hne : u ≠ []) : ∃ r, siB ⟨.scalar 1, u, D⟩ = .ok r ∧ r.mag.shape <+: s ∧ Wf r.unit ∧ (NotBroadcast D u → r.mag.shape = []) ∧
      ∀ i, Inside s i → r.mag.first i * value w r.unit = value (symbolAt w D i) u := by
  obtain ⟨g, h1, ⟨h2, h3, h4, h5⟩, h6⟩ := siLoopB_spec hw hD hp u
  have hslow : g.slow.shape = [] := siFoldB_slow hD u _ g hu rfl h1
  obtain ⟨a, a1, a2, a3⟩ := bop_suffix (· * ·) (a := NArr.scalar 1) (b := g.slow) (s := s) List.nil_suffix h2
  have ea : a.shape = [] := bop_nil _ rfl hslow a1
  obtain ⟨b, b1, b2, b3⟩ := bop_prefix (· * ·) (a := a) (b := g.fast) (s := s) (by rw [ea]; exact List.nil_prefix) h3
  have eb : b.T.shape = g.fast.shape := by
    rcases b2 with ⟨b2, b4⟩ | ⟨b2, -⟩
    · rw [ea] at b4 b2
      rw [b2, List.prefix_nil.1 b4]
    · exact b2
  refine ⟨⟨b.T, mulUnit g.slowUnit g.fastUnit, D⟩, ?_, ?_, mulUnit_wf h4 _, ?_, fun i hi => ?_⟩
  · unfold siB
    rw [if_neg (by simpa using hne), h1]
    simp only [Except.bind, a1, b1, Except.map]
  · dsimp only
    rw [eb]
    exact h3
  · intro hb
    dsimp only
    rw [eb]
    exact siFoldB_fast u _ g hb rfl h1
  · dsimp only
    rw [b3 i hi, ← h6 i hi, value_mulUnit hw h4]
    have h7 := a3 i hi
    have h8 : a.first i = a.last i := by simp [NArr.first, NArr.last, ea]
    rw [h8, h7]
    simp only [Factors.total, NArr.scalar, NArr.last]
    ring

omit [LinearOrder K] [IsStrictOrderedRing K] [LawfulRatPow K] in
theorem imul_ok {a b c : NArr K} (h : imul a b = .ok c) : bop (· * ·) a b = .ok c ∧ c.shape = a.shape := by
  unfold imul at h
  obtain ⟨d, h1, h2⟩ := bind_eq_ok.1 h
  split at h2
  · rename_i h3
    simp only [Except.ok.injEq] at h2
    subst h2
    exact ⟨h1, h3⟩
  · cases h2

/-- C117: a conversion to a unit whose symbols have no broadcast definition, from a unit whose symbols have no leftward definition, preserves the physical amount
of each element. -/
theorem C117_tounit_partial (hw : ∀ s, 0 < w s) {q r : BQ K} {newunit : UnitD} (hq : FitsAll q.mag.shape q.derived) (hp : PositiveAll q.derived)
    (hl : NotLeftward q.derived q.unit) (hn : NotBroadcast q.derived newunit) (hu : q.unit ≠ []) (hu' : newunit ≠ []) (h : tounitB q newunit = .ok r) :
    r.unit = newunit ∧ r.mag.shape = q.mag.shape ∧ ∀ i, Inside q.mag.shape i → amountAt w r i = amountAt w q i := by
  obtain ⟨q1, a1, a2, a3, -, a4⟩ := siScalar_spec hw hq hp hl hu
  obtain ⟨q2, b1, -, b3, b4, b5⟩ := siScalar_spec hw hq hp (u := newunit) (fun p hp e he hk => by rw [hn p hp e he hk]; simp) hu'
  have hs2 := b4 hn
  unfold tounitB at h
  rw [if_neg (by simp [hu, hu']), a1, b1] at h
  simp only [Except.bind] at h
  split at h
  · cases h
  · rename_i hd
    simp only [Bool.not_eq_true', Bool.not_eq_false] at hd
    obtain ⟨c, c1, c2, c3⟩ := bop_suffix (· / ·) (a := q1.mag) (b := q2.mag) (s := q1.mag.shape) (List.suffix_refl _) (by rw [hs2]; exact List.nil_suffix)
    have ec : c.shape = q1.mag.shape := by
      rcases c2 with ⟨c2, -⟩ | ⟨c2, c4⟩
      · exact c2
      · rw [hs2] at c4 c2
        rw [c2, List.suffix_nil.1 c4]
    have cval : ∀ i, Inside q.mag.shape i → c.first i = q1.mag.first i / q2.mag.first i := by
      intro i hi
      have hi' : Inside q1.mag.shape (i.take q1.mag.shape.length) := by
        have := hi.take q1.mag.shape.length
        rwa [← List.prefix_iff_eq_take.1 a2] at this
      have := c3 _ hi'
      rw [last_full (by rw [ec]; exact hi')] at this
      unfold NArr.first
      rw [ec, this]
      simp [NArr.last, hs2, hi'.length]
    have amt : ∀ m : NArr K, (∀ i, Inside q.mag.shape i → m.get i = q.mag.get i * c.first i) → ∀ i, Inside q.mag.shape i →
        amountAt w ⟨m, newunit, q.derived⟩ i = amountAt w q i := by
      intro m hm i hi
      unfold amountAt
      dsimp only
      have hq2 : q2.mag.first i * value w q2.unit ≠ 0 := by
        rw [b5 i hi]
        have : ∀ s, 0 < symbolAt w q.derived i s := by
          intro s
          unfold symbolAt
          split
          · rename_i n b v u l hf
            obtain ⟨v', u', l', hv, hfit⟩ := hq _ (List.mem_of_find?_eq_some hf)
            cases hv
            obtain ⟨j, hj, e⟩ := elementFor_inside hfit hi
            rw [e]
            exact mul_pos (hp _ (List.mem_of_find?_eq_some hf) _ _ _ rfl j hj) (value_pos hw _)
          · exact hw s
        exact (value_pos this _).ne'
      rw [hm i hi, cval i hi, ← a4 i hi, ← b5 i hi, value_perm ((dictEq_perm a3 b3).1 hd)]
      have h2 : q2.mag.first i ≠ 0 := left_ne_zero_of_mul hq2
      field_simp
    rw [c1] at h
    dsimp only at h
    split at h
    · rename_i h0
      obtain ⟨m, hm, rfl⟩ := map_eq_ok.1 h
      obtain ⟨m1, m2⟩ := imul_ok hm
      refine ⟨rfl, m2, amt m fun i hi => ?_⟩
      have hq0 : q.mag.shape = [] := List.length_eq_zero_iff.1 h0
      have hc0 : c.shape = [] := by
        rw [hq0] at a2
        rw [ec, List.prefix_nil.1 a2]
      obtain ⟨m', e1, -, e3⟩ := bop_suffix (· * ·) (a := q.mag) (b := c) (s := q.mag.shape) (List.suffix_refl _) (by rw [hc0]; exact List.nil_suffix)
      rw [m1] at e1
      cases e1
      have := e3 i hi
      rw [last_full hi, last_full (by rw [m2]; exact hi)] at this
      rw [this]
      have hi0 : i = [] := List.length_eq_zero_iff.1 (by rw [hi.length, h0])
      simp [NArr.last, NArr.first, hi0]
    · obtain ⟨m, hm, rfl⟩ := map_eq_ok.1 h
      obtain ⟨m1, m2⟩ := imul_ok hm
      have hms : m.T.shape = q.mag.shape := by
        simp only [NArr.T] at m2 ⊢
        rw [m2, List.reverse_reverse]
      refine ⟨rfl, hms, amt m.T fun i hi => ?_⟩
      obtain ⟨m', e1, -, e3⟩ := bop_prefix (· * ·) (a := q.mag) (b := c) (s := q.mag.shape) (List.prefix_refl _) (by rw [ec]; exact a2)
      rw [m1] at e1
      cases e1
      have := e3 i hi
      rw [first_full hi, first_full (by rw [hms]; exact hi)] at this
      exact this

end

end Verif.Units
