import Verif.Units.Spec
import Mathlib.Data.List.Perm.Subperm
import Mathlib.Algebra.BigOperators.Group.List.Basic
import Mathlib.Tactic.Ring
import Mathlib.Tactic.Linarith
import Mathlib.Tactic.FieldSimp

/-!
Lemmas on units as dictionaries.
-/
namespace Verif.Units
open Verif.Py

theorem wf_cons {k : Sym} {x : ℚ} {u : UnitD} : Wf ((k, x) :: u) ↔ k ∉ u.map Prod.fst ∧ Wf u := by
  simp [Wf]

theorem wf_nil : Wf [] := List.nodup_nil

theorem Wf.nodup {u : UnitD} (h : Wf u) : u.Nodup := List.Nodup.of_map _ h

theorem wf_perm {u w : UnitD} (h : u.Perm w) : Wf u ↔ Wf w := (h.map Prod.fst).nodup_iff

theorem noZero_perm {u w : UnitD} (h : u.Perm w) : NoZero u ↔ NoZero w := by
  simp only [NoZero, h.mem_iff]

theorem expo_perm {u w : UnitD} (h : u.Perm w) (s : Sym) : expo u s = expo w s :=
  ((h.filter _).map _).sum_eq

@[simp] theorem expo_nil (s : Sym) : expo [] s = 0 := rfl

theorem expo_cons (k : Sym) (x : ℚ) (u : UnitD) (s : Sym) :
    expo ((k, x) :: u) s = (if k = s then x else 0) + expo u s := by
  by_cases h : k = s <;> simp [expo, h]

theorem expo_append (u w : UnitD) (s : Sym) : expo (u ++ w) s = expo u s + expo w s := by
  simp [expo]

theorem expo_of_not_mem {u : UnitD} {s : Sym} (h : s ∉ u.map Prod.fst) : expo u s = 0 := by
  induction u with
  | nil => rfl
  | cons p u ih =>
    simp only [List.map_cons, List.mem_cons, not_or] at h
    rw [expo_cons, if_neg (fun e => h.1 e.symm), ih h.2, zero_add]

theorem lookup_none {u : UnitD} {k : Sym} : lookup u k = none ↔ k ∉ u.map Prod.fst := by
  induction u with
  | nil => simp [lookup]
  | cons p u ih =>
    obtain ⟨a, x⟩ := p
    rw [lookup]
    by_cases h : a = k
    · simp [h]
    · rw [if_neg h, ih]
      simp [Ne.symm h, eq_comm]

theorem lookup_mem {u : UnitD} {k : Sym} {x : ℚ} (h : lookup u k = some x) : (k, x) ∈ u := by
  induction u with
  | nil => simp [lookup] at h
  | cons p u ih =>
    obtain ⟨a, y⟩ := p
    rw [lookup] at h
    by_cases e : a = k
    · rw [if_pos e] at h
      cases h
      simp [e]
    · rw [if_neg e] at h
      exact List.mem_cons_of_mem _ (ih h)

theorem mem_lookup {u : UnitD} (hu : Wf u) {k : Sym} {x : ℚ} (h : (k, x) ∈ u) : lookup u k = some x := by
  induction u with
  | nil => simp at h
  | cons p u ih =>
    obtain ⟨a, y⟩ := p
    rw [wf_cons] at hu
    rw [lookup]
    rcases List.mem_cons.1 h with e | e
    · cases e
      simp
    · by_cases e' : a = k
      · exact absurd (List.mem_map.2 ⟨_, e, e'.symm⟩) hu.1
      · rw [if_neg e']
        exact ih hu.2 e

theorem expo_mem {u : UnitD} (hu : Wf u) {k : Sym} {x : ℚ} (h : (k, x) ∈ u) : expo u k = x := by
  induction u with
  | nil => simp at h
  | cons p u ih =>
    obtain ⟨a, y⟩ := p
    rw [wf_cons] at hu
    rw [expo_cons]
    rcases List.mem_cons.1 h with e | e
    · cases e
      rw [if_pos rfl, expo_of_not_mem hu.1, add_zero]
    · have : a ≠ k := fun e' => hu.1 (List.mem_map.2 ⟨_, e, e'.symm⟩)
      rw [if_neg this, zero_add, ih hu.2 e]

theorem expo_lookup {u : UnitD} (hu : Wf u) (s : Sym) : expo u s = (lookup u s).getD 0 := by
  cases h : lookup u s with
  | none => rw [expo_of_not_mem (lookup_none.1 h)]; rfl
  | some x => rw [expo_mem hu (lookup_mem h)]; rfl

theorem del_not_mem (u : UnitD) (k : Sym) : k ∉ (del u k).map Prod.fst := by
  simp [del]

theorem del_of_not_mem {u : UnitD} {k : Sym} (h : k ∉ u.map Prod.fst) : del u k = u := by
  rw [del, List.filter_eq_self]
  intro p hp
  simp only [ne_eq, decide_eq_true_eq]
  exact fun e => h (List.mem_map.2 ⟨p, hp, e⟩)

theorem update_of_not_mem {u : UnitD} {k : Sym} {x : ℚ} (h : k ∉ u.map Prod.fst) : update u k x = u := by
  induction u with
  | nil => rfl
  | cons p u ih =>
    simp only [List.map_cons, List.mem_cons, not_or] at h
    have := ih h.2
    simp only [update] at this ⊢
    rw [List.map_cons, this, if_neg (fun e => h.1 e.symm)]

theorem perm_del {u : UnitD} (hu : Wf u) {k : Sym} {w : ℚ} (h : lookup u k = some w) (x : ℚ) :
    u.Perm ((k, w) :: del u k) ∧ (update u k x).Perm ((k, x) :: del u k) := by
  induction u with
  | nil => simp [lookup] at h
  | cons p u ih =>
    obtain ⟨a, y⟩ := p
    rw [wf_cons] at hu
    rw [lookup] at h
    by_cases e : a = k
    · rw [if_pos e] at h
      cases h
      subst e
      have h1 : del ((a, w) :: u) a = u := by
        have := del_of_not_mem hu.1
        simpa [del] using this
      have h2 : update ((a, w) :: u) a x = (a, x) :: u := by
        have := update_of_not_mem (x := x) hu.1
        simp only [update] at this ⊢
        rw [List.map_cons, this, if_pos rfl]
      rw [h1, h2]
      exact ⟨List.Perm.refl _, List.Perm.refl _⟩
    · rw [if_neg e] at h
      obtain ⟨i1, i2⟩ := ih hu.2 h
      have h1 : del ((a, y) :: u) k = (a, y) :: del u k := by simp [del, e]
      have h2 : update ((a, y) :: u) k x = (a, y) :: update u k x := by simp [update, e]
      rw [h1, h2]
      exact ⟨(i1.cons _).trans (List.Perm.swap _ _ _), (i2.cons _).trans (List.Perm.swap _ _ _)⟩

/-- The three cases of a multiplication by a power of a symbol. -/
theorem mulInplace_cases {u : UnitD} (hu : Wf u) (k : Sym) (x : ℚ) :
    (k ∉ u.map Prod.fst ∧ mulInplace u k x = u ++ [(k, x)]) ∨
    ∃ w r, u.Perm ((k, w) :: r) ∧ k ∉ r.map Prod.fst ∧
      ((w = -x ∧ mulInplace u k x = r) ∨ (w ≠ -x ∧ (mulInplace u k x).Perm ((k, w + x) :: r))) := by
  cases h : lookup u k with
  | none =>
    left
    exact ⟨lookup_none.1 h, by rw [mulInplace, h]⟩
  | some w =>
    right
    refine ⟨w, del u k, (perm_del hu h 0).1, del_not_mem u k, ?_⟩
    by_cases e : w = -x
    · left
      exact ⟨e, by simp only [mulInplace, h]; rw [if_pos e]⟩
    · right
      refine ⟨e, ?_⟩
      simp only [mulInplace, h]
      rw [if_neg e]
      exact (perm_del hu h _).2

theorem mulInplace_wf {u : UnitD} (hu : Wf u) (k : Sym) (x : ℚ) : Wf (mulInplace u k x) := by
  rcases mulInplace_cases hu k x with ⟨h, e⟩ | ⟨w, r, hp, hr, ⟨_, e⟩ | ⟨_, e⟩⟩
  · rw [e, wf_perm (List.perm_append_singleton _ _), wf_cons]
    exact ⟨h, hu⟩
  · rw [e]
    exact (wf_cons.1 ((wf_perm hp).1 hu)).2
  · rw [wf_perm e, wf_cons]
    exact ⟨hr, (wf_cons.1 ((wf_perm hp).1 hu)).2⟩

theorem mulInplace_expo {u : UnitD} (hu : Wf u) (k : Sym) (x : ℚ) (s : Sym) :
    expo (mulInplace u k x) s = expo u s + if k = s then x else 0 := by
  rcases mulInplace_cases hu k x with ⟨h, e⟩ | ⟨w, r, hp, hr, ⟨hw, e⟩ | ⟨_, e⟩⟩
  · rw [e, expo_append, expo_cons, expo_nil, add_zero]
  · rw [e, expo_perm hp, expo_cons, hw]
    by_cases hs : k = s <;> simp [hs]
  · rw [expo_perm e, expo_perm hp, expo_cons, expo_cons]
    by_cases hs : k = s
    · simp only [hs, if_true]; ring
    · simp [hs]

theorem mulInplace_noZero {u : UnitD} (hu : Wf u) (h0 : NoZero u) (k : Sym) {x : ℚ} (hx : x ≠ 0) :
    NoZero (mulInplace u k x) := by
  rcases mulInplace_cases hu k x with ⟨h, e⟩ | ⟨w, r, hp, hr, ⟨hw, e⟩ | ⟨hw, e⟩⟩
  · rw [e]
    intro p hp
    rcases List.mem_append.1 hp with h | h
    · exact h0 p h
    · rw [List.mem_singleton.1 h]; exact hx
  · rw [e]
    intro p hp'
    exact h0 p (hp.mem_iff.2 (List.mem_cons_of_mem _ hp'))
  · rw [noZero_perm e]
    intro p hp'
    rcases List.mem_cons.1 hp' with h | h
    · rw [h]
      intro h'
      exact hw (eq_neg_of_add_eq_zero_left h')
    · exact h0 p (hp.mem_iff.2 (List.mem_cons_of_mem _ h))

theorem mulInplace_keys (u : UnitD) (k : Sym) (x : ℚ) {p : Sym × ℚ} (h : p ∈ mulInplace u k x) :
    p.1 = k ∨ p ∈ u := by
  rw [mulInplace] at h
  cases e : lookup u k with
  | none =>
    simp only [e, List.mem_append, List.mem_singleton] at h
    rcases h with h | h
    · exact .inr h
    · exact .inl (by rw [h])
  | some w =>
    simp only [e] at h
    by_cases hw : w = -x
    · rw [if_pos hw] at h
      exact .inr (List.mem_of_mem_filter h)
    · rw [if_neg hw, update, List.mem_map] at h
      obtain ⟨q, hq, rfl⟩ := h
      by_cases hk : q.1 = k
      · left; rw [if_pos hk]
      · right; rw [if_neg hk]; exact hq

/-! ### Products and quotients -/

theorem mulUnit_eq (u1 u2 : UnitD) : mulUnit u1 u2 = u2.foldl (fun u p => mulInplace u p.1 p.2) u1 := rfl

theorem divUnit_eq (u1 u2 : UnitD) :
    divUnit u1 u2 = (u2.map fun p => (p.1, -p.2)).foldl (fun u p => mulInplace u p.1 p.2) u1 := by
  rw [List.foldl_map, divUnit]
  congr 1
  funext u p
  simp only [mulInplace, neg_neg, sub_eq_add_neg]

theorem foldl_mul_wf (l : UnitD) {u : UnitD} (hu : Wf u) : Wf (l.foldl (fun u p => mulInplace u p.1 p.2) u) := by
  induction l generalizing u with
  | nil => exact hu
  | cons p l ih => exact ih (mulInplace_wf hu _ _)

theorem foldl_mul_expo (l : UnitD) {u : UnitD} (hu : Wf u) (s : Sym) :
    expo (l.foldl (fun u p => mulInplace u p.1 p.2) u) s = expo u s + expo l s := by
  induction l generalizing u with
  | nil => simp
  | cons p l ih =>
    obtain ⟨a, x⟩ := p
    rw [List.foldl_cons, ih (mulInplace_wf hu _ _), mulInplace_expo hu, expo_cons, add_assoc]

theorem foldl_mul_noZero (l : UnitD) (hl : NoZero l) {u : UnitD} (hu : Wf u) (h0 : NoZero u) :
    NoZero (l.foldl (fun u p => mulInplace u p.1 p.2) u) := by
  induction l generalizing u with
  | nil => exact h0
  | cons p l ih =>
    exact ih (fun q hq => hl q (List.mem_cons_of_mem _ hq)) (mulInplace_wf hu _ _)
      (mulInplace_noZero hu h0 _ (hl p List.mem_cons_self))

theorem foldl_mul_keys (l u : UnitD) {p : Sym × ℚ} (h : p ∈ l.foldl (fun u p => mulInplace u p.1 p.2) u) :
    p.1 ∈ l.map Prod.fst ∨ p.1 ∈ u.map Prod.fst := by
  induction l generalizing u with
  | nil => exact .inr (List.mem_map.2 ⟨p, h, rfl⟩)
  | cons q l ih =>
    rcases ih _ h with h' | h'
    · exact .inl (by simp [h'])
    · obtain ⟨r, hr, e⟩ := List.mem_map.1 h'
      rcases mulInplace_keys _ _ _ hr with h'' | h''
      · left; simp [← e, h'']
      · right; exact List.mem_map.2 ⟨r, h'', e⟩

theorem neg_expo (u : UnitD) (s : Sym) : expo (u.map fun p => (p.1, -p.2)) s = -expo u s := by
  induction u with
  | nil => simp
  | cons p u ih =>
    obtain ⟨a, x⟩ := p
    rw [List.map_cons, expo_cons, expo_cons, ih]
    by_cases h : a = s
    · simp only [h, if_true]; ring
    · simp [h]

theorem neg_noZero {u : UnitD} (h : NoZero u) : NoZero (u.map fun p => (p.1, -p.2)) := by
  intro p hp
  obtain ⟨q, hq, rfl⟩ := List.mem_map.1 hp
  simpa using h q hq

theorem mulUnit_wf {u1 : UnitD} (h : Wf u1) (u2 : UnitD) : Wf (mulUnit u1 u2) := by
  rw [mulUnit_eq]; exact foldl_mul_wf _ h

theorem divUnit_wf {u1 : UnitD} (h : Wf u1) (u2 : UnitD) : Wf (divUnit u1 u2) := by
  rw [divUnit_eq]; exact foldl_mul_wf _ h

theorem powUnit_wf {u : UnitD} (h : Wf u) (x : ℚ) : Wf (powUnit u x) := by
  rw [powUnit]
  by_cases e : u.length = 0 ∨ x = 0
  · rw [if_pos e]; exact List.nodup_nil
  · rw [if_neg e]
    simpa [Wf, Function.comp_def] using h

theorem mulUnit_expo {u1 : UnitD} (h : Wf u1) (u2 : UnitD) (s : Sym) :
    expo (mulUnit u1 u2) s = expo u1 s + expo u2 s := by
  rw [mulUnit_eq, foldl_mul_expo _ h]

theorem divUnit_expo {u1 : UnitD} (h : Wf u1) (u2 : UnitD) (s : Sym) :
    expo (divUnit u1 u2) s = expo u1 s - expo u2 s := by
  rw [divUnit_eq, foldl_mul_expo _ h, neg_expo, sub_eq_add_neg]

theorem powUnit_expo (u : UnitD) (x : ℚ) (s : Sym) : expo (powUnit u x) s = expo u s * x := by
  rw [powUnit]
  by_cases e : u.length = 0 ∨ x = 0
  · rw [if_pos e]
    rcases e with e | e
    · rw [List.length_eq_zero_iff.1 e]; simp
    · simp [e]
  · rw [if_neg e]
    clear e
    induction u with
    | nil => simp
    | cons p u ih =>
      obtain ⟨a, y⟩ := p
      rw [List.map_cons, expo_cons, expo_cons, ih]
      by_cases h : a = s
      · simp only [h, if_true]; ring
      · simp [h]

theorem mulUnit_canonical {u1 u2 : UnitD} (h1 : Canonical u1) (h2 : NoZero u2) : Canonical (mulUnit u1 u2) :=
  ⟨mulUnit_wf h1.1 _, by rw [mulUnit_eq]; exact foldl_mul_noZero _ h2 h1.1 h1.2⟩

theorem divUnit_canonical {u1 u2 : UnitD} (h1 : Canonical u1) (h2 : NoZero u2) : Canonical (divUnit u1 u2) :=
  ⟨divUnit_wf h1.1 _, by rw [divUnit_eq]; exact foldl_mul_noZero _ (neg_noZero h2) h1.1 h1.2⟩

theorem powUnit_canonical {u : UnitD} (h : Canonical u) (x : ℚ) : Canonical (powUnit u x) := by
  refine ⟨powUnit_wf h.1 x, ?_⟩
  rw [powUnit]
  by_cases e : u.length = 0 ∨ x = 0
  · rw [if_pos e]; intro p hp; simp at hp
  · rw [if_neg e]
    intro p hp
    obtain ⟨q, hq, rfl⟩ := List.mem_map.1 hp
    exact mul_ne_zero (h.2 q hq) (fun h' => e (.inr h'))

theorem mulUnit_keys {u1 u2 : UnitD} {p : Sym × ℚ} (h : p ∈ mulUnit u1 u2) :
    p.1 ∈ u2.map Prod.fst ∨ p.1 ∈ u1.map Prod.fst := by
  rw [mulUnit_eq] at h; exact foldl_mul_keys _ _ h

theorem divUnit_keys {u1 u2 : UnitD} {p : Sym × ℚ} (h : p ∈ divUnit u1 u2) :
    p.1 ∈ u2.map Prod.fst ∨ p.1 ∈ u1.map Prod.fst := by
  rw [divUnit_eq] at h
  have := foldl_mul_keys _ _ h
  simpa [Function.comp_def] using this

theorem powUnit_keys {u : UnitD} {x : ℚ} {p : Sym × ℚ} (h : p ∈ powUnit u x) : p.1 ∈ u.map Prod.fst := by
  rw [powUnit] at h
  by_cases e : u.length = 0 ∨ x = 0
  · rw [if_pos e] at h; simp at h
  · rw [if_neg e] at h
    obtain ⟨q, hq, rfl⟩ := List.mem_map.1 h
    exact List.mem_map.2 ⟨q, hq, rfl⟩

/-! ### Equality of dictionaries -/

theorem dictEq_perm {u w : UnitD} (hu : Wf u) (hw : Wf w) : dictEq u w = true ↔ u.Perm w := by
  constructor
  · intro h
    simp only [dictEq, Bool.decide_and, Bool.and_eq_true, decide_eq_true_eq, List.all_eq_true] at h
    have hsub : u ⊆ w := fun p hp => lookup_mem (h.2 p hp)
    exact (List.subperm_of_subset hu.nodup hsub).perm_of_length_le (by omega)
  · intro h
    simp only [dictEq, Bool.decide_and, Bool.and_eq_true, decide_eq_true_eq, List.all_eq_true]
    exact ⟨h.length_eq, fun p hp => mem_lookup hw (h.mem_iff.1 hp)⟩

theorem perm_of_expo {u w : UnitD} (hu : Canonical u) (hw : Canonical w) (h : ∀ s, expo u s = expo w s) : u.Perm w := by
  have sub : ∀ {u w : UnitD}, Canonical u → Canonical w → (∀ s, expo u s = expo w s) → u ⊆ w := by
    intro u w hu hw h p hp
    have e := expo_mem hu.1 (show (p.1, p.2) ∈ u from hp)
    have hne : expo w p.1 ≠ 0 := by rw [← h, e]; exact hu.2 p hp
    cases hl : lookup w p.1 with
    | none => exact absurd (expo_of_not_mem (lookup_none.1 hl)) hne
    | some x =>
      have hm := lookup_mem hl
      rw [← h, e] at hne
      have : x = p.2 := by rw [← expo_mem hw.1 hm, ← h, e]
      rw [this] at hm
      exact hm
  exact (List.perm_ext_iff_of_nodup hu.1.nodup hw.1.nodup).2 fun p =>
    ⟨fun hp => sub hu hw h hp, fun hp => sub hw hu (fun s => (h s).symm) hp⟩

theorem dictEq_expo {u w : UnitD} (hu : Canonical u) (hw : Canonical w) :
    dictEq u w = true ↔ ∀ s, expo u s = expo w s := by
  rw [dictEq_perm hu.1 hw.1]
  exact ⟨fun h s => expo_perm h s, perm_of_expo hu hw⟩

end Verif.Units
