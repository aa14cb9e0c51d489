import Verif.Dist.Policy
import Verif.Units.Parse
import Verif.Dist.PropsHeader
import Mathlib.Data.List.Forall2
import Mathlib.Data.List.Nodup

/-! Property C53: mask policies. -/
namespace Verif.Dist
open Verif.Py Verif.Units

/-! ### Specification -/

/-- `ps` are the parts of `s` between the commas. -/
def Parts (s : List Char) (ps : List (List Char)) : Prop := ps ≠ [] ∧ (∀ p ∈ ps, ',' ∉ p) ∧ List.intercalate [','] ps = s

/-- The strings given by an argument, without the surrounding white space. -/
def Strings : PolicyArg → List (List Char) → Prop
  | .str s, l => ∃ ps, Parts s ps ∧ List.Forall₂ IsStrip ps l
  | .list ps, l => List.Forall₂ IsStrip ps l
  | .scalar, _ => False

/-- The names of the policies, whatever the case, and their numbers. -/
def Means (s : List Char) (name : String) (n : Int) : Prop :=
  s.map Char.toLower = name.toList ∧ (name, n) ∈ [("keep", (0 : Int)), ("mask", 1), ("remove", 2)]

/-- The names that can be given to a flag. -/
def GoodName (s : List Char) : Prop := ∃ c t, s = c :: t ∧ c ≠ '_'

/-! ### Lemmas -/

theorem splitComma_ne (s : List Char) : splitComma s ≠ [] := by
  cases s with
  | nil => simp [splitComma]
  | cons c s =>
    rw [splitComma]
    split
    · simp
    · split <;> simp

theorem splitComma_parts : ∀ s, Parts s (splitComma s)
  | [] => ⟨by simp [splitComma], by simp [splitComma], rfl⟩
  | c :: s => by
    obtain ⟨h1, h2, h3⟩ := splitComma_parts s
    rw [splitComma]
    cases hs : splitComma s with
    | nil => exact absurd hs h1
    | cons p ps =>
      rw [hs] at h2 h3
      dsimp only
      split
      · rename_i hc
        subst hc
        refine ⟨by simp, ?_, ?_⟩
        · intro q hq
          rcases List.mem_cons.1 hq with rfl | hq
          · simp
          · exact h2 q hq
        · rw [← h3]
          simp [List.intercalate]
      · rename_i hc
        refine ⟨by simp, ?_, ?_⟩
        · intro q hq
          rcases List.mem_cons.1 hq with rfl | hq
          · have := h2 p (List.mem_cons_self ..)
            simp only [List.mem_cons, not_or]
            exact ⟨fun h => hc h.symm, this⟩
          · exact h2 q (List.mem_cons_of_mem _ hq)
        · rw [← h3]
          cases ps <;> simp [List.intercalate]

theorem parts_unique : ∀ {s : List Char} {ps qs : List (List Char)}, Parts s ps → Parts s qs → ps = qs
  | s, [], _, h, _ => absurd rfl h.1
  | s, _, [], _, h => absurd rfl h.1
  | s, [p], [q], ⟨_, _, h⟩, ⟨_, _, h'⟩ => by
    simp [List.intercalate] at h h'
    rw [h, h']
  | s, [p], q :: q' :: qs, ⟨_, hp, h⟩, ⟨_, _, h'⟩ => by
    exfalso
    simp [List.intercalate] at h h'
    have := hp p (List.mem_cons_self ..)
    rw [h, ← h'] at this
    simp at this
  | s, p :: p' :: ps, [q], ⟨_, _, h⟩, ⟨_, hq, h'⟩ => by
    exfalso
    simp [List.intercalate] at h h'
    have := hq q (List.mem_cons_self ..)
    rw [h', ← h] at this
    simp at this
  | s, p :: p' :: ps, q :: q' :: qs, ⟨_, hp, h⟩, ⟨_, hq, h'⟩ => by
    have e1 : p ++ ',' :: List.intercalate [','] (p' :: ps) = s := by rw [← h]; simp [List.intercalate]
    have e2 : q ++ ',' :: List.intercalate [','] (q' :: qs) = s := by rw [← h']; simp [List.intercalate]
    have hp0 := hp p (List.mem_cons_self ..)
    have hq0 := hq q (List.mem_cons_self ..)
    have key : ∀ (a b x y : List Char), ',' ∉ a → ',' ∉ b → a ++ ',' :: x = b ++ ',' :: y → a = b ∧ x = y := by
      intro a
      induction a with
      | nil =>
        intro b x y _ hb e
        cases b with
        | nil => simpa using e
        | cons c b =>
          simp only [List.nil_append, List.cons_append, List.cons.injEq] at e
          exact absurd (by rw [e.1]; exact List.mem_cons_self ..) hb
      | cons c a ih =>
        intro b x y ha hb e
        cases b with
        | nil =>
          simp only [List.nil_append, List.cons_append, List.cons.injEq] at e
          exact absurd (by rw [← e.1]; exact List.mem_cons_self ..) ha
        | cons d b =>
          simp only [List.cons_append, List.cons.injEq] at e
          obtain ⟨h1, h2⟩ := ih b x y (fun h => ha (List.mem_cons_of_mem _ h)) (fun h => hb (List.mem_cons_of_mem _ h)) e.2
          exact ⟨by rw [e.1, h1], h2⟩
    obtain ⟨e3, e4⟩ := key p q _ _ hp0 hq0 (e1.trans e2.symm)
    have := parts_unique (s := List.intercalate [','] (p' :: ps)) (ps := p' :: ps) (qs := q' :: qs)
      ⟨by simp, fun r hr => hp r (List.mem_cons_of_mem _ hr), rfl⟩ ⟨by simp, fun r hr => hq r (List.mem_cons_of_mem _ hr), e4.symm⟩
    rw [e3, this]

theorem forall2_isStrip {ps l : List (List Char)} : List.Forall₂ IsStrip ps l ↔ ps.map strip = l := by
  constructor
  · intro h
    induction h with
    | nil => rfl
    | cons h1 _ ih => rw [List.map_cons, ih, isStrip_unique (strip_isStrip _) h1]
  · rintro rfl
    induction ps with
    | nil => exact .nil
    | cons p ps ih => exact .cons (strip_isStrip p) ih

theorem strings_iff {a : PolicyArg} {l : List (List Char)} : Strings a l ↔ a.strings = .ok l := by
  cases a with
  | str s =>
    simp only [Strings, PolicyArg.strings, Except.ok.injEq]
    constructor
    · rintro ⟨ps, h1, h2⟩
      rw [parts_unique (splitComma_parts s) h1]
      exact forall2_isStrip.1 h2
    · intro h
      exact ⟨_, splitComma_parts s, forall2_isStrip.2 h⟩
  | list ps => simp only [Strings, PolicyArg.strings, Except.ok.injEq, forall2_isStrip]
  | scalar => simp [Strings, PolicyArg.strings]

theorem mem_choices {s : List Char} : lower s ∈ choices ↔ ∃ name n, Means s name n := by
  simp only [choices, lower, Means, List.mem_cons, List.not_mem_nil, or_false, Prod.mk.injEq]
  constructor
  · rintro (h | h | h)
    · exact ⟨"keep", 0, h, by simp⟩
    · exact ⟨"mask", 1, h, by simp⟩
    · exact ⟨"remove", 2, h, by simp⟩
  · rintro ⟨name, n, h, (⟨rfl, _⟩ | ⟨rfl, _⟩ | ⟨rfl, _⟩)⟩
    · exact Or.inl h
    · exact Or.inr (Or.inl h)
    · exact Or.inr (Or.inr h)

/-- The loop, when every pair is valid. -/
theorem policyLoop_ok : ∀ (ps : List (List Char × List Char)) (attrs : List (List Char × PolicyVal)),
    (∀ p ∈ ps, GoodName p.1 ∧ p.2 ∈ choices) → policyLoop ps attrs = .ok ((ps.map fun p => (p.1, PolicyVal.str p.2)).reverse ++ attrs)
  | [], _, _ => rfl
  | (f, v) :: ps, attrs, h => by
    obtain ⟨⟨c, t, hf, hc⟩, hv⟩ := h (f, v) (List.mem_cons_self ..)
    dsimp only at hf hv
    subst hf
    rw [policyLoop]
    rw [if_neg hc, if_neg (by simpa using hv), policyLoop_ok ps _ (fun p hp => h p (List.mem_cons_of_mem _ hp))]
    simp

/-- The loop, for a first invalid pair. -/
theorem policyLoop_bad (ps : List (List Char × List Char)) (f v : List Char) (qs : List (List Char × List Char)) (attrs : List (List Char × PolicyVal))
    (h : ∀ p ∈ ps, GoodName p.1 ∧ p.2 ∈ choices) : policyLoop (ps ++ (f, v) :: qs) attrs =
      policyLoop ((f, v) :: qs) ((ps.map fun p => (p.1, PolicyVal.str p.2)).reverse ++ attrs) := by
  induction ps generalizing attrs with
  | nil => rfl
  | cons p ps ih =>
    obtain ⟨f', v'⟩ := p
    obtain ⟨⟨c, t, hf, hc⟩, hv⟩ := h (f', v') (List.mem_cons_self ..)
    dsimp only at hf hv
    subst hf
    rw [List.cons_append, policyLoop]
    rw [if_neg hc, if_neg (by simpa using hv), ih _ (fun p hp => h p (List.mem_cons_of_mem _ hp))]
    simp

/-- A list of pairs is valid, or has a first invalid pair. -/
theorem first_bad {α} (P : α → Prop) : ∀ l : List α, (∀ a ∈ l, P a) ∨ ∃ pre a post, l = pre ++ a :: post ∧ (∀ b ∈ pre, P b) ∧ ¬ P a
  | [] => Or.inl (by simp)
  | a :: l => by
    by_cases h : P a
    · rcases first_bad P l with h' | ⟨pre, b, post, rfl, h1, h2⟩
      · left
        intro b hb
        rcases List.mem_cons.1 hb with rfl | hb
        · exact h
        · exact h' b hb
      · right
        refine ⟨a :: pre, b, post, rfl, ?_, h2⟩
        intro c hc
        rcases List.mem_cons.1 hc with rfl | hc
        · exact h
        · exact h1 c hc
    · exact Or.inr ⟨[], a, l, rfl, by simp, h⟩

theorem mkPolicy_eq {flags values : PolicyArg} {fs vs : List (List Char)} (hf : Strings flags fs) (hv : Strings values vs)
    (hlen : fs.length = vs.length) :
    mkPolicy flags values = (policyLoop (fs.zip (vs.map lower)) []).bind fun attrs => .ok ⟨attrs, fs⟩ := by
  rw [mkPolicy, strings_iff.1 hf, strings_iff.1 hv]
  dsimp only [Except.bind]
  rw [if_neg (by rw [List.length_map]; simpa using hlen)]

theorem mem_zip_index {α β} {l : List α} {l' : List β} {p : α × β} (h : p ∈ l.zip l') : ∃ k : Nat, l[k]? = some p.1 ∧ l'[k]? = some p.2 := by
  obtain ⟨k, hk⟩ := List.mem_iff_getElem?.1 h
  exact ⟨k, List.getElem?_zip_eq_some.1 hk⟩

/-- C53: flags and values are accepted exactly if there are as many values as flags, the names of the flags are well formed, and the
values are the name of a policy. -/
theorem C53_accepts (flags values : PolicyArg) (fs vs : List (List Char)) (hf : Strings flags fs) (hv : Strings values vs) :
    (∃ p, mkPolicy flags values = .ok p) ↔ fs.length = vs.length ∧ (∀ f ∈ fs, GoodName f) ∧ ∀ v ∈ vs, ∃ name n, Means v name n := by
  by_cases hlen : fs.length = vs.length
  · rw [mkPolicy_eq hf hv hlen]
    rcases first_bad (fun p : List Char × List Char => GoodName p.1 ∧ p.2 ∈ choices) (fs.zip (vs.map lower)) with h | ⟨pre, ⟨f, v⟩, post, e, h1, h2⟩
    · rw [policyLoop_ok _ _ h]
      refine iff_of_true ⟨_, rfl⟩ ⟨hlen, ?_, ?_⟩
      · intro f hmem
        obtain ⟨k, hk⟩ := List.mem_iff_getElem?.1 hmem
        obtain ⟨hk', _⟩ := List.getElem?_eq_some_iff.1 hk
        exact (h (f, lower vs[k]) (List.mem_of_getElem? (i := k) (List.getElem?_zip_eq_some.2
          ⟨hk, by rw [List.getElem?_map, List.getElem?_eq_getElem (by omega)]; rfl⟩))).1
      · intro v hmem
        obtain ⟨k, hk⟩ := List.mem_iff_getElem?.1 hmem
        obtain ⟨hk', _⟩ := List.getElem?_eq_some_iff.1 hk
        exact mem_choices.1 (h (fs[k], lower v) (List.mem_of_getElem? (i := k) (List.getElem?_zip_eq_some.2
          ⟨List.getElem?_eq_getElem (by omega), by rw [List.getElem?_map, hk]; rfl⟩))).2
    · refine iff_of_false ?_ ?_
      · rintro ⟨p, hp⟩
        rw [e, policyLoop_bad _ _ _ _ _ h1, policyLoop.eq_def] at hp
        cases f with
        | nil => cases hp
        | cons c f =>
          dsimp only at hp
          by_cases hc : c = '_'
          · rw [if_pos hc] at hp; cases hp
          · rw [if_neg hc] at hp
            by_cases hvv : v ∈ choices
            · exact h2 ⟨⟨c, f, rfl, hc⟩, hvv⟩
            · rw [if_pos hvv] at hp; cases hp
      · rintro ⟨_, h3, h4⟩
        apply h2
        obtain ⟨k, hk1, hk2⟩ := mem_zip_index (p := (f, v)) (l := fs) (l' := vs.map lower) (by rw [e]; simp)
        refine ⟨h3 f (List.mem_of_getElem? hk1), ?_⟩
        rw [List.getElem?_map] at hk2
        obtain ⟨w, hw, rfl⟩ := Option.map_eq_some_iff.1 hk2
        exact mem_choices.2 (h4 w (List.mem_of_getElem? hw))
  · refine iff_of_false ?_ (fun h => hlen h.1)
    rintro ⟨p, hp⟩
    rw [mkPolicy, strings_iff.1 hf, strings_iff.1 hv] at hp
    dsimp only [Except.bind] at hp
    rw [if_pos (by rw [List.length_map]; exact hlen)] at hp
    cases hp

example : Strings (.str " edge, dead".toList) ["edge".toList, "dead".toList] ∧ Strings (.list [" Mask".toList, "KEEP ".toList]) ["Mask".toList, "KEEP".toList] := by
  refine ⟨strings_iff.2 (by decide +kernel), strings_iff.2 (by decide +kernel)⟩

/-- C53: which exception is raised. -/
theorem C53_rejects (flags values : PolicyArg) (fs vs : List (List Char)) (hf : Strings flags fs) (hv : Strings values vs) :
    (fs.length ≠ vs.length → mkPolicy flags values = .error .valueError) ∧
    (fs.length = vs.length → ∀ k : Nat, ∀ f v, fs[k]? = some f → vs[k]? = some v →
      (∀ j : Nat, j < k → (∀ g ∈ fs[j]?, GoodName g) ∧ ∀ w ∈ vs[j]?, ∃ name n, Means w name n) →
      (f = [] → mkPolicy flags values = .error .indexError) ∧
      (f.head? = some '_' → mkPolicy flags values = .error .valueError) ∧
      (GoodName f → (¬ ∃ name n, Means v name n) → mkPolicy flags values = .error .keyError)) := by
  constructor
  · intro hlen
    rw [mkPolicy, strings_iff.1 hf, strings_iff.1 hv]
    dsimp only [Except.bind]
    rw [if_pos (by rw [List.length_map]; exact hlen)]
  · intro hlen k f v hk1 hk2 hbefore
    rw [mkPolicy_eq hf hv hlen]
    have hz : (fs.zip (vs.map lower))[k]? = some (f, lower v) :=
      List.getElem?_zip_eq_some.2 ⟨hk1, by rw [List.getElem?_map, hk2]; rfl⟩
    obtain ⟨hkl, hke⟩ := List.getElem?_eq_some_iff.1 hz
    have e : fs.zip (vs.map lower) = (fs.zip (vs.map lower)).take k ++ (f, lower v) :: (fs.zip (vs.map lower)).drop (k + 1) := by
      rw [← hke, ← List.drop_eq_getElem_cons hkl, List.take_append_drop]
    rw [e, policyLoop_bad, policyLoop.eq_def]
    · refine ⟨?_, ?_, ?_⟩
      · rintro rfl; rfl
      · intro hh
        cases f with
        | nil => simp at hh
        | cons c f =>
          simp only [List.head?_cons, Option.some.injEq] at hh
          dsimp only
          rw [if_pos hh]
          rfl
      · rintro ⟨c, t, rfl, hc⟩ hnot
        dsimp only
        rw [if_neg hc, if_pos (fun h => hnot (mem_choices.1 h))]
        rfl
    · intro p hp
      obtain ⟨j, hj⟩ := List.mem_iff_getElem?.1 hp
      have hjk : j < k := by
        obtain ⟨h, _⟩ := List.getElem?_eq_some_iff.1 hj
        rw [List.length_take] at h
        omega
      rw [List.getElem?_take_of_lt hjk] at hj
      obtain ⟨h1, h2⟩ := List.getElem?_zip_eq_some.1 hj
      obtain ⟨b1, b2⟩ := hbefore j hjk
      refine ⟨b1 _ h1, ?_⟩
      rw [List.getElem?_map] at h2
      obtain ⟨w, hw, e⟩ := Option.map_eq_some_iff.1 h2
      rw [← e]
      exact mem_choices.2 (b2 w hw)

example : mkPolicy (.str "a, _b".toList) (.str "keep,mask".toList) = .error .valueError ∧
    mkPolicy (.str "a,".toList) (.str "keep,mask".toList) = .error .indexError ∧
    mkPolicy (.str "a,b".toList) (.str "keep,drop".toList) = .error .keyError := by decide +kernel

theorem mkPolicy_attrs {flags values : PolicyArg} {fs vs : List (List Char)} (hf : Strings flags fs) (hv : Strings values vs) {p : Policy}
    (hp : mkPolicy flags values = .ok p) : fs.length = vs.length ∧ p.flags = fs ∧
      p.attrs = ((fs.zip (vs.map lower)).map fun q => (q.1, PolicyVal.str q.2)).reverse := by
  obtain ⟨hlen, h1, h2⟩ := (C53_accepts flags values fs vs hf hv).1 ⟨p, hp⟩
  rw [mkPolicy_eq hf hv hlen, policyLoop_ok] at hp
  · cases hp
    exact ⟨hlen, rfl, by simp⟩
  · intro q hq
    obtain ⟨k, hk1, hk2⟩ := mem_zip_index hq
    refine ⟨h1 _ (List.mem_of_getElem? hk1), ?_⟩
    rw [List.getElem?_map] at hk2
    obtain ⟨w, hw, e⟩ := Option.map_eq_some_iff.1 hk2
    rw [← e]
    exact mem_choices.2 (h2 w (List.mem_of_getElem? hw))

/-- The attribute of a flag is the value of its last occurrence. -/
theorem getattr_last {flags values : PolicyArg} {fs vs : List (List Char)} (hf : Strings flags fs) (hv : Strings values vs) {p : Policy}
    (hp : mkPolicy flags values = .ok p) {k : Nat} {f v : List Char} (hk1 : fs[k]? = some f) (hk2 : vs[k]? = some v)
    (hlast : ∀ j : Nat, k < j → fs[j]? ≠ some f) : p.getattr f = .ok (.str (lower v)) := by
  obtain ⟨hlen, h1, h2⟩ := mkPolicy_attrs hf hv hp
  have hz : (fs.zip (vs.map lower))[k]? = some (f, lower v) :=
    List.getElem?_zip_eq_some.2 ⟨hk1, by rw [List.getElem?_map, hk2]; rfl⟩
  obtain ⟨hkl, hke⟩ := List.getElem?_eq_some_iff.1 hz
  have e : fs.zip (vs.map lower) = (fs.zip (vs.map lower)).take k ++ (f, lower v) :: (fs.zip (vs.map lower)).drop (k + 1) := by
    rw [← hke, ← List.drop_eq_getElem_cons hkl, List.take_append_drop]
  have hnone : ((((fs.zip (vs.map lower)).drop (k + 1)).map fun q => (q.1, PolicyVal.str q.2)).reverse).find? (fun a => a.1 = f) = none := by
    rw [List.find?_eq_none]
    intro a ha
    simp only [List.mem_reverse, List.mem_map] at ha
    obtain ⟨q, hq, rfl⟩ := ha
    obtain ⟨j, hj⟩ := List.mem_iff_getElem?.1 hq
    rw [List.getElem?_drop] at hj
    have := (List.getElem?_zip_eq_some.1 hj).1
    intro hc
    simp only [decide_eq_true_eq] at hc
    rw [hc] at this
    exact hlast _ (by omega) this
  rw [Policy.getattr, h2, e]
  simp only [List.map_append, List.map_cons, List.reverse_append, List.reverse_cons, List.append_assoc]
  rw [List.find?_append, hnone]
  simp

/-- C53: every flag (its last occurrence) has its value under its name. -/
theorem C53_attributes (flags values : PolicyArg) (fs vs : List (List Char)) (hf : Strings flags fs) (hv : Strings values vs) (p : Policy)
    (hp : mkPolicy flags values = .ok p) (k : Nat) (f v : List Char) (hk1 : fs[k]? = some f) (hk2 : vs[k]? = some v)
    (hlast : ∀ j : Nat, k < j → fs[j]? ≠ some f) (name : String) (n : Int) (hm : Means v name n) : p.getattr f = .ok (.str name.toList) := by
  rw [getattr_last hf hv hp hk1 hk2 hlast, lower, hm.1]

example : ((mkPolicy (.str "edge, dead".toList) (.list [" Mask".toList, "KEEP ".toList])).toOption.map fun p => p.getattr "edge".toList)
    = some (.ok (.str "mask".toList)) := by decide +kernel

/-- C53 for distinct flags that do not have the name of a constant of the class: the conversion to an array gives the numbers of the
policies. -/
theorem C53_array_partial (flags values : PolicyArg) (fs vs : List (List Char)) (hf : Strings flags fs) (hv : Strings values vs) (p : Policy)
    (hp : mkPolicy flags values = .ok p) (hnodup : fs.Nodup) (h1 : "KEEP".toList ∉ fs) (h2 : "MASK".toList ∉ fs) (h3 : "REMOVE".toList ∉ fs) :
    ∃ l, p.array = .ok l ∧ l.length = vs.length ∧ ∀ k : Nat, ∀ v n, vs[k]? = some v → l[k]? = some n → ∃ name, Means v name n := by
  obtain ⟨hlen, hfl, hat⟩ := mkPolicy_attrs hf hv hp
  obtain ⟨_, hgood, hmeans⟩ := (C53_accepts flags values fs vs hf hv).1 ⟨p, hp⟩
  have hclass : ∀ c : List Char, c ∉ fs → ∀ w, classAttrs.find? (fun a => a.1 = c) = some w → p.getattr c = .ok w.2 := by
    intro c hc w hw
    rw [Policy.getattr, List.find?_append, List.find?_eq_none.2, hw]
    · rfl
    · intro a ha
      rw [hat] at ha
      simp only [List.mem_reverse, List.mem_map] at ha
      obtain ⟨q, hq, rfl⟩ := ha
      obtain ⟨k, hk, _⟩ := mem_zip_index hq
      intro h
      simp only [decide_eq_true_eq] at h
      exact hc (h ▸ List.mem_of_getElem? hk)
  have hk := hclass _ h1 ("KEEP".toList, .int 0) (by decide +kernel)
  have hm := hclass _ h2 ("MASK".toList, .int 1) (by decide +kernel)
  have hr := hclass _ h3 ("REMOVE".toList, .int 2) (by decide +kernel)
  dsimp only at hk hm hr
  -- the number of a value
  let code : List Char → Int := fun v => if lower v = "keep".toList then 0 else if lower v = "mask".toList then 1 else 2
  have hcode : ∀ v name n, Means v name n → code v = n := by
    rintro v name n ⟨e, hmem⟩
    simp only [List.mem_cons, Prod.mk.injEq, List.not_mem_nil, or_false] at hmem
    simp only [code, lower, e]
    rcases hmem with ⟨rfl, rfl⟩ | ⟨rfl, rfl⟩ | ⟨rfl, rfl⟩ <;> decide +kernel
  -- the value of a flag
  have hval : ∀ f ∈ fs, ∃ v, v ∈ vs ∧ p.getattr f = .ok (.str (lower v)) ∧ ∀ k : Nat, fs[k]? = some f → vs[k]? = some v := by
    intro f hmem
    obtain ⟨k, hkf⟩ := List.mem_iff_getElem?.1 hmem
    obtain ⟨hkl, _⟩ := List.getElem?_eq_some_iff.1 hkf
    have huniq : ∀ j : Nat, fs[j]? = some f → j = k := by
      intro j hj
      obtain ⟨hjl, ej⟩ := List.getElem?_eq_some_iff.1 hj
      obtain ⟨_, ek⟩ := List.getElem?_eq_some_iff.1 hkf
      exact hnodup.getElem_inj_iff.1 (ej.trans ek.symm)
    refine ⟨vs[k], List.getElem_mem .., ?_, ?_⟩
    · refine getattr_last hf hv hp hkf (List.getElem?_eq_getElem (by omega)) ?_
      intro j hj hjf
      have := huniq j hjf
      omega
    · intro j hj
      rw [huniq j hj]
      exact List.getElem?_eq_getElem (by omega)
  have hstep : ∀ f ∈ fs, ((p.getattr f).bind fun v => if v = .str "keep".toList then .ok (PolicyVal.int 0) else
      if v = .str "mask".toList then .ok (PolicyVal.int 1) else if v = .str "remove".toList then .ok (PolicyVal.int 2) else .error .keyError) =
      .ok (match p.getattr f with
        | .ok (.str w) => PolicyVal.int (if w = "keep".toList then 0 else if w = "mask".toList then 1 else 2)
        | _ => PolicyVal.int 0) := by
    intro f hmem
    obtain ⟨v, hvm, hg, _⟩ := hval f hmem
    rw [hg]
    dsimp only [Except.bind]
    obtain ⟨name, n, e, hin⟩ := hmeans v hvm
    simp only [List.mem_cons, Prod.mk.injEq, List.not_mem_nil, or_false] at hin
    simp only [lower, e]
    rcases hin with ⟨rfl, rfl⟩ | ⟨rfl, rfl⟩ | ⟨rfl, rfl⟩ <;> decide +kernel
  have harr : p.array = .ok (fs.map fun f => match p.getattr f with
        | .ok (.str w) => if w = "keep".toList then 0 else if w = "mask".toList then 1 else 2
        | _ => 0) := by
    rw [Policy.array, hk, hm, hr, hfl]
    dsimp only [Except.bind]
    have := mapM_get (l := fs) hstep
    dsimp only [Except.bind] at this
    rw [this]
    dsimp only
    rw [mapM_get (g := fun v => match v with | .int n => n | .str _ => 0)]
    · rw [List.map_map]
      congr 1
      apply List.map_congr_left
      intro f hmem
      obtain ⟨v, _, hg, _⟩ := hval f hmem
      simp only [Function.comp, hg]
    · intro a ha
      obtain ⟨f, hmem, rfl⟩ := List.mem_map.1 ha
      obtain ⟨v, _, hg, _⟩ := hval f hmem
      rw [hg]
  refine ⟨_, harr, by rw [List.length_map]; exact hlen, ?_⟩
  intro k v n hkv hkn
  rw [List.getElem?_map] at hkn
  obtain ⟨f, hkf, e⟩ := Option.map_eq_some_iff.1 hkn
  obtain ⟨w, _, hg, hw⟩ := hval f (List.mem_of_getElem? hkf)
  have hwv := hw k hkf
  rw [hkv] at hwv
  cases hwv
  rw [hg] at e
  obtain ⟨name, m, hmn⟩ := hmeans v (List.mem_of_getElem? hkv)
  have h5 : code v = n := e
  rw [hcode v name m hmn] at h5
  exact ⟨name, h5 ▸ hmn⟩

example : ((mkPolicy (.str "edge, dead,b".toList) (.str " Mask,KEEP ,remove".toList)).bind fun p => p.array) = .ok [1, 0, 2] := by decide +kernel

/-- C53 fails for a flag that has the name of a constant of the class: it replaces the constant, and the conversion to an array fails. -/
theorem C53_violation_constant : ∃ p, mkPolicy (.str "KEEP,edge".toList) (.str "mask,keep".toList) = .ok p ∧ p.array = .error .valueError :=
  ⟨⟨[("edge".toList, .str "keep".toList), ("KEEP".toList, .str "mask".toList)], ["KEEP".toList, "edge".toList]⟩, by decide +kernel, by decide +kernel⟩

/-- C53 fails for a flag that is given twice: only the last value is kept. -/
theorem C53_violation_repeated : ((mkPolicy (.str "a,a".toList) (.str "mask,keep".toList)).bind fun p => p.array) = .ok [0, 0] := by decide +kernel

end Verif.Dist
