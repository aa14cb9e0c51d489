import Verif.Units.Parse
import Mathlib.Tactic.IntervalCases

/-!
Lemmas on the printer of units.
-/
namespace Verif.Units
open Verif.Py

/-! ### Order of the symbols -/

theorem symLe_total (s t : Sym) : symLe s t = true ∨ symLe t s = true := by
  induction s generalizing t with
  | nil => simp [symLe]
  | cons c s ih =>
    cases t with
    | nil => simp [symLe]
    | cons d t =>
      rw [symLe, symLe]
      by_cases h1 : c.toNat < d.toNat
      · simp [h1]
      · by_cases h2 : d.toNat < c.toNat
        · simp [h2]
        · simpa [h1, h2] using ih t

theorem symLe_trans {s t u : Sym} (h1 : symLe s t = true) (h2 : symLe t u = true) : symLe s u = true := by
  induction s generalizing t u with
  | nil => simp [symLe]
  | cons c s ih =>
    cases t with
    | nil => simp [symLe] at h1
    | cons d t =>
      cases u with
      | nil => simp [symLe] at h2
      | cons e u =>
        rw [symLe] at h1 h2 ⊢
        by_cases a1 : c.toNat < d.toNat
        · by_cases b1 : d.toNat < e.toNat
          · rw [if_pos (by omega)]
          · rw [if_neg b1] at h2
            by_cases b2 : e.toNat < d.toNat
            · simp [b2] at h2
            · rw [if_pos (by omega)]
        · rw [if_neg a1] at h1
          by_cases a2 : d.toNat < c.toNat
          · simp [a2] at h1
          · rw [if_neg a2] at h1
            by_cases b1 : d.toNat < e.toNat
            · rw [if_pos (by omega)]
            · rw [if_neg b1] at h2
              by_cases b2 : e.toNat < d.toNat
              · simp [b2] at h2
              · rw [if_neg b2] at h2
                rw [if_neg (by omega), if_neg (by omega)]
                exact ih h1 h2

theorem symLe_antisymm {s t : Sym} (h1 : symLe s t = true) (h2 : symLe t s = true) : s = t := by
  induction s generalizing t with
  | nil =>
    cases t with
    | nil => rfl
    | cons d t => simp [symLe] at h2
  | cons c s ih =>
    cases t with
    | nil => simp [symLe] at h1
    | cons d t =>
      rw [symLe] at h1 h2
      by_cases a1 : c.toNat < d.toNat
      · rw [if_neg (by omega), if_pos a1] at h2
        simp at h2
      · by_cases a2 : d.toNat < c.toNat
        · rw [if_neg a1, if_pos a2] at h1
          simp at h1
        · rw [if_neg a1, if_neg a2] at h1
          rw [if_neg a2, if_neg a1] at h2
          rw [ih h1 h2]
          congr 1
          exact Char.toNat_inj.1 (by omega)

instance : Std.Total (fun p q : Sym × ℚ => symLe p.1 q.1 = true) := ⟨fun _ _ => symLe_total _ _⟩

instance : IsTrans (Sym × ℚ) (fun p q : Sym × ℚ => symLe p.1 q.1 = true) := ⟨fun _ _ _ => symLe_trans⟩

theorem sorted_perm (u : UnitD) : (sortedItems u).Perm u := List.perm_insertionSort _ _

/-- The sorted items do not depend on the order of the dictionary. -/
theorem sorted_unique {u w : UnitD} (hu : Wf u) (h : u.Perm w) : sortedItems u = sortedItems w := by
  refine List.Perm.eq_of_pairwise ?_ (List.pairwise_insertionSort _ u) (List.pairwise_insertionSort _ w)
    ((sorted_perm u).trans (h.trans (sorted_perm w).symm))
  intro p q hp hq h1 h2
  have hp := (sorted_perm u).mem_iff.1 hp
  have hq := h.mem_iff.2 ((sorted_perm w).mem_iff.1 hq)
  have hk : p.1 = q.1 := symLe_antisymm h1 h2
  have e1 := expo_mem hu (show (p.1, p.2) ∈ u from hp)
  have e2 := expo_mem hu (show (q.1, q.2) ∈ u from hq)
  rw [hk, e2] at e1
  exact Prod.ext hk e1.symm

theorem strunit_perm (repr : ℚ → List Char) {u w : UnitD} (hu : Wf u) (h : u.Perm w) : strunit repr u = strunit repr w := by
  have hany : (u.any fun p => decide (0 ≤ p.2)) = w.any fun p => decide (0 ≤ p.2) := by
    rw [Bool.eq_iff_iff, List.any_eq_true, List.any_eq_true]
    simp only [h.mem_iff]
  rw [strunit, strunit, sorted_unique hu h, h.length_eq, hany]

/-! ### Integers -/

theorem isDig_ofNat {n : Nat} (h : n < 10) : '0' ≤ Char.ofNat (48 + n) ∧ Char.ofNat (48 + n) ≤ '9' ∧
    (Char.ofNat (48 + n)).toNat - '0'.toNat = n := by
  interval_cases n <;> decide

theorem digitsAux_spec : ∀ (fuel n : Nat), n < fuel → digitsAux fuel n ≠ [] ∧
    (∀ c ∈ digitsAux fuel n, '0' ≤ c ∧ c ≤ '9') ∧ digitsValue (digitsAux fuel n) = n := by
  intro fuel
  induction fuel with
  | zero => intro n h; omega
  | succ fuel ih =>
    intro n h
    rw [digitsAux]
    by_cases h1 : n < 10
    · rw [if_pos h1]
      obtain ⟨a, b, c⟩ := isDig_ofNat h1
      refine ⟨by simp, ?_, ?_⟩
      · intro d hd
        rw [List.mem_singleton.1 hd]
        exact ⟨a, b⟩
      · simp only [digitsValue, List.map_cons, List.map_nil, List.reverse_cons, List.reverse_nil, List.nil_append, c]
        simp
    · rw [if_neg h1]
      obtain ⟨i1, i2, i3⟩ := ih (n / 10) (by omega)
      obtain ⟨a, b, c⟩ := isDig_ofNat (Nat.mod_lt n (by omega : 10 > 0))
      refine ⟨by simp, ?_, ?_⟩
      · intro d hd
        rcases List.mem_append.1 hd with hd | hd
        · exact i2 d hd
        · rw [List.mem_singleton.1 hd]; exact ⟨a, b⟩
      · simp only [digitsValue, List.map_append, List.map_cons, List.map_nil, List.reverse_append, List.reverse_cons,
          List.reverse_nil, List.nil_append, List.cons_append, Nat.ofDigits_cons, c] at i3 ⊢
        rw [i3]
        omega

/-- The numeral of an integer. -/
def intNumeral (z : Int) : Numeral := ⟨decide (z < 0), digitsAux (z.natAbs + 1) z.natAbs, none⟩

theorem intNumeral_good (z : Int) : (intNumeral z).Good :=
  ⟨(digitsAux_spec _ _ (by omega)).1, (digitsAux_spec _ _ (by omega)).2.1, by simp [intNumeral]⟩

theorem intNumeral_value (z : Int) : (intNumeral z).value = z := by
  have h := (digitsAux_spec (z.natAbs + 1) z.natAbs (by omega)).2.2
  rw [Numeral.value]
  simp only [intNumeral, h, add_zero]
  by_cases hz : z < 0
  · simp only [hz, decide_true, if_true]
    have : ((z.natAbs : Nat) : Int) = -z := by omega
    have h2 : ((z.natAbs : Nat) : ℚ) = -(z : ℚ) := by
      rw [← Int.cast_natCast, this]; push_cast; rfl
    rw [h2, neg_neg]
  · simp only [hz, decide_false, Bool.false_eq_true, if_false]
    have : ((z.natAbs : Nat) : Int) = z := by omega
    rw [← Int.cast_natCast, this]

theorem intNumeral_chars (z : Int) : (intNumeral z).chars = strInt z := by
  rw [Numeral.chars, intNumeral, strInt]
  by_cases h : z < 0 <;> simp [h]

theorem trunc_int (z : Int) : trunc (z : ℚ) = z := by
  rw [trunc]
  by_cases h : (0 : ℚ) ≤ z
  · rw [if_pos h, Int.floor_intCast]
  · rw [if_neg h, ← Int.cast_neg, Int.floor_intCast, neg_neg]

/-- The exponent of an integer. -/
def intExp (z : Int) : Option Numeral := if z = 1 then none else some (intNumeral z)

theorem strExp_int (repr : ℚ → List Char) (z : Int) : strExp repr z = expChars (intExp z) := by
  rw [strExp, intExp]
  by_cases h : z = 1
  · subst h; simp [expChars]
  · rw [if_pos (by exact_mod_cast h), if_neg h, trunc_int, if_pos (by simp), expChars, intNumeral_chars]

/-! ### Printed units as factors -/

/-- All factors but the last one are followed by a space. -/
def spaced : List Factor → List Factor
  | [] => []
  | [t] => [t]
  | t :: t' :: ts => { t with trail := 1 } :: spaced (t' :: ts)

theorem spaced_chars : ∀ ts : List Factor, (∀ t ∈ ts, t.trail = 0) →
    (ts.flatMap fun t => ' ' :: t.chars).drop 1 = factorsChars (spaced ts) := by
  intro ts
  induction ts with
  | nil => intro _; rfl
  | cons t ts ih =>
    intro h
    cases ts with
    | nil => simp [spaced, factorsChars]
    | cons t' ts =>
      have := ih fun s hs => h s (List.mem_cons_of_mem _ hs)
      have ht := h t List.mem_cons_self
      rw [spaced]
      simp only [factorsChars] at this ⊢
      rw [List.flatMap_cons, List.flatMap_cons, List.flatMap_cons (xs := spaced (t' :: ts)), ← this]
      simp [Factor.chars, ht]

theorem spaced_grammar : ∀ ts : List Factor, (∀ t ∈ ts, t.Good) → Grammar (spaced ts) := by
  intro ts
  induction ts with
  | nil => intro _; exact ⟨by simp [spaced], List.IsChain.nil⟩
  | cons t ts ih =>
    intro h
    cases ts with
    | nil => exact ⟨by simpa [spaced] using h, List.IsChain.singleton _⟩
    | cons t' ts =>
      have hg := ih fun s hs => h s (List.mem_cons_of_mem _ hs)
      have ht := h t List.mem_cons_self
      rw [spaced]
      refine ⟨?_, ?_⟩
      · intro s hs
        rcases List.mem_cons.1 hs with rfl | hs
        · exact ht
        · exact hg.good s hs
      · have hc := hg.separated
        cases hsp : spaced (t' :: ts) with
        | nil => exact List.IsChain.singleton _
        | cons a l =>
          rw [hsp] at hc
          exact List.IsChain.cons_cons (.inl Nat.one_pos) hc

theorem spaced_powers (ts : List Factor) : powers (spaced ts) = powers ts := by
  induction ts with
  | nil => rfl
  | cons t ts ih =>
    cases ts with
    | nil => rfl
    | cons t' ts =>
      rw [spaced, powers, List.map_cons, ← powers, ih]
      rfl

/-- A factor without operator. -/
def posFactor (p : Sym × Int) : Factor := ⟨.none, 0, p.1, intExp p.2, 0⟩

/-- A factor after a slash. -/
def negFactor (p : Sym × Int) : Factor := ⟨.over, 1, p.1, intExp (-p.2), 0⟩

theorem posFactor_expo (p : Sym × Int) : (posFactor p).expo = p.2 := by
  by_cases h : p.2 = 1
  · simp [Factor.expo, posFactor, intExp, h]
  · simp [Factor.expo, posFactor, intExp, h, intNumeral_value]

theorem negFactor_expo (p : Sym × Int) : (negFactor p).expo = p.2 := by
  by_cases h : -p.2 = 1
  · have : p.2 = -1 := by omega
    simp [Factor.expo, negFactor, intExp, this]
  · simp [Factor.expo, negFactor, intExp, h, intNumeral_value]

theorem good_of_exp {t : Factor} (h : Word t.sym ∨ Marks t.sym) {z : Int} (hz : t.exp = intExp z) : t.Good := by
  refine ⟨h, ?_⟩
  intro x hx
  rw [hz, intExp] at hx
  by_cases h1 : z = 1
  · simp [h1] at hx
  · simp only [h1, if_false, Option.mem_def, Option.some.injEq] at hx
    rw [← hx]
    exact intNumeral_good z

/-- The exponents as rational numbers. -/
def castUnit (u : List (Sym × Int)) : UnitD := u.map fun p => (p.1, (p.2 : ℚ))

theorem unit_cast {u : UnitD} (h : ∀ p ∈ u, ∃ z : Int, p.2 = z) : ∃ w, u = castUnit w := by
  induction u with
  | nil => exact ⟨[], rfl⟩
  | cons p u ih =>
    obtain ⟨w, rfl⟩ := ih fun q hq => h q (List.mem_cons_of_mem _ hq)
    obtain ⟨z, hz⟩ := h p List.mem_cons_self
    exact ⟨(p.1, z) :: w, by simp [castUnit, ← hz]⟩

/-- The factors of a printed unit. -/
def printed (l : List (Sym × Int)) : List Factor :=
  if l.any fun p => 0 ≤ p.2 then
    ((l.filter fun p => 0 ≤ p.2).map posFactor) ++ ((l.filter fun p => ¬ 0 ≤ p.2).map negFactor)
  else l.map posFactor

theorem strunit_printed (repr : ℚ → List Char) {u : UnitD} {l : List (Sym × Int)} (h : sortedItems u = castUnit l) :
    strunit repr u = factorsChars (spaced (printed l)) := by
  have hp := sorted_perm u
  rw [h] at hp
  have hlen : u.length = l.length := by rw [← hp.length_eq]; simp [castUnit]
  have hany : (u.any fun p => decide (0 ≤ p.2)) = l.any fun p => decide (0 ≤ p.2) := by
    rw [Bool.eq_iff_iff, List.any_eq_true, List.any_eq_true]
    simp only [← hp.mem_iff, castUnit, List.mem_map, decide_eq_true_eq]
    constructor
    · rintro ⟨_, ⟨q, hq, rfl⟩, hz⟩; exact ⟨q, hq, by simpa using hz⟩
    · rintro ⟨q, hq, hz⟩; exact ⟨_, ⟨q, hq, rfl⟩, by simpa using hz⟩
  have h0 : ∀ t ∈ printed l, t.trail = 0 := by
    intro t ht
    rw [printed] at ht
    split_ifs at ht
    · rcases List.mem_append.1 ht with ht | ht <;> obtain ⟨p, _, rfl⟩ := List.mem_map.1 ht <;> rfl
    · obtain ⟨p, _, rfl⟩ := List.mem_map.1 ht; rfl
  rw [← spaced_chars _ h0, strunit, hlen, hany, h]
  by_cases hl : l.length = 0
  · rw [if_pos hl, List.length_eq_zero_iff.1 hl]
    rfl
  rw [if_neg hl, printed]
  have e1 : ∀ p : Sym × Int, ' ' :: (p.1 ++ strExp repr (p.2 : ℚ)) = ' ' :: (posFactor p).chars := by
    intro p
    rw [strExp_int]
    simp [posFactor, Factor.chars]
  have e2 : ∀ p : Sym × Int, ' ' :: '/' :: ' ' :: (p.1 ++ strExp repr (-(p.2 : ℚ))) = ' ' :: (negFactor p).chars := by
    intro p
    have : -(p.2 : ℚ) = ((-p.2 : Int) : ℚ) := by push_cast; rfl
    rw [this, strExp_int]
    simp [negFactor, Factor.chars]
  cases hb : l.any fun p => decide (0 ≤ p.2) with
  | true =>
    simp only [Bool.not_true, Bool.false_eq_true, if_false, if_true, and_true]
    rw [List.flatMap_append]
    congr 2
    · clear hb hl h hp hlen hany h0
      induction l with
      | nil => rfl
      | cons p l ih =>
        simp only [castUnit, List.map_cons, List.flatMap_cons] at ih ⊢
        rw [ih]
        by_cases hz : 0 ≤ p.2
        · have : ¬ ((p.2 : ℚ) < 0) := by push Not; exact_mod_cast hz
          simp only [this, if_false, hz, decide_true, List.filter_cons_of_pos, List.map_cons, List.flatMap_cons]
          rw [List.cons_append, e1]
        · have : ((p.2 : ℚ) < 0) := by exact_mod_cast not_le.1 hz
          simp [this, hz]
    · clear hb hl h hp hlen hany h0
      induction l with
      | nil => rfl
      | cons p l ih =>
        simp only [castUnit, List.map_cons, List.flatMap_cons] at ih ⊢
        rw [ih]
        by_cases hz : 0 ≤ p.2
        · have : ((0 : ℚ) ≤ p.2) := by exact_mod_cast hz
          simp [this, hz]
        · have : ¬ ((0 : ℚ) ≤ p.2) := by push Not; exact_mod_cast not_le.1 hz
          simp only [this, if_false, hz, not_false_eq_true, decide_true, List.filter_cons_of_pos, List.map_cons, List.flatMap_cons]
          have := e2 p
          simp only [List.cons_append] at this ⊢
          rw [← List.cons_append, ← List.cons_append, ← List.cons_append, this]
          rfl
  | false =>
    simp only [Bool.not_false, if_true, Bool.false_eq_true, and_false, if_false]
    congr 1
    clear hb hl h hp hlen hany h0
    induction l with
    | nil => rfl
    | cons p l ih =>
      simp only [castUnit, List.map_cons, List.flatMap_cons] at ih ⊢
      rw [ih, List.cons_append, e1]

theorem printed_powers (l : List (Sym × Int)) : (powers (printed l)).Perm (castUnit l) := by
  rw [printed]
  by_cases h : (l.any fun p => decide (0 ≤ p.2)) = true
  · rw [if_pos h, powers, List.map_append, List.map_map, List.map_map]
    have e1 : ((fun t : Factor => (t.sym, t.expo)) ∘ posFactor) = fun p => (p.1, (p.2 : ℚ)) := by
      funext p; simp only [Function.comp, posFactor_expo]; rfl
    have e2 : ((fun t : Factor => (t.sym, t.expo)) ∘ negFactor) = fun p => (p.1, (p.2 : ℚ)) := by
      funext p; simp only [Function.comp, negFactor_expo]; rfl
    rw [e1, e2, ← List.map_append, castUnit]
    apply List.Perm.map
    have := List.filter_append_perm (fun p : Sym × Int => decide (0 ≤ p.2)) l
    simp only [decide_not]
    exact this
  · rw [if_neg h, powers, List.map_map, castUnit]
    have e1 : ((fun t : Factor => (t.sym, t.expo)) ∘ posFactor) = fun p => (p.1, (p.2 : ℚ)) := by
      funext p; simp only [Function.comp, posFactor_expo]; rfl
    rw [e1]

theorem printed_good {l : List (Sym × Int)} (h : ∀ p ∈ l, Word p.1 ∨ Marks p.1) : ∀ t ∈ printed l, t.Good := by
  intro t ht
  rw [printed] at ht
  split_ifs at ht
  · rcases List.mem_append.1 ht with ht | ht <;> obtain ⟨p, hp, rfl⟩ := List.mem_map.1 ht
    · exact good_of_exp (h p (List.mem_of_mem_filter hp)) rfl
    · exact good_of_exp (h p (List.mem_of_mem_filter hp)) rfl
  · obtain ⟨p, hp, rfl⟩ := List.mem_map.1 ht
    exact good_of_exp (h p hp) rfl

/-! ### A printed unit has no surrounding space -/

theorem letter_not_white {c : Char} (h : Letter c ∨ c = '?' ∨ ('0' ≤ c ∧ c ≤ '9') ∨ c = '*' ∨ c = '/') : ¬ White c := by
  rw [← isSpace_iff]
  rcases h with h | rfl | h | rfl | rfl
  · have h' := isSymChar_iff.2 h
    rw [isSymChar] at h'
    simp only [decide_eq_true_eq] at h'
    rw [isSpace, decide_eq_true_eq]
    rintro (rfl | h2 | h2)
    · exact (letter_props h).1 rfl
    · rcases h' with h' | h' | rfl | rfl | rfl
      · omega
      · omega
      · exact absurd h2 (by decide)
      · exact absurd h2 (by decide)
      · exact absurd h2 (by decide)
    · rcases h' with h' | h' | rfl | rfl | rfl
      · omega
      · omega
      · exact absurd h2 (by decide)
      · exact absurd h2 (by decide)
      · exact absurd h2 (by decide)
  · decide
  · have h' := isDig_iff.2 h
    rw [isDig, decide_eq_true_eq] at h'
    rw [isSpace, decide_eq_true_eq]
    rintro (rfl | h2 | h2)
    · exact absurd h' (by decide)
    · omega
    · omega
  · decide
  · decide

theorem last_append_of_ne {a b : List Char} (h : b ≠ []) : (a ++ b).getLast? = b.getLast? := by
  rw [List.getLast?_append]
  cases hb : b.getLast? with
  | none => exact absurd (List.getLast?_eq_none_iff.1 hb) h
  | some c => rfl

theorem factor_last {t : Factor} (ht : t.Good) (h0 : t.trail = 0) (hf : ∀ x ∈ t.exp, x.frac = none) : ∀ c ∈ t.chars.getLast?, ¬ White c := by
  intro c hc
  rw [Factor.chars, h0, List.replicate_zero, List.append_nil] at hc
  cases he : t.exp with
  | none =>
    rw [he, expChars, List.append_nil, last_append_of_ne (sym_head ht []).1] at hc
    have hm := List.mem_of_getLast? hc
    apply letter_not_white
    rcases ht.1 with w | m
    · exact .inl (w.2 c hm)
    · exact .inr (.inl (m.2 c hm))
  | some x =>
    have hx := ht.2 x he
    have hfr := hf x he
    rw [he, expChars, last_append_of_ne (by simp), Numeral.chars, hfr] at hc
    rw [List.append_nil, ← List.cons_append, last_append_of_ne hx.1] at hc
    exact letter_not_white (.inr (.inr (.inl (hx.2.1 c (List.mem_of_getLast? hc)))))

theorem spaced_last : ∀ (ts : List Factor), (∀ t ∈ ts, t.Good ∧ t.trail = 0 ∧ ∀ x ∈ t.exp, x.frac = none) →
    ∀ c ∈ (factorsChars (spaced ts)).getLast?, ¬ White c := by
  intro ts
  induction ts with
  | nil => intro _ c hc; simp [factorsChars, spaced] at hc
  | cons t ts ih =>
    intro h
    obtain ⟨hg, h0, hf⟩ := h t List.mem_cons_self
    cases ts with
    | nil =>
      simp only [spaced, factorsChars, List.flatMap_cons, List.flatMap_nil, List.append_nil]
      exact factor_last hg h0 hf
    | cons t' ts =>
      have := ih fun s hs => h s (List.mem_cons_of_mem _ hs)
      rw [spaced, factorsChars, List.flatMap_cons, ← factorsChars]
      have hne : factorsChars (spaced (t' :: ts)) ≠ [] := by
        obtain ⟨hg', _, _⟩ := h t' (List.mem_cons_of_mem _ List.mem_cons_self)
        cases ts with
        | nil =>
          have := chars_ne_nil hg'
          simpa [spaced, factorsChars] using this
        | cons a l =>
          have : Factor.chars { t' with trail := 1 } ≠ [] := chars_ne_nil (t := { t' with trail := 1 }) hg'
          simp [spaced, factorsChars, this]
      rw [last_append_of_ne hne]
      exact this

theorem printed_plain (l : List (Sym × Int)) : ∀ t ∈ printed l, t.trail = 0 ∧ ∀ x ∈ t.exp, x.frac = none := by
  have hx : ∀ z, ∀ x ∈ intExp z, x.frac = none := by
    intro z x hx
    rw [intExp] at hx
    by_cases h1 : z = 1
    · simp [h1] at hx
    · simp only [h1, if_false, Option.mem_def, Option.some.injEq] at hx
      rw [← hx]
      rfl
  intro t ht
  rw [printed] at ht
  split_ifs at ht
  · rcases List.mem_append.1 ht with ht | ht <;> obtain ⟨p, hp, rfl⟩ := List.mem_map.1 ht
    · exact ⟨rfl, hx _⟩
    · exact ⟨rfl, hx _⟩
  · obtain ⟨p, hp, rfl⟩ := List.mem_map.1 ht
    exact ⟨rfl, hx _⟩

theorem foldl_new (l u : UnitD) (h : Wf (u ++ l)) : l.foldl (fun u p => mulInplace u p.1 p.2) u = u ++ l := by
  induction l generalizing u with
  | nil => simp
  | cons p l ih =>
    have hp : p.1 ∉ u.map Prod.fst := by
      simp only [Wf, List.map_append, List.map_cons, List.nodup_append] at h
      exact fun h' => h.2.2 _ h' _ (List.mem_cons_self) rfl
    have : mulInplace u p.1 p.2 = u ++ [(p.1, p.2)] := by rw [mulInplace, lookup_none.2 hp]
    rw [List.foldl_cons, this, ih _ (by simpa using h)]
    simp

end Verif.Units
