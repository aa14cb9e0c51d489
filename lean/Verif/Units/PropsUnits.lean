import Verif.Units.Print
import Verif.Units.Convert
import Mathlib.Tactic.FinCases

/-!
Properties C19 to C21 and C72: algebra of the units, canonical form, printer and parser.
-/
namespace Verif.Units
open Verif.Py

/-! ### C19 -/

/-- C19: the exponents of a product, of a quotient and of a power. -/
theorem C19_exponents (u w : UnitD) (hu : Wf u) (x : ℚ) (s : Sym) :
    expo (mulUnit u w) s = expo u s + expo w s ∧ expo (divUnit u w) s = expo u s - expo w s ∧
      expo (powUnit u x) s = expo u s * x :=
  ⟨mulUnit_expo hu w s, divUnit_expo hu w s, powUnit_expo u x s⟩

/-- C19: the results are dictionaries. -/
theorem C19_wf (u w : UnitD) (hu : Wf u) (x : ℚ) : Wf (mulUnit u w) ∧ Wf (divUnit u w) ∧ Wf (powUnit u x) :=
  ⟨mulUnit_wf hu w, divUnit_wf hu w, powUnit_wf hu x⟩

/-- C19: commutative group, for units without zero exponent. -/
theorem C19_group (u w z : UnitD) (hu : Canonical u) (hw : Canonical w) (hz : Canonical z) :
    dictEq (mulUnit u w) (mulUnit w u) = true ∧
    dictEq (mulUnit (mulUnit u w) z) (mulUnit u (mulUnit w z)) = true ∧
    dictEq (divUnit (mulUnit u w) w) u = true ∧
    dictEq (mulUnit (divUnit u w) w) u = true := by
  have c := mulUnit_canonical hu hw.2
  have c' := mulUnit_canonical hw hu.2
  refine ⟨?_, ?_, ?_, ?_⟩
  · rw [dictEq_expo c c']
    intro s
    rw [mulUnit_expo hu.1, mulUnit_expo hw.1, add_comm]
  · rw [dictEq_expo (mulUnit_canonical c hz.2) (mulUnit_canonical hu (mulUnit_canonical hw hz.2).2)]
    intro s
    rw [mulUnit_expo c.1, mulUnit_expo hu.1, mulUnit_expo hu.1, mulUnit_expo hw.1, add_assoc]
  · rw [dictEq_expo (divUnit_canonical c hw.2) hu]
    intro s
    rw [divUnit_expo c.1, mulUnit_expo hu.1, add_sub_cancel_right]
  · rw [dictEq_expo (mulUnit_canonical (divUnit_canonical hu hw.2) hw.2) hu]
    intro s
    rw [mulUnit_expo (divUnit_wf hu.1 _), divUnit_expo hu.1, sub_add_cancel]

/-- C19: the empty unit is neutral, and a unit divided by itself is empty, without hypothesis on the exponents. -/
theorem C19_neutral (u : UnitD) (hu : Wf u) :
    mulUnit u [] = u ∧ mulUnit [] u = u ∧ divUnit u [] = u ∧ divUnit u u = [] := by
  refine ⟨rfl, ?_, rfl, ?_⟩
  · rw [mulUnit_eq, foldl_new u [] (by simpa using hu), List.nil_append]
  · have key : ∀ l : UnitD, Wf l → divUnit l l = [] := by
      intro l
      induction l with
      | nil => intro _; rfl
      | cons p l ih =>
        intro hl
        obtain ⟨k, x⟩ := p
        obtain ⟨hk, hl⟩ := wf_cons.1 hl
        have hdel : del ((k, x) :: l) k = l := by
          have := del_of_not_mem hk
          simpa [del] using this
        have := ih hl
        rw [divUnit] at this ⊢
        rw [List.foldl_cons]
        simp only [lookup, if_true]
        rw [hdel]
        exact this
    exact key u hu

/-- C19: powers. -/
theorem C19_powers (u : UnitD) (hu : Canonical u) (x y : ℚ) :
    dictEq (powUnit (powUnit u x) y) (powUnit u (x * y)) = true ∧
    dictEq (mulUnit (powUnit u x) (powUnit u y)) (powUnit u (x + y)) = true ∧
    dictEq (powUnit u 1) u = true ∧ dictEq (powUnit u (-1)) (divUnit [] u) = true := by
  have cx := powUnit_canonical hu x
  have cy := powUnit_canonical hu y
  have nil : Canonical [] := ⟨wf_nil, by intro p hp; simp at hp⟩
  refine ⟨?_, ?_, ?_, ?_⟩
  · rw [dictEq_expo (powUnit_canonical cx y) (powUnit_canonical hu _)]
    intro s
    rw [powUnit_expo, powUnit_expo, powUnit_expo, mul_assoc]
  · rw [dictEq_expo (mulUnit_canonical cx cy.2) (powUnit_canonical hu _)]
    intro s
    rw [mulUnit_expo cx.1, powUnit_expo, powUnit_expo, powUnit_expo, mul_add]
  · rw [dictEq_expo (powUnit_canonical hu 1) hu]
    intro s
    rw [powUnit_expo, mul_one]
  · rw [dictEq_expo (powUnit_canonical hu (-1)) (divUnit_canonical nil hu.2)]
    intro s
    rw [powUnit_expo, divUnit_expo wf_nil, expo_nil]
    ring

/-- The hypotheses of C19. -/
example : Canonical [("kg".toList, 1), ("s".toList, -2)] ∧
    mulUnit [("kg".toList, 1), ("s".toList, -2)] [("s".toList, 2), ("m".toList, 1 / 2)] = [("kg".toList, 1), ("m".toList, 1 / 2)] := by
  refine ⟨⟨by decide, ?_⟩, by decide +kernel⟩
  rw [NoZero]
  simp

/-- C19 without the hypothesis on the exponents: the product is not associative for the dictionaries of the code. -/
theorem C19_violation_zero : ∃ u w : UnitD, extract "m^0".toList = .ok u ∧ extract "m".toList = .ok w ∧
    dictEq (mulUnit (mulUnit u w) (powUnit w (-1))) (mulUnit u (mulUnit w (powUnit w (-1)))) = false :=
  ⟨[("m".toList, 0)], [("m".toList, 1)], by decide +kernel, by decide +kernel, by decide +kernel⟩

/-! ### C72: the parser -/

/-- C72: a string is accepted exactly when, without the surrounding white space, it is a sequence of factors separated as in the
grammar. -/
theorem C72_accepts (s : List Char) :
    (∃ u, extract s = .ok u) ↔ ∃ ts, Grammar ts ∧ IsStrip s (factorsChars ts) := by
  constructor
  · rintro ⟨u, h⟩
    obtain ⟨ts, hg, hs, _⟩ := extractLoop_sound _ _ _ _ (isStrip_head (strip_isStrip s)) h
    exact ⟨ts, hg, hs ▸ strip_isStrip s⟩
  · rintro ⟨ts, hg, hs⟩
    have e := isStrip_unique (strip_isStrip s) hs
    refine ⟨(powers ts).foldl (fun u p => mulInplace u p.1 p.2) [], ?_⟩
    rw [extract]
    simp only [e]
    exact extractLoop_chars _ ts [] le_rfl hg

/-- C72: the exponent of every symbol is the sum of the written exponents, counted negatively after a slash. -/
theorem C72_value (s : List Char) (ts : List Factor) (hg : Grammar ts) (hs : IsStrip s (factorsChars ts)) :
    ∃ u, extract s = .ok u ∧ Wf u ∧ ∀ k, expo u k = factorsExpo ts k := by
  have e := isStrip_unique (strip_isStrip s) hs
  refine ⟨(powers ts).foldl (fun u p => mulInplace u p.1 p.2) [], ?_, foldl_mul_wf _ wf_nil, ?_⟩
  · rw [extract]
    simp only [e]
    exact extractLoop_chars _ ts [] le_rfl hg
  · intro k
    rw [foldl_mul_expo _ wf_nil, expo_nil, zero_add, expo_powers]

/-- C72: every other string is rejected by a `ValueError`. -/
theorem C72_rejects (s : List Char) (h : ¬ ∃ ts, Grammar ts ∧ IsStrip s (factorsChars ts)) : extract s = .error .valueError := by
  rw [← C72_accepts] at h
  have key : ∀ (n : Nat) (s : List Char) (r : UnitD), (∃ u, extractLoop n s r = .ok u) ∨ extractLoop n s r = .error .valueError := by
    intro n
    induction n with
    | zero =>
      intro s r
      rw [extractLoop]
      by_cases h0 : s = []
      · rw [if_pos h0]; exact .inl ⟨_, rfl⟩
      · rw [if_neg h0]; exact .inr rfl
    | succ n ih =>
      intro s r
      rw [extractLoop_succ]
      by_cases h0 : s = []
      · rw [if_pos h0]; exact .inl ⟨_, rfl⟩
      · rw [if_neg h0]
        cases matchUnit s with
        | none => exact .inr rfl
        | some y => exact ih _ _
  rcases key (strip s).length (strip s) [] with ⟨u, hu⟩ | h'
  · exact absurd ⟨u, hu⟩ h
  · exact h'

/-- The hypotheses of C72: ' kg m^2/ s^1.5 '. -/
example : ∃ ts, Grammar ts ∧ IsStrip " kg m^2/ s^1.5 ".toList (factorsChars ts) ∧ factorsExpo ts "s".toList = -3 / 2 ∧
    extract " kg m^2/ s^1.5 ".toList = .ok [("kg".toList, 1), ("m".toList, 2), ("s".toList, -3 / 2)] := by
  refine ⟨[⟨.none, 0, "kg".toList, none, 1⟩, ⟨.none, 0, "m".toList, some ⟨false, "2".toList, none⟩, 0⟩,
    ⟨.over, 1, "s".toList, some ⟨false, "1".toList, some "5".toList⟩, 0⟩], ⟨?_, ?_⟩, ⟨" ".toList, " ".toList, ?_, ?_, ?_, ?_, ?_⟩, ?_, ?_⟩
  · intro t ht
    fin_cases ht
    · exact ⟨.inl ⟨by simp, by simp [Letter]⟩, by simp⟩
    · exact ⟨.inl ⟨by simp, by simp [Letter]⟩, by simp [Numeral.Good]⟩
    · exact ⟨.inl ⟨by simp, by simp [Letter]⟩, by simp [Numeral.Good]⟩
  · exact .cons_cons (.inl (by simp)) (.cons_cons (.inr (.inl (by simp))) (.singleton _))
  · decide
  · simp [White]
  · simp [White]
  · simp [factorsChars, Factor.chars, White]
  · simp [factorsChars, Factor.chars, White, expChars, Numeral.chars]
  · simp [factorsExpo, Factor.expo, Numeral.value, digitsValue]
    norm_num
  · decide +kernel

/-- Strings outside the grammar. -/
example : extract "m^".toList = .error .valueError ∧ extract "m^.5".toList = .error .valueError ∧
    extract "1/m".toList = .error .valueError ∧ extract "m*".toList = .error .valueError := by
  decide +kernel

/-! ### C20 -/

/-- The units that a program obtains from strings in which no exponent is written as zero, and from tables with canonical
units. -/
inductive Obtained {K : Type} [Field K] [RatPow K] (L G : DTable K) : UnitD → Prop
  | parse (s : List Char) (ts : List Factor) (u : UnitD) : Grammar ts → IsStrip s (factorsChars ts) → (∀ t ∈ ts, t.expo ≠ 0) →
      extract s = .ok u → Obtained L G u
  | mul (u w : UnitD) : Obtained L G u → Obtained L G w → Obtained L G (mulUnit u w)
  | div (u w : UnitD) : Obtained L G u → Obtained L G w → Obtained L G (divUnit u w)
  | pow (u : UnitD) (x : ℚ) : Obtained L G u → Obtained L G (powUnit u x)
  | si (n : Nat) (q r : Q K) : Obtained L G q.unit → si n L G q = .ok r → Obtained L G r.unit
  | convert (n : Nat) (q r : Q K) (u : UnitD) : Obtained L G q.unit → Obtained L G u → tounit n L G q u = .ok r → Obtained L G r.unit

/-- C20 for the strings without zero exponent: every obtained unit is canonical. -/
theorem C20_canonical_partial {K : Type} [Field K] [RatPow K] {L G : DTable K}
    (hT : ∀ e ∈ L ++ G, ∀ d ∈ e.value, Canonical d.unit) {u : UnitD} (h : Obtained L G u) : Wf u ∧ ∀ p ∈ u, p.2 ≠ 0 := by
  show Canonical u
  induction h with
  | parse s ts u hg hs hz h =>
    have e := isStrip_unique (strip_isStrip s) hs
    rw [extract] at h
    simp only [e] at h
    rw [extractLoop_chars _ ts [] le_rfl hg] at h
    cases h
    refine ⟨foldl_mul_wf _ wf_nil, foldl_mul_noZero _ ?_ wf_nil (by intro p hp; simp at hp)⟩
    intro p hp
    obtain ⟨t, ht, rfl⟩ := List.mem_map.1 hp
    exact hz t ht
  | mul u w _ _ hu hw => exact mulUnit_canonical hu hw.2
  | div u w _ _ hu hw => exact divUnit_canonical hu hw.2
  | pow u x _ hu => exact powUnit_canonical hu x
  | si n q r _ h hq => exact si_canonical hT n q r hq h
  | convert n q r u _ _ h hq hu =>
    have : r.unit = u := by
      by_cases h1 : q.unit = []
      · have h0 : q.unit.length = 0 ∨ u.length = 0 := by simp [h1]
        rw [tounit, inunit, if_pos h0] at h
        cases h
        rfl
      · by_cases h2 : u = []
        · have h0 : q.unit.length = 0 ∨ u.length = 0 := by simp [h2]
          rw [tounit, inunit, if_pos h0] at h
          cases h
          rfl
        · obtain ⟨_, _, _, _, _, rfl⟩ := (tounit_ok h1 h2).1 h
          rfl
    rw [this]
    exact hu

/-- C20 for the strings without zero exponent: two obtained units are equal exactly when they have the same exponents. -/
theorem C20_equality_partial {K : Type} [Field K] [RatPow K] {L G : DTable K}
    (hT : ∀ e ∈ L ++ G, ∀ d ∈ e.value, Canonical d.unit) {u w : UnitD} (hu : Obtained L G u) (hw : Obtained L G w) :
    dictEq u w = true ↔ ∀ s, expo u s = expo w s :=
  dictEq_expo (C20_canonical_partial hT hu) (C20_canonical_partial hT hw)

/-- The hypotheses of C20: 'm s'. -/
example {K : Type} [Field K] [RatPow K] : Obtained ([] : DTable K) [] (powUnit [("m".toList, 1), ("s".toList, 1)] 2) := by
  refine .pow _ _ (.parse "m s".toList [⟨.none, 0, "m".toList, none, 1⟩, ⟨.none, 0, "s".toList, none, 0⟩] _ ⟨?_, ?_⟩
    ⟨[], [], ?_, by simp, by simp, ?_, ?_⟩ ?_ ?_)
  · intro t ht
    fin_cases ht
    · exact ⟨.inl ⟨by simp, by simp [Letter]⟩, by simp⟩
    · exact ⟨.inl ⟨by simp, by simp [Letter]⟩, by simp⟩
  · exact .cons_cons (.inl (by simp)) (.singleton _)
  · decide
  · simp [factorsChars, Factor.chars, White]
  · simp [factorsChars, Factor.chars, White, expChars]
  · simp [Factor.expo]
  · decide +kernel

/-- C20 fails for a zero exponent: 'm^0' is not the empty unit, and it survives in the products and in the conversions. -/
theorem C20_violation_zero : ∃ u : UnitD, extract "m^0".toList = .ok u ∧ (∀ s, expo u s = 0) ∧ dictEq u [] = false ∧
    dictEq (mulUnit u [("s".toList, 1)]) [("s".toList, 1)] = false := by
  refine ⟨[("m".toList, 0)], by decide +kernel, ?_, by decide, by decide +kernel⟩
  intro s
  rw [expo_cons, expo_nil]
  split_ifs <;> simp

/-! ### C21 -/

/-- C21: printing a unit with integer exponents and parsing it back gives the same unit.  The exponents may be zero. -/
theorem C21_roundtrip (repr : ℚ → List Char) (u : UnitD) (hu : Wf u) (hs : ∀ p ∈ u, Word p.1 ∨ Marks p.1)
    (hi : ∀ p ∈ u, ∃ z : Int, p.2 = z) : ∃ w, extract (strunit repr u) = .ok w ∧ dictEq w u = true := by
  have hp := sorted_perm u
  obtain ⟨l, hl⟩ := unit_cast (u := sortedItems u) fun p h => hi p (hp.mem_iff.1 h)
  have hsym : ∀ p ∈ l, Word p.1 ∨ Marks p.1 := by
    intro p h
    have : (p.1, (p.2 : ℚ)) ∈ sortedItems u := by rw [hl]; exact List.mem_map.2 ⟨p, h, rfl⟩
    exact hs _ (hp.mem_iff.1 this)
  have hg := printed_good hsym
  have hgr := spaced_grammar _ hg
  have hpow : (powers (spaced (printed l))).Perm u := by
    rw [spaced_powers]
    exact (printed_powers l).trans (hl ▸ hp)
  have hwf : Wf (powers (spaced (printed l))) := (wf_perm hpow).2 hu
  have hstrip : IsStrip (strunit repr u) (factorsChars (spaced (printed l))) := by
    refine ⟨[], [], by rw [strunit_printed repr hl]; simp, by simp, by simp, ?_, ?_⟩
    · intro c hc
      rcases starts_factors hgr.good c hc with h | h | h | h
      · exact letter_not_white (.inr (.inr (.inr (.inl h))))
      · exact letter_not_white (.inr (.inr (.inr (.inr h))))
      · exact letter_not_white (.inl h)
      · exact letter_not_white (.inr (.inl h))
    · exact spaced_last _ fun t ht => ⟨hg t ht, printed_plain l t ht⟩
  refine ⟨powers (spaced (printed l)), ?_, (dictEq_perm hwf hu).2 hpow⟩
  have e := isStrip_unique (strip_isStrip (strunit repr u)) hstrip
  rw [extract]
  simp only [e]
  rw [extractLoop_chars _ _ [] le_rfl hgr, foldl_new _ [] (by simpa using hwf), List.nil_append]

/-- C21: the printed form depends on the unit only, not on the order in which its factors were multiplied. -/
theorem C21_order (repr : ℚ → List Char) (u w : UnitD) (hu : Wf u) (hw : Wf w) (h : dictEq u w = true) :
    strunit repr u = strunit repr w :=
  strunit_perm repr hu ((dictEq_perm hu hw).1 h)

/-- The hypotheses of C21: 'kg m^2 / s^2', '?^-1 s^-2' and a unit with a zero exponent. -/
example : strunit (fun _ => []) [("s".toList, -2), ("m".toList, 2), ("kg".toList, 1)] = "kg m^2 / s^2".toList ∧
    strunit (fun _ => []) [("s".toList, -2), ("?".toList, -1)] = "?^-1 s^-2".toList ∧
    strunit (fun _ => []) [("s".toList, -12), ("m".toList, 0)] = "m^0 / s^12".toList := by
  refine ⟨?_, ?_, ?_⟩ <;> decide +kernel

end Verif.Units
