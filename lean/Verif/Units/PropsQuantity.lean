import Verif.Units.Table

/-!
Properties C22 to C25: conversions, rejections, arithmetic and SI expansion of quantities.

`K` is the field of the magnitudes.  The physical meaning of a quantity is `amount v q`, for every assignment `v` of
positive values to the symbols that satisfies the tables of units.
-/
namespace Verif.Units
open Verif.Py RatPow LawfulRatPow

variable {K : Type} [Field K] [LinearOrder K] [IsStrictOrderedRing K] [LawfulRatPow K]
variable {L G : DTable K} {v : Sym → K}

/-! ### C22 -/

/-- C22 restricted to units that are not empty: a conversion preserves the amount and gives the requested unit. -/
theorem C22_amount_partial (hg : GoodTables L G) (hv : Valuation L G v) {n : Nat} {q q' : Q K} {u : UnitD} (hq : Wf q.unit)
    (hu : Wf u) (h1 : q.unit ≠ []) (h2 : u ≠ []) (h : tounit n L G q u = .ok q') :
    amount v q' = amount v q ∧ q'.unit = u := by
  obtain ⟨r1, r2, e1, e2, hd, rfl⟩ := (tounit_ok h1 h2).1 h
  refine ⟨?_, rfl⟩
  rw [amount, amount, ← ratio hg hv hq hu e1 e2 hd, mul_assoc, div_mul_cancel₀ _ (value_pos hv.pos u).ne']

/-- C22 restricted to units that are not empty: converting back gives the original quantity. -/
theorem C22_roundtrip_partial (hg : GoodTables L G) {n : Nat} {q q' : Q K} {u : UnitD} (hq : Wf q.unit)
    (hu : Wf u) (h1 : q.unit ≠ []) (h2 : u ≠ []) (h : tounit n L G q u = .ok q') :
    tounit n L G q' q.unit = .ok q := by
  obtain ⟨r1, r2, e1, e2, hd, rfl⟩ := (tounit_ok h1 h2).1 h
  obtain ⟨w1, p1⟩ := si_factor hg hq e1
  obtain ⟨w2, p2⟩ := si_factor hg hu e2
  refine (tounit_ok h2 h1).2 ⟨r2, r1, e2, e1, (dictEq_perm w2 w1).2 ((dictEq_perm w1 w2).1 hd).symm, ?_⟩
  have := p1.ne'
  have := p2.ne'
  cases q
  simp only [Q.mk.injEq, and_true]
  field_simp

/-- C22 restricted to units that are not empty: converting twice is the same as converting once. -/
theorem C22_transitive_partial (hg : GoodTables L G) {n : Nat} {q q' : Q K} {u w : UnitD} (hq : Wf q.unit)
    (hu : Wf u) (hw : Wf w) (h1 : q.unit ≠ []) (h2 : u ≠ []) (h3 : w ≠ []) (h : tounit n L G q u = .ok q') :
    tounit n L G q' w = tounit n L G q w := by
  obtain ⟨r1, r2, e1, e2, hd, rfl⟩ := (tounit_ok h1 h2).1 h
  obtain ⟨w1, p1⟩ := si_factor hg hq e1
  obtain ⟨w2, p2⟩ := si_factor hg hu e2
  have hd := (dictEq_perm w1 w2).1 hd
  have l1 : ¬ (q.unit.length = 0 ∨ w.length = 0) := by simp [h1, h3]
  have l2 : ¬ (u.length = 0 ∨ w.length = 0) := by simp [h2, h3]
  rw [tounit, tounit, inunit, inunit, if_neg l1, if_neg l2, e1, e2]
  cases e3 : si n L G ⟨1, w⟩ with
  | error e => rfl
  | ok r3 =>
    obtain ⟨w3, p3⟩ := si_factor hg hw e3
    have he : dictEq r1.unit r3.unit = dictEq r2.unit r3.unit := by
      rw [Bool.eq_iff_iff, dictEq_perm w1 w3, dictEq_perm w2 w3]
      exact ⟨hd.symm.trans, hd.trans⟩
    simp only [he]
    cases dictEq r2.unit r3.unit with
    | false => rfl
    | true =>
      have := p2.ne'
      simp only [Bool.not_true, Bool.false_eq_true, if_false, Except.ok.injEq, Q.mk.injEq, and_true]
      field_simp

/-- The hypotheses of C22 for the table of the code: 2 km are 2000 m. -/
example : ∃ r, tounit 5 [] realTable ⟨2, [("km".toList, 1)]⟩ [("m".toList, 1)] = .ok r ∧
    amount realValue r = 2000 ∧ r.unit = [("m".toList, 1)] := by
  obtain ⟨r1, h1⟩ := si_total realTable_ranked 4 ⟨1, [("km".toList, 1)]⟩ (by decide)
  have hb : ∀ r, si 5 [] realTable ⟨1, [("km".toList, 1)]⟩ = .ok r → r.unit = [("m".toList, 1)] := by
    intro r h
    have e : si 5 [] realTable ⟨1, [("km".toList, 1)]⟩ =
        .ok ⟨1 * (1 * (1000 * 1 * 1)) * 1, mulUnit (mulUnit [] (mulUnit [("m".toList, 1)] [])) []⟩ := rfl
    rw [e] at h
    cases h
    decide
  have hm : si 5 [] realTable ⟨1, [("m".toList, 1)]⟩ = .ok ⟨1, [("m".toList, 1)]⟩ :=
    si_of_base (by simp [Wf]) (by
      intro p hp
      rw [List.mem_singleton.1 hp]
      rfl) 4
  have ht : tounit 5 [] realTable ⟨2, [("km".toList, 1)]⟩ [("m".toList, 1)] = .ok ⟨2 * (r1.mag / 1), [("m".toList, 1)]⟩ :=
    (tounit_ok (by simp) (by simp)).2 ⟨r1, _, h1, hm, by rw [hb r1 h1]; rfl, rfl⟩
  refine ⟨_, ht, ?_, rfl⟩
  rw [(C22_amount_partial realTable_good realTable_valuation (by simp [Wf]) (by simp [Wf]) (by simp) (by simp) ht).1]
  norm_num [amount, value, realValue_km, realValue_m, realValue_Jy, rpow_real, Real.rpow_neg_one]

/-- C22 fails when one of the units is empty: 'km / m' is converted to a pure number without scaling. -/
theorem C22_violation_unitless : ∃ (q q' : Q ℝ) (v : Sym → ℝ), GoodTables [] realTable ∧ Valuation [] realTable v ∧ Wf q.unit ∧
    tounit 5 [] realTable q [] = .ok q' ∧ amount v q = 1000 ∧ amount v q' = 1 :=
  ⟨⟨1, [("km".toList, 1), ("m".toList, -1)]⟩, ⟨1, []⟩, realValue, realTable_good, realTable_valuation, by decide, rfl,
    by norm_num [amount, value, realValue_km, realValue_m, realValue_Jy, rpow_real, Real.rpow_neg_one], by norm_num [amount, value]⟩

/-! ### C23 -/

/-- C23 restricted to units that are not empty: a conversion between incommensurable units raises `UnitError` and leaves
the quantity unchanged. -/
theorem C23_inunit_partial (hg : GoodTables L G) {rank : Sym → Nat} (hr : Ranked L G rank) {n : Nat} {q : Q K} {u : UnitD}
    (hq : Wf q.unit) (hu : Wf u) (h1 : q.unit ≠ []) (h2 : u ≠ []) (hn : ∀ p ∈ q.unit ++ u, rank p.1 < n)
    (hi : Incompatible L G q.unit u) : inunit (n + 1) L G q u = (q, some .unitError) := by
  obtain ⟨r1, e1⟩ := si_total hr n ⟨1, q.unit⟩ fun p hp => hn p (List.mem_append_left _ hp)
  obtain ⟨r2, e2⟩ := si_total hr n ⟨1, u⟩ fun p hp => hn p (List.mem_append_right _ hp)
  obtain ⟨v, v', hv, hv', hne⟩ := hi
  have hd : dictEq r1.unit r2.unit = false := by
    rw [← Bool.not_eq_true]
    intro hd
    exact hne ((ratio hg hv hq hu e1 e2 hd).trans (ratio hg hv' hq hu e1 e2 hd).symm)
  have l1 : ¬ (q.unit.length = 0 ∨ u.length = 0) := by simp [h1, h2]
  rw [inunit, if_neg l1, e1, e2]
  simp only [hd]
  rfl

/-- C23: a quantity is unchanged by a conversion that fails, for whatever reason. -/
theorem C23_unchanged {n : Nat} {q q' : Q K} {u : UnitD} {e : PyErr} (h : inunit n L G q u = (q', some e)) : q' = q := by
  rw [inunit_tounit] at h
  cases ht : tounit n L G q u with
  | ok r => simp [ht] at h
  | error e => simp only [ht, Prod.mk.injEq] at h; exact h.1.symm

/-- C23, tables without definitions for powers of symbols, units that are not empty: a conversion is rejected exactly when the
units are incommensurable. -/
theorem C23_iff_partial (hg : GoodTables L G) (hL : NoPow L) (hG : NoPow G) (uL : (L.map (·.key)).Nodup)
    (uG : (G.map (·.key)).Nodup) {rank : Sym → Nat} (hr : Ranked L G rank)
    (hc : ∀ e ∈ L ++ G, ∀ d ∈ e.value, Canonical d.unit) {n : Nat} {q : Q K} {u : UnitD}
    (hq : Canonical q.unit) (hu : Canonical u) (h1 : q.unit ≠ []) (h2 : u ≠ []) (hn : ∀ p ∈ q.unit ++ u, rank p.1 < n) :
    inunit (n + 1) L G q u = (q, some .unitError) ↔ Incompatible L G q.unit u := by
  refine ⟨fun h => ?_, C23_inunit_partial hg hr hq.1 hu.1 h1 h2 hn⟩
  obtain ⟨r1, e1⟩ := si_total hr n ⟨1, q.unit⟩ fun p hp => hn p (List.mem_append_left _ hp)
  obtain ⟨r2, e2⟩ := si_total hr n ⟨1, u⟩ fun p hp => hn p (List.mem_append_right _ hp)
  have c1 := si_canonical hc _ ⟨1, q.unit⟩ _ hq e1
  have c2 := si_canonical hc _ ⟨1, u⟩ _ hu e2
  have gG : GoodGlobal G := ⟨uG, fun e he s x hk => by
    obtain ⟨s', hs'⟩ := hG e he
    rw [hs'] at hk; cases hk⟩
  have b1 := si_base hg.defined gG _ _ _ e1
  have b2 := si_base hg.defined gG _ _ _ e2
  have hd : dictEq r1.unit r2.unit = false := by
    have l1 : ¬ (q.unit.length = 0 ∨ u.length = 0) := by simp [h1, h2]
    rw [inunit, if_neg l1, e1, e2] at h
    cases hd : dictEq r1.unit r2.unit with
    | false => rfl
    | true => simp [hd] at h
  have hne : ¬ ∀ s, expo r1.unit s = expo r2.unit s := by
    rw [← dictEq_expo c1 c2, hd]; simp
  obtain ⟨s, hs⟩ := not_forall.1 hne
  have key : ∀ x : K, 0 < x → ∃ v, Valuation L G v ∧
      value v q.unit / value v u = r1.mag / r2.mag * rpow x (expo r1.unit s - expo r2.unit s) := by
    intro x hx
    have hw : ∀ t : Sym, 0 < (fun t => if t = s then x else 1) t := by
      intro t
      by_cases h : t = s
      · simpa [h] using hx
      · simp [h]
    have hval := extend_valuation hg hL hG uL uG hr hw
    refine ⟨_, hval, ?_⟩
    rw [si_value hg hval hq.1 e1, si_value hg hval hu.1 e2,
      value_congr fun p hp => extend_base hL hG rank _ (b1 p hp), value_congr fun p hp => extend_base hL hG rank _ (b2 p hp),
      value_single _ _ hx, value_single _ _ hx, sub_eq_add_neg, rpow_add _ _ _ hx, rpow_neg _ _ hx]
    ring
  obtain ⟨v1, hv1, q1⟩ := key 1 one_pos
  obtain ⟨v2, hv2, q2⟩ := key 2 two_pos
  refine ⟨v1, v2, hv1, hv2, ?_⟩
  rw [q1, q2, one_rpow]
  intro h
  obtain ⟨_, p1⟩ := si_factor hg hq.1 e1
  obtain ⟨_, p2⟩ := si_factor hg hu.1 e2
  have h := mul_left_cancel₀ (div_pos p1 p2).ne' h
  rw [← rpow_zero (2 : K) two_pos] at h
  exact sub_ne_zero.2 hs (rpow_inj two_pos (by norm_num) h).symm

/-- The hypotheses of C23: metres and seconds. -/
example : Incompatible (K := ℝ) [] [] [("m".toList, 1)] [("s".toList, 1)] ∧
    inunit 2 [] [] (⟨3, [("m".toList, 1)]⟩ : Q ℝ) [("s".toList, 1)] = (⟨3, [("m".toList, 1)]⟩, some .unitError) := by
  have : Incompatible (K := ℝ) [] [] [("m".toList, 1)] [("s".toList, 1)] :=
    ⟨fun _ => 1, fun t => if t = "m".toList then 2 else 1, ⟨by simp, by simp, by simp⟩,
      ⟨fun s => by split_ifs <;> norm_num, by simp, by simp⟩, by simp [value, rpow_real]⟩
  exact ⟨this, C23_inunit_partial (rank := fun _ => 0) ⟨by simp, by simp, by simp⟩ (by intro e he; simp at he) (by decide)
    (by decide) (by simp) (by simp) (by simp) this⟩

/-- C23 fails when one of the units is empty: metres are converted to a pure number, seconds are given to a pure number. -/
theorem C23_violation_unitless : ∃ q : Q ℝ, Incompatible [] realTable q.unit [] ∧
    inunit 5 [] realTable q [] = (⟨3, []⟩, none) ∧ inunit 5 [] realTable ⟨3, []⟩ q.unit = (q, none) := by
  refine ⟨⟨3, [("kloug".toList, 1)]⟩, ?_, rfl, rfl⟩
  refine ⟨realValue, fun s => if s = "kloug".toList then 2 else realValue s, realTable_valuation, ⟨?_, by simp, ?_⟩, ?_⟩
  · intro s
    show (0 : ℝ) < if s = "kloug".toList then 2 else realValue s
    split_ifs
    · norm_num
    · exact realTable_valuation.pos s
  · intro e he hs
    have := realTable_valuation.glob e he hs
    have hk : e.key.symbol ≠ "kloug".toList ∧ ∀ d ∈ e.value, ∀ p ∈ d.unit, p.1 ≠ "kloug".toList := by
      constructor
      · intro h
        have : ∀ e ∈ realTable, e.key.symbol ≠ "kloug".toList := by
          simp only [realTable, unitsTable, baseUnit, derivedUnit, List.forall_mem_cons, DKey.symbol]
          repeat' apply And.intro
          all_goals decide +kernel
        exact this e he h
      · intro d hd p hp h
        have := (realTable_units e he d hd).2 p hp
        rw [h] at this
        have h4 : rankOf e.key.symbol ≤ 4 := by
          unfold rankOf
          repeat' split
          all_goals omega
        have : rankOf "kloug".toList = 4 := by decide +kernel
        omega
    have hval : ∀ d ∈ e.value, amount (fun s => if s = "kloug".toList then 2 else realValue s) d = amount realValue d := by
      intro d hd
      rw [amount, amount, value_congr]
      intro p hp
      rw [if_neg (hk.2 d hd p hp)]
    revert this
    rcases e with ⟨key, b, _ | d⟩
    · simp [EntryOk]
    · cases key with
      | sym s =>
        simp only [EntryOk]
        rw [hval d rfl, if_neg (show ¬ s = _ from hk.1)]
        exact id
      | pow s x =>
        simp only [EntryOk]
        rw [hval d rfl, if_neg (show ¬ s = _ from hk.1)]
        exact id
  · norm_num [value, rpow_real, realValue_other]

/-- C23: units that are commensurable are rejected because of the definition of square radians: 'rad^4' and 'sr^2'. -/
theorem C23_violation_power : ∃ q : Q ℝ, (∀ v, Valuation [] realTable v → value v q.unit = value v [("sr".toList, 2)]) ∧
    inunit 5 [] realTable q [("sr".toList, 2)] = (q, some .unitError) := by
  refine ⟨⟨1, [("rad".toList, 4)]⟩, ?_, rfl⟩
  intro v hv
  have he := hv.glob ⟨.pow "rad".toList 2, false, some ⟨1, parsed "sr"⟩⟩
    (by simp [realTable, unitsTable]) (by rintro ⟨e, he, _⟩; simp at he)
  have hs : parsed "sr" = [("sr".toList, 1)] := by decide +kernel
  simp only [EntryOk, amount, hs, one_mul] at he
  rw [value_cons, value_nil, value_cons, value_nil, mul_one, mul_one]
  rw [value_cons, value_nil, mul_one, rpow_one _ (hv.pos _)] at he
  rw [← he, ← rpow_mul _ _ _ (hv.pos _)]
  norm_num

/-! ### C24 -/

theorem common_amount (hg : GoodTables L G) (hv : Valuation L G v) {n : Nat} {a b : Q K} (ha : Wf a.unit) (hb : Wf b.unit)
    (h1 : a.unit ≠ []) (h2 : b.unit ≠ []) {qs : List (Q K)} {u : UnitD} (h : commonInputs n L G [a, b] = .ok (qs, u)) :
    u = a.unit ∧ ∃ b', qs = [a, b'] ∧ b'.mag * value v a.unit = amount v b := by
  have hl : ¬ a.unit.length = 0 := by simpa using h1
  have hself : dictEq a.unit a.unit = true := (dictEq_perm ha ha).2 (List.Perm.refl _)
  rw [commonInputs, map_eq_ok] at h
  obtain ⟨qs', hm, h⟩ := h
  simp only [Prod.mk.injEq] at h
  obtain ⟨rfl, hu⟩ := h
  have hu : u = a.unit := by
    rw [← hu]
    simp [h1]
  subst hu
  have hc : ((([a, b] : List (Q K)).map (·.unit)).find? fun u => u.length ≠ 0).getD [] = a.unit := by
    simp [h1]
  rw [hc] at hm
  refine ⟨rfl, ?_⟩
  have hbl : ¬ b.unit.length = 0 := by simpa using h2
  simp only [List.mapM_cons, List.mapM_nil] at hm
  rw [if_neg (by simp [hself])] at hm
  cases hd : dictEq b.unit a.unit with
  | true =>
    rw [if_neg (by simp [hd])] at hm
    cases hm
    refine ⟨b, rfl, ?_⟩
    rw [amount, value_perm ((dictEq_perm hb ha).1 hd)]
  | false =>
    rw [if_pos (by simp [hd, h2])] at hm
    cases ht : tounit n L G b a.unit with
    | error e => rw [ht] at hm; cases hm
    | ok b' =>
      rw [ht] at hm
      cases hm
      obtain ⟨e, e'⟩ := C22_amount_partial hg hv hb ha h2 h1 ht
      refine ⟨b', rfl, ?_⟩
      rw [← e, amount, e']

/-- C24: a homogeneous function of two quantities with units gives the function of the amounts, in the unit of the first
one.  This is the case of `add`, `subtract`, `maximum`, `minimum`, `hypot`, `fmod`. -/
theorem C24_same (hg : GoodTables L G) (hv : Valuation L G v) {n : Nat} {a b r : Q K} (ha : Wf a.unit) (hb : Wf b.unit)
    (h1 : a.unit ≠ []) (h2 : b.unit ≠ []) (f : K → K → K) (hf : ∀ c x y, 0 < c → f x y * c = f (x * c) (y * c))
    (h : ufuncSame n L G f a b = .ok r) : amount v r = f (amount v a) (amount v b) ∧ r.unit = a.unit := by
  rw [ufuncSame, bind_eq_ok] at h
  obtain ⟨⟨qs, u⟩, hc, h⟩ := h
  obtain ⟨rfl, b', rfl, hb'⟩ := common_amount hg hv ha hb h1 h2 hc
  cases h
  refine ⟨?_, rfl⟩
  rw [amount, hf _ _ _ (value_pos hv.pos a.unit), hb']
  rfl

/-- C24: sum of quantities. -/
theorem C24_add (hg : GoodTables L G) (hv : Valuation L G v) {n : Nat} {a b r : Q K} (ha : Wf a.unit) (hb : Wf b.unit)
    (h1 : a.unit ≠ []) (h2 : b.unit ≠ []) (h : ufuncSame n L G (· + ·) a b = .ok r) :
    amount v r = amount v a + amount v b ∧ r.unit = a.unit :=
  C24_same hg hv ha hb h1 h2 _ (fun _ _ _ _ => by ring) h

/-- C24: difference of quantities. -/
theorem C24_sub (hg : GoodTables L G) (hv : Valuation L G v) {n : Nat} {a b r : Q K} (ha : Wf a.unit) (hb : Wf b.unit)
    (h1 : a.unit ≠ []) (h2 : b.unit ≠ []) (h : ufuncSame n L G (· - ·) a b = .ok r) :
    amount v r = amount v a - amount v b ∧ r.unit = a.unit :=
  C24_same hg hv ha hb h1 h2 _ (fun _ _ _ _ => by ring) h

/-- C24: an operand without unit is taken to be in the unit of the other one. -/
theorem C24_adopt (n : Nat) (f : K → K → K) (a b : Q K) (ha : Wf a.unit) (hb : Wf b.unit) :
    (b.unit = [] → ufuncSame n L G f a b = .ok ⟨f a.mag b.mag, a.unit⟩) ∧
    (a.unit = [] → ufuncSame n L G f a b = .ok ⟨f a.mag b.mag, b.unit⟩) := by
  have hself : ∀ {u : UnitD}, Wf u → dictEq u u = true := fun h => (dictEq_perm h h).2 (List.Perm.refl _)
  obtain ⟨ma, ua⟩ := a
  obtain ⟨mb, ub⟩ := b
  constructor
  · rintro rfl
    cases ua with
    | nil => rfl
    | cons p u =>
      have := hself ha
      simp only at this
      simp [ufuncSame, commonInputs, this]
      rfl
  · rintro rfl
    cases ub with
    | nil => rfl
    | cons p u =>
      have := hself hb
      simp only at this
      simp [ufuncSame, commonInputs, this]
      rfl

/-- C24: a sum of incommensurable quantities raises `UnitError`. -/
theorem C24_rejects (hg : GoodTables L G) {rank : Sym → Nat} (hr : Ranked L G rank) {n : Nat} {a b : Q K}
    (ha : Wf a.unit) (hb : Wf b.unit) (h1 : a.unit ≠ []) (h2 : b.unit ≠ []) (hn : ∀ p ∈ b.unit ++ a.unit, rank p.1 < n)
    (hi : Incompatible L G b.unit a.unit) (f : K → K → K) : ufuncSame (n + 1) L G f a b = .error .unitError := by
  have hself : dictEq a.unit a.unit = true := (dictEq_perm ha ha).2 (List.Perm.refl _)
  have hne : dictEq b.unit a.unit = false := by
    rw [← Bool.not_eq_true]
    intro h
    obtain ⟨v, v', hv, hv', hne⟩ := hi
    have hp := (dictEq_perm hb ha).1 h
    rw [value_perm hp, value_perm hp, div_self (value_pos hv.pos _).ne', div_self (value_pos hv'.pos _).ne'] at hne
    exact hne rfl
  have ht : tounit (n + 1) L G b a.unit = .error .unitError := by
    rw [tounit, C23_inunit_partial hg hr hb ha h2 h1 hn hi]
  have hl : ¬ a.unit.length = 0 := by simpa using h1
  have hbl : ¬ b.unit.length = 0 := by simpa using h2
  have hc : ((([a, b] : List (Q K)).map (·.unit)).find? fun u => u.length ≠ 0).getD [] = a.unit := by
    simp [h1]
  have : commonInputs (n + 1) L G [a, b] = .error .unitError := by
    rw [commonInputs, hc]
    simp only [List.mapM_cons, List.mapM_nil]
    rw [if_neg (by simp [hself]), if_pos (by simp [hne, h2]), ht]
    rfl
  rw [ufuncSame, this]
  rfl

/-- C24: a comparison of quantities is the comparison of the amounts. -/
theorem C24_compare (hg : GoodTables L G) (hv : Valuation L G v) {n : Nat} {a b : Q K} {r : Bool} (ha : Wf a.unit) (hb : Wf b.unit)
    (h1 : a.unit ≠ []) (h2 : b.unit ≠ []) (f : K → K → Bool) (hf : ∀ c x y, 0 < c → f (x * c) (y * c) = f x y)
    (h : ufuncCompare n L G f a b = .ok r) : r = f (amount v a) (amount v b) := by
  rw [ufuncCompare, bind_eq_ok] at h
  obtain ⟨⟨qs, u⟩, hc, h⟩ := h
  obtain ⟨rfl, b', rfl, hb'⟩ := common_amount hg hv ha hb h1 h2 hc
  cases h
  rw [← hb', amount, hf _ _ _ (value_pos hv.pos a.unit)]

/-- C24: the order of quantities. -/
theorem C24_less (hg : GoodTables L G) (hv : Valuation L G v) {n : Nat} {a b : Q K} {r : Bool} (ha : Wf a.unit) (hb : Wf b.unit)
    (h1 : a.unit ≠ []) (h2 : b.unit ≠ []) (h : ufuncCompare n L G (fun x y => decide (x < y)) a b = .ok r) :
    r = true ↔ amount v a < amount v b := by
  have := C24_compare hg hv ha hb h1 h2 _ (fun c x y hc => by simp [mul_lt_mul_iff_left₀ hc]) h
  rw [this, decide_eq_true_eq]

/-- C24: products and quotients of quantities. -/
theorem C24_mul_div (hv : ∀ s, 0 < v s) (a b : Q K) (ha : Wf a.unit) :
    amount v (mulQ a b) = amount v a * amount v b ∧ amount v (divQ a b) = amount v a / amount v b :=
  ⟨amount_mulQ hv a b ha, amount_divQ hv a b ha⟩

/-- C24: powers of quantities (`square`, `sqrt`, `cbrt`, `reciprocal`, `power`). -/
theorem C24_power (hv : ∀ s, 0 < v s) (a : Q K) (ha : 0 < a.mag) (x : ℚ) :
    amount v (ufuncPower (fun y => rpow y x) x a) = rpow (amount v a) x := by
  rw [amount, ufuncPower, value_powUnit hv, amount, mul_rpow _ _ _ ha (value_pos hv _)]

/-- The hypotheses of C24: 1 m + 2 km = 2001 m. -/
example : ∃ r, ufuncSame 5 [] realTable (· + ·) ⟨1, [("m".toList, 1)]⟩ ⟨2, [("km".toList, 1)]⟩ = .ok r ∧
    amount realValue r = 2001 := by
  have h : ufuncSame 5 [] realTable (· + ·) ⟨1, [("m".toList, 1)]⟩ ⟨2, [("km".toList, 1)]⟩ =
      .ok ⟨1 + 2 * (1 * (1 * (1000 * 1 * 1)) * 1 / (1 * 1 * 1)), [("m".toList, 1)]⟩ := rfl
  refine ⟨_, h, ?_⟩
  rw [(C24_add realTable_good realTable_valuation (by simp [Wf]) (by simp [Wf]) (by simp) (by simp) h).1]
  norm_num [amount, value, realValue_km, realValue_m, realValue_Jy, rpow_real, Real.rpow_neg_one]

/-! ### C25 -/

/-- C25: `SI` terminates and preserves the amount, for every well-founded table. -/
theorem C25_amount (hg : GoodTables L G) {rank : Sym → Nat} (hr : Ranked L G rank) (n : Nat) (q : Q K) (hq : Wf q.unit)
    (hn : ∀ p ∈ q.unit, rank p.1 < n) :
    ∃ r, si (n + 1) L G q = .ok r ∧ ∀ v, Valuation L G v → amount v r = amount v q := by
  obtain ⟨r, h⟩ := si_total hr n q hn
  exact ⟨r, h, fun v hv => si_amount hg hv _ _ _ hq h⟩

/-- C25: the symbols of an expanded unit have no definition. -/
theorem C25_symbols (hL : ∀ e ∈ L, e.value ≠ none) (hG : GoodGlobal G) {n : Nat} {q r : Q K} (h : si n L G q = .ok r) :
    ∀ p ∈ r.unit, ∀ e ∈ L ++ G, e.key = .sym p.1 → e.value = none :=
  si_base hL hG n q r h

/-- C25 for tables without definitions for powers of symbols: `SI` is idempotent. -/
theorem C25_idempotent_partial (hg : GoodTables L G) (hL : NoPow L) (hG : NoPow G) (uG : (G.map (·.key)).Nodup) {n : Nat}
    {q r : Q K} (hq : Wf q.unit) (h : si n L G q = .ok r) : si n L G r = .ok r := by
  obtain ⟨n, rfl⟩ : ∃ m, n = m + 1 := by
    cases n with
    | zero => simp [si] at h
    | succ m => exact ⟨m, rfl⟩
  have gG : GoodGlobal G := ⟨uG, fun e he s x hk => by
    obtain ⟨s', hs'⟩ := hG e he
    rw [hs'] at hk; cases hk⟩
  exact si_of_base (si_good hg _ _ _ hq h).1 (fun p hp => define_base hL hG (si_base hg.defined gG _ _ _ h p hp) p.2) n

/-- The hypotheses of C25: a jansky. -/
example : ∃ r, si 5 [] realTable ⟨2, [("Jy".toList, 1)]⟩ = .ok r ∧ amount realValue r = 2 * (1 / 10 ^ 26) ∧
    r.unit = [("kg".toList, 1), ("s".toList, -2)] := by
  obtain ⟨r, h, ha⟩ := C25_amount realTable_good realTable_ranked 4 ⟨2, [("Jy".toList, 1)]⟩ (by decide) (by decide)
  refine ⟨r, h, ?_, ?_⟩
  · rw [ha _ realTable_valuation]
    norm_num [amount, value, realValue_km, realValue_m, realValue_Jy, rpow_real, Real.rpow_neg_one]
  · have : (si 5 [] realTable ⟨2, [("Jy".toList, 1)]⟩).map (·.unit) = .ok [("kg".toList, 1), ("s".toList, -2)] := by
      decide +kernel
    rw [h] at this
    simpa [Except.map] using this

/-- C25 fails for the table of the code: the expansion of 'deg rad' is in 'rad^2', whose expansion is in 'sr'. -/
theorem C25_violation_idempotent : ∃ q r s : Q ℝ, si 5 [] realTable q = .ok r ∧ si 5 [] realTable r = .ok s ∧
    r.unit = [("rad".toList, 2)] ∧ s.unit = [("sr".toList, 1)] := by
  obtain ⟨r, h⟩ := si_total realTable_ranked 4 ⟨1, [("deg".toList, 1), ("rad".toList, 1)]⟩ (by decide +kernel)
  have hr : r.unit = [("rad".toList, 2)] := by
    have : (si 5 [] realTable ⟨1, [("deg".toList, 1), ("rad".toList, 1)]⟩).map (·.unit) = .ok [("rad".toList, 2)] := by
      decide +kernel
    rw [h] at this
    simpa [Except.map] using this
  obtain ⟨s, h'⟩ := si_total realTable_ranked 4 r (by rw [hr]; decide +kernel)
  refine ⟨_, r, s, h, h', hr, ?_⟩
  obtain ⟨m, u⟩ := r
  subst hr
  have : (si 5 [] realTable ⟨m, [("rad".toList, 2)]⟩).map (·.unit) = .ok [("sr".toList, 1)] := by rfl
  rw [h'] at this
  simpa [Except.map] using this

end Verif.Units
