import Verif.Units.Lemmas
import Verif.Py.Lemmas
import Mathlib.Algebra.Order.BigOperators.Group.List
import Mathlib.Tactic.Positivity

/-!
Lemmas on the values of the units and on their expansion in SI units.
-/
namespace Verif.Units
open Verif.Py

section
variable {K : Type} [Field K] [LinearOrder K] [IsStrictOrderedRing K] [LawfulRatPow K]

open RatPow LawfulRatPow

theorem rpow_neg (x : K) (a : ℚ) (hx : 0 < x) : rpow x (-a) = (rpow x a)⁻¹ := by
  have h := rpow_add x (-a) a hx
  rw [neg_add_cancel, rpow_zero x hx] at h
  exact eq_inv_of_mul_eq_one_left h.symm

theorem one_rpow (a : ℚ) : rpow (1 : K) a = 1 := by
  have h := mul_rpow (1 : K) 1 a one_pos one_pos
  rw [one_mul] at h
  have hp := rpow_pos (1 : K) a one_pos
  have h2 : rpow (1 : K) a * rpow (1 : K) a = rpow (1 : K) a * 1 := by rw [← h, mul_one]
  exact mul_left_cancel₀ hp.ne' h2

variable {v : Sym → K}

@[simp] theorem value_nil : value v ([] : UnitD) = 1 := rfl

theorem value_cons (p : Sym × ℚ) (u : UnitD) : value v (p :: u) = rpow (v p.1) p.2 * value v u := by
  simp [value]

theorem value_append (u w : UnitD) : value v (u ++ w) = value v u * value v w := by
  simp [value]

theorem value_perm {u w : UnitD} (h : u.Perm w) : value v u = value v w := (h.map _).prod_eq

theorem value_pos (hv : ∀ s, 0 < v s) (u : UnitD) : 0 < value v u := by
  induction u with
  | nil => exact one_pos
  | cons p u ih =>
    rw [value_cons]
    exact mul_pos (rpow_pos _ _ (hv _)) ih

theorem value_mulInplace (hv : ∀ s, 0 < v s) {u : UnitD} (hu : Wf u) (k : Sym) (x : ℚ) :
    value v (mulInplace u k x) = value v u * rpow (v k) x := by
  rcases mulInplace_cases hu k x with ⟨h, e⟩ | ⟨w, r, hp, hr, ⟨hw, e⟩ | ⟨_, e⟩⟩
  · rw [e, value_append, value_cons, value_nil, mul_one]
  · rw [e, value_perm hp, value_cons, hw, rpow_neg _ _ (hv k)]
    have := (rpow_pos (v k) x (hv k)).ne'
    field_simp
  · rw [value_perm e, value_perm hp, value_cons, value_cons, rpow_add _ _ _ (hv k)]
    ring

theorem value_foldl (hv : ∀ s, 0 < v s) (l : UnitD) {u : UnitD} (hu : Wf u) :
    value v (l.foldl (fun u p => mulInplace u p.1 p.2) u) = value v u * value v l := by
  induction l generalizing u with
  | nil => simp
  | cons p l ih => rw [List.foldl_cons, ih (mulInplace_wf hu _ _), value_mulInplace hv hu, value_cons, mul_assoc]

theorem value_mulUnit (hv : ∀ s, 0 < v s) {u1 : UnitD} (h : Wf u1) (u2 : UnitD) :
    value v (mulUnit u1 u2) = value v u1 * value v u2 := by
  rw [mulUnit_eq, value_foldl hv _ h]

theorem value_neg (hv : ∀ s, 0 < v s) (u : UnitD) : value v (u.map fun p => (p.1, -p.2)) = (value v u)⁻¹ := by
  induction u with
  | nil => simp
  | cons p u ih => rw [List.map_cons, value_cons, value_cons, ih, rpow_neg _ _ (hv _), mul_inv]

theorem value_divUnit (hv : ∀ s, 0 < v s) {u1 : UnitD} (h : Wf u1) (u2 : UnitD) :
    value v (divUnit u1 u2) = value v u1 / value v u2 := by
  rw [divUnit_eq, value_foldl hv _ h, value_neg hv, div_eq_mul_inv]

theorem value_powUnit (hv : ∀ s, 0 < v s) (u : UnitD) (x : ℚ) :
    value v (powUnit u x) = rpow (value v u) x := by
  rw [powUnit]
  by_cases e : u.length = 0 ∨ x = 0
  · rw [if_pos e]
    rcases e with e | e
    · rw [List.length_eq_zero_iff.1 e, value_nil, one_rpow]
    · rw [e, rpow_zero _ (value_pos hv u), value_nil]
  · rw [if_neg e]
    clear e
    induction u with
    | nil => rw [List.map_nil, value_nil, one_rpow]
    | cons p u ih =>
      rw [List.map_cons, value_cons, value_cons, ih, rpow_mul _ _ _ (hv _),
        mul_rpow _ _ _ (rpow_pos _ _ (hv _)) (value_pos hv u)]

theorem amount_recip (hv : ∀ s, 0 < v s) (q : Q K) : amount v (recip q) = (amount v q)⁻¹ := by
  rw [amount, recip, value_divUnit hv wf_nil, amount, value_nil, mul_inv]
  simp [one_div]

theorem amount_powQ (hv : ∀ s, 0 < v s) (q : Q K) (hq : 0 < q.mag) (x : ℚ) :
    amount v (powQ q x) = rpow (amount v q) x := by
  rw [amount, powQ, value_powUnit hv, amount, mul_rpow _ _ _ hq (value_pos hv _)]

theorem amount_mulQ (hv : ∀ s, 0 < v s) (q1 q2 : Q K) (h : Wf q1.unit) :
    amount v (mulQ q1 q2) = amount v q1 * amount v q2 := by
  rw [amount, mulQ, value_mulUnit hv h, amount, amount]
  ring

theorem amount_divQ (hv : ∀ s, 0 < v s) (q1 q2 : Q K) (h : Wf q1.unit) :
    amount v (divQ q1 q2) = amount v q1 / amount v q2 := by
  rw [amount, divQ, value_divUnit hv h, amount, amount]
  exact div_mul_div_comm _ _ _ _

end

section
variable {K : Type} [Field K] [RatPow K]

omit [Field K] [RatPow K] in
theorem getDu_some {T : DTable K} {key : DKey} {d : Q K} {b : Bool} (h : getDu T key = some (d, b)) :
    ∃ e ∈ T, e.key = key ∧ d ∈ e.value := by
  rw [getDu] at h
  cases hf : T.find? fun e => e.key = key with
  | none => simp [hf] at h
  | some e =>
    simp only [hf] at h
    refine ⟨e, List.mem_of_find?_eq_some hf, by simpa using List.find?_some hf, ?_⟩
    cases hv : e.value with
    | none => simp [hv] at h
    | some x =>
      simp only [hv, Option.map_some, Option.some.injEq, Prod.mk.injEq] at h
      simp [h.1]

omit [Field K] [RatPow K] in
theorem getDu_none {T : DTable K} (hT : ∀ e ∈ T, e.value ≠ none) {key : DKey} (h : getDu T key = none) :
    ∀ e ∈ T, e.key ≠ key := by
  intro e he hk
  rw [getDu] at h
  cases hf : T.find? fun e => e.key = key with
  | none =>
    have := List.find?_eq_none.1 hf e he
    simp [hk] at this
  | some e' =>
    simp only [hf, Option.map_eq_none_iff] at h
    exact hT e' (List.mem_of_find?_eq_some hf) h

/-- A definition comes from an entry of the table. -/
def From (T : DTable K) (k : Sym) (x : ℚ) (d : Q K) : Prop :=
  ∃ e ∈ T, ∃ d0 ∈ e.value, (e.key = .pow k x ∧ d = d0) ∨ (e.key = .pow k (-x) ∧ d = recip d0) ∨
    (e.key = .sym k ∧ ((x = 1 ∧ d = d0) ∨ (x = -1 ∧ d = recip d0) ∨ d = powQ d0 x))

theorem checkDu_some {T : DTable K} {k : Sym} {x : ℚ} {d : Q K} {b : Bool} (h : checkDu T k x = some (d, b)) :
    From T k x d := by
  rw [checkDu] at h
  by_cases h0 : T.length = 0
  · simp [h0] at h
  rw [if_neg h0] at h
  by_cases h1 : hasKey T (.pow k x) = true
  · rw [if_pos h1] at h
    obtain ⟨e, he, hk, hd⟩ := getDu_some h
    exact ⟨e, he, d, hd, .inl ⟨hk, rfl⟩⟩
  rw [if_neg h1] at h
  by_cases h2 : hasKey T (.pow k (-x)) = true
  · rw [if_pos h2, Option.map_eq_some_iff] at h
    obtain ⟨⟨d0, b0⟩, h, h'⟩ := h
    obtain ⟨e, he, hk, hd⟩ := getDu_some h
    simp only [Prod.mk.injEq] at h'
    exact ⟨e, he, d0, hd, .inr (.inl ⟨hk, h'.1.symm⟩)⟩
  rw [if_neg h2, Option.map_eq_some_iff] at h
  obtain ⟨⟨d0, b0⟩, h, h'⟩ := h
  obtain ⟨e, he, hk, hd⟩ := getDu_some h
  simp only [Prod.mk.injEq] at h'
  refine ⟨e, he, d0, hd, .inr (.inr ⟨hk, ?_⟩)⟩
  by_cases h3 : x = 1
  · rw [if_pos h3] at h'
    exact .inl ⟨h3, h'.1.symm⟩
  rw [if_neg h3] at h'
  by_cases h4 : x = -1
  · rw [if_pos h4] at h'
    exact .inr (.inl ⟨h4, h'.1.symm⟩)
  rw [if_neg h4] at h'
  exact .inr (.inr h'.1.symm)

omit [Field K] [RatPow K] in
theorem hasKey_iff {T : DTable K} {key : DKey} : hasKey T key = true ↔ ∃ e ∈ T, e.key = key := by
  simp [hasKey]

theorem checkDu_none {T : DTable K} (hT : ∀ e ∈ T, e.value ≠ none) {k : Sym} {x : ℚ} (h : checkDu T k x = none) :
    ∀ e ∈ T, e.key ≠ .pow k x ∧ e.key ≠ .pow k (-x) ∧ e.key ≠ .sym k := by
  rw [checkDu] at h
  by_cases h0 : T.length = 0
  · rw [List.length_eq_zero_iff.1 h0]; simp
  rw [if_neg h0] at h
  by_cases h1 : hasKey T (.pow k x) = true
  · rw [if_pos h1] at h
    obtain ⟨e, he, hk⟩ := hasKey_iff.1 h1
    exact absurd hk (getDu_none hT h e he)
  rw [if_neg h1] at h
  by_cases h2 : hasKey T (.pow k (-x)) = true
  · rw [if_pos h2, Option.map_eq_none_iff] at h
    obtain ⟨e, he, hk⟩ := hasKey_iff.1 h2
    exact absurd hk (getDu_none hT h e he)
  rw [if_neg h2, Option.map_eq_none_iff] at h
  intro e he
  refine ⟨fun hk => h1 (hasKey_iff.2 ⟨e, he, hk⟩), fun hk => h2 (hasKey_iff.2 ⟨e, he, hk⟩), getDu_none hT h e he⟩

theorem define_some {L G : DTable K} {k : Sym} {x : ℚ} {d : Q K} {b : Bool} (h : define L G k x = some (d, b)) :
    From L k x d ∨ (checkDu L k x = none ∧ From G k x d) := by
  rw [define] at h
  cases hL : checkDu L k x with
  | none =>
    simp only [hL] at h
    exact .inr ⟨rfl, checkDu_some h⟩
  | some d' =>
    simp only [hL, Option.some.injEq] at h
    rw [h] at hL
    exact .inl (checkDu_some hL)

theorem From.keys {T : DTable K} {k : Sym} {x : ℚ} {d : Q K} (h : From T k x d) :
    ∃ e ∈ T, e.key.symbol = k ∧ ∃ d0 ∈ e.value, ∀ p ∈ d.unit, p.1 ∈ d0.unit.map Prod.fst := by
  have hr : ∀ d0 : Q K, ∀ p ∈ (recip d0).unit, p.1 ∈ d0.unit.map Prod.fst := fun d0 p hp => by
    rcases divUnit_keys hp with h | h
    · exact h
    · simp at h
  have hi : ∀ d0 : Q K, ∀ p ∈ d0.unit, p.1 ∈ d0.unit.map Prod.fst := fun d0 p hp => List.mem_map.2 ⟨p, hp, rfl⟩
  obtain ⟨e, he, d0, hd, ⟨hk, h⟩ | ⟨hk, h⟩ | ⟨hk, ⟨_, h⟩ | ⟨_, h⟩ | h⟩⟩ := h <;>
    refine ⟨e, he, by rw [hk]; rfl, d0, hd, ?_⟩ <;> rw [h]
  · exact hi d0
  · exact hr d0
  · exact hi d0
  · exact hr d0
  · exact fun p hp => powUnit_keys hp

theorem From.wf {T : DTable K} (hT : ∀ e ∈ T, ∀ d ∈ e.value, Wf d.unit) {k : Sym} {x : ℚ} {d : Q K} (h : From T k x d) :
    Wf d.unit := by
  obtain ⟨e, he, d0, hd, ⟨hk, rfl⟩ | ⟨hk, rfl⟩ | ⟨hk, ⟨_, rfl⟩ | ⟨_, rfl⟩ | rfl⟩⟩ := h
  · exact hT e he _ hd
  · exact divUnit_wf wf_nil _
  · exact hT e he _ hd
  · exact divUnit_wf wf_nil _
  · exact powUnit_wf (hT e he _ hd) _

/-- The step of the loop of `SI`. -/
def siStep (n : Nat) (L G : DTable K) (f : Q K × Q K) (p : Sym × ℚ) : Res (Q K × Q K) :=
  match define L G p.1 p.2 with
  | none => .ok ({ f.1 with unit := mulInplace f.1.unit p.1 p.2 }, f.2)
  | some (du, rightward) => (si n L G du).map fun d =>
      if rightward then (f.1, mulQ f.2 d) else (mulQ f.1 d, f.2)

theorem si_succ (n : Nat) (L G : DTable K) (q : Q K) : si (n + 1) L G q =
    if q.unit.length = 0 then .ok q
    else (q.unit.foldlM (siStep n L G) (⟨1, []⟩, ⟨1, []⟩)).map fun (f : Q K × Q K) =>
      ⟨q.mag * f.1.mag * f.2.mag, mulUnit f.1.unit f.2.unit⟩ := rfl

theorem si_scale (n : Nat) (L G : DTable K) (q : Q K) :
    si n L G q = (si n L G ⟨1, q.unit⟩).map fun r => ⟨q.mag * r.mag, r.unit⟩ := by
  cases n with
  | zero => rfl
  | succ n =>
    rw [si_succ, si_succ]
    by_cases h : q.unit.length = 0
    · rw [if_pos h, if_pos h]
      simp [Except.map]
    · rw [if_neg h, if_neg h]
      cases q.unit.foldlM (siStep n L G) (⟨1, []⟩, ⟨1, []⟩) with
      | error e => rfl
      | ok f => simp [Except.map, mul_assoc]

end

section
variable {K : Type} [Field K] [LinearOrder K] [IsStrictOrderedRing K] [LawfulRatPow K]
open RatPow LawfulRatPow
variable {L G : DTable K} {v : Sym → K}

theorem From.pos {T : DTable K} (hT : ∀ e ∈ T, ∀ d ∈ e.value, 0 < d.mag) {k : Sym} {x : ℚ} {d : Q K} (h : From T k x d) :
    0 < d.mag := by
  obtain ⟨e, he, d0, hd, ⟨hk, rfl⟩ | ⟨hk, rfl⟩ | ⟨hk, ⟨_, rfl⟩ | ⟨_, rfl⟩ | rfl⟩⟩ := h
  · exact hT e he _ hd
  · exact one_div_pos.2 (hT e he _ hd)
  · exact hT e he _ hd
  · exact one_div_pos.2 (hT e he _ hd)
  · exact rpow_pos _ _ (hT e he _ hd)

theorem define_pos (hg : GoodTables L G) {k : Sym} {x : ℚ} {d : Q K} {b : Bool} (h : define L G k x = some (d, b)) :
    0 < d.mag := by
  rcases define_some h with h | ⟨_, h⟩
  · exact h.pos fun e he => hg.pos e (List.mem_append_left _ he)
  · exact h.pos fun e he => hg.pos e (List.mem_append_right _ he)

omit [IsStrictOrderedRing K] [LawfulRatPow K] in
theorem define_wf [RatPow K] (hg : GoodTables L G) {k : Sym} {x : ℚ} {d : Q K} {b : Bool} (h : define L G k x = some (d, b)) :
    Wf d.unit := by
  rcases define_some h with h | ⟨_, h⟩
  · exact h.wf fun e he => hg.wf e (List.mem_append_left _ he)
  · exact h.wf fun e he => hg.wf e (List.mem_append_right _ he)

theorem From.amount {T : DTable K} (hv : ∀ s, 0 < v s) (hp : ∀ e ∈ T, ∀ d ∈ e.value, 0 < d.mag) {k : Sym} {x : ℚ} {d : Q K}
    (hT : ∀ e ∈ T, (e.key = .pow k x ∨ e.key = .pow k (-x) ∨ e.key = .sym k) → EntryOk v e)
    (h : From T k x d) : amount v d = rpow (v k) x := by
  obtain ⟨e, he, d0, hd, ⟨hk, rfl⟩ | ⟨hk, rfl⟩ | ⟨hk, h⟩⟩ := h
  · have := hT e he (.inl hk)
    rw [Option.mem_def] at hd
    simp only [EntryOk, hd, hk] at this
    exact this.symm
  · have := hT e he (.inr (.inl hk))
    rw [Option.mem_def] at hd
    simp only [EntryOk, hd, hk] at this
    rw [amount_recip hv, ← this, rpow_neg _ _ (hv k), inv_inv]
  · have := hT e he (.inr (.inr hk))
    have hpos := hp e he d0 hd
    rw [Option.mem_def] at hd
    simp only [EntryOk, hd, hk] at this
    rcases h with ⟨rfl, rfl⟩ | ⟨rfl, rfl⟩ | rfl
    · rw [rpow_one _ (hv k), this]
    · rw [amount_recip hv, rpow_neg _ _ (hv k), rpow_one _ (hv k), this]
    · rw [amount_powQ hv _ hpos, this]

theorem define_amount (hg : GoodTables L G) (hv : Valuation L G v) {k : Sym} {x : ℚ} {d : Q K} {b : Bool}
    (h : define L G k x = some (d, b)) : amount v d = rpow (v k) x := by
  rcases define_some h with h | ⟨hn, h⟩
  · exact h.amount hv.pos (fun e he => hg.pos e (List.mem_append_left _ he)) fun e he _ => hv.loc e he
  · refine h.amount hv.pos (fun e he => hg.pos e (List.mem_append_right _ he)) fun e he hk => hv.glob e he ?_
    rintro ⟨e', he', h'⟩
    obtain ⟨n1, n2, n3⟩ := checkDu_none hg.defined hn e' he'
    rcases hk with hk | hk | hk <;> rw [hk] at h' <;> simp only [DKey.symbol] at h'
    · rcases h' with h' | ⟨x', y, hx, hy, h'⟩
      · exact n3 h'
      · simp only [DKey.pow.injEq, true_and] at hx
        subst hx
        rcases h' with rfl | rfl
        · exact n1 hy
        · exact n2 hy
    · rcases h' with h' | ⟨x', y, hx, hy, h'⟩
      · exact n3 h'
      · simp only [DKey.pow.injEq, true_and] at hx
        subst hx
        rcases h' with rfl | rfl
        · exact n2 hy
        · rw [neg_neg] at hy; exact n1 hy
    · rcases h' with h' | ⟨x', y, hx, hy, h'⟩
      · exact n3 h'
      · exact absurd hx (by simp)

/-- `SI` gives a dictionary and multiplies the magnitude by a positive factor. -/
theorem si_good (hg : GoodTables L G) : ∀ (n : Nat) (q r : Q K), Wf q.unit → si n L G q = .ok r →
    Wf r.unit ∧ (0 < q.mag → 0 < r.mag) := by
  intro n
  induction n with
  | zero => intro q r _ h; exact absurd h (by simp [si])
  | succ n ih =>
    intro q r hq h
    rw [si_succ] at h
    by_cases h0 : q.unit.length = 0
    · rw [if_pos h0] at h
      cases h
      exact ⟨hq, id⟩
    rw [if_neg h0, map_eq_ok] at h
    obtain ⟨f, hf, rfl⟩ := h
    have key : ∀ (l : UnitD) (acc f : Q K × Q K), l.foldlM (siStep n L G) acc = .ok f →
        Wf acc.1.unit → Wf acc.2.unit → 0 < acc.1.mag → 0 < acc.2.mag →
        Wf f.1.unit ∧ Wf f.2.unit ∧ 0 < f.1.mag ∧ 0 < f.2.mag := by
      intro l
      induction l with
      | nil =>
        intro acc f h h1 h2 h3 h4
        cases h
        exact ⟨h1, h2, h3, h4⟩
      | cons p l ihl =>
        intro acc f h h1 h2 h3 h4
        rw [List.foldlM_cons] at h
        obtain ⟨acc', hs, h⟩ := bind_eq_ok.1 h
        rw [siStep] at hs
        cases hd : define L G p.1 p.2 with
        | none =>
          simp only [hd] at hs
          cases hs
          exact ihl _ _ h (mulInplace_wf h1 _ _) h2 h3 h4
        | some d =>
          obtain ⟨d, b⟩ := d
          simp only [hd] at hs
          obtain ⟨d', hsi, rfl⟩ := map_eq_ok.1 hs
          obtain ⟨w', p'⟩ := ih d d' (define_wf hg hd) hsi
          have p' := p' (define_pos hg hd)
          cases b with
          | true => exact ihl _ _ h h1 (mulUnit_wf h2 _) h3 (mul_pos h4 p')
          | false => exact ihl _ _ h (mulUnit_wf h1 _) h2 (mul_pos h3 p') h4
    obtain ⟨w1, _, p1, p2⟩ := key _ _ _ hf wf_nil wf_nil one_pos one_pos
    exact ⟨mulUnit_wf w1 _, fun hm => mul_pos (mul_pos hm p1) p2⟩

/-- `SI` preserves the amount. -/
theorem si_amount (hg : GoodTables L G) (hv : Valuation L G v) : ∀ (n : Nat) (q r : Q K), Wf q.unit → si n L G q = .ok r →
    amount v r = amount v q := by
  intro n
  induction n with
  | zero => intro q r _ h; exact absurd h (by simp [si])
  | succ n ih =>
    intro q r hq h
    rw [si_succ] at h
    by_cases h0 : q.unit.length = 0
    · rw [if_pos h0] at h
      cases h
      rfl
    rw [if_neg h0, map_eq_ok] at h
    obtain ⟨f, hf, rfl⟩ := h
    have key : ∀ (l : UnitD) (acc f : Q K × Q K), l.foldlM (siStep n L G) acc = .ok f →
        Wf acc.1.unit → Wf acc.2.unit →
        amount v f.1 * amount v f.2 = amount v acc.1 * amount v acc.2 * value v l ∧ Wf f.1.unit := by
      intro l
      induction l with
      | nil =>
        intro acc f h h1 h2
        cases h
        exact ⟨by simp, h1⟩
      | cons p l ihl =>
        intro acc f h h1 h2
        rw [List.foldlM_cons] at h
        obtain ⟨acc', hs, h⟩ := bind_eq_ok.1 h
        rw [siStep] at hs
        rw [value_cons]
        cases hd : define L G p.1 p.2 with
        | none =>
          simp only [hd] at hs
          cases hs
          obtain ⟨e, w⟩ := ihl _ _ h (mulInplace_wf h1 _ _) h2
          refine ⟨?_, w⟩
          rw [e, amount, value_mulInplace hv.pos h1, amount, amount]
          ring
        | some d =>
          obtain ⟨d, b⟩ := d
          simp only [hd] at hs
          obtain ⟨d', hsi, rfl⟩ := map_eq_ok.1 hs
          have ha := ih d d' (define_wf hg hd) hsi
          rw [define_amount hg hv hd] at ha
          cases b with
          | true =>
            obtain ⟨e, w⟩ := ihl _ _ h h1 (mulUnit_wf h2 _)
            refine ⟨?_, w⟩
            rw [e, if_pos rfl, amount_mulQ hv.pos _ _ h2, ha]
            ring
          | false =>
            obtain ⟨e, w⟩ := ihl _ _ h (mulUnit_wf h1 _) h2
            refine ⟨?_, w⟩
            rw [e, if_neg (by simp), amount_mulQ hv.pos _ _ h1, ha]
            ring
    obtain ⟨e, w⟩ := key _ _ _ hf wf_nil wf_nil
    rw [amount, value_mulUnit hv.pos w]
    have e1 : q.mag * f.1.mag * f.2.mag * (value v f.1.unit * value v f.2.unit) =
        q.mag * (amount v f.1 * amount v f.2) := by rw [amount, amount]; ring
    rw [e1, e, amount, amount]
    simp

end
end Verif.Units
