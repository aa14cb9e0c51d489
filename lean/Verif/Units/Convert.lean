import Verif.Units.Base

/-!
Lemmas on conversions.
-/
namespace Verif.Units
open Verif.Py

section
variable {K : Type} [Field K] [RatPow K] {L G : DTable K}

theorem tounit_ok {n : Nat} {q q' : Q K} {u : UnitD} (h1 : q.unit ≠ []) (h2 : u ≠ []) :
    tounit n L G q u = .ok q' ↔ ∃ r1 r2, si n L G ⟨1, q.unit⟩ = .ok r1 ∧ si n L G ⟨1, u⟩ = .ok r2 ∧
      dictEq r1.unit r2.unit = true ∧ q' = ⟨q.mag * (r1.mag / r2.mag), u⟩ := by
  have h0 : ¬ (q.unit.length = 0 ∨ u.length = 0) := by
    simp [h1, h2]
  rw [tounit, inunit, if_neg h0]
  cases e1 : si n L G ⟨1, q.unit⟩ with
  | error e => simp
  | ok r1 =>
    cases e2 : si n L G ⟨1, u⟩ with
    | error e => simp
    | ok r2 =>
      by_cases hd : dictEq r1.unit r2.unit = true
      · simp only [hd]
        constructor
        · intro h
          cases h
          exact ⟨r1, r2, rfl, rfl, hd, rfl⟩
        · rintro ⟨r1', r2', h1, h2, _, rfl⟩
          cases h1
          cases h2
          rfl
      · simp only [Bool.not_eq_true] at hd
        simp only [hd]
        constructor
        · intro h
          cases h
        · rintro ⟨r1', r2', h1, h2, h, _⟩
          cases h1
          cases h2
          rw [hd] at h
          cases h

theorem inunit_tounit (n : Nat) (q : Q K) (u : UnitD) :
    inunit n L G q u = match tounit n L G q u with
      | .ok q' => (q', none)
      | .error e => (q, some e) := by
  rw [tounit, inunit]
  by_cases h0 : q.unit.length = 0 ∨ u.length = 0
  · simp only [if_pos h0]
  · simp only [if_neg h0]
    cases si n L G ⟨1, q.unit⟩ with
    | error e => rfl
    | ok r1 =>
      cases si n L G ⟨1, u⟩ with
      | error e => rfl
      | ok r2 => cases hd : dictEq r1.unit r2.unit <;> simp only [hd] <;> rfl

end

section
variable {K : Type} [Field K] [LinearOrder K] [IsStrictOrderedRing K] [LawfulRatPow K]
open RatPow LawfulRatPow
variable {L G : DTable K} {v : Sym → K}

theorem si_factor (hg : GoodTables L G) {n : Nat} {u : UnitD} (hu : Wf u) {r : Q K} (h : si n L G ⟨1, u⟩ = .ok r) :
    Wf r.unit ∧ 0 < r.mag := by
  obtain ⟨w, p⟩ := si_good hg n ⟨1, u⟩ r hu h
  exact ⟨w, p one_pos⟩

theorem si_value (hg : GoodTables L G) (hv : Valuation L G v) {n : Nat} {u : UnitD} (hu : Wf u) {r : Q K}
    (h : si n L G ⟨1, u⟩ = .ok r) : value v u = r.mag * value v r.unit := by
  have := si_amount hg hv n ⟨1, u⟩ r hu h
  rw [amount, amount, one_mul] at this
  exact this.symm

/-- The ratio of two units that are commensurable. -/
theorem ratio (hg : GoodTables L G) (hv : Valuation L G v) {n : Nat} {u w : UnitD} (hu : Wf u) (hw : Wf w) {r1 r2 : Q K}
    (h1 : si n L G ⟨1, u⟩ = .ok r1) (h2 : si n L G ⟨1, w⟩ = .ok r2) (hd : dictEq r1.unit r2.unit = true) :
    value v u / value v w = r1.mag / r2.mag := by
  obtain ⟨w1, p1⟩ := si_factor hg hu h1
  obtain ⟨w2, p2⟩ := si_factor hg hw h2
  rw [si_value hg hv hu h1, si_value hg hv hw h2, value_perm ((dictEq_perm w1 w2).1 hd)]
  have := value_pos (v := v) hv.pos r2.unit
  field_simp

/-! ### Values given by the base symbols -/

/-- The values of the symbols, given those of the base symbols. -/
def extendTo (L G : DTable K) (w : Sym → K) : Nat → Sym → K
  | 0, s => w s
  | n + 1, s => match define L G s 1 with
    | none => w s
    | some (d, _) => d.mag * value (extendTo L G w n) d.unit

omit [LinearOrder K] [IsStrictOrderedRing K] [LawfulRatPow K] in
theorem define_rank [RatPow K] {rank : Sym → Nat} (hr : Ranked L G rank) {k : Sym} {x : ℚ} {d : Q K} {b : Bool}
    (h : define L G k x = some (d, b)) : ∀ p ∈ d.unit, rank p.1 < rank k := by
  have key : ∀ T : DTable K, (∀ e ∈ T, e ∈ L ++ G) → From T k x d → ∀ p' ∈ d.unit, rank p'.1 < rank k := by
    intro T hT hf p' hp'
    obtain ⟨e, he, hs, d0, hd0, hk⟩ := hf.keys
    obtain ⟨p0, hp0, e0⟩ := List.mem_map.1 (hk p' hp')
    have := hr e (hT e he) d0 hd0 p0 hp0
    rwa [hs, e0] at this
  rcases define_some h with h | ⟨_, h⟩
  · exact key L (fun e he => List.mem_append_left _ he) h
  · exact key G (fun e he => List.mem_append_right _ he) h

omit [LinearOrder K] [IsStrictOrderedRing K] [LawfulRatPow K] in
theorem value_congr [RatPow K] {v v' : Sym → K} {u : UnitD} (h : ∀ p ∈ u, v p.1 = v' p.1) : value v u = value v' u := by
  rw [value, value]
  congr 1
  apply List.map_congr_left
  intro p hp
  rw [h p hp]

theorem extendTo_stable {rank : Sym → Nat} (hr : Ranked L G rank) (w : Sym → K) : ∀ (n m : Nat) (s : Sym),
    rank s < n → rank s < m → extendTo L G w n s = extendTo L G w m s := by
  intro n
  induction n with
  | zero => intro m s h; omega
  | succ n ih =>
    intro m s h1 h2
    obtain ⟨m, rfl⟩ : ∃ k, m = k + 1 := ⟨m - 1, by omega⟩
    rw [extendTo, extendTo]
    cases hd : define L G s 1 with
    | none => rfl
    | some d =>
      obtain ⟨d, b⟩ := d
      have hk := define_rank hr hd
      simp only
      rw [value_congr fun p hp => ih m p.1 (by have := hk p hp; omega) (by have := hk p hp; omega)]

/-- The values of the symbols, given those of the base symbols. -/
def extend (L G : DTable K) (rank : Sym → Nat) (w : Sym → K) (s : Sym) : K := extendTo L G w (rank s + 1) s

theorem extendTo_pos (hg : GoodTables L G) {w : Sym → K} (hw : ∀ s, 0 < w s) : ∀ (n : Nat) (s : Sym), 0 < extendTo L G w n s := by
  intro n
  induction n with
  | zero => exact hw
  | succ n ih =>
    intro s
    rw [extendTo]
    cases hd : define L G s 1 with
    | none => exact hw s
    | some d => exact mul_pos (define_pos hg hd) (value_pos ih _)

theorem extend_define {rank : Sym → Nat} (hr : Ranked L G rank) (w : Sym → K) {s : Sym} {d : Q K} {b : Bool}
    (hd : define L G s 1 = some (d, b)) : extend L G rank w s = amount (extend L G rank w) d := by
  rw [extend, extendTo, hd]
  simp only
  rw [amount, value_congr (v' := extend L G rank w) fun p hp =>
    extendTo_stable hr w (rank s) (rank p.1 + 1) p.1 (define_rank hr hd p hp) (by omega)]

omit [LinearOrder K] [IsStrictOrderedRing K] [LawfulRatPow K] in
theorem checkDu_sym [RatPow K] {T : DTable K} (hT : NoPow T) (hu : (T.map (·.key)).Nodup) {e : DEntry K} (he : e ∈ T) {s : Sym} (hk : e.key = .sym s)
    {d : Q K} (hd : e.value = some d) : checkDu T s 1 = some (d, e.rightward) := by
  have hn : ∀ x, ¬ hasKey T (.pow s x) = true := by
    intro x h
    obtain ⟨e', he', hk'⟩ := hasKey_iff.1 h
    obtain ⟨s', hs'⟩ := hT e' he'
    rw [hs'] at hk'
    cases hk'
  have h0 : ¬ T.length = 0 := by
    intro h'
    rw [List.length_eq_zero_iff.1 h'] at he
    simp at he
  rw [checkDu, if_neg h0, if_neg (hn _), if_neg (hn _), getDu, find_unique hu he hk]
  simp [hd]

omit [LinearOrder K] [IsStrictOrderedRing K] [LawfulRatPow K] in
theorem checkDu_absent [RatPow K] {T : DTable K} (hT : NoPow T) {s : Sym} (h : ∀ e ∈ T, e.key ≠ .sym s) (x : ℚ) : checkDu T s x = none := by
  cases hc : checkDu T s x with
  | none => rfl
  | some d =>
    obtain ⟨d, b⟩ := d
    obtain ⟨e, he, d0, _, ⟨hk, _⟩ | ⟨hk, _⟩ | ⟨hk, _⟩⟩ := checkDu_some hc
    · obtain ⟨s', hs'⟩ := hT e he
      rw [hs'] at hk; cases hk
    · obtain ⟨s', hs'⟩ := hT e he
      rw [hs'] at hk; cases hk
    · exact absurd hk (h e he)

theorem extend_valuation (hg : GoodTables L G) (hL : NoPow L) (hG : NoPow G) (uL : (L.map (·.key)).Nodup)
    (uG : (G.map (·.key)).Nodup) {rank : Sym → Nat} (hr : Ranked L G rank) {w : Sym → K} (hw : ∀ s, 0 < w s) :
    Valuation L G (extend L G rank w) where
  pos s := extendTo_pos hg hw _ s
  loc e he := by
    obtain ⟨s, hs⟩ := hL e he
    cases hv : e.value with
    | none => simp [EntryOk, hv]
    | some d =>
      simp only [EntryOk, hv, hs]
      apply extend_define (b := e.rightward) hr
      rw [define, checkDu_sym hL uL he hs hv]
  glob e he hn := by
    obtain ⟨s, hs⟩ := hG e he
    cases hv : e.value with
    | none => simp [EntryOk, hv]
    | some d =>
      simp only [EntryOk, hv, hs]
      apply extend_define (b := e.rightward) hr
      rw [define, checkDu_absent hL, checkDu_sym hG uG he hs hv]
      intro e' he' hk'
      exact hn ⟨e', he', .inl (by rw [hk', hs]; rfl)⟩

theorem extend_base (hL : NoPow L) (hG : NoPow G) (rank : Sym → Nat) (w : Sym → K) {s : Sym} (h : IsBase L G s) :
    extend L G rank w s = w s := by
  rw [extend, extendTo, define_base hL hG h]

theorem rpow_inj {x : K} (hx : 0 < x) (h1 : x ≠ 1) {a b : ℚ} (h : rpow x a = rpow x b) : a = b := by
  by_contra hne
  have hc : a - b ≠ 0 := sub_ne_zero.2 hne
  have e : rpow x (a - b) = 1 := by
    rw [sub_eq_add_neg, rpow_add _ _ _ hx, rpow_neg _ _ hx, h]
    exact mul_inv_cancel₀ (rpow_pos _ _ hx).ne'
  have := rpow_mul x (a - b) (a - b)⁻¹ hx
  rw [mul_inv_cancel₀ hc, rpow_one _ hx, e, one_rpow] at this
  exact h1 this

theorem value_single {u : UnitD} (s : Sym) (x : K) (hx : 0 < x) :
    value (fun t => if t = s then x else 1) u = rpow x (expo u s) := by
  induction u with
  | nil => rw [value_nil, expo_nil, rpow_zero _ hx]
  | cons p u ih =>
    obtain ⟨k, y⟩ := p
    rw [value_cons, ih, expo_cons, rpow_add _ _ _ hx]
    by_cases h : k = s
    · simp [h]
    · simp [h, one_rpow, rpow_zero _ hx]

/-! ### Canonical units -/

omit [LinearOrder K] [IsStrictOrderedRing K] [LawfulRatPow K] in
/-- `SI` of a canonical unit is canonical. -/
theorem si_canonical [RatPow K] (hg : ∀ e ∈ L ++ G, ∀ d ∈ e.value, Canonical d.unit) : ∀ (n : Nat) (q r : Q K), Canonical q.unit →
    si n L G q = .ok r → Canonical r.unit := by
  have hc : ∀ {k : Sym} {x : ℚ} {d : Q K} {b : Bool}, define L G k x = some (d, b) → Canonical d.unit := by
    intro k x d b h
    have key : ∀ T : DTable K, (∀ e ∈ T, e ∈ L ++ G) → From T k x d → Canonical d.unit := by
      rintro T hT ⟨e, he, d0, hd, h⟩
      have c := hg e (hT e he) d0 hd
      have cr : Canonical (recip d0).unit := divUnit_canonical ⟨wf_nil, by intro p hp; simp at hp⟩ c.2
      rcases h with ⟨hk, rfl⟩ | ⟨hk, rfl⟩ | ⟨hk, ⟨_, rfl⟩ | ⟨_, rfl⟩ | rfl⟩
      · exact c
      · exact cr
      · exact c
      · exact cr
      · exact powUnit_canonical c _
    rcases define_some h with h | ⟨_, h⟩
    · exact key L (fun e he => List.mem_append_left _ he) h
    · exact key G (fun e he => List.mem_append_right _ he) h
  have nil : Canonical [] := ⟨wf_nil, by intro p hp; simp at hp⟩
  intro n
  induction n with
  | zero => intro q r _ h; exact absurd h (by simp [si])
  | succ n ih =>
    intro q r hq h
    rw [si_succ] at h
    by_cases h0 : q.unit.length = 0
    · rw [if_pos h0] at h
      cases h
      exact hq
    rw [if_neg h0, map_eq_ok] at h
    obtain ⟨f, hf, rfl⟩ := h
    have key : ∀ (l : UnitD) (acc f : Q K × Q K), NoZero l → l.foldlM (siStep n L G) acc = .ok f →
        Canonical acc.1.unit → Canonical acc.2.unit → Canonical f.1.unit ∧ Canonical f.2.unit := by
      intro l
      induction l with
      | nil =>
        intro acc f _ h h1 h2
        cases h
        exact ⟨h1, h2⟩
      | cons p l ihl =>
        intro acc f hl h h1 h2
        have hl' : NoZero l := fun q hq => hl q (List.mem_cons_of_mem _ hq)
        rw [List.foldlM_cons] at h
        obtain ⟨acc', hs, h⟩ := bind_eq_ok.1 h
        rw [siStep] at hs
        cases hd : define L G p.1 p.2 with
        | none =>
          simp only [hd] at hs
          cases hs
          exact ihl _ _ hl' h ⟨mulInplace_wf h1.1 _ _, mulInplace_noZero h1.1 h1.2 _ (hl p List.mem_cons_self)⟩ h2
        | some d =>
          obtain ⟨d, b⟩ := d
          simp only [hd] at hs
          obtain ⟨d', hsi, rfl⟩ := map_eq_ok.1 hs
          have c' := ih d d' (hc hd) hsi
          cases b with
          | true => exact ihl _ _ hl' h h1 (mulUnit_canonical h2 c'.2)
          | false => exact ihl _ _ hl' h (mulUnit_canonical h1 c'.2) h2
    obtain ⟨w1, w2⟩ := key _ _ _ hq.2 hf nil nil
    exact mulUnit_canonical w1 w2.2

end
end Verif.Units
