import Verif.Units.SI

/-!
Lemmas on the symbols that remain after an expansion in SI units, and on its termination.
-/
namespace Verif.Units
open Verif.Py

section
variable {K : Type} [Field K] [RatPow K] {L G : DTable K}

omit [Field K] [RatPow K] in
theorem find_unique {T : DTable K} (hT : (T.map (·.key)).Nodup) {e : DEntry K} (he : e ∈ T) {key : DKey} (hk : e.key = key) :
    T.find? (fun e => e.key = key) = some e := by
  induction T with
  | nil => simp at he
  | cons a T ih =>
    simp only [List.map_cons, List.nodup_cons] at hT
    rcases List.mem_cons.1 he with h | h
    · subst h
      simp [hk]
    · have : a.key ≠ key := fun h' => hT.1 (List.mem_map.2 ⟨e, h, by rw [hk, h']⟩)
      rw [List.find?_cons_of_neg (by simpa using this)]
      exact ih hT.2 h

theorem define_none (hL : ∀ e ∈ L, e.value ≠ none) (hG : GoodGlobal G) {k : Sym} {x : ℚ} (h : define L G k x = none) :
    IsBase L G k := by
  rw [define] at h
  cases hc : checkDu L k x with
  | some d => simp [hc] at h
  | none =>
    simp only [hc] at h
    intro e he hk
    rcases List.mem_append.1 he with he | he
    · exact absurd hk (checkDu_none hL hc e he).2.2
    · rw [checkDu] at h
      have h0 : ¬ G.length = 0 := by
        intro h'
        rw [List.length_eq_zero_iff.1 h'] at he
        simp at he
      rw [if_neg h0] at h
      have some_of_pow : ∀ y, hasKey G (.pow k y) = true → getDu G (.pow k y) ≠ none := by
        intro y hy h'
        obtain ⟨e', he', hk'⟩ := hasKey_iff.1 hy
        simp only [getDu, find_unique hG.unique he' hk', Option.map_eq_none_iff] at h'
        exact hG.pow e' he' _ _ hk' h'
      by_cases h1 : hasKey G (.pow k x) = true
      · rw [if_pos h1] at h
        exact absurd h (some_of_pow _ h1)
      rw [if_neg h1] at h
      by_cases h2 : hasKey G (.pow k (-x)) = true
      · rw [if_pos h2, Option.map_eq_none_iff] at h
        exact absurd h (some_of_pow _ h2)
      rw [if_neg h2, Option.map_eq_none_iff] at h
      simpa [getDu, find_unique hG.unique he hk] using h

theorem define_base (hL : NoPow L) (hG : NoPow G) {k : Sym} (h : IsBase L G k) (x : ℚ) : define L G k x = none := by
  cases hd : define L G k x with
  | none => rfl
  | some d =>
    obtain ⟨d, b⟩ := d
    have key : ∀ T : DTable K, NoPow T → (∀ e ∈ T, e ∈ L ++ G) → ¬ From T k x d := by
      rintro T hT hs ⟨e, he, d0, hd0, hk⟩
      obtain ⟨s, hs'⟩ := hT e he
      rw [Option.mem_def] at hd0
      rcases hk with ⟨hk, _⟩ | ⟨hk, _⟩ | ⟨hk, _⟩
      · rw [hs'] at hk; cases hk
      · rw [hs'] at hk; cases hk
      · have := h e (hs e he) hk
        rw [hd0] at this
        cases this
    rcases define_some hd with h | ⟨_, h⟩
    · exact absurd h (key L hL fun e he => List.mem_append_left _ he)
    · exact absurd h (key G hG fun e he => List.mem_append_right _ he)

/-- The symbols after an expansion. -/
theorem si_base (hL : ∀ e ∈ L, e.value ≠ none) (hG : GoodGlobal G) : ∀ (n : Nat) (q r : Q K), si n L G q = .ok r →
    ∀ p ∈ r.unit, IsBase L G p.1 := by
  intro n
  induction n with
  | zero => intro q r h; exact absurd h (by simp [si])
  | succ n ih =>
    intro q r h
    rw [si_succ] at h
    by_cases h0 : q.unit.length = 0
    · rw [if_pos h0] at h
      cases h
      rw [List.length_eq_zero_iff.1 h0]
      simp
    rw [if_neg h0, map_eq_ok] at h
    obtain ⟨f, hf, rfl⟩ := h
    have key : ∀ (l : UnitD) (acc f : Q K × Q K), l.foldlM (siStep n L G) acc = .ok f →
        (∀ p ∈ acc.1.unit, IsBase L G p.1) → (∀ p ∈ acc.2.unit, IsBase L G p.1) →
        (∀ p ∈ f.1.unit, IsBase L G p.1) ∧ (∀ p ∈ f.2.unit, IsBase L G p.1) := by
      have mul : ∀ (q d : Q K), (∀ p ∈ q.unit, IsBase L G p.1) → (∀ p ∈ d.unit, IsBase L G p.1) →
          ∀ p ∈ (mulQ q d).unit, IsBase L G p.1 := by
        intro q d h1 h2 p hp
        rcases mulUnit_keys hp with h | h <;> obtain ⟨p', hp', e⟩ := List.mem_map.1 h <;> rw [← e]
        · exact h2 p' hp'
        · exact h1 p' hp'
      intro l
      induction l with
      | nil =>
        intro acc f h h1 h2
        cases h
        exact ⟨h1, h2⟩
      | cons p l ihl =>
        intro acc f h h1 h2
        rw [List.foldlM_cons] at h
        obtain ⟨acc', hs, h⟩ := bind_eq_ok.1 h
        rw [siStep] at hs
        cases hd : define L G p.1 p.2 with
        | none =>
          simp only [hd] at hs
          cases hs
          refine ihl _ _ h ?_ h2
          intro p' hp'
          rcases mulInplace_keys _ _ _ hp' with e | e
          · rw [e]; exact define_none hL hG hd
          · exact h1 p' e
        | some d =>
          obtain ⟨d, b⟩ := d
          simp only [hd] at hs
          obtain ⟨d', hsi, rfl⟩ := map_eq_ok.1 hs
          have hb := ih d d' hsi
          cases b with
          | true => exact ihl _ _ h h1 (mul _ _ h2 hb)
          | false => exact ihl _ _ h (mul _ _ h1 hb) h2
    obtain ⟨b1, b2⟩ := key _ _ _ hf (by simp) (by simp)
    intro p hp
    rcases mulUnit_keys hp with h | h <;> obtain ⟨p', hp', e⟩ := List.mem_map.1 h <;> rw [← e]
    · exact b2 p' hp'
    · exact b1 p' hp'

theorem mulInplace_new {u : UnitD} {k : Sym} {x : ℚ} (h : k ∉ u.map Prod.fst) : mulInplace u k x = u ++ [(k, x)] := by
  rw [mulInplace, lookup_none.2 h]

/-- The expansion of a unit without definition. -/
theorem si_of_base {q : Q K} (hq : Wf q.unit) (hd : ∀ p ∈ q.unit, define L G p.1 p.2 = none) (n : Nat) :
    si (n + 1) L G q = .ok q := by
  rw [si_succ]
  by_cases h0 : q.unit.length = 0
  · rw [if_pos h0]
  rw [if_neg h0]
  have key : ∀ (l u : UnitD), Wf (u ++ l) → (∀ p ∈ l, define L G p.1 p.2 = none) →
      l.foldlM (siStep n L G) (⟨1, u⟩, ⟨1, []⟩) = .ok (⟨1, u ++ l⟩, ⟨1, []⟩) := by
    intro l
    induction l with
    | nil => intro u _ _; simp; rfl
    | cons p l ih =>
      intro u hw hd
      have hp : p.1 ∉ u.map Prod.fst := by
        simp only [Wf, List.map_append, List.map_cons, List.nodup_append] at hw
        exact fun h => hw.2.2 _ h _ (List.mem_cons_self) rfl
      rw [List.foldlM_cons, siStep, hd p List.mem_cons_self]
      show (Except.bind (.ok _) _ : Res _) = _
      simp only [Except.bind]
      rw [mulInplace_new hp, ih _ (by simpa using hw) fun p' hp' => hd p' (List.mem_cons_of_mem _ hp')]
      simp
  rw [key q.unit [] (by simpa using hq) hd]
  simp [Except.map, mulUnit]

/-- The expansion terminates. -/
theorem si_total {rank : Sym → Nat} (hr : Ranked L G rank) : ∀ (n : Nat) (q : Q K), (∀ p ∈ q.unit, rank p.1 < n) →
    ∃ r, si (n + 1) L G q = .ok r := by
  intro n
  induction n with
  | zero =>
    intro q h
    refine ⟨q, ?_⟩
    cases hq : q.unit with
    | nil => rw [si_succ, if_pos (by simp [hq])]
    | cons p l => exact absurd (h p (by simp [hq])) (by omega)
  | succ n ih =>
    intro q h
    rw [si_succ]
    by_cases h0 : q.unit.length = 0
    · exact ⟨q, by rw [if_pos h0]⟩
    rw [if_neg h0]
    have key : ∀ (l : UnitD) (acc : Q K × Q K), (∀ p ∈ l, rank p.1 < n + 1) →
        ∃ f, l.foldlM (siStep (n + 1) L G) acc = .ok f := by
      intro l
      induction l with
      | nil => intro acc _; exact ⟨acc, rfl⟩
      | cons p l ihl =>
        intro acc h
        have hs : ∃ acc', siStep (n + 1) L G acc p = .ok acc' := by
          rw [siStep]
          cases hd : define L G p.1 p.2 with
          | none => exact ⟨_, rfl⟩
          | some d =>
            obtain ⟨d, b⟩ := d
            have hp := h p List.mem_cons_self
            have hrank : ∀ p' ∈ d.unit, rank p'.1 < n := by
              have key : ∀ T : DTable K, (∀ e ∈ T, e ∈ L ++ G) → From T p.1 p.2 d → ∀ p' ∈ d.unit, rank p'.1 < n := by
                intro T hT hf p' hp'
                obtain ⟨e, he, hs, d0, hd0, hk⟩ := hf.keys
                obtain ⟨p0, hp0, e0⟩ := List.mem_map.1 (hk p' hp')
                have := hr e (hT e he) d0 hd0 p0 hp0
                rw [hs, e0] at this
                omega
              rcases define_some hd with h | ⟨_, h⟩
              · exact key L (fun e he => List.mem_append_left _ he) h
              · exact key G (fun e he => List.mem_append_right _ he) h
            obtain ⟨r, hr⟩ := ih d hrank
            exact ⟨_, by simp only [hr]; rfl⟩
        obtain ⟨acc', hs⟩ := hs
        obtain ⟨f, hf⟩ := ihl acc' fun p' hp' => h p' (List.mem_cons_of_mem _ hp')
        refine ⟨f, ?_⟩
        rw [List.foldlM_cons, hs]
        exact hf
    obtain ⟨f, hf⟩ := key q.unit _ h
    exact ⟨_, by rw [hf]; rfl⟩

end
end Verif.Units
