import Verif.Units.Lemmas
import Verif.Py.Lemmas
import Mathlib.Data.List.TakeWhile
import Mathlib.Data.List.Induction

/-!
Lemmas on the parser of unit strings.
-/
namespace Verif.Units
open Verif.Py

/-! ### Characters -/

theorem char_le {c d : Char} : c ≤ d ↔ c.toNat ≤ d.toNat := by
  rw [Char.le_def, UInt32.le_iff_toNat_le]
  rfl

theorem isSymChar_iff {c : Char} : isSymChar c = true ↔ Letter c := by
  simp only [isSymChar, Letter, char_le, decide_eq_true_eq]
  have h1 : 'a'.toNat = 97 := rfl
  have h2 : 'z'.toNat = 122 := rfl
  have h3 : 'A'.toNat = 65 := rfl
  have h4 : 'Z'.toNat = 90 := rfl
  rw [h1, h2, h3, h4]
  tauto

theorem isDig_iff {c : Char} : isDig c = true ↔ '0' ≤ c ∧ c ≤ '9' := by
  simp only [isDig, char_le, decide_eq_true_eq]
  exact Iff.rfl

theorem isSpace_iff {c : Char} : isSpace c = true ↔ White c := by
  simp only [isSpace, White, char_le, decide_eq_true_eq]
  exact Iff.rfl

/-! ### Runs of characters -/

theorem takeWhile_run {p : Char → Bool} {a r : List Char} (ha : ∀ c ∈ a, p c = true) (hr : ∀ c ∈ r.head?, p c = false) :
    (a ++ r).takeWhile p = a ∧ (a ++ r).dropWhile p = r := by
  induction a with
  | nil =>
    cases r with
    | nil => simp
    | cons c r =>
      have := hr c rfl
      simp [this]
  | cons c a ih =>
    have hc := ha c List.mem_cons_self
    obtain ⟨i1, i2⟩ := ih fun d hd => ha d (List.mem_cons_of_mem _ hd)
    simp [hc, i1, i2]

theorem run_split (p : Char → Bool) (s : List Char) :
    s = s.takeWhile p ++ s.dropWhile p ∧ (∀ c ∈ s.takeWhile p, p c = true) ∧ ∀ c ∈ (s.dropWhile p).head?, p c = false := by
  refine ⟨List.takeWhile_append_dropWhile.symm, fun c hc => List.mem_takeWhile_imp hc, ?_⟩
  induction s with
  | nil => simp
  | cons d s ih =>
    by_cases h : p d = true
    · rw [List.dropWhile_cons_of_pos h]; exact ih
    · rw [List.dropWhile_cons_of_neg h]
      intro c hc
      simp only [List.head?_cons, Option.mem_def, Option.some.injEq] at hc
      subst hc
      simpa using h

theorem skip_spaces (n : Nat) {r : List Char} (hr : ∀ c ∈ r.head?, c ≠ ' ') : skip (List.replicate n ' ' ++ r) = r :=
  (takeWhile_run (p := (· = ' ')) (by simp +contextual [List.mem_replicate]) (by simpa using hr)).2

theorem skip_split (s : List Char) : ∃ n, s = List.replicate n ' ' ++ skip s ∧ ∀ c ∈ (skip s).head?, c ≠ ' ' := by
  obtain ⟨h1, h2, h3⟩ := run_split (· = ' ') s
  refine ⟨(s.takeWhile (· = ' ')).length, ?_, fun c hc => by simpa using h3 c hc⟩
  have : s.takeWhile (· = ' ') = List.replicate (s.takeWhile (· = ' ')).length ' ' :=
    List.eq_replicate_iff.2 ⟨rfl, by simpa using h2⟩
  rw [← this]
  exact h1

theorem skip_id {r : List Char} (hr : ∀ c ∈ r.head?, c ≠ ' ') : skip r = r := by
  simpa using skip_spaces 0 hr

/-! ### Numbers -/

theorem natVal_eq (s : List Char) : natVal s = digitsValue s := by
  induction s using List.reverseRecOn with
  | nil => rfl
  | append_singleton s c ih =>
    rw [natVal, List.foldl_append, ← natVal, ih]
    simp only [digitsValue, List.map_append, List.map_cons, List.map_nil, List.reverse_append, List.reverse_cons,
      List.reverse_nil, List.nil_append, List.cons_append, List.foldl_cons, List.foldl_nil, Nat.ofDigits_cons]
    have : '0'.toNat = 48 := rfl
    simp only [this, add_comm]

theorem matchNum_eq (sign : Bool) (s1 : List Char) (h : sign = false → ∀ c ∈ s1.head?, c ≠ '-') :
    matchNum ((if sign then ['-'] else []) ++ s1) =
      if s1.takeWhile isDig = [] then none
      else match s1.dropWhile isDig with
        | '.' :: t => some ((if sign then -1 else 1) * ((natVal (s1.takeWhile isDig) : ℚ) +
            (natVal (t.takeWhile isDig) : ℚ) / 10 ^ (t.takeWhile isDig).length), t.dropWhile isDig)
        | t => some ((if sign then -1 else 1) * (natVal (s1.takeWhile isDig) : ℚ), t) := by
  cases sign with
  | true => rfl
  | false =>
    cases s1 with
    | nil => rfl
    | cons c s =>
      have hc := h rfl c rfl
      rw [matchNum]
      · rfl
      · intro t h2
        cases h2
        exact hc rfl

theorem numeral_value (x : Numeral) : x.value = (if x.neg then -1 else 1) * ((natVal x.int : ℚ) + (match x.frac with
    | none => 0
    | some f => (natVal f : ℚ) / 10 ^ f.length)) := by
  rw [Numeral.value]
  simp only [natVal_eq]
  cases x.neg <;> cases x.frac <;> simp

theorem matchNum_chars {x : Numeral} (hx : x.Good) {r : List Char} (hd : ∀ c ∈ r.head?, isDig c = false)
    (hp : x.frac = none → ∀ c ∈ r.head?, c ≠ '.') : matchNum (x.chars ++ r) = some (x.value, r) := by
  obtain ⟨neg, ip, fr⟩ := x
  obtain ⟨h1, h2, h3⟩ := hx
  simp only at h1 h2 h3 hp
  have hint : ∀ c ∈ ip, isDig c = true := fun c hc => isDig_iff.2 (h2 c hc)
  have hminus : ∀ t : List Char, ∀ c ∈ (ip ++ t).head?, c ≠ '-' := by
    intro t c hc
    cases ip with
    | nil => exact absurd rfl h1
    | cons d ip =>
      simp only [List.cons_append, List.head?_cons, Option.mem_def, Option.some.injEq] at hc
      subst hc
      rintro rfl
      exact absurd (hint '-' List.mem_cons_self) (by decide)
  rw [numeral_value, Numeral.chars]
  simp only [List.append_assoc]
  rw [matchNum_eq _ _ fun _ => hminus _]
  cases fr with
  | none =>
    simp only [List.nil_append]
    obtain ⟨e1, e2⟩ := takeWhile_run hint hd
    rw [e1, e2, if_neg h1]
    cases r with
    | nil => simp
    | cons c r =>
      have := hp rfl c rfl
      split
      · rename_i h; cases h; exact absurd rfl this
      · simp
  | some f =>
    obtain ⟨e1, e2⟩ := takeWhile_run (r := '.' :: f ++ r) hint (by simp [isDig])
    obtain ⟨e3, e4⟩ := takeWhile_run (fun c hc => isDig_iff.2 (h3 f rfl c hc)) hd
    rw [e1, e2, if_neg h1]
    simp only [List.cons_append, e3, e4]

theorem matchNum_sound {s : List Char} {v : ℚ} {r : List Char} (h : matchNum s = some (v, r)) :
    ∃ x : Numeral, x.Good ∧ s = x.chars ++ r ∧ v = x.value ∧ (∀ c ∈ r.head?, isDig c = false) ∧
      (x.frac = none → ∀ c ∈ r.head?, c ≠ '.') := by
  obtain ⟨sign, s1, rfl, hs⟩ : ∃ sign s1, s = (if sign then ['-'] else []) ++ s1 ∧
      (sign = false → ∀ c ∈ s1.head?, c ≠ '-') := by
    cases s with
    | nil => exact ⟨false, [], rfl, by simp⟩
    | cons c s =>
      by_cases hc : c = '-'
      · exact ⟨true, s, by simp [hc], by simp⟩
      · exact ⟨false, c :: s, rfl, by simpa using hc⟩
  rw [matchNum_eq _ _ hs] at h
  obtain ⟨r1, r2, r3⟩ := run_split isDig s1
  by_cases h0 : s1.takeWhile isDig = []
  · rw [if_pos h0] at h; cases h
  rw [if_neg h0] at h
  split at h
  · rename_i t ht
    obtain ⟨f1, f2, f3⟩ := run_split isDig t
    simp only [Option.some.injEq, Prod.mk.injEq] at h
    obtain ⟨rfl, rfl⟩ := h
    refine ⟨⟨sign, s1.takeWhile isDig, some (t.takeWhile isDig)⟩, ⟨h0, fun c hc => isDig_iff.1 (r2 c hc), ?_⟩, ?_, ?_, f3, by simp⟩
    · intro f hf c hc
      cases hf
      exact isDig_iff.1 (f2 c hc)
    · simp only [Numeral.chars, List.append_assoc, List.append_cancel_left_eq]
      conv_lhs => rw [r1, ht, f1]
      simp
    · rw [numeral_value]
  · rename_i t ht
    simp only [Option.some.injEq, Prod.mk.injEq] at h
    obtain ⟨rfl, rfl⟩ := h
    refine ⟨⟨sign, s1.takeWhile isDig, none⟩, ⟨h0, fun c hc => isDig_iff.1 (r2 c hc), by simp⟩, ?_, ?_, r3, ?_⟩
    · simp only [Numeral.chars, List.append_assoc, List.append_cancel_left_eq, List.nil_append]
      exact r1
    · rw [numeral_value]; simp
    · intro _ c hc
      rintro rfl
      cases hd : s1.dropWhile isDig with
      | nil => rw [hd] at hc; simp at hc
      | cons d l =>
        rw [hd] at hc
        simp only [List.head?_cons, Option.mem_def, Option.some.injEq] at hc
        subst hc
        exact ht _ hd

/-! ### Factors -/

/-- The character of an operator. -/
def UOp.char : UOp → Option Char
  | .none => Option.none
  | .times => some '*'
  | .over => some '/'

/-- The beginning of what may follow a factor. -/
def Follows (t : Factor) (r : List Char) : Prop :=
  t.trail = 0 → t.exp = none → ∀ c ∈ r.head?, (Word t.sym → ¬ Letter c) ∧ (Marks t.sym → c ≠ '?')

theorem letter_props {c : Char} (h : Letter c) : c ≠ ' ' ∧ c ≠ '/' ∧ c ≠ '*' ∧ c ≠ '?' ∧ c ≠ '^' ∧ c ≠ '.' ∧ isDig c = false := by
  have h' := isSymChar_iff.2 h
  refine ⟨?_, ?_, ?_, ?_, ?_, ?_, ?_⟩
  · rintro rfl; exact absurd h' (by decide)
  · rintro rfl; exact absurd h' (by decide)
  · rintro rfl; exact absurd h' (by decide)
  · rintro rfl; exact absurd h' (by decide)
  · rintro rfl; exact absurd h' (by decide)
  · rintro rfl; exact absurd h' (by decide)
  · by_contra hd
    rw [Bool.not_eq_false, isDig] at hd
    rw [isSymChar] at h'
    simp only [decide_eq_true_eq] at hd h'
    rcases h' with h' | h' | rfl | rfl | rfl
    · omega
    · omega
    · exact absurd hd (by decide)
    · exact absurd hd (by decide)
    · exact absurd hd (by decide)

theorem matchSym_word {s r : List Char} (h : Word s) (hr : ∀ c ∈ r.head?, ¬ Letter c) : matchSym (s ++ r) = some (s, r) := by
  obtain ⟨h0, hl⟩ := h
  obtain ⟨e1, e2⟩ := takeWhile_run (fun c hc => isSymChar_iff.2 (hl c hc))
    (fun c hc => by rw [← Bool.not_eq_true, isSymChar_iff]; exact hr c hc)
  cases s with
  | nil => exact absurd rfl h0
  | cons c s =>
    rw [List.cons_append] at e1 e2 ⊢
    rw [matchSym, if_pos (isSymChar_iff.2 (hl c List.mem_cons_self)), e1, e2]

theorem matchSym_marks {s r : List Char} (h : Marks s) (hr : ∀ c ∈ r.head?, c ≠ '?') : matchSym (s ++ r) = some (s, r) := by
  obtain ⟨h0, hl⟩ := h
  obtain ⟨e1, e2⟩ := takeWhile_run (p := (· = '?')) (a := s) (r := r) (by simpa using hl) (by simpa using hr)
  cases s with
  | nil => exact absurd rfl h0
  | cons c s =>
    have hc := hl c List.mem_cons_self
    subst hc
    rw [List.cons_append] at e1 e2 ⊢
    rw [matchSym, if_neg (by decide), if_pos rfl, e1, e2]

theorem matchExp_none {r : List Char} (h : ∀ c ∈ r.head?, c ≠ '^') : matchExp r = (none, r) := by
  cases r with
  | nil => rfl
  | cons c r =>
    have := h c rfl
    rw [matchExp]
    intro t h1
    cases h1
    exact this rfl

theorem matchOp_none {r : List Char} (h : ∀ c ∈ r.head?, c ≠ '/' ∧ c ≠ '*') : matchOp r = (none, r) := by
  cases r with
  | nil => rfl
  | cons c r =>
    have := h c rfl
    rw [matchOp]
    · intro s h1; cases h1; exact this.1 rfl
    · intro s h1; cases h1; exact this.2 rfl

/-- What begins a factor. -/
def Starts (r : List Char) : Prop := ∀ c ∈ r.head?, c = '*' ∨ c = '/' ∨ Letter c ∨ c = '?'

theorem Starts.props {r : List Char} (h : Starts r) : ∀ c ∈ r.head?, c ≠ ' ' ∧ c ≠ '^' ∧ c ≠ '.' ∧ isDig c = false := by
  intro c hc
  rcases h c hc with rfl | rfl | h | rfl
  · decide
  · decide
  · obtain ⟨h1, _, _, _, h2, h3, h4⟩ := letter_props h
    exact ⟨h1, h2, h3, h4⟩
  · decide

theorem head_append_of_ne {a b : List Char} (h : a ≠ []) : (a ++ b).head? = a.head? := by
  cases a with
  | nil => exact absurd rfl h
  | cons => rfl

theorem sym_head {t : Factor} (h : t.Good) (r : List Char) :
    t.sym ≠ [] ∧ ∀ c ∈ (t.sym ++ r).head?, Letter c ∨ c = '?' := by
  obtain ⟨h, _⟩ := h
  rcases h with ⟨h0, h⟩ | ⟨h0, h⟩
  · refine ⟨h0, fun c hc => ?_⟩
    rw [head_append_of_ne h0] at hc
    exact .inl (h c (List.mem_of_mem_head? hc))
  · refine ⟨h0, fun c hc => ?_⟩
    rw [head_append_of_ne h0] at hc
    exact .inr (h c (List.mem_of_mem_head? hc))

theorem matchTail {t : Factor} (ht : t.Good) {r : List Char} (hs : Starts r) (hf : Follows t r) :
    ∃ s2, matchSym (t.sym ++ (expChars t.exp ++ (List.replicate t.trail ' ' ++ r))) = some (t.sym, s2) ∧
      ∃ s3, matchExp s2 = (t.exp.map Numeral.value, s3) ∧ skip s3 = r := by
  obtain ⟨op, sp, sym, exp, trail⟩ := t
  have hr := hs.props
  have hskip : skip (List.replicate trail ' ' ++ r) = r := skip_spaces _ fun c hc => (hr c hc).1
  simp only at hskip ⊢
  cases exp with
  | none =>
    simp only [expChars, List.nil_append]
    refine ⟨List.replicate trail ' ' ++ r, ?_, List.replicate trail ' ' ++ r, ?_, hskip⟩
    · have hh : ∀ c ∈ (List.replicate trail ' ' ++ r).head?, (Word sym → ¬ Letter c) ∧ (Marks sym → c ≠ '?') := by
        cases trail with
        | zero => simpa using hf rfl rfl
        | succ n =>
          intro c hc
          simp only [List.replicate_succ, List.cons_append, List.head?_cons, Option.mem_def, Option.some.injEq] at hc
          subst hc
          exact ⟨fun _ h => (letter_props h).1 rfl, fun _ => by decide⟩
      rcases ht.1 with h | h
      · exact matchSym_word h fun c hc => (hh c hc).1 h
      · exact matchSym_marks h fun c hc => (hh c hc).2 h
    · refine matchExp_none ?_
      cases trail with
      | zero => simpa using fun c hc => (hr c hc).2.1
      | succ n => simp [List.replicate_succ]
  | some x =>
    refine ⟨'^' :: (x.chars ++ (List.replicate trail ' ' ++ r)), ?_, List.replicate trail ' ' ++ r, ?_, hskip⟩
    · rcases ht.1 with h | h
      · refine matchSym_word h ?_
        intro c hc hl
        simp only [expChars, List.cons_append, List.head?_cons, Option.mem_def, Option.some.injEq] at hc
        exact (letter_props hl).2.2.2.2.1 hc.symm
      · refine matchSym_marks h ?_
        simp [expChars]
    · rw [matchExp]
      have hh : ∀ c ∈ (List.replicate trail ' ' ++ r).head?, isDig c = false ∧ c ≠ '.' := by
        cases trail with
        | zero => simpa using fun c hc => ⟨(hr c hc).2.2.2, (hr c hc).2.2.1⟩
        | succ n => simp [List.replicate_succ, isDig]
      rw [matchNum_chars (ht.2 x rfl) (fun c hc => (hh c hc).1) (fun _ c hc => (hh c hc).2)]
      rfl

theorem matchUnit_chars {t : Factor} (ht : t.Good) {r : List Char} (hs : Starts r) (hf : Follows t r) :
    matchUnit (t.chars ++ r) = some (t.op.char, t.sym, t.exp.map Numeral.value, r) := by
  obtain ⟨s2, h2, s3, h3, h4⟩ := matchTail ht hs hf
  obtain ⟨h0, hh⟩ := sym_head ht (expChars t.exp ++ (List.replicate t.trail ' ' ++ r))
  have hsp : ∀ c ∈ (t.sym ++ (expChars t.exp ++ (List.replicate t.trail ' ' ++ r))).head?, c ≠ ' ' ∧ c ≠ '/' ∧ c ≠ '*' := by
    intro c hc
    rcases hh c hc with h | rfl
    · obtain ⟨h1, h2, h3, _⟩ := letter_props h
      exact ⟨h1, h2, h3⟩
    · decide
  rw [Factor.chars, List.append_assoc, List.append_assoc, List.append_assoc, matchUnit]
  cases hop : t.op with
  | none =>
    simp only [List.nil_append]
    rw [skip_id fun c hc => (hsp c hc).1, matchOp_none fun c hc => (hsp c hc).2]
    simp only
    rw [skip_id fun c hc => (hsp c hc).1, h2]
    simp only
    rw [h3]
    simp only [h4]
    rfl
  | times =>
    simp only [List.cons_append]
    rw [skip_id (r := '*' :: _) (by simp)]
    simp only [matchOp]
    rw [skip_spaces _ fun c hc => (hsp c hc).1, h2]
    simp only
    rw [h3]
    simp only [h4]
    rfl
  | over =>
    simp only [List.cons_append]
    rw [skip_id (r := '/' :: _) (by simp)]
    simp only [matchOp]
    rw [skip_spaces _ fun c hc => (hsp c hc).1, h2]
    simp only
    rw [h3]
    simp only [h4]
    rfl

theorem matchSym_sound {s sym r : List Char} (h : matchSym s = some (sym, r)) :
    s = sym ++ r ∧ ((Word sym ∧ ∀ c ∈ r.head?, ¬ Letter c) ∨ (Marks sym ∧ ∀ c ∈ r.head?, c ≠ '?')) := by
  cases s with
  | nil => simp [matchSym] at h
  | cons c s =>
    rw [matchSym] at h
    by_cases h1 : isSymChar c = true
    · rw [if_pos h1] at h
      obtain ⟨e1, e2, e3⟩ := run_split isSymChar (c :: s)
      simp only [Option.some.injEq, Prod.mk.injEq] at h
      obtain ⟨rfl, rfl⟩ := h
      refine ⟨e1, .inl ⟨⟨by simp [h1], fun d hd => isSymChar_iff.1 (e2 d hd)⟩, fun d hd hl => ?_⟩⟩
      have := e3 d hd
      rw [isSymChar_iff.2 hl] at this
      cases this
    · rw [if_neg h1] at h
      by_cases h2 : c = '?'
      · rw [if_pos h2] at h
        obtain ⟨e1, e2, e3⟩ := run_split (· = '?') (c :: s)
        simp only [Option.some.injEq, Prod.mk.injEq] at h
        obtain ⟨rfl, rfl⟩ := h
        exact ⟨e1, .inr ⟨⟨by simp [h2], fun d hd => by simpa using e2 d hd⟩, fun d hd => by simpa using e3 d hd⟩⟩
      · rw [if_neg h2] at h; cases h

theorem matchExp_sound {s r : List Char} {e : Option ℚ} (h : matchExp s = (e, r)) :
    ∃ x : Option Numeral, (∀ y ∈ x, y.Good) ∧ e = x.map Numeral.value ∧ s = expChars x ++ r := by
  have triv : e = none → r = s → ∃ x : Option Numeral, (∀ y ∈ x, y.Good) ∧ e = x.map Numeral.value ∧ s = expChars x ++ r := by
    rintro rfl rfl
    exact ⟨none, by simp, rfl, rfl⟩
  cases s with
  | nil =>
    simp only [matchExp, Prod.mk.injEq] at h
    exact triv h.1.symm h.2.symm
  | cons c s =>
    by_cases hc : c = '^'
    · subst hc
      rw [matchExp] at h
      cases hn : matchNum s with
      | none =>
        simp only [hn, Prod.mk.injEq] at h
        exact triv h.1.symm h.2.symm
      | some y =>
        obtain ⟨v, r'⟩ := y
        simp only [hn, Prod.mk.injEq] at h
        obtain ⟨rfl, rfl⟩ := h
        obtain ⟨x, hx, rfl, rfl, _⟩ := matchNum_sound hn
        exact ⟨some x, by simpa using hx, rfl, rfl⟩
    · rw [matchExp_none (by simpa using hc)] at h
      simp only [Prod.mk.injEq] at h
      exact triv h.1.symm h.2.symm

theorem matchOp_sound (s : List Char) : ∃ o : UOp, (matchOp s).1 = o.char ∧
    ((o = .none ∧ (matchOp s).2 = s) ∨ (o = .times ∧ s = '*' :: (matchOp s).2) ∨ (o = .over ∧ s = '/' :: (matchOp s).2)) := by
  cases s with
  | nil => exact ⟨.none, rfl, .inl ⟨rfl, rfl⟩⟩
  | cons c s =>
    by_cases h1 : c = '*'
    · subst h1; exact ⟨.times, rfl, .inr (.inl ⟨rfl, rfl⟩)⟩
    by_cases h2 : c = '/'
    · subst h2; exact ⟨.over, rfl, .inr (.inr ⟨rfl, rfl⟩)⟩
    rw [matchOp_none (by simp [h1, h2])]
    exact ⟨.none, rfl, .inl ⟨rfl, rfl⟩⟩

theorem matchUnit_sound {s : List Char} (hs : ∀ c ∈ s.head?, c ≠ ' ') {op : Option Char} {u : Sym} {e : Option ℚ} {r : List Char}
    (h : matchUnit s = some (op, u, e, r)) :
    ∃ t : Factor, t.Good ∧ s = t.chars ++ r ∧ op = t.op.char ∧ u = t.sym ∧ e = t.exp.map Numeral.value ∧
      (∀ c ∈ r.head?, c ≠ ' ') ∧ Follows t r := by
  rw [matchUnit, skip_id hs] at h
  obtain ⟨o, ho, hcase⟩ := matchOp_sound s
  simp only at h
  rw [ho] at h
  cases hm : matchSym (skip (matchOp s).2) with
  | none => simp [hm] at h
  | some y =>
    obtain ⟨u', s2⟩ := y
    simp only [hm, Option.some.injEq, Prod.mk.injEq] at h
    obtain ⟨rfl, rfl, rfl, rfl⟩ := h
    obtain ⟨n, hn, _⟩ := skip_split (matchOp s).2
    obtain ⟨e1, hsym⟩ := matchSym_sound hm
    obtain ⟨x, hx, hv, e2⟩ := matchExp_sound (e := (matchExp s2).1) (r := (matchExp s2).2) rfl
    obtain ⟨m, e3, hr⟩ := skip_split (matchExp s2).2
    have hn0 : o = .none → n = 0 := by
      rintro rfl
      rcases hcase with ⟨_, h⟩ | ⟨h, _⟩ | ⟨h, _⟩
      · rw [h] at hn
        cases n with
        | zero => rfl
        | succ n =>
          rw [hn] at hs
          exact absurd rfl (hs ' ' (by simp [List.replicate_succ]))
      · cases h
      · cases h
    refine ⟨⟨o, n, u', x, m⟩, ⟨hsym.imp And.left And.left, hx⟩, ?_, rfl, rfl, hv, hr, ?_⟩
    · rw [e1, e2, e3] at hn
      rcases hcase with ⟨rfl, h⟩ | ⟨rfl, h⟩ | ⟨rfl, h⟩
      · rw [hn0 rfl] at hn
        rw [Factor.chars, ← h, hn]
        simp
      · rw [Factor.chars, h, hn]
        simp
      · rw [Factor.chars, h, hn]
        simp
    · intro htr hex c hc
      simp only at htr hex ⊢
      subst htr hex
      simp only [expChars, List.nil_append] at e2
      rw [List.replicate_zero, List.nil_append] at e3
      rw [← e3, ← e2] at hc
      rcases hsym with ⟨hw, h⟩ | ⟨hw, h⟩
      · refine ⟨fun _ => h c hc, fun hmk => ?_⟩
        cases u' with
        | nil => exact absurd rfl hw.1
        | cons d u' =>
          have a := hw.2 d List.mem_cons_self
          have b := hmk.2 d List.mem_cons_self
          exact absurd b (letter_props a).2.2.2.1
      · refine ⟨fun hwd => ?_, fun _ => h c hc⟩
        cases u' with
        | nil => exact absurd rfl hw.1
        | cons d u' =>
          have a := hwd.2 d List.mem_cons_self
          have b := hw.2 d List.mem_cons_self
          exact absurd b (letter_props a).2.2.2.1

/-! ### Unit strings -/

/-- The factors as a list of powers. -/
def powers (ts : List Factor) : UnitD := ts.map fun t => (t.sym, t.expo)

theorem expo_powers (ts : List Factor) (s : Sym) : expo (powers ts) s = factorsExpo ts s := by
  induction ts with
  | nil => rfl
  | cons t ts ih =>
    rw [powers, List.map_cons, expo_cons, ← powers, ih, factorsExpo, factorsExpo]
    by_cases h : t.sym = s
    · simp [h]
    · simp [h]

theorem starts_factors {ts : List Factor} (h : ∀ t ∈ ts, t.Good) : Starts (factorsChars ts) := by
  cases ts with
  | nil => intro c hc; simp [factorsChars] at hc
  | cons t ts =>
    have ht := h t List.mem_cons_self
    intro c hc
    rw [factorsChars, List.flatMap_cons, Factor.chars] at hc
    cases hop : t.op with
    | none =>
      simp only [hop, List.nil_append, List.append_assoc] at hc
      rcases (sym_head ht _).2 c hc with h | h
      · exact .inr (.inr (.inl h))
      · exact .inr (.inr (.inr h))
    | times =>
      simp only [hop, List.cons_append, List.head?_cons, Option.mem_def, Option.some.injEq] at hc
      exact .inl hc.symm
    | over =>
      simp only [hop, List.cons_append, List.head?_cons, Option.mem_def, Option.some.injEq] at hc
      exact .inr (.inl hc.symm)

theorem word_not_marks {s : Sym} (h : Word s) : ¬ Marks s := by
  intro h'
  cases s with
  | nil => exact h.1 rfl
  | cons d u' => exact (letter_props (h.2 d List.mem_cons_self)).2.2.2.1 (h'.2 d List.mem_cons_self)

theorem chain_tail {t : Factor} {ts : List Factor} (h : (t :: ts).IsChain Separated) : ts.IsChain Separated := by
  cases h with
  | singleton => exact List.IsChain.nil
  | cons_cons _ h => exact h

theorem follows_factors {t : Factor} {ts : List Factor} (h : ∀ t ∈ ts, t.Good) (hc : (t :: ts).IsChain Separated) :
    Follows t (factorsChars ts) := by
  intro h0 he c hcc
  cases ts with
  | nil => simp [factorsChars] at hcc
  | cons t' ts =>
    have hsep : Separated t t' := by
      cases hc with
      | cons_cons h _ => exact h
    have ht' := h t' List.mem_cons_self
    rw [factorsChars, List.flatMap_cons, Factor.chars] at hcc
    rcases hsep with h | h | h | h
    · omega
    · cases hop : t'.op with
      | none => exact absurd hop h
      | times =>
        simp only [hop, List.cons_append, List.head?_cons, Option.mem_def, Option.some.injEq] at hcc
        subst hcc
        exact ⟨fun _ h => (letter_props h).2.2.1 rfl, fun _ => by decide⟩
      | over =>
        simp only [hop, List.cons_append, List.head?_cons, Option.mem_def, Option.some.injEq] at hcc
        subst hcc
        exact ⟨fun _ h => (letter_props h).2.1 rfl, fun _ => by decide⟩
    · rw [he] at h; simp at h
    · cases hop : t'.op with
      | times =>
        simp only [hop, List.cons_append, List.head?_cons, Option.mem_def, Option.some.injEq] at hcc
        subst hcc
        exact ⟨fun _ h => (letter_props h).2.2.1 rfl, fun _ => by decide⟩
      | over =>
        simp only [hop, List.cons_append, List.head?_cons, Option.mem_def, Option.some.injEq] at hcc
        subst hcc
        exact ⟨fun _ h => (letter_props h).2.1 rfl, fun _ => by decide⟩
      | none =>
        simp only [hop, List.nil_append, List.append_assoc] at hcc
        have hne := (sym_head ht' []).1
        rw [head_append_of_ne hne] at hcc
        have hmem := List.mem_of_mem_head? hcc
        refine ⟨fun hw hl => ?_, fun hm hq => ?_⟩
        · rcases ht'.1 with w | m
          · exact h ⟨fun _ => w, fun _ => hw⟩
          · exact (letter_props hl).2.2.2.1 (m.2 c hmem)
        · rcases ht'.1 with w | m
          · exact (letter_props (w.2 c hmem)).2.2.2.1 hq
          · exact h ⟨fun hw => absurd hm (word_not_marks hw), fun hw => absurd m (word_not_marks hw)⟩

theorem chars_ne_nil {t : Factor} (ht : t.Good) : t.chars ≠ [] := by
  intro h
  rw [Factor.chars] at h
  simp only [List.append_eq_nil_iff] at h
  exact (sym_head ht []).1 h.1.1.2

theorem extractLoop_succ (n : Nat) (s : List Char) (result : UnitD) : extractLoop (n + 1) s result =
    if s = [] then .ok result
    else match matchUnit s with
      | none => .error .valueError
      | some (op, u, e, rest) => extractLoop n rest (mulInplace result u (if op = some '/' then -e.getD 1 else e.getD 1)) := rfl

theorem factor_expo (t : Factor) :
    (if t.op.char = some '/' then -(t.exp.map Numeral.value).getD 1 else (t.exp.map Numeral.value).getD 1) = t.expo := by
  rw [Factor.expo]
  have h : t.op.char = some '/' ↔ t.op = .over := by
    cases t.op <;> simp [UOp.char]
  by_cases h' : t.op = .over
  · rw [if_pos h', if_pos (h.2 h')]
    cases t.exp <;> rfl
  · rw [if_neg h', if_neg fun e => h' (h.1 e)]
    cases t.exp <;> rfl

theorem extractLoop_chars : ∀ (n : Nat) (ts : List Factor) (result : UnitD), (factorsChars ts).length ≤ n → Grammar ts →
    extractLoop n (factorsChars ts) result = .ok ((powers ts).foldl (fun u p => mulInplace u p.1 p.2) result) := by
  intro n
  induction n with
  | zero =>
    intro ts result hn hg
    cases ts with
    | nil => rfl
    | cons t ts =>
      have := chars_ne_nil (hg.good t List.mem_cons_self)
      simp only [factorsChars, List.flatMap_cons, List.length_append, Nat.le_zero_eq, Nat.add_eq_zero_iff, List.length_eq_zero_iff] at hn
      exact absurd hn.1 this
  | succ n ih =>
    intro ts result hn hg
    cases ts with
    | nil => rfl
    | cons t ts =>
      have ht := hg.good t List.mem_cons_self
      have hts : ∀ t ∈ ts, t.Good := fun t' h' => hg.good t' (List.mem_cons_of_mem _ h')
      have hne := chars_ne_nil ht
      rw [extractLoop_succ, factorsChars, List.flatMap_cons, if_neg (by simp [hne]), ← factorsChars,
        matchUnit_chars ht (starts_factors hts) (follows_factors hts hg.separated)]
      simp only [factor_expo]
      rw [ih ts _ ?_ ⟨hts, chain_tail hg.separated⟩]
      · rfl
      · rw [factorsChars, List.flatMap_cons, List.length_append, ← factorsChars] at hn
        have := List.length_pos_of_ne_nil hne
        omega

theorem extractLoop_sound : ∀ (n : Nat) (s : List Char) (result u : UnitD), (∀ c ∈ s.head?, c ≠ ' ') →
    extractLoop n s result = .ok u →
    ∃ ts, Grammar ts ∧ s = factorsChars ts ∧ u = (powers ts).foldl (fun u p => mulInplace u p.1 p.2) result := by
  intro n
  induction n with
  | zero =>
    intro s result u _ h
    rw [extractLoop] at h
    by_cases h0 : s = []
    · rw [if_pos h0] at h
      cases h
      exact ⟨[], ⟨by simp, List.IsChain.nil⟩, h0, rfl⟩
    · rw [if_neg h0] at h; cases h
  | succ n ih =>
    intro s result u hs h
    rw [extractLoop_succ] at h
    by_cases h0 : s = []
    · rw [if_pos h0] at h
      cases h
      exact ⟨[], ⟨by simp, List.IsChain.nil⟩, h0, rfl⟩
    rw [if_neg h0] at h
    cases hm : matchUnit s with
    | none => simp [hm] at h
    | some y =>
      obtain ⟨op, sym, e, r⟩ := y
      simp only [hm] at h
      obtain ⟨t, ht, rfl, rfl, rfl, rfl, hr, hf⟩ := matchUnit_sound hs hm
      rw [factor_expo] at h
      obtain ⟨ts, hg, rfl, rfl⟩ := ih r _ _ hr h
      refine ⟨t :: ts, ⟨?_, ?_⟩, by simp [factorsChars], rfl⟩
      · intro t' h'
        rcases List.mem_cons.1 h' with rfl | h'
        · exact ht
        · exact hg.good t' h'
      · cases ts with
        | nil => exact List.IsChain.singleton _
        | cons t' ts =>
          refine List.IsChain.cons_cons ?_ hg.separated
          have ht' := hg.good t' List.mem_cons_self
          by_cases a1 : 0 < t.trail
          · exact .inl a1
          by_cases a2 : t'.op = .none
          · by_cases a3 : t.exp = none
            · right; right; right
              have hne := (sym_head ht' []).1
              obtain ⟨c, hc⟩ : ∃ c, c ∈ t'.sym.head? := by
                cases hsym : t'.sym with
                | nil => exact absurd hsym hne
                | cons c l => exact ⟨c, rfl⟩
              have hmem := List.mem_of_mem_head? hc
              have hc' : c ∈ (factorsChars (t' :: ts)).head? := by
                rw [factorsChars, List.flatMap_cons, Factor.chars]
                simp only [a2, List.nil_append, List.append_assoc]
                rw [head_append_of_ne hne]
                exact hc
              obtain ⟨f1, f2⟩ := hf (by omega) a3 c hc'
              intro hiff
              rcases ht.1 with w | m
              · exact f1 w ((hiff.1 w).2 c hmem)
              · rcases ht'.1 with w' | m'
                · exact word_not_marks (hiff.2 w') m
                · exact f2 m (m'.2 c hmem)
            · right; right; left
              exact Option.isSome_iff_ne_none.2 a3
          · exact .inr (.inl a2)

/-! ### Stripping -/

theorem strip_isStrip (s : List Char) : IsStrip s (strip s) := by
  obtain ⟨a1, a2, a3⟩ := run_split isSpace s
  obtain ⟨b1, b2, b3⟩ := run_split isSpace (s.dropWhile isSpace).reverse
  have hrev : s.dropWhile isSpace = strip s ++ ((s.dropWhile isSpace).reverse.takeWhile isSpace).reverse := by
    have := congrArg List.reverse b1
    rw [List.reverse_reverse, List.reverse_append] at this
    exact this
  refine ⟨s.takeWhile isSpace, ((s.dropWhile isSpace).reverse.takeWhile isSpace).reverse, ?_, ?_, ?_, ?_, ?_⟩
  · rw [List.append_assoc, ← hrev]; exact a1
  · exact fun c hc => isSpace_iff.1 (a2 c hc)
  · exact fun c hc => isSpace_iff.1 (b2 c (List.mem_reverse.1 hc))
  · intro c hc
    have hne : strip s ≠ [] := by
      intro h; rw [h] at hc; simp at hc
    rw [← isSpace_iff, Bool.not_eq_true]
    apply a3
    rw [hrev, head_append_of_ne hne]
    exact hc
  · intro c hc
    rw [← isSpace_iff, Bool.not_eq_true]
    apply b3
    rw [strip, List.getLast?_reverse] at hc
    exact hc

theorem isStrip_unique {s t t' : List Char} (h : IsStrip s t) (h' : IsStrip s t') : t = t' := by
  have key : ∀ {t}, IsStrip s t → t = strip s := by
    rintro t ⟨a, b, rfl, ha, hb, h1, h2⟩
    have ha' : ∀ c ∈ a, isSpace c = true := fun c hc => isSpace_iff.2 (ha c hc)
    have hb' : ∀ c ∈ b, isSpace c = true := fun c hc => isSpace_iff.2 (hb c hc)
    have h1' : ∀ c ∈ t.head?, isSpace c = false := fun c hc => by
      rw [← Bool.not_eq_true, isSpace_iff]; exact h1 c hc
    have h2' : ∀ c ∈ t.reverse.head?, isSpace c = false := fun c hc => by
      rw [← Bool.not_eq_true, isSpace_iff]
      rw [List.head?_reverse] at hc
      exact h2 c hc
    cases t with
    | nil =>
      have : ∀ c ∈ a ++ [] ++ b, isSpace c = true := by
        intro c hc
        simp only [List.append_nil, List.mem_append] at hc
        exact hc.elim (ha' c) (hb' c)
      have h3 : (a ++ [] ++ b).dropWhile isSpace = [] := List.dropWhile_eq_nil_iff.2 this
      rw [strip, h3]
      rfl
    | cons d t =>
      have e1 := (takeWhile_run (r := (d :: t) ++ b) ha' (by simpa using h1' d rfl)).2
      have e2 := (takeWhile_run (a := b.reverse) (r := (d :: t).reverse) (fun c hc => hb' c (List.mem_reverse.1 hc)) h2').2
      rw [strip, List.append_assoc, e1, List.reverse_append, e2, List.reverse_reverse]
  rw [key h, key h']

theorem isStrip_head {s t : List Char} (h : IsStrip s t) : ∀ c ∈ t.head?, c ≠ ' ' := by
  obtain ⟨a, b, _, _, _, h1, _⟩ := h
  intro c hc
  rintro rfl
  exact h1 ' ' hc (.inl rfl)

end Verif.Units
