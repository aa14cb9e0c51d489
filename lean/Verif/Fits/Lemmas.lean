/-
The parts of the reading of a card.
-/
import Verif.Fits.Model

namespace Verif.Fits
open Verif.Py

theorem pad_length (n : Nat) (s : Str) : (pad n s).length = n := by
  simp only [pad, List.length_append, List.length_take, List.length_replicate]
  omega

theorem pad_of_le {n : Nat} {s : Str} (h : s.length ≤ n) : pad n s = s ++ List.replicate (n - s.length) ' ' := by
  rw [pad, List.take_of_length_le h]

theorem pad_self (s : Str) : pad s.length s = s := by simp [pad]

theorem replicate_succ_end (n : Nat) : List.replicate (n + 1) ' ' = List.replicate n ' ' ++ [' '] := List.replicate_succ'

theorem trim_blanks (s : Str) (n : Nat) : trim (s ++ List.replicate n ' ') = trim s := by
  induction n with
  | zero => simp
  | succ n ih =>
    rw [replicate_succ_end, ← List.append_assoc, trim, List.rdropWhile_concat_pos _ _ _ (by simp)]
    exact ih

theorem pad_blanks {n k : Nat} {s : Str} : pad n (s ++ List.replicate k ' ') = pad n s := by
  apply List.ext_getElem?
  intro i
  simp only [pad, List.getElem?_append, List.getElem?_take, List.length_take, List.length_append, List.length_replicate, List.getElem?_replicate]
  split_ifs <;> first | rfl | omega

theorem trim_pad {n : Nat} {s : Str} (h : s.length ≤ n) : trim (pad n s) = trim s := by
  rw [pad_of_le h, trim_blanks]

theorem trim_eq_self {s : Str} (h : s.getLast? ≠ some ' ') : trim s = s := by
  rw [trim, List.rdropWhile_eq_self_iff]
  intro hl
  rw [List.getLast?_eq_some_getLast hl] at h
  simpa using h

theorem trim_length_le (s : Str) : (trim s).length ≤ s.length := (List.rdropWhile_prefix _ s).length_le

theorem trim_spec (s : Str) : s = trim s ++ List.replicate (s.length - (trim s).length) ' ' := by
  induction s using List.reverseRecOn with
  | nil => simp [trim]
  | append_singleton s c ih =>
    by_cases hc : c = ' '
    · subst hc
      have e : trim (s ++ [' ']) = trim s := trim_blanks s 1
      rw [e, List.length_append, List.length_singleton]
      have := trim_length_le s
      rw [show s.length + 1 - (trim s).length = (s.length - (trim s).length) + 1 by omega, replicate_succ_end, ← List.append_assoc, ← ih]
    · have e : trim (s ++ [c]) = s ++ [c] := trim_eq_self (by simpa using hc)
      rw [e]; simp

theorem adjustl_blanks {b : Nat} {w : Str} (h : w.head? ≠ some ' ') : adjustl (List.replicate b ' ' ++ w) = w ++ List.replicate b ' ' := by
  have e : (List.replicate b ' ' ++ w).dropWhile (· = ' ') = w := by
    induction b with
    | zero =>
      cases w with
      | nil => rfl
      | cons c w => simp only [List.replicate_zero, List.nil_append]; rw [List.dropWhile_cons_of_neg]; simpa using h
    | succ b ih => rw [List.replicate_succ, List.cons_append, List.dropWhile_cons_of_pos (by simp)]; exact ih
  rw [adjustl, e, pad_of_le (by simp)]
  simp

theorem ch_append (p : Str) (c : Char) (r : Str) : ch (p ++ c :: r) (p.length + 1) = .ok c := by
  simp [ch]

theorem ch_append' {p : Str} {c : Char} {r : Str} {i : Nat} (h : i = p.length + 1) : ch (p ++ c :: r) i = .ok c := by
  rw [h, ch_append]

theorem sub_prefix (p r : Str) : sub (p ++ r) 1 p.length = .ok p := by
  rw [sub]
  by_cases h : p.length < 1
  · have hp : p = [] := List.eq_nil_of_length_eq_zero (by omega)
    rw [if_pos h, hp]
  · rw [if_neg h, if_pos ⟨le_refl _, by simp⟩]
    simp

theorem sub_middle (p m r : Str) : sub (p ++ m ++ r) (p.length + 1) (p.length + m.length) = .ok m := by
  rw [sub]
  by_cases h : m.length = 0
  · rw [if_pos (by omega), List.eq_nil_of_length_eq_zero h]
  · rw [if_neg (by omega), if_pos ⟨by omega, by simp⟩]
    congr 1
    rw [List.append_assoc, show p.length + 1 - 1 = p.length by omega, List.drop_left, show p.length + m.length + 1 - (p.length + 1) = m.length by omega,
      List.take_left]

theorem sub_suffix (p r : Str) : sub (p ++ r) (p.length + 1) (p ++ r).length = .ok r := by
  have := sub_middle p r []
  simpa using this

/-! ### The slash -/

/-- What follows the value. -/
def tailOf : Option Str → Str
  | none => []
  | some c => '/' :: c

theorem findSlash_spec : ∀ (t p : Str) (o : Option Str), '/' ∉ t → (p ++ t ++ tailOf o).length = 70 →
    findSlash (p ++ t ++ tailOf o) (p.length + 1) = .ok (p.length + t.length + 1) := by
  intro t
  induction t with
  | nil =>
    intro p o _ hl
    rw [findSlash]
    cases o with
    | none =>
      simp only [tailOf, List.append_nil] at hl
      rw [dif_neg (by omega)]; simp
    | some c =>
      simp only [tailOf, List.append_nil, List.length_append, List.length_cons] at hl
      rw [dif_pos (by omega)]
      simp only [tailOf, List.append_nil, ch_append, bind, Except.bind]
      simp; rfl
  | cons c t ih =>
    intro p o hc hl
    have h1 : c ≠ '/' := fun e => hc (by simp [e])
    have h2 : '/' ∉ t := fun e => hc (by simp [e])
    have e : p ++ c :: t ++ tailOf o = (p ++ [c]) ++ t ++ tailOf o := by simp
    have := ih (p ++ [c]) o h2 (by rw [← e]; exact hl)
    rw [← e] at this
    rw [findSlash, dif_pos (by simp at hl; omega)]
    have e2 : ch (p ++ c :: t ++ tailOf o) (p.length + 1) = .ok c := by rw [List.append_assoc, List.cons_append, ch_append]
    simp only [e2, bind, Except.bind, if_neg h1]
    simp only [List.length_append, List.length_singleton] at this
    rw [this]
    simp only [List.length_cons]
    congr 1
    omega

/-! ### The quotes -/

/-- A string between quotes: the quotes are doubled. -/
def escape (s : Str) : Str := s.flatMap fun c => if c = '\'' then ['\'', '\''] else [c]

theorem findQuote_spec : ∀ (s p r : Str), r.head? ≠ some '\'' → (p ++ escape s ++ '\'' :: r).length = 70 →
    findQuote (p ++ escape s ++ '\'' :: r) (p.length + 1) = .ok (p.length + (escape s).length + 2, decide (r = [])) := by
  intro s
  induction s with
  | nil =>
    intro p r hr hl
    simp only [escape, List.flatMap_nil, List.append_nil, List.length_append, List.length_cons] at hl ⊢
    rw [findQuote, dif_pos (by omega)]
    simp only [ch_append, bind, Except.bind, if_true]
    cases r with
    | nil =>
      simp only [List.length_nil] at hl
      rw [if_pos (by omega)]; simp; rfl
    | cons c r =>
      have hc : c ≠ '\'' := by simpa using hr
      simp only [List.length_cons] at hl
      rw [if_neg (by omega)]
      have e : ch (p ++ '\'' :: c :: r) (p.length + 1 + 1) = .ok c := by
        have := ch_append (p ++ ['\'']) c r
        simpa using this
      simp only [e, if_pos hc]; simp; rfl
  | cons c s ih =>
    intro p r hr hl
    have hp : p.length + 1 < 70 := by
      have : 1 ≤ (escape (c :: s)).length := by simp only [escape, List.flatMap_cons]; split_ifs <;> simp
      simp only [List.length_append, List.length_cons] at hl
      omega
    by_cases hc : c = '\''
    · subst hc
      have e : p ++ escape ('\'' :: s) ++ '\'' :: r = (p ++ ['\'', '\'']) ++ escape s ++ '\'' :: r := by simp [escape]
      have := ih (p ++ ['\'', '\'']) r hr (by rw [← e]; exact hl)
      rw [← e] at this
      have e1 : ch (p ++ escape ('\'' :: s) ++ '\'' :: r) (p.length + 1) = .ok '\'' := by
        have := ch_append p '\'' ('\'' :: (escape s ++ '\'' :: r))
        simpa [escape] using this
      have e2 : ch (p ++ escape ('\'' :: s) ++ '\'' :: r) (p.length + 1 + 1) = .ok '\'' := by
        have := ch_append (p ++ ['\'']) '\'' (escape s ++ '\'' :: r)
        simpa [escape] using this
      rw [findQuote, dif_pos (by omega)]
      simp only [e1, e2, bind, Except.bind, if_true]
      rw [if_neg (by omega)]
      simp only [ne_eq, not_true_eq_false, if_false]
      simp only [List.length_append, List.length_cons, List.length_nil] at this
      rw [show p.length + 1 + 2 = p.length + (0 + 1 + 1) + 1 by omega, this]
      simp only [escape, List.flatMap_cons, if_true, List.length_append, List.length_cons, List.length_nil]
      congr 2
      omega
    · have e : p ++ escape (c :: s) ++ '\'' :: r = (p ++ [c]) ++ escape s ++ '\'' :: r := by simp [escape, hc]
      have := ih (p ++ [c]) r hr (by rw [← e]; exact hl)
      rw [← e] at this
      have e1 : ch (p ++ escape (c :: s) ++ '\'' :: r) (p.length + 1) = .ok c := by
        have := ch_append p c (escape s ++ '\'' :: r)
        simpa [escape, hc] using this
      rw [findQuote, dif_pos (by omega)]
      simp only [e1, bind, Except.bind, if_neg hc]
      simp only [List.length_append, List.length_cons, List.length_nil] at this
      rw [show p.length + 1 + 1 = p.length + (0 + 1) + 1 by omega, this]
      simp only [escape, List.flatMap_cons, if_neg hc, List.length_append, List.length_cons, List.length_nil]
      congr 2
      omega

/-! ### The value of a card -/

theorem valueComment_blanks {b : Nat} {w : Str} (h : w.head? ≠ some ' ') (hl : (w ++ List.replicate b ' ').length = 70) :
    pad 70 (adjustl (List.replicate b ' ' ++ w)) = w ++ List.replicate b ' ' := by
  rw [adjustl_blanks h, ← hl, pad_self]

theorem head_append {a b : Str} {c : Char} (h : a.head? ≠ some c) (hb : b.head? ≠ some c) : (a ++ b).head? ≠ some c := by
  cases a with
  | nil => simpa using hb
  | cons d a => simpa using h

theorem tailOf_head (o : Option Str) {c : Char} (h : c ≠ '/') : (tailOf o).head? ≠ some c := by
  cases o with
  | none => simp [tailOf]
  | some s => simpa [tailOf] using h.symm

theorem ends (value : Str) (o : Option Str) (b : Nat) (hl : (value ++ tailOf o ++ List.replicate b ' ').length = 70) :
    ∃ o' value', value ++ tailOf o ++ List.replicate b ' ' = value' ++ tailOf o' ∧ pad 70 value' = pad 70 value ∧ pad 72 (o'.getD []) = pad 72 (o.getD []) ∧
      (value' = value ∨ ∃ k, value' = value ++ List.replicate k ' ') := by
  cases o with
  | none => exact ⟨none, value ++ List.replicate b ' ', by simp [tailOf], pad_blanks, rfl, .inr ⟨b, rfl⟩⟩
  | some c => exact ⟨some (c ++ List.replicate b ' '), value, by simp [tailOf], rfl, pad_blanks, .inl rfl⟩

theorem last_sub (value : Str) (o : Option Str) : sub (value ++ tailOf o) (value.length + 2) (value ++ tailOf o).length = .ok (o.getD []) := by
  cases o with
  | none => simp [tailOf, sub]
  | some c =>
    have := sub_suffix (value ++ ['/']) c
    simpa [tailOf] using this

theorem valueComment_plain {b : Nat} {v : Str} {o : Option Str} (hl : (List.replicate b ' ' ++ v ++ tailOf o).length = 70) (h1 : v.head? ≠ some ' ')
    (h2 : v.head? ≠ some '\'') (h3 : '/' ∉ v) : valueComment (List.replicate b ' ' ++ v ++ tailOf o) = .ok (pad 70 v, pad 72 (o.getD [])) := by
  have hl' : (v ++ tailOf o ++ List.replicate b ' ').length = 70 := by
    simp only [List.length_append] at hl ⊢; omega
  have eb : pad 70 (adjustl (List.replicate b ' ' ++ v ++ tailOf o)) = v ++ tailOf o ++ List.replicate b ' ' := by
    rw [List.append_assoc]
    exact valueComment_blanks (head_append h1 (tailOf_head o (by decide))) hl'
  obtain ⟨o', v', e1, e2, e3, e4⟩ := ends v o b hl'
  have h3' : '/' ∉ v' := by
    rcases e4 with e | ⟨k, e⟩ <;> rw [e]
    · exact h3
    · simp only [List.mem_append, List.mem_replicate, not_or]
      exact ⟨h3, by simp⟩
  have h2' : (v' ++ tailOf o').head? ≠ some '\'' := by
    refine head_append ?_ (tailOf_head o' (by decide))
    rcases e4 with e | ⟨k, e⟩ <;> rw [e]
    · exact h2
    · exact head_append h2 (by cases k <;> simp [List.replicate_succ])
  have hlen : (v' ++ tailOf o').length = 70 := by rw [← e1]; exact hl'
  obtain ⟨c, w, hw⟩ : ∃ c w, v' ++ tailOf o' = c :: w := by
    cases hh : v' ++ tailOf o' with
    | nil => rw [hh] at hlen; simp at hlen
    | cons c w => exact ⟨c, w, rfl⟩
  have hc : c ≠ '\'' := by rw [hw] at h2'; simpa using h2'
  have ec : ch (v' ++ tailOf o') 1 = .ok c := by rw [hw]; exact ch_append [] c w
  have ei : slashIndex (v' ++ tailOf o') = v'.length + 1 := by
    rw [slashIndex]
    have hn : v'.findIdx? (· = '/') = none := by
      rw [List.findIdx?_eq_none_iff]
      intro x hx
      simp only [decide_eq_false_iff_not]
      intro e; exact h3' (e ▸ hx)
    cases o' with
    | none =>
      simp only [tailOf, List.append_nil] at hlen ⊢
      simp only [hn, hlen]
    | some s =>
      simp only [tailOf, List.findIdx?_append, hn, List.findIdx?_cons]
      simp
  have es := sub_prefix v' (tailOf o')
  have es2 := last_sub v' o'
  rw [hlen] at es2
  unfold valueComment
  dsimp only
  rw [eb, e1, ec]
  simp only [bind, Except.bind, ne_eq, hc, not_false_eq_true, if_true]
  rw [ei]
  simp only [Nat.add_sub_cancel, es, show v'.length + 1 + 1 = v'.length + 2 by omega, es2]
  rw [e2, e3]; rfl

theorem valueComment_quoted {b : Nat} {s t : Str} {o : Option Str} (hl : (List.replicate b ' ' ++ '\'' :: escape s ++ '\'' :: t ++ tailOf o).length = 70)
    (h1 : t.head? ≠ some '\'') (h3 : '/' ∉ t) :
    valueComment (List.replicate b ' ' ++ '\'' :: escape s ++ '\'' :: t ++ tailOf o) = .ok (pad 70 ('\'' :: escape s ++ '\'' :: t), pad 72 (o.getD [])) := by
  have hl' : ('\'' :: escape s ++ '\'' :: t ++ tailOf o ++ List.replicate b ' ').length = 70 := by
    simp only [List.length_append, List.length_cons] at hl ⊢; omega
  have eb : pad 70 (adjustl (List.replicate b ' ' ++ '\'' :: escape s ++ '\'' :: t ++ tailOf o)) = '\'' :: escape s ++ '\'' :: t ++ tailOf o ++ List.replicate b ' ' := by
    have := @valueComment_blanks b ('\'' :: escape s ++ '\'' :: t ++ tailOf o) (by simp) hl'
    rw [← this]; congr 2; simp
  obtain ⟨o', v', e1, e2, e3, e4⟩ := ends ('\'' :: escape s ++ '\'' :: t) o b hl'
  obtain ⟨t', et, h1', h3'⟩ : ∃ t', v' = '\'' :: escape s ++ '\'' :: t' ∧ t'.head? ≠ some '\'' ∧ '/' ∉ t' := by
    rcases e4 with e | ⟨k, e⟩ <;> rw [e]
    · exact ⟨t, rfl, h1, h3⟩
    · refine ⟨t ++ List.replicate k ' ', by simp, head_append h1 (by cases k <;> simp [List.replicate_succ]), ?_⟩
      simp only [List.mem_append, List.mem_replicate, not_or]
      exact ⟨h3, by simp⟩
  have hlen : (v' ++ tailOf o').length = 70 := by rw [← e1]; exact hl'
  have ec : ch (v' ++ tailOf o') 1 = .ok '\'' := by rw [et]; exact ch_append [] '\'' _
  have eq := findQuote_spec s ['\''] (t' ++ tailOf o') (head_append h1' (tailOf_head o' (by decide)))
    (by rw [← hlen, et]; simp)
  have esplit : ['\''] ++ escape s ++ '\'' :: (t' ++ tailOf o') = v' ++ tailOf o' := by rw [et]; simp
  rw [esplit] at eq
  have eslash := findSlash_spec t' ('\'' :: escape s ++ ['\'']) o' h3' (by rw [← hlen, et]; simp)
  have esplit2 : '\'' :: escape s ++ ['\''] ++ t' ++ tailOf o' = v' ++ tailOf o' := by rw [et]; simp
  rw [esplit2] at eslash
  have es := sub_prefix v' (tailOf o')
  have es2 := last_sub v' o'
  rw [hlen] at es2
  have hv' : v'.length = (escape s).length + 2 + t'.length := by rw [et]; simp; omega
  unfold valueComment
  dsimp only
  rw [eb, e1, ec]
  simp only [bind, Except.bind, ne_eq, not_true_eq_false, if_false]
  simp only [List.length_singleton] at eq
  rw [show (2 : Nat) = 1 + 1 by rfl, eq]
  by_cases hend : t' ++ tailOf o' = []
  · have ht0 : t' = [] := (List.append_eq_nil_iff.1 hend).1
    have hv0 : 1 + (escape s).length + (1 + 1) - 1 = v'.length := by rw [hv', ht0]; simp; omega
    have hv1 : 1 + (escape s).length + (1 + 1) + 1 = v'.length + 2 := by omega
    simp only [hend, decide_true, if_true, hv0, hv1, es, es2]
    rw [e2, e3]; rfl
  · simp only [hend, decide_false, Bool.false_eq_true, if_false]
    simp only [List.length_append, List.length_cons, List.length_nil] at eslash
    rw [show 1 + (escape s).length + (1 + 1) = (escape s).length + 1 + (0 + 1) + 1 by omega, eslash]
    have hv0 : (escape s).length + 1 + (0 + 1) + t'.length + 1 - 1 = v'.length := by omega
    have hv1 : (escape s).length + 1 + (0 + 1) + t'.length + 1 + 1 = v'.length + 2 := by omega
    simp only [hv0, hv1, es, es2]
    rw [e2, e3]; rfl

end Verif.Fits
