/-
The values of the keywords of a header (/repo/src/flib/module_fitstools.f90 121-336).
-/
import Verif.Fits.Find

namespace Verif.Fits
open Verif.Py

/-! ### The specification -/

/-- The header has a card with this name, and what follows the tenth character of the first one is the field. -/
structure Has (cards : List Str) (keyword field : Str) : Prop where
  wf : Cards cards
  length : keyword.length ≤ 71
  noz : NoZ keyword
  first : ∃ pre c post, cards = pre ++ c :: post ∧ (∀ d ∈ pre, ¬Named keyword d) ∧ Named keyword c ∧ c.drop 10 = field

/-- The text of an integer: an optional sign and digits. -/
structure Numeral where
  sign : Option Bool
  digits : Str
  nonempty : digits ≠ []
  isDigit : ∀ c ∈ digits, c.isDigit = true

def Numeral.text (m : Numeral) : Str := (match m.sign with | none => [] | some true => ['-'] | some false => ['+']) ++ m.digits

def Numeral.value (m : Numeral) : Int := if m.sign = some true then -(Nat.ofDigitChars 10 m.digits 0 : Int) else Nat.ofDigitChars 10 m.digits 0

/-- The usual text of an integer. -/
def numeral (v : Int) : Numeral := ⟨if v < 0 then some true else none, Nat.toDigits 10 v.natAbs, Nat.toDigits_ne_nil,
  fun _ h => Nat.isDigit_of_mem_toDigits (by omega) (by omega) h⟩

/-! ### Strings -/

theorem getKeyword_has {cards : List Str} {keyword field : Str} (h : Has cards keyword field) (mustExist : Bool) {v : Str × Str}
    (hv : valueComment field = .ok v) : getKeyword cards.flatten keyword mustExist = .ok ⟨v.1, true, v.2, 0⟩ := by
  obtain ⟨pre, c, post, e1, e2, e3, e4⟩ := h.first
  have hne : cards ≠ [] := by rw [e1]; simp
  have := (C123_find_partial keyword h.length h.noz cards h.wf hne mustExist).2 pre c post e1 e2 e3
  rw [e4, hv] at this
  exact this

theorem trim_cons {c : Char} (hc : c ≠ ' ') (u t : Str) : trim (u ++ c :: t) = u ++ c :: trim t := by
  induction t using List.reverseRecOn with
  | nil =>
    rw [trim_eq_self (by simpa using hc)]; simp [trim]
  | append_singleton t d ih =>
    by_cases hd : d = ' '
    · subst hd
      have e1 : trim (u ++ c :: (t ++ [' '])) = trim (u ++ c :: t) := by
        have := trim_blanks (u ++ c :: t) 1
        simpa using this
      have e2 : trim (t ++ [' ']) = trim t := trim_blanks t 1
      rw [e1, e2, ih]
    · rw [trim_eq_self (s := u ++ c :: (t ++ [d])) (by
        rw [show u ++ c :: (t ++ [d]) = (u ++ c :: t) ++ [d] by simp, List.getLast?_concat]; simpa using hd), trim_eq_self (s := t ++ [d]) (by simp [hd])]

theorem setCh_append (q : Str) (c d : Char) (r : Str) : setCh (q ++ d :: r) (q.length + 1) c = .ok (q ++ c :: r) := by
  rw [setCh, if_pos ⟨by omega, by simp⟩]
  simp

theorem unquote_spec (n : Nat) : ∀ (s p r q : Str) (k : Nat), r.head? ≠ some '\'' → p.length + (escape s).length + 1 ≤ n →
    n < (p ++ escape s ++ '\'' :: r).length → s.length ≤ k →
    unquote (p ++ escape s ++ '\'' :: r) n (q.length + 1) (p.length + 1) (q ++ List.replicate k ' ') = .ok (q ++ s ++ List.replicate (k - s.length) ' ') := by
  intro s
  induction s with
  | nil =>
    intro p r q k hr h1 h2 _
    simp only [escape, List.flatMap_nil, List.append_nil, List.length_nil, List.length_append, List.length_cons] at h1 h2 ⊢
    cases r with
    | nil => simp only [List.length_nil] at h2; omega
    | cons c r =>
      have hc : c ≠ '\'' := by simpa using hr
      have e : ch (p ++ '\'' :: c :: r) (p.length + 1 + 1) = .ok c := by
        have := ch_append (p ++ ['\'']) c r
        simpa using this
      rw [unquote, dif_pos (by omega)]
      simp only [ch_append, e, bind, Except.bind, true_and, if_pos (Or.inr hc)]
      simp; rfl
  | cons c s ih =>
    intro p r q k hr h1 h2 h3
    obtain ⟨k, rfl⟩ : ∃ k', k = k' + 1 := ⟨k - 1, by simp at h3; omega⟩
    simp only [List.length_cons] at h3
    by_cases hc : c = '\''
    · subst hc
      have e : p ++ escape ('\'' :: s) ++ '\'' :: r = (p ++ ['\'', '\'']) ++ escape s ++ '\'' :: r := by simp [escape]
      have hlen : (escape ('\'' :: s)).length = (escape s).length + 2 := by simp [escape]
      have := ih (p ++ ['\'', '\'']) r (q ++ ['\'']) k hr (by simp only [List.length_append, List.length_cons, List.length_nil]; omega) (by rw [← e]; exact h2) (by omega)
      rw [← e] at this
      have e1 : ch (p ++ escape ('\'' :: s) ++ '\'' :: r) (p.length + 1) = .ok '\'' := by
        have := ch_append p '\'' ('\'' :: (escape s ++ '\'' :: r))
        simpa [escape] using this
      have e2 : ch (p ++ escape ('\'' :: s) ++ '\'' :: r) (p.length + 1 + 1) = .ok '\'' := by
        have := ch_append (p ++ ['\'']) '\'' (escape s ++ '\'' :: r)
        simpa [escape] using this
      have hn : ¬(p.length + 1 = n) := by omega
      rw [unquote, dif_pos (by omega)]
      simp only [e1, e2, bind, Except.bind, true_and, hn, ne_eq, not_true_eq_false, or_self, if_false]
      rw [List.replicate_succ, setCh_append]
      simp only [not_false_eq_true, and_self, if_true]
      simp only [List.length_append, List.length_cons, List.length_nil] at this
      rw [show q.length + 1 + 1 = q.length + (0 + 1) + 1 by omega, show p.length + 1 + 2 = p.length + (0 + 1 + 1) + 1 by omega]
      have e3 : q ++ '\'' :: List.replicate k ' ' = q ++ ['\''] ++ List.replicate k ' ' := by simp
      rw [e3, this]
      congr 1
      simp only [List.length_cons, Nat.add_sub_add_right]
      simp
    · have e : p ++ escape (c :: s) ++ '\'' :: r = (p ++ [c]) ++ escape s ++ '\'' :: r := by simp [escape, hc]
      have hlen : (escape (c :: s)).length = (escape s).length + 1 := by simp [escape, hc]
      have := ih (p ++ [c]) r (q ++ [c]) k hr (by simp only [List.length_append, List.length_cons, List.length_nil]; omega) (by rw [← e]; exact h2) (by omega)
      rw [← e] at this
      have e1 : ch (p ++ escape (c :: s) ++ '\'' :: r) (p.length + 1) = .ok c := by
        have := ch_append p c (escape s ++ '\'' :: r)
        simpa [escape, hc] using this
      obtain ⟨d, e2⟩ : ∃ d, ch (p ++ escape (c :: s) ++ '\'' :: r) (p.length + 1 + 1) = .ok d := by
        have hlt : p.length + 1 < (p ++ escape (c :: s) ++ '\'' :: r).length := by omega
        refine ⟨(p ++ escape (c :: s) ++ '\'' :: r)[p.length + 1], ?_⟩
        rw [ch, if_pos (by omega), Nat.add_sub_cancel, List.getElem?_eq_getElem hlt]
      rw [unquote, dif_pos (by omega)]
      simp only [e1, e2, bind, Except.bind, hc, false_and, if_false, and_false]
      rw [List.replicate_succ, setCh_append]
      simp only
      simp only [List.length_append, List.length_cons, List.length_nil] at this
      rw [show q.length + 1 + 1 = q.length + (0 + 1) + 1 by omega, show p.length + 1 + (0 + 1) = p.length + (0 + 1) + 1 by omega] at *
      have e3 : q ++ c :: List.replicate k ' ' = q ++ [c] ++ List.replicate k ' ' := by simp
      rw [e3, this]
      congr 1
      simp only [List.length_cons, Nat.add_sub_add_right]
      simp

theorem escape_length (s : Str) : s.length ≤ (escape s).length := by
  induction s with
  | nil => simp
  | cons c s ih =>
    rw [escape] at ih
    rw [escape, List.flatMap_cons, List.length_append, List.length_cons]
    have : 1 ≤ (if c = '\'' then ['\'', '\''] else [c]).length := by split_ifs <;> simp
    omega

/-- A string between quotes is read exactly: the doubled quotes are single, the slashes between the quotes are kept, and what follows the slash after them is the
comment.  The variable has room for the string: see `C124_violation_short`. -/
theorem C124_string_partial {cards : List Str} {keyword : Str} {b : Nat} {s t : Str} {o : Option Str}
    (h : Has cards keyword (List.replicate b ' ' ++ '\'' :: escape s ++ '\'' :: t ++ tailOf o)) (h1 : t.head? ≠ some '\'') (h3 : '/' ∉ t)
    (present : Bool) (old : Str) (hs : s.length ≤ old.length) :
    readCharacter cards.flatten keyword present old = .ok ⟨s ++ List.replicate (old.length - s.length) ' ', true, pad 72 (o.getD []), 0⟩ := by
  have hl : (List.replicate b ' ' ++ '\'' :: escape s ++ '\'' :: t ++ tailOf o).length = 70 := by
    obtain ⟨pre, c, post, e1, _, _, e4⟩ := h.first
    have := h.wf c (by rw [e1]; simp)
    rw [← e4, List.length_drop, this]
  have hk := getKeyword_has h (!present) (valueComment_quoted hl h1 h3)
  have hlen : ('\'' :: escape s ++ '\'' :: t).length ≤ 70 := by
    simp only [List.length_append, List.length_cons] at hl ⊢; omega
  have htrim : trim (pad 70 ('\'' :: escape s ++ '\'' :: t)) = '\'' :: escape s ++ '\'' :: trim t := by
    rw [trim_pad hlen, trim_cons (by decide)]
  have hsplit : pad 70 ('\'' :: escape s ++ '\'' :: t) = ['\''] ++ (escape s ++ '\'' :: trim t) ++
      List.replicate (70 - ('\'' :: escape s ++ '\'' :: trim t).length) ' ' := by
    have := trim_spec (pad 70 ('\'' :: escape s ++ '\'' :: t))
    rw [htrim, pad_length] at this
    rw [this]; simp
  have hsub : sub (pad 70 ('\'' :: escape s ++ '\'' :: t)) 2 ('\'' :: escape s ++ '\'' :: trim t).length = .ok (escape s ++ '\'' :: trim t) := by
    have := sub_middle ['\''] (escape s ++ '\'' :: trim t) (List.replicate (70 - ('\'' :: escape s ++ '\'' :: trim t).length) ' ')
    rw [hsplit]
    rw [← this]
    congr 1
    simp; omega
  have hlt : (escape s ++ '\'' :: trim t).length < 70 := by
    have := trim_length_le t
    simp only [List.length_append, List.length_cons] at hlen ⊢; omega
  have htrim2 : trim (pad 70 (escape s ++ '\'' :: trim t)) = escape s ++ '\'' :: trim t := by
    rw [trim_pad (le_of_lt hlt), trim_cons (by decide)]
    congr 2
    exact List.rdropWhile_idempotent _ _
  have hchar : pad 70 (escape s ++ '\'' :: trim t) = [] ++ escape s ++ '\'' :: (trim t ++ List.replicate (70 - (escape s ++ '\'' :: trim t).length) ' ') := by
    rw [pad_of_le (le_of_lt hlt)]; simp
  have hhead : (trim t ++ List.replicate (70 - (escape s ++ '\'' :: trim t).length) ' ').head? ≠ some '\'' := by
    refine head_append ?_ (by cases (70 - (escape s ++ '\'' :: trim t).length) <;> simp [List.replicate_succ])
    intro e
    have hp : trim t <+: t := List.rdropWhile_prefix _ t
    obtain ⟨u, hu⟩ := hp
    rw [← hu] at h1
    cases ht : trim t with
    | nil => rw [ht] at e; simp at e
    | cons d w => rw [ht] at e h1; simp at e h1; exact h1 e
  have hun := unquote_spec (escape s ++ '\'' :: trim t).length s [] _ [] old.length hhead (by simp) (by rw [← hchar, pad_length]; exact hlt) hs
  have ec : ch (pad 70 ('\'' :: escape s ++ '\'' :: t)) 1 = .ok '\'' := by
    rw [hsplit]; exact ch_append [] '\'' _
  have hpad : pad old.length [] = [] ++ List.replicate old.length ' ' := by simp [pad]
  unfold readCharacter
  rw [hk]
  simp only [bind, Except.bind]
  rw [if_neg (by simp)]
  simp only [ec, htrim, hsub]
  rw [if_neg (by simp)]
  rw [htrim2, hchar, hpad]
  simp only [List.length_nil, Nat.zero_add, List.nil_append] at hun ⊢
  rw [hun]
  rfl

/-- A variable of 68 characters has room for every string. -/
theorem C124_string {cards : List Str} {keyword : Str} {b : Nat} {s t : Str} {o : Option Str}
    (h : Has cards keyword (List.replicate b ' ' ++ '\'' :: escape s ++ '\'' :: t ++ tailOf o)) (h1 : t.head? ≠ some '\'') (h3 : '/' ∉ t)
    (present : Bool) (old : Str) (hs : 68 ≤ old.length) :
    readCharacter cards.flatten keyword present old = .ok ⟨s ++ List.replicate (old.length - s.length) ' ', true, pad 72 (o.getD []), 0⟩ := by
  refine C124_string_partial h h1 h3 present old ?_
  obtain ⟨pre, c, post, e1, _, _, e4⟩ := h.first
  have := h.wf c (by rw [e1]; simp)
  have e5 := congrArg List.length e4
  rw [List.length_drop, this] at e5
  simp only [List.length_append, List.length_cons] at e5
  have := escape_length s
  omega

/-- Without quotes, the value is what precedes the slash. -/
theorem C124_plain {cards : List Str} {keyword : Str} {b : Nat} {v : Str} {o : Option Str} (h : Has cards keyword (List.replicate b ' ' ++ v ++ tailOf o))
    (h1 : v.head? ≠ some ' ') (h2 : v.head? ≠ some '\'') (h3 : '/' ∉ v) (present : Bool) (old : Str) (hs : 70 ≤ old.length) :
    readCharacter cards.flatten keyword present old = .ok ⟨v ++ List.replicate (old.length - v.length) ' ', true, pad 72 (o.getD []), 0⟩ := by
  have hl : (List.replicate b ' ' ++ v ++ tailOf o).length = 70 := by
    obtain ⟨pre, c, post, e1, _, _, e4⟩ := h.first
    have := h.wf c (by rw [e1]; simp)
    rw [← e4, List.length_drop, this]
  have hv : v.length ≤ 70 := by simp only [List.length_append] at hl; omega
  have hk := getKeyword_has h (!present) (valueComment_plain hl h1 h2 h3)
  obtain ⟨c, w, hw⟩ : ∃ c w, pad 70 v = c :: w := by
    cases hh : pad 70 v with
    | nil => have := pad_length 70 v; rw [hh] at this; simp at this
    | cons c w => exact ⟨c, w, rfl⟩
  have hc : c ≠ '\'' := by
    rw [pad_of_le hv] at hw
    have : (v ++ List.replicate (70 - v.length) ' ').head? ≠ some '\'' := head_append h2 (by cases (70 - v.length) <;> simp [List.replicate_succ])
    rw [hw] at this; simpa using this
  have ec : ch (pad 70 v) 1 = .ok c := by rw [hw]; exact ch_append [] c w
  unfold readCharacter
  rw [hk]
  simp only [bind, Except.bind]
  rw [if_neg (by simp)]
  simp only [ec]
  rw [if_pos hc, pad_of_le hv, pad_blanks, pad_of_le (by omega)]
  rfl

/-! ### Integers -/

theorem digitsValue_spec : ∀ (ds : Str) (n : Nat), (∀ c ∈ ds, c.isDigit = true) → digitsValue ds n = some (Nat.ofDigitChars 10 ds n) := by
  intro ds
  induction ds with
  | nil => intro n _; simp [digitsValue]
  | cons c ds ih =>
    intro n h
    have hc := h c (by simp)
    rw [Char.isDigit_iff_toNat] at hc
    have h1 : '0' ≤ c := by show ('0' : Char).toNat ≤ c.toNat; exact hc.1
    have h2 : c ≤ '9' := by show c.toNat ≤ ('9' : Char).toNat; exact hc.2
    rw [digitsValue, if_pos ⟨h1, h2⟩, ih _ fun d hd => h d (by simp [hd]), Nat.ofDigitChars_cons]
    rfl

theorem isDigit_ne {c d : Char} (hc : c.isDigit = true) (hd : d.isDigit = false) : c ≠ d := by
  rintro rfl; rw [hc] at hd; simp at hd

theorem text_blank (m : Numeral) : ∀ c ∈ m.text, c ≠ ' ' := by
  intro c hc
  rw [Numeral.text, List.mem_append] at hc
  rcases hc with hc | hc
  · rcases hs : m.sign with _ | _ | _ <;> rw [hs] at hc <;> simp at hc <;> subst hc <;> decide
  · exact isDigit_ne (m.isDigit c hc) (by decide)

/-- A value that fits in a number of bits. -/
def InRange (bits : Nat) (v : Int) : Prop := -2 ^ (bits - 1) ≤ v ∧ v < 2 ^ (bits - 1)

instance (bits : Nat) (v : Int) : Decidable (InRange bits v) := inferInstanceAs (Decidable (_ ∧ _))

theorem readI20_spec (bits : Nat) (m : Numeral) (hm : m.text.length ≤ 20) (k : Nat) :
    readI20 bits (m.text ++ List.replicate k ' ') = if InRange bits m.value then some m.value else none := by
  have hf : ((m.text ++ List.replicate k ' ').take 20).filter (· ≠ ' ') = m.text := by
    rw [List.take_append, List.take_of_length_le hm, List.filter_append, List.take_replicate]
    have e1 : m.text.filter (· ≠ ' ') = m.text := by
      rw [List.filter_eq_self]
      intro c hc; simpa using text_blank m c hc
    have e2 : (List.replicate (min (20 - m.text.length) k) ' ').filter (· ≠ ' ') = [] := by
      rw [List.filter_eq_nil_iff]
      intro c hc; simp only [List.mem_replicate] at hc; simp [hc.2]
    rw [e1, e2, List.append_nil]
  obtain ⟨d, ds, hd⟩ : ∃ d ds, m.digits = d :: ds := by
    cases h : m.digits with
    | nil => exact absurd h m.nonempty
    | cons d ds => exact ⟨d, ds, rfl⟩
  have hv := digitsValue_spec m.digits 0 m.isDigit
  have hd1 : d ≠ '-' := isDigit_ne (m.isDigit d (by rw [hd]; simp)) (by decide)
  have hd2 : d ≠ '+' := isDigit_ne (m.isDigit d (by rw [hd]; simp)) (by decide)
  unfold readI20
  dsimp only
  rw [hf]
  rcases hs : m.sign with _ | _ | _
  · have e : m.text = d :: ds := by simp [Numeral.text, hs, hd]
    have e2 : m.value = Nat.ofDigitChars 10 m.digits 0 := by simp [Numeral.value, hs]
    rw [e, e2]
    rw [hd] at hv
    split
    · simp_all
    · simp_all
    · simp_all
    · rw [hv, Option.bind_some, hd]; rfl
  · have e : m.text = '+' :: d :: ds := by simp [Numeral.text, hs, hd]
    have e2 : m.value = Nat.ofDigitChars 10 m.digits 0 := by simp [Numeral.value, hs]
    rw [e, e2]
    rw [hd] at hv
    simp only
    rw [hv, Option.bind_some, hd]; rfl
  · have e : m.text = '-' :: d :: ds := by simp [Numeral.text, hs, hd]
    have e2 : m.value = -(Nat.ofDigitChars 10 m.digits 0 : Int) := by simp [Numeral.value, hs]
    rw [e, e2]
    rw [hd] at hv
    simp only
    rw [hv, Option.bind_some, hd]; rfl

/-- The value of a card without quotes. -/
theorem getKeyword_plain {cards : List Str} {keyword : Str} {b : Nat} {v : Str} {o : Option Str} (h : Has cards keyword (List.replicate b ' ' ++ v ++ tailOf o))
    (h1 : v.head? ≠ some ' ') (h2 : v.head? ≠ some '\'') (h3 : '/' ∉ v) (must : Bool) :
    getKeyword cards.flatten keyword must = .ok ⟨pad 70 v, true, pad 72 (o.getD []), 0⟩ ∧ v.length ≤ 70 := by
  have hl : (List.replicate b ' ' ++ v ++ tailOf o).length = 70 := by
    obtain ⟨pre, c, post, e1, _, _, e4⟩ := h.first
    have := h.wf c (by rw [e1]; simp)
    rw [← e4, List.length_drop, this]
  exact ⟨getKeyword_has h must (valueComment_plain hl h1 h2 h3), by simp only [List.length_append] at hl; omega⟩

theorem text_head (m : Numeral) (k : Nat) : (m.text ++ List.replicate k ' ').head? ≠ some ' ' ∧ (m.text ++ List.replicate k ' ').head? ≠ some '\'' ∧
    '/' ∉ m.text ++ List.replicate k ' ' := by
  have hc : ∀ c ∈ m.text, c ≠ ' ' ∧ c ≠ '\'' ∧ c ≠ '/' := by
    intro c hc
    rw [Numeral.text, List.mem_append] at hc
    rcases hc with hc | hc
    · rcases hs : m.sign with _ | _ | _ <;> rw [hs] at hc <;> simp at hc <;> subst hc <;> decide
    · exact ⟨isDigit_ne (m.isDigit c hc) (by decide), isDigit_ne (m.isDigit c hc) (by decide), isDigit_ne (m.isDigit c hc) (by decide)⟩
  obtain ⟨d, ds, hd⟩ : ∃ d ds, m.text = d :: ds := by
    cases h : m.text with
    | nil => rw [Numeral.text, List.append_eq_nil_iff] at h; exact absurd h.2 m.nonempty
    | cons d ds => exact ⟨d, ds, rfl⟩
  refine ⟨?_, ?_, ?_⟩
  · rw [hd]; simpa using (hc d (by rw [hd]; simp)).1
  · rw [hd]; simpa using (hc d (by rw [hd]; simp)).2.1
  · rw [List.mem_append, not_or]
    exact ⟨fun h => (hc _ h).2.2 rfl, by simp⟩

/-- An integer of at most 20 characters is read exactly if it fits in the variable, otherwise there is an error: see `C125_violation_long`. -/
theorem C125_integer_partial (bits : Nat) {cards : List Str} {keyword : Str} {b k : Nat} {m : Numeral} {o : Option Str}
    (h : Has cards keyword (List.replicate b ' ' ++ (m.text ++ List.replicate k ' ') ++ tailOf o)) (hm : m.text.length ≤ 20) (present : Bool) :
    (InRange bits m.value → readInt bits cards.flatten keyword present = .ok ⟨m.value, true, pad 72 (o.getD []), 0⟩) ∧
    (¬InRange bits m.value → readInt bits cards.flatten keyword present = .ok ⟨0, true, pad 72 (o.getD []), 407⟩) := by
  obtain ⟨h1, h2, h3⟩ := text_head m k
  obtain ⟨hk, hl⟩ := getKeyword_plain h h1 h2 h3 (!present)
  have hr : readI20 bits (pad 70 (m.text ++ List.replicate k ' ')) = if InRange bits m.value then some m.value else none := by
    rw [pad_blanks, pad_of_le (by omega), readI20_spec bits m hm]
  constructor <;> intro hfit <;> unfold readInt <;> rw [hk] <;> simp only [bind, Except.bind] <;> rw [if_neg (by simp)] <;> simp only [hr, hfit, if_true, if_false] <;> rfl

theorem numeral_value (v : Int) : (numeral v).value = v := by
  simp only [Numeral.value, numeral, Nat.ofDigitChars_ten_toDigits]
  split_ifs with h1 h2 <;> first | omega | simp_all

theorem numeral_length {v : Int} (h : InRange 64 v) : (numeral v).text.length ≤ 20 := by
  have h1 : (Nat.toDigits 10 v.natAbs).length ≤ 19 := by
    rw [Nat.length_toDigits_le_iff (by omega) (by omega)]
    obtain ⟨h2, h3⟩ := h
    norm_num at h2 h3 ⊢
    omega
  simp only [Numeral.text, numeral, List.length_append]
  split_ifs <;> simp <;> omega

theorem fits_mono {v : Int} (h : InRange 32 v) : InRange 64 v := by
  obtain ⟨h1, h2⟩ := h
  norm_num [InRange] at h1 h2 ⊢
  omega

/-- Every integer of 32 or 64 bits is read back from its usual text. -/
theorem C125_integer (bits : Nat) (hb : bits = 32 ∨ bits = 64) {cards : List Str} {keyword : Str} {b k : Nat} {v : Int} {o : Option Str} (hv : InRange bits v)
    (h : Has cards keyword (List.replicate b ' ' ++ ((numeral v).text ++ List.replicate k ' ') ++ tailOf o)) (present : Bool) :
    readInt bits cards.flatten keyword present = .ok ⟨v, true, pad 72 (o.getD []), 0⟩ := by
  have h64 : InRange 64 v := by rcases hb with rfl | rfl; exacts [fits_mono hv, hv]
  have := (C125_integer_partial bits h (numeral_length h64) present).1 (by rw [numeral_value]; exact hv)
  rwa [numeral_value] at this

/-! ### Logical values -/

theorem upChar_iff {c y : Char} (h1 : y ≠ 'z') (h2 : y ≠ 'Z') : upChar c = y ↔ c.toUpper = y := by
  by_cases hz : c = 'z'
  · subst hz
    have e1 : upChar 'z' = 'z' := by decide
    have e2 : ('z' : Char).toUpper = 'Z' := by decide
    rw [e1, e2]
    exact ⟨fun h => absurd h.symm h1, fun h => absurd h.symm h2⟩
  · have : upChar c = c.toUpper := by
      have hz' : c.toNat ≠ 122 := fun e => hz (by
        have := Char.ofNat_toNat c
        rw [← this, e])
      by_cases hc : 97 ≤ c.toNat ∧ c.toNat < 122
      · rw [upChar, if_pos hc]
        obtain ⟨h1, h2⟩ := hc
        have := Char.ofNat_toNat c
        rw [← this]
        generalize c.toNat = n at *
        interval_cases n <;> rfl
      · rw [upChar, if_neg hc, Char.toUpper, dif_neg]
        rintro ⟨h1, h2⟩
        refine hc ⟨?_, ?_⟩
        · have : ('a'.val.toNat) ≤ c.val.toNat := h1
          exact this
        · have h2' : c.val.toNat ≤ 122 := h2
          have : c.val.toNat = c.toNat := rfl
          omega
    rw [this]

theorem map_up_iff {w x : Str} (hx : 'z' ∉ x ∧ 'Z' ∉ x) : w.map upChar = x ↔ w.map Char.toUpper = x := by
  induction w generalizing x with
  | nil => simp
  | cons c w ih =>
    cases x with
    | nil => simp
    | cons y x =>
      simp only [List.map_cons, List.cons.injEq]
      rw [ih ⟨fun h => hx.1 (by simp [h]), fun h => hx.2 (by simp [h])⟩, upChar_iff (fun e => hx.1 (by simp [e])) fun e => hx.2 (by simp [e])]

theorem upChar_blank (c : Char) : upChar c = ' ' ↔ c = ' ' := by
  constructor
  · intro h
    rw [upChar] at h
    split_ifs at h with hc
    · obtain ⟨h1, h2⟩ := hc
      generalize c.toNat = n at *
      exfalso
      interval_cases n <;> revert h <;> decide
    · exact h
  · rintro rfl; decide

theorem same_take {w X : Str} {k : Nat} (hw : (w.map upChar).getLast? ≠ some ' ') (hX : ' ' ∉ X) (hz : 'z' ∉ X ∧ 'Z' ∉ X) :
    same (strupcase (w ++ List.replicate k ' ')) (X.take (min X.length (trim (strupcase (w ++ List.replicate k ' '))).length)) = true ↔
      w.map Char.toUpper <+: X := by
  have e1 : trim (strupcase (w ++ List.replicate k ' ')) = w.map upChar := by
    rw [strupcase, List.map_append, List.map_replicate, (upChar_blank ' ').2 rfl, trim_blanks, trim_eq_self hw]
  have e2 : ∀ n, trim (X.take n) = X.take n := fun n => trim_eq_self fun h => hX (List.mem_of_mem_take (List.mem_of_getLast? h))
  rw [same, decide_eq_true_iff, e1, e2, List.length_map, map_up_iff ⟨fun h => hz.1 (List.mem_of_mem_take h), fun h => hz.2 (List.mem_of_mem_take h)⟩]
  constructor
  · intro h; rw [h]; exact List.take_prefix _ _
  · intro h
    have hl := h.length_le
    rw [List.length_map] at hl
    rw [min_eq_right hl]
    have := List.prefix_iff_eq_take.1 h
    rwa [List.length_map] at this

/-- A logical value is read from the beginnings of TRUE and FALSE, whatever the case of the letters; a blank value is false; anything else is an error. -/
theorem C125_logical {cards : List Str} {keyword : Str} {b k : Nat} {w : Str} {o : Option Str}
    (h : Has cards keyword (List.replicate b ' ' ++ (w ++ List.replicate k ' ') ++ tailOf o)) (h0 : w.getLast? ≠ some ' ')
    (h1 : (w ++ List.replicate k ' ').head? ≠ some ' ') (h2 : w.head? ≠ some '\'') (h3 : '/' ∉ w) (present : Bool) :
    (w ≠ [] → w.map Char.toUpper <+: "TRUE".toList → readLogical cards.flatten keyword present = .ok ⟨true, true, pad 72 (o.getD []), 0⟩) ∧
    (w.map Char.toUpper <+: "FALSE".toList → readLogical cards.flatten keyword present = .ok ⟨false, true, pad 72 (o.getD []), 0⟩) ∧
    (¬w.map Char.toUpper <+: "TRUE".toList → ¬w.map Char.toUpper <+: "FALSE".toList →
      readLogical cards.flatten keyword present = .ok ⟨false, true, pad 72 (o.getD []), 404⟩) := by
  obtain ⟨hk, hl⟩ := getKeyword_plain h h1 (head_append h2 (by cases k <;> simp [List.replicate_succ])) (by
    rw [List.mem_append, not_or]; exact ⟨h3, by simp⟩) (!present)
  have hpad : pad 70 (w ++ List.replicate k ' ') = w ++ List.replicate (70 - w.length) ' ' := by
    rw [pad_blanks, pad_of_le (by simp only [List.length_append] at hl; omega)]
  rw [hpad] at hk
  have hw : (w.map upChar).getLast? ≠ some ' ' := by
    rw [List.getLast?_map]
    intro e
    rw [Option.map_eq_some_iff] at e
    obtain ⟨c, hc, he⟩ := e
    exact h0 (by rw [hc, (upChar_blank c).1 he])
  have hF := @same_take w "FALSE".toList (70 - w.length) hw (by decide) (by decide)
  have hT := @same_take w "TRUE".toList (70 - w.length) hw (by decide) (by decide)
  rw [show ("FALSE".toList.length) = 5 by rfl] at hF
  rw [show ("TRUE".toList.length) = 4 by rfl] at hT
  obtain ⟨c, hc⟩ : ∃ c, ch (strupcase (w ++ List.replicate (70 - w.length) ' ')) 1 = .ok (upChar c) ∧
      (w.head? = some c ∨ (w = [] ∧ c = ' ')) := by
    cases w with
    | nil => exact ⟨' ', by decide, .inr ⟨rfl, rfl⟩⟩
    | cons c w => exact ⟨c, ch_append [] (upChar c) _, .inl rfl⟩
  obtain ⟨hc, hhead⟩ := hc
  have hupT : c.toUpper = 'T' → decide (upChar c = 'T') = true := fun e => by
    rw [decide_eq_true_iff, upChar_iff (by decide) (by decide)]; exact e
  have hupF : c.toUpper ≠ 'T' → decide (upChar c = 'T') = false := fun e => by
    rw [decide_eq_false_iff_not, upChar_iff (by decide) (by decide)]; exact e
  refine ⟨fun hne hp => ?_, fun hp => ?_, fun hp hq => ?_⟩ <;> unfold readLogical <;> rw [hk] <;> simp only [bind, Except.bind] <;> rw [if_neg (by simp)]
  · rw [if_neg (by rw [hT]; tauto), hc]
    have : c.toUpper = 'T' := by
      rcases hhead with hh | ⟨hh, _⟩
      · cases w with
        | nil => simp at hh
        | cons d w =>
          simp only [List.head?_cons, Option.some.injEq] at hh
          subst hh
          obtain ⟨r, hr⟩ := hp
          rw [List.map_cons, List.cons_append] at hr
          exact (List.cons.inj hr).1
      · exact absurd hh hne
    simp only [hupT this]; rfl
  · rw [if_neg (by rw [hF]; tauto), hc]
    have : c.toUpper ≠ 'T' := by
      rcases hhead with hh | ⟨_, hh⟩
      · cases w with
        | nil => simp at hh
        | cons d w =>
          simp only [List.head?_cons, Option.some.injEq] at hh
          subst hh
          obtain ⟨r, hr⟩ := hp
          rw [List.map_cons, List.cons_append] at hr
          have e := (List.cons.inj hr).1
          rw [e]; decide
      · rw [hh]; decide
    simp only [hupF this]; rfl
  · rw [if_pos (by rw [hT, hF]; exact ⟨hq, hp⟩)]; rfl

/-- A real is converted from what precedes the slash. -/
theorem C125_real {F : Type} [Zero F] (real : Str → Option F) {cards : List Str} {keyword : Str} {b : Nat} {v : Str} {o : Option Str}
    (h : Has cards keyword (List.replicate b ' ' ++ v ++ tailOf o)) (h1 : v.head? ≠ some ' ') (h2 : v.head? ≠ some '\'') (h3 : '/' ∉ v) (present : Bool) :
    readReal real cards.flatten keyword present = .ok (match real (v ++ List.replicate (70 - v.length) ' ') with
      | some x => ⟨x, true, pad 72 (o.getD []), 0⟩ | none => ⟨0, true, pad 72 (o.getD []), 409⟩) := by
  obtain ⟨hk, hl⟩ := getKeyword_plain h h1 h2 h3 (!present)
  unfold readReal
  rw [hk]
  simp only [bind, Except.bind]
  rw [if_neg (by simp), pad_of_le hl]
  cases real (v ++ List.replicate (70 - v.length) ' ') <;> rfl

end Verif.Fits
