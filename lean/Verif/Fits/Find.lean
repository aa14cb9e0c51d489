/-
The card of a keyword (/repo/src/flib/module_fitstools.f90 43-115).
-/
import Verif.Fits.Lemmas

namespace Verif.Fits
open Verif.Py

/-! ### The specification -/

/-- The header is a sequence of cards of 80 characters. -/
def Cards (cards : List Str) : Prop := ∀ c ∈ cards, c.length = 80

/-- Two names are the same if the case of the letters and the blanks at the end are ignored. -/
def SameName (a b : Str) : Prop := ∃ m n, (a ++ List.replicate m ' ').map Char.toLower = (b ++ List.replicate n ' ').map Char.toLower

/-- The name of a card, which is its eight first characters. -/
def Named (keyword card : Str) : Prop := SameName (card.take 8) keyword

/-- The keyword has no letter Z. -/
def NoZ (s : Str) : Prop := 'z' ∉ s ∧ 'Z' ∉ s

/-! ### The properties -/

theorem sameName_iff (a b : Str) : SameName a b ↔ trim (a.map Char.toLower) = trim (b.map Char.toLower) := by
  have h0 : ' '.toLower = ' ' := by decide
  constructor
  · rintro ⟨m, n, h⟩
    rw [List.map_append, List.map_append, List.map_replicate, List.map_replicate, h0] at h
    rw [← trim_blanks _ m, h, trim_blanks]
  · intro h
    have e1 := trim_spec (a.map Char.toLower)
    have e2 := trim_spec (b.map Char.toLower)
    rw [h] at e1
    generalize (trim (b.map Char.toLower)) = t at *
    generalize (a.map Char.toLower).length - t.length = p at *
    generalize (b.map Char.toLower).length - t.length = q at *
    refine ⟨q, p, ?_⟩
    rw [List.map_append, List.map_append, List.map_replicate, List.map_replicate, h0, e1, e2, List.append_assoc, List.append_assoc,
      List.replicate_append_replicate, List.replicate_append_replicate, Nat.add_comm]

theorem lowChar_eq {c : Char} (h : c ≠ 'Z') : lowChar c = c.toLower := by
  have hz : c.toNat ≠ 90 := fun e => h (by
    have := Char.ofNat_toNat c
    rw [← this, e])
  by_cases hc : 65 ≤ c.toNat ∧ c.toNat < 90
  · rw [lowChar, if_pos hc]
    obtain ⟨h1, h2⟩ := hc
    have := Char.ofNat_toNat c
    rw [← this]
    generalize c.toNat = n at *
    interval_cases n <;> rfl
  · rw [lowChar, if_neg hc, Char.toLower, dif_neg]
    rintro ⟨h1, h2⟩
    refine hc ⟨?_, ?_⟩
    · have : ('A'.val.toNat) ≤ c.val.toNat := h1
      exact this
    · have h2' : c.val.toNat ≤ 90 := h2
      have : c.val.toNat = c.toNat := rfl
      omega

theorem lowChar_Z : lowChar 'Z' = 'Z' := by decide

theorem map_lowChar {a b : Str} (hb : NoZ b) : a.map lowChar = b.map lowChar ↔ a.map Char.toLower = b.map Char.toLower := by
  induction a generalizing b with
  | nil => cases b <;> simp
  | cons x a ih =>
    cases b with
    | nil => simp
    | cons y b =>
      have hb' : NoZ b := ⟨fun h => hb.1 (by simp [h]), fun h => hb.2 (by simp [h])⟩
      have hy : y ≠ 'z' := fun h => hb.1 (by simp [h])
      have hy' : y ≠ 'Z' := fun h => hb.2 (by simp [h])
      have hyl : y.toLower ≠ 'z' := by
        rw [← lowChar_eq hy', lowChar]
        split_ifs with hc
        · intro e
          have := congrArg Char.toNat e
          obtain ⟨h1, h2⟩ := hc
          have hv : (Char.ofNat (y.toNat + 32)).toNat = y.toNat + 32 := by
            generalize y.toNat = n at *
            interval_cases n <;> rfl
          rw [hv] at this
          have h3 : ('z' : Char).toNat = 122 := rfl
          omega
        · exact hy
      simp only [List.map_cons, List.cons.injEq, ih hb']
      refine and_congr_left fun _ => ?_
      by_cases hx : x = 'Z'
      · subst hx
        rw [lowChar_Z, lowChar_eq hy']
        have e1 : ('Z' : Char).toLower = 'z' := by decide
        rw [e1]
        constructor
        · intro e
          exfalso
          have : y.toLower = 'Z' := e.symm
          rw [← lowChar_eq hy', lowChar] at this
          split_ifs at this with hc
          · have h4 := congrArg Char.toNat this
            obtain ⟨h1, h2⟩ := hc
            have hv : (Char.ofNat (y.toNat + 32)).toNat = y.toNat + 32 := by
              generalize y.toNat = n at *
              interval_cases n <;> rfl
            rw [hv] at h4
            have h3 : ('Z' : Char).toNat = 90 := rfl
            omega
          · exact hy' this
        · intro e; exact absurd e.symm hyl
      · rw [lowChar_eq hx, lowChar_eq hy']

theorem lowChar_blank (c : Char) : lowChar c = ' ' ↔ c = ' ' := by
  constructor
  · intro h
    rw [lowChar] at h
    split_ifs at h with hc
    · obtain ⟨h1, h2⟩ := hc
      generalize c.toNat = n at *
      exfalso
      interval_cases n <;> revert h <;> decide
    · exact h
  · rintro rfl; decide

theorem toLower_blank (c : Char) : c.toLower = ' ' ↔ c = ' ' := by
  by_cases h : c = 'Z'
  · subst h; decide
  · rw [← lowChar_eq h, lowChar_blank]

theorem trim_map {f : Char → Char} (hf : ∀ c, f c = ' ' ↔ c = ' ') (s : Str) : trim (s.map f) = (trim s).map f := by
  induction s using List.reverseRecOn with
  | nil => simp [trim]
  | append_singleton s c ih =>
    rw [List.map_append, List.map_singleton]
    by_cases hc : c = ' '
    · have hfc : f c = ' ' := (hf c).2 hc
      rw [hfc, hc, trim, List.rdropWhile_concat_pos _ _ _ (by simp), trim, List.rdropWhile_concat_pos _ _ _ (by simp)]
      exact ih
    · have hfc : f c ≠ ' ' := fun e => hc ((hf c).1 e)
      rw [trim, List.rdropWhile_concat_neg _ _ _ (by simpa using hfc), trim, List.rdropWhile_concat_neg _ _ _ (by simpa using hc)]
      simp

theorem trim_mem {s : Str} {c : Char} (h : c ∈ trim s) : c ∈ s := (List.rdropWhile_prefix _ s).subset h

/-- The test of the program for a card (module_fitstools.f90 67). -/
def test (keyword card : Str) : Bool := same (strlowcase (card.take 8)) (pad 71 (strlowcase keyword))

theorem test_iff {keyword card : Str} (hk : keyword.length ≤ 71) (hz : NoZ keyword) : test keyword card = true ↔ Named keyword card := by
  have hz' : NoZ (trim keyword) := ⟨fun h => hz.1 (trim_mem h), fun h => hz.2 (trim_mem h)⟩
  rw [test, same, decide_eq_true_iff, trim_pad (by simpa [strlowcase] using hk), strlowcase, strlowcase, trim_map lowChar_blank, trim_map lowChar_blank,
    Named, sameName_iff, trim_map toLower_blank, trim_map toLower_blank]
  exact map_lowChar hz'

theorem flatten_length {cards : List Str} (h : Cards cards) : cards.flatten.length = cards.length * 80 := by
  induction cards with
  | nil => rfl
  | cons c cards ih =>
    rw [List.flatten_cons, List.length_append, h c (by simp), ih fun d hd => h d (by simp [hd]), List.length_cons]
    omega

theorem sub_name {pre post : List Str} {c : Str} (hpre : Cards pre) (hc : c.length = 80) :
    sub (pre ++ c :: post).flatten (pre.length * 80 + 1) (pre.length * 80 + 8) = .ok (c.take 8) := by
  have := sub_middle pre.flatten (c.take 8) (c.drop 8 ++ post.flatten)
  rw [flatten_length hpre, List.length_take, hc] at this
  rw [← this]
  congr 1
  rw [List.append_assoc, ← List.append_assoc (c.take 8), List.take_append_drop]
  simp

theorem sub_field {pre post : List Str} {c : Str} (hpre : Cards pre) (hc : c.length = 80) :
    sub (pre ++ c :: post).flatten (pre.length * 80 + 11) ((pre.length + 1) * 80) = .ok (c.drop 10) := by
  have := sub_middle (pre.flatten ++ c.take 10) (c.drop 10) post.flatten
  rw [List.length_append, flatten_length hpre, List.length_take, List.length_drop, hc] at this
  rw [← this]
  congr 1
  · simp
  · omega

theorem findCard_spec (keyword : Str) : ∀ (post pre : List Str), Cards (pre ++ post) →
    findCard (pre ++ post).flatten (pad 71 (strlowcase keyword)) post.length (pre.length + 1) =
      .ok ((post.findIdx? (test keyword)).map (pre.length + 1 + ·)) := by
  intro post
  induction post with
  | nil => intro pre _; rfl
  | cons c post ih =>
    intro pre h
    have hpre : Cards pre := fun d hd => h d (by simp [hd])
    have hc : c.length = 80 := h c (by simp)
    rw [List.length_cons, findCard, Nat.add_sub_cancel, sub_name hpre hc]
    simp only [bind, Except.bind, List.findIdx?_cons]
    by_cases ht : test keyword c = true
    · rw [ht, if_pos (by exact ht)]; simp; rfl
    · have ht' : test keyword c = false := by simpa using ht
      rw [ht', if_neg (by exact ht)]
      have := ih (pre ++ [c]) (by simpa using h)
      rw [List.append_assoc, List.singleton_append, List.length_append, List.length_singleton] at this
      rw [this]
      simp only [Bool.false_eq_true, if_false, Option.map_map]
      congr 2
      funext k
      simp only [Function.comp_apply]
      omega

theorem ncards_eq {cards : List Str} (h : Cards cards) (hne : cards ≠ []) : (((cards.flatten.length : Int) - 1).tdiv 80 + 1).toNat = cards.length := by
  rw [flatten_length h]
  have : 0 < cards.length := List.length_pos_of_ne_nil hne
  rw [Int.tdiv_eq_ediv_of_nonneg (by push_cast; omega)]
  push_cast
  omega

/-- A keyword is found in its first card, whatever the case of its letters, and the value and the comment are those of this card; the keyword is not found if
no card has its name.  The header has at least one card and the keyword has no letter Z: see `C123_violation_z`, `C123_violation_empty`. -/
theorem C123_find_partial (keyword : Str) (hk : keyword.length ≤ 71) (hz : NoZ keyword) (cards : List Str) (h : Cards cards) (hne : cards ≠ [])
    (mustExist : Bool) :
    ((∀ c ∈ cards, ¬Named keyword c) →
      getKeyword cards.flatten keyword mustExist = .ok ⟨List.replicate 70 ' ', false, List.replicate 72 ' ', if mustExist then 202 else 0⟩) ∧
    (∀ pre c post, cards = pre ++ c :: post → (∀ d ∈ pre, ¬Named keyword d) → Named keyword c →
      getKeyword cards.flatten keyword mustExist = (valueComment (c.drop 10)).map fun v => ⟨v.1, true, v.2, 0⟩) := by
  have hf := findCard_spec keyword cards [] (by simpa using h)
  simp only [List.nil_append, List.length_nil] at hf
  constructor
  · intro hn
    have e : cards.findIdx? (test keyword) = none := by
      rw [List.findIdx?_eq_none_iff]
      intro c hc
      have := hn c hc
      rw [← test_iff hk hz] at this
      simpa using this
    rw [e] at hf
    unfold getKeyword
    dsimp only
    rw [ncards_eq h hne, hf]
    rfl
  · intro pre c post hcards hpre hc
    have e : cards.findIdx? (test keyword) = some pre.length := by
      rw [hcards, List.findIdx?_append, List.findIdx?_eq_none_iff.2, List.findIdx?_cons]
      · rw [if_pos ((test_iff hk hz).2 hc)]; simp
      · intro d hd
        have := hpre d hd
        rw [← test_iff hk hz] at this
        simpa using this
    rw [e] at hf
    unfold getKeyword
    dsimp only
    rw [ncards_eq h hne, hf]
    have h1 : Cards pre := fun d hd => h d (by rw [hcards]; simp [hd])
    have h2 : c.length = 80 := h c (by rw [hcards]; simp)
    have hs := @sub_field pre post c h1 h2
    rw [← hcards] at hs
    simp only [bind, Except.bind, Option.map_some]
    rw [show 0 + 1 + pre.length - 1 = pre.length by omega, show 0 + 1 + pre.length = pre.length + 1 by omega, hs]
    dsimp only
    cases valueComment (c.drop 10) <;> rfl

end Verif.Fits
