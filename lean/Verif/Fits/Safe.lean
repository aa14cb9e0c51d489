/-
No character outside a header is read, whatever the characters of its cards (/repo/src/flib/module_fitstools.f90 43-336).
-/
import Verif.Fits.Props

namespace Verif.Fits
open Verif.Py

theorem ch_ok {s : Str} {i : Nat} (h1 : 1 ≤ i) (h2 : i ≤ s.length) : ∃ c, ch s i = .ok c := by
  unfold ch
  rw [if_pos h1, List.getElem?_eq_getElem (by omega)]
  exact ⟨_, rfl⟩

theorem sub_ok {s : Str} {i j : Nat} (h : j < i ∨ (1 ≤ i ∧ j ≤ s.length)) : ∃ t, sub s i j = .ok t ∧ t.length = j + 1 - i := by
  unfold sub
  split_ifs with h1 h2
  · exact ⟨[], rfl, by simp; omega⟩
  · refine ⟨_, rfl, ?_⟩
    rw [List.length_take, List.length_drop]; omega
  · exact absurd (h.resolve_left h1) h2

theorem findQuote_ok (buffer : Str) (hb : buffer.length = 70) : ∀ (i : Nat), 1 ≤ i → i ≤ 71 → ∃ k b, findQuote buffer i = .ok (k, b) ∧ 1 ≤ k ∧ k ≤ 71 := by
  intro i
  induction hn : 71 - i using Nat.strong_induction_on generalizing i with
  | _ n ih =>
    intro h1 h2
    unfold findQuote
    by_cases h : i ≤ 70
    · rw [dif_pos h]
      obtain ⟨c, hc⟩ := ch_ok (s := buffer) h1 (by omega)
      rw [hc]
      simp only [bind, Except.bind]
      by_cases hq : c = '\''
      · rw [if_pos hq]
        by_cases hl : i + 1 = 71
        · rw [if_pos hl]; exact ⟨_, _, rfl, by omega, by omega⟩
        · rw [if_neg hl]
          obtain ⟨d, hd⟩ := ch_ok (s := buffer) (i := i + 1) (by omega) (by omega)
          rw [hd]
          dsimp only
          split_ifs
          · exact ⟨_, _, rfl, by omega, by omega⟩
          · exact ih _ (by omega) (i + 2) rfl (by omega) (by omega)
      · rw [if_neg hq]; exact ih _ (by omega) (i + 1) rfl (by omega) (by omega)
    · rw [dif_neg h]; exact ⟨_, _, rfl, h1, by omega⟩

theorem findSlash_ok (buffer : Str) (hb : buffer.length = 70) : ∀ (i : Nat), 1 ≤ i → i ≤ 71 → ∃ k, findSlash buffer i = .ok k ∧ 1 ≤ k ∧ k ≤ 71 := by
  intro i
  induction hn : 71 - i using Nat.strong_induction_on generalizing i with
  | _ n ih =>
    intro h1 h2
    unfold findSlash
    by_cases h : i ≤ 70
    · rw [dif_pos h]
      obtain ⟨c, hc⟩ := ch_ok (s := buffer) h1 (by omega)
      rw [hc]
      simp only [bind, Except.bind]
      split_ifs with hq
      · exact ⟨_, rfl, by omega, by omega⟩
      · exact ih _ (by omega) (i + 1) rfl (by omega) (by omega)
    · rw [dif_neg h]; exact ⟨_, rfl, h1, by omega⟩

theorem slashIndex_le {buffer : Str} (hb : buffer.length = 70) : 1 ≤ slashIndex buffer ∧ slashIndex buffer ≤ 71 := by
  unfold slashIndex
  cases h : buffer.findIdx? (· = '/') with
  | none => simp
  | some k =>
    have := (List.findIdx?_eq_some_iff_getElem.1 h).1
    dsimp only
    omega

theorem ends_ok {buffer : Str} (hb : buffer.length = 70) {i : Nat} (h1 : 1 ≤ i) (h2 : i ≤ 71) :
    ∃ u v, sub buffer 1 (i - 1) = .ok u ∧ sub buffer (i + 1) 70 = .ok v := by
  obtain ⟨u, hu, -⟩ := sub_ok (s := buffer) (i := 1) (j := i - 1) (by omega)
  obtain ⟨v, hv, -⟩ := sub_ok (s := buffer) (i := i + 1) (j := 70) (by omega)
  exact ⟨u, v, hu, hv⟩

theorem valueComment_ok (field : Str) : ∃ v, valueComment field = .ok v ∧ v.1.length = 70 := by
  unfold valueComment
  dsimp only
  have hb := pad_length 70 (adjustl field)
  generalize pad 70 (adjustl field) = buffer at *
  obtain ⟨c, hc⟩ := ch_ok (s := buffer) (i := 1) (by omega) (by omega)
  rw [hc]
  simp only [bind, Except.bind]
  by_cases hq : c ≠ '\''
  · rw [if_pos hq]
    obtain ⟨u, v, hu, hv⟩ := ends_ok hb (slashIndex_le hb).1 (slashIndex_le hb).2
    rw [hu, hv]
    exact ⟨_, rfl, pad_length _ _⟩
  · rw [if_neg hq]
    obtain ⟨k, b, hk, hk1, hk2⟩ := findQuote_ok buffer hb 2 (by omega) (by omega)
    rw [hk]
    dsimp only
    cases b with
    | true =>
      obtain ⟨u, v, hu, hv⟩ := ends_ok hb hk1 hk2
      rw [if_pos rfl, hu, hv]
      exact ⟨_, rfl, pad_length _ _⟩
    | false =>
      rw [if_neg (by simp)]
      obtain ⟨j, hj, hj1, hj2⟩ := findSlash_ok buffer hb k hk1 hk2
      obtain ⟨u, v, hu, hv⟩ := ends_ok hb hj1 hj2
      rw [hj]
      dsimp only
      rw [hu, hv]
      exact ⟨_, rfl, pad_length _ _⟩

theorem getKeyword_ok {cards : List Str} (h : Cards cards) (hne : cards ≠ []) (keyword : Str) (mustExist : Bool) :
    ∃ k, getKeyword cards.flatten keyword mustExist = .ok k ∧ k.value.length = 70 := by
  have hf := findCard_spec keyword cards [] (by simpa using h)
  simp only [List.nil_append, List.length_nil] at hf
  unfold getKeyword
  dsimp only
  rw [ncards_eq h hne, hf]
  simp only [bind, Except.bind]
  cases e : cards.findIdx? (test keyword) with
  | none => exact ⟨_, rfl, pad_length _ _⟩
  | some i =>
    have hi := (List.findIdx?_eq_some_iff_getElem.1 e).1
    simp only [Option.map_some]
    obtain ⟨t, ht, -⟩ := sub_ok (s := cards.flatten) (i := (0 + 1 + i - 1) * 80 + 11) (j := (0 + 1 + i) * 80) (by
      rw [flatten_length h]; right; omega)
    rw [ht]
    dsimp only
    obtain ⟨v, hv, hl⟩ := valueComment_ok t
    rw [hv]
    exact ⟨_, rfl, hl⟩

theorem unquote_ok (charvalue : Str) (n : Nat) (hn : n < charvalue.length) : ∀ (i j : Nat) (value : Str), 1 ≤ i → i ≤ j → n ≤ value.length →
    ∃ v, unquote charvalue n i j value = .ok v ∧ v.length = value.length := by
  intro i j
  induction hm : n + 1 - j using Nat.strong_induction_on generalizing i j with
  | _ m ih =>
    intro value h1 h2 h3
    unfold unquote
    by_cases h : j ≤ n
    · rw [dif_pos h]
      obtain ⟨c, hc⟩ := ch_ok (s := charvalue) (i := j) (by omega) (by omega)
      obtain ⟨d, hd⟩ := ch_ok (s := charvalue) (i := j + 1) (by omega) (by omega)
      rw [hc, hd]
      simp only [bind, Except.bind]
      by_cases hq : c = '\'' ∧ (j = n ∨ d ≠ '\'')
      · rw [if_pos hq]; exact ⟨_, rfl, rfl⟩
      · rw [if_neg hq, setCh, if_pos ⟨h1, by omega⟩]
        dsimp only
        split_ifs
        · obtain ⟨v, hv, hl⟩ := ih (n + 1 - (j + 2)) (by omega) (i + 1) (j + 2) rfl (value.set (i - 1) c) (by omega) (by omega) (by simpa using h3)
          exact ⟨v, hv, by simpa using hl⟩
        · obtain ⟨v, hv, hl⟩ := ih (n + 1 - (j + 1)) (by omega) (i + 1) (j + 1) rfl (value.set (i - 1) c) (by omega) (by omega) (by simpa using h3)
          exact ⟨v, hv, by simpa using hl⟩
    · rw [dif_neg h]; exact ⟨_, rfl, rfl⟩

/-- C123: whatever the characters of its cards, a header which has at least one card is read without going out of its bounds, nor out of those of a
variable of 69 characters or more.  The header is empty in `C123_violation_empty` and the variable is shorter in `C124_violation_short`. -/
theorem C123_bounds_partial {F : Type} [Zero F] (real : Str → Option F) (bits : Nat) {cards : List Str} (h : Cards cards) (hne : cards ≠ []) (keyword : Str)
    (present : Bool) (old : Str) (ho : 69 ≤ old.length) :
    (∃ r, readLogical cards.flatten keyword present = .ok r) ∧ (∃ r, readInt bits cards.flatten keyword present = .ok r) ∧
    (∃ r, readReal real cards.flatten keyword present = .ok r) ∧
    (∃ r, readCharacter cards.flatten keyword present old = .ok r ∧ r.value.length = old.length) := by
  obtain ⟨k, hk, hl⟩ := getKeyword_ok h hne keyword (!present)
  refine ⟨?_, ?_, ?_, ?_⟩
  · unfold readLogical
    rw [hk]
    simp only [bind, Except.bind]
    split_ifs
    · exact ⟨_, rfl⟩
    · exact ⟨_, rfl⟩
    · obtain ⟨c, hc⟩ := ch_ok (s := strupcase k.value) (i := 1) (by omega) (by simp [strupcase, hl])
      rw [hc]
      exact ⟨_, rfl⟩
  · unfold readInt
    rw [hk]
    simp only [bind, Except.bind]
    split_ifs
    · exact ⟨_, rfl⟩
    · split <;> exact ⟨_, rfl⟩
  · unfold readReal
    rw [hk]
    simp only [bind, Except.bind]
    split_ifs
    · exact ⟨_, rfl⟩
    · split <;> exact ⟨_, rfl⟩
  · unfold readCharacter
    rw [hk]
    simp only [bind, Except.bind]
    split_ifs with h1
    · exact ⟨_, rfl, rfl⟩
    all_goals
      obtain ⟨c, hc⟩ := ch_ok (s := k.value) (i := 1) (by omega) (by omega)
      rw [hc]
      dsimp only
      by_cases hq : c ≠ '\''
      · rw [if_pos hq]
        exact ⟨_, rfl, pad_length _ _⟩
      · rw [if_neg hq]
        have ht := trim_length_le k.value
        obtain ⟨t, ht1, ht2⟩ := sub_ok (s := k.value) (i := 2) (j := (trim k.value).length) (by omega)
        rw [ht1]
        dsimp only
        have hn : (trim (pad 70 t)).length ≤ 69 := by
          rw [trim_pad (by omega)]
          have := trim_length_le t
          omega
        obtain ⟨v, hv, hvl⟩ := unquote_ok (pad 70 t) (trim (pad 70 t)).length (by rw [pad_length]; omega) 1 1 (pad old.length []) (by omega) (by omega) (by
          rw [pad_length]; omega)
        rw [hv]
        exact ⟨_, rfl, by rw [← pad_length old.length []]; exact hvl⟩

end Verif.Fits
