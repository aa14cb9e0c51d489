/-
Cases of the properties of the headers, and what is not true.
-/
import Verif.Fits.Props

namespace Verif.Fits
open Verif.Py

/-- A card. -/
def card (s : String) : Str := pad 80 s.toList

def header : List Str :=
  [card "SIMPLE  =                    T / conforms to the standard",
   card "NAXIS1  =                 -120 / first axis",
   card "OBSERVER= 'O''Hara /x'         / it is a name",
   card "ZUNIT   = 'm'",
   card "END"]

theorem header_cards : Cards header := by
  intro c hc
  simp only [header, List.mem_cons, List.not_mem_nil, or_false] at hc
  rcases hc with rfl | rfl | rfl | rfl | rfl <;> exact pad_length _ _

theorem not_named {keyword card : Str} (hk : keyword.length ≤ 71) (hz : NoZ keyword) (h : test keyword card = false) : ¬Named keyword card := by
  rw [← test_iff hk hz, h]; simp

theorem named {keyword card : Str} (hk : keyword.length ≤ 71) (hz : NoZ keyword) (h : test keyword card = true) : Named keyword card := by
  rw [← test_iff hk hz, h]

theorem has_naxis : Has header "naxis1".toList (List.replicate 16 ' ' ++ ((numeral (-120)).text ++ [' ']) ++ tailOf (some (pad 48 " first axis".toList))) where
  wf := header_cards
  length := by decide
  noz := ⟨by decide, by decide⟩
  first := ⟨[card "SIMPLE  =                    T / conforms to the standard"], _, _, rfl, by
    intro d hd
    rw [List.mem_singleton] at hd
    subst hd
    exact not_named (by decide) ⟨by decide, by decide⟩ (by decide), named (by decide) ⟨by decide, by decide⟩ (by decide), by decide +kernel⟩

/-- The hypotheses of `C123_find_partial`, `C125_integer` and `C125_integer_partial` are met. -/
example : readInt 32 header.flatten "naxis1".toList false = .ok ⟨-120, true, pad 72 (pad 48 " first axis".toList), 0⟩ :=
  C125_integer 32 (.inl rfl) (k := 1) (by decide) has_naxis false

theorem has_observer : Has header "Observer".toList (List.replicate 0 ' ' ++ '\'' :: escape "O'Hara /x".toList ++ '\'' :: (List.replicate 9 ' ') ++
    tailOf (some (pad 48 " it is a name".toList))) where
  wf := header_cards
  length := by decide
  noz := ⟨by decide, by decide⟩
  first := ⟨[card "SIMPLE  =                    T / conforms to the standard", card "NAXIS1  =                 -120 / first axis"], _, _, rfl, by
    intro d hd
    simp only [List.mem_cons, List.not_mem_nil, or_false] at hd
    rcases hd with rfl | rfl
    · exact not_named (by decide) ⟨by decide, by decide⟩ (by decide)
    · exact not_named (by decide) ⟨by decide, by decide⟩ (by decide), named (by decide) ⟨by decide, by decide⟩ (by decide), by decide +kernel⟩

/-- The hypotheses of `C124_string` are met. -/
example (old : Str) (h : old.length = 70) : readCharacter header.flatten "Observer".toList true old =
    .ok ⟨"O'Hara /x".toList ++ List.replicate 61 ' ', true, pad 72 (pad 48 " it is a name".toList), 0⟩ := by
  have := C124_string has_observer (by decide) (by decide) true old (by omega)
  rw [h] at this
  exact this

theorem has_simple : Has header "simple".toList (List.replicate 19 ' ' ++ ("T".toList ++ [' ']) ++ tailOf (some (pad 48 " conforms to the standard".toList))) where
  wf := header_cards
  length := by decide
  noz := ⟨by decide, by decide⟩
  first := ⟨[], _, _, rfl, by simp, named (by decide) ⟨by decide, by decide⟩ (by decide), by decide +kernel⟩

/-- The hypotheses of `C125_logical` are met. -/
example : readLogical header.flatten "simple".toList true = .ok ⟨true, true, pad 72 (pad 48 " conforms to the standard".toList), 0⟩ :=
  (C125_logical (k := 1) has_simple (by decide) (by decide) (by decide) (by decide) true).1 (by decide) (by decide)

/-- The hypotheses of `C124_plain` and `C125_real` are met. -/
example (old : Str) (h : old.length = 70) : readCharacter header.flatten "simple".toList true old =
    .ok ⟨"T ".toList ++ List.replicate 68 ' ', true, pad 72 (pad 48 " conforms to the standard".toList), 0⟩ := by
  have := C124_plain has_simple (by decide) (by decide) (by decide) true old (by omega)
  rw [h] at this
  exact this

/-- The letter Z is not converted: the card ZUNIT is not found if the keyword is in lower case. -/
theorem C123_violation_z : Cards header ∧ Named "zunit".toList (card "ZUNIT   = 'm'") ∧ card "ZUNIT   = 'm'" ∈ header ∧
    getKeyword header.flatten "zunit".toList true = .ok ⟨List.replicate 70 ' ', false, List.replicate 72 ' ', 202⟩ := by
  refine ⟨header_cards, ⟨0, 3, by decide⟩, by simp [header], by decide +kernel⟩

/-- An empty header, and a header with the null character at the end that the comment of the program allows, are read beyond the end. -/
theorem C123_violation_empty : getKeyword [] "naxis".toList false = .error .outOfBounds ∧
    getKeyword (header.flatten ++ ['\x00']) "naxis".toList false = .error .outOfBounds := by
  constructor <;> decide +kernel

/-- A string that does not fit in the variable is written beyond the end. -/
theorem C124_violation_short : readCharacter header.flatten "observer".toList true "abcd".toList = .error .outOfBounds := by
  decide +kernel

/-- The text of the integer 12 with many zeros. -/
def longTwelve : Numeral := ⟨none, List.replicate 19 '0' ++ ['1', '2'], by decide, by decide⟩

/-- Only the 20 first characters of an integer are read: 12 is read as 1. -/
theorem C125_violation_long : longTwelve.value = 12 ∧
    readInt 32 ("NAXIS   = ".toList ++ pad 70 longTwelve.text) "naxis".toList true = .ok ⟨1, true, List.replicate 72 ' ', 0⟩ := by
  constructor <;> decide +kernel

end Verif.Fits
