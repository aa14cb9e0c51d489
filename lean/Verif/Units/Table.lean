import Verif.Units.Convert
import Verif.Units.Real

/-!
The table of units of quantities.py meets the hypotheses of the properties.
-/
namespace Verif.Units
open Verif.Py

/-- The table for an input without header. -/
noncomputable def realTable : DTable ℝ := unitsTable Real.pi 1 none

theorem parsed_units :
    parsed "arcmin" = [("arcmin".toList, 1)] ∧ parsed "arcsec" = [("arcsec".toList, 1)] ∧
    parsed "deg" = [("deg".toList, 1)] ∧ parsed "rad" = [("rad".toList, 1)] ∧ parsed "Jy" = [("Jy".toList, 1)] ∧
    parsed "W/Hz/m^2" = [("W".toList, 1), ("Hz".toList, -1), ("m".toList, -2)] ∧
    parsed "kg m / s^2" = [("kg".toList, 1), ("m".toList, 1), ("s".toList, -2)] ∧
    parsed "s^-1" = [("s".toList, -1)] ∧
    parsed "kg m^2 / s^2" = [("kg".toList, 1), ("m".toList, 2), ("s".toList, -2)] ∧
    parsed "m" = [("m".toList, 1)] ∧
    parsed "kg m^2 / s^3" = [("kg".toList, 1), ("m".toList, 2), ("s".toList, -3)] ∧
    parsed "Pa" = [("Pa".toList, 1)] ∧ parsed "atm" = [("atm".toList, 1)] ∧ parsed "mmHg" = [("mmHg".toList, 1)] ∧
    parsed "kg / m / s^2" = [("kg".toList, 1), ("m".toList, -1), ("s".toList, -2)] ∧
    parsed "V/A" = [("V".toList, 1), ("A".toList, -1)] ∧ parsed "sr" = [("sr".toList, 1)] ∧
    parsed "pixel_reference" = [("pixel_reference".toList, 1)] ∧ parsed "s" = [("s".toList, 1)] ∧
    parsed "A s" = [("A".toList, 1), ("s".toList, 1)] ∧
    parsed "kg m^2 / A / s^3" = [("kg".toList, 1), ("m".toList, 2), ("A".toList, -1), ("s".toList, -3)] := by
  refine ⟨?_, ?_, ?_, ?_, ?_, ?_, ?_, ?_, ?_, ?_, ?_, ?_, ?_, ?_, ?_, ?_, ?_, ?_, ?_, ?_, ?_⟩ <;> decide +kernel


/-- Depth of the definitions. -/
def rankOf (s : Sym) : Nat :=
  if s ∈ ["A", "cd", "K", "kg", "m", "mol", "s", "sr", "pixel_reference"].map String.toList then 0
  else if s ∈ ["rad", "pixel", "N", "Hz", "J", "AU", "km", "mm", "um", "pc", "W", "Pa", "ms", "us", "C", "V"].map String.toList then 1
  else if s ∈ ["deg", "Jy", "atm", "bar", "Ohm"].map String.toList then 2
  else if s ∈ ["arcmin", "arcsec", "uJy", "mJy", "MJy", "mmHg"].map String.toList then 3
  else 4

theorem realTable_pos : ∀ e ∈ realTable, ∀ d ∈ e.value, 0 < d.mag := by
  have := Real.pi_pos
  simp only [realTable, unitsTable, baseUnit, derivedUnit, List.forall_mem_cons, Option.mem_def, Option.some.injEq, forall_eq',
    reduceCtorEq, IsEmpty.forall_iff, implies_true, true_and, and_true, List.not_mem_nil]
  repeat' apply And.intro
  all_goals positivity

theorem realTable_units : ∀ e ∈ realTable, ∀ d ∈ e.value, Canonical d.unit ∧ ∀ p ∈ d.unit, rankOf p.1 < rankOf e.key.symbol := by
  obtain ⟨h1, h2, h3, h4, h5, h6, h7, h8, h9, h10, h11, h12, h13, h14, h15, h16, h17, h18, h19, h20, h21⟩ := parsed_units
  simp only [realTable, unitsTable, baseUnit, derivedUnit, List.forall_mem_cons, Option.mem_def, Option.some.injEq, forall_eq',
    reduceCtorEq, IsEmpty.forall_iff, implies_true, true_and, and_true, List.not_mem_nil, DKey.symbol,
    h1, h2, h3, h4, h5, h6, h7, h8, h9, h10, h11, h12, h13, h14, h15, h16, h17, h18, h19, h20, h21, Canonical, Wf, NoZero]
  repeat' apply And.intro
  all_goals decide +kernel

theorem realTable_good : GoodTables [] realTable where
  defined := by simp
  pos := realTable_pos
  wf e he d hd := (realTable_units e he d hd).1.1

theorem realTable_ranked : Ranked [] realTable rankOf := fun e he d hd p hp => (realTable_units e he d hd).2 p hp

theorem realTable_global : GoodGlobal realTable where
  unique := by
    simp only [realTable, unitsTable, baseUnit, derivedUnit, List.map_cons, List.map_nil]
    decide +kernel
  pow := by
    simp only [realTable, unitsTable, baseUnit, derivedUnit, List.forall_mem_cons]
    simp

/-- The values of the symbols in base units. -/
noncomputable def realValue (s : Sym) : ℝ :=
  if s = "'".toList ∨ s = "arcmin".toList then 1 / 60 * (Real.pi / 180)
  else if s = "\"".toList ∨ s = "arcsec".toList then 1 / 3600 * (Real.pi / 180)
  else if s = "deg".toList then Real.pi / 180
  else if s = "uJy".toList then 1 / 10 ^ 6 * (1 / 10 ^ 26)
  else if s = "mJy".toList then 1 / 10 ^ 3 * (1 / 10 ^ 26)
  else if s = "MJy".toList then 10 ^ 6 * (1 / 10 ^ 26)
  else if s = "Jy".toList then 1 / 10 ^ 26
  else if s = "AU".toList then 149597870700
  else if s = "km".toList then 1000
  else if s = "mm".toList ∨ s = "ms".toList then 1 / 10 ^ 3
  else if s = "um".toList ∨ s = "us".toList then 1 / 10 ^ 6
  else if s = "pc".toList then 30857 * 10 ^ 12
  else if s = "atm".toList then 101325
  else if s = "bar".toList then 10 ^ 5
  else if s = "mmHg".toList ∨ s = "Torr".toList then 1 / 760 * 101325
  else if s = "cmHg".toList then 10 * (1 / 760 * 101325)
  else 1

theorem realValue_km : realValue "km".toList = 1000 := by simp [realValue]

theorem realValue_m : realValue "m".toList = 1 := by simp [realValue]

theorem realValue_Jy : realValue "Jy".toList = 1 / 10 ^ 26 := by simp [realValue]

theorem realValue_other : realValue "kloug".toList = 1 := by simp [realValue]

theorem realTable_valuation : Valuation [] realTable realValue where
  pos s := by
    have := Real.pi_pos
    simp only [realValue]

    all_goals positivity
  loc := by simp
  glob e he _ := by
    revert e
    obtain ⟨h1, h2, h3, h4, h5, h6, h7, h8, h9, h10, h11, h12, h13, h14, h15, h16, h17, h18, h19, h20, h21⟩ := parsed_units
    simp only [realTable, unitsTable, baseUnit, derivedUnit, List.forall_mem_cons, EntryOk, amount, value, List.map_cons,
      List.map_nil, List.prod_cons, List.prod_nil, rpow_real,
      h1, h2, h3, h4, h5, h6, h7, h8, h9, h10, h11, h12, h13, h14, h15, h16, h17, h18, h19, h20, h21]
    simp [realValue]

end Verif.Units
