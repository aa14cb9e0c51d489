import Verif.Units.Spec
import Mathlib.Analysis.SpecialFunctions.Pow.Real

/-!
The real numbers have rational powers: the hypotheses on the field of magnitudes can be met.
-/
namespace Verif.Units

noncomputable instance : LawfulRatPow ℝ where
  rpow x a := x ^ (a : ℝ)
  rpow_pos x a h := Real.rpow_pos_of_pos h _
  rpow_zero x _ := by simp
  rpow_one x _ := by simp
  rpow_add x a b h := by rw [Rat.cast_add, Real.rpow_add h]
  rpow_mul x a b h := by rw [Rat.cast_mul, Real.rpow_mul h.le]
  mul_rpow x y a hx hy := Real.mul_rpow hx.le hy.le

theorem rpow_real (x : ℝ) (a : ℚ) : RatPow.rpow x a = x ^ (a : ℝ) := rfl

end Verif.Units
