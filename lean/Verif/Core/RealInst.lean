/-
The real numbers with the real `<cmath>` functions: every law class is inhabited, so no theorem that assumes one
is vacuous.
-/
import Verif.Core.Laws
import Mathlib.Analysis.SpecialFunctions.Trigonometric.Arctan
import Mathlib.Analysis.SpecialFunctions.Pow.Real
import Mathlib.Analysis.SpecialFunctions.Log.Base

namespace Verif

/-- `(int)x` truncates towards zero. -/
noncomputable instance : CMath ℝ where
  trunc x := if 0 ≤ x then ⌊x⌋ else ⌈x⌉
  sqrt := Real.sqrt
  log := Real.log
  log10 := Real.logb 10
  exp := Real.exp
  sin := Real.sin
  cos := Real.cos
  tan := Real.tan
  asin := Real.arcsin
  acos := Real.arccos
  atan := Real.arctan
  sinh := Real.sinh
  cosh := Real.cosh
  tanh := Real.tanh
  floor x := (⌊x⌋ : ℝ)
  ceil x := (⌈x⌉ : ℝ)
  fabs x := |x|
  pow x y := x ^ y
  infinity := 0

instance : LawfulTrunc ℝ where
  trunc_intCast n := by simp [CMath.trunc]

instance : LawfulCeil ℝ where
  ceil_spec x := ⟨⌈x⌉, rfl, by linarith [Int.ceil_lt_add_one x], Int.le_ceil x⟩

instance : LawfulAbs ℝ where
  fabs_eq _ := rfl

instance : LawfulSqrt ℝ where
  sqrt_nonneg x _ := Real.sqrt_nonneg x
  sqrt_sq _ h := Real.mul_self_sqrt h

instance : LawfulTrig ℝ where
  sin_sq_add_cos_sq x := by have := Real.sin_sq_add_cos_sq x; simp only [CMath.sin, CMath.cos]; nlinarith

instance : LawfulExp ℝ where
  exp_pos := Real.exp_pos
  exp_zero := Real.exp_zero
  exp_le_one x h := by simpa [CMath.exp] using h

instance : LawfulPow ℝ where
  pow_two x := Real.rpow_two x

instance : LawfulRound ℝ where
  trunc_nonneg x h := by
    simp only [CMath.trunc, if_pos h]
    exact ⟨Int.floor_le x, Int.lt_floor_add_one x⟩
  trunc_neg x h := by
    simp only [CMath.trunc, if_neg (not_le.2 h)]
    exact ⟨by linarith [Int.ceil_lt_add_one x], Int.le_ceil x⟩

end Verif
