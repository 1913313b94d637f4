/-
What a theorem may assume about `<cmath>` functions.  Each theorem names the classes it needs; `ℚ` has `fabs`,
`ℝ` has all of them (`Verif/Core/RealInst.lean`).
-/
import Verif.Core.Num
import Mathlib.Algebra.Order.Group.Unbundled.Abs

namespace Verif

/-- `fabs` is the absolute value. -/
class LawfulAbs (R : Type) [CMath R] [Lattice R] [AddGroup R] : Prop where
  fabs_eq : ∀ x : R, CMath.fabs x = |x|

/-- `sqrt` of a non-negative number is its non-negative square root. -/
class LawfulSqrt (R : Type) [CMath R] [Field R] [LinearOrder R] : Prop where
  sqrt_nonneg : ∀ x : R, 0 ≤ x → 0 ≤ CMath.sqrt x
  sqrt_sq : ∀ x : R, 0 ≤ x → CMath.sqrt x * CMath.sqrt x = x

/-- `sin` and `cos` lie on the unit circle. -/
class LawfulTrig (R : Type) [CMath R] [Field R] : Prop where
  sin_sq_add_cos_sq : ∀ x : R, CMath.sin x * CMath.sin x + CMath.cos x * CMath.cos x = 1

/-- `exp` is positive, `exp 0 = 1`. -/
class LawfulExp (R : Type) [CMath R] [Field R] [LinearOrder R] : Prop where
  exp_pos : ∀ x : R, 0 < CMath.exp x
  exp_zero : CMath.exp (0 : R) = 1
  exp_le_one : ∀ x : R, x ≤ 0 → CMath.exp x ≤ 1

/-- `pow(x, 2)` is the square. -/
class LawfulPow (R : Type) [CMath R] [Field R] : Prop where
  pow_two : ∀ x : R, CMath.pow x 2 = x ^ 2

/-- `(int)x` truncates towards zero. -/
class LawfulRound (R : Type) [CMath R] [Field R] [LinearOrder R] : Prop where
  trunc_nonneg : ∀ x : R, 0 ≤ x → ((CMath.trunc x : Int) : R) ≤ x ∧ x < ((CMath.trunc x : Int) : R) + 1
  trunc_neg : ∀ x : R, x < 0 → ((CMath.trunc x : Int) : R) - 1 < x ∧ x ≤ ((CMath.trunc x : Int) : R)

/-- `ceil` is the smallest integer not below its argument. -/
class LawfulCeil (R : Type) [CMath R] [Field R] [LinearOrder R] : Prop where
  ceil_spec : ∀ x : R, ∃ n : Int, CMath.ceil x = (n : R) ∧ (n : R) - 1 < x ∧ x ≤ (n : R)

end Verif
