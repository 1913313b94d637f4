/-
The numbers of the model.  `TI_REAL` is `double` (`/repo/codegen.py`, generated `indicators.h`).

Every model is written over an arbitrary type `R` with the operations below and *no laws at all*, so a
theorem that only assumes `[Num R]` holds whatever the operations do — in particular for IEEE doubles
including infinities and NaN (see `Verif/Core/FloatInst.lean`).  Theorems about numeric values assume a
linearly ordered field instead; floating point rounding is out of their scope.
-/
import Verif.Core.UB
import Mathlib.Algebra.Order.Field.Basic

namespace Verif

/-- The parts of `<cmath>` the indicators call, and `(int)x`.  No laws: arbitrary functions. -/
class CMath (R : Type) where
  /-- the integer a `(int)x` conversion truncates to (range is checked by `toInt`) -/
  trunc : R → Int
  sqrt : R → R
  log : R → R
  log10 : R → R
  exp : R → R
  sin : R → R
  cos : R → R
  tan : R → R
  asin : R → R
  acos : R → R
  atan : R → R
  sinh : R → R
  cosh : R → R
  tanh : R → R
  floor : R → R
  ceil : R → R
  fabs : R → R
  pow : R → R → R
  infinity : R

/-- Arithmetic and comparisons of `TI_REAL`, without laws. -/
class Num (R : Type) extends Add R, Sub R, Mul R, Div R, Neg R, IntCast R, LT R, LE R, BEq R, CMath R where
  decLt : DecidableLT R
  decLe : DecidableLE R

attribute [instance_reducible, instance] Num.decLt Num.decLe

instance (priority := low) Num.inhabited {R : Type} [Num R] : Inhabited R := ⟨Int.cast 0⟩

/-- A numeric literal of the C++ source, e.g. `c! 100`. Decimal fractions are written as quotients. -/
macro "c!" n:num : term => `((Int.cast ($n : Int)))

/-- A linearly ordered field (ℚ, ℝ, …) with arbitrary `<cmath>` functions is a number type. -/
instance (priority := low) Num.ofField {R : Type} [Field R] [LinearOrder R] [IsStrictOrderedRing R]
    [CMath R] : Num R where
  decLt := inferInstance
  decLe := inferInstance

/-- `(int)x`: truncation towards zero, undefined when the result is not an `int`. -/
def toInt {R : Type} [CMath R] (x : R) : M Int := i32 (CMath.trunc x)

theorem toInt_range {R : Type} [CMath R] {x : R} {p : Int} (h : toInt x = .ok p) :
    -2147483648 ≤ p ∧ p ≤ 2147483647 := by
  unfold toInt i32 at h
  split at h
  · cases h; assumption
  · cases h

/-- What truncation does to integers; every real truncation satisfies it. -/
class LawfulTrunc (R : Type) [CMath R] [IntCast R] : Prop where
  trunc_intCast : ∀ n : Int, CMath.trunc ((n : Int) : R) = n

/-- `std::max(a, b)` = `(a < b) ? b : a`. -/
def stdMax {R : Type} [Num R] (a b : R) : R := if a < b then b else a
/-- `std::min(a, b)` = `(b < a) ? b : a`. -/
def stdMin {R : Type} [Num R] (a b : R) : R := if b < a then b else a

end Verif
