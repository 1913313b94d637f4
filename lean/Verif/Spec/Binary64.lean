/- What it means for a double to be finite, and the number it stands for. -/
import Verif.Core.Binary64
import Mathlib.Algebra.Field.Rat

namespace Verif.F64

/-- A finite double. -/
def IsFin : F64 → Prop
  | fin _ _ _ => True
  | _ => False

/-- The number a finite double stands for. -/
def val : F64 → Rat
  | fin s k _ => (units s k : Rat) / (one : Rat)
  | _ => 0

/-- A finite double of magnitude at most `2^1022`: the difference of two such numbers does not overflow. -/
def Price (x : F64) : Prop := IsFin x ∧ -(2 ^ 1022) ≤ val x ∧ val x ≤ 2 ^ 1022

/-- Never outside `[a, b]`: neither `y < a` nor `b < y` as C++ evaluates it (a NaN is neither). -/
def Within (a b y : F64) : Prop := F64.lt y a = false ∧ F64.lt b y = false

end Verif.F64
