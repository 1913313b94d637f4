/-
IEEE doubles are a number type: every theorem that assumes only `[Num R]` applies to `Float`.
(No theorem evaluates a `Float`; the instance only shows that the law-free theorems cover doubles.)
-/
import Verif.Core.Num

namespace Verif

instance : CMath Float where
  trunc x := if x < 0 then -((-x).toUInt64.toNat : Int) else (x.toUInt64.toNat : Int)
  sqrt := Float.sqrt
  log := Float.log
  log10 := Float.log10
  exp := Float.exp
  sin := Float.sin
  cos := Float.cos
  tan := Float.tan
  asin := Float.asin
  acos := Float.acos
  atan := Float.atan
  sinh := Float.sinh
  cosh := Float.cosh
  tanh := Float.tanh
  floor := Float.floor
  ceil := Float.ceil
  fabs := Float.abs
  pow := Float.pow
  infinity := 1.0 / 0.0

instance : Num Float where
  intCast := Float.ofInt
  decLt := inferInstance
  decLe := inferInstance

end Verif
