/- Models of the linear regression family: `trend.h`, linreg, linregslope, linregintercept, tsf, fosc. -/
import Verif.Core.Num

namespace Verif
variable {R : Type} [Num R]

/-- The loop that fills `x`, `x2`, `xy`, `y`, trend.h:42-47; `i + 1` and `(i+1)*(i+1)` are `int`s. -/
def trendInit (xs : List R) (period : Int) : M (R × R × R × R) :=
  forUp 0 (period - 1) ((c! 0 : R), (c! 0 : R), (c! 0 : R), (c! 0 : R)) fun i (x, x2, xy, y) => do
    let sq ← i32 ((i + 1) * (i + 1))
    let v ← rd xs i
    return (x + ((i + 1 : Int) : R), x2 + (sq : R), xy + v * ((i + 1 : Int) : R), y + v)

/-- `LINEAR_REGRESSION`, trend.h:31-64. `final i v x y b t out` is the macro `FINAL` with `v = input[i]`, `t` the
variables its `INIT` declares. Simplification: the macro's `(input)[i]` is read once per iteration, not three times. -/
def linearRegression {τ : Type} (xs : List R) (period : Int) (t : τ)
    (final : Int → R → R → R → R → τ → List R → M (τ × List R)) : M (List R) := do
  let s ← trendInit xs period
  let x := s.1 + (period : R)
  let pp ← i32 (period * period)
  let x2 := s.2.1 + (pp : R)
  let bd : R := c! 1 / ((period : R) * x2 - x * x)
  let s ← forUp (period - 1) xs.length (s.2.2.1, s.2.2.2, t, []) fun i (xy, y, t, out) => do
    let v ← rd xs i
    let xy := xy + v * (period : R)
    let y := y + v
    let b := ((period : R) * xy - x * y) * bd
    let (t, out) ← final i v x y b t out
    let xy := xy - y
    let w ← rd xs (i - period + 1)
    return (xy, y - w, t, out)
  return s.2.2.2

/-- `ti_linreg_start` linreg.cc:12-14, `ti_linregslope_start` linregslope.cc:19-22, `ti_linregintercept_start`
linregintercept.cc:12-14, `ti_tsf_start` tsf.cc:12-14. -/
def linregStart (o : Nat → R) : M Int := do i32 ((← toInt (o 0)) - 1)

/-- The default `INIT` and `FINAL`, trend.h:18-23. -/
def trendFinal (cap : Int) (p : R) (forecast : R) (_i : Int) (_v x y b : R) (_ : Unit) (out : List R) : M (Unit × List R) := do
  let a := (y - b * x) * p
  let out ← wr cap out (a + b * forecast)
  return ((), out)

/-- The common part of linreg.cc:17-29, linregintercept.cc:17-29 and tsf.cc:17-30; they differ in `forecast`. -/
def trendBatch (forecast : Int → M Int) (o : Nat → R) (xs : List R) : M (Ret × List R) := do
  let period ← toInt (o 0)
  if period < 1 then return (.invalidOption, [])
  let start ← linregStart o
  if (xs.length : Int) ≤ start then return (.okay, [])
  let cap := xs.length - start
  let f ← forecast period
  let out ← linearRegression xs period () (trendFinal cap (c! 1 / (period : R)) (f : R))
  finish cap out

/-- `ti_linreg`, linreg.cc:17-29. -/
def linregBatch : (Nat → R) → List R → M (Ret × List R) := trendBatch fun period => pure period
/-- `ti_linregintercept`, linregintercept.cc:17-29. -/
def linreginterceptBatch : (Nat → R) → List R → M (Ret × List R) := trendBatch fun _ => pure 1
/-- `ti_tsf`, tsf.cc:17-30. -/
def tsfBatch : (Nat → R) → List R → M (Ret × List R) := trendBatch fun period => i32 (period + 1)

/-- `FINAL` of linregslope.cc:12-14. -/
def slopeFinal (cap : Int) (_i : Int) (_v _x _y b : R) (_ : Unit) (out : List R) : M (Unit × List R) := do
  let out ← wr cap out b
  return ((), out)

/-- `ti_linregslope`, linregslope.cc:25-37. -/
def linregslopeBatch (o : Nat → R) (xs : List R) : M (Ret × List R) := do
  let period ← toInt (o 0)
  if period < 1 then return (.invalidOption, [])
  let start ← linregStart o
  if (xs.length : Int) ≤ start then return (.okay, [])
  let cap := xs.length - start
  let out ← linearRegression xs period () (slopeFinal cap)
  finish cap out

/-- `ti_fosc_start`, fosc.cc:23-25. -/
def foscStart (o : Nat → R) : M Int := toInt (o 0)

/-- `INIT` and `FINAL` of fosc.cc:11-17; the state is `tsf`. -/
def foscFinal (cap : Int) (period : Int) (forecast : R) (i : Int) (v x y b tsf : R) (out : List R) : M (R × List R) := do
  let a := (y - b * x) * (c! 1 / (period : R))
  let out ← (if period ≤ i then wr cap out (if v - tsf == c! 0 then c! 0 else c! 100 * (v - tsf) / v) else pure out)
  return (a + b * forecast, out)

/-- `ti_fosc`, fosc.cc:28-40. -/
def foscBatch (o : Nat → R) (xs : List R) : M (Ret × List R) := do
  let period ← toInt (o 0)
  if period < 1 then return (.invalidOption, [])
  let start ← foscStart o
  if (xs.length : Int) ≤ start then return (.okay, [])
  let cap := xs.length - start
  let f ← i32 (period + 1)
  let out ← linearRegression xs period (c! 0 : R) (foscFinal cap period (f : R))
  finish cap out

end Verif
