/- Models of trima, hma, kst. -/
import Verif.Core.Num
import Verif.Model.Sum
import Verif.Model.Simple
import Verif.Model.Ema
import Verif.Model.TiBuf

namespace Verif
variable {R : Type} [Num R]

/-- `ti_trima_start`, trima.cc:11-13. -/
def trimaStart (o : Nat → R) : M Int := do i32 ((← toInt (o 0)) - 1)

/-- `ti_trima`, trima.cc:16-88. State of the first loop: weight_sum, lead_sum, trail_sum, `w`; of the second:
weight_sum, lead_sum, trail_sum, lsi, tsi1, tsi2, outputs. `1 / (TI_REAL) …` (32-34) is a `double` quotient. -/
def trimaBatch (o : Nat → R) (xs : List R) : M (Ret × List R) := do
  let period ← toInt (o 0)
  if period < 1 then return (.invalidOption, [])
  let start ← trimaStart o
  if (xs.length : Int) ≤ start then return (.okay, [])
  if period ≤ 2 then smaBatch o xs else
  let half := Int.tdiv period 2
  let odd := Int.tmod period 2 ≠ 0
  let wn ← i32 (if odd then (half + 1) * (half + 1) else (half + 1) * half)
  let weights : R := c! 1 / (wn : R)
  let lead_period := if odd then half else half - 1
  let trail_period := lead_period + 1
  let cap := xs.length - start
  let s ← forUp 0 (period - 1) ((c! 0 : R), (c! 0 : R), (c! 0 : R), (1 : Int)) fun i (weight_sum, lead_sum, trail_sum, w) => do
    let v ← rd xs i
    let weight_sum := weight_sum + v * (w : R)
    let lead_sum := if period - lead_period < i + 1 then lead_sum + v else lead_sum
    let trail_sum := if i + 1 ≤ trail_period then trail_sum + v else trail_sum
    let w := if i + 1 < trail_period then w + 1 else w
    let w := if period - lead_period ≤ i + 1 then w - 1 else w
    return (weight_sum, lead_sum, trail_sum, w)
  let lsi := period - 1 - lead_period + 1
  let tsi1 := period - 1 - period + 1 + trail_period
  let tsi2 := period - 1 - period + 1
  let s ← forUp (period - 1) xs.length (s.1, s.2.1, s.2.2.1, lsi, tsi1, tsi2, [])
    fun i (weight_sum, lead_sum, trail_sum, lsi, tsi1, tsi2, out) => do
      let v ← rd xs i
      let weight_sum := weight_sum + v
      let out ← wr cap out (weight_sum * weights)
      let lead_sum := lead_sum + v
      let weight_sum := weight_sum + lead_sum
      let weight_sum := weight_sum - trail_sum
      let a ← rd xs lsi
      let b ← rd xs tsi1
      let c ← rd xs tsi2
      return (weight_sum, lead_sum - a, trail_sum + b - c, lsi + 1, tsi1 + 1, tsi2 + 1, out)
  finish cap s.2.2.2.2.2.2

/-- `ti_hma_start`, hma.cc:14-18. (`sqrt` of a negative period is converted to `int` before the sign is tested.) -/
def hmaStart (o : Nat → R) : M Int := do
  let period ← toInt (o 0)
  let periodsqrt ← toInt (CMath.sqrt (period : R))
  if 0 ≤ period then i32 (period + periodsqrt - 2) else pure (-1)

/-- `n * (n+1) / 2` in `int`, hma.cc:35-37. -/
def triangle (n : Int) : M Int := do
  let n1 ← i32 (n + 1)
  let q ← i32 (n * n1)
  return Int.tdiv q 2

/-- `ti_hma`, hma.cc:21-99. First loop: weight_sum, sum, weight_sum2, sum2. Second: the same, then weight_sumsqrt,
sumsqrt, the buffer, the outputs. -/
def hmaBatch (o : Nat → R) (xs : List R) : M (Ret × List R) := do
  let period ← toInt (o 0)
  if period < 1 then return (.invalidOption, [])
  let start ← hmaStart o
  if (xs.length : Int) ≤ start then return (.okay, [])
  let cap := xs.length - start
  let period2 := Int.tdiv period 2
  let periodsqrt ← toInt (CMath.sqrt (period : R))
  let weights ← triangle period
  let weights2 ← triangle period2
  let weightssqrt ← triangle periodsqrt
  let z : R := c! 0
  let s ← forUp 0 (period - 1) ((z, z), (z, z)) fun i (a, b) => do
    let v ← rd xs i
    let a := (a.1 + v * ((i + 1 : Int) : R), a.2 + v)
    let b := if period - period2 ≤ i then (b.1 + v * ((i + 1 - (period - period2) : Int) : R), b.2 + v) else b
    return (a, b)
  let s ← forUp (period - 1) xs.length (s.1, s.2, (z, z), TiBuf.new periodsqrt, []) fun i (a, b, c, buff, out) => do
    let v ← rd xs i
    let a := (a.1 + v * (period : R), a.2 + v)
    let b := (b.1 + v * (period2 : R), b.2 + v)
    let wma := a.1 / (weights : R)
    let wma2 := b.1 / (weights2 : R)
    let diff := c! 2 * wma2 - wma
    let c := (c.1 + diff * (periodsqrt : R), c.2 + diff)
    let buff ← buff.qpush diff
    let (c, out) ← (if period - 1 + (periodsqrt - 1) ≤ i then (do
        let out ← wr cap out (c.1 / (weightssqrt : R))
        let g ← buff.get 1
        return ((c.1 - c.2, c.2 - g), out))
      else pure ((c.1 - c.2, c.2), out))
    let u ← rd xs (i - period + 1)
    let w ← rd xs (i - period2 + 1)
    return ((a.1 - a.2, a.2 - u), (b.1 - b.2, b.2 - w), c, buff, out)
  finish cap s.2.2.2.2

/-- The two outputs of kst. -/
structure Kst (R : Type) where (kst signal : R) deriving DecidableEq

/-- `ti_kst_start`, kst.cc:23-34 (`return roc4` converts to `int`). -/
def kstStart (o : Nat → R) : M Int := toInt (o 3)

/-- `ROC(idx, period)`, kst.cc:67. -/
def kstRoc (xs : List R) (idx period : Int) : M R := do
  let a ← rd xs idx
  let b ← rd xs (idx - period)
  return (a - b) / b

/-- kst.cc:74-85: `_k` is brought up to bar `roc4`. -/
def kstWarm (xs : List R) (roc roc4 : Int) (per v : R) : M R := do
  let top ← i32 (roc4 + 1)
  forUp (roc + 1) (if top < xs.length then top else xs.length) v fun i v => do
    let r ← kstRoc xs i roc
    return (r - v) * per + v

/-- `2. / (ma + 1)`, `ma + 1` in `int`, kst.cc:61-64. -/
def kstPer (ma : Int) : M R := do
  let m ← i32 (ma + 1)
  return c! 2 / (m : R)

/-- `(_1 * 1. + _2 * 2. + _3 * 3. + _4 * 4.) / 10.` -/
def kstMix (a b c d : R) : R := (a * c! 1 + b * c! 2 + c * c! 3 + d * c! 4) / c! 10

/-- `ti_kst`, kst.cc:36-106. There is no test of `size`. The unused `max_ma` is left out. -/
def kstBatch (o : Nat → R) (xs : List R) : M (Ret × List (Kst R)) := do
  let roc1 ← toInt (o 0)
  let roc2 ← toInt (o 1)
  let roc3 ← toInt (o 2)
  let roc4 ← toInt (o 3)
  let ma1 ← toInt (o 4)
  let ma2 ← toInt (o 5)
  let ma3 ← toInt (o 6)
  let ma4 ← toInt (o 7)
  if ¬ (roc1 < roc2 ∧ roc2 < roc3 ∧ roc3 < roc4) then return (.invalidOption, [])
  if o 0 < c! 1 ∨ o 1 < c! 1 ∨ o 2 < c! 1 ∨ o 3 < c! 1 ∨ o 4 < c! 1 ∨ o 5 < c! 1 ∨ o 6 < c! 1 ∨ o 7 < c! 1 then
    return (.invalidOption, [])
  let per1 : R ← kstPer ma1
  let per2 : R ← kstPer ma2
  let per3 : R ← kstPer ma3
  let per4 : R ← kstPer ma4
  let per_signal : R := c! 2 / (c! 9 + c! 1)
  let cap := xs.length - (← kstStart o)
  let a ← kstRoc xs roc1 roc1
  let b ← kstRoc xs roc2 roc2
  let c ← kstRoc xs roc3 roc3
  let d ← kstRoc xs roc4 roc4
  let a ← kstWarm xs roc1 roc4 per1 a
  let b ← kstWarm xs roc2 roc4 per2 b
  let c ← kstWarm xs roc3 roc4 per3 c
  let d ← kstWarm xs roc4 roc4 per4 d
  let val := kstMix a b c d
  let out ← wr cap [] (⟨val, val⟩ : Kst R)
  let s ← forUp (roc4 + 1) xs.length ((a, b, c, d), val, out) fun i ((a, b, c, d), signal, out) => do
    let r1 ← kstRoc xs i roc1
    let a := (r1 - a) * per1 + a
    let r2 ← kstRoc xs i roc2
    let b := (r2 - b) * per2 + b
    let r3 ← kstRoc xs i roc3
    let c := (r3 - c) * per3 + c
    let r4 ← kstRoc xs i roc4
    let d := (r4 - d) * per4 + d
    let val := kstMix a b c d
    let signal := (val - signal) * per_signal + signal
    let out ← wr cap out ⟨val, signal⟩
    return ((a, b, c, d), signal, out)
  finish cap s.2.2

end Verif
