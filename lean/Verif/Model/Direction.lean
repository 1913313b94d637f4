/- Models of the directional movement family: dm, di, dx, adx, adxr. -/
import Verif.Core.Num
import Verif.Core.Rows
import Verif.Model.Range
import Verif.Model.TiBuf

namespace Verif
variable {R : Type} [Num R]

/-- `CALC_DIRECTION`, dx.h:22-35: (up, down), from the differences `up = high[i] - high[i-1]`,
`down = low[i-1] - low[i]`. -/
def calcDirection (up down : R) : R × R :=
  let s : R × R := if up < c! 0 then (c! 0, down) else if down < up then (up, c! 0) else (up, down)
  if s.2 < c! 0 then (s.1, c! 0) else if s.1 < s.2 then (c! 0, s.2) else s

/-- Two outputs written in lockstep. -/
structure PlusMinus (R : Type) where (plus minus : R) deriving DecidableEq, Inhabited

/-- `ti_dm_start` dm.cc:12-14, `ti_di_start` di.cc:14-16, `ti_dx_start` dx.cc:14-16. -/
def dmStart (o : Nat → R) : M Int := do i32 ((← toInt (o 0)) - 1)

/-- `per`, dm.cc:29, di.cc:32, dx.cc:30, adx.cc:29, adxr.cc:31. -/
def dmPer (period : Int) : R := ((period : R) - c! 1) / (period : R)

/-- `CALC_DIRECTION(dp, dm)` at bar `i`. -/
def rdDir (xs : List (HL R)) (i : Int) : M (R × R) := do
  let r ← rd xs i
  let q ← rd xs (i - 1)
  return calcDirection (r.high - q.high) (q.low - r.low)

/-- The first loop of dm.cc:35-41, dx.cc:36-43, adx.cc:37-43, adxr.cc:39-45. -/
def dmInit (xs : List (HL R)) (period : Int) : M (R × R) :=
  forUp 1 period ((c! 0 : R), (c! 0 : R)) fun i (up, down) => do
    let d ← rdDir xs i
    return (up + d.1, down + d.2)

/-- `ti_dm`, dm.cc:17-64. State: dmup, dmdown, outputs. -/
def dmBatch (o : Nat → R) (xs : List (HL R)) : M (Ret × List (PlusMinus R)) := do
  let period ← toInt (o 0)
  if period < 1 then return (.invalidOption, [])
  let start ← dmStart o
  if (xs.length : Int) ≤ start then return (.okay, [])
  let cap := xs.length - start
  let per : R := dmPer period
  let s ← dmInit xs period
  let out ← wr cap [] (⟨s.1, s.2⟩ : PlusMinus R)
  let s ← forUp period xs.length (s.1, s.2, out) fun i (up, down, out) => do
    let d ← rdDir xs i
    let up := up * per + d.1
    let down := down * per + d.2
    let out ← wr cap out ⟨up, down⟩
    return (up, down, out)
  finish cap s.2.2

/-- di.cc:53, 54, 70, 71. -/
def diOut (dm atr : R) : R := if dm == c! 0 then c! 0 else c! 100 * dm / atr

/-- `CALC_TRUERANGE` and `CALC_DIRECTION` at bar `i`, di.cc:40-45, 58-64. -/
def rdTrDir (xs : List (HLC R)) (i : Int) : M (R × R × R) := do
  let r ← rd xs i
  let q ← rd xs (i - 1)
  let d := calcDirection (r.high - q.high) (q.low - r.low)
  return (trueRange r.high r.low q.close, d.1, d.2)

/-- `ti_di`, di.cc:19-79. State: atr, dmup, dmdown, outputs. -/
def diBatch (o : Nat → R) (xs : List (HLC R)) : M (Ret × List (PlusMinus R)) := do
  let period ← toInt (o 0)
  if period < 1 then return (.invalidOption, [])
  let start ← dmStart o
  if (xs.length : Int) ≤ start then return (.okay, [])
  let cap := xs.length - start
  let per : R := dmPer period
  let mid := max 1 (min period xs.length)
  let s ← forUp 1 mid ((c! 0 : R), (c! 0 : R), (c! 0 : R)) fun i (atr, up, down) => do
    let d ← rdTrDir xs i
    return (atr + d.1, up + d.2.1, down + d.2.2)
  let out ← (if mid = period then wr cap [] (⟨diOut s.2.1 s.1, diOut s.2.2 s.1⟩ : PlusMinus R) else pure [])
  let s ← forUp period xs.length (s.1, s.2.1, s.2.2, out) fun i (atr, up, down, out) => do
    let d ← rdTrDir xs i
    let atr := atr * per + d.1
    let up := up * per + d.2.1
    let down := down * per + d.2.2
    let out ← wr cap out ⟨diOut up atr, diOut down atr⟩
    return (atr, up, down, out)
  finish cap s.2.2.2

/-- dx.cc:47-52, 68-73; adx.cc:48-53, 69-74; adxr.cc:50-55, 73-78. -/
def dxOut (up down : R) : R :=
  let diff := CMath.fabs (up - down)
  let sum := up + down
  let dx := diff / sum * c! 100
  if sum == c! 0 then c! 0 else dx

/-- `ti_dx`, dx.cc:19-82. -/
def dxBatch (o : Nat → R) (xs : List (HL R)) : M (Ret × List R) := do
  let period ← toInt (o 0)
  if period < 1 then return (.invalidOption, [])
  let start ← dmStart o
  if (xs.length : Int) ≤ start then return (.okay, [])
  let cap := xs.length - start
  let per : R := dmPer period
  let s ← dmInit xs period
  let out ← wr cap [] (dxOut s.1 s.2)
  let s ← forUp period xs.length (s.1, s.2, out) fun i (up, down, out) => do
    let d ← rdDir xs i
    let up := up * per + d.1
    let down := down * per + d.2
    let out ← wr cap out (dxOut up down)
    return (up, down, out)
  finish cap s.2.2

/-- `ti_adx_start`, adx.cc:13-15. -/
def adxStart (o : Nat → R) : M Int := do i32 ((← i32 ((← toInt (o 0)) - 1)) * 2)

/-- `ti_adx`, adx.cc:18-90. State: dmup, dmdown, adx, outputs. -/
def adxBatch (o : Nat → R) (xs : List (HL R)) : M (Ret × List R) := do
  let period ← toInt (o 0)
  if period < 2 then return (.invalidOption, [])
  let start ← adxStart o
  if (xs.length : Int) ≤ start then return (.okay, [])
  let cap := xs.length - start
  let per : R := dmPer period
  let invper : R := c! 1 / (period : R)
  let s ← dmInit xs period
  let adx : R := c! 0 + dxOut s.1 s.2
  let s ← forUp period xs.length (s.1, s.2, adx, ([] : List R)) fun i (up, down, adx, out) => do
    let d ← rdDir xs i
    let up := up * per + d.1
    let down := down * per + d.2
    let dx := dxOut up down
    if i - period < period - 2 then return (up, down, adx + dx, out)
    else if i - period = period - 2 then
      let adx := adx + dx
      let out ← wr cap out (adx * invper)
      return (up, down, adx, out)
    else
      let adx := adx * per + dx
      let out ← wr cap out (adx * invper)
      return (up, down, adx, out)
  finish cap s.2.2.2

/-- `ti_adxr_start`, adxr.cc:15-17. -/
def adxrStart (o : Nat → R) : M Int := do i32 ((← i32 ((← toInt (o 0)) - 1)) * 3)

/-- `ti_adxr`, adxr.cc:20-102. State: dmup, dmdown, adx, adxr buffer, outputs. -/
def adxrBatch (o : Nat → R) (xs : List (HL R)) : M (Ret × List R) := do
  let period ← toInt (o 0)
  if period < 2 then return (.invalidOption, [])
  let start ← adxrStart o
  if (xs.length : Int) ≤ start then return (.okay, [])
  let cap := xs.length - start
  let per : R := dmPer period
  let invper : R := c! 1 / (period : R)
  let s ← dmInit xs period
  let adx : R := c! 0 + dxOut s.1 s.2
  let first ← adxrStart o
  let s ← forUp period xs.length (s.1, s.2, adx, (TiBuf.new (period - 1) : TiBuf R), ([] : List R))
    fun i (up, down, adx, buf, out) => do
      let d ← rdDir xs i
      let up := up * per + d.1
      let down := down * per + d.2
      let dx := dxOut up down
      if i - period < period - 2 then return (up, down, adx + dx, buf, out)
      else if i - period = period - 2 then
        let adx := adx + dx
        let buf ← buf.qpush (adx * invper)
        return (up, down, adx, buf, out)
      else
        let adx := adx * per + dx
        let out ← (if first ≤ i then (do
            let old ← buf.get 1
            wr cap out (c! 1 / c! 2 * (adx * invper + old)))
          else pure out)
        let buf ← buf.qpush (adx * invper)
        return (up, down, adx, buf, out)
  finish cap s.2.2.2.2

end Verif
