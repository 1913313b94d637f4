/- Models of the dispersion indicators: var, stddev, stderr, bbands, volatility, md. -/
import Verif.Core.Num
import Verif.Core.Rows

namespace Verif
variable {R : Type} [Num R]

/-- `ti_var_start` var.cc:13-15, `ti_stddev_start` stddev.cc:13-15, `ti_stderr_start` stderr.cc:13-15,
`ti_bbands_start` bbands.cc:11-13, `ti_md_start` md.cc:12-14. -/
def varStart (o : Nat → R) : M Int := do i32 ((← toInt (o 0)) - 1)

/-- The loop that fills `sum` and `sum2`: var.cc:32-35, stddev.cc:31-34, stderr.cc:33-36, bbands.cc:34-37,
volatility.cc:35-39. `get i` is `input[i]` or `CHANGE(i)`. -/
def momInit (get : Int → M R) (lo hi : Int) : M (R × R) :=
  forUp lo hi ((c! 0 : R), (c! 0 : R)) fun i (sum, sum2) => do
    let v ← get i
    return (sum + v, sum2 + v * v)

/-- The update of `sum` and `sum2`: var.cc:40-44, stddev.cc:43-47, stderr.cc:45-49, bbands.cc:46-50,
volatility.cc:44-50. -/
def momStep (get : Int → M R) (period i : Int) (s : R × R) : M (R × R) := do
  let v ← get i
  let sum := s.1 + v
  let sum2 := s.2 + v * v
  let w ← get (i - period)
  return (sum - w, sum2 - w * w)

/-- `sum2 * scale - (sum * scale) * (sum * scale)` -/
def momVar (scale : R) (s : R × R) : R := s.2 * scale - (s.1 * scale) * (s.1 * scale)

/-- `ti_var`, var.cc:18-51. -/
def varBatch (o : Nat → R) (xs : List R) : M (Ret × List R) := do
  let period ← toInt (o 0)
  let scale : R := c! 1 / (period : R)
  if period < 1 then return (.invalidOption, [])
  let start ← varStart o
  if (xs.length : Int) ≤ start then return (.okay, [])
  let cap := xs.length - start
  let s ← momInit (rd xs) 0 period
  let out ← wr cap [] (momVar scale s)
  let s ← forUp period xs.length (s, out) fun i (s, out) => do
    let s ← momStep (rd xs) period i s
    let out ← wr cap out (momVar scale s)
    return (s, out)
  finish cap s.2

/-- stddev.cc:37-38, 49-50; stderr.cc:39-40, 51-52. -/
def momSd (scale : R) (s : R × R) : R :=
  let s2s2 := momVar scale s
  if c! 0 < s2s2 then CMath.sqrt s2s2 else s2s2

/-- `ti_stddev`, stddev.cc:18-56. -/
def stddevBatch (o : Nat → R) (xs : List R) : M (Ret × List R) := do
  let period ← toInt (o 0)
  let scale : R := c! 1 / (period : R)
  if period < 1 then return (.invalidOption, [])
  let start ← varStart o
  if (xs.length : Int) ≤ start then return (.okay, [])
  let cap := xs.length - start
  let s ← momInit (rd xs) 0 period
  let out ← wr cap [] (momSd scale s)
  let s ← forUp period xs.length (s, out) fun i (s, out) => do
    let s ← momStep (rd xs) period i s
    let out ← wr cap out (momSd scale s)
    return (s, out)
  finish cap s.2

/-- `ti_stderr`, stderr.cc:18-58. -/
def stderrBatch (o : Nat → R) (xs : List R) : M (Ret × List R) := do
  let period ← toInt (o 0)
  let scale : R := c! 1 / (period : R)
  if period < 1 then return (.invalidOption, [])
  let start ← varStart o
  if (xs.length : Int) ≤ start then return (.okay, [])
  let cap := xs.length - start
  let mul : R := c! 1 / CMath.sqrt (period : R)
  let s ← momInit (rd xs) 0 period
  let out ← wr cap [] (mul * momSd scale s)
  let s ← forUp period xs.length (s, out) fun i (s, out) => do
    let s ← momStep (rd xs) period i s
    let out ← wr cap out (mul * momSd scale s)
    return (s, out)
  finish cap s.2

/-- Three outputs written in lockstep: lower, middle, upper. -/
structure Bands (R : Type) where (lower middle upper : R) deriving DecidableEq, Inhabited

/-- bbands.cc:39-42, 52-55. -/
def bbandsOut (k scale : R) (s : R × R) : Bands R :=
  let sd := CMath.sqrt (momVar scale s)
  let middle := s.1 * scale
  ⟨middle - k * sd, middle, middle + k * sd⟩

/-- `ti_bbands`, bbands.cc:16-63. -/
def bbandsBatch (o : Nat → R) (xs : List R) : M (Ret × List (Bands R)) := do
  let period ← toInt (o 0)
  let k := o 1
  let scale : R := c! 1 / (period : R)
  if period < 1 then return (.invalidOption, [])
  let start ← varStart o
  if (xs.length : Int) ≤ start then return (.okay, [])
  let cap := xs.length - start
  let s ← momInit (rd xs) 0 period
  let out ← wr cap [] (bbandsOut k scale s)
  let s ← forUp period xs.length (s, out) fun i (s, out) => do
    let s ← momStep (rd xs) period i s
    let out ← wr cap out (bbandsOut k scale s)
    return (s, out)
  finish cap s.2

/-- `CHANGE(i)`, volatility.cc:12. -/
def rdChange (xs : List R) (i : Int) : M R := do
  let p ← rd xs (i - 1)
  if p == c! 0 then return c! 0
  else
    let v ← rd xs i
    return v / p - c! 1

/-- `ti_volatility_start`, volatility.cc:16-18. -/
def volatilityStart (o : Nat → R) : M Int := toInt (o 0)

/-- `ti_volatility`, volatility.cc:21-58. -/
def volatilityBatch (o : Nat → R) (xs : List R) : M (Ret × List R) := do
  let period ← toInt (o 0)
  let scale : R := c! 1 / (period : R)
  let annual : R := CMath.sqrt (c! 252)
  if period < 1 then return (.invalidOption, [])
  let start ← volatilityStart o
  if (xs.length : Int) ≤ start then return (.okay, [])
  let cap := xs.length - start
  let s ← momInit (rdChange xs) 1 (period + 1)
  let out ← wr cap [] (CMath.sqrt (momVar scale s) * annual)
  let s ← forUp (period + 1) xs.length (s, out) fun i (s, out) => do
    let s ← momStep (rdChange xs) period i s
    let out ← wr cap out (CMath.sqrt (momVar scale s) * annual)
    return (s, out)
  finish cap s.2

/-- `ti_md`, md.cc:17-51. State: sum, outputs. -/
def mdBatch (o : Nat → R) (xs : List R) : M (Ret × List R) := do
  let period ← toInt (o 0)
  let scale : R := c! 1 / (period : R)
  if period < 1 then return (.invalidOption, [])
  let start ← varStart o
  if (xs.length : Int) ≤ start then return (.okay, [])
  let cap := xs.length - start
  let s ← forUp 0 xs.length ((c! 0 : R), ([] : List R)) fun i (sum, out) => do
    let today ← rd xs i
    let sum := sum + today
    let sum ← (if period ≤ i then (do
        let old ← rd xs (i - period)
        pure (sum - old))
      else pure sum)
    let avg := sum * scale
    if period - 1 ≤ i then
      let acc ← forUp 0 period (c! 0 : R) fun j acc => do
        let v ← rd xs (i - j)
        return acc + CMath.fabs (avg - v)
      let out ← wr cap out (acc * scale)
      return (sum, out)
    else return (sum, out)
  finish cap s.2

end Verif
