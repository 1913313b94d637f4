/- Models of wma, vwma, rsi, cmo. -/
import Verif.Core.Num
import Verif.Core.Rows

namespace Verif
variable {R : Type} [Num R]

/-- `ti_wma_start`, wma.cc:11-13. -/
def wmaStart (o : Nat → R) : M Int := do i32 ((← toInt (o 0)) - 1)

/-- `ti_wma`, wma.cc:16-52. `period * (period+1)` is computed in `int`. State: weight_sum, sum, outputs. -/
def wmaBatch (o : Nat → R) (xs : List R) : M (Ret × List R) := do
  let period ← toInt (o 0)
  if period < 1 then return (.invalidOption, [])
  let start ← wmaStart o
  if (xs.length : Int) ≤ start then return (.okay, [])
  let cap := xs.length - start
  let weights : R := ((Int.tdiv (← i32 (period * (← i32 (period + 1)))) 2 : Int) : R)
  let s ← forUp 0 (period - 1) ((c! 0 : R), (c! 0 : R)) fun i (ws, sum) => do
    let x ← rd xs i
    return (ws + x * ((i + 1 : Int) : R), sum + x)
  let s ← forUp (period - 1) xs.length (s.1, s.2, ([] : List R)) fun i (ws, sum, out) => do
    let x ← rd xs i
    let ws := ws + x * (period : R)
    let sum := sum + x
    let out ← wr cap out (ws / weights)
    let ws := ws - sum
    let sum := sum - (← rd xs (i - period + 1))
    return (ws, sum, out)
  finish cap s.2.2

/-- `ti_vwma_start`, vwma.cc:11-13. -/
def vwmaStart (o : Nat → R) : M Int := do i32 ((← toInt (o 0)) - 1)

/-- `ti_vwma`, vwma.cc:16-49. Rows: `close` is `inputs[0]`, `volume` is `inputs[1]`. State: sum, vsum, outputs. -/
def vwmaBatch (o : Nat → R) (xs : List (CV R)) : M (Ret × List R) := do
  let period ← toInt (o 0)
  if period < 1 then return (.invalidOption, [])
  let start ← vwmaStart o
  if (xs.length : Int) ≤ start then return (.okay, [])
  let cap := xs.length - start
  let s ← forUp 0 period ((c! 0 : R), (c! 0 : R)) fun i (sum, vsum) => do
    let r ← rd xs i
    return (sum + r.close * r.volume, vsum + r.volume)
  let out ← wr cap [] (if s.1 == c! 0 then c! 0 else s.1 / s.2)
  let s ← forUp period xs.length (s.1, s.2, out) fun i (sum, vsum, out) => do
    let r ← rd xs i
    let q ← rd xs (i - period)
    let sum := sum + r.close * r.volume
    let sum := sum - q.close * q.volume
    let vsum := vsum + r.volume
    let vsum := vsum - q.volume
    let out ← wr cap out (if sum == c! 0 then c! 0 else sum / vsum)
    return (sum, vsum, out)
  finish cap s.2.2

/-- `input[i] > input[i-1] ? input[i] - input[i-1] : 0`, rsi.cc:28,39; cmo.cc:10. `b` is the previous value. -/
def upward (a b : R) : R := if b < a then a - b else c! 0
/-- `input[i] < input[i-1] ? input[i-1] - input[i] : 0`, rsi.cc:29,40; cmo.cc:11. -/
def downward (a b : R) : R := if a < b then b - a else c! 0

/-- `ti_rsi_start`, rsi.cc:11-13. -/
def rsiStart (o : Nat → R) : M Int := toInt (o 0)

/-- `smooth_up ? 100.0 * (smooth_up / (smooth_up + smooth_down)) : 0`, rsi.cc:36,45. -/
def rsiOut (up down : R) : R := if up == c! 0 then c! 0 else c! 100 * (up / (up + down))

/-- `ti_rsi`, rsi.cc:16-51. State: smooth_up, smooth_down, outputs. -/
def rsiBatch (o : Nat → R) (xs : List R) : M (Ret × List R) := do
  let period ← toInt (o 0)
  let per : R := c! 1 / (period : R)
  if period < 1 then return (.invalidOption, [])
  let start ← rsiStart o
  if (xs.length : Int) ≤ start then return (.okay, [])
  let cap := xs.length - start
  let s ← forUp 1 (period + 1) ((c! 0 : R), (c! 0 : R)) fun i (up, down) => do
    let a ← rd xs i
    let b ← rd xs (i - 1)
    return (up + upward a b, down + downward a b)
  let up := s.1 / (period : R)
  let down := s.2 / (period : R)
  let out ← wr cap [] (rsiOut up down)
  let s ← forUp (period + 1) xs.length (up, down, out) fun i (up, down, out) => do
    let a ← rd xs i
    let b ← rd xs (i - 1)
    let up := (upward a b - up) * per + up
    let down := (downward a b - down) * per + down
    let out ← wr cap out (rsiOut up down)
    return (up, down, out)
  finish cap s.2.2

/-- `ti_cmo_start`, cmo.cc:14-16. -/
def cmoStart (o : Nat → R) : M Int := toInt (o 0)

/-- `up_sum + down_sum ? 100 * (up_sum - down_sum) / (up_sum + down_sum) : 0`, cmo.cc:39. -/
def cmoOut (up down : R) : R := if up + down == c! 0 then c! 0 else c! 100 * (up - down) / (up + down)

/-- `ti_cmo`, cmo.cc:19-48. State: up_sum, down_sum, outputs. The first loop stops at
`i < period && i < size`. -/
def cmoBatch (o : Nat → R) (xs : List R) : M (Ret × List R) := do
  let period ← toInt (o 0)
  if period < 1 then return (.invalidOption, [])
  let start ← cmoStart o
  if (xs.length : Int) ≤ start then return (.okay, [])
  let cap := xs.length - start
  let mid := max 1 (min period xs.length)
  let s ← forUp 1 mid ((c! 0 : R), (c! 0 : R)) fun i (up, down) => do
    let a ← rd xs i
    let b ← rd xs (i - 1)
    return (up + upward a b, down + downward a b)
  let s ← forUp mid xs.length (s.1, s.2, ([] : List R)) fun i (up, down, out) => do
    let a ← rd xs i
    let b ← rd xs (i - 1)
    let up := up + upward a b
    let down := down + downward a b
    let out ← wr cap out (cmoOut up down)
    let a ← rd xs (i - period + 1)
    let b ← rd xs (i - period + 1 - 1)
    let up := up - upward a b
    let down := down - downward a b
    return (up, down, out)
  finish cap s.2.2

end Verif
