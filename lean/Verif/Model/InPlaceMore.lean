/-
Batch functions whose output array may be the input array. `view xs out` is the series as the function sees it once it has written `out`:
`xs` itself if the outputs go elsewhere, `over xs out` if they go over the input. `Props/InPlaceMore` checks that with the first view these are the
batch functions. Reads before the first output do not need a view.
-/
import Verif.Model.InPlace
import Verif.Model.Adaptive
import Verif.Model.Osc
import Verif.Model.Stats
import Verif.Model.Weighted
import Verif.Model.Window
import Verif.Model.Volume

namespace Verif
variable {R : Type} [Num R]

/-- `ti_sma`, sma.cc:19-45, reading the series through `view`. -/
def smaVia (view : List R → List R → List R) (o : Nat → R) (xs : List R) : M (Ret × List R) := do
  let period ← toInt (o 0)
  let scale : R := c! 1 / (period : R)
  if period < 1 then return (.invalidOption, [])
  let start ← smaStart o
  if (xs.length : Int) ≤ start then return (.okay, [])
  let cap := xs.length - start
  let sum ← forUp 0 period (c! 0 : R) fun i sum => do
    return sum + (← rd xs i)
  let out ← wr cap [] (sum * scale)
  let s ← forUp period xs.length (sum, out) fun i s => do
    let sum := s.1 + (← rd (view xs s.2) i)
    let sum := sum - (← rd (view xs s.2) (i - period))
    let out ← wr cap s.2 (sum * scale)
    return (sum, out)
  finish cap s.2

/-- `ti_wilders`, wilders.cc:16-45, reading the series through `view`. -/
def wildersVia (view : List R → List R → List R) (o : Nat → R) (xs : List R) : M (Ret × List R) := do
  let period ← toInt (o 0)
  if period < 1 then return (.invalidOption, [])
  let start ← wildersStart o
  if (xs.length : Int) ≤ start then return (.okay, [])
  let cap := xs.length - start
  let per : R := c! 1 / (period : R)
  let sum ← forUp 0 period (c! 0 : R) fun i sum => do return sum + (← rd xs i)
  let val := sum / (period : R)
  let out ← wr cap [] val
  let s ← forUp period xs.length (val, out) fun i s => do
    let val := ((← rd (view xs s.2) i) - s.1) * per + s.1
    let out ← wr cap s.2 val
    return (val, out)
  finish cap s.2

/-- `ti_dema`, dema.cc:17-51, reading the series through `view`. -/
def demaVia (view : List R → List R → List R) (o : Nat → R) (xs : List R) : M (Ret × List R) := do
  let period ← toInt (o 0)
  if period < 1 then return (.invalidOption, [])
  let start ← demaStart o
  if (xs.length : Int) ≤ start then return (.okay, [])
  let cap := xs.length - start
  let per : R := emaPer period
  let per1 : R := c! 1 - per
  let ema ← rd xs 0
  let ema2 := ema
  let s ← forUp 0 xs.length (ema, ema2, ([] : List R)) fun i (ema, ema2, out) => do
    let ema := ema * per1 + (← rd (view xs out) i) * per
    let ema2 := if i = period - 1 then ema else ema2
    if period - 1 ≤ i then
      let ema2 := ema2 * per1 + ema * per
      if (period - 1) * 2 ≤ i then
        let out ← wr cap out (ema * c! 2 - ema2)
        return (ema, ema2, out)
      else return (ema, ema2, out)
    else return (ema, ema2, out)
  finish cap s.2.2

/-- `ti_tema`, tema.cc:17-61, reading the series through `view`. -/
def temaVia (view : List R → List R → List R) (o : Nat → R) (xs : List R) : M (Ret × List R) := do
  let period ← toInt (o 0)
  if period < 1 then return (.invalidOption, [])
  let start ← temaStart o
  if (xs.length : Int) ≤ start then return (.okay, [])
  let cap := xs.length - start
  let per : R := emaPer period
  let per1 : R := c! 1 - per
  let ema ← rd xs 0
  let s ← forUp 0 xs.length (ema, (c! 0 : R), (c! 0 : R), ([] : List R)) fun i (ema, ema2, ema3, out) => do
    let ema := ema * per1 + (← rd (view xs out) i) * per
    let ema2 := if i = period - 1 then ema else ema2
    if period - 1 ≤ i then
      let ema2 := ema2 * per1 + ema * per
      let ema3 := if i = (period - 1) * 2 then ema2 else ema3
      if (period - 1) * 2 ≤ i then
        let ema3 := ema3 * per1 + ema2 * per
        if (period - 1) * 3 ≤ i then
          let out ← wr cap out (c! 3 * ema - c! 3 * ema2 + ema3)
          return (ema, ema2, ema3, out)
        else return (ema, ema2, ema3, out)
      else return (ema, ema2, ema3, out)
    else return (ema, ema2, ema3, out)
  finish cap s.2.2.2

/-- `ti_trix`, trix.cc:17-61, reading the series through `view`. -/
def trixVia (view : List R → List R → List R) (o : Nat → R) (xs : List R) : M (Ret × List R) := do
  let period ← toInt (o 0)
  if period < 1 then return (.invalidOption, [])
  let st ← trixStart o
  if (xs.length : Int) ≤ st then return (.okay, [])
  let start ← i32 ((← i32 (period * 3)) - 2)
  let _ ← asrt (start = st)
  let cap := xs.length - st
  let per : R := emaPer period
  let ema1 ← rd xs 0
  let (ema1, ema2, ema3) ← forUp 1 start (ema1, (c! 0 : R), (c! 0 : R)) fun i (ema1, ema2, ema3) => do
    let ema1 := ((← rd xs i) - ema1) * per + ema1
    if i = period - 1 then return (ema1, ema1, ema3)
    else if period - 1 < i then
      let ema2 := (ema1 - ema2) * per + ema2
      if i = period * 2 - 2 then return (ema1, ema2, ema2)
      else if period * 2 - 2 < i then return (ema1, ema2, (ema2 - ema3) * per + ema3)
      else return (ema1, ema2, ema3)
    else return (ema1, ema2, ema3)
  let s ← forUp start xs.length (ema1, ema2, ema3, ([] : List R)) fun i (ema1, ema2, ema3, out) => do
    let ema1 := ((← rd (view xs out) i) - ema1) * per + ema1
    let ema2 := (ema1 - ema2) * per + ema2
    let last := ema3
    let ema3 := (ema2 - ema3) * per + ema3
    let out ← wr cap out (if ema3 == c! 0 then c! 0 else (ema3 - last) / ema3 * c! 100)
    return (ema1, ema2, ema3, out)
  finish cap s.2.2.2

/-- `ti_apo`, apo.cc:17-48, reading the series through `view`. -/
def apoVia (view : List R → List R → List R) (o : Nat → R) (xs : List R) : M (Ret × List R) := do
  let short ← toInt (o 0)
  let long ← toInt (o 1)
  if short < 1 then return (.invalidOption, [])
  if long < 2 then return (.invalidOption, [])
  if long < short then return (.invalidOption, [])
  let start ← apoStart o
  if (xs.length : Int) ≤ start then return (.okay, [])
  let cap := xs.length - start
  let shortPer : R := emaPer short
  let longPer : R := emaPer long
  let x0 ← rd xs 0
  let s ← forUp 1 xs.length (x0, x0, ([] : List R)) fun i (se, le, out) => do
    let se := ((← rd (view xs out) i) - se) * shortPer + se
    let le := ((← rd (view xs out) i) - le) * longPer + le
    let out ← wr cap out (se - le)
    return (se, le, out)
  finish cap s.2.2

/-- `ti_ppo`, ppo.cc:17-48, reading the series through `view`. -/
def ppoVia (view : List R → List R → List R) (o : Nat → R) (xs : List R) : M (Ret × List R) := do
  let short ← toInt (o 0)
  let long ← toInt (o 1)
  if short < 1 then return (.invalidOption, [])
  if long < 2 then return (.invalidOption, [])
  if long < short then return (.invalidOption, [])
  let start ← ppoStart o
  if (xs.length : Int) ≤ start then return (.okay, [])
  let cap := xs.length - start
  let shortPer : R := emaPer short
  let longPer : R := emaPer long
  let x0 ← rd xs 0
  let s ← forUp 1 xs.length (x0, x0, ([] : List R)) fun i (se, le, out) => do
    let se := ((← rd (view xs out) i) - se) * shortPer + se
    let le := ((← rd (view xs out) i) - le) * longPer + le
    let out ← wr cap out (if se - le == c! 0 then c! 0 else c! 100 * (se - le) / le)
    return (se, le, out)
  finish cap s.2.2

/-- `ti_macd`, macd.cc:18-74, reading the series through `view`. -/
def macdVia (view : List R → List (Macd R) → List R) (o : Nat → R) (xs : List R) : M (Ret × List (Macd R)) := do
  let short ← toInt (o 0)
  let long ← toInt (o 1)
  let signal ← toInt (o 2)
  if short < 1 then return (.invalidOption, [])
  if long < 2 then return (.invalidOption, [])
  if long < short then return (.invalidOption, [])
  if signal < 1 then return (.invalidOption, [])
  let start ← macdStart o
  if (xs.length : Int) ≤ start then return (.okay, [])
  let cap := xs.length - start
  let special := short = 12 ∧ long = 26
  let shortPer : R := if special then c! 15 / c! 100 else emaPer short
  let longPer : R := if special then c! 75 / c! 1000 else emaPer long
  let signalPer : R := emaPer signal
  let x0 ← rd xs 0
  let s ← forUp 1 xs.length (x0, x0, (c! 0 : R), ([] : List (Macd R))) fun i (se, le, sg, out) => do
    let se := ((← rd (view xs out) i) - se) * shortPer + se
    let le := ((← rd (view xs out) i) - le) * longPer + le
    let v := se - le
    let sg := if i = long - 1 then v else sg
    if long - 1 ≤ i then
      let sg := (v - sg) * signalPer + sg
      let out ← wr cap out ⟨v, sg, v - sg⟩
      return (se, le, sg, out)
    else return (se, le, sg, out)
  finish cap s.2.2.2

/-- `ti_rmta`, rmta.cc:19-47, reading the series through `view`. -/
def rmtaVia (view : List R → List R → List R) (o : Nat → R) (xs : List R) : M (Ret × List R) := do
  let period ← toInt (o 0)
  let beta := o 1
  if period < 1 then return (.invalidOption, [])
  let start ← rmtaStart o
  if (xs.length : Int) ≤ start then return (.okay, [])
  let cap := xs.length - start
  let alpha : R := c! 1 - beta
  let x0 ← rd xs 0
  let b := (c! 1 - alpha) * x0 + x0
  let rmta := (c! 1 - alpha) * x0 + alpha * (x0 + b)
  let (b, rmta) ← forUp 1 (period - 1) (b, rmta) fun i (b, rmta) => do
    let nb := (c! 1 - alpha) * b + (← rd xs i)
    let rmta := (c! 1 - alpha) * rmta + alpha * ((← rd xs i) + nb - b)
    return (nb, rmta)
  let s ← forUp (period - 1) xs.length (b, rmta, ([] : List R)) fun i (b, rmta, out) => do
    let nb := (c! 1 - alpha) * b + (← rd (view xs out) i)
    let rmta := (c! 1 - alpha) * rmta + alpha * ((← rd (view xs out) i) + nb - b)
    let out ← wr cap out rmta
    return (nb, rmta, out)
  finish cap s.2.2

/-- `ti_min`, min.cc:16-51, reading the series through `view`. -/
def minVia (view : List R → List R → List R) (o : Nat → R) (xs : List R) : M (Ret × List R) := do
  let period ← toInt (o 0)
  if period < 1 then return (.invalidOption, [])
  let start ← minStart o
  if (xs.length : Int) ≤ start then return (.okay, [])
  let cap := xs.length - start
  let m0 ← rd xs 0
  let s ← forUp (period - 1) xs.length ((0 : Int), (-1 : Int), m0, ([] : List R)) fun i (trail, mini, min, out) => do
    let (mini, min) ← track repMin (rd (view xs out)) trail i (mini, min)
    let out ← wr cap out min
    return (trail + 1, mini, min, out)
  finish cap s.2.2.2

/-- `ti_roc`, roc.cc:16-31, reading the series through `view`. -/
def rocVia (view : List R → List R → List R) (o : Nat → R) (xs : List R) : M (Ret × List R) := do
  let period ← toInt (o 0)
  if period < 1 then return (.invalidOption, [])
  let start ← startPeriod o
  if (xs.length : Int) ≤ start then return (.okay, [])
  let out ← forUp period xs.length ([] : List R) fun i out => do
    let old ← rd (view xs out) (i - period)
    let cur ← rd (view xs out) i
    wr (xs.length - start) out (if old == c! 0 then c! 0 else (cur - old) / old)
  finish (xs.length - start) out

/-- `ti_rocr`, rocr.cc:16-31, reading the series through `view`. -/
def rocrVia (view : List R → List R → List R) (o : Nat → R) (xs : List R) : M (Ret × List R) := do
  let period ← toInt (o 0)
  if period < 1 then return (.invalidOption, [])
  let start ← startPeriod o
  if (xs.length : Int) ≤ start then return (.okay, [])
  let out ← forUp period xs.length ([] : List R) fun i out => do
    let old ← rd (view xs out) (i - period)
    let cur ← rd (view xs out) i
    wr (xs.length - start) out (if old == c! 0 then c! 0 else cur / old)
  finish (xs.length - start) out

/-- `ti_lag`, lag.cc:16-31, reading the series through `view`. -/
def lagVia (view : List R → List R → List R) (o : Nat → R) (xs : List R) : M (Ret × List R) := do
  let period ← toInt (o 0)
  if period < 0 then return (.invalidOption, [])
  let start ← startPeriod o
  if (xs.length : Int) ≤ start then return (.okay, [])
  let out ← forUp period xs.length ([] : List R) fun i out => do
    wr (xs.length - start) out (← rd (view xs out) (i - period))
  finish (xs.length - start) out

/-- `ti_decay`, decay.cc:17-33, reading the series through `view`. -/
def decayVia (view : List R → List R → List R) (o : Nat → R) (xs : List R) : M (Ret × List R) := do
  let period ← toInt (o 0)
  let scale : R := c! 1 / (period : R)
  let out ← forUp 0 (min 1 xs.length) ([] : List R) fun _ out => do
    wr xs.length out (← rd (view xs out) 0)
  let out ← forUp (min 1 xs.length) xs.length out fun i out => do
    let d := (← rd out (out.length - 1)) - scale
    let v ← rd (view xs out) i
    wr xs.length out (if d < v then v else d)
  return (.okay, out)

/-- `ti_edecay`, edecay.cc:17-34, reading the series through `view`. -/
def edecayVia (view : List R → List R → List R) (o : Nat → R) (xs : List R) : M (Ret × List R) := do
  let period ← toInt (o 0)
  let scale : R := c! 1 - c! 1 / (period : R)
  let out ← forUp 0 (min 1 xs.length) ([] : List R) fun _ out => do
    wr xs.length out (← rd (view xs out) 0)
  let out ← forUp (min 1 xs.length) xs.length out fun i out => do
    let d := (← rd out (out.length - 1)) * scale
    let v ← rd (view xs out) i
    wr xs.length out (if d < v then v else d)
  return (.okay, out)

/-- `ti_rsi`, rsi.cc:16-51, reading the series through `view`. -/
def rsiVia (view : List R → List R → List R) (o : Nat → R) (xs : List R) : M (Ret × List R) := do
  let period ← toInt (o 0)
  let per : R := c! 1 / (period : R)
  if period < 1 then return (.invalidOption, [])
  let start ← rsiStart o
  if (xs.length : Int) ≤ start then return (.okay, [])
  let cap := xs.length - start
  let s ← forUp 1 (period + 1) ((c! 0 : R), (c! 0 : R)) fun i (up, down) => do
    let a ← rd xs i
    let b ← rd xs (i - 1)
    return (up + upward a b, down + downward a b)
  let up := s.1 / (period : R)
  let down := s.2 / (period : R)
  let out ← wr cap [] (rsiOut up down)
  let s ← forUp (period + 1) xs.length (up, down, out) fun i (up, down, out) => do
    let a ← rd (view xs out) i
    let b ← rd (view xs out) (i - 1)
    let up := (upward a b - up) * per + up
    let down := (downward a b - down) * per + down
    let out ← wr cap out (rsiOut up down)
    return (up, down, out)
  finish cap s.2.2

/-- `ti_stochrsi`, stochrsi.cc:17-102, reading the series through `view`. -/
def stochrsiVia (view : List R → List R → List R) (o : Nat → R) (xs : List R) : M (Ret × List R) := do
  let period ← toInt (o 0)
  let per : R := c! 1 / (period : R)
  if period < 2 then return (.invalidOption, [])
  let start ← stochrsiStart o
  if (xs.length : Int) ≤ start then return (.okay, [])
  let cap := xs.length - start
  let s ← forUp 1 (period + 1) ((c! 0 : R), (c! 0 : R)) fun i (up, down) => do
    let a ← rd xs i
    let b ← rd xs (i - 1)
    return (up + upward a b, down + downward a b)
  let up := s.1 / (period : R)
  let down := s.2 / (period : R)
  let r := rsiOut up down
  let buf ← (TiBuf.new period).push r
  let s ← forUp (period + 1) xs.length (up, down, ((0 : Int), r), ((0 : Int), r), buf, ([] : List R))
    fun i (up, down, mx, mn, buf, out) => do
      let a ← rd (view xs out) i
      let b ← rd (view xs out) (i - 1)
      let up := (upward a b - up) * per + up
      let down := (downward a b - down) * per + down
      let r := rsiOut up down
      let mx ← ringTrack (fun a b => decide (b < a)) buf r mx
      let mn ← ringTrack (fun a b => decide (a < b)) buf r mn
      let buf ← buf.qpush r
      if period * 2 - 2 < i then
        let diff := mx.2 - mn.2
        let out ← wr cap out (if diff == c! 0 then c! 0 else (r - mn.2) / diff)
        return (up, down, mx, mn, buf, out)
      else return (up, down, mx, mn, buf, out)
  finish cap s.2.2.2.2.2

/-- `ti_msw`, msw.cc:17-60, reading the series through `view`. -/
def mswVia (view : List R → List (Msw R) → List R) (o : Nat → R) (xs : List R) : M (Ret × List (Msw R)) := do
  let period ← toInt (o 0)
  if period < 1 then return (.invalidOption, [])
  let start ← mswStart o
  if (xs.length : Int) ≤ start then return (.okay, [])
  let cap := xs.length - start
  let out ← forUp period xs.length ([] : List (Msw R)) fun i out => do
    let s ← forUp 0 period ((c! 0 : R), (c! 0 : R)) fun j (rp, ip) => do
      let weight ← rd (view xs out) (i - j)
      return (rp + CMath.cos (mswTpi * (j : R) / (period : R)) * weight,
        ip + CMath.sin (mswTpi * (j : R) / (period : R)) * weight)
    wr cap out (mswOut s.1 s.2)
  finish cap out

/-- `ti_sum`, sum.cc:16-41, reading the series through `view`. -/
def sumVia (view : List R → List R → List R) (o : Nat → R) (xs : List R) : M (Ret × List R) := do
  let period ← toInt (o 0)
  if period < 1 then return (.invalidOption, [])
  let start ← sumStart o
  if (xs.length : Int) ≤ start then return (.okay, [])
  let cap := xs.length - start
  let sum ← forUp 0 period (c! 0 : R) fun i sum => do
    return sum + (← rd xs i)
  let out ← wr cap [] sum
  let s ← forUp period xs.length (sum, out) fun i s => do
    let sum := s.1 + (← rd (view xs s.2) i)
    let sum := sum - (← rd (view xs s.2) (i - period))
    let out ← wr cap s.2 sum
    return (sum, out)
  finish cap s.2

/-- `ti_zlema`, zlema.cc:16-44, reading the series through `view`. -/
def zlemaVia (view : List R → List R → List R) (o : Nat → R) (xs : List R) : M (Ret × List R) := do
  let period ← toInt (o 0)
  let lag := Int.tdiv (← i32 (period - 1)) 2
  if period < 1 then return (.invalidOption, [])
  let start ← zlemaStart o
  if (xs.length : Int) ≤ start then return (.okay, [])
  let cap := xs.length - start
  let per : R := emaPer period
  let val ← rd xs (lag - 1)
  let out ← wr cap [] val
  let s ← forUp lag xs.length (val, out) fun i s => do
    let c ← rd (view xs s.2) i
    let l ← rd (view xs s.2) (i - lag)
    let val := ((c + (c - l)) - s.1) * per + s.1
    let out ← wr cap s.2 val
    return (val, out)
  finish cap s.2

/-- `ti_vhf`, vhf.cc:18-94, reading the series through `view`. -/
def vhfVia (view : List R → List R → List R) (o : Nat → R) (xs : List R) : M (Ret × List R) := do
  let period ← toInt (o 0)
  if period < 1 then return (.invalidOption, [])
  let start ← vhfStart o
  if (xs.length : Int) ≤ start then return (.okay, [])
  let cap := xs.length - start
  let m0 ← rd xs 0
  let s ← forUp 1 period ((c! 0 : R), m0) fun i (sum, yc) => do
    let c ← rd xs i
    return (sum + CMath.fabs (c - yc), c)
  let s ← forUp period xs.length ((1 : Int), ((-1 : Int), m0), ((-1 : Int), m0), s.1, s.2, ([] : List R))
    fun i (trail, mx, mn, sum, yc, out) => do
      let c ← rd (view xs out) i
      let sum := sum + CMath.fabs (c - yc)
      let yc := c
      let sum ← (if period < i then (do
          let a ← rd (view xs out) (i - period)
          let b ← rd (view xs out) (i - period - 1)
          pure (sum - CMath.fabs (a - b)))
        else pure sum)
      let mx ← track repMax (rd (view xs out)) trail i mx
      let mn ← track repMin (rd (view xs out)) trail i mn
      let out ← wr cap out (vhfOut mx.2 mn.2 sum)
      return (trail + 1, mx, mn, sum, yc, out)
  finish cap s.2.2.2.2.2

/-- `ti_var`, var.cc:18-51, reading the series through `view`. -/
def varVia (view : List R → List R → List R) (o : Nat → R) (xs : List R) : M (Ret × List R) := do
  let period ← toInt (o 0)
  let scale : R := c! 1 / (period : R)
  if period < 1 then return (.invalidOption, [])
  let start ← varStart o
  if (xs.length : Int) ≤ start then return (.okay, [])
  let cap := xs.length - start
  let s ← momInit (rd xs) 0 period
  let out ← wr cap [] (momVar scale s)
  let s ← forUp period xs.length (s, out) fun i (s, out) => do
    let s ← momStep (rd (view xs out)) period i s
    let out ← wr cap out (momVar scale s)
    return (s, out)
  finish cap s.2

/-- `ti_stddev`, stddev.cc:18-56, reading the series through `view`. -/
def stddevVia (view : List R → List R → List R) (o : Nat → R) (xs : List R) : M (Ret × List R) := do
  let period ← toInt (o 0)
  let scale : R := c! 1 / (period : R)
  if period < 1 then return (.invalidOption, [])
  let start ← varStart o
  if (xs.length : Int) ≤ start then return (.okay, [])
  let cap := xs.length - start
  let s ← momInit (rd xs) 0 period
  let out ← wr cap [] (momSd scale s)
  let s ← forUp period xs.length (s, out) fun i (s, out) => do
    let s ← momStep (rd (view xs out)) period i s
    let out ← wr cap out (momSd scale s)
    return (s, out)
  finish cap s.2

/-- `ti_md`, md.cc:17-51, reading the series through `view`. -/
def mdVia (view : List R → List R → List R) (o : Nat → R) (xs : List R) : M (Ret × List R) := do
  let period ← toInt (o 0)
  let scale : R := c! 1 / (period : R)
  if period < 1 then return (.invalidOption, [])
  let start ← varStart o
  if (xs.length : Int) ≤ start then return (.okay, [])
  let cap := xs.length - start
  let s ← forUp 0 xs.length ((c! 0 : R), ([] : List R)) fun i (sum, out) => do
    let today ← rd (view xs out) i
    let sum := sum + today
    let sum ← (if period ≤ i then (do
        let old ← rd (view xs out) (i - period)
        pure (sum - old))
      else pure sum)
    let avg := sum * scale
    if period - 1 ≤ i then
      let acc ← forUp 0 period (c! 0 : R) fun j acc => do
        let v ← rd (view xs out) (i - j)
        return acc + CMath.fabs (avg - v)
      let out ← wr cap out (acc * scale)
      return (sum, out)
    else return (sum, out)
  finish cap s.2

/-- `ti_wma`, wma.cc:16-52, reading the series through `view`. -/
def wmaVia (view : List R → List R → List R) (o : Nat → R) (xs : List R) : M (Ret × List R) := do
  let period ← toInt (o 0)
  if period < 1 then return (.invalidOption, [])
  let start ← wmaStart o
  if (xs.length : Int) ≤ start then return (.okay, [])
  let cap := xs.length - start
  let weights : R := ((Int.tdiv (← i32 (period * (← i32 (period + 1)))) 2 : Int) : R)
  let s ← forUp 0 (period - 1) ((c! 0 : R), (c! 0 : R)) fun i (ws, sum) => do
    let x ← rd xs i
    return (ws + x * ((i + 1 : Int) : R), sum + x)
  let s ← forUp (period - 1) xs.length (s.1, s.2, ([] : List R)) fun i (ws, sum, out) => do
    let x ← rd (view xs out) i
    let ws := ws + x * (period : R)
    let sum := sum + x
    let out ← wr cap out (ws / weights)
    let ws := ws - sum
    let sum := sum - (← rd (view xs out) (i - period + 1))
    return (ws, sum, out)
  finish cap s.2.2

/-- `ti_cmo`, cmo.cc:19-48, reading the series through `view`. -/
def cmoVia (view : List R → List R → List R) (o : Nat → R) (xs : List R) : M (Ret × List R) := do
  let period ← toInt (o 0)
  if period < 1 then return (.invalidOption, [])
  let start ← cmoStart o
  if (xs.length : Int) ≤ start then return (.okay, [])
  let cap := xs.length - start
  let mid := max 1 (min period xs.length)
  let s ← forUp 1 mid ((c! 0 : R), (c! 0 : R)) fun i (up, down) => do
    let a ← rd xs i
    let b ← rd xs (i - 1)
    return (up + upward a b, down + downward a b)
  let s ← forUp mid xs.length (s.1, s.2, ([] : List R)) fun i (up, down, out) => do
    let a ← rd (view xs out) i
    let b ← rd (view xs out) (i - 1)
    let up := up + upward a b
    let down := down + downward a b
    let out ← wr cap out (cmoOut up down)
    let a ← rd (view xs out) (i - period + 1)
    let b ← rd (view xs out) (i - period + 1 - 1)
    let up := up - upward a b
    let down := down - downward a b
    return (up, down, out)
  finish cap s.2.2

/-- `ti_kama`, kama.cc:17-61, reading the series through `view`. -/
def kamaVia (view : List R → List R → List R) (o : Nat → R) (xs : List R) : M (Ret × List R) := do
  let period ← toInt (o 0)
  if period < 1 then return (.invalidOption, [])
  let start ← kamaStart o
  if (xs.length : Int) ≤ start then return (.okay, [])
  let cap := xs.length - start
  let short_per : R := c! 2 / (c! 2 + c! 1)
  let long_per : R := c! 2 / (c! 30 + c! 1)
  let sum ← forUp 1 period (c! 0 : R) fun i sum => do
    let a ← rd xs i
    let b ← rd xs (i - 1)
    return sum + CMath.fabs (a - b)
  let kama ← rd xs (period - 1)
  let out ← wr cap [] kama
  let s ← forUp period xs.length (sum, kama, out) fun i (sum, kama, out) => do
    let a ← rd (view xs out) i
    let b ← rd (view xs out) (i - 1)
    let sum := sum + CMath.fabs (a - b)
    let sum ← (if period < i then (do
      let c ← rd (view xs out) (i - period)
      let d ← rd (view xs out) (i - period - 1)
      return sum - CMath.fabs (c - d)) else pure sum)
    let er ← (if sum == c! 0 then pure (c! 1) else (do
      let c ← rd (view xs out) (i - period)
      return CMath.fabs (a - c) / sum))
    let sc := CMath.pow (er * (short_per - long_per) + long_per) (c! 2)
    let kama := kama + sc * (a - kama)
    let out ← wr cap out kama
    return (sum, kama, out)
  finish cap s.2.2

/-- `ti_vidya`, vidya.cc:18-94, reading the series through `view`. -/
def vidyaVia (view : List R → List R → List R) (o : Nat → R) (xs : List R) : M (Ret × List R) := do
  let short_period ← toInt (o 0)
  let long_period ← toInt (o 1)
  let alpha := o 2
  let short_div : R := c! 1 / (short_period : R)
  let long_div : R := c! 1 / (long_period : R)
  if short_period < 1 then return (.invalidOption, [])
  if long_period < short_period then return (.invalidOption, [])
  if long_period < 2 then return (.invalidOption, [])
  if alpha < c! 0 ∨ c! 1 < alpha then return (.invalidOption, [])
  let start ← vidyaStart o
  if (xs.length : Int) ≤ start then return (.okay, [])
  let cap := xs.length - start
  let z : R := c! 0
  let s ← forUp 0 long_period ((z, z), (z, z)) fun i (ss, ls) => do
    let v ← rd xs i
    let ls := (ls.1 + v, ls.2 + v * v)
    let ss := if long_period - short_period ≤ i then (ss.1 + v, ss.2 + v * v) else ss
    return (ss, ls)
  let val ← rd xs (long_period - 2)
  let out ← wr cap [] val
  let r ← (if long_period - 1 < xs.length then (do
      let v ← rd (view xs out) (long_period - 1)
      let val := vidyaNext short_div long_div alpha s.1 s.2 v val
      let out ← wr cap out val
      return (val, out)) else pure (val, out))
  let s ← forUp long_period xs.length (s, r) fun i ((ss, ls), (val, out)) => do
    let v ← rd (view xs out) i
    let ls := (ls.1 + v, ls.2 + v * v)
    let ss := (ss.1 + v, ss.2 + v * v)
    let w ← rd (view xs out) (i - long_period)
    let ls := (ls.1 - w, ls.2 - w * w)
    let u ← rd (view xs out) (i - short_period)
    let ss := (ss.1 - u, ss.2 - u * u)
    let val := vidyaNext short_div long_div alpha ss ls v val
    let out ← wr cap out val
    return ((ss, ls), (val, out))
  finish cap s.2.2

/-- `ti_trima`, trima.cc:16-88, reading the series through `view`. -/
def trimaVia (view : List R → List R → List R) (o : Nat → R) (xs : List R) : M (Ret × List R) := do
  let period ← toInt (o 0)
  if period < 1 then return (.invalidOption, [])
  let start ← trimaStart o
  if (xs.length : Int) ≤ start then return (.okay, [])
  if period ≤ 2 then smaVia view o xs else
  let half := Int.tdiv period 2
  let odd := Int.tmod period 2 ≠ 0
  let wn ← i32 (if odd then (half + 1) * (half + 1) else (half + 1) * half)
  let weights : R := c! 1 / (wn : R)
  let lead_period := if odd then half else half - 1
  let trail_period := lead_period + 1
  let cap := xs.length - start
  let s ← forUp 0 (period - 1) ((c! 0 : R), (c! 0 : R), (c! 0 : R), (1 : Int)) fun i (weight_sum, lead_sum, trail_sum, w) => do
    let v ← rd xs i
    let weight_sum := weight_sum + v * (w : R)
    let lead_sum := if period - lead_period < i + 1 then lead_sum + v else lead_sum
    let trail_sum := if i + 1 ≤ trail_period then trail_sum + v else trail_sum
    let w := if i + 1 < trail_period then w + 1 else w
    let w := if period - lead_period ≤ i + 1 then w - 1 else w
    return (weight_sum, lead_sum, trail_sum, w)
  let lsi := period - 1 - lead_period + 1
  let tsi1 := period - 1 - period + 1 + trail_period
  let tsi2 := period - 1 - period + 1
  let s ← forUp (period - 1) xs.length (s.1, s.2.1, s.2.2.1, lsi, tsi1, tsi2, [])
    fun i (weight_sum, lead_sum, trail_sum, lsi, tsi1, tsi2, out) => do
      let v ← rd (view xs out) i
      let weight_sum := weight_sum + v
      let out ← wr cap out (weight_sum * weights)
      let lead_sum := lead_sum + v
      let weight_sum := weight_sum + lead_sum
      let weight_sum := weight_sum - trail_sum
      let a ← rd (view xs out) lsi
      let b ← rd (view xs out) tsi1
      let c ← rd (view xs out) tsi2
      return (weight_sum, lead_sum - a, trail_sum + b - c, lsi + 1, tsi1 + 1, tsi2 + 1, out)
  finish cap s.2.2.2.2.2.2

/-- `ti_dpo`, dpo.cc:16-45, reading the series through `view`. -/
def dpoVia (view : List R → List R → List R) (o : Nat → R) (xs : List R) : M (Ret × List R) := do
  let period ← toInt (o 0)
  let back ← i32 (Int.tdiv period 2 + 1)
  let scale : R := c! 1 / (period : R)
  if period < 1 then return (.invalidOption, [])
  let start ← qstickStart o
  if (xs.length : Int) ≤ start then return (.okay, [])
  let cap := xs.length - start
  let sum ← forUp 0 period (c! 0 : R) fun i sum => do return sum + (← rd xs i)
  let v ← rd xs (period - 1 - back)
  let out ← wr cap [] (v - sum * scale)
  let s ← forUp period xs.length (sum, out) fun i (sum, out) => do
    let a ← rd (view xs out) i
    let b ← rd (view xs out) (i - period)
    let sum := sum + a - b
    let v ← rd (view xs out) (i - back)
    let out ← wr cap out (v - sum * scale)
    return (sum, out)
  finish cap s.2

end Verif
