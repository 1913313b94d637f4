/-
Models of the exponential averages: ema, dema, tema, trix, zlema, wilders, apo, ppo, macd, rmta.
-/
import Verif.Core.Num

namespace Verif
variable {R : Type} [Num R]

/-- `2 / ((TI_REAL)period + 1)`, e.g. ema.cc:25. -/
def emaPer (period : Int) : R := c! 2 / ((period : R) + c! 1)

/-- `ti_ema_start`, ema.cc:11-14. -/
def emaStart (_ : Nat → R) : M Int := .ok 0

/-- `ti_ema`, ema.cc:17-39. -/
def emaBatch (o : Nat → R) (xs : List R) : M (Ret × List R) := do
  let period ← toInt (o 0)
  if period < 1 then return (.invalidOption, [])
  let start ← emaStart o
  if (xs.length : Int) ≤ start then return (.okay, [])
  let cap := xs.length - start
  let per : R := emaPer period
  let val ← rd xs 0
  let out ← wr cap [] val
  let s ← forUp 1 xs.length (val, out) fun i s => do
    let val := ((← rd xs i) - s.1) * per + s.1
    let out ← wr cap s.2 val
    return (val, out)
  finish cap s.2

/-- `ti_dema_start`, dema.cc:11-14. -/
def demaStart (o : Nat → R) : M Int := do i32 (((← toInt (o 0)) - 1) * 2)

/-- `ti_dema`, dema.cc:17-51. State: ema, ema2, outputs. -/
def demaBatch (o : Nat → R) (xs : List R) : M (Ret × List R) := do
  let period ← toInt (o 0)
  if period < 1 then return (.invalidOption, [])
  let start ← demaStart o
  if (xs.length : Int) ≤ start then return (.okay, [])
  let cap := xs.length - start
  let per : R := emaPer period
  let per1 : R := c! 1 - per
  let ema ← rd xs 0
  let ema2 := ema
  let s ← forUp 0 xs.length (ema, ema2, ([] : List R)) fun i (ema, ema2, out) => do
    let ema := ema * per1 + (← rd xs i) * per
    let ema2 := if i = period - 1 then ema else ema2
    if period - 1 ≤ i then
      let ema2 := ema2 * per1 + ema * per
      if (period - 1) * 2 ≤ i then
        let out ← wr cap out (ema * c! 2 - ema2)
        return (ema, ema2, out)
      else return (ema, ema2, out)
    else return (ema, ema2, out)
  finish cap s.2.2

/-- `ti_tema_start`, tema.cc:11-14. -/
def temaStart (o : Nat → R) : M Int := do i32 (((← toInt (o 0)) - 1) * 3)

/-- `ti_tema`, tema.cc:17-61. State: ema, ema2, ema3, outputs. -/
def temaBatch (o : Nat → R) (xs : List R) : M (Ret × List R) := do
  let period ← toInt (o 0)
  if period < 1 then return (.invalidOption, [])
  let start ← temaStart o
  if (xs.length : Int) ≤ start then return (.okay, [])
  let cap := xs.length - start
  let per : R := emaPer period
  let per1 : R := c! 1 - per
  let ema ← rd xs 0
  let s ← forUp 0 xs.length (ema, (c! 0 : R), (c! 0 : R), ([] : List R)) fun i (ema, ema2, ema3, out) => do
    let ema := ema * per1 + (← rd xs i) * per
    let ema2 := if i = period - 1 then ema else ema2
    if period - 1 ≤ i then
      let ema2 := ema2 * per1 + ema * per
      let ema3 := if i = (period - 1) * 2 then ema2 else ema3
      if (period - 1) * 2 ≤ i then
        let ema3 := ema3 * per1 + ema2 * per
        if (period - 1) * 3 ≤ i then
          let out ← wr cap out (c! 3 * ema - c! 3 * ema2 + ema3)
          return (ema, ema2, ema3, out)
        else return (ema, ema2, ema3, out)
      else return (ema, ema2, ema3, out)
    else return (ema, ema2, ema3, out)
  finish cap s.2.2.2

/-- `ti_trix_start`, trix.cc:11-14. -/
def trixStart (o : Nat → R) : M Int := do
  let a ← i32 (((← toInt (o 0)) - 1) * 3)
  i32 (a + 1)

/-- `ti_trix`, trix.cc:17-61. -/
def trixBatch (o : Nat → R) (xs : List R) : M (Ret × List R) := do
  let period ← toInt (o 0)
  if period < 1 then return (.invalidOption, [])
  let st ← trixStart o
  if (xs.length : Int) ≤ st then return (.okay, [])
  let start ← i32 ((← i32 (period * 3)) - 2)
  let _ ← asrt (start = st)
  let cap := xs.length - st
  let per : R := emaPer period
  let ema1 ← rd xs 0
  let (ema1, ema2, ema3) ← forUp 1 start (ema1, (c! 0 : R), (c! 0 : R)) fun i (ema1, ema2, ema3) => do
    let ema1 := ((← rd xs i) - ema1) * per + ema1
    if i = period - 1 then return (ema1, ema1, ema3)
    else if period - 1 < i then
      let ema2 := (ema1 - ema2) * per + ema2
      if i = period * 2 - 2 then return (ema1, ema2, ema2)
      else if period * 2 - 2 < i then return (ema1, ema2, (ema2 - ema3) * per + ema3)
      else return (ema1, ema2, ema3)
    else return (ema1, ema2, ema3)
  let s ← forUp start xs.length (ema1, ema2, ema3, ([] : List R)) fun i (ema1, ema2, ema3, out) => do
    let ema1 := ((← rd xs i) - ema1) * per + ema1
    let ema2 := (ema1 - ema2) * per + ema2
    let last := ema3
    let ema3 := (ema2 - ema3) * per + ema3
    let out ← wr cap out (if ema3 == c! 0 then c! 0 else (ema3 - last) / ema3 * c! 100)
    return (ema1, ema2, ema3, out)
  finish cap s.2.2.2

/-- `ti_zlema_start`, zlema.cc:11-13. -/
def zlemaStart (o : Nat → R) : M Int := do
  let a ← i32 ((← toInt (o 0)) - 1)
  i32 (Int.tdiv a 2 - 1)

/-- `ti_zlema`, zlema.cc:16-44. -/
def zlemaBatch (o : Nat → R) (xs : List R) : M (Ret × List R) := do
  let period ← toInt (o 0)
  let lag := Int.tdiv (← i32 (period - 1)) 2
  if period < 1 then return (.invalidOption, [])
  let start ← zlemaStart o
  if (xs.length : Int) ≤ start then return (.okay, [])
  let cap := xs.length - start
  let per : R := emaPer period
  let val ← rd xs (lag - 1)
  let out ← wr cap [] val
  let s ← forUp lag xs.length (val, out) fun i s => do
    let c ← rd xs i
    let l ← rd xs (i - lag)
    let val := ((c + (c - l)) - s.1) * per + s.1
    let out ← wr cap s.2 val
    return (val, out)
  finish cap s.2

/-- `ti_wilders_start`, wilders.cc:11-13. -/
def wildersStart (o : Nat → R) : M Int := do i32 ((← toInt (o 0)) - 1)

/-- `ti_wilders`, wilders.cc:16-45. -/
def wildersBatch (o : Nat → R) (xs : List R) : M (Ret × List R) := do
  let period ← toInt (o 0)
  if period < 1 then return (.invalidOption, [])
  let start ← wildersStart o
  if (xs.length : Int) ≤ start then return (.okay, [])
  let cap := xs.length - start
  let per : R := c! 1 / (period : R)
  let sum ← forUp 0 period (c! 0 : R) fun i sum => do return sum + (← rd xs i)
  let val := sum / (period : R)
  let out ← wr cap [] val
  let s ← forUp period xs.length (val, out) fun i s => do
    let val := ((← rd xs i) - s.1) * per + s.1
    let out ← wr cap s.2 val
    return (val, out)
  finish cap s.2

/-- `ti_apo_start`, apo.cc:11-14. -/
def apoStart (_ : Nat → R) : M Int := .ok 1

/-- `ti_apo`, apo.cc:17-48. -/
def apoBatch (o : Nat → R) (xs : List R) : M (Ret × List R) := do
  let short ← toInt (o 0)
  let long ← toInt (o 1)
  if short < 1 then return (.invalidOption, [])
  if long < 2 then return (.invalidOption, [])
  if long < short then return (.invalidOption, [])
  let start ← apoStart o
  if (xs.length : Int) ≤ start then return (.okay, [])
  let cap := xs.length - start
  let shortPer : R := emaPer short
  let longPer : R := emaPer long
  let x0 ← rd xs 0
  let s ← forUp 1 xs.length (x0, x0, ([] : List R)) fun i (se, le, out) => do
    let se := ((← rd xs i) - se) * shortPer + se
    let le := ((← rd xs i) - le) * longPer + le
    let out ← wr cap out (se - le)
    return (se, le, out)
  finish cap s.2.2

/-- `ti_ppo_start`, ppo.cc:11-14. -/
def ppoStart (_ : Nat → R) : M Int := .ok 1

/-- `ti_ppo`, ppo.cc:17-48. -/
def ppoBatch (o : Nat → R) (xs : List R) : M (Ret × List R) := do
  let short ← toInt (o 0)
  let long ← toInt (o 1)
  if short < 1 then return (.invalidOption, [])
  if long < 2 then return (.invalidOption, [])
  if long < short then return (.invalidOption, [])
  let start ← ppoStart o
  if (xs.length : Int) ≤ start then return (.okay, [])
  let cap := xs.length - start
  let shortPer : R := emaPer short
  let longPer : R := emaPer long
  let x0 ← rd xs 0
  let s ← forUp 1 xs.length (x0, x0, ([] : List R)) fun i (se, le, out) => do
    let se := ((← rd xs i) - se) * shortPer + se
    let le := ((← rd xs i) - le) * longPer + le
    let out ← wr cap out (if se - le == c! 0 then c! 0 else c! 100 * (se - le) / le)
    return (se, le, out)
  finish cap s.2.2

/-- Outputs of macd: macd, signal, histogram. -/
structure Macd (R : Type) where (macd signal hist : R) deriving DecidableEq, Inhabited

/-- `ti_macd_start`, macd.cc:11-15. -/
def macdStart (o : Nat → R) : M Int := do i32 ((← toInt (o 1)) - 1)

/-- `ti_macd`, macd.cc:18-74. The three output pointers advance together: one list of triples. -/
def macdBatch (o : Nat → R) (xs : List R) : M (Ret × List (Macd R)) := do
  let short ← toInt (o 0)
  let long ← toInt (o 1)
  let signal ← toInt (o 2)
  if short < 1 then return (.invalidOption, [])
  if long < 2 then return (.invalidOption, [])
  if long < short then return (.invalidOption, [])
  if signal < 1 then return (.invalidOption, [])
  let start ← macdStart o
  if (xs.length : Int) ≤ start then return (.okay, [])
  let cap := xs.length - start
  let special := short = 12 ∧ long = 26
  let shortPer : R := if special then c! 15 / c! 100 else emaPer short
  let longPer : R := if special then c! 75 / c! 1000 else emaPer long
  let signalPer : R := emaPer signal
  let x0 ← rd xs 0
  let s ← forUp 1 xs.length (x0, x0, (c! 0 : R), ([] : List (Macd R))) fun i (se, le, sg, out) => do
    let se := ((← rd xs i) - se) * shortPer + se
    let le := ((← rd xs i) - le) * longPer + le
    let v := se - le
    let sg := if i = long - 1 then v else sg
    if long - 1 ≤ i then
      let sg := (v - sg) * signalPer + sg
      let out ← wr cap out ⟨v, sg, v - sg⟩
      return (se, le, sg, out)
    else return (se, le, sg, out)
  finish cap s.2.2.2

/-- `ti_rmta_start`, rmta.cc:10-12. -/
def rmtaStart (o : Nat → R) : M Int := do i32 ((← toInt (o 0)) - 1)

/-- `ti_rmta`, rmta.cc:19-47. -/
def rmtaBatch (o : Nat → R) (xs : List R) : M (Ret × List R) := do
  let period ← toInt (o 0)
  let beta := o 1
  if period < 1 then return (.invalidOption, [])
  let start ← rmtaStart o
  if (xs.length : Int) ≤ start then return (.okay, [])
  let cap := xs.length - start
  let alpha : R := c! 1 - beta
  let x0 ← rd xs 0
  let b := (c! 1 - alpha) * x0 + x0
  let rmta := (c! 1 - alpha) * x0 + alpha * (x0 + b)
  let (b, rmta) ← forUp 1 (period - 1) (b, rmta) fun i (b, rmta) => do
    let nb := (c! 1 - alpha) * b + (← rd xs i)
    let rmta := (c! 1 - alpha) * rmta + alpha * ((← rd xs i) + nb - b)
    return (nb, rmta)
  let s ← forUp (period - 1) xs.length (b, rmta, ([] : List R)) fun i (b, rmta, out) => do
    let nb := (c! 1 - alpha) * b + (← rd xs i)
    let rmta := (c! 1 - alpha) * rmta + alpha * ((← rd xs i) + nb - b)
    let out ← wr cap out rmta
    return (nb, rmta, out)
  finish cap s.2.2

end Verif
