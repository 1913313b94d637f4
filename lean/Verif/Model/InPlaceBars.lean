/-
Batch calls of functions of several series whose output array is one of the input arrays: `mem xs out` is what the arrays hold after the values
`out` were written, `fun xs _ => xs` if the outputs go elsewhere and `overWith put` if they go over the column that `put` fills.
-/
import Verif.Model.InPlace
import Verif.Model.Volume

namespace Verif
variable {R : Type} [Num R]

/-- `ti_avgprice`, avgprice.cc:17-33, with the arrays as they are when the bar is read. -/
def avgpriceVia (mem : List (OHLC R) → List R → List (OHLC R)) (_ : Nat → R) (xs : List (OHLC R)) : M (Ret × List R) := do
  let out ← forUp 0 xs.length ([] : List R) fun i out => do
    let r ← rd (mem xs out) i
    wr xs.length out ((r.open + r.high + r.low + r.close) * (c! 1 / c! 4))
  return (.okay, out)

/-- `ti_medprice`, medprice.cc:17-32, with the arrays as they are when the bar is read. -/
def medpriceVia (mem : List (HL R) → List R → List (HL R)) (_ : Nat → R) (xs : List (HL R)) : M (Ret × List R) := do
  let out ← forUp 0 xs.length ([] : List R) fun i out => do
    let r ← rd (mem xs out) i
    wr xs.length out ((r.high + r.low) * (c! 1 / c! 2))
  return (.okay, out)

/-- `ti_typprice`, typprice.cc:17-32, with the arrays as they are when the bar is read. -/
def typpriceVia (mem : List (HLC R) → List R → List (HLC R)) (_ : Nat → R) (xs : List (HLC R)) : M (Ret × List R) := do
  let out ← forUp 0 xs.length ([] : List R) fun i out => do
    let r ← rd (mem xs out) i
    wr xs.length out ((r.high + r.low + r.close) * (c! 1 / c! 3))
  return (.okay, out)

/-- `ti_wcprice`, wcprice.cc:17-32, with the arrays as they are when the bar is read. -/
def wcpriceVia (mem : List (HLC R) → List R → List (HLC R)) (_ : Nat → R) (xs : List (HLC R)) : M (Ret × List R) := do
  let out ← forUp 0 xs.length ([] : List R) fun i out => do
    let r ← rd (mem xs out) i
    wr xs.length out ((r.high + r.low + r.close + r.close) * (c! 1 / c! 4))
  return (.okay, out)

/-- `ti_bop`, bop.cc:17-37, with the arrays as they are when the bar is read. -/
def bopVia (mem : List (OHLC R) → List R → List (OHLC R)) (_ : Nat → R) (xs : List (OHLC R)) : M (Ret × List R) := do
  let out ← forUp 0 xs.length ([] : List R) fun i out => do
    let r ← rd (mem xs out) i
    let hl := r.high - r.low
    if hl ≤ c! 0 then wr xs.length out (c! 0) else wr xs.length out ((r.close - r.open) / hl)
  return (.okay, out)

/-- `ti_marketfi`, marketfi.cc:17-35, with the arrays as they are when the bar is read. -/
def marketfiVia (mem : List (HLV R) → List R → List (HLV R)) (_ : Nat → R) (xs : List (HLV R)) : M (Ret × List R) := do
  if (xs.length : Int) ≤ 0 then return (.okay, [])
  let out ← forUp 0 xs.length ([] : List R) fun i out => do
    let r ← rd (mem xs out) i
    wr xs.length out (if r.volume == c! 0 then c! 0 else (r.high - r.low) / r.volume)
  finish xs.length out

/-- `ti_emv`, emv.cc:17-41, with the arrays as they are when the bar is read. -/
def emvVia (mem : List (HLV R) → List R → List (HLV R)) (_ : Nat → R) (xs : List (HLV R)) : M (Ret × List R) := do
  if (xs.length : Int) ≤ 1 then return (.okay, [])
  let r0 ← rd xs 0
  let last := (r0.high + r0.low) * (c! 1 / c! 2)
  let s ← forUp 1 xs.length (last, ([] : List R)) fun i s => do
    let r ← rd (mem xs s.2) i
    let hl := (r.high + r.low) * (c! 1 / c! 2)
    let br := r.volume / c! 10000 / (r.high - r.low)
    let out ← wr (xs.length - 1) s.2 (if hl - s.1 == c! 0 then c! 0 else (hl - s.1) / br)
    return (hl, out)
  finish (xs.length - 1) s.2

/-- `ti_crossany`, crossany.cc:17-32, with the arrays as they are when the bar is read. -/
def crossanyVia (mem : List (AB R) → List R → List (AB R)) (_ : Nat → R) (xs : List (AB R)) : M (Ret × List R) := do
  let out ← forUp 1 xs.length ([] : List R) fun i out => do
    let r ← rd (mem xs out) i
    let q ← rd (mem xs out) (i - 1)
    wr (xs.length - 1) out (ofBool
      ((decide (r.b < r.a) && decide (q.a ≤ q.b)) || (decide (r.a < r.b) && decide (q.b ≤ q.a))))
  return (.okay, out)

/-- `ti_crossover`, crossover.cc:17-31, with the arrays as they are when the bar is read. -/
def crossoverVia (mem : List (AB R) → List R → List (AB R)) (_ : Nat → R) (xs : List (AB R)) : M (Ret × List R) := do
  let out ← forUp 1 xs.length ([] : List R) fun i out => do
    let r ← rd (mem xs out) i
    let q ← rd (mem xs out) (i - 1)
    wr (xs.length - 1) out (ofBool (decide (r.b < r.a) && decide (q.a ≤ q.b)))
  return (.okay, out)

/-- `ti_tr`, tr.cc:21-43, with the arrays as they are when the bar is read. -/
def trVia (mem : List (HLC R) → List R → List (HLC R)) (_ : Nat → R) (xs : List (HLC R)) : M (Ret × List R) := do
  let size : Int := xs.length
  let mid := min 1 size
  let out ← forUp 0 mid ([] : List R) fun i out => do
    let r ← rd (mem xs out) i
    wr size out (r.high - r.low)
  let out ← forUp mid size out fun i out => do
    let r ← rd (mem xs out) i
    let q ← rd (mem xs out) (i - 1)
    wr size out (trueRange r.high r.low q.close)
  return (.okay, out)

/-- `ti_atr`, atr.cc:21-58, with the arrays as they are when the bar is read. -/
def atrVia (mem : List (HLC R) → List R → List (HLC R)) (o : Nat → R) (xs : List (HLC R)) : M (Ret × List R) := do
  let period ← toInt (o 0)
  if period < 1 then return (.invalidOption, [])
  let start ← atrStart o
  if (xs.length : Int) ≤ start then return (.okay, [])
  let cap := xs.length - start
  let per : R := c! 1 / (period : R)
  let r0 ← rd xs 0
  let sum := (c! 0 : R) + (r0.high - r0.low)
  let sum ← forUp 1 period sum fun i sum => do
    let r ← rd xs i
    let q ← rd xs (i - 1)
    return sum + trueRange r.high r.low q.close
  let val := sum / (period : R)
  let out ← wr cap [] val
  let s ← forUp period xs.length (val, out) fun i (val, out) => do
    let r ← rd (mem xs out) i
    let q ← rd (mem xs out) (i - 1)
    let val := (trueRange r.high r.low q.close - val) * per + val
    let out ← wr cap out val
    return (val, out)
  finish cap s.2

/-- `ti_natr`, natr.cc:19-56, with the arrays as they are when the bar is read. -/
def natrVia (mem : List (HLC R) → List R → List (HLC R)) (o : Nat → R) (xs : List (HLC R)) : M (Ret × List R) := do
  let period ← toInt (o 0)
  if period < 1 then return (.invalidOption, [])
  let start ← natrStart o
  if (xs.length : Int) ≤ start then return (.okay, [])
  let cap := xs.length - start
  let per : R := c! 1 / (period : R)
  let r0 ← rd xs 0
  let sum := (c! 0 : R) + (r0.high - r0.low)
  let sum ← forUp 1 period sum fun i sum => do
    let r ← rd xs i
    let q ← rd xs (i - 1)
    return sum + trueRange r.high r.low q.close
  let val := sum / (period : R)
  let rp ← rd xs (period - 1)
  let out ← wr cap [] (natrOut val rp.close)
  let s ← forUp period xs.length (val, out) fun i (val, out) => do
    let r ← rd (mem xs out) i
    let q ← rd (mem xs out) (i - 1)
    let val := (trueRange r.high r.low q.close - val) * per + val
    let out ← wr cap out (natrOut val r.close)
    return (val, out)
  finish cap s.2

/-- `ti_ad`, ad.cc:17-37, with the arrays as they are when the bar is read. -/
def adVia (mem : List (HLCV R) → List R → List (HLCV R)) (_ : Nat → R) (xs : List (HLCV R)) : M (Ret × List R) := do
  let size : Int := xs.length
  let s ← forUp 0 size ((c! 0 : R), ([] : List R)) fun i (sum, out) => do
    let r ← rd (mem xs out) i
    let sum := adStep sum r
    let out ← wr size out sum
    return (sum, out)
  return (.okay, s.2)

/-- `ti_obv`, obv.cc:17-47, with the arrays as they are when the bar is read. -/
def obvVia (mem : List (CV R) → List R → List (CV R)) (_ : Nat → R) (xs : List (CV R)) : M (Ret × List R) := do
  let size : Int := xs.length
  let mid := min 1 size
  let s ← forUp 0 mid ((none : Option R), ([] : List R)) fun i (_, out) => do
    let r ← rd (mem xs out) i
    let out ← wr size out (c! 0)
    return (some r.close, out)
  let s ← forUp mid size (s.1, (c! 0 : R), s.2) fun i (prev, sum, out) => do
    let r ← rd (mem xs out) i
    let p ← getVar prev
    let sum := obvStep sum p r.close r.volume
    let out ← wr size out sum
    return (some r.close, sum, out)
  return (.okay, s.2.2)

/-- `ti_wad`, wad.cc:18-51, with the arrays as they are when the bar is read. -/
def wadVia (mem : List (HLC R) → List R → List (HLC R)) (o : Nat → R) (xs : List (HLC R)) : M (Ret × List R) := do
  let start ← wadStart o
  if (xs.length : Int) ≤ start then return (.okay, [])
  let cap := xs.length - start
  let r0 ← rd xs 0
  let s ← forUp 1 xs.length ((c! 0 : R), r0.close, ([] : List R)) fun i (sum, yc, out) => do
    let r ← rd (mem xs out) i
    let sum := wadStep sum yc r
    let out ← wr cap out sum
    return (sum, r.close, out)
  finish cap s.2.2

/-- `ti_adosc`, adosc.cc:16-59, with the arrays as they are when the bar is read. -/
def adoscVia (mem : List (HLCV R) → List R → List (HLCV R)) (o : Nat → R) (xs : List (HLCV R)) : M (Ret × List R) := do
  let short ← toInt (o 0)
  let long ← toInt (o 1)
  let start ← i32 (long - 1)
  if short < 1 then return (.invalidOption, [])
  if long < short then return (.invalidOption, [])
  let start' ← adoscStart o
  if (xs.length : Int) ≤ start' then return (.okay, [])
  let cap := xs.length - start'
  let shortPer : R := emaPer short
  let longPer : R := emaPer long
  let s ← forUp 0 xs.length ((c! 0 : R), (c! 0 : R), (c! 0 : R), ([] : List R)) fun i (sum, se, le, out) => do
    let r ← rd (mem xs out) i
    let sum := adStep sum r
    let se := if i = 0 then sum else (sum - se) * shortPer + se
    let le := if i = 0 then sum else (sum - le) * longPer + le
    if start ≤ i then
      let out ← wr cap out (se - le)
      return (sum, se, le, out)
    else return (sum, se, le, out)
  finish cap s.2.2.2

/-- `ti_nvi`, nvi.cc:17-41, with the arrays as they are when the bar is read. -/
def nviVia (mem : List (CV R) → List R → List (CV R)) (o : Nat → R) (xs : List (CV R)) : M (Ret × List R) := do
  let start ← obvStart o
  if (xs.length : Int) ≤ start then return (.okay, [])
  let cap := xs.length - start
  let nvi : R := c! 1000
  let out ← wr cap [] nvi
  let s ← forUp 1 xs.length (nvi, out) fun i (nvi, out) => do
    let a ← rd (mem xs out) i
    let b ← rd (mem xs out) (i - 1)
    let nvi := if a.volume < b.volume then nvi + (a.close - b.close) / b.close * nvi else nvi
    let out ← wr cap out nvi
    return (nvi, out)
  finish cap s.2

/-- `ti_pvi`, pvi.cc:18-42, with the arrays as they are when the bar is read. -/
def pviVia (mem : List (CV R) → List R → List (CV R)) (o : Nat → R) (xs : List (CV R)) : M (Ret × List R) := do
  let start ← obvStart o
  if (xs.length : Int) ≤ start then return (.okay, [])
  let cap := xs.length - start
  let pvi : R := c! 1000
  let out ← wr cap [] pvi
  let s ← forUp 1 xs.length (pvi, out) fun i (pvi, out) => do
    let a ← rd (mem xs out) i
    let b ← rd (mem xs out) (i - 1)
    let pvi := if b.volume < a.volume ∧ c! 0 < b.volume then pvi + (a.close - b.close) / b.close * pvi else pvi
    let out ← wr cap out pvi
    return (pvi, out)
  finish cap s.2

end Verif
