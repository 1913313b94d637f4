/- Models of tr, atr (batch, ref, stream), natr. -/
import Verif.Core.Stream
import Verif.Core.Rows
import Verif.Model.Ema

namespace Verif
variable {R : Type} [Num R]

/-- `CALC_TRUERANGE`, truerange.h:9-19 and atr.cc:123-130; `c` is the previous close. -/
def trueRange (h l c : R) : R :=
  let ych := CMath.fabs (h - c)
  let ycl := CMath.fabs (l - c)
  let v := h - l
  let v := if v < ych then ych else v
  let v := if v < ycl then ycl else v
  v

/-- `ti_tr_start`, tr.cc:15-18. -/
def trStart (_ : Nat → R) : M Int := .ok 0

/-- `ti_tr`, tr.cc:21-43. The first loop is `i < 1 && i < size`. -/
def trBatch (_ : Nat → R) (xs : List (HLC R)) : M (Ret × List R) := do
  let size : Int := xs.length
  let mid := min 1 size
  let out ← forUp 0 mid ([] : List R) fun i out => do
    let r ← rd xs i
    wr size out (r.high - r.low)
  let out ← forUp mid size out fun i out => do
    let r ← rd xs i
    let q ← rd xs (i - 1)
    wr size out (trueRange r.high r.low q.close)
  return (.okay, out)

/-- `ti_atr_start`, atr.cc:16-18. -/
def atrStart (o : Nat → R) : M Int := do i32 ((← toInt (o 0)) - 1)

/-- `ti_atr`, atr.cc:21-58. State: val, outputs. -/
def atrBatch (o : Nat → R) (xs : List (HLC R)) : M (Ret × List R) := do
  let period ← toInt (o 0)
  if period < 1 then return (.invalidOption, [])
  let start ← atrStart o
  if (xs.length : Int) ≤ start then return (.okay, [])
  let cap := xs.length - start
  let per : R := c! 1 / (period : R)
  let r0 ← rd xs 0
  let sum := (c! 0 : R) + (r0.high - r0.low)
  let sum ← forUp 1 period sum fun i sum => do
    let r ← rd xs i
    let q ← rd xs (i - 1)
    return sum + trueRange r.high r.low q.close
  let val := sum / (period : R)
  let out ← wr cap [] val
  let s ← forUp period xs.length (val, out) fun i (val, out) => do
    let r ← rd xs i
    let q ← rd xs (i - 1)
    let val := (trueRange r.high r.low q.close - val) * per + val
    let out ← wr cap out val
    return (val, out)
  finish cap s.2

/-- `ti_atr_ref`, atr.cc:61-89: `ti_wilders` of `ti_tr` (allocation assumed to succeed). -/
def atrRef (o : Nat → R) (xs : List (HLC R)) : M (Ret × List R) := do
  let t ← trBatch o xs
  if t.1 ≠ .okay then return t
  let w ← wildersBatch o t.2
  let s ← atrStart o
  let s' ← wildersStart o
  asrt (decide ((xs.length : Int) - s = xs.length - s'))
  return w

/-- Mutable members of `ti_atr_stream`, atr.cc:92-100. -/
structure AtrS (R : Type) where
  sum : R
  last : R
  lastClose : R

/-- `ti_atr_stream_new`, atr.cc:103-117 (value initialisation zeroes `last`, `last_close`). The constant is
`period`. -/
def atrNew (o : Nat → R) : M (NewRes Int (AtrS R)) := do
  let period ← toInt (o 0)
  if period < 1 then return .fail .invalidOption
  let start ← atrStart o
  return .made period (-start) ⟨c! 0, c! 0, c! 0⟩

/-- `ti_atr_stream_run`, atr.cc:119-182: first bar 145-150, warm-up loop 153-158, first output 160-164, steady
state 167-179. The first output is written after the warm-up loop, as soon as progress has become 1; here it is
part of the bar that makes it 1 (progress 0). `ptr->last` is kept up to date on every bar instead of once per
call. -/
def atrPhases (period : Int) : List (Phase (HLC R) (AtrS R) R) :=
  let per : R := c! 1 / (period : R)
  let emit := fun (p : Int) (s : AtrS R) =>
    if p + 1 = 1 then (({ s with last := s.sum * per }, [s.sum * per]) : AtrS R × List R) else (s, [])
  [ { cond := fun p => decide (p = -(period - 1))
      body := fun p r s => .ok (emit p { s with sum := r.high - r.low, lastClose := r.close }) },
    { cond := fun p => decide (p ≤ 0)
      body := fun p r s =>
        .ok (emit p { s with sum := s.sum + trueRange r.high r.low s.lastClose, lastClose := r.close }) },
    { cond := fun _ => true
      body := fun _ r s =>
        let val := (trueRange r.high r.low s.lastClose - s.last) * per + s.last
        .ok ({ s with last := val, lastClose := r.close }, [val]) } ]

def atr : Indicator R (HLC R) R where
  κ := Int
  σ := AtrS R
  start := atrStart
  batch := atrBatch
  new := atrNew
  phases := atrPhases

/-- `ti_natr_start`, natr.cc:14-16. -/
def natrStart (o : Nat → R) : M Int := do i32 ((← toInt (o 0)) - 1)

/-- `val ? 100 * (val) / close : 0`, natr.cc:46,51. -/
def natrOut (val close : R) : R := if val == c! 0 then c! 0 else c! 100 * val / close

/-- `ti_natr`, natr.cc:19-56. State: val, outputs. -/
def natrBatch (o : Nat → R) (xs : List (HLC R)) : M (Ret × List R) := do
  let period ← toInt (o 0)
  if period < 1 then return (.invalidOption, [])
  let start ← natrStart o
  if (xs.length : Int) ≤ start then return (.okay, [])
  let cap := xs.length - start
  let per : R := c! 1 / (period : R)
  let r0 ← rd xs 0
  let sum := (c! 0 : R) + (r0.high - r0.low)
  let sum ← forUp 1 period sum fun i sum => do
    let r ← rd xs i
    let q ← rd xs (i - 1)
    return sum + trueRange r.high r.low q.close
  let val := sum / (period : R)
  let rp ← rd xs (period - 1)
  let out ← wr cap [] (natrOut val rp.close)
  let s ← forUp period xs.length (val, out) fun i (val, out) => do
    let r ← rd xs i
    let q ← rd xs (i - 1)
    let val := (trueRange r.high r.low q.close - val) * per + val
    let out ← wr cap out (natrOut val r.close)
    return (val, out)
  finish cap s.2

end Verif
