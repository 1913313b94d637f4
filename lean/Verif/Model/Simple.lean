/-
Models of the element-wise indicators (`/repo/indicators/simple1.h`, `simple2.h` and their users) and of the
per-bar transforms avgprice, medprice, typprice, wcprice, bop, marketfi, emv, crossany, crossover, lag, mom, roc,
rocr, decay, edecay.
-/
import Verif.Core.Num
import Verif.Core.Rows

namespace Verif
variable {R : Type} [Num R]

/-- `START` of `SIMPLE1`/`SIMPLE2` (simple1.h:24-27, simple2.h:18-21) and every other `ti_xxx_start` that
returns 0. -/
def start0 (_ : Nat → R) : M Int := .ok 0

/-- `FUN` of `SIMPLE1`, simple1.h:30-41: `for (i = 0; i < size; ++i) output[i] = OP`. -/
def simple1 (op : R → M R) (_ : Nat → R) (in1 : List R) : M (Ret × List R) := do
  let out ← forUp 0 in1.length ([] : List R) fun i out => do
    wr in1.length out (← op (← rd in1 i))
  return (.okay, out)

/-- `FUN` of `SIMPLE2`, simple2.h:24-40. -/
def simple2 (op : R → R → R) (_ : Nat → R) (ins : List (AB R)) : M (Ret × List R) := do
  let out ← forUp 0 ins.length ([] : List R) fun i out => do
    wr ins.length out (op (← rd ins i).a (← rd ins i).b)
  return (.okay, out)

/-- simple1.h:19 -/
def mPi : R := c! 314159265358979323846 / c! 100000000000000000000

/-- abs.cc:14 -/ def absBatch := simple1 (R := R) fun x => .ok (CMath.fabs x)
/-- acos.cc:14 -/ def acosBatch := simple1 (R := R) fun x => .ok (CMath.acos x)
/-- asin.cc:14 -/ def asinBatch := simple1 (R := R) fun x => .ok (CMath.asin x)
/-- atan.cc:14 -/ def atanBatch := simple1 (R := R) fun x => .ok (CMath.atan x)
/-- ceil.cc:14 -/ def ceilBatch := simple1 (R := R) fun x => .ok (CMath.ceil x)
/-- cos.cc:14 -/ def cosBatch := simple1 (R := R) fun x => .ok (CMath.cos x)
/-- cosh.cc:14 -/ def coshBatch := simple1 (R := R) fun x => .ok (CMath.cosh x)
/-- exp.cc:14 -/ def expBatch := simple1 (R := R) fun x => .ok (CMath.exp x)
/-- floor.cc:14 -/ def floorBatch := simple1 (R := R) fun x => .ok (CMath.floor x)
/-- ln.cc:14 -/ def lnBatch := simple1 (R := R) fun x => .ok (CMath.log x)
/-- log10.cc:14 -/ def log10Batch := simple1 (R := R) fun x => .ok (CMath.log10 x)
/-- round.cc:14 -/ def roundBatch := simple1 (R := R) fun x => .ok (CMath.floor (x + c! 1 / c! 2))
/-- sin.cc:14 -/ def sinBatch := simple1 (R := R) fun x => .ok (CMath.sin x)
/-- sinh.cc:14 -/ def sinhBatch := simple1 (R := R) fun x => .ok (CMath.sinh x)
/-- sqrt.cc:14 -/ def sqrtBatch := simple1 (R := R) fun x => .ok (CMath.sqrt x)
/-- tan.cc:14 -/ def tanBatch := simple1 (R := R) fun x => .ok (CMath.tan x)
/-- tanh.cc:14 -/ def tanhBatch := simple1 (R := R) fun x => .ok (CMath.tanh x)
/-- todeg.cc:14 -/ def todegBatch := simple1 (R := R) fun x => .ok (x * (c! 180 / mPi))
/-- torad.cc:14 -/ def toradBatch := simple1 (R := R) fun x => .ok (x * (mPi / c! 180))
/-- trunc.cc:12: `(int)(in1[i])`, converted back to double. -/
def truncBatch := simple1 (R := R) fun x => do return (((← toInt x) : Int) : R)
/-- add.cc:12 -/ def addBatch := simple2 (R := R) fun a b => a + b
/-- sub.cc:12 -/ def subBatch := simple2 (R := R) fun a b => a - b
/-- mul.cc:12 -/ def mulBatch := simple2 (R := R) fun a b => a * b
/-- div.cc:12 -/ def divBatch := simple2 (R := R) fun a b => a / b

/-- `ti_avgprice`, avgprice.cc:17-33. -/
def avgpriceBatch (_ : Nat → R) (xs : List (OHLC R)) : M (Ret × List R) := do
  let out ← forUp 0 xs.length ([] : List R) fun i out => do
    let r ← rd xs i
    wr xs.length out ((r.open + r.high + r.low + r.close) * (c! 1 / c! 4))
  return (.okay, out)

/-- `ti_medprice`, medprice.cc:17-32. -/
def medpriceBatch (_ : Nat → R) (xs : List (HL R)) : M (Ret × List R) := do
  let out ← forUp 0 xs.length ([] : List R) fun i out => do
    let r ← rd xs i
    wr xs.length out ((r.high + r.low) * (c! 1 / c! 2))
  return (.okay, out)

/-- `ti_typprice`, typprice.cc:17-32. -/
def typpriceBatch (_ : Nat → R) (xs : List (HLC R)) : M (Ret × List R) := do
  let out ← forUp 0 xs.length ([] : List R) fun i out => do
    let r ← rd xs i
    wr xs.length out ((r.high + r.low + r.close) * (c! 1 / c! 3))
  return (.okay, out)

/-- `ti_wcprice`, wcprice.cc:17-32. -/
def wcpriceBatch (_ : Nat → R) (xs : List (HLC R)) : M (Ret × List R) := do
  let out ← forUp 0 xs.length ([] : List R) fun i out => do
    let r ← rd xs i
    wr xs.length out ((r.high + r.low + r.close + r.close) * (c! 1 / c! 4))
  return (.okay, out)

/-- `ti_bop`, bop.cc:17-37. -/
def bopBatch (_ : Nat → R) (xs : List (OHLC R)) : M (Ret × List R) := do
  let out ← forUp 0 xs.length ([] : List R) fun i out => do
    let r ← rd xs i
    let hl := r.high - r.low
    if hl ≤ c! 0 then wr xs.length out (c! 0) else wr xs.length out ((r.close - r.open) / hl)
  return (.okay, out)

/-- `ti_marketfi`, marketfi.cc:17-35. -/
def marketfiBatch (_ : Nat → R) (xs : List (HLV R)) : M (Ret × List R) := do
  if (xs.length : Int) ≤ 0 then return (.okay, [])
  let out ← forUp 0 xs.length ([] : List R) fun i out => do
    let r ← rd xs i
    wr xs.length out (if r.volume == c! 0 then c! 0 else (r.high - r.low) / r.volume)
  finish xs.length out

/-- `ti_emv_start`, emv.cc:11-14, `ti_crossany_start`, crossany.cc:11-14, `ti_crossover_start`,
crossover.cc:11-14. -/
def start1 (_ : Nat → R) : M Int := .ok 1

/-- `ti_emv`, emv.cc:17-41. -/
def emvBatch (_ : Nat → R) (xs : List (HLV R)) : M (Ret × List R) := do
  if (xs.length : Int) ≤ 1 then return (.okay, [])
  let r0 ← rd xs 0
  let last := (r0.high + r0.low) * (c! 1 / c! 2)
  let s ← forUp 1 xs.length (last, ([] : List R)) fun i s => do
    let r ← rd xs i
    let hl := (r.high + r.low) * (c! 1 / c! 2)
    let br := r.volume / c! 10000 / (r.high - r.low)
    let out ← wr (xs.length - 1) s.2 (if hl - s.1 == c! 0 then c! 0 else (hl - s.1) / br)
    return (hl, out)
  finish (xs.length - 1) s.2

/-- C++ `bool` converted to `TI_REAL`. -/
def ofBool (b : Bool) : R := if b then c! 1 else c! 0

/-- `ti_crossany`, crossany.cc:17-32. -/
def crossanyBatch (_ : Nat → R) (xs : List (AB R)) : M (Ret × List R) := do
  let out ← forUp 1 xs.length ([] : List R) fun i out => do
    let r ← rd xs i
    let q ← rd xs (i - 1)
    wr (xs.length - 1) out (ofBool
      ((decide (r.b < r.a) && decide (q.a ≤ q.b)) || (decide (r.a < r.b) && decide (q.b ≤ q.a))))
  return (.okay, out)

/-- `ti_crossover`, crossover.cc:17-31. -/
def crossoverBatch (_ : Nat → R) (xs : List (AB R)) : M (Ret × List R) := do
  let out ← forUp 1 xs.length ([] : List R) fun i out => do
    let r ← rd xs i
    let q ← rd xs (i - 1)
    wr (xs.length - 1) out (ofBool (decide (r.b < r.a) && decide (q.a ≤ q.b)))
  return (.okay, out)

/-- `ti_lag_start` lag.cc:11-13, `ti_mom_start` mom.cc:11-13, `ti_roc_start` roc.cc:11-13,
`ti_rocr_start` rocr.cc:11-13: `(int)options[0]`. -/
def startPeriod (o : Nat → R) : M Int := toInt (o 0)

/-- `ti_lag`, lag.cc:16-31. -/
def lagBatch (o : Nat → R) (xs : List R) : M (Ret × List R) := do
  let period ← toInt (o 0)
  if period < 0 then return (.invalidOption, [])
  let start ← startPeriod o
  if (xs.length : Int) ≤ start then return (.okay, [])
  let out ← forUp period xs.length ([] : List R) fun i out => do
    wr (xs.length - start) out (← rd xs (i - period))
  finish (xs.length - start) out

/-- `ti_mom`, mom.cc:16-32. -/
def momBatch (o : Nat → R) (xs : List R) : M (Ret × List R) := do
  let period ← toInt (o 0)
  if period < 1 then return (.invalidOption, [])
  let start ← startPeriod o
  if (xs.length : Int) ≤ start then return (.okay, [])
  let out ← forUp period xs.length ([] : List R) fun i out => do
    wr (xs.length - start) out ((← rd xs i) - (← rd xs (i - period)))
  finish (xs.length - start) out

/-- `ti_roc`, roc.cc:16-31. -/
def rocBatch (o : Nat → R) (xs : List R) : M (Ret × List R) := do
  let period ← toInt (o 0)
  if period < 1 then return (.invalidOption, [])
  let start ← startPeriod o
  if (xs.length : Int) ≤ start then return (.okay, [])
  let out ← forUp period xs.length ([] : List R) fun i out => do
    let old ← rd xs (i - period)
    let cur ← rd xs i
    wr (xs.length - start) out (if old == c! 0 then c! 0 else (cur - old) / old)
  finish (xs.length - start) out

/-- `ti_rocr`, rocr.cc:16-31. -/
def rocrBatch (o : Nat → R) (xs : List R) : M (Ret × List R) := do
  let period ← toInt (o 0)
  if period < 1 then return (.invalidOption, [])
  let start ← startPeriod o
  if (xs.length : Int) ≤ start then return (.okay, [])
  let out ← forUp period xs.length ([] : List R) fun i out => do
    let old ← rd xs (i - period)
    let cur ← rd xs i
    wr (xs.length - start) out (if old == c! 0 then c! 0 else cur / old)
  finish (xs.length - start) out

/-- `ti_decay`, decay.cc:17-33.  The loop `for (; i < 1 && i < size; …)` (24-26) runs `min 1 size` times;
`output[-1]` (28) is the value written last. Options are not validated. -/
def decayBatch (o : Nat → R) (xs : List R) : M (Ret × List R) := do
  let period ← toInt (o 0)
  let scale : R := c! 1 / (period : R)
  let out ← forUp 0 (min 1 xs.length) ([] : List R) fun _ out => do
    wr xs.length out (← rd xs 0)
  let out ← forUp (min 1 xs.length) xs.length out fun i out => do
    let d := (← rd out (out.length - 1)) - scale
    let v ← rd xs i
    wr xs.length out (if d < v then v else d)
  return (.okay, out)

/-- `ti_edecay`, edecay.cc:17-34. -/
def edecayBatch (o : Nat → R) (xs : List R) : M (Ret × List R) := do
  let period ← toInt (o 0)
  let scale : R := c! 1 - c! 1 / (period : R)
  let out ← forUp 0 (min 1 xs.length) ([] : List R) fun _ out => do
    wr xs.length out (← rd xs 0)
  let out ← forUp (min 1 xs.length) xs.length out fun i out => do
    let d := (← rd out (out.length - 1)) * scale
    let v ← rd xs i
    wr xs.length out (if d < v then v else d)
  return (.okay, out)

end Verif
