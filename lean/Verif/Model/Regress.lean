/-
Model of `/repo/indicators/rvi.cc`, `pbands.cc` and `posc.cc`: batch, reference and stream implementations.  Memory is
assumed available throughout.
-/
import Verif.Core.LoopBatch
import Verif.Core.Exact
import Verif.Core.Rows
import Verif.Model.Ring
import Verif.Model.Flow
import Verif.Model.Trend
import Verif.Model.Average

namespace Verif
variable {R : Type} [Num R]

/-- `x_sum` and `xsq_sum` from an `int` period, rvi.cc:30-31, pbands.cc:30-31, posc.cc:36-37: the products are `int`s. -/
def regConst (period : Int) : M (R × R) := do
  let q ← i32 (period + 1)
  let pq ← i32 (period * q)
  let t ← i32 (2 * period)
  let r ← i32 (t + 1)
  let pr ← i32 (pq * r)
  return ((pq : R) / c! 2, (pr : R) / c! 6)

/-- The same from a real period, rvi.cc:109-110, pbands.cc:147-148, posc.cc:171-172. -/
def regConstR (v : R) : R × R :=
  (v * (v + c! 1) / c! 2, v * (v + c! 1) * (c! 2 * v + c! 1) / c! 6)

/-- `b`, rvi.cc:46, pbands.cc:48, posc.cc:48 and 70. -/
def regSlope (n : R) (k : R × R) (xy y : R) : R :=
  (xy / n - k.1 / n * y / n) / (k.2 / n - (k.1 / n) * (k.1 / n))

/-- `xy_sum` and `y_sum`. -/
structure RegS (R : Type) where (xy y : R)

/-! ### rvi -/

/-- `ti_rvi_start`, rvi.cc:12-16. -/
def rviStart (o : Nat → R) : M Int := toInt (o 1 - c! 1)

/-- `gains_ema` and `losses_ema`. -/
structure RviE (R : Type) where (gains losses : R)

/-- The body of rvi.cc:41-60 (155-176) up to `*rvi++`: the averages after it and the value written. `ema_period + 1` is an
`int` sum. -/
def rviBar (period ema : Int) (k : R × R) (v xy y : R) (e : RviE R) : M (RviE R × R) := do
  let b := regSlope (period : R) k xy y
  let a := y / (period : R) - b * k.1 / (period : R)
  let above := v - (a + b * (period : R))
  let q ← i32 (ema + 1)
  let e' : RviE R := if c! 0 < above
    then ⟨(above * above / (period : R) - e.gains) * c! 2 / (q : R) + e.gains, e.losses⟩
    else ⟨e.gains, (above * above / (period : R) - e.losses) * c! 2 / (q : R) + e.losses⟩
  return (e', if e'.gains == c! 0 then c! 50 else e'.gains / (e'.gains + e'.losses) * c! 100)

/-- The loops rvi.cc:37-40 and 41-60. -/
def rviLoops (ema period : Int) (k : R × R) (xs : List R) : List (Phase R (RegS R × RviE R) R) :=
  [ { cond := fun i => decide (i < period - 1)
      body := fun i v s => return ((⟨s.1.xy + v * ((i + 1 : Int) : R), s.1.y + v⟩, s.2), []) },
    { cond := fun _ => true
      body := fun i v s => do
        let xy := s.1.xy + v * (period : R)
        let y := s.1.y + v
        let r ← rviBar period ema k v xy y s.2
        let w ← rd xs (i - period + 1)
        return ((⟨xy - y, y - w⟩, r.1), [r.2]) } ]

/-- `ti_rvi`, rvi.cc:18-65. -/
def rviBatch (o : Nat → R) (xs : List R) : M (Ret × List R) := do
  let ema ← toInt (o 0)
  let period ← toInt (o 1)
  if ema < 1 then return (.invalidOption, [])
  if period < 1 then return (.invalidOption, [])
  let k ← regConst period
  loopBatch ((xs.length : Int) - (← rviStart o)) (rviLoops ema period k xs) 0 (⟨c! 0, c! 0⟩, ⟨c! 0, c! 0⟩) xs

/-- Options and constants of `ti_rvi_stream`, rvi.cc:67-86. -/
structure RviK (R : Type) where
  ema : Int
  period : Int
  k : R × R

/-- `ti_rvi_stream_new`, rvi.cc:88-120: the constants use the period before truncation. -/
def rviNew (o : Nat → R) : M (NewRes (RviK R) (RegS R × RviE R × Ring R)) := do
  if o 0 < c! 1 then return .fail .invalidOption
  if o 1 < c! 1 then return .fail .invalidOption
  let start ← rviStart o
  let ema ← toInt (o 0)
  let period ← toInt (o 1)
  let price ← Ring.make (← toInt (o 1 + c! 1))
  return .made ⟨ema, period, regConstR (o 1)⟩ (-start) (⟨c! 0, c! 0⟩, ⟨c! 0, c! 0⟩, price)

/-- `ti_rvi_stream_run`, rvi.cc:126-189: loops 149-154 and 155-176. -/
def rviPhases (c : RviK R) : List (Phase R (RegS R × RviE R × Ring R) R) :=
  [ { cond := fun p => decide (p < 0)
      body := fun p v s => do
        let price ← s.2.2.set v
        return ((⟨s.1.xy + v * ((p - (-c.period + 1) + 1 : Int) : R), s.1.y + v⟩, s.2.1, price.step), []) },
    { cond := fun _ => true
      body := fun _ v s => do
        let price ← s.2.2.set v
        let xy := s.1.xy + v * (c.period : R)
        let y := s.1.y + v
        let r ← rviBar c.period c.ema c.k v xy y s.2.1
        let w ← price.get (c.period - 1)
        return ((⟨xy - y, y - w⟩, r.1, price.step), [r.2]) } ]

def rvi : Indicator R R R where
  κ := RviK R
  σ := RegS R × RviE R × Ring R
  start := rviStart
  batch := rviBatch
  new := rviNew
  phases := rviPhases

/-! ### pbands -/

/-- `ti_pbands_start`, pbands.cc:12-15, `ti_posc_start`, posc.cc:13-17. -/
def pbandsStart (o : Nat → R) : M Int := toInt (o 0 - c! 1)

/-- Two outputs written in lockstep: lower and upper band. -/
structure Pband (R : Type) where (lower upper : R) deriving DecidableEq, Inhabited

/-- `the_max`: pbands.cc:50-55, posc.cc:50-53, with `at j` the value `j` bars ago. -/
def projMax (first : R) (hi : Int) (b : R) (at_ : Int → M R) : M R :=
  forUp 1 hi first fun j m => do
    let v ← at_ j
    return stdMax m (v + (j : R) * b)
/-- `the_min`: pbands.cc:56-61, posc.cc:54-57. -/
def projMin (first : R) (hi : Int) (b : R) (at_ : Int → M R) : M R :=
  forUp 1 hi first fun j m => do
    let v ← at_ j
    return stdMin m (v + (j : R) * b)

/-- The loops pbands.cc:39-42 and 43-67. -/
def pbandsLoops (period : Int) (k : R × R) (xs : List (HLC R)) : List (Phase (HLC R) (RegS R) (Pband R)) :=
  [ { cond := fun i => decide (i < period - 1)
      body := fun i r s => return (⟨s.xy + r.close * ((i + 1 : Int) : R), s.y + r.close⟩, []) },
    { cond := fun _ => true
      body := fun i r s => do
        let xy := s.xy + r.close * (period : R)
        let y := s.y + r.close
        let b := regSlope (period : R) k xy y
        let mx ← projMax r.high period b fun j => do return (← rd xs (i - j)).high
        let mn ← projMin r.low period b fun j => do return (← rd xs (i - j)).low
        let w ← rd xs (i - period + 1)
        return (⟨xy - y, y - w.close⟩, [⟨mn, mx⟩]) } ]

/-- `ti_pbands`, pbands.cc:17-72. -/
def pbandsBatch (o : Nat → R) (xs : List (HLC R)) : M (Ret × List (Pband R)) := do
  let period ← toInt (o 0)
  if period < 1 then return (.invalidOption, [])
  let k ← regConst period
  loopBatch ((xs.length : Int) - (← pbandsStart o)) (pbandsLoops period k xs) 0 ⟨c! 0, c! 0⟩ xs

/-- pbands.cc:88-99, posc.cc:107-118: the bands of bar `i`, the period not
truncated in the loop bound. (Reading an element of `b` that `ti_linregslope` did not write is reported as an
out-of-range read: the memory is uninitialised.) -/
def projRow (o : Nat → R) (xs : List (HLC R)) (bs : List R) (start i : Int) : M (HLC R × Pband R) := do
  let r ← rd xs i
  let hi ← bound (o 0)
  let mx ← forUp 1 hi r.high fun j m => do
    let v ← rd xs (i - j)
    return stdMax m (v.high + (j : R) * (← rd bs (i - start)))
  let mn ← forUp 1 hi r.low fun j m => do
    let v ← rd xs (i - j)
    return stdMin m (v.low + (j : R) * (← rd bs (i - start)))
  return (r, ⟨mn, mx⟩)

/-- `ti_pbands_ref`, pbands.cc:74-108: no validation; the return code of `ti_linregslope` is dropped. -/
def pbandsRef (o : Nat → R) (xs : List (HLC R)) : M (Ret × List (Pband R)) := do
  let start ← linregStart o
  let bs ← linregslopeBatch o (xs.map HLC.close)
  let out ← forUp start xs.length ([] : List (Pband R)) fun i out => do
    let r ← projRow o xs bs.2 start i
    wr (xs.length - (← pbandsStart o)) out r.2
  return (.okay, out)

/-- State of `ti_pbands_stream`, pbands.cc:111-129; the three rings step together and are kept as one ring of rows. -/
structure Rings3 (R : Type) where
  high : Ring R
  low : Ring R
  close : Ring R

/-- pbands.cc:151-153, posc.cc:175-177. -/
def Rings3.make (m : Int) : M (Rings3 R) := do
  return ⟨← Ring.make m, ← Ring.make m, ← Ring.make m⟩
/-- pbands.cc:191-193. -/
def Rings3.set (s : Rings3 R) (r : HLC R) : M (Rings3 R) := do
  return ⟨← s.high.set r.high, ← s.low.set r.low, ← s.close.set r.close⟩
/-- `step(price_high, price_low, price_close)`. -/
def Rings3.step (s : Rings3 R) : Rings3 R := ⟨s.high.step, s.low.step, s.close.step⟩

/-- Option and constants of `ti_pbands_stream`, pbands.cc:111-129. -/
structure PbandsK (R : Type) where
  period : R
  k : R × R

/-- `ti_pbands_stream_new`, pbands.cc:131-160. -/
def pbandsNew (o : Nat → R) : M (NewRes (PbandsK R) (RegS R × Rings3 R)) := do
  if o 0 < c! 1 then return .fail .invalidOption
  let start ← pbandsStart o
  let rings ← Rings3.make (← toInt (o 0 + c! 1))
  return .made ⟨o 0, regConstR (o 0)⟩ (-start) (⟨c! 0, c! 0⟩, rings)

/-- `ti_pbands_stream_run`, pbands.cc:166-235: loops 190-197 and 199-227. -/
def pbandsPhases (c : PbandsK R) : List (Phase (HLC R) (RegS R × Rings3 R) (Pband R)) :=
  [ { cond := fun p => decide (p < 0)
      body := fun p r s => do
        let rings ← s.2.set r
        return ((⟨s.1.xy + r.close * ((p : R) - (-c.period + c! 1) + c! 1), s.1.y + r.close⟩, rings.step), []) },
    { cond := fun _ => true
      body := fun _ r s => do
        let rings ← s.2.set r
        let xy := s.1.xy + r.close * c.period
        let y := s.1.y + r.close
        let b := regSlope c.period c.k xy y
        let hi ← bound c.period
        let mx ← projMax r.high hi b rings.high.get
        let mn ← projMin r.low hi b rings.low.get
        let w ← rings.close.get (← toInt (c.period - c! 1))
        return ((⟨xy - y, y - w⟩, rings.step), [⟨mn, mx⟩]) } ]

def pbands : Indicator R (HLC R) (Pband R) where
  κ := PbandsK R
  σ := RegS R × Rings3 R
  start := pbandsStart
  batch := pbandsBatch
  new := pbandsNew
  phases := pbandsPhases

/-! ### posc -/

/-- The value before smoothing, posc.cc:59 and 81. -/
def poscVal (close : R) (b : Pband R) : R :=
  if close - b.lower == c! 0 then c! 0 else (close - b.lower) / (b.upper - b.lower) * c! 100

/-- One step of the average, posc.cc:82 and 268, `q` being `1 + ema_period`. -/
def poscEma (q osc e : R) : R := (osc - e) * c! 2 / q + e

/-- The loops posc.cc:40-43, 44-64 and 65-87. `1 + ema_period` is an `int` sum. -/
def poscLoops (ema period : Int) (k : R × R) (xs : List (HLC R)) : List (Phase (HLC R) (RegS R × Option R) R) :=
  [ { cond := fun i => decide (i < period - 1)
      body := fun i r s => return ((⟨s.1.xy + r.close * ((i + 1 : Int) : R), s.1.y + r.close⟩, s.2), []) },
    { cond := fun i => decide (i < period)
      body := fun i r s => do
        let xy := s.1.xy + r.close * (period : R)
        let y := s.1.y + r.close
        let b := regSlope (period : R) k xy y
        let mx ← projMax r.high period b fun j => do return (← rd xs (i - j)).high
        let mn ← projMin r.low period b fun j => do return (← rd xs (i - j)).low
        let e := poscVal r.close ⟨mn, mx⟩
        let w ← rd xs (i - period + 1)
        return ((⟨xy - y, y - w.close⟩, some e), [e]) },
    { cond := fun _ => true
      body := fun i r s => do
        let xy := s.1.xy + r.close * (period : R)
        let y := s.1.y + r.close
        let b := regSlope (period : R) k xy y
        let mx ← projMax r.high period b fun j => do return (← rd xs (i - j)).high
        let mn ← projMin r.low period b fun j => do return (← rd xs (i - j)).low
        let q ← i32 (1 + ema)
        let e := poscEma (q : R) (poscVal r.close ⟨mn, mx⟩) (← getV s.2)
        let w ← rd xs (i - period + 1)
        return ((⟨xy - y, y - w.close⟩, some e), [e]) } ]

/-- `ti_posc`, posc.cc:20-91. -/
def poscBatch (o : Nat → R) (xs : List (HLC R)) : M (Ret × List R) := do
  let period ← toInt (o 0)
  let ema ← toInt (o 1)
  if period < 1 then return (.invalidOption, [])
  if ema < 1 then return (.invalidOption, [])
  let start ← pbandsStart o
  if (xs.length : Int) ≤ start then return (.okay, [])
  let k ← regConst period
  loopBatch ((xs.length : Int) - start) (poscLoops ema period k xs) 0 (⟨c! 0, c! 0⟩, none) xs

/-- `ti_posc_ref`, posc.cc:93-127: no validation, no guard against a zero divisor. -/
def poscRef (o : Nat → R) (xs : List (HLC R)) : M (Ret × List R) := do
  let start ← linregStart o
  let bs ← linregslopeBatch o (xs.map HLC.close)
  let out ← forUp start xs.length ([] : List R) fun i out => do
    let r ← projRow o xs bs.2 start i
    wr (xs.length - (← pbandsStart o)) out ((r.1.close - r.2.lower) / (r.2.upper - r.2.lower) * c! 100)
  let out ← emaInPlace (fun _ => o 1) out
  return (.okay, out)

/-- Options and constants of `ti_posc_stream`, posc.cc:130-150. -/
structure PoscK (R : Type) where
  period : R
  ema : R
  k : R × R

/-- `ti_posc_stream_new`, posc.cc:152-184. -/
def poscNew (o : Nat → R) : M (NewRes (PoscK R) (RegS R × Rings3 R × Option R)) := do
  if o 0 < c! 1 then return .fail .invalidOption
  if o 1 < c! 1 then return .fail .invalidOption
  let start ← pbandsStart o
  let rings ← Rings3.make (← toInt (o 0 + c! 1))
  return .made ⟨o 0, o 1, regConstR (o 0)⟩ (-start) (⟨c! 0, c! 0⟩, rings, none)

/-- `ti_posc_stream_run`, posc.cc:190-282: loops 215-222, 223-247 and 248-273. -/
def poscPhases (c : PoscK R) : List (Phase (HLC R) (RegS R × Rings3 R × Option R) R) :=
  [ { cond := fun p => decide (p < 0)
      body := fun p r s => do
        let rings ← s.2.1.set r
        return ((⟨s.1.xy + r.close * ((p : R) - (-c.period + c! 1) + c! 1), s.1.y + r.close⟩, rings.step, s.2.2), []) },
    { cond := fun p => decide (p < 1)
      body := fun _ r s => do
        let rings ← s.2.1.set r
        let xy := s.1.xy + r.close * c.period
        let y := s.1.y + r.close
        let b := regSlope c.period c.k xy y
        let hi ← bound c.period
        let mx ← projMax (← rings.high.cur) hi b rings.high.get
        let mn ← projMin (← rings.low.cur) hi b rings.low.get
        let e := poscVal r.close ⟨mn, mx⟩
        let w ← rings.close.get (← toInt (c.period - c! 1))
        return ((⟨xy - y, y - w⟩, rings.step, some e), [e]) },
    { cond := fun _ => true
      body := fun _ r s => do
        let rings ← s.2.1.set r
        let xy := s.1.xy + r.close * c.period
        let y := s.1.y + r.close
        let b := regSlope c.period c.k xy y
        let hi ← bound c.period
        let mx ← projMax (← rings.high.cur) hi b rings.high.get
        let mn ← projMin (← rings.low.cur) hi b rings.low.get
        let e := poscEma (c! 1 + c.ema) (poscVal r.close ⟨mn, mx⟩) (← getV s.2.2)
        let w ← rings.close.get (← toInt (c.period - c! 1))
        return ((⟨xy - y, y - w⟩, rings.step, some e), [e]) } ]

def posc : Indicator R (HLC R) R where
  κ := PoscK R
  σ := RegS R × Rings3 R × Option R
  start := pbandsStart
  batch := poscBatch
  new := poscNew
  phases := poscPhases

end Verif
