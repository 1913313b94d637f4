/-
Model of `/repo/indicators/er.cc`, `dwma.cc`, `pwma.cc`, `swma.cc`, `t3.cc` and `copp.cc`: batch, reference and stream
implementations.  Memory is assumed available throughout.
-/
import Verif.Core.Stream
import Verif.Core.Exact
import Verif.Model.Ring
import Verif.Model.Volume
import Verif.Model.Window
import Verif.Model.Ema

namespace Verif
variable {R : Type} [Num R]

/-! ### er -/

/-- `ti_er_start`, er.cc:12-17. -/
def erStart (o : Nat → R) : M Int := toInt (o 0)

/-- `ti_er`, er.cc:19-43 (loops 30-32 and 33-40). -/
def erBatch (o : Nat → R) (xs : List R) : M (Ret × List R) := do
  let n ← toInt (o 0)
  if n < 1 then return (.invalidOption, [])
  let size : Int := xs.length
  let cap := size - (← erStart o)
  let i1 := upto 1 n size
  let tr ← forUp 1 i1 (c! 0 : R) fun i tr => do
    return tr + CMath.fabs ((← rd xs i) - (← rd xs (i - 1)))
  let s ← forUp i1 size (tr, ([] : List R)) fun i s => do
    let tr := s.1 + CMath.fabs ((← rd xs i) - (← rd xs (i - 1)))
    let net := CMath.fabs ((← rd xs i) - (← rd xs (i - n)))
    let out ← wr cap s.2 (if net == c! 0 then c! 0 else net / tr)
    let tr := tr - CMath.fabs ((← rd xs (i - n + 1)) - (← rd xs (i - n)))
    return (tr, out)
  return (.okay, s.2)

/-- `ti_er_ref`, er.cc:45-63. -/
def erRef (o : Nat → R) (xs : List R) : M (Ret × List R) := do
  let n ← toInt (o 0)
  if n < 1 then return (.invalidOption, [])
  let size : Int := xs.length
  let cap := size - (← erStart o)
  let lo ← i32 (n + 1)
  let out ← forUp lo (size + 1) ([] : List R) fun i out => do
    let net := CMath.fabs ((← rd xs (i - 1)) - (← rd xs (i - n - 1)))
    let tr ← forUp (i - n) i (c! 0 : R) fun j tr => do
      return tr + CMath.fabs ((← rd xs j) - (← rd xs (j - 1)))
    wr cap out (if net == c! 0 then c! 0 else net / tr)
  return (.okay, out)

/-- Mutable members of `ti_er_stream`, er.cc:71-74. -/
structure ErS (R : Type) where
  trajectory : R
  price : Ring R

/-- `ti_er_stream_new`, er.cc:81-99. -/
def erNew (o : Nat → R) : M (NewRes Int (ErS R)) := do
  let period ← toInt (o 0)
  if period < 1 then return .fail .invalidOption
  let start ← erStart o
  let price ← Ring.make (← i32 (period + 1))
  return .made period (-start) ⟨c! 0, price⟩

/-- `ti_er_stream_run`, er.cc:105-138: loops 117-119, 120-123, 124-133. -/
def erPhases (n : Int) : List (Phase R (ErS R) R) :=
  [ { cond := fun p => decide (p < -n + 1)
      body := fun _ x s => do
        let price ← s.price.set x
        return (⟨s.trajectory, price.step⟩, []) },
    { cond := fun p => decide (p < 0)
      body := fun _ x s => do
        let price ← s.price.set x
        let tr := s.trajectory + CMath.fabs ((← price.cur) - (← price.get 1))
        return (⟨tr, price.step⟩, []) },
    { cond := fun _ => true
      body := fun _ x s => do
        let price ← s.price.set x
        let tr := s.trajectory + CMath.fabs ((← price.cur) - (← price.get 1))
        let net := CMath.fabs ((← price.cur) - (← price.get n))
        let out := [if net == c! 0 then c! 0 else net / tr]
        let tr := tr - CMath.fabs ((← price.get (n - 1)) - (← price.get n))
        return (⟨tr, price.step⟩, out) } ]

def er : Indicator R R R where
  κ := Int
  σ := ErS R
  start := erStart
  batch := erBatch
  new := erNew
  phases := erPhases

/-! ### dwma -/

/-- `ti_dwma_start`, dwma.cc:15-19: computed from the untruncated option. -/
def dwmaStart (o : Nat → R) : M Int := toInt (c! 2 * (o 0 - c! 1))

/-- The running sums of dwma.cc:30-35 and 101-108. -/
structure DwmaSt (R : Type) where
  numer1 : R
  sum1 : R
  numer2 : R
  sum2 : R
  filt1 : Ring R

/-- First average of one bar, dwma.cc:43-49, 55-61, 178-184, 192-198: `v` is the new price, `old` the price that leaves
the window. -/
def dwmaFirst (period : Int) (denom : R) (s : DwmaSt R) (v : R) (old : M R) : M (DwmaSt R) := do
  let numer1 := s.numer1 + (period : R) * v
  let sum1 := s.sum1 + v
  let filt1 ← s.filt1.set (numer1 / denom)
  let numer1 := numer1 - sum1
  let sum1 := sum1 - (← old)
  return { s with numer1 := numer1, sum1 := sum1, filt1 := filt1 }

/-- Second average while its window fills, dwma.cc:51-52 and 186-187: `w` is the weight. -/
def dwmaWarm (w : Int) (s : DwmaSt R) : M (DwmaSt R) := do
  let numer2 := s.numer2 + (w : R) * (← s.filt1.cur)
  let sum2 := s.sum2 + (← s.filt1.cur)
  return { s with numer2 := numer2, sum2 := sum2, filt1 := s.filt1.step }

/-- Second average and output, dwma.cc:63-69 and 200-206. -/
def dwmaMain (period : Int) (denom : R) (s : DwmaSt R) : M (DwmaSt R × R) := do
  let numer2 := s.numer2 + (period : R) * (← s.filt1.cur)
  let sum2 := s.sum2 + (← s.filt1.cur)
  let out := numer2 / denom
  let numer2 := numer2 - sum2
  let sum2 := sum2 - (← s.filt1.get (period - 1))
  return ({ s with numer2 := numer2, sum2 := sum2, filt1 := s.filt1.step }, out)

/-- `ti_dwma`, dwma.cc:21-75 (loops 38-41, 42-53, 54-70). -/
def dwmaBatch (o : Nat → R) (xs : List R) : M (Ret × List R) := do
  let period ← toInt (o 0)
  if period < 1 then return (.invalidOption, [])
  let size : Int := xs.length
  let cap := size - (← dwmaStart o)
  let denom : R := (c! 1 + (period : R)) * (period : R) / c! 2
  let filt1 ← Ring.make (R := R) period
  let twice ← i32 (2 * (period - 1))
  let i1 := upto 0 (period - 1) size
  let s ← forUp 0 i1 (⟨c! 0, c! 0, c! 0, c! 0, filt1⟩ : DwmaSt R) fun i s => do
    let numer1 := s.numer1 + ((i + 1 : Int) : R) * (← rd xs i)
    let sum1 := s.sum1 + (← rd xs i)
    return { s with numer1 := numer1, sum1 := sum1 }
  let i2 := upto i1 twice size
  let s ← forUp i1 i2 s fun i s => do
    let s ← dwmaFirst period denom s (← rd xs i) (rd xs (i - period + 1))
    dwmaWarm (i - (period - 1) + 1) s
  let t ← forUp i2 size (s, ([] : List R)) fun i t => do
    let s ← dwmaFirst period denom t.1 (← rd xs i) (rd xs (i - period + 1))
    let q ← dwmaMain period denom s
    let out ← wr cap t.2 q.2
    return (q.1, out)
  return (.okay, t.2)

/-- Constants of `ti_dwma_stream`, dwma.cc:96-98 and 111-113. -/
structure DwmaK (R : Type) where
  period : Int
  denom : R

/-- Mutable members of `ti_dwma_stream`, dwma.cc:100-109. -/
structure DwmaS (R : Type) where
  price : Ring R
  st : DwmaSt R

/-- `ti_dwma_stream_new`, dwma.cc:116-147: the range check and `denom` use the untruncated option. -/
def dwmaNew (o : Nat → R) : M (NewRes (DwmaK R) (DwmaS R)) := do
  if o 0 < c! 1 then return .fail .invalidOption
  let start ← dwmaStart o
  let period ← toInt (o 0)
  let denom : R := (c! 1 + o 0) * o 0 / c! 2
  let price ← Ring.make (R := R) period
  let filt1 ← Ring.make (R := R) period
  return .made ⟨period, denom⟩ (-start) ⟨price, ⟨c! 0, c! 0, c! 0, c! 0, filt1⟩⟩

/-- `ti_dwma_stream_run`, dwma.cc:153-216: loops 170-174, 175-188, 189-207. -/
def dwmaPhases (k : DwmaK R) : List (Phase R (DwmaS R) R) :=
  [ { cond := fun p => decide (p < -(k.period - 1))
      body := fun p x s => do
        let price ← s.price.set x
        let numer1 := s.st.numer1 + ((p + 2 * (k.period - 1) + 1 : Int) : R) * x
        let sum1 := s.st.sum1 + x
        return (⟨price.step, { s.st with numer1 := numer1, sum1 := sum1 }⟩, []) },
    { cond := fun p => decide (p < 0)
      body := fun p x s => do
        let price ← s.price.set x
        let st ← dwmaFirst k.period k.denom s.st x (price.get (k.period - 1))
        let st ← dwmaWarm (p + (k.period - 1) + 1) st
        return (⟨price.step, st⟩, []) },
    { cond := fun _ => true
      body := fun _ x s => do
        let price ← s.price.set x
        let st ← dwmaFirst k.period k.denom s.st x (price.get (k.period - 1))
        let q ← dwmaMain k.period k.denom st
        return (⟨price.step, q.1⟩, [q.2]) } ]

def dwma : Indicator R R R where
  κ := DwmaK R
  σ := DwmaS R
  start := dwmaStart
  batch := dwmaBatch
  new := dwmaNew
  phases := dwmaPhases

/-! ### pwma -/

/-- `ti_pwma_start`, pwma.cc:14-19: `period-1` on the untruncated option. -/
def pwmaStart (o : Nat → R) : M Int := toInt (o 0 - c! 1)

/-- `ti_pwma`, pwma.cc:21-44; `ti_pwma_ref`, pwma.cc:46-69, is the same text. -/
def pwmaBatch (o : Nat → R) (xs : List R) : M (Ret × List R) := do
  let period ← toInt (o 0)
  let power := o 1
  if period < 1 then return (.invalidOption, [])
  let size : Int := xs.length
  let cap := size - (← pwmaStart o)
  let denom ← forUp 0 (min period size) (c! 0 : R) fun i d => do
    return d + CMath.pow ((i + 1 : Int) : R) power
  let out ← forUp (period - 1) size ([] : List R) fun i out => do
    let numer ← forUp 0 period (c! 0 : R) fun j a => do
      return a + (← rd xs (i - j)) * CMath.pow ((period - j : Int) : R) power
    wr cap out (numer / denom)
  return (.okay, out)

/-- Constants of `ti_pwma_stream`, pwma.cc:73-76 and 82-84. -/
structure PwmaK (R : Type) where
  period : Int
  power : R
  denomRecipr : R

/-- `ti_pwma_stream_new`, pwma.cc:87-115. -/
def pwmaNew (o : Nat → R) : M (NewRes (PwmaK R) (Ring R)) := do
  let period ← toInt (o 0)
  if period < 1 then return .fail .invalidOption
  let start ← pwmaStart o
  let price ← Ring.make (← i32 (period + 1))
  let denom ← forUp 0 period (c! 0 : R) fun i d => do
    return d + CMath.pow ((i + 1 : Int) : R) (o 1)
  return .made ⟨period, o 1, c! 1 / denom⟩ (-start) price

/-- `ti_pwma_stream_run`, pwma.cc:121-149: loops 133-135, 136-144. -/
def pwmaPhases (k : PwmaK R) : List (Phase R (Ring R) R) :=
  [ { cond := fun p => decide (p < 0)
      body := fun _ x s => do
        let price ← s.set x
        return (price.step, []) },
    { cond := fun _ => true
      body := fun _ x s => do
        let price ← s.set x
        let numer ← forUp 0 k.period (c! 0 : R) fun j a => do
          return a + (← price.get j) * CMath.pow ((k.period - j : Int) : R) k.power
        return (price.step, [numer * k.denomRecipr]) } ]

def pwma : Indicator R R R where
  κ := PwmaK R
  σ := Ring R
  start := pwmaStart
  batch := pwmaBatch
  new := pwmaNew
  phases := pwmaPhases

/-! ### swma -/

/-- `ti_swma_start`, swma.cc:14-18. -/
def swmaStart (o : Nat → R) : M Int := do i32 ((← toInt (o 0)) - 1)

/-- `table`, swma.cc:20-35 (`PI = acos(-1)`). -/
def swmaTable : List R :=
  (List.range 12).map fun (k : Nat) => CMath.sin ((((k : Int) + 1 : Int) : R) * CMath.acos (-(c! 1)) / c! 6)

/-- The check of swma.cc:43, 69 and 104. -/
def swmaBad (period : Int) : M Bool := do
  let q ← i32 (period + 1)
  return (decide (Int.tmod period 6 = 0) || decide (Int.tmod q 6 = 0))

/-- `denom`, swma.cc:45-49 and 121-125. -/
def swmaDenom (period : Int) : M R :=
  forUp 0 period (c! 0 : R) fun j d => do
    let c ← rd (swmaTable (R := R)) (Int.tmod j 12)
    return d + c

/-- `ti_swma`, swma.cc:37-61. -/
def swmaBatch (o : Nat → R) (xs : List R) : M (Ret × List R) := do
  let period ← toInt (o 0)
  if period < 1 then return (.invalidOption, [])
  if (← swmaBad period) then return (.invalidOption, [])
  let size : Int := xs.length
  let cap := size - (← swmaStart o)
  let denom ← swmaDenom (R := R) period
  let out ← forUp (period - 1) size ([] : List R) fun i out => do
    let numer ← forUp 0 period (c! 0 : R) fun j a => do
      let c ← rd (swmaTable (R := R)) (Int.tmod j 12)
      return a + c * (← rd xs (i - j))
    wr cap out (numer / denom)
  return (.okay, out)

/-- `ti_swma_ref`, swma.cc:63-83. -/
def swmaRef (o : Nat → R) (xs : List R) : M (Ret × List R) := do
  let period ← toInt (o 0)
  if period < 1 then return (.invalidOption, [])
  if (← swmaBad period) then return (.invalidOption, [])
  let size : Int := xs.length
  let cap := size - (← swmaStart o)
  let out ← forUp (period - 1) size ([] : List R) fun i out => do
    let s ← forUp 0 period ((c! 0 : R), (c! 0 : R)) fun j s => do
      let c := CMath.sin (((j + 1 : Int) : R) * CMath.acos (-(c! 1)) / c! 6)
      return (s.1 + c * (← rd xs (i - j)), s.2 + c)
    wr cap out (s.1 / s.2)
  return (.okay, out)

/-- Constants of `ti_swma_stream`, swma.cc:87-89 and 95-97. -/
structure SwmaK (R : Type) where
  period : Int
  denom : R

/-- `ti_swma_stream_new`, swma.cc:100-128. -/
def swmaNew (o : Nat → R) : M (NewRes (SwmaK R) (Ring R)) := do
  let period ← toInt (o 0)
  if period < 1 then return .fail .invalidOption
  if (← swmaBad period) then return .fail .invalidOption
  let start ← swmaStart o
  let price ← Ring.make period
  let denom ← swmaDenom (R := R) period
  return .made ⟨period, denom⟩ (-start) price

/-- `ti_swma_stream_run`, swma.cc:134-160: loops 144-146, 147-155. -/
def swmaPhases (k : SwmaK R) : List (Phase R (Ring R) R) :=
  [ { cond := fun p => decide (p < 0)
      body := fun _ x s => do
        let price ← s.set x
        return (price.step, []) },
    { cond := fun _ => true
      body := fun _ x s => do
        let price ← s.set x
        let numer ← forUp 0 k.period (c! 0 : R) fun j a => do
          let c ← rd (swmaTable (R := R)) (Int.tmod j 12)
          return a + c * (← price.get j)
        return (price.step, [numer / k.denom]) } ]

def swma : Indicator R R R where
  κ := SwmaK R
  σ := Ring R
  start := swmaStart
  batch := swmaBatch
  new := swmaNew
  phases := swmaPhases

/-! ### t3 -/

/-- `ti_t3_start`, t3.cc:16-21. -/
def t3Start (_ : Nat → R) : M Int := .ok 0

/-- One level of t3: the two averages and their combination, t3.cc:32-34 (and 36-42, 124-135). -/
structure Gd (R : Type) where
  e1 : R
  e2 : R
  gd : R

/-- The three levels. -/
structure T3St (R : Type) where
  l1 : Gd R
  l2 : Gd R
  l3 : Gd R

/-- First bar, t3.cc:46-56 and 190-200. -/
def t3Init (v : R) : T3St R := ⟨⟨v, v, v⟩, ⟨v, v, v⟩, ⟨v, v, v⟩⟩

/-- Update of one level, t3.cc:61-63, 65-67, 69-71 and 205-215. -/
def gdStep (period v : R) (s : Gd R) (x : R) : Gd R :=
  let e1 := (x - s.e1) * c! 2 / (period + c! 1) + s.e1
  let e2 := (e1 - s.e2) * c! 2 / (period + c! 1) + s.e2
  ⟨e1, e2, e1 * (c! 1 + v) - e2 * v⟩

/-- Later bars, t3.cc:61-71 and 205-215. -/
def t3Step (period v : R) (s : T3St R) (x : R) : T3St R :=
  let l1 := gdStep period v s.l1 x
  let l2 := gdStep period v s.l2 l1.gd
  let l3 := gdStep period v s.l3 l2.gd
  ⟨l1, l2, l3⟩

/-- `ti_t3`, t3.cc:23-77 (loops 45-59 and 60-74). -/
def t3Batch (o : Nat → R) (xs : List R) : M (Ret × List R) := do
  if o 0 < c! 1 then return (.invalidOption, [])
  if o 1 < c! 0 then return (.invalidOption, [])
  let size : Int := xs.length
  let cap := size - (← t3Start o)
  let i1 := upto 0 1 size
  let s ← forUp 0 i1 ((none : Option (T3St R)), ([] : List R)) fun i s => do
    let st := t3Init (← rd xs i)
    let out ← wr cap s.2 st.l3.gd
    return (some st, out)
  let s ← forUp i1 size s fun i s => do
    let st := t3Step (o 0) (o 1) (← getVar s.1) (← rd xs i)
    let out ← wr cap s.2 st.l3.gd
    return (some st, out)
  return (.okay, s.2)

/-- The lambda `GD`, t3.cc:88-107: two calls of `ti_ema` with the same option and a combination of the results.  A failing
`ti_ema` would leave the zeros of the vectors; with `period ≥ 1` it does not fail. -/
def t3RefGD (o : Nat → R) (xs : List R) : M (List R) := do
  let e1 ← emaBatch o xs
  let e2 ← emaBatch o e1.2
  forUp 0 xs.length ([] : List R) fun i out => do
    wr xs.length out ((← rd e1.2 i) * (c! 1 + o 1) - (← rd e2.2 i) * o 1)

/-- `ti_t3_ref`, t3.cc:79-115. -/
def t3Ref (o : Nat → R) (xs : List R) : M (Ret × List R) := do
  if o 0 < c! 1 then return (.invalidOption, [])
  if o 1 < c! 0 then return (.invalidOption, [])
  let a ← t3RefGD o xs
  let b ← t3RefGD o a
  let c ← t3RefGD o b
  return (.okay, c)

/-- `ti_t3_stream_new`, t3.cc:143-161 (value initialisation zeroes the state). -/
def t3New (o : Nat → R) : M (NewRes (R × R) (T3St R)) := do
  if o 0 < c! 1 then return .fail .invalidOption
  if o 1 < c! 0 then return .fail .invalidOption
  let start ← t3Start o
  return .made (o 0, o 1) (-start) (t3Init (c! 0))

/-- `ti_t3_stream_run`, t3.cc:167-232: loops 189-203, 204-218. -/
def t3Phases (k : R × R) : List (Phase R (T3St R) R) :=
  [ { cond := fun p => decide (p < 1)
      body := fun _ x _ => do
        let s := t3Init x
        return (s, [s.l3.gd]) },
    { cond := fun _ => true
      body := fun _ x s => do
        let s := t3Step k.1 k.2 s x
        return (s, [s.l3.gd]) } ]

def t3 : Indicator R R R where
  κ := R × R
  σ := T3St R
  start := t3Start
  batch := t3Batch
  new := t3New
  phases := t3Phases

/-! ### copp -/

/-- `ti_copp_start`, copp.cc:13-19: the options are not truncated. -/
def coppStart (o : Nat → R) : M Int := toInt (o 1 + o 2 - c! 1)

/-- Running sums and buffers, copp.cc:35-40 and 125-132. -/
structure CoppS (R : Type) where
  price : Ring R
  rocs : Ring R
  flat : R
  weighted : R

/-- Bars before the longer lag is filled, copp.cc:43-45 and 200-202. -/
def coppFill (s : CoppS R) (x : R) : M (CoppS R) := do
  let price ← s.price.set x
  return { s with price := price.step, rocs := s.rocs.step }

/-- Storing the price and the mean rate of change, copp.cc:47-51, 57-61, 204-208, 214-218. -/
def coppRoc (short long : Int) (s : CoppS R) (x : R) : M (CoppS R) := do
  let price ← s.price.set x
  let ps ← price.get short
  let pl ← price.get long
  let c ← price.cur
  let roc : R := if ps == c! 0 || pl == c! 0 then c! 0 else ((c / ps - c! 1) + (c / pl - c! 1)) / c! 2 * c! 100
  let rocs ← s.rocs.set roc
  return { s with price := price, rocs := rocs }

/-- While the weighted average fills, copp.cc:53-54 and 210-211: `w` is the weight. -/
def coppWarm (w : R) (s : CoppS R) : M (CoppS R) := do
  let c ← s.rocs.cur
  return { price := s.price.step, rocs := s.rocs.step, flat := s.flat + c, weighted := s.weighted + c * w }

/-- Output and removal of the oldest change, copp.cc:63-68 and 220-225. -/
def coppMain (w denominator : R) (last : Int) (s : CoppS R) : M (CoppS R × R) := do
  let c ← s.rocs.cur
  let weighted := s.weighted + c * w
  let flat := s.flat + c
  let out := weighted * denominator
  let weighted := weighted - flat
  let flat := flat - (← s.rocs.get last)
  return ({ price := s.price.step, rocs := s.rocs.step, flat := flat, weighted := weighted }, out)

/-- The range checks of copp.cc:29-31 and 144-146. -/
def coppBad (o : Nat → R) : Prop := o 0 < c! 1 ∨ o 1 < c! 1 ∨ o 2 < c! 1

instance (o : Nat → R) : Decidable (coppBad o) := inferInstanceAs (Decidable (_ ∨ _ ∨ _))

/-- `ti_copp`, copp.cc:22-74.  The three loops 43-45, 46-55, 56-69 run over one index with increasing `TI_REAL` bounds; they
are written as one loop that selects the body by the same comparisons (`size` exceeds both bounds here). -/
def coppBatch (o : Nat → R) (xs : List R) : M (Ret × List R) := do
  if coppBad o then return (.invalidOption, [])
  if o 1 < o 0 then return (.invalidOption, [])
  let start ← coppStart o
  let size : Int := xs.length
  if size ≤ start then return (.okay, [])
  let cap := size - start
  let price ← Ring.make (R := R) (← toInt (o 1 + c! 1))
  let rocs ← Ring.make (R := R) (← toInt (o 2 + c! 1))
  let denominator : R := c! 1 / (o 2 * (o 2 + c! 1) / c! 2)
  let t ← forUp 0 size ((⟨price, rocs, c! 0, c! 0⟩ : CoppS R), ([] : List R)) fun i t => do
    let x ← rd xs i
    if (i : R) < o 1 then
      return (← coppFill t.1 x, t.2)
    else if (i : R) < o 1 + o 2 - c! 1 then
      let s ← coppRoc (← toInt (o 0)) (← toInt (o 1)) t.1 x
      return (← coppWarm (((i + 1 : Int) : R) - o 1) s, t.2)
    else
      let s ← coppRoc (← toInt (o 0)) (← toInt (o 1)) t.1 x
      let q ← coppMain (o 2) denominator (← toInt (o 2 - c! 1)) s
      return (q.1, ← wr cap t.2 q.2)
  return (.okay, t.2)

/-- Constants of `ti_copp_stream`, copp.cc:118-123 and 134-136. -/
structure CoppK (R : Type) where
  short : Int
  long : Int
  wma : Int
  denominator : R

/-- `ti_copp_stream_new`, copp.cc:139-174: `wma_period * (wma_period + 1) / 2` is an `int` computation. -/
def coppNew (o : Nat → R) : M (NewRes (CoppK R) (CoppS R)) := do
  let short ← toInt (o 0)
  let long ← toInt (o 1)
  let wma ← toInt (o 2)
  if coppBad o then return .fail .invalidOption
  if long < short then return .fail .invalidOption
  let start ← coppStart o
  let w1 ← i32 (wma + 1)
  let prod ← i32 (wma * w1)
  let denominator : R := c! 1 / ((Int.tdiv prod 2 : Int) : R)
  let price ← Ring.make (R := R) (← i32 (long + 1))
  let rocs ← Ring.make (R := R) w1
  return .made ⟨short, long, wma, denominator⟩ (-start) ⟨price, rocs, c! 0, c! 0⟩

/-- `ti_copp_stream_run`, copp.cc:180-233: loops 200-202, 203-212, 213-226.  `START` (copp.cc:17) is `long + wma - 1`. -/
def coppPhases (k : CoppK R) : List (Phase R (CoppS R) R) :=
  [ { cond := fun p => decide (p < -(k.long + k.wma - 1) + k.long)
      body := fun _ x s => do return (← coppFill s x, []) },
    { cond := fun p => decide (p < -(k.long + k.wma - 1) + k.long + k.wma - 1)
      body := fun p x s => do
        let s ← coppRoc k.short k.long s x
        return (← coppWarm ((p + 1 - (-(k.long + k.wma - 1) + k.long) : Int) : R) s, []) },
    { cond := fun _ => true
      body := fun _ x s => do
        let s ← coppRoc k.short k.long s x
        let q ← coppMain (k.wma : R) k.denominator (k.wma - 1) s
        return (q.1, [q.2]) } ]

def copp : Indicator R R R where
  κ := CoppK R
  σ := CoppS R
  start := coppStart
  batch := coppBatch
  new := coppNew
  phases := coppPhases

end Verif
