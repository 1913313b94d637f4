/-
Models of fi, mgdyn, pvt, kc, tsi, rmi, vwap, evwma and vi (`/repo/indicators/<name>.cc`).
`new T()` value-initialises the stream objects, so members without an initialiser start at zero.
Variables a batch function declares without initial value are `none` until assigned; reading `none` is an error.
-/
import Verif.Core.LoopBatch
import Verif.Core.Exact
import Verif.Core.Rows
import Verif.Model.Ring
import Verif.Model.Ema
import Verif.Model.Simple
import Verif.Model.Stats
import Verif.Model.Volume

namespace Verif
variable {R : Type} [Num R]

/-- Read a variable that may not have been assigned yet. -/
def getV {α : Type} : Option α → M α
  | none => .error .uninit
  | some a => .ok a

/-- A call `ti_ema(n, &l, &period, &l)` that writes over its input and drops the return code: a refusal leaves the
input. -/
def emaInPlace (o : Nat → R) (l : List R) : M (List R) := do
  let r ← emaBatch o l
  return if r.1 = .okay then r.2 else l

/-! ### fi -/

/-- `ti_fi_start`, fi.cc:12-14. -/
def fiStart (_ : Nat → R) : M Int := .ok 1

/-- `ti_fi`, fi.cc:17-36. -/
def fiBatch (o : Nat → R) (xs : List (CV R)) : M (Ret × List R) := do
  if o 0 < c! 1 then return (.invalidOption, [])
  let start ← fiStart o
  if (xs.length : Int) ≤ start then return (.okay, [])
  let cap := xs.length - start
  let per : R := c! 2 / (o 0 + c! 1)
  let ema := (← rd xs 1).volume * ((← rd xs 1).close - (← rd xs 0).close)
  let s ← forUp 1 xs.length (ema, ([] : List R)) fun i s => do
    let ema := ((← rd xs i).volume * ((← rd xs i).close - (← rd xs (i - 1)).close) - s.1) * per + s.1
    let out ← wr cap s.2 ema
    return (ema, out)
  return (.okay, s.2)

/-- `ti_fi_ref`, fi.cc:38-53: the options are not checked and the return code of `ti_ema` is dropped. -/
def fiRef (o : Nat → R) (xs : List (CV R)) : M (Ret × List R) := do
  let start ← fiStart o
  if (xs.length : Int) ≤ start then return (.okay, [])
  let fi ← forUp 1 xs.length ([] : List R) fun i out => do
    wr (xs.length - start) out ((← rd xs i).volume * ((← rd xs i).close - (← rd xs (i - 1)).close))
  let out ← emaInPlace o fi
  return (.okay, out)

/-- State of fi.cc:55-60: `ema`, `previous_close`. -/
structure FiS (R : Type) where
  ema : R
  prev : R

/-- `ti_fi_stream_new`, fi.cc:62-74. -/
def fiNew (o : Nat → R) : M (NewRes R (FiS R)) := do
  if o 0 < c! 1 then return .fail .invalidOption
  return .made (c! 2 / (o 0 + c! 1)) (-1) ⟨c! 0, c! 0⟩

/-- `ti_fi_stream_run`, fi.cc:80-112. -/
def fiPhases (per : R) : List (Phase (CV R) (FiS R) R) :=
  [ { cond := fun p => decide (p = -1)
      body := fun _ r s => return ({ s with prev := r.close }, []) },
    { cond := fun p => decide (p = 0)
      body := fun _ r s =>
        let ema := r.volume * (r.close - s.prev)
        return (⟨ema, r.close⟩, [ema]) },
    { cond := fun _ => true
      body := fun _ r s =>
        let ema := (r.volume * (r.close - s.prev) - s.ema) * per + s.ema
        return (⟨ema, r.close⟩, [ema]) } ]

def fi : Indicator R (CV R) R where
  κ := R
  σ := FiS R
  start := fiStart
  batch := fiBatch
  new := fiNew
  phases := fiPhases

/-! ### mgdyn -/

/-- The loops mgdyn.cc:27-34 and 105-112 (mgdyn.cc:48-55 in `ti_mgdyn_ref`). State: `filt`. -/
def mgdynPhases (n : R) : List (Phase R (Option R) R) :=
  [ { cond := fun p => decide (p < 1)
      body := fun _ v _ => return (some v, [v]) },
    { cond := fun _ => true
      body := fun _ v s => do
        let f ← getV s
        let f' := f + (v - f) / (n * CMath.pow (v / f) (c! 4))
        return (some f', [f']) } ]

/-- `ti_mgdyn_start`, mgdyn.cc:14-16. -/
def mgdynStart (_ : Nat → R) : M Int := .ok 0

/-- `ti_mgdyn`, mgdyn.cc:18-37: the option is not checked.  `ti_mgdyn_ref`, mgdyn.cc:39-58, has the same text. -/
def mgdynBatch (o : Nat → R) (xs : List R) : M (Ret × List R) := do
  let cap := (xs.length : Int) - (← mgdynStart o)
  loopBatch cap (mgdynPhases (o 0)) 0 none xs

/-- `ti_mgdyn_stream_new`, mgdyn.cc:75-90. -/
def mgdynNew (o : Nat → R) : M (NewRes R (Option R)) := do
  let start ← mgdynStart o
  return .made (o 0) (-start) (some (c! 0))

def mgdyn : Indicator R R R where
  κ := R
  σ := Option R
  start := mgdynStart
  batch := mgdynBatch
  new := mgdynNew
  phases := mgdynPhases

/-! ### pvt -/

/-- `ti_pvt_start`, pvt.cc:15-17. -/
def pvtStart (_ : Nat → R) : M Int := .ok 1

/-- `volume[i] && volume[i-1]` (pvt.cc:27, 30, 97) and `volume[index] && last_pvt` (pvt.cc:107). -/
def both (a b : R) : Bool := !(a == c! 0) && !(b == c! 0)

/-- `volume[i] * (close[i] - close[i-1]) / close[i-1]`. -/
def pvtMove (r : CV R) (c1 : R) : R := r.volume * (r.close - c1) / c1

/-- `ti_pvt`, pvt.cc:19-35.  `*(pvt - 1)` reads back the last value written. -/
def pvtBatch (o : Nat → R) (xs : List (CV R)) : M (Ret × List R) := do
  let cap := (xs.length : Int) - (← pvtStart o)
  let out ← forUp 1 (upto 1 2 xs.length) ([] : List R) fun i out => do
    let r ← rd xs i
    let q ← rd xs (i - 1)
    wr cap out (if both r.volume q.volume then pvtMove r q.close + q.volume else c! 0)
  let out ← forUp (upto 1 2 xs.length) xs.length out fun i out => do
    let r ← rd xs i
    let q ← rd xs (i - 1)
    let v ← if both r.volume q.volume then (do
      let last ← rd out (out.length - 1)
      return last + pvtMove r q.close : M R) else pure (c! 0)
    wr cap out v
  return (.okay, out)

/-- `ti_pvt_ref`, pvt.cc:37-50: bars 0 and 1 are read whatever the size; no test for zero volume. -/
def pvtRef (o : Nat → R) (xs : List (CV R)) : M (Ret × List R) := do
  let cap := (xs.length : Int) - (← pvtStart o)
  let r ← rd xs 1
  let q ← rd xs 0
  let out ← wr cap [] (pvtMove r q.close + q.volume)
  let out ← forUp 2 xs.length out fun i out => do
    let r ← rd xs i
    let q ← rd xs (i - 1)
    wr cap out ((← rd out (out.length - 1)) + pvtMove r q.close)
  return (.okay, out)

/-- State of pvt.cc:52-59. -/
structure PvtS (R : Type) where
  lastClose : R
  starting : R
  lastPvt : R

/-- `ti_pvt_stream_new`, pvt.cc:61-71. -/
def pvtNew (o : Nat → R) : M (NewRes Unit (PvtS R)) := do
  let start ← pvtStart o
  return .made () (-start) ⟨c! 0, c! 0, c! 0⟩

/-- `ti_pvt_stream_run`, pvt.cc:77-121.  The first two blocks are `if`s that take one bar each; progress starts at -1
and so they see exactly the bars a loop with the same condition would. -/
def pvtPhases (_ : Unit) : List (Phase (CV R) (PvtS R) R) :=
  [ { cond := fun p => decide (p < 0)
      body := fun _ r s => return ({ s with lastClose := r.close, starting := r.volume }, []) },
    { cond := fun p => decide (p = 0)
      body := fun _ r s =>
        let v := if both r.volume s.starting then pvtMove r s.lastClose + s.starting else c! 0
        return ({ s with lastPvt := v, lastClose := r.close }, [v]) },
    { cond := fun _ => true
      body := fun _ r s =>
        let v := s.lastPvt + (if both r.volume s.lastPvt then pvtMove r s.lastClose else c! 0)
        return ({ s with lastPvt := v, lastClose := r.close }, [v]) } ]

def pvt : Indicator R (CV R) R where
  κ := Unit
  σ := PvtS R
  start := pvtStart
  batch := pvtBatch
  new := pvtNew
  phases := pvtPhases

/-! ### kc -/

/-- `ti_kc_start`, kc.cc:14-19. -/
def kcStart (_ : Nat → R) : M Int := .ok 0

/-- The three outputs, kc.cc:49-51, 59-61, 140-142, 152-154. -/
def kcOut (mult p t : R) : Bands R := ⟨p - mult * t, p, p + mult * t⟩

/-- The loops of `ti_kc`, kc.cc:45-62. State: `price_ema`, `tr_ema`. -/
def kcLoops (mult per : R) (xs : List (HLC R)) : List (Phase (HLC R) (Option (R × R)) (Bands R)) :=
  [ { cond := fun i => decide (i < 1)
      body := fun _ r _ => return (some (r.close, r.high - r.low), [kcOut mult r.close (r.high - r.low)]) },
    { cond := fun _ => true
      body := fun i r s => do
        let (p, t) ← getV s
        let p' := (r.close - p) * per + p
        let c1 := (← rd xs (i - 1)).close
        let tr := stdMax r.high c1 - stdMin r.low c1
        let t' := (tr - t) * per + t
        return (some (p', t'), [kcOut mult p' t']) } ]

/-- `ti_kc`, kc.cc:21-67. -/
def kcBatch (o : Nat → R) (xs : List (HLC R)) : M (Ret × List (Bands R)) := do
  if o 0 < c! 1 then return (.invalidOption, [])
  if o 1 < c! 0 then return (.invalidOption, [])
  let cap := (xs.length : Int) - (← kcStart o)
  loopBatch cap (kcLoops (o 1) (c! 2 / (o 0 + c! 1)) xs) 0 none xs

/-- State of kc.cc:78-82. -/
structure KcS (R : Type) where
  price : R
  tr : R
  prev : R

/-- Constants of kc.cc:73-76, 84-86. -/
structure KcK (R : Type) where
  multiple : R
  per : R

/-- `ti_kc_stream_new`, kc.cc:89-109: the check on the period is `period < 0`. -/
def kcNew (o : Nat → R) : M (NewRes (KcK R) (KcS R)) := do
  if o 0 < c! 0 then return .fail .invalidOption
  if o 1 < c! 0 then return .fail .invalidOption
  let start ← kcStart o
  return .made ⟨o 1, c! 2 / (o 0 + c! 1)⟩ (-start) ⟨c! 0, c! 0, c! 0⟩

/-- `ti_kc_stream_run`, kc.cc:115-165. -/
def kcPhases (k : KcK R) : List (Phase (HLC R) (KcS R) (Bands R)) :=
  [ { cond := fun p => decide (p < 1)
      body := fun _ r _ =>
        return (⟨r.close, r.high - r.low, r.close⟩, [kcOut k.multiple r.close (r.high - r.low)]) },
    { cond := fun _ => true
      body := fun _ r s =>
        let p' := (r.close - s.price) * k.per + s.price
        let tr := stdMax r.high s.prev - stdMin r.low s.prev
        let t' := (tr - s.tr) * k.per + s.tr
        return (⟨p', t', r.close⟩, [kcOut k.multiple p' t']) } ]

def kc : Indicator R (HLC R) (Bands R) where
  κ := KcK R
  σ := KcS R
  start := kcStart
  batch := kcBatch
  new := kcNew
  phases := kcPhases

/-! ### tsi -/

/-- `ti_tsi_start`, tsi.cc:11-13. -/
def tsiStart (_ : Nat → R) : M Int := .ok 1

/-- The averages of tsi.cc:26-29, 102-105: numerator and denominator, after the first and the second smoothing. -/
structure TsiE (R : Type) where
  yNum : R
  zNum : R
  yDen : R
  zDen : R

/-- `100. * (z_ema_den ? z_ema_num / z_ema_den : 0)`. -/
def tsiOut (e : TsiE R) : R := c! 100 * (if e.zDen == c! 0 then c! 0 else e.zNum / e.zDen)

/-- `(x - y) * 2. / (1. + period) + y`. -/
def tsiEma (period x y : R) : R := (x - y) * c! 2 / (c! 1 + period) + y

/-- The loops tsi.cc:33-56 and 149-172. State: `price` and the four averages. -/
def tsiPhases (k : R × R) : List (Phase R (Option R × Option (TsiE R)) R) :=
  [ { cond := fun p => decide (p = -1)
      body := fun _ v s => return ((some v, s.2), []) },
    { cond := fun p => decide (p = 0)
      body := fun _ v s => do
        let price ← getV s.1
        let e : TsiE R := ⟨v - price, v - price, CMath.fabs (v - price), CMath.fabs (v - price)⟩
        return ((some v, some e), [tsiOut e]) },
    { cond := fun _ => true
      body := fun _ v s => do
        let price ← getV s.1
        let e ← getV s.2
        let yn := tsiEma k.1 (v - price) e.yNum
        let yd := tsiEma k.1 (CMath.fabs (v - price)) e.yDen
        let zn := tsiEma k.2 yn e.zNum
        let zd := tsiEma k.2 yd e.zDen
        let e' : TsiE R := ⟨yn, zn, yd, zd⟩
        return ((some v, some e'), [tsiOut e']) } ]

/-- `ti_tsi`, tsi.cc:15-59. -/
def tsiBatch (o : Nat → R) (xs : List R) : M (Ret × List R) := do
  if o 0 < c! 1 then return (.invalidOption, [])
  if o 1 < c! 1 then return (.invalidOption, [])
  let cap := (xs.length : Int) - (← tsiStart o)
  loopBatch cap (tsiPhases (o 0, o 1)) (-1) (none, none) xs

/-- `ti_tsi_ref`, tsi.cc:61-91: composed of `ti_mom`, `ti_abs` and `ti_ema` (which works in place), whose return codes
are dropped (a refusing `ti_ema` leaves its input). -/
def tsiRef (o : Nat → R) (xs : List R) : M (Ret × List R) := do
  if o 0 < c! 1 then return (.invalidOption, [])
  if o 1 < c! 1 then return (.invalidOption, [])
  let mom ← momBatch (fun _ => c! 1) xs
  let ab ← absBatch (fun _ => c! 0) mom.2
  let m1 ← emaInPlace (fun _ => o 0) mom.2
  let m2 ← emaInPlace (fun _ => o 1) m1
  let a1 ← emaInPlace (fun _ => o 0) ab.2
  let a2 ← emaInPlace (fun _ => o 1) a1
  let out ← forUp 0 (xs.length - 1) ([] : List R) fun i out => do
    wr (xs.length - 1) out (c! 100 * (← rd m2 i) / (← rd a2 i))
  return (.okay, out)

/-- `ti_tsi_stream_new`, tsi.cc:109-125. -/
def tsiNew (o : Nat → R) : M (NewRes (R × R) (Option R × Option (TsiE R))) := do
  if o 0 < c! 1 then return .fail .invalidOption
  if o 1 < c! 1 then return .fail .invalidOption
  let start ← tsiStart o
  return .made (o 0, o 1) (-start) (some (c! 0), some ⟨c! 0, c! 0, c! 0, c! 0⟩)

def tsi : Indicator R R R where
  κ := R × R
  σ := Option R × Option (TsiE R)
  start := tsiStart
  batch := tsiBatch
  new := tsiNew
  phases := tsiPhases

/-! ### rmi -/

/-- `ti_rmi_start`, rmi.cc:13-18. -/
def rmiStart (o : Nat → R) : M Int := toInt (o 1)

/-- `gains_ema ? gains_ema / (gains_ema + losses_ema) * 100. : 0`. -/
def rmiOut (g l : R) : R := if g == c! 0 then c! 0 else g / (g + l) * c! 100

/-- `ti_rmi`, rmi.cc:21-52. -/
def rmiBatch (o : Nat → R) (xs : List R) : M (Ret × List R) := do
  let period := o 0
  let lookback := o 1
  if period < c! 1 then return (.invalidOption, [])
  if lookback < c! 1 then return (.invalidOption, [])
  if ((xs.length : Int) : R) < lookback + c! 1 then return (.okay, [])
  let cap := (xs.length : Int) - (← rmiStart o)
  let i ← toInt lookback
  let lb ← toInt lookback
  let g := cMax (c! 0) ((← rd xs i) - (← rd xs (i - lb)))
  let l := cMax (c! 0) ((← rd xs (i - lb)) - (← rd xs i))
  let out ← wr cap [] (rmiOut g l)
  let s ← forUp (i + 1) xs.length (g, l, out) fun i s => do
    let g := (cMax (c! 0) ((← rd xs i) - (← rd xs (i - lb))) - s.1) * c! 2 / (c! 1 + period) + s.1
    let l := (cMax (c! 0) ((← rd xs (i - lb)) - (← rd xs i)) - s.2.1) * c! 2 / (c! 1 + period) + s.2.1
    let out ← wr cap s.2.2 (rmiOut g l)
    return (g, l, out)
  return (.okay, s.2.2)

/-- `ti_rmi_ref`, rmi.cc:54-84: the return codes of `ti_ema` are dropped; no test for zero. -/
def rmiRef (o : Nat → R) (xs : List R) : M (Ret × List R) := do
  if o 0 < c! 1 then return (.invalidOption, [])
  if o 1 < c! 1 then return (.invalidOption, [])
  let start ← rmiStart o
  let lb ← toInt (o 1)
  let cap := (xs.length : Int) - start
  let s ← forUp lb xs.length (([] : List R), ([] : List R)) fun i s => do
    let g ← wr cap s.1 (cMax (c! 0) ((← rd xs i) - (← rd xs (i - lb))))
    let l ← wr cap s.2 (cMax (c! 0) ((← rd xs (i - lb)) - (← rd xs i)))
    return (g, l)
  let g ← emaInPlace (fun _ => o 0) s.1
  let l ← emaInPlace (fun _ => o 0) s.2
  let out ← forUp 0 cap ([] : List R) fun i out => do
    wr cap out ((← rd g i) / ((← rd g i) + (← rd l i)) * c! 100)
  return (.okay, out)

/-- State of rmi.cc:92-96. -/
structure RmiS (R : Type) where
  gains : R
  losses : R
  price : Ring R

/-- `ti_rmi_stream_new`, rmi.cc:103-127. -/
def rmiNew (o : Nat → R) : M (NewRes (R × R) (RmiS R)) := do
  if o 0 < c! 1 then return .fail .invalidOption
  if o 1 < c! 1 then return .fail .invalidOption
  let start ← rmiStart o
  let price ← Ring.make (← toInt (o 1 + c! 1))
  return .made (o 0, o 1) (-start) ⟨c! 0, c! 0, price⟩

/-- `ti_rmi_stream_run`, rmi.cc:134-180. -/
def rmiPhases (k : R × R) : List (Phase R (RmiS R) R) :=
  [ { cond := fun p => decide (p < 0)
      body := fun _ v s => do return ({ s with price := (← s.price.set v).step }, []) },
    { cond := fun p => decide (p < 1)
      body := fun _ v s => do
        let price ← s.price.set v
        let old ← price.get (← toInt k.2)
        let g := stdMax (c! 0) (v - old)
        let l := stdMax (c! 0) (old - v)
        return (⟨g, l, price.step⟩, [rmiOut g l]) },
    { cond := fun _ => true
      body := fun _ v s => do
        let price ← s.price.set v
        let old ← price.get (← toInt k.2)
        let g := (stdMax (c! 0) (v - old) - s.gains) * c! 2 / (k.1 + c! 1) + s.gains
        let l := (stdMax (c! 0) (old - v) - s.losses) * c! 2 / (k.1 + c! 1) + s.losses
        return (⟨g, l, price.step⟩, [rmiOut g l]) } ]

def rmi : Indicator R R R where
  κ := R × R
  σ := RmiS R
  start := rmiStart
  batch := rmiBatch
  new := rmiNew
  phases := rmiPhases

/-! ### vwap -/

/-- `ti_vwap_start`, vwap.cc:12-14. -/
def vwapStart (o : Nat → R) : M Int := do i32 ((← toInt (o 0)) - 1)

/-- `(high[i] + low[i] + close[i]) / 3. * volume[i]`. -/
def vwapNum (r : HLCV R) : R := (r.high + r.low + r.close) / c! 3 * r.volume

/-- `num ? num / den : 0`. -/
def vwapOut (num den : R) : R := if num == c! 0 then c! 0 else num / den

/-- `ti_vwap`, vwap.cc:16-50.  After the first loop `i` is `min(size, 1 - progress)` (the loop runs until progress
reaches 1) and progress has grown by `i`. -/
def vwapBatch (o : Nat → R) (xs : List (HLCV R)) : M (Ret × List R) := do
  if o 0 < c! 1 then return (.invalidOption, [])
  let cap := (xs.length : Int) - (← vwapStart o)
  let progress ← toInt (-(o 0) + c! 1)
  let i := max 0 (min (xs.length : Int) (1 - progress))
  let s ← forUp 0 i ((c! 0 : R), (c! 0 : R)) fun i s => do
    let r ← rd xs i
    return (s.1 + vwapNum r, s.2 + r.volume)
  let out ← if 0 < i ∧ progress + i = 1 then wr cap [] (vwapOut s.1 s.2) else pure []
  let period ← toInt (o 0)
  let t ← forUp i xs.length (s.1, s.2, out) fun i t => do
    let r ← rd xs i
    let q ← rd xs (i - period)
    let num := t.1 + (vwapNum r - vwapNum q)
    let den := t.2.1 + (r.volume - q.volume)
    let out ← wr cap t.2.2 (vwapOut num den)
    return (num, den, out)
  return (.okay, t.2.2)

/-- `ti_vwap_ref`, vwap.cc:52-89: `i < period` compares with the untruncated option, and a first value is written
whatever the size. -/
def vwapRef (o : Nat → R) (xs : List (HLCV R)) : M (Ret × List R) := do
  if o 0 < c! 1 then return (.invalidOption, [])
  let cap := (xs.length : Int) - (← vwapStart o)
  let typ ← typpriceBatch o (xs.map fun r => ⟨r.high, r.low, r.close⟩)
  let s ← forUp 0 xs.length ((c! 0 : R), (c! 0 : R)) fun i s =>
    if ((i : Int) : R) < o 0 then do
      let v := (← rd xs i).volume
      return (s.1 + (← rd typ.2 i) * v, s.2 + v)
    else pure s
  let out ← wr cap [] (s.1 / s.2)
  let period ← toInt (o 0)
  let t ← forUp period xs.length (s.1, s.2, out) fun i t => do
    let v := (← rd xs i).volume
    let w := (← rd xs (i - period)).volume
    let sum := t.1 + (← rd typ.2 i) * v - (← rd typ.2 (i - period)) * w
    let vsum := t.2.1 + v - w
    let out ← wr cap t.2.2 (sum / vsum)
    return (sum, vsum, out)
  return (.okay, t.2.2)

/-- State of vwap.cc:96-104: the sums and the four rings. -/
structure VwapS (R : Type) where
  num : R
  den : R
  high : Ring R
  low : Ring R
  close : Ring R
  volume : Ring R

/-- `ti_vwap_stream_new`, vwap.cc:111-138. -/
def vwapNew (o : Nat → R) : M (NewRes Int (VwapS R)) := do
  if o 0 < c! 1 then return .fail .invalidOption
  let start ← vwapStart o
  let period ← toInt (o 0)
  let m ← toInt (o 0 + c! 1)
  return .made period (-start) ⟨c! 0, c! 0, ← Ring.make m, ← Ring.make m, ← Ring.make m, ← Ring.make m⟩

/-- `ti_vwap_stream_run`, vwap.cc:144-196. -/
def vwapPhases (period : Int) : List (Phase (HLCV R) (VwapS R) R) :=
  [ { cond := fun p => decide (p < 0)
      body := fun _ r s => do
        let h ← s.high.set r.high
        let l ← s.low.set r.low
        let c ← s.close.set r.close
        let v ← s.volume.set r.volume
        return (⟨s.num + vwapNum r, s.den + r.volume, h.step, l.step, c.step, v.step⟩, []) },
    { cond := fun _ => true
      body := fun _ r s => do
        let h ← s.high.set r.high
        let l ← s.low.set r.low
        let c ← s.close.set r.close
        let v ← s.volume.set r.volume
        let num := s.num + vwapNum r
        let den := s.den + r.volume
        let y := vwapOut num den
        let q : HLCV R := ⟨← h.get (period - 1), ← l.get (period - 1), ← c.get (period - 1), ← v.get (period - 1)⟩
        return (⟨num - vwapNum q, den - q.volume, h.step, l.step, c.step, v.step⟩, [y]) } ]

def vwap : Indicator R (HLCV R) R where
  κ := Int
  σ := VwapS R
  start := vwapStart
  batch := vwapBatch
  new := vwapNew
  phases := vwapPhases

/-! ### evwma -/

/-- `ti_evwma_start`, evwma.cc:15-20. -/
def evwmaStart (o : Nat → R) : M Int := do i32 ((← toInt (o 0)) - 1)

/-- `N ? filt * (1 - volume / (gamma * N)) + volume / (gamma * N) * close : 0`, evwma.cc:47, 160. -/
def evwmaNext (gamma filt n : R) (r : CV R) : R :=
  if n == c! 0 then c! 0 else filt * (c! 1 - r.volume / (gamma * n)) + r.volume / (gamma * n) * r.close

/-- The loops of `ti_evwma`, evwma.cc:36-50. State: `filt`, `N`. -/
def evwmaLoops (period : Int) (gamma : R) (xs : List (CV R)) : List (Phase (CV R) (Option R × R) R) :=
  [ { cond := fun i => decide (i < period - 1)
      body := fun _ r s => return ((s.1, s.2 + r.volume), []) },
    { cond := fun i => decide (i < period)
      body := fun _ r s => return ((some r.close, s.2 + r.volume), [r.close]) },
    { cond := fun _ => true
      body := fun i r s => do
        let n := s.2 + (r.volume - (← rd xs (i - period)).volume)
        let f' ← if n == c! 0 then pure (c! 0) else do
          let f ← getV s.1
          pure (f * (c! 1 - r.volume / (gamma * n)) + r.volume / (gamma * n) * r.close)
        return ((some f', n), [f']) } ]

/-- `ti_evwma`, evwma.cc:22-53. -/
def evwmaBatch (o : Nat → R) (xs : List (CV R)) : M (Ret × List R) := do
  let period ← toInt (o 0)
  if period < 1 then return (.invalidOption, [])
  if o 1 ≤ c! 0 then return (.invalidOption, [])
  let cap := (xs.length : Int) - (← evwmaStart o)
  loopBatch cap (evwmaLoops period (o 1) xs) 0 (none, c! 0) xs

/-- `ti_evwma_ref`, evwma.cc:55-82.  `std::accumulate(…, 0)` accumulates in an `int`: every partial sum is truncated. -/
def evwmaRef (o : Nat → R) (xs : List (CV R)) : M (Ret × List R) := do
  let period ← toInt (o 0)
  if period < 1 then return (.invalidOption, [])
  if o 1 ≤ c! 0 then return (.invalidOption, [])
  let cap := (xs.length : Int) - (← evwmaStart o)
  if (xs.length : Int) < period then return (.okay, [])
  let filt := (← rd xs (period - 1)).close
  let out ← wr cap [] filt
  let s ← forUp period xs.length (filt, out) fun i s => do
    let acc ← forUp (i - period + 1) (i + 1) (0 : Int) fun k acc => do
      toInt ((acc : R) + (← rd xs k).volume)
    let n : R := (acc : R)
    let r ← rd xs i
    let f := s.1 * (c! 1 - r.volume / (o 1 * n)) + r.volume / (o 1 * n) * r.close
    let out ← wr cap s.2 f
    return (f, out)
  return (.okay, s.2)

/-- State of evwma.cc:91-95. -/
structure EvwmaS (R : Type) where
  filt : R
  n : R
  volume : Ring R

/-- `ti_evwma_stream_new`, evwma.cc:102-126. -/
def evwmaNew (o : Nat → R) : M (NewRes (Int × R) (EvwmaS R)) := do
  let period ← toInt (o 0)
  if period < 1 then return .fail .invalidOption
  if o 1 ≤ c! 0 then return .fail .invalidOption
  let start ← evwmaStart o
  let volume ← Ring.make (← i32 (period + 1))
  return .made (period, o 1) (-start) ⟨c! 0, c! 0, volume⟩

/-- `ti_evwma_stream_run`, evwma.cc:132-170. -/
def evwmaPhases (k : Int × R) : List (Phase (CV R) (EvwmaS R) R) :=
  [ { cond := fun p => decide (p < 0)
      body := fun _ r s => do
        let v ← s.volume.set r.volume
        return ({ s with n := s.n + r.volume, volume := v.step }, []) },
    { cond := fun p => decide (p < 1)
      body := fun _ r s => do
        let v ← s.volume.set r.volume
        return (⟨r.close, s.n + r.volume, v.step⟩, [r.close]) },
    { cond := fun _ => true
      body := fun _ r s => do
        let v ← s.volume.set r.volume
        let n := s.n + ((← v.cur) - (← v.get k.1))
        let f := evwmaNext k.2 s.filt n r
        return (⟨f, n, v.step⟩, [f]) } ]

def evwma : Indicator R (CV R) R where
  κ := Int × R
  σ := EvwmaS R
  start := evwmaStart
  batch := evwmaBatch
  new := evwmaNew
  phases := evwmaPhases

/-! ### vi -/

/-- The pair of outputs of vi. -/
structure ViOut (R : Type) where (plus minus : R) deriving DecidableEq, Inhabited

/-- `ti_vi_start`, vi.cc:16-19. -/
def viStart (o : Nat → R) : M Int := toInt (o 0)

/-- The three terms vi.cc:36-38, 44-48, 169-171, 196-204 for a bar and the bar before it.  `abs` of a `double` is
`fabs`; `fmax` is written as `std::max`, with which it agrees unless an argument is NaN. -/
structure ViT (R : Type) where
  p : R
  m : R
  t : R

def viTerm (r q : HLC R) : ViT R :=
  ⟨CMath.fabs (r.high - q.low), CMath.fabs (r.low - q.high),
   stdMax (r.high - r.low) (stdMax (CMath.fabs (r.high - q.close)) (CMath.fabs (r.low - q.close)))⟩

def ViT.add (a b : ViT R) : ViT R := ⟨a.p + b.p, a.m + b.m, a.t + b.t⟩
def ViT.sub (a b : ViT R) : ViT R := ⟨a.p - b.p, a.m - b.m, a.t - b.t⟩

/-- `last_vm_p_period ? last_vm_p_period / last_TR_period : 0` and the same for minus. -/
def viOut (s : ViT R) : ViOut R := ⟨if s.p == c! 0 then c! 0 else s.p / s.t, if s.m == c! 0 then c! 0 else s.m / s.t⟩

/-- `ti_vi`, vi.cc:21-54.  `vi_p[0]` is assigned in every turn of the first loop; the model writes the last one.  The
further writes go to consecutive indices. -/
def viBatch (o : Nat → R) (xs : List (HLC R)) : M (Ret × List (ViOut R)) := do
  let period ← toInt (o 0)
  if period < 1 ∨ (xs.length : Int) ≤ period then return (.invalidOption, [])
  let cap := (xs.length : Int) - (← viStart o)
  let s ← forUp 1 (period + 1) (⟨c! 0, c! 0, c! 0⟩ : ViT R) fun k s => do
    return s.add (viTerm (← rd xs k) (← rd xs (k - 1)))
  let out ← wr cap [] (viOut s)
  let t ← forUp (period + 1) xs.length (s, out) fun i t => do
    let old := viTerm (← rd xs (i - period)) (← rd xs (i - period - 1))
    let new := viTerm (← rd xs i) (← rd xs (i - 1))
    let s := (t.1.sub old).add new
    let out ← wr cap t.2 (viOut s)
    return (s, out)
  return (.okay, t.2)

/-- `ti_vi_ref`, vi.cc:56-102: as `ti_vi` with no test for zero.  The vectors of terms and of sums are not stored: the
model recomputes the two terms and keeps the last sum. -/
def viRef (o : Nat → R) (xs : List (HLC R)) : M (Ret × List (ViOut R)) := do
  let period ← toInt (o 0)
  if period < 1 ∨ (xs.length : Int) ≤ period then return (.invalidOption, [])
  let cap := (xs.length : Int) - (← viStart o)
  let s ← forUp 1 (period + 1) (⟨c! 0, c! 0, c! 0⟩ : ViT R) fun k s => do
    return s.add (viTerm (← rd xs k) (← rd xs (k - 1)))
  let out ← wr cap [] (⟨s.p / s.t, s.m / s.t⟩ : ViOut R)
  let t ← forUp (period + 1) xs.length (s, out) fun i t => do
    let old := viTerm (← rd xs (i - period)) (← rd xs (i - period - 1))
    let new := viTerm (← rd xs i) (← rd xs (i - 1))
    let s := (t.1.sub old).add new
    let out ← wr cap t.2 (⟨s.p / s.t, s.m / s.t⟩ : ViOut R)
    return (s, out)
  return (.okay, t.2)

/-- State of vi.cc:110-118: the sums and the queue of bars (three queues of the same length). -/
structure ViS (R : Type) where
  sums : ViT R
  story : List (HLC R)

/-- `ti_vi_stream_new`, vi.cc:125-140. -/
def viNew (o : Nat → R) : M (NewRes R (ViS R)) := do
  if o 0 < c! 1 then return .fail .invalidOption
  let start ← viStart o
  return .made (o 0) (-start) ⟨⟨c! 0, c! 0, c! 0⟩, []⟩

/-- vi.cc:168-172: `high_story.back()` etc. are used only if the queues are not empty. -/
def viGrow (s : ViT R) (back : Option (HLC R)) (r : HLC R) : ViT R :=
  match back with
  | some q => s.add (viTerm r q)
  | none => s

/-- `ti_vi_stream_run`, vi.cc:146-221.  The branches depend on the length of the queue, not on progress: written as one
loop whose body decides; the block vi.cc:181-184 runs right after the bar that fills the queue. -/
def viPhases (period : R) : List (Phase (HLC R) (ViS R) (ViOut R)) :=
  [ { cond := fun _ => true
      body := fun _ r s =>
        if ((s.story.length : Int) : R) ≤ period then
          let sums := viGrow s.sums s.story.getLast? r
          let story := s.story ++ [r]
          return (⟨sums, story⟩, if period < ((story.length : Int) : R) then [viOut sums] else [])
        else
          match s.story with
          | f :: g :: rest => do
            let last ← getV (g :: rest).getLast?
            let sums := (s.sums.sub (viTerm g f)).add (viTerm r last)
            return (⟨sums, g :: rest ++ [r]⟩, [viOut sums])
          | _ => .error .oobRead } ]

def vi : Indicator R (HLC R) (ViOut R) where
  κ := R
  σ := ViS R
  start := viStart
  batch := viBatch
  new := viNew
  phases := viPhases

end Verif
