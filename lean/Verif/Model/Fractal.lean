/-
Models of hurst, mesastoch and frama (`/repo/indicators/<name>.cc`): batch, reference and stream implementations. Memory is
assumed available throughout.
-/
import Verif.Core.LoopBatch
import Verif.Core.Exact
import Verif.Core.Rows
import Verif.Model.Ring
import Verif.Model.Flow
import Verif.Model.Chan
import Verif.Model.Average
import Verif.Model.Trail

namespace Verif
variable {R : Type} [Num R]

/-! ### hurst -/

/-- `ti_hurst_start`, hurst.cc:16-20. -/
def hurstStart (o : Nat → R) : M Int := toInt (o 0)

/-- The two outputs, written in lockstep. -/
structure Hurst (R : Type) where (hurst dim : R) deriving DecidableEq, Inhabited

/-- `a && b ? log(a / b) : 0`, hurst.cc:35. -/
def hurstRet (a b : R) : R := if !(a == c! 0) && !(b == c! 0) then CMath.log (a / b) else c! 0

/-- `std::max(m, x)` with `m` starting at minus infinity (`none`). -/
def optMax (m : Option R) (x : R) : R := match m with | none => x | some m => stdMax m x
/-- `std::min(m, x)` with `m` starting at infinity (`none`). -/
def optMin (m : Option R) (x : R) : R := match m with | none => x | some m => stdMin m x

/-- `cum_meandev`, its extremes and `stddev`. -/
structure HurstW (R : Type) where
  cum : R
  hi : Option R
  lo : Option R
  dev : R

/-- The inner loop and the two lines after it, hurst.cc:44-56 and 195-207: `R` and `S`. `r j` reads `r[j]`. -/
def hurstWin (period mean : R) (r : Int → M R) : M (R × R) := do
  let s ← forUp 0 (← bound period) (⟨c! 0, none, none, c! 0⟩ : HurstW R) fun j s => do
    let v ← r j
    let cum := s.cum + (v - mean)
    return ⟨cum, some (optMax s.hi cum), some (optMin s.lo cum), s.dev + CMath.pow (v - mean) (c! 2)⟩
  return ((← getV s.hi) - (← getV s.lo), CMath.sqrt (s.dev / period))

/-- `R ? log(R/S) / log(period) : 0` and the two writes, hurst.cc:61-63. -/
def hurstOut (period : R) (rs : R × R) : Hurst R :=
  let h := if rs.1 == c! 0 then c! 0 else CMath.log (rs.1 / rs.2) / CMath.log period
  ⟨h, c! 2 - h⟩

/-- `sum` and `r`. -/
structure HurstS (R : Type) where
  sum : R
  r : Ring R

/-- The loops hurst.cc:34-37 and 38-66. They start at `i = 1`; the first phase stands for that. -/
def hurstLoops (period : R) (xs : List R) : List (Phase R (HurstS R) (Hurst R)) :=
  [ { cond := fun i => decide (i < 1)
      body := fun _ _ s => return (s, []) },
    { cond := fun i => decide ((i : R) < period)
      body := fun i v s => do
        let d := hurstRet v (← rd xs (i - 1))
        let r ← s.r.set d
        return (⟨s.sum + d, r.step⟩, []) },
    { cond := fun _ => true
      body := fun i v s => do
        let d := hurstRet v (← rd xs (i - 1))
        let r ← s.r.set d
        let sum := s.sum + d
        let rs ← hurstWin period (sum / period) r.get
        let old ← r.get (← toInt (period - c! 1))
        return (⟨sum - old, r.step⟩, [hurstOut period rs]) } ]

/-- `ti_hurst`, hurst.cc:22-70. -/
def hurstBatch (o : Nat → R) (xs : List R) : M (Ret × List (Hurst R)) := do
  if o 0 < c! 2 then return (.invalidOption, [])
  let r ← Ring.make (← toInt (o 0))
  loopBatch ((xs.length : Int) - (← hurstStart o)) (hurstLoops (o 0) xs) 0 ⟨c! 0, r⟩ xs

/-- `ti_hurst_ref`, hurst.cc:73-117: no guard against zero prices nor against a zero range. -/
def hurstRef (o : Nat → R) (xs : List R) : M (Ret × List (Hurst R)) := do
  if o 0 < c! 2 then return (.invalidOption, [])
  let start ← hurstStart o
  let out ← forUp (← toInt (o 0)) xs.length ([] : List (Hurst R)) fun i out => do
    let r := fun (j : Int) => (do return CMath.log ((← rd xs (i - j)) / (← rd xs (i - j - 1))) : M R)
    let total ← forUp 0 (← bound (o 0)) (c! 0 : R) fun j total => do return total + (← r j)
    let mean := total / o 0
    let s ← forUp 0 (← bound (o 0)) ((c! 0, none, none) : R × Option R × Option R) fun j s => do
      let cum := s.1 + ((← r j) - mean)
      return (cum, some (optMax s.2.1 cum), some (optMin s.2.2 cum))
    let dev ← forUp 0 (← bound (o 0)) (c! 0 : R) fun j dev => do return dev + CMath.pow ((← r j) - mean) (c! 2)
    let range := (← getV s.2.1) - (← getV s.2.2)
    let h := CMath.log (range / CMath.sqrt (dev / o 0)) / CMath.log (o 0)
    wr (xs.length - start) out ⟨h, c! 2 - h⟩
  return (.okay, out)

/-- State of `ti_hurst_stream`, hurst.cc:119-134. -/
structure HurstT (R : Type) where
  sum : R
  r : Ring R
  price : Ring2 R

/-- `ti_hurst_stream_new`, hurst.cc:136-158: the period is kept as a real. -/
def hurstNew (o : Nat → R) : M (NewRes R (HurstT R)) := do
  if o 0 < c! 2 then return .fail .invalidOption
  let start ← hurstStart o
  let r ← Ring.make (← toInt (o 0))
  return .made (o 0) (-start) ⟨c! 0, r, Ring2.make⟩

/-- `ti_hurst_stream_run`, hurst.cc:164-221: loops 177-179, 180-185 and 186-215. -/
def hurstPhases (period : R) : List (Phase R (HurstT R) (Hurst R)) :=
  [ { cond := fun p => decide ((p : R) < -period + c! 1)
      body := fun _ v s => return ({ s with price := (s.price.set v).step }, []) },
    { cond := fun p => decide (p < 0)
      body := fun _ v s => do
        let price := s.price.set v
        let d := hurstRet price.cur (← price.get 1)
        let r ← s.r.set d
        return (⟨s.sum + d, r.step, price.step⟩, []) },
    { cond := fun _ => true
      body := fun _ v s => do
        let price := s.price.set v
        let d := hurstRet price.cur (← price.get 1)
        let r ← s.r.set d
        let sum := s.sum + d
        let rs ← hurstWin period (sum / period) r.get
        let old ← r.get (← toInt (period - c! 1))
        return (⟨sum - old, r.step, price.step⟩, [hurstOut period rs]) } ]

def hurst : Indicator R R (Hurst R) where
  κ := R
  σ := HurstT R
  start := hurstStart
  batch := hurstBatch
  new := hurstNew
  phases := hurstPhases

/-! ### mesastoch -/

/-- `ti_mesastoch_start`, mesastoch.cc:16-21. -/
def mesastochStart (o : Nat → R) : M Int := do i32 ((← toInt (o 0)) + 2)

/-- The constants, mesastoch.cc:48-53, with the macro `DEG2RAD`, mesastoch.cc:27. -/
structure MesaK (R : Type) where (alpha1 c1 c2 c3 : R)
def deg2rad (x : R) : R := x * (c! 3141592 / c! 1000000) / c! 180
def mesaConst (mcc : Int) : MesaK R :=
  let d := deg2rad (c! 707 / c! 1000 * c! 360 / (mcc : R))
  let a1 : R := CMath.exp (-(c! 1414 / c! 1000) * (c! 3141459 / c! 1000000) / c! 10)
  let c2 := c! 2 * a1 * CMath.cos (deg2rad (c! 1414 / c! 1000 * c! 180 / c! 10))
  let c3 := -a1 * a1
  ⟨(CMath.cos d + CMath.sin d - c! 1) / CMath.cos d, c! 1 - c2 - c3, c2, c3⟩

/-- The high-pass filter, mesastoch.cc:57-58: three prices and the last two values. -/
def mesaHP (k : MesaK R) (x0 x1 x2 h1 h2 : R) : R :=
  (c! 1 - k.alpha1 / c! 2) * (c! 1 - k.alpha1 / c! 2) * (x0 - c! 2 * x1 + x2) + c! 2 * (c! 1 - k.alpha1) * h1 -
    (c! 1 - k.alpha1) * (c! 1 - k.alpha1) * h2
/-- The smoothing filter, mesastoch.cc:59, 94. -/
def mesaSmooth (k : MesaK R) (u0 u1 f1 f2 : R) : R := k.c1 * (u0 + u1) / c! 2 + k.c2 * f1 + k.c3 * f2

/-- `HP`, `filt`, `stoc`, `result` and the extremes. -/
structure MesaS (R : Type) where
  hp : Ring R
  filt : Ring R
  stoc : Ring2 R
  res : Ring R
  ext : HiLo R

/-- mesastoch.cc:76-91: unlike in the other indicators the new value is looked at before the expiry. -/
def Ext.late (rep : R → R → Bool) (r : Ring R) (find : M Nat) (period i : Int) (x : R) (e : Ext R) : M (Ext R) := do
  if rep x (← getV e.val) then return ⟨some x, some i⟩
  else if (← getV e.idx) = i - period then
    let it ← find
    return ⟨some (← rd r.buf it), some (i - (← r.age it))⟩
  else return e

/-- The two filters of a bar, mesastoch.cc:57-59: `x1`, `x2` are the two prices before `x0`. -/
def mesaFilter (k : MesaK R) (x0 x1 x2 : R) (s : MesaS R) : M (R × MesaS R) := do
  let h := mesaHP k x0 x1 x2 (← s.hp.get 1) (← s.hp.get 2)
  let hp ← s.hp.set h
  let f := mesaSmooth k h (← hp.get 1) (← s.filt.get 1) (← s.filt.get 2)
  let filt ← s.filt.set f
  return (f, { s with hp := hp, filt := filt })

/-- The warm-up of a bar, mesastoch.cc:56-69. -/
def mesaWarm (k : MesaK R) (x0 x1 x2 : R) (i : Int) (s : MesaS R) : M (MesaS R × List R) := do
  let (f, s) ← mesaFilter k x0 x1 x2 s
  return ({ s with hp := s.hp.step, filt := s.filt.step, ext := s.ext.take f f i }, [])

/-- The rest of a bar, mesastoch.cc:71-97. `max` and `min` search the ring `filt`. -/
def mesaBar (k : MesaK R) (max min : Ring R → M Nat) (period : Int) (x0 x1 x2 : R) (i : Int) (s : MesaS R) : M (MesaS R × List R) := do
  let (f, s) ← mesaFilter k x0 x1 x2 s
  let hi ← s.ext.hi.late repMax s.filt (max s.filt) period i f
  let lo ← s.ext.lo.late repMin s.filt (min s.filt) period i f
  let h ← getV hi.val
  let l ← getV lo.val
  let stoc := s.stoc.set (if f - l == c! 0 then c! 0 else (f - l) / (h - l))
  let v := mesaSmooth k stoc.cur (← stoc.get 1) (← s.res.get 1) (← s.res.get 2)
  let res ← s.res.set v
  return (⟨s.hp.step, s.filt.step, stoc.step, res.step, ⟨hi, lo⟩⟩, [v])

/-- The loops mesastoch.cc:56-69 and 71-97. They start at `i = 2`; the first phase stands for that. -/
def mesastochLoops (k : MesaK R) (period start : Int) (xs : List R) : List (Phase R (MesaS R) R) :=
  [ { cond := fun i => decide (i < 2)
      body := fun _ _ s => return (s, []) },
    { cond := fun i => decide (i < start)
      body := fun i v s => do mesaWarm k v (← rd xs (i - 1)) (← rd xs (i - 2)) i s },
    { cond := fun _ => true
      body := fun i v s => do
        mesaBar k (Ring.physMax cmpLess) (Ring.physMax cmpGreater) period v (← rd xs (i - 1)) (← rd xs (i - 2)) i s } ]

/-- `ti_mesastoch`, mesastoch.cc:29-102. -/
def mesastochBatch (o : Nat → R) (xs : List R) : M (Ret × List R) := do
  let period ← toInt (o 0)
  let mcc ← toInt (o 1)
  if period < 1 then return (.invalidOption, [])
  if mcc < 1 then return (.invalidOption, [])
  let filt ← Ring.make period
  let hp ← Ring.make 3
  let res ← Ring.make 3
  let start ← mesastochStart o
  loopBatch ((xs.length : Int) - start) (mesastochLoops (mesaConst mcc) period start xs) 0 ⟨hp, filt, Ring2.make, res, .unset⟩ xs

/-- `std::deque`: `pop_back(); push_front(0); d[0] = v` on a deque of its initial length. -/
def dqPush (d : List R) (v : R) : M (List R) := if d.isEmpty then .error .badPtr else .ok (v :: d.dropLast)

/-- `HP`, `filt`, `stoc` and `result` of the reference. -/
structure MesaD (R : Type) where (hp filt stoc res : List R)

/-- One round of filters in the reference, mesastoch.cc:128-141, 145-158: before the push the indices of old values are one less. -/
def mesaRefStep (k : MesaK R) (xs : List R) (i : Int) (s : MesaD R) : M (MesaD R) := do
  let h := mesaHP k (← rd xs i) (← rd xs (i - 1)) (← rd xs (i - 2)) (← rd s.hp 0) (← rd s.hp 1)
  let h1 ← rd s.hp 0
  let hp ← dqPush s.hp h
  let filt0 ← dqPush s.filt (c! 0)
  let f := mesaSmooth k h h1 (← rd filt0 1) (← rd filt0 2)
  let filt ← dqPush s.filt f
  return { s with hp := hp, filt := filt }

/-- `ti_mesastoch_ref`, mesastoch.cc:104-170: the first loop does not look at `size`. The pushes of zeros to `stoc` and `result`
in it leave them as they are. -/
def mesastochRef (o : Nat → R) (xs : List R) : M (Ret × List R) := do
  let period ← toInt (o 0)
  let mcc ← toInt (o 1)
  if period < 1 then return (.invalidOption, [])
  if mcc < 1 then return (.invalidOption, [])
  let k : MesaK R := mesaConst mcc
  let start ← mesastochStart o
  let zero := fun (n : Nat) => List.replicate n (c! 0 : R)
  let s ← forUp 2 start (⟨zero 3, zero period.toNat, zero 2, zero 3⟩ : MesaD R) (mesaRefStep k xs)
  let r ← forUp start xs.length ((s, []) : MesaD R × List R) fun i (s, out) => do
    let s ← mesaRefStep k xs i s
    let hi ← rd s.filt (← maxUp cmpLess s.filt 0 s.filt.length)
    let lo ← rd s.filt (← maxUp cmpGreater s.filt 0 s.filt.length)
    let c := ((← rd s.filt 0) - lo) / (hi - lo)
    let v := mesaSmooth k c (← rd s.stoc 0) (← rd s.res 0) (← rd s.res 1)
    let out ← wr (xs.length - start) out v
    return ({ s with stoc := ← dqPush s.stoc c, res := ← dqPush s.res v }, out)
  return (.okay, r.2)

/-- State of `ti_mesastoch_stream`, mesastoch.cc:172-201. -/
structure MesaT (R : Type) where
  s : MesaS R
  price : Ring R

/-- `ti_mesastoch_stream_new`, mesastoch.cc:203-235. -/
def mesastochNew (o : Nat → R) : M (NewRes (Int × MesaK R) (MesaT R)) := do
  let period ← toInt (o 0)
  let mcc ← toInt (o 1)
  if period < 1 then return .fail .invalidOption
  if mcc < 1 then return .fail .invalidOption
  let start ← mesastochStart o
  let hp ← Ring.make 3
  let res ← Ring.make 3
  let price ← Ring.make 3
  let filt ← Ring.make period
  return .made (period, mesaConst mcc) (-start) ⟨⟨hp, filt, Ring2.make, res, .unset⟩, price⟩

/-- `ti_mesastoch_stream_run`, mesastoch.cc:241-326: loops 267-269, 270-286 and 287-317. The indices of the extremes, ints kept in
reals during a run, are ints here. -/
def mesastochPhases (k : Int × MesaK R) : List (Phase R (MesaT R) R) :=
  [ { cond := fun p => decide (p < -k.1)
      body := fun _ v t => do
        let price ← t.price.set v
        return ({ t with price := price.step }, []) },
    { cond := fun p => decide (p < 0)
      body := fun p v t => do
        let price ← t.price.set v
        let r ← mesaWarm k.2 v (← price.get 1) (← price.get 2) p t.s
        return (⟨r.1, price.step⟩, r.2) },
    { cond := fun _ => true
      body := fun p v t => do
        let price ← t.price.set v
        let r ← mesaBar k.2 (fun f => f.findMax cmpLess k.1) (fun f => f.findMax cmpGreater k.1) k.1 v (← price.get 1) (← price.get 2) p t.s
        return (⟨r.1, price.step⟩, r.2) } ]

def mesastoch : Indicator R R R where
  κ := Int × MesaK R
  σ := MesaT R
  start := mesastochStart
  batch := mesastochBatch
  new := mesastochNew
  phases := mesastochPhases

/-! ### frama -/

/-- `ti_frama_start`, frama.cc:15-20. -/
def framaStart (_ : Nat → R) : M Int := .ok 0

/-- The weight before it is clamped, frama.cc:95-100: `n1`, `n2`, `n3` are the ranges per bar. -/
def framaExp (w n1 n2 n3 : R) : R :=
  let dim := if c! 0 < n1 ∧ c! 0 < n2 ∧ c! 0 < n3 then (CMath.log (n1 + n2) - CMath.log n3) / CMath.log (c! 2) else c! 0
  CMath.exp (w * (dim - c! 1))
/-- frama.cc:101-102. -/
def framaAlpha (a : R) : R :=
  let a := if a < c! 1 / c! 100 then c! 1 / c! 100 else a
  if c! 1 < a then c! 1 else a
/-- `MAX(alpha, .01)`, `MIN(alpha, 1.)`, frama.cc:310-311. -/
def framaAlphaS (a : R) : R :=
  let a := if c! 1 / c! 100 < a then a else c! 1 / c! 100
  if a < c! 1 then a else c! 1

/-- frama.cc:104. -/
def framaNext (a : R) (r : HL R) (filt : R) : R := a * (r.high + r.low) / c! 2 + (c! 1 - a) * filt

/-- `highest`, `lowest` and those of the two halves, not assigned at first. -/
structure FramaW (R : Type) where
  hi : R
  lo : R
  first : Option (HL R)
  second : Option (HL R)

/-- The scan of a window, frama.cc:51-88. -/
def framaScan (xs : List (HL R)) (ws wc i : Int) : M (FramaW R) := do
  let r ← rd xs ws
  forUp ws (i + 1) (⟨r.high, r.low, none, none⟩ : FramaW R) fun j s => do
    let c ← rd xs j
    let first := if j = wc then some ⟨s.hi, s.lo⟩ else s.first
    let hi := if s.hi < c.high then c.high else s.hi
    let lo := if c.low < s.lo then c.low else s.lo
    if wc ≤ j then
      if j = wc then return ⟨hi, lo, first, some c⟩
      else
        let q ← getV s.second
        return ⟨hi, lo, first, some ⟨if q.high < c.high then c.high else q.high, if c.low < q.low then c.low else q.low⟩⟩
    else return ⟨hi, lo, first, s.second⟩

/-- `ti_frama`, frama.cc:23-109: loops 41-45 and 46-106. The second loop starts over at `(int)period`. The conversion of
`i - period + 1`, a number between 0 and `size`, is not range-checked, like `i` itself. -/
def framaBatch (o : Nat → R) (xs : List (HL R)) : M (Ret × List R) := do
  if o 0 < c! 1 then return (.invalidOption, [])
  if o 1 < c! 2 then return (.invalidOption, [])
  let period ← toInt (o 0)
  if period % 2 ≠ 0 then return (.invalidOption, [])
  let start ← framaStart o
  if (xs.length : Int) ≤ start then return (.okay, [])
  let w := CMath.log (c! 2 / (c! 1 + o 1))
  let half ← toInt (o 0 / c! 2)
  let cap := (xs.length : Int) - start
  let s ← forUp 0 (min (xs.length : Int) (← bound (o 0))) ((none, []) : Option R × List R) fun i s => do
    let r ← rd xs i
    let v := (r.high + r.low) / c! 2
    return (some v, ← wr cap s.2 v)
  let s ← forUp period xs.length s fun i s => do
    let q ← framaScan xs (CMath.trunc ((i : R) - o 0 + c! 1)) (i - half + 1) i
    let a ← getV q.first
    let b ← getV q.second
    let r ← rd xs i
    let v := framaNext (framaAlpha (framaExp w ((b.high - b.low) / (half : R)) ((a.high - a.low) / (half : R)) ((q.hi - q.lo) / o 0))) r (← getV s.1)
    return (some v, ← wr cap s.2 v)
  return (.okay, s.2)

/-- State of `ti_frama_stream`, frama.cc:111-137 (zero-initialised by `new …()`). `one` is the newer half. -/
structure FramaT (R : Type) where
  filt : R
  one : HiLo R
  two : HiLo R
  high : List R
  low : List R

/-- `ti_frama_stream_new`, frama.cc:139-159: the average period is not validated. The constants are the period, `(int)period`,
`(int)(period / 2)`, the number of `j` below `period / 2`, and `w`. -/
def framaNew (o : Nat → R) : M (NewRes (R × Int × Int × Int × R) (FramaT R)) := do
  if o 0 < c! 1 then return .fail .invalidOption
  let period ← toInt (o 0)
  if period % 2 ≠ 0 then return .fail .invalidOption
  let start ← framaStart o
  let zero : HiLo R := ⟨⟨some (c! 0), some 0⟩, ⟨some (c! 0), some 0⟩⟩
  return .made (o 0, period, ← toInt (o 0 / c! 2), ← bound (o 0 / c! 2), CMath.log (c! 2 / (c! 1 + o 1))) (-start)
    ⟨c! 0, zero, zero, [], []⟩

/-- `push_front` without `pop_back` and the write, frama.cc:191-194. -/
def framaPush (r : HL R) (s : FramaT R) : FramaT R := { s with filt := (r.high + r.low) / c! 2, high := r.high :: s.high, low := r.low :: s.low }

/-- One of the four blocks, e.g. frama.cc:249-261: the window ends `newest` bars ago and starts `oldest` bars ago. -/
def Ext.deq (rep : R → R → Bool) (d : List R) (due p oldest newest halfN : Int) (e : Ext R) : M (Ext R) := do
  if (← getV e.idx) = p - due then
    let v ← rd d oldest
    forUp 1 halfN (⟨some v, some (p - oldest)⟩ : Ext R) fun j e => do
      let v ← rd d (oldest - j)
      return if rep v (← getV e.val) then ⟨some v, some (p - (oldest - j))⟩ else e
  else
    let v ← rd d newest
    return if rep v (← getV e.val) then ⟨some v, some (p - newest)⟩ else e

/-- The weight in the stream, frama.cc:302-311. -/
def framaMove (period w : R) (h1 l1 h2 l2 : R) : R :=
  framaAlphaS (framaExp w ((h1 - l1) / (period / c! 2)) ((h2 - l2) / (period / c! 2))
    (((if h2 < h1 then h1 else h2) - (if l1 < l2 then l1 else l2)) / period))

/-- `ti_frama_stream_run`, frama.cc:165-329: loops 190-200, 201-215, 216-226, 227-241 and 242-314. In the last one the newer half
ends with the current bar. -/
def framaPhases (k : R × Int × Int × Int × R) : List (Phase (HL R) (FramaT R) R) :=
  let (period, ip, half, halfN, w) := k
  [ { cond := fun p => decide (p = 0)
      body := fun p r s =>
        let s := framaPush r s
        return ({ s with two := ⟨⟨some r.high, some p⟩, ⟨some r.low, some p⟩⟩ }, [s.filt]) },
    { cond := fun p => decide ((p : R) < period / c! 2)
      body := fun p r s =>
        let s := framaPush r s
        return ({ s with two := s.two.take r.high r.low p }, [s.filt]) },
    { cond := fun p => decide (p = ip / 2)
      body := fun p r s =>
        let s := framaPush r s
        return ({ s with one := ⟨⟨some r.high, some p⟩, ⟨some r.low, some p⟩⟩ }, [s.filt]) },
    { cond := fun p => decide ((p : R) < period)
      body := fun p r s =>
        let s := framaPush r s
        return ({ s with one := s.one.take r.high r.low p }, [s.filt]) },
    { cond := fun _ => true
      body := fun p r s => do
        let high ← dqPush s.high r.high
        let low ← dqPush s.low r.low
        let hi2 ← s.two.hi.deq repMax high ip p (ip - 1) half halfN
        let lo2 ← s.two.lo.deq repMin low ip p (ip - 1) half halfN
        let hi1 ← s.one.hi.deq repMax high (ip / 2) p (ip / 2 - 1) 0 halfN
        let lo1 ← s.one.lo.deq repMin low (ip / 2) p (ip / 2 - 1) 0 halfN
        let a := framaMove period w (← getV hi1.val) (← getV lo1.val) (← getV hi2.val) (← getV lo2.val)
        let v := framaNext a r s.filt
        return (⟨v, ⟨hi1, lo1⟩, ⟨hi2, lo2⟩, high, low⟩, [v]) } ]

def frama : Indicator R (HL R) R where
  κ := R × Int × Int × Int × R
  σ := FramaT R
  start := framaStart
  batch := framaBatch
  new := framaNew
  phases := framaPhases

end Verif
