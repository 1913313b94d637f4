/-
Model of `/repo/indicators/ahma.cc`, `ehma.cc`, `idwma.cc`, `lma.cc`, `shmma.cc`, `emsd.cc` and `edcf.cc`: batch,
reference and stream implementations.  Memory is assumed available throughout.
-/
import Verif.Core.LoopBatch
import Verif.Core.Exact
import Verif.Model.Ring
import Verif.Model.Flow
import Verif.Model.Sum
import Verif.Model.Window
import Verif.Model.Ema

namespace Verif
variable {R : Type} [Num R]

/-- The number of iterations of `for (int i = 0; i < v; ++i)` with a real bound `v`. -/
def bound (v : R) : M Int := toInt (CMath.ceil v)

/-- The length of `std::vector<TI_REAL> buf(v)`: a real converted to an unsigned size. (Sizes beyond `int` are reported as
out of range although `size_t` is wider.) -/
def vecSize (v : R) : M Int := do
  let n ← toInt v
  if n < 0 then .error .intRange else return n

/-- A zero-filled vector of `n` cells after a call wrote `out` to it from the start. -/
def filled (n : Int) (out : List R) : M (List R) :=
  if (out.length : Int) ≤ n then .ok (out ++ List.replicate (n.toNat - out.length) (c! 0)) else .error .oobWrite

/-! ### ahma -/

/-- `ti_ahma_start`, ahma.cc:12-16. -/
def ahmaStart (_ : Nat → R) : M Int := .ok 0

/-- `ti_ahma`, ahma.cc:18-34: reads back what it wrote. -/
def ahmaBatch (o : Nat → R) (xs : List R) : M (Ret × List R) := do
  let period ← toInt (o 0)
  if period < 1 then return (.invalidOption, [])
  let size : Int := xs.length
  let cap := size - (← ahmaStart o)
  let i1 := upto 0 period size
  let out ← forUp 0 i1 ([] : List R) fun i out => do
    wr cap out (← rd xs i)
  let out ← forUp i1 size out fun i out => do
    let a ← rd out (i - 1)
    let b ← rd out (i - period)
    wr cap out (a + ((← rd xs i) - (a + b) / c! 2) / (period : R))
  return (.okay, out)

/-- `ti_ahma_ref`, ahma.cc:36-52: the period is not truncated in the loop bound and the divisor. -/
def ahmaRef (o : Nat → R) (xs : List R) : M (Ret × List R) := do
  if o 0 < c! 1 then return (.invalidOption, [])
  let size : Int := xs.length
  let cap := size - (← ahmaStart o)
  let i1 := upto 0 (← bound (o 0)) size
  let out ← forUp 0 i1 ([] : List R) fun i out => do
    wr cap out (← rd xs i)
  let out ← forUp i1 size out fun i out => do
    let a ← rd out (i - 1)
    let b ← rd out (i - (← toInt (o 0)))
    wr cap out (a + ((← rd xs i) - (a + b) / c! 2) / o 0)
  return (.okay, out)

/-- `ti_ahma_stream_new`, ahma.cc:69-86. The state is the ring `filt`. -/
def ahmaNew (o : Nat → R) : M (NewRes Int (Ring R)) := do
  let period ← toInt (o 0)
  if period < 1 then return .fail .invalidOption
  let start ← ahmaStart o
  let filt ← Ring.make (← i32 (period + 1))
  return .made period (-start) filt

/-- `ti_ahma_stream_run`, ahma.cc:92-115: loops 101-105 and 106-110. -/
def ahmaPhases (n : Int) : List (Phase R (Ring R) R) :=
  [ { cond := fun p => decide (p < n)
      body := fun _ x s => do
        let filt ← s.set x
        return (filt.step, [← filt.cur]) },
    { cond := fun _ => true
      body := fun _ x s => do
        let a ← s.get 1
        let b ← s.get n
        let filt ← s.set (a + (x - (a + b) / c! 2) / (n : R))
        return (filt.step, [← filt.cur]) } ]

def ahma : Indicator R R R where
  κ := Int
  σ := Ring R
  start := ahmaStart
  batch := ahmaBatch
  new := ahmaNew
  phases := ahmaPhases

/-! ### ehma -/

/-- `ti_ehma_start`, ehma.cc:15-19. -/
def ehmaStart (_ : Nat → R) : M Int := .ok 0

/-- The three averages of ehma.cc:28-30 and 94-98. -/
structure Ehma (R : Type) where
  n2 : R
  n : R
  n05 : R

/-- First bar, ehma.cc:38-44 and 148-154. -/
def ehmaFirst (x : R) : Ehma R := ⟨x, x, c! 2 * x - x⟩

/-- The loops ehma.cc:38-51 for the period `p`. -/
def ehmaLoops (p : Int) : List (Phase R (Option (Ehma R)) R) :=
  [ { cond := fun i => decide (i < 1)
      body := fun _ x _ => return (some (ehmaFirst x), [(ehmaFirst x).n05]) },
    { cond := fun _ => true
      body := fun _ x s => do
        let e ← getV s
        let n2 := (x - e.n2) * c! 2 / ((p : R) / c! 2 + c! 1) + e.n2
        let n := (x - e.n) * c! 2 / ((p : R) + c! 1) + e.n
        let n05 := ((c! 2 * n2 - n) - e.n05) * c! 2 / (CMath.sqrt (p : R) + c! 1) + e.n05
        return (some ⟨n2, n, n05⟩, [n05]) } ]

/-- `ti_ehma`, ehma.cc:21-54. -/
def ehmaBatch (o : Nat → R) (xs : List R) : M (Ret × List R) := do
  let period ← toInt (o 0)
  if period < 1 then return (.invalidOption, [])
  loopBatch ((xs.length : Int) - (← ehmaStart o)) (ehmaLoops period) 0 none xs

/-- A call `ti_ema(size, &l, &period, buf)` into a zero-filled buffer of `size` cells, return code dropped. -/
def emaInto (period : R) (l : List R) : M (List R) := do
  let r ← emaBatch (fun _ => period) l
  filled l.length r.2

/-- `ti_ehma_ref`, ehma.cc:56-86: `ti_ema` truncates the periods it is given, and refuses those below 1 (the return codes are
ignored). The last call writes to the output. -/
def ehmaRef (o : Nat → R) (xs : List R) : M (Ret × List R) := do
  let period ← toInt (o 0)
  if period < 1 then return (.invalidOption, [])
  let n2 ← emaInto ((period : R) / c! 2) xs
  let n ← emaInto (period : R) xs
  let subtr ← forUp 0 xs.length ([] : List R) fun i l => do
    wr xs.length l (c! 2 * (← rd n2 i) - (← rd n i))
  let r ← emaBatch (fun _ => CMath.sqrt (period : R)) subtr
  return (.okay, r.2)

/-- Constants of `ti_ehma_stream`, ehma.cc:100-104. -/
structure EhmaK (R : Type) where
  n2 : R
  n : R
  n05 : R

/-- `ti_ehma_stream_new`, ehma.cc:107-126: `period + 1` in 122 is an `int` sum. -/
def ehmaNew (o : Nat → R) : M (NewRes (EhmaK R) (Option (Ehma R))) := do
  let period ← toInt (o 0)
  if period < 1 then return .fail .invalidOption
  let start ← ehmaStart o
  let q ← i32 (period + 1)
  return .made ⟨c! 1 / ((period : R) / c! 2 + c! 1), c! 1 / (q : R), c! 1 / (CMath.sqrt (period : R) + c! 1)⟩ (-start) none

/-- `ti_ehma_stream_run`, ehma.cc:132-169: loops 148-154 and 155-161. -/
def ehmaPhases (k : EhmaK R) : List (Phase R (Option (Ehma R)) R) :=
  [ { cond := fun p => decide (p < 1)
      body := fun _ x _ => return (some (ehmaFirst x), [(ehmaFirst x).n05]) },
    { cond := fun _ => true
      body := fun _ x s => do
        let e ← getV s
        let n2 := (x - e.n2) * c! 2 * k.n2 + e.n2
        let n := (x - e.n) * c! 2 * k.n + e.n
        let n05 := ((c! 2 * n2 - n) - e.n05) * c! 2 * k.n05 + e.n05
        return (some ⟨n2, n, n05⟩, [n05]) } ]

def ehma : Indicator R R R where
  κ := EhmaK R
  σ := Option (Ehma R)
  start := ehmaStart
  batch := ehmaBatch
  new := ehmaNew
  phases := ehmaPhases

/-! ### idwma -/

/-- `ti_idwma_start`, idwma.cc:15-20. -/
def idwmaStart (o : Nat → R) : M Int := toInt (o 0 - c! 1)

/-- The checks of the exponent, idwma.cc:29-30, 57-58 and 98-99. -/
def idwmaBad (o : Nat → R) : Prop := o 1 < c! 1 ∨ c! 2 < o 1
instance (o : Nat → R) : Decidable (idwmaBad o) := by unfold idwmaBad; infer_instance

/-- Coefficients and their sum, idwma.cc:32-37 and 113-119. -/
def idwmaCoef (period : Int) (e : R) : M (List R × R) :=
  forUp 0 period (([] : List R), (c! 0 : R)) fun i s => do
    let c := c! 1 / CMath.pow ((i + 1 : Int) : R) e
    let l ← wr period s.1 c
    return (l, s.2 + c)

/-- `ti_idwma`, idwma.cc:22-48. -/
def idwmaBatch (o : Nat → R) (xs : List R) : M (Ret × List R) := do
  let period ← toInt (o 0)
  if period < 1 then return (.invalidOption, [])
  if idwmaBad o then return (.invalidOption, [])
  let size : Int := xs.length
  let cap := size - (← idwmaStart o)
  let k ← idwmaCoef period (o 1)
  let out ← forUp (period - 1) size ([] : List R) fun i out => do
    let numer ← forUp 0 period (c! 0 : R) fun j a => do
      return a + (← rd xs (i - j)) * (← rd k.1 j)
    wr cap out (numer / k.2)
  return (.okay, out)

/-- `ti_idwma_ref`, idwma.cc:50-74: the period is not truncated in the loop bounds. The output position of 70 is
`i - (int)period + 1`, the next free one. -/
def idwmaRef (o : Nat → R) (xs : List R) : M (Ret × List R) := do
  if o 0 < c! 1 then return (.invalidOption, [])
  if idwmaBad o then return (.invalidOption, [])
  let size : Int := xs.length
  let cap := size - (← idwmaStart o)
  let denom ← forUp 0 (← bound (o 0)) (c! 0 : R) fun i d => do
    return d + c! 1 / CMath.pow ((i + 1 : Int) : R) (o 1)
  let out ← forUp (← toInt (o 0 - c! 1)) size ([] : List R) fun i out => do
    let numer ← forUp 0 (← bound (o 0)) (c! 0 : R) fun j a => do
      return a + (← rd xs (i - j)) * c! 1 / CMath.pow ((j + 1 : Int) : R) (o 1)
    wr cap out (numer / denom)
  return (.okay, out)

/-- Constants of `ti_idwma_stream`, idwma.cc:78-81 and 87-90. -/
structure IdwmaK (R : Type) where
  period : Int
  denom : R
  coef : List R

/-- `ti_idwma_stream_new`, idwma.cc:93-122. -/
def idwmaNew (o : Nat → R) : M (NewRes (IdwmaK R) (Ring R)) := do
  let period ← toInt (o 0)
  if period < 1 then return .fail .invalidOption
  if idwmaBad o then return .fail .invalidOption
  let start ← idwmaStart o
  let price ← Ring.make (R := R) period
  let k ← idwmaCoef period (o 1)
  return .made ⟨period, k.2, k.1⟩ (-start) price

/-- `ti_idwma_stream_run`, idwma.cc:128-159: loops 143-145 and 146-154. -/
def idwmaPhases (k : IdwmaK R) : List (Phase R (Ring R) R) :=
  [ { cond := fun p => decide (p < 0)
      body := fun _ x s => do
        let price ← s.set x
        return (price.step, []) },
    { cond := fun _ => true
      body := fun _ x s => do
        let price ← s.set x
        let numer ← forUp 0 k.period (c! 0 : R) fun j a => do
          return a + (← price.get j) * (← rd k.coef j)
        return (price.step, [numer / k.denom]) } ]

def idwma : Indicator R R R where
  κ := IdwmaK R
  σ := Ring R
  start := idwmaStart
  batch := idwmaBatch
  new := idwmaNew
  phases := idwmaPhases

/-! ### lma -/

/-- `ti_lma_start`, lma.cc:15-19. -/
def lmaStart (o : Nat → R) : M Int := toInt (o 0 - c! 1)

/-- `ti_lma`, lma.cc:21-54: state (wsum_price, sum_price). -/
def lmaBatch (o : Nat → R) (xs : List R) : M (Ret × List R) := do
  let period ← toInt (o 0)
  if period < 1 then return (.invalidOption, [])
  let size : Int := xs.length
  let cap := size - (← lmaStart o)
  let denom ← forUp 0 period (c! 0 : R) fun i d => return d + ((i + 1 : Int) : R)
  let i1 := upto 0 (period - 1) size
  let s ← forUp 0 i1 ((c! 0 : R), (c! 0 : R)) fun i s => do
    let v ← rd xs i
    return (s.1 + ((i + 1 : Int) : R) * v, s.2 + v)
  let t ← forUp i1 size (s, ([] : List R)) fun i t => do
    let v ← rd xs i
    let wsum := t.1.1 + (period : R) * v
    let sum := t.1.2 + v
    let out ← wr cap t.2 (c! 2 * wsum / denom - sum / (period : R))
    let wsum := wsum - sum
    let sum := sum - (← rd xs (i - period + 1))
    return ((wsum, sum), out)
  return (.okay, t.2)

/-- `ti_lma_ref`, lma.cc:56-78. -/
def lmaRef (o : Nat → R) (xs : List R) : M (Ret × List R) := do
  if o 0 < c! 1 then return (.invalidOption, [])
  let size : Int := xs.length
  let cap := size - (← lmaStart o)
  let n ← vecSize ((size : R) - o 0 + c! 1)
  let w ← filled n (← wmaBatch o xs).2
  let s ← filled n (← smaBatch o xs).2
  let out ← forUp 0 (← bound ((size : R) - o 0 + c! 1)) ([] : List R) fun i out => do
    wr cap out (c! 2 * (← rd w i) - (← rd s i))
  return (.okay, out)

/-- Constants of `ti_lma_stream`, lma.cc:82-84 and 92-95. -/
structure LmaK (R : Type) where
  period : Int
  denomRecipr : R
  periodRecipr : R

/-- Mutable members of `ti_lma_stream`, lma.cc:86-90. -/
structure LmaS (R : Type) where
  wsum : R
  sum : R
  price : Ring R

/-- `ti_lma_stream_new`, lma.cc:98-123: the constants use the untruncated period. -/
def lmaNew (o : Nat → R) : M (NewRes (LmaK R) (LmaS R)) := do
  if o 0 < c! 1 then return .fail .invalidOption
  let start ← lmaStart o
  let period ← toInt (o 0)
  let price ← Ring.make period
  return .made ⟨period, c! 1 / ((c! 1 + o 0) / c! 2 * o 0), c! 1 / o 0⟩ (-start) ⟨c! 0, c! 0, price⟩

/-- `ti_lma_stream_run`, lma.cc:129-165: loops 144-148 and 149-158. -/
def lmaPhases (k : LmaK R) : List (Phase R (LmaS R) R) :=
  [ { cond := fun p => decide (p < 0)
      body := fun p x s => do
        let wsum := s.wsum + ((p + (k.period - 1) + 1 : Int) : R) * x
        let sum := s.sum + x
        let price ← s.price.set x
        return (⟨wsum, sum, price.step⟩, []) },
    { cond := fun _ => true
      body := fun _ x s => do
        let wsum := s.wsum + (k.period : R) * x
        let sum := s.sum + x
        let price ← s.price.set x
        let out := c! 2 * wsum * k.denomRecipr - sum * k.periodRecipr
        let wsum := wsum - sum
        let sum := sum - (← price.get (k.period - 1))
        return (⟨wsum, sum, price.step⟩, [out]) } ]

def lma : Indicator R R R where
  κ := LmaK R
  σ := LmaS R
  start := lmaStart
  batch := lmaBatch
  new := lmaNew
  phases := lmaPhases

/-! ### shmma -/

/-- `ti_shmma_start`, shmma.cc:14-18. -/
def shmmaStart (o : Nat → R) : M Int := toInt (o 0 - c! 1)

/-- `(-period + 2*i+1.) / 2.`, shmma.cc:33 and 129: `-period + 2*i` is an `int` expression. -/
def shmmaWeight (period i : Int) : M R := do
  let d ← i32 (2 * i)
  let e ← i32 (-period + d)
  return ((e : R) + c! 1) / c! 2

/-- `T/period + (6.*S)/((period+1) * period)`, shmma.cc:39 and 137: the last product is an `int`. -/
def shmmaOut (period : Int) (T S : R) : M R := do
  let q ← i32 (period + 1)
  let d ← i32 (q * period)
  return T / (period : R) + (c! 6 * S) / (d : R)

/-- Sliding of the sums, shmma.cc:41-43 and 139-141: `v` leaves the window. -/
def shmmaSlide (period : Int) (T S v : R) : R × R :=
  (T - v, S - T + ((period : R) + c! 1) / c! 2 * v)

/-- `ti_shmma`, shmma.cc:20-47: state (T, S). -/
def shmmaBatch (o : Nat → R) (xs : List R) : M (Ret × List R) := do
  let period ← toInt (o 0)
  if period < 1 then return (.invalidOption, [])
  let size : Int := xs.length
  let cap := size - (← shmmaStart o)
  let i1 := upto 0 (period - 1) size
  let s ← forUp 0 i1 ((c! 0 : R), (c! 0 : R)) fun i s => do
    let v ← rd xs i
    return (s.1 + v, s.2 + (← shmmaWeight period i) * v)
  let t ← forUp i1 size (s, ([] : List R)) fun i t => do
    let v ← rd xs i
    let T := t.1.1 + v
    let S := t.1.2 + ((period : R) - c! 1) / c! 2 * v
    let out ← wr cap t.2 (← shmmaOut period T S)
    return (shmmaSlide period T S (← rd xs (i - period + 1)), out)
  return (.okay, t.2)

/-- `ti_shmma_ref`, shmma.cc:49-71. -/
def shmmaRef (o : Nat → R) (xs : List R) : M (Ret × List R) := do
  if o 0 < c! 1 then return (.invalidOption, [])
  let size : Int := xs.length
  let cap := size - (← shmmaStart o)
  let out ← forUp (← toInt (o 0 - c! 1)) size ([] : List R) fun i out => do
    let T ← forUp 0 (← bound (o 0)) (c! 0 : R) fun j T => do
      return T + (← rd xs (i - j))
    let S ← forUp 0 (← bound (o 0)) (c! 0 : R) fun j S => do
      return S + (o 0 - (((j * 2 : Int) : R) + c! 1)) / c! 2 * (← rd xs (i - j))
    wr cap out (T / o 0 + (c! 6 * S) / ((o 0 + c! 1) * o 0))
  return (.okay, out)

/-- Mutable members of `ti_shmma_stream`, shmma.cc:79-83. -/
structure ShmmaS (R : Type) where
  T : R
  S : R
  price : Ring R

/-- `ti_shmma_stream_new`, shmma.cc:90-107. -/
def shmmaNew (o : Nat → R) : M (NewRes Int (ShmmaS R)) := do
  if o 0 < c! 1 then return .fail .invalidOption
  let start ← shmmaStart o
  let period ← toInt (o 0)
  let price ← Ring.make period
  return .made period (-start) ⟨c! 0, c! 0, price⟩

/-- `ti_shmma_stream_run`, shmma.cc:113-149: loops 125-130 and 131-142. -/
def shmmaPhases (n : Int) : List (Phase R (ShmmaS R) R) :=
  [ { cond := fun p => decide (p < 0)
      body := fun p x s => do
        let price ← s.price.set x
        return (⟨s.T + x, s.S + (← shmmaWeight n (p + n - 1)) * x, price.step⟩, []) },
    { cond := fun _ => true
      body := fun _ x s => do
        let price ← s.price.set x
        let T := s.T + x
        let S := s.S + ((n : R) - c! 1) / c! 2 * x
        let out ← shmmaOut n T S
        let q := shmmaSlide n T S (← price.get (n - 1))
        return (⟨q.1, q.2, price.step⟩, [out]) } ]

def shmma : Indicator R R R where
  κ := Int
  σ := ShmmaS R
  start := shmmaStart
  batch := shmmaBatch
  new := shmmaNew
  phases := shmmaPhases

/-! ### emsd -/

/-- `ti_emsd_start`, emsd.cc:14-19. -/
def emsdStart (o : Nat → R) : M Int := do
  let period ← toInt (o 0)
  let _ ← toInt (o 1)
  i32 (period - 1)

/-- Running sums and the (never read back) average of variances, emsd.cc:30-32 and 116-121. -/
structure EmsdSt (R : Type) where
  sum : R
  sum2 : R
  ema : Option R

/-- A bar enters the sums, emsd.cc:36-37 and elsewhere. -/
def EmsdSt.add (s : EmsdSt R) (x : R) : EmsdSt R := { s with sum := s.sum + x, sum2 := s.sum2 + x * x }
/-- A bar leaves the sums, emsd.cc:47-48 and elsewhere. -/
def EmsdSt.drop (s : EmsdSt R) (x : R) : EmsdSt R := { s with sum := s.sum - x, sum2 := s.sum2 - x * x }

/-- `ti_emsd`, emsd.cc:21-63. -/
def emsdBatch (o : Nat → R) (xs : List R) : M (Ret × List R) := do
  let period ← toInt (o 0)
  let ma ← toInt (o 1)
  if period < 1 then return (.invalidOption, [])
  if ma < 1 then return (.invalidOption, [])
  let size : Int := xs.length
  let cap := size - (← emsdStart o)
  let i1 := upto 0 (period - 1) size
  let s ← forUp 0 i1 (⟨c! 0, c! 0, none⟩ : EmsdSt R) fun i s => do
    return s.add (← rd xs i)
  let i2 := upto i1 period size
  let t ← forUp i1 i2 (s, ([] : List R)) fun i t => do
    let s := t.1.add (← rd xs i)
    let variance := s.sum2 / (period : R) - CMath.pow (s.sum / (period : R)) (c! 2)
    let out ← wr cap t.2 (CMath.sqrt variance)
    return (({ s with ema := some variance }).drop (← rd xs (i - period + 1)), out)
  let t ← forUp i2 size t fun i t => do
    let s := t.1.add (← rd xs i)
    let variance := s.sum2 / (period : R) - (s.sum / (period : R)) * (s.sum / (period : R))
    let e ← getV s.ema
    let q ← i32 (ma + 1)
    let ema := (variance - e) * c! 2 / (q : R) + e
    let out ← wr cap t.2 (CMath.sqrt variance)
    return (({ s with ema := some ema }).drop (← rd xs (i - period + 1)), out)
  return (.okay, t.2)

/-- `ti_emsd_ref`, emsd.cc:65-107: the same loops with untruncated periods. -/
def emsdRef (o : Nat → R) (xs : List R) : M (Ret × List R) := do
  if o 0 < c! 1 then return (.invalidOption, [])
  if o 1 < c! 1 then return (.invalidOption, [])
  let size : Int := xs.length
  let cap := size - (← emsdStart o)
  let period ← toInt (o 0)
  let i1 := upto 0 (← bound (o 0 - c! 1)) size
  let s ← forUp 0 i1 (⟨c! 0, c! 0, none⟩ : EmsdSt R) fun i s => do
    return s.add (← rd xs i)
  let i2 := upto i1 (← bound (o 0)) size
  let t ← forUp i1 i2 (s, ([] : List R)) fun i t => do
    let s := t.1.add (← rd xs i)
    let variance := s.sum2 / o 0 - CMath.pow (s.sum / o 0) (c! 2)
    let out ← wr cap t.2 (CMath.sqrt variance)
    return (({ s with ema := some variance }).drop (← rd xs (i - period + 1)), out)
  let t ← forUp i2 size t fun i t => do
    let s := t.1.add (← rd xs i)
    let variance := s.sum2 / o 0 - (s.sum / o 0) * (s.sum / o 0)
    let e ← getV s.ema
    let ema := (variance - e) * c! 2 / (o 1 + c! 1) + e
    let out ← wr cap t.2 (CMath.sqrt variance)
    return (({ s with ema := some ema }).drop (← rd xs (i - period + 1)), out)
  return (.okay, t.2)

/-- Constants of `ti_emsd_stream`, emsd.cc:111-114 and 123-126. -/
structure EmsdK (R : Type) where
  period : Int
  pr : R
  mr : R

/-- Mutable members of `ti_emsd_stream`, emsd.cc:116-121. -/
structure EmsdS (R : Type) where
  st : EmsdSt R
  price : Ring R

/-- `ti_emsd_stream_new`, emsd.cc:129-152. -/
def emsdNew (o : Nat → R) : M (NewRes (EmsdK R) (EmsdS R)) := do
  let period ← toInt (o 0)
  let ma ← toInt (o 1)
  if period < 1 then return .fail .invalidOption
  if ma < 1 then return .fail .invalidOption
  let start ← emsdStart o
  let price ← Ring.make period
  return .made ⟨period, c! 1 / (period : R), c! 1 / ((ma : R) + c! 1)⟩ (-start) ⟨⟨c! 0, c! 0, none⟩, price⟩

/-- `ti_emsd_stream_run`, emsd.cc:158-212: loops 173-178, 179-191, 192-204. -/
def emsdPhases (k : EmsdK R) : List (Phase R (EmsdS R) R) :=
  [ { cond := fun p => decide (p < 0)
      body := fun _ x s => do
        let price ← s.price.set x
        return (⟨s.st.add x, price.step⟩, []) },
    { cond := fun p => decide (p < 1)
      body := fun _ x s => do
        let price ← s.price.set x
        let st := s.st.add x
        let variance := st.sum2 * k.pr - CMath.pow (st.sum * k.pr) (c! 2)
        let st := ({ st with ema := some variance }).drop (← price.get (k.period - 1))
        return (⟨st, price.step⟩, [CMath.sqrt variance]) },
    { cond := fun _ => true
      body := fun _ x s => do
        let price ← s.price.set x
        let st := s.st.add x
        let variance := st.sum2 * k.pr - (st.sum * k.pr) * (st.sum * k.pr)
        let e ← getV st.ema
        let ema := (variance - e) * c! 2 * k.mr + e
        let st := ({ st with ema := some ema }).drop (← price.get (k.period - 1))
        return (⟨st, price.step⟩, [CMath.sqrt variance]) } ]

def emsd : Indicator R R R where
  κ := EmsdK R
  σ := EmsdS R
  start := emsdStart
  batch := emsdBatch
  new := emsdNew
  phases := emsdPhases

/-! ### edcf -/

/-- `ti_edcf_start`, edcf.cc:16-20. -/
def edcfStart (o : Nat → R) : M Int := toInt (c! 2 * o 0 - c! 1)

/-- `distance2[count]` and `coef[count]`, edcf.cc:44-48 and 125-129: `price` is the deque, newest first. -/
def edcfDist (n : Int) (price : List R) (count : Int) : M R :=
  forUp 1 n (c! 0 : R) fun l d => do
    let a ← rd price count
    let b ← rd price (count + l)
    return d + (a - b) * (a - b)

/-- One output, edcf.cc:43-57 and 124-138: `n` iterations of the loops bounded by `length`, `m` cells in `coef` and
`distance2`. -/
def edcfOut (n m : Int) (price : List R) : M R := do
  let coef ← forUp 0 n ([] : List R) fun count l => do
    wr m l (← edcfDist n price count)
  let s ← forUp 0 n ((c! 0 : R), (c! 0 : R)) fun count s => do
    let c ← rd coef count
    return (s.1 + c * (← rd price count), s.2 + c)
  return if s.2 == c! 0 then c! 0 else s.1 / s.2

/-- The loops edcf.cc:38-60 and 119-141. `pop_back` drops the last element of a deque that is never empty here. -/
def edcfPhases (k : Int × Int) : List (Phase R (List R) R) :=
  [ { cond := fun p => decide (p < 0)
      body := fun _ x s => return (x :: s, []) },
    { cond := fun _ => true
      body := fun _ x s => do
        let v ← edcfOut k.1 k.2 (x :: s)
        return ((x :: s).dropLast, [v]) } ]

/-- `ti_edcf`, edcf.cc:22-63. -/
def edcfBatch (o : Nat → R) (xs : List R) : M (Ret × List R) := do
  if o 0 < c! 1 then return (.invalidOption, [])
  let start ← edcfStart o
  let m ← vecSize (c! 2 * o 0)
  loopBatch ((xs.length : Int) - start) (edcfPhases (← bound (o 0), m)) (-start) [] xs

/-- `ti_edcf_stream_new`, edcf.cc:82-101. -/
def edcfNew (o : Nat → R) : M (NewRes (Int × Int) (List R)) := do
  if o 0 < c! 1 then return .fail .invalidOption
  let start ← edcfStart o
  let m ← vecSize (c! 2 * o 0)
  return .made (← bound (o 0), m) (-start) []

/-- `ti_edcf_stream_run`, edcf.cc:107-146, runs the loops of the batch function. -/
def edcf : Indicator R R R where
  κ := Int × Int
  σ := List R
  start := edcfStart
  batch := edcfBatch
  new := edcfNew
  phases := edcfPhases

end Verif
