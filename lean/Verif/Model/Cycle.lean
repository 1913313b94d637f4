/-
Models of hd, arsi and mama (`/repo/indicators/<name>.cc`): Ehlers' homodyne discriminator and two indicators on top
of it.
-/
import Verif.Core.LoopBatch
import Verif.Core.Exact
import Verif.Model.Ring

namespace Verif
variable {R : Type} [Num R]

/-- The buffers hd.cc:26-35, arsi.cc:30-39, mama.cc:29-38: four rings of 7 and six of 2. -/
structure HdS (R : Type) where
  sm : Ring R
  det : Ring R
  i1 : Ring R
  q1 : Ring R
  i2 : Ring2 R
  q2 : Ring2 R
  re : Ring2 R
  im : Ring2 R
  per : Ring2 R
  sp : Ring2 R

/-- Default initialisers of the ten buffers. -/
def HdS.make : M (HdS R) := do
  return ⟨← Ring.make 7, ← Ring.make 7, ← Ring.make 7, ← Ring.make 7, Ring2.make, Ring2.make, Ring2.make, Ring2.make,
    Ring2.make, Ring2.make⟩

/-- `step(Smooth,Detrender,I1,Q1,I2,Q2,Re,Im,Period,SmoothPeriod)`. -/
def HdS.step (s : HdS R) : HdS R :=
  ⟨s.sm.step, s.det.step, s.i1.step, s.q1.step, s.i2.step, s.q2.step, s.re.step, s.im.step, s.per.step, s.sp.step⟩

/-- `.0962*b + .5769*b[2] - .5769*b[4] - .0962*b[6]`. -/
def hilbert (b : Ring R) : M R := do
  return c! 962 / c! 10000 * (← b.cur) + c! 5769 / c! 10000 * (← b.get 2) - c! 5769 / c! 10000 * (← b.get 4) -
    c! 962 / c! 10000 * (← b.get 6)

/-- The four prices weighted 4:3:2:1: hd.cc:45, arsi.cc:42, mama.cc:44. -/
def smooth4 (a b c d : R) : R := (c! 4 * a + c! 3 * b + c! 2 * c + d) / c! 10

/-- `if (Im != 0 && Re != 0) { Period = 2*PI / atan(Im/Re); }`: the new value of the cell `Period`; when it is not assigned
it keeps `old`, what the cell held (two bars earlier it was the current one). -/
def hdCand (turn im re old : R) : R := if !(im == c! 0) && !(re == c! 0) then turn / CMath.atan (im / re) else old

/-- The body common to the three indicators, from `Smooth = …` to `SmoothPeriod = …`: hd.cc:45-71 and 202-228,
arsi.cc:42-67 and 212-237, mama.cc:44-73 and 279-303.  `turn` is `2*PI` in hd and arsi, `360.` in mama.
The `if (Period > …) { Period = …; }` of arsi and mama are what `std::min`, `std::max` of hd compute.
mama's stream writes `I2 = .2*(I1 - jQ) + .8*I2[1]` in one assignment where the others use two; the operations are the
same. -/
def hdCore (turn v : R) (s : HdS R) : M (HdS R) := do
  let adj := c! 75 / c! 1000 * (← s.per.get 1) + c! 54 / c! 100
  let sm ← s.sm.set v
  let det ← s.det.set ((← hilbert sm) * adj)
  let q1 ← s.q1.set ((← hilbert det) * adj)
  let i1 ← s.i1.set (← det.get 3)
  let jI := (← hilbert i1) * adj
  let jQ := (← hilbert q1) * adj
  let i2 := s.i2.set ((← i1.cur) - jQ)
  let q2 := s.q2.set ((← q1.cur) + jI)
  let i2 := i2.set (c! 2 / c! 10 * i2.cur + c! 8 / c! 10 * (← i2.get 1))
  let q2 := q2.set (c! 2 / c! 10 * q2.cur + c! 8 / c! 10 * (← q2.get 1))
  let re := s.re.set (i2.cur * (← i2.get 1) + q2.cur * (← q2.get 1))
  let im := s.im.set (i2.cur * (← q2.get 1) - q2.cur * (← i2.get 1))
  let re := re.set (c! 2 / c! 10 * re.cur + c! 8 / c! 10 * (← re.get 1))
  let im := im.set (c! 2 / c! 10 * im.cur + c! 8 / c! 10 * (← im.get 1))
  let per := s.per.set (hdCand turn im.cur re.cur s.per.cur)
  let per := per.set (stdMin per.cur (c! 15 / c! 10 * (← per.get 1)))
  let per := per.set (stdMax per.cur (c! 67 / c! 100 * (← per.get 1)))
  let per := per.set (stdMax per.cur (c! 6))
  let per := per.set (stdMin per.cur (c! 50))
  let per := per.set (c! 2 / c! 10 * per.cur + c! 8 / c! 10 * (← per.get 1))
  let sp := s.sp.set (c! 33 / c! 100 * per.cur + c! 67 / c! 100 * (← s.sp.get 1))
  return ⟨sm, det, i1, q1, i2, q2, re, im, per, sp⟩

/-- `2*PI` with `PI = acos(-1)`. -/
def twoPi : R := c! 2 * CMath.acos (-(c! 1))

/-! ### hd -/

/-- `ti_hd_start`, hd.cc:15-17. -/
def hdStart (_ : Nat → R) : M Int := .ok 5

/-- The buffers of hd.cc:26-36, 144-156. -/
structure HdP (R : Type) where
  core : HdS R
  price : Ring R

/-- The loops hd.cc:39-73 (there the index is `i` and the first condition `i < 5`) and hd.cc:196-230. -/
def hdLoops (first : Int) : List (Phase R (HdP R) R) :=
  [ { cond := fun p => decide (p < first)
      body := fun _ v s => do
        let price ← s.price.set v
        return (⟨s.core, price.step⟩, []) },
    { cond := fun _ => true
      body := fun _ v s => do
        let price ← s.price.set v
        let core ← hdCore twoPi (smooth4 (← price.cur) (← price.get 1) (← price.get 2) (← price.get 3)) s.core
        return (⟨core.step, price.step⟩, [core.sp.cur]) } ]

/-- `ti_hd`, hd.cc:21-77; `ti_hd_ref`, hd.cc:79-136, is the same text except that `jI` and `jQ` are one-cell rings read
right after being assigned. -/
def hdBatch (o : Nat → R) (xs : List R) : M (Ret × List R) := do
  let start ← hdStart o
  let s : HdP R := ⟨← HdS.make, ← Ring.make 4⟩
  loopBatch ((xs.length : Int) - start) (hdLoops 5) 0 s xs

/-- `ti_hd_stream_new`, hd.cc:163-172. -/
def hdNew (o : Nat → R) : M (NewRes Unit (HdP R)) := do
  let s : HdP R := ⟨← HdS.make, ← Ring.make 4⟩
  return .made () (-(← hdStart o)) s

def hd : Indicator R R R where
  κ := Unit
  σ := HdP R
  start := hdStart
  batch := hdBatch
  new := hdNew
  phases := fun _ => hdLoops 0

/-! ### arsi -/

/-- `ti_arsi_start`, arsi.cc:15-19. -/
def arsiStart (_ : Nat → R) : M Int := .ok 5

/-- `CU + CD != 0 ? 100*CU / (CU + CD) : 0`. -/
def arsiOut (cu cd : R) : R := if cu + cd == c! 0 then c! 0 else c! 100 * cu / (cu + cd)

/-- `ti_arsi`, arsi.cc:23-79; `ti_arsi_ref`, arsi.cc:81-137, is the same text. -/
def arsiBatch (o : Nat → R) (xs : List R) : M (Ret × List R) := do
  if o 0 ≤ c! 0 then return (.invalidOption, [])
  let cap := (xs.length : Int) - (← arsiStart o)
  let s0 ← HdS.make
  let r ← forUp 5 xs.length (s0, ([] : List R)) fun i r => do
    let core ← hdCore twoPi (smooth4 (← rd xs i) (← rd xs (i - 1)) (← rd xs (i - 2)) (← rd xs (i - 3))) r.1
    let n ← toInt (o 0 * core.sp.cur)
    let t ← forUp 0 (min n i) ((c! 0 : R), (c! 0 : R)) fun count t => do
      let d := (← rd xs (i - count)) - (← rd xs (i - count - 1))
      return (t.1 + stdMax (c! 0) d, t.2 + -(stdMin (c! 0) d))
    let out ← wr cap r.2 (arsiOut t.1 t.2)
    return (core.step, out)
  return (.okay, r.2)

/-- `ti_arsi_stream_new`, arsi.cc:164-181. The constant is `cycpart`. -/
def arsiNew (o : Nat → R) : M (NewRes R (HdP R)) := do
  if o 0 ≤ c! 0 then return .fail .invalidOption
  let m ← toInt (o 0 * c! 50 + c! 1)
  let s : HdP R := ⟨← HdS.make, ← Ring.make m⟩
  return .made (o 0) (-(← arsiStart o)) s

/-- `ti_arsi_stream_run`, arsi.cc:187-251. -/
def arsiPhases (cycpart : R) : List (Phase R (HdP R) R) :=
  [ { cond := fun p => decide (p < 0)
      body := fun _ v s => do
        let price ← s.price.set v
        return (⟨s.core, price.step⟩, []) },
    { cond := fun _ => true
      body := fun p v s => do
        let price ← s.price.set v
        let core ← hdCore twoPi (smooth4 (← price.cur) (← price.get 1) (← price.get 2) (← price.get 3)) s.core
        let n ← toInt (cycpart * core.sp.cur)
        let t ← forUp 0 (min n (p + 5)) ((c! 0 : R), (c! 0 : R)) fun count t => do
          let d := (← price.get count) - (← price.get (count + 1))
          return (t.1 + stdMax (c! 0) d, t.2 + -(stdMin (c! 0) d))
        return (⟨core.step, price.step⟩, [arsiOut t.1 t.2]) } ]

def arsi : Indicator R R R where
  κ := R
  σ := HdP R
  start := arsiStart
  batch := arsiBatch
  new := arsiNew
  phases := arsiPhases

/-! ### mama -/

/-- The two outputs of mama. -/
structure MamaOut (R : Type) where (mama fama : R) deriving DecidableEq, Inhabited

/-- `ti_mama_start`, mama.cc:14-16. -/
def mamaStart (_ : Nat → R) : M Int := .ok 6

/-- The buffers mama.cc:39-41 beside those of `HdS`. -/
structure MamaS (R : Type) where
  core : HdS R
  phase : Ring2 R
  mama : Ring2 R
  fama : Ring2 R

def MamaS.make : M (MamaS R) := do return ⟨← HdS.make, Ring2.make, Ring2.make, Ring2.make⟩
def MamaS.step (s : MamaS R) : MamaS R := ⟨s.core.step, s.phase.step, s.mama.step, s.fama.step⟩

/-- The body mama.cc:44-83, 279-311 for the four latest prices. -/
def mamaBody (fast slow a b c d : R) (s : MamaS R) : M (MamaS R) := do
  let core ← hdCore (c! 360) (smooth4 a b c d) s.core
  let i1 ← core.i1.cur
  let q1 ← core.q1.cur
  let phase := s.phase.set (if !(i1 == c! 0) then CMath.atan (q1 / i1) else c! 0)
  let delta := stdMax (c! 1) ((← phase.get 1) - phase.cur)
  let alpha := stdMax slow (fast / delta)
  let mama := s.mama.set (alpha * a + (c! 1 - alpha) * (← s.mama.get 1))
  let fama := s.fama.set (c! 5 / c! 10 * alpha * mama.cur + (c! 1 - c! 5 / c! 10 * alpha) * (← s.fama.get 1))
  return ⟨core, phase, mama, fama⟩

/-- mama.cc:26-27, 227-228. -/
def mamaBad (o : Nat → R) : Bool :=
  !(decide (c! 0 ≤ o 0) && decide (o 0 ≤ c! 1)) || !(decide (c! 0 ≤ o 1) && decide (o 1 ≤ c! 1))

/-- `ti_mama`, mama.cc:18-89. (Nothing in it throws.) -/
def mamaBatch (o : Nat → R) (xs : List R) : M (Ret × List (MamaOut R)) := do
  if mamaBad o then return (.invalidOption, [])
  let cap := (xs.length : Int) - (← mamaStart o)
  let s0 ← MamaS.make
  let r ← forUp 6 xs.length (s0, ([] : List (MamaOut R))) fun i r => do
    let s ← mamaBody (o 0) (o 1) (← rd xs i) (← rd xs (i - 1)) (← rd xs (i - 2)) (← rd xs (i - 3)) r.1
    let out ← wr cap r.2 ⟨s.mama.cur, s.fama.cur⟩
    return (s.step, out)
  return (.okay, r.2)

/-- `ti_mama_stream_new`, mama.cc:223-241. The constants are the two limits; the state has the price ring too. -/
def mamaNew (o : Nat → R) : M (NewRes (R × R) (MamaS R × Ring R)) := do
  if mamaBad o then return .fail .invalidOption
  return .made (o 0, o 1) (-(← mamaStart o)) (← MamaS.make, ← Ring.make 4)

/-- `ti_mama_stream_run`, mama.cc:247-318: both loops step every ring. -/
def mamaPhases (k : R × R) : List (Phase R (MamaS R × Ring R) (MamaOut R)) :=
  [ { cond := fun p => decide (p < 0)
      body := fun _ v s => do
        let price ← s.2.set v
        return ((s.1.step, price.step), []) },
    { cond := fun _ => true
      body := fun _ v s => do
        let price ← s.2.set v
        let m ← mamaBody k.1 k.2 (← price.cur) (← price.get 1) (← price.get 2) (← price.get 3) s.1
        return ((m.step, price.step), [⟨m.mama.cur, m.fama.cur⟩]) } ]

def mama : Indicator R R (MamaOut R) where
  κ := R × R
  σ := MamaS R × Ring R
  start := mamaStart
  batch := mamaBatch
  new := mamaNew
  phases := mamaPhases

/-- One row of the arrays `smooth` … `phase` of mama.cc:107-121. -/
structure MamaRow (R : Type) where
  sm : R
  det : R
  i1 : R
  q1 : R
  i2 : R
  q2 : R
  re : R
  im : R
  per : R
  phase : R

/-- `.0962*a[i] + .5769*a[i-2] - .5769*a[i-4] - .0962*a[i-6]` over an array being filled; `a[i]` is `v`. -/
def hilbertAt (rows : List (MamaRow R)) (i : Int) (f : MamaRow R → R) (v : R) : M R := do
  return c! 962 / c! 10000 * v + c! 5769 / c! 10000 * f (← rd rows (i - 2)) - c! 5769 / c! 10000 * f (← rd rows (i - 4)) -
    c! 962 / c! 10000 * f (← rd rows (i - 6))

/-- `ti_mama_ref`, mama.cc:91-193.  The `calloc`ed arrays are a list of rows that holds what is written so far, the six
zeroed rows before the first one included; cells further on are written before they are read, except `period[i]`, which is
still zero when it is not assigned.  `smoothperiod` is not read and left out. `mama[-1]`, `fama[-1]` are the last values
written. -/
def mamaRef (o : Nat → R) (xs : List R) : M (Ret × List (MamaOut R)) := do
  if o 0 < c! 0 ∨ c! 1 < o 0 then return (.invalidOption, [])
  if o 1 < c! 0 ∨ c! 1 < o 1 then return (.invalidOption, [])
  let cap := (xs.length : Int) - (← mamaStart o)
  let z : R := c! 0
  let rows0 : List (MamaRow R) := List.replicate 6 ⟨z, z, z, z, z, z, z, z, z, z⟩
  let r ← forUp 6 xs.length (rows0, ([] : List (MamaOut R))) fun i r => do
    let rows := r.1
    let prev ← rd rows (i - 1)
    let adj := c! 75 / c! 1000 * prev.per + c! 54 / c! 100
    let sm := smooth4 (← rd xs i) (← rd xs (i - 1)) (← rd xs (i - 2)) (← rd xs (i - 3))
    let det := (← hilbertAt rows i (·.sm) sm) * adj
    let q1 := (← hilbertAt rows i (·.det) det) * adj
    let i1 := (← rd rows (i - 3)).det
    let jI := (← hilbertAt rows i (·.i1) i1) * adj
    let jQ := (← hilbertAt rows i (·.q1) q1) * adj
    let i2 := c! 2 / c! 10 * (i1 - jQ) + c! 8 / c! 10 * prev.i2
    let q2 := c! 2 / c! 10 * (q1 + jI) + c! 8 / c! 10 * prev.q2
    let re := c! 2 / c! 10 * (i2 * prev.i2 + q2 * prev.q2) + c! 8 / c! 10 * prev.re
    let im := c! 2 / c! 10 * (i2 * prev.q2 - q2 * prev.i2) + c! 8 / c! 10 * prev.im
    let per := if (!(im == c! 0) && !(re == c! 0)) then c! 360 / CMath.atan (im / re) else c! 0
    let per := if c! 15 / c! 10 * prev.per < per then c! 15 / c! 10 * prev.per else per
    let per := if per < c! 67 / c! 100 * prev.per then c! 67 / c! 100 * prev.per else per
    let per := if per < c! 6 then c! 6 else per
    let per := if c! 50 < per then c! 50 else per
    let per := c! 2 / c! 10 * per + c! 8 / c! 10 * prev.per
    let phase := if !(i1 == c! 0) then CMath.atan (q1 / i1) else c! 0
    let delta := if prev.phase - phase < c! 1 then c! 1 else prev.phase - phase
    let alpha := if o 0 / delta < o 1 then o 1 else o 0 / delta
    let last : MamaOut R ← if 6 < i then rd r.2 (i - 7) else pure ⟨c! 0, c! 0⟩
    let m := alpha * (← rd xs i) + (c! 1 - alpha) * last.mama
    let f := c! 5 / c! 10 * alpha * m + (c! 1 - c! 5 / c! 10 * alpha) * last.fama
    let out ← wr cap r.2 ⟨m, f⟩
    return (rows ++ [⟨sm, det, i1, q1, i2, q2, re, im, per, phase⟩], out)
  return (.okay, r.2)

end Verif
