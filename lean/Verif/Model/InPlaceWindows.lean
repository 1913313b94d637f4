/-
Batch calls over moving windows whose output array is one of the input arrays, as in Model/InPlaceBars.lean: `mem xs out` is what the arrays
hold after the values `out` were written.
-/
import Verif.Model.InPlace
import Verif.Model.Volume
import Verif.Model.Osc
import Verif.Model.Extremum
import Verif.Model.Direction
import Verif.Model.Window
import Verif.Model.Trend

namespace Verif
variable {R : Type} [Num R]

/-- `ti_willr`, willr.cc:16-83, with the arrays as they are when a bar is read. -/
def willrVia (mem : List (HLC R) → List R → List (HLC R)) (o : Nat → R) (xs : List (HLC R)) : M (Ret × List R) := do
  let period ← toInt (o 0)
  if period < 1 then return (.invalidOption, [])
  let start ← willrStart o
  if (xs.length : Int) ≤ start then return (.okay, [])
  let cap := xs.length - start
  let max0 ← rdHigh xs 0
  let min0 ← rdLow xs 0
  let s ← forUp (period - 1) xs.length ((0 : Int), ((-1 : Int), max0), ((-1 : Int), min0), ([] : List R))
    fun i (trail, mx, mn, out) => do
      let mx ← track repMax (rdHigh (mem xs out)) trail i mx
      let mn ← track repMin (rdLow (mem xs out)) trail i mn
      let r ← rd (mem xs out) i
      let out ← wr cap out (willrOut mx.2 mn.2 r.close)
      return (trail + 1, mx, mn, out)
  finish cap s.2.2.2

/-- `ti_aroon`, aroon.cc:16-82, with the arrays as they are when a bar is read. -/
def aroonVia (mem : List (HL R) → List (Aroon R) → List (HL R)) (o : Nat → R) (xs : List (HL R)) : M (Ret × List (Aroon R)) := do
  let period ← toInt (o 0)
  if period < 1 then return (.invalidOption, [])
  let start ← aroonStart o
  if (xs.length : Int) ≤ start then return (.okay, [])
  let cap := xs.length - start
  let scale : R := c! 100 / (period : R)
  let max0 ← rdHi xs 0
  let min0 ← rdLo xs 0
  let s ← forUp period xs.length ((0 : Int), ((-1 : Int), max0), ((-1 : Int), min0), ([] : List (Aroon R)))
    fun i (trail, mx, mn, out) => do
      let mx ← track repMax (rdHi (mem xs out)) trail i mx
      let mn ← track repMin (rdLo (mem xs out)) trail i mn
      let out ← wr cap out ⟨((period : R) - ((i - mn.1 : Int) : R)) * scale, ((period : R) - ((i - mx.1 : Int) : R)) * scale⟩
      return (trail + 1, mx, mn, out)
  finish cap s.2.2.2

/-- `ti_aroonosc`, aroonosc.cc:16-87, with the arrays as they are when a bar is read. -/
def aroonoscVia (mem : List (HL R) → List R → List (HL R)) (o : Nat → R) (xs : List (HL R)) : M (Ret × List R) := do
  let period ← toInt (o 0)
  if period < 1 then return (.invalidOption, [])
  let start ← aroonStart o
  if (xs.length : Int) ≤ start then return (.okay, [])
  let cap := xs.length - start
  let scale : R := c! 100 / (period : R)
  let max0 ← rdHi xs 0
  let min0 ← rdLo xs 0
  let s ← forUp period xs.length ((0 : Int), ((-1 : Int), max0), ((-1 : Int), min0), ([] : List R))
    fun i (trail, mx, mn, out) => do
      let mx ← track repMax (rdHi (mem xs out)) trail i mx
      let mn ← track repMin (rdLo (mem xs out)) trail i mn
      let out ← wr cap out (((mx.1 - mn.1 : Int) : R) * scale)
      return (trail + 1, mx, mn, out)
  finish cap s.2.2.2

/-- `ti_fisher`, fisher.cc:19-91, with the arrays as they are when a bar is read. -/
def fisherVia (mem : List (HL R) → List (Fisher R) → List (HL R)) (o : Nat → R) (xs : List (HL R)) : M (Ret × List (Fisher R)) := do
  let period ← toInt (o 0)
  if period < 1 then return (.invalidOption, [])
  let start ← fisherStart o
  if (xs.length : Int) ≤ start then return (.okay, [])
  let cap := xs.length - start
  let m0 ← rdMid xs 0
  let s ← forUp (period - 1) xs.length
    ((0 : Int), ((-1 : Int), m0), ((-1 : Int), m0), (c! 0 : R), (c! 0 : R), ([] : List (Fisher R)))
    fun i (trail, mx, mn, val1, fish, out) => do
      let mx ← track repMax (rdMid (mem xs out)) trail i mx
      let mn ← track repMin (rdMid (mem xs out)) trail i mn
      let hl ← rdMid (mem xs out) i
      let val1 := fisherVal mx.2 mn.2 hl val1
      let signal := fish
      let fish := fisherFish val1 fish
      let out ← wr cap out ⟨fish, signal⟩
      return (trail + 1, mx, mn, val1, fish, out)
  finish cap s.2.2.2.2.2

/-- `ti_mfi`, mfi.cc:18-64, with the arrays as they are when a bar is read. -/
def mfiVia (mem : List (HLCV R) → List R → List (HLCV R)) (o : Nat → R) (xs : List (HLCV R)) : M (Ret × List R) := do
  let period ← toInt (o 0)
  if period < 1 then return (.invalidOption, [])
  let start ← mfiStart o
  if (xs.length : Int) ≤ start then return (.okay, [])
  let cap := xs.length - start
  let r0 ← rd xs 0
  let s ← forUp 1 xs.length (typPrice r0.high r0.low r0.close, (TiBuf.new period : TiBuf R), (TiBuf.new period : TiBuf R), ([] : List R))
    fun i (ytyp, up, down, out) => do
      let r ← rd (mem xs out) i
      let typ := typPrice r.high r.low r.close
      let bar := typ * r.volume
      let up ← up.push (if ytyp < typ then bar else c! 0)
      let down ← down.push (if ytyp < typ then c! 0 else if typ < ytyp then bar else c! 0)
      if period ≤ i then
        let out ← wr cap out (mfiOut up.sum down.sum)
        return (typ, up, down, out)
      else return (typ, up, down, out)
  finish cap s.2.2.2

/-- `ti_cci`, cci.cc:23-62, with the arrays as they are when a bar is read. -/
def cciVia (mem : List (HLC R) → List R → List (HLC R)) (o : Nat → R) (xs : List (HLC R)) : M (Ret × List R) := do
  let period ← toInt (o 0)
  let scale : R := c! 1 / (period : R)
  if period < 1 then return (.invalidOption, [])
  let start ← cciStart o
  if (xs.length : Int) ≤ start then return (.okay, [])
  let cap := xs.length - start
  let s ← forUp 0 xs.length ((TiBuf.new period : TiBuf R), ([] : List R)) fun i (sum, out) => do
    let r ← rd (mem xs out) i
    let today := typPrice r.high r.low r.close
    let sum ← sum.push today
    let avg := sum.sum * scale
    let p2 ← i32 (period * 2)
    if p2 - 2 ≤ i then
      let acc ← forUp 0 period (c! 0 : R) fun j acc => do
        let v ← sum.at_ j
        return acc + CMath.fabs (avg - v)
      let out ← wr cap out (cciOut acc scale today avg)
      return (sum, out)
    else return (sum, out)
  finish cap s.2

/-- `ti_ultosc`, ultosc.cc:18-90, with the arrays as they are when a bar is read. -/
def ultoscVia (mem : List (HLC R) → List R → List (HLC R)) (o : Nat → R) (xs : List (HLC R)) : M (Ret × List R) := do
  let short ← toInt (o 0)
  let medium ← toInt (o 1)
  let long ← toInt (o 2)
  if short < 1 then return (.invalidOption, [])
  if medium < short then return (.invalidOption, [])
  if long < medium then return (.invalidOption, [])
  let start ← ultoscStart o
  if (xs.length : Int) ≤ start then return (.okay, [])
  let cap := xs.length - start
  let s ← forUp 1 xs.length ((TiBuf.new long : TiBuf R), (TiBuf.new long : TiBuf R), ((c! 0 : R), (c! 0 : R)),
      ((c! 0 : R), (c! 0 : R)), ([] : List R))
    fun i (bpb, rb, ss, ms, out) => do
      let r ← rd (mem xs out) i
      let q ← rd (mem xs out) (i - 1)
      let bp := ultoscBp r q.close
      let rr := ultoscR r q.close
      let ss := (ss.1 + bp, ss.2 + rr)
      let ms := (ms.1 + bp, ms.2 + rr)
      let bpb ← bpb.push bp
      let rb ← rb.push rr
      let ss ← (if short < i then (do
          let k := ultoscIdx bpb short long
          let a ← bpb.at_ k
          let b ← rb.at_ k
          pure (ss.1 - a, ss.2 - b))
        else pure ss)
      let ms ← (if short < i ∧ medium < i then (do
          let k := ultoscIdx bpb medium long
          let a ← bpb.at_ k
          let b ← rb.at_ k
          pure (ms.1 - a, ms.2 - b))
        else pure ms)
      if long ≤ i then
        let out ← wr cap out (ultoscOut ss.1 ss.2 ms.1 ms.2 bpb.sum rb.sum)
        return (bpb, rb, ss, ms, out)
      else return (bpb, rb, ss, ms, out)
  finish cap s.2.2.2.2

/-- `ti_dm`, dm.cc:17-64, with the arrays as they are when a bar is read. -/
def dmVia (mem : List (HL R) → List (PlusMinus R) → List (HL R)) (o : Nat → R) (xs : List (HL R)) : M (Ret × List (PlusMinus R)) := do
  let period ← toInt (o 0)
  if period < 1 then return (.invalidOption, [])
  let start ← dmStart o
  if (xs.length : Int) ≤ start then return (.okay, [])
  let cap := xs.length - start
  let per : R := dmPer period
  let s ← dmInit xs period
  let out ← wr cap [] (⟨s.1, s.2⟩ : PlusMinus R)
  let s ← forUp period xs.length (s.1, s.2, out) fun i (up, down, out) => do
    let d ← rdDir (mem xs out) i
    let up := up * per + d.1
    let down := down * per + d.2
    let out ← wr cap out ⟨up, down⟩
    return (up, down, out)
  finish cap s.2.2

/-- `ti_vwma`, vwma.cc:16-49, with the arrays as they are when a bar is read. -/
def vwmaVia (mem : List (CV R) → List R → List (CV R)) (o : Nat → R) (xs : List (CV R)) : M (Ret × List R) := do
  let period ← toInt (o 0)
  if period < 1 then return (.invalidOption, [])
  let start ← vwmaStart o
  if (xs.length : Int) ≤ start then return (.okay, [])
  let cap := xs.length - start
  let s ← forUp 0 period ((c! 0 : R), (c! 0 : R)) fun i (sum, vsum) => do
    let r ← rd xs i
    return (sum + r.close * r.volume, vsum + r.volume)
  let out ← wr cap [] (if s.1 == c! 0 then c! 0 else s.1 / s.2)
  let s ← forUp period xs.length (s.1, s.2, out) fun i (sum, vsum, out) => do
    let r ← rd (mem xs out) i
    let q ← rd (mem xs out) (i - period)
    let sum := sum + r.close * r.volume
    let sum := sum - q.close * q.volume
    let vsum := vsum + r.volume
    let vsum := vsum - q.volume
    let out ← wr cap out (if sum == c! 0 then c! 0 else sum / vsum)
    return (sum, vsum, out)
  finish cap s.2.2

/-- `ti_qstick`, qstick.cc:16-43, with the arrays as they are when a bar is read. -/
def qstickVia (mem : List (OC R) → List R → List (OC R)) (o : Nat → R) (xs : List (OC R)) : M (Ret × List R) := do
  let period ← toInt (o 0)
  let scale : R := c! 1 / (period : R)
  if period < 1 then return (.invalidOption, [])
  let start ← qstickStart o
  if (xs.length : Int) ≤ start then return (.okay, [])
  let cap := xs.length - start
  let sum ← forUp 0 period (c! 0 : R) fun i sum => do
    let r ← rd xs i
    return sum + (r.close - r.open)
  let out ← wr cap [] (sum * scale)
  let s ← forUp period xs.length (sum, out) fun i (sum, out) => do
    let r ← rd (mem xs out) i
    let q ← rd (mem xs out) (i - period)
    let sum := sum + (r.close - r.open) - (q.close - q.open)
    let out ← wr cap out (sum * scale)
    return (sum, out)
  finish cap s.2

/-- `ti_vosc`, vosc.cc:16-61, with the arrays as they are when a bar is read. -/
def voscVia (mem : List R → List R → List R) (o : Nat → R) (xs : List R) : M (Ret × List R) := do
  let short ← toInt (o 0)
  let long ← toInt (o 1)
  let shortDiv : R := c! 1 / (short : R)
  let longDiv : R := c! 1 / (long : R)
  if short < 1 then return (.invalidOption, [])
  if long < short then return (.invalidOption, [])
  let start ← voscStart o
  if (xs.length : Int) ≤ start then return (.okay, [])
  let cap := xs.length - start
  let s ← forUp 0 long ((c! 0 : R), (c! 0 : R)) fun i (ss, ls) => do
    let v ← rd xs i
    return (if long - short ≤ i then ss + v else ss, ls + v)
  let out ← wr cap [] (voscOut (s.1 * shortDiv) (s.2 * longDiv))
  let s ← forUp long xs.length (s.1, s.2, out) fun i (ss, ls, out) => do
    let v ← rd (mem xs out) i
    let a ← rd (mem xs out) (i - short)
    let b ← rd (mem xs out) (i - long)
    let ss := ss + v - a
    let ls := ls + v - b
    let out ← wr cap out (voscOut (ss * shortDiv) (ls * longDiv))
    return (ss, ls, out)
  finish cap s.2.2

/-- `LINEAR_REGRESSION`, trend.h:31-64, with the array as it is when a bar is read: `(input)[i-(period)+1]` is read after `FINAL`. -/
def linearRegressionVia {τ : Type} (mem : List R → List R → List R) (xs : List R) (period : Int) (t : τ)
    (final : Int → R → R → R → R → τ → List R → M (τ × List R)) : M (List R) := do
  let s ← trendInit xs period
  let x := s.1 + (period : R)
  let pp ← i32 (period * period)
  let x2 := s.2.1 + (pp : R)
  let bd : R := c! 1 / ((period : R) * x2 - x * x)
  let s ← forUp (period - 1) xs.length (s.2.2.1, s.2.2.2, t, []) fun i (xy, y, t, out) => do
    let v ← rd (mem xs out) i
    let xy := xy + v * (period : R)
    let y := y + v
    let b := ((period : R) * xy - x * y) * bd
    let (t, out) ← final i v x y b t out
    let xy := xy - y
    let w ← rd (mem xs out) (i - period + 1)
    return (xy, y - w, t, out)
  return s.2.2.2

/-- linreg.cc:17-29, linregintercept.cc:17-29 and tsf.cc:17-30, with the array as it is when a bar is read. -/
def trendVia (mem : List R → List R → List R) (forecast : Int → M Int) (o : Nat → R) (xs : List R) : M (Ret × List R) := do
  let period ← toInt (o 0)
  if period < 1 then return (.invalidOption, [])
  let start ← linregStart o
  if (xs.length : Int) ≤ start then return (.okay, [])
  let cap := xs.length - start
  let f ← forecast period
  let out ← linearRegressionVia mem xs period () (trendFinal cap (c! 1 / (period : R)) (f : R))
  finish cap out

/-- `ti_linreg`, linreg.cc:17-29. -/
def linregVia (mem : List R → List R → List R) : (Nat → R) → List R → M (Ret × List R) := trendVia mem fun period => pure period
/-- `ti_linregintercept`, linregintercept.cc:17-29. -/
def linreginterceptVia (mem : List R → List R → List R) : (Nat → R) → List R → M (Ret × List R) := trendVia mem fun _ => pure 1
/-- `ti_tsf`, tsf.cc:17-30. -/
def tsfVia (mem : List R → List R → List R) : (Nat → R) → List R → M (Ret × List R) := trendVia mem fun period => i32 (period + 1)

/-- `ti_linregslope`, linregslope.cc:25-37, with the array as it is when a bar is read. -/
def linregslopeVia (mem : List R → List R → List R) (o : Nat → R) (xs : List R) : M (Ret × List R) := do
  let period ← toInt (o 0)
  if period < 1 then return (.invalidOption, [])
  let start ← linregStart o
  if (xs.length : Int) ≤ start then return (.okay, [])
  let cap := xs.length - start
  let out ← linearRegressionVia mem xs period () (slopeFinal cap)
  finish cap out

/-- `ti_fosc`, fosc.cc:28-40, with the array as it is when a bar is read. -/
def foscVia (mem : List R → List R → List R) (o : Nat → R) (xs : List R) : M (Ret × List R) := do
  let period ← toInt (o 0)
  if period < 1 then return (.invalidOption, [])
  let start ← foscStart o
  if (xs.length : Int) ≤ start then return (.okay, [])
  let cap := xs.length - start
  let f ← i32 (period + 1)
  let out ← linearRegressionVia mem xs period (c! 0 : R) (foscFinal cap period (f : R))
  finish cap out

end Verif
