/- Models of cci, cvi, mass, ultosc, abands, msw. -/
import Verif.Core.Num
import Verif.Core.Rows
import Verif.Model.Ema
import Verif.Model.TiBuf
import Verif.Model.Volume
import Verif.Model.Stats

namespace Verif
variable {R : Type} [Num R]

/-- `ti_cci_start`, cci.cc:17-20. -/
def cciStart (o : Nat → R) : M Int := do i32 ((← i32 ((← toInt (o 0)) - 1)) * 2)

/-- cci.cc:51-54. -/
def cciOut (acc scale today avg : R) : R :=
  let cci := acc * scale
  let cci := cci * (c! 15 / c! 1000)
  if cci == c! 0 then cci else (today - avg) / cci

/-- `ti_cci`, cci.cc:23-62. State: sum buffer, outputs. -/
def cciBatch (o : Nat → R) (xs : List (HLC R)) : M (Ret × List R) := do
  let period ← toInt (o 0)
  let scale : R := c! 1 / (period : R)
  if period < 1 then return (.invalidOption, [])
  let start ← cciStart o
  if (xs.length : Int) ≤ start then return (.okay, [])
  let cap := xs.length - start
  let s ← forUp 0 xs.length ((TiBuf.new period : TiBuf R), ([] : List R)) fun i (sum, out) => do
    let r ← rd xs i
    let today := typPrice r.high r.low r.close
    let sum ← sum.push today
    let avg := sum.sum * scale
    let p2 ← i32 (period * 2)
    if p2 - 2 ≤ i then
      let acc ← forUp 0 period (c! 0 : R) fun j acc => do
        let v ← sum.at_ j
        return acc + CMath.fabs (avg - v)
      let out ← wr cap out (cciOut acc scale today avg)
      return (sum, out)
    else return (sum, out)
  finish cap s.2

/-- `ti_cvi_start`, cvi.cc:12-15. -/
def cviStart (o : Nat → R) : M Int := do i32 ((← i32 ((← toInt (o 0)) * 2)) - 1)

/-- cvi.cc:44. -/
def cviOut (val old : R) : R := if val - old == c! 0 then c! 0 else c! 100 * (val - old) / old

/-- `ti_cvi`, cvi.cc:18-52. State: val, lag buffer, outputs. -/
def cviBatch (o : Nat → R) (xs : List (HL R)) : M (Ret × List R) := do
  let period ← toInt (o 0)
  if period < 1 then return (.invalidOption, [])
  let start ← cviStart o
  if (xs.length : Int) ≤ start then return (.okay, [])
  let cap := xs.length - start
  let per : R := emaPer period
  let r0 ← rd xs 0
  let s ← forUp 1 (period * 2 - 1) (r0.high - r0.low, (TiBuf.new period : TiBuf R)) fun i (val, lag) => do
    let r ← rd xs i
    let val := ((r.high - r.low) - val) * per + val
    let lag ← lag.qpush val
    return (val, lag)
  let s ← forUp (period * 2 - 1) xs.length (s.1, s.2, ([] : List R)) fun i (val, lag, out) => do
    let r ← rd xs i
    let val := ((r.high - r.low) - val) * per + val
    let old ← lag.at_ lag.index
    let out ← wr cap out (cviOut val old)
    let lag ← lag.qpush val
    return (val, lag, out)
  finish cap s.2.2

/-- `ti_mass_start`, mass.cc:12-17. -/
def massStart (o : Nat → R) : M Int := do i32 (16 + (← i32 ((← toInt (o 0)) - 1)))

/-- `ti_mass`, mass.cc:20-66. State: ema, ema2, sum buffer, outputs. -/
def massBatch (o : Nat → R) (xs : List (HL R)) : M (Ret × List R) := do
  let period ← toInt (o 0)
  if period < 1 then return (.invalidOption, [])
  let start ← massStart o
  if (xs.length : Int) ≤ start then return (.okay, [])
  let cap := xs.length - start
  let per : R := c! 2 / (c! 9 + c! 1)
  let per1 : R := c! 1 - per
  let r0 ← rd xs 0
  let s ← forUp 0 xs.length (r0.high - r0.low, r0.high - r0.low, (TiBuf.new period : TiBuf R), ([] : List R))
    fun i (ema, ema2, sum, out) => do
      let r ← rd xs i
      let hl := r.high - r.low
      let ema := ema * per1 + hl * per
      let ema2 := if i = 8 then ema else ema2
      if 8 ≤ i then
        let ema2 := ema2 * per1 + ema * per
        if 16 ≤ i then
          let sum ← sum.push (if ema == c! 0 then c! 0 else ema / ema2)
          if 16 + period - 1 ≤ i then
            let out ← wr cap out sum.sum
            return (ema, ema2, sum, out)
          else return (ema, ema2, sum, out)
        else return (ema, ema2, sum, out)
      else return (ema, ema2, sum, out)
  finish cap s.2.2.2

/-- `ti_ultosc_start`, ultosc.cc:13-15. -/
def ultoscStart (o : Nat → R) : M Int := toInt (o 2)

/-- Buying pressure and range of a bar, ultosc.cc:44-47; `yc` is the previous close. -/
def ultoscBp (r : HLC R) (yc : R) : R := r.close - cMin r.low yc
def ultoscR (r : HLC R) (yc : R) : R := cMax r.high yc - cMin r.low yc

/-- ultosc.cc:74-77. -/
def ultoscOut (bs rs bm rm bl rl : R) : R :=
  let first := if bs == c! 0 then c! 0 else c! 4 * bs / rs
  let second := if bm == c! 0 then c! 0 else c! 2 * bm / rm
  let third := if bl == c! 0 then c! 0 else c! 1 * bl / rl
  (first + second + third) * c! 100 / c! 7

/-- The index of the bar that leaves the window of length `n`, ultosc.cc:60-61, 66-67. -/
def ultoscIdx (b : TiBuf R) (n long : Int) : Int :=
  let k := b.index - n - 1
  if k < 0 then k + long else k

/-- `ti_ultosc`, ultosc.cc:18-90. State: bp_buf, r_buf, (bp_short_sum, r_short_sum), (bp_medium_sum, r_medium_sum),
outputs. -/
def ultoscBatch (o : Nat → R) (xs : List (HLC R)) : M (Ret × List R) := do
  let short ← toInt (o 0)
  let medium ← toInt (o 1)
  let long ← toInt (o 2)
  if short < 1 then return (.invalidOption, [])
  if medium < short then return (.invalidOption, [])
  if long < medium then return (.invalidOption, [])
  let start ← ultoscStart o
  if (xs.length : Int) ≤ start then return (.okay, [])
  let cap := xs.length - start
  let s ← forUp 1 xs.length ((TiBuf.new long : TiBuf R), (TiBuf.new long : TiBuf R), ((c! 0 : R), (c! 0 : R)),
      ((c! 0 : R), (c! 0 : R)), ([] : List R))
    fun i (bpb, rb, ss, ms, out) => do
      let r ← rd xs i
      let q ← rd xs (i - 1)
      let bp := ultoscBp r q.close
      let rr := ultoscR r q.close
      let ss := (ss.1 + bp, ss.2 + rr)
      let ms := (ms.1 + bp, ms.2 + rr)
      let bpb ← bpb.push bp
      let rb ← rb.push rr
      let ss ← (if short < i then (do
          let k := ultoscIdx bpb short long
          let a ← bpb.at_ k
          let b ← rb.at_ k
          pure (ss.1 - a, ss.2 - b))
        else pure ss)
      let ms ← (if short < i ∧ medium < i then (do
          let k := ultoscIdx bpb medium long
          let a ← bpb.at_ k
          let b ← rb.at_ k
          pure (ms.1 - a, ms.2 - b))
        else pure ms)
      if long ≤ i then
        let out ← wr cap out (ultoscOut ss.1 ss.2 ms.1 ms.2 bpb.sum rb.sum)
        return (bpb, rb, ss, ms, out)
      else return (bpb, rb, ss, ms, out)
  finish cap s.2.2.2.2

/-- `ti_abands_start`, abands.cc:11-14. -/
def abandsStart (o : Nat → R) : M Int := do i32 ((← toInt (o 0)) - 1)

/-- `MULT(i)`, abands.cc:34. -/
def abandsMult (r : HLC R) : R :=
  if c! 0 < r.high + r.low then c! 4 * (r.high - r.low) / (r.high + r.low) else c! 0

/-- abands.cc:45, 48, 61, 64. -/
def abandsHigh (r : HLC R) : R := (c! 1 + abandsMult r) * r.high
def abandsLow (r : HLC R) : R := (c! 1 - abandsMult r) * r.low

/-- `ti_abands`, abands.cc:22-79. State: buffer_high, buffer_low, close_sum, outputs. Outputs are named: lower is `outputs[0]`, upper
`outputs[1]`, middle `outputs[2]`. -/
def abandsBatch (o : Nat → R) (xs : List (HLC R)) : M (Ret × List (Bands R)) := do
  let period ← toInt (o 0)
  if period < 1 then return (.invalidOption, [])
  let start ← abandsStart o
  if (xs.length : Int) ≤ start then return (.okay, [])
  let cap := xs.length - start
  let per : R := c! 1 / (period : R)
  let s ← forUp 0 period ((TiBuf.new period : TiBuf R), (TiBuf.new period : TiBuf R), (c! 0 : R)) fun i (bh, bl, cs) => do
    let r ← rd xs i
    let bh ← bh.push (abandsHigh r)
    let bl ← bl.push (abandsLow r)
    return (bh, bl, cs + r.close)
  let out ← wr cap [] (⟨s.2.1.sum * per, s.2.2 * per, s.1.sum * per⟩ : Bands R)
  let s ← forUp period xs.length (s.1, s.2.1, s.2.2, out) fun i (bh, bl, cs, out) => do
    let r ← rd xs i
    let bh ← bh.push (abandsHigh r)
    let bl ← bl.push (abandsLow r)
    let q ← rd xs (i - period)
    let cs := cs + (r.close - q.close)
    let out ← wr cap out ⟨bl.sum * per, cs * per, bh.sum * per⟩
    return (bh, bl, cs, out)
  finish cap s.2.2.2

/-- abands.cc:97, 99: the factor that scales the range. -/
def abandsRefMult (r : HLC R) : R :=
  c! 2 * ((((r.high - r.low) / ((r.high + r.low) / c! 2)) * c! 1000) * (c! 1 / c! 1000))

/-- `ti_abands_ref`, abands.cc:81-108. `period` is a `TI_REAL` that holds an integer; the loop bounds computed with it
are modelled as integers. -/
def abandsRef (o : Nat → R) (xs : List (HLC R)) : M (Ret × List (Bands R)) := do
  let period ← toInt (o 0)
  if period < 1 then return (.invalidOption, [])
  let start ← abandsStart o
  let cap := xs.length - start
  let per : R := (period : R)
  let out ← forUp (period - 1) xs.length ([] : List (Bands R)) fun i out => do
    let s ← forUp (i - period + 1) (i + 1) ((c! 0 : R), (c! 0 : R), (c! 0 : R)) fun j (upper, mid, lower) => do
      let r ← rd xs j
      return (upper + (r.high * (c! 1 + abandsRefMult r)) / per, mid + r.close / per,
        lower + (r.low * (c! 1 - abandsRefMult r)) / per)
    wr cap out ⟨s.2.2, s.2.1, s.1⟩
  finish cap out

/-- `ti_msw_start`, msw.cc:12-14. -/
def mswStart (o : Nat → R) : M Int := toInt (o 0)

/-- Outputs of msw: sine, lead. -/
structure Msw (R : Type) where (sine lead : R) deriving DecidableEq, Inhabited

/-- `pi`, `tpi`, msw.cc:26-27. -/
def mswPi : R := c! 31415926 / c! 10000000
def mswTpi : R := c! 2 * mswPi

/-- msw.cc:41-49. -/
def mswPhase (rp ip : R) : R :=
  let phase : R := if c! 1 / c! 1000 < CMath.fabs rp then CMath.atan (ip / rp)
    else mswTpi / c! 2 * (if ip < c! 0 then -(c! 1) else c! 1)
  let phase := if rp < c! 0 then phase + mswPi else phase
  let phase := phase + mswPi / c! 2
  let phase := if phase < c! 0 then phase + mswTpi else phase
  if mswTpi < phase then phase - mswTpi else phase

/-- msw.cc:52-53. -/
def mswOut (rp ip : R) : Msw R :=
  ⟨CMath.sin (mswPhase rp ip), CMath.sin (mswPhase rp ip + mswPi / c! 4)⟩

/-- `ti_msw`, msw.cc:17-60. -/
def mswBatch (o : Nat → R) (xs : List R) : M (Ret × List (Msw R)) := do
  let period ← toInt (o 0)
  if period < 1 then return (.invalidOption, [])
  let start ← mswStart o
  if (xs.length : Int) ≤ start then return (.okay, [])
  let cap := xs.length - start
  let out ← forUp period xs.length ([] : List (Msw R)) fun i out => do
    let s ← forUp 0 period ((c! 0 : R), (c! 0 : R)) fun j (rp, ip) => do
      let weight ← rd xs (i - j)
      return (rp + CMath.cos (mswTpi * (j : R) / (period : R)) * weight,
        ip + CMath.sin (mswTpi * (j : R) / (period : R)) * weight)
    wr cap out (mswOut s.1 s.2)
  finish cap out

end Verif
