/- Models of the volume indicators: obv, nvi, pvi, ad, adosc, wad, kvo, mfi, cmf, vosc; and of ao, qstick, dpo. -/
import Verif.Core.Num
import Verif.Core.Rows
import Verif.Model.Ema
import Verif.Model.TiBuf

namespace Verif
variable {R : Type} [Num R]

/-- Read of a local variable that may not have been assigned yet. -/
def getVar {α : Type} : Option α → M α
  | some v => .ok v
  | none => .error .uninit

/-- `ti_obv_start` obv.cc:11-14, `ti_nvi_start` nvi.cc:11-14, `ti_pvi_start` pvi.cc:12-15, `ti_ad_start` ad.cc:11-14. -/
def obvStart (_ : Nat → R) : M Int := .ok 0

/-- obv.cc:34-40. -/
def obvStep (sum prev close volume : R) : R :=
  if prev < close then sum + volume else if close < prev then sum - volume else sum

/-- `ti_obv`, obv.cc:17-47. `prev` is declared without a value. State: prev, sum, outputs. -/
def obvBatch (_ : Nat → R) (xs : List (CV R)) : M (Ret × List R) := do
  let size : Int := xs.length
  let mid := min 1 size
  let s ← forUp 0 mid ((none : Option R), ([] : List R)) fun i (_, out) => do
    let r ← rd xs i
    let out ← wr size out (c! 0)
    return (some r.close, out)
  let s ← forUp mid size (s.1, (c! 0 : R), s.2) fun i (prev, sum, out) => do
    let r ← rd xs i
    let p ← getVar prev
    let sum := obvStep sum p r.close r.volume
    let out ← wr size out sum
    return (some r.close, sum, out)
  return (.okay, s.2.2)

/-- `ti_nvi`, nvi.cc:17-41. -/
def nviBatch (o : Nat → R) (xs : List (CV R)) : M (Ret × List R) := do
  let start ← obvStart o
  if (xs.length : Int) ≤ start then return (.okay, [])
  let cap := xs.length - start
  let nvi : R := c! 1000
  let out ← wr cap [] nvi
  let s ← forUp 1 xs.length (nvi, out) fun i (nvi, out) => do
    let a ← rd xs i
    let b ← rd xs (i - 1)
    let nvi := if a.volume < b.volume then nvi + (a.close - b.close) / b.close * nvi else nvi
    let out ← wr cap out nvi
    return (nvi, out)
  finish cap s.2

/-- `ti_pvi`, pvi.cc:18-42. -/
def pviBatch (o : Nat → R) (xs : List (CV R)) : M (Ret × List R) := do
  let start ← obvStart o
  if (xs.length : Int) ≤ start then return (.okay, [])
  let cap := xs.length - start
  let pvi : R := c! 1000
  let out ← wr cap [] pvi
  let s ← forUp 1 xs.length (pvi, out) fun i (pvi, out) => do
    let a ← rd xs i
    let b ← rd xs (i - 1)
    let pvi := if b.volume < a.volume ∧ c! 0 < b.volume then pvi + (a.close - b.close) / b.close * pvi else pvi
    let out ← wr cap out pvi
    return (pvi, out)
  finish cap s.2

/-- ad.cc:29-32, adosc.cc:38-41. -/
def adStep (sum : R) (r : HLCV R) : R :=
  let hl := r.high - r.low
  if hl == c! 0 then sum else sum + (r.close - r.low - r.high + r.close) / hl * r.volume

/-- `ti_ad`, ad.cc:17-37. -/
def adBatch (_ : Nat → R) (xs : List (HLCV R)) : M (Ret × List R) := do
  let size : Int := xs.length
  let s ← forUp 0 size ((c! 0 : R), ([] : List R)) fun i (sum, out) => do
    let r ← rd xs i
    let sum := adStep sum r
    let out ← wr size out sum
    return (sum, out)
  return (.okay, s.2)

/-- `ti_adosc_start`, adosc.cc:11-13. -/
def adoscStart (o : Nat → R) : M Int := do i32 ((← toInt (o 1)) - 1)

/-- `ti_adosc`, adosc.cc:16-59. `start` (line 25) is computed before the options are checked.
State: sum, short_ema, long_ema, outputs. -/
def adoscBatch (o : Nat → R) (xs : List (HLCV R)) : M (Ret × List R) := do
  let short ← toInt (o 0)
  let long ← toInt (o 1)
  let start ← i32 (long - 1)
  if short < 1 then return (.invalidOption, [])
  if long < short then return (.invalidOption, [])
  let start' ← adoscStart o
  if (xs.length : Int) ≤ start' then return (.okay, [])
  let cap := xs.length - start'
  let shortPer : R := emaPer short
  let longPer : R := emaPer long
  let s ← forUp 0 xs.length ((c! 0 : R), (c! 0 : R), (c! 0 : R), ([] : List R)) fun i (sum, se, le, out) => do
    let r ← rd xs i
    let sum := adStep sum r
    let se := if i = 0 then sum else (sum - se) * shortPer + se
    let le := if i = 0 then sum else (sum - le) * longPer + le
    if start ≤ i then
      let out ← wr cap out (se - le)
      return (sum, se, le, out)
    else return (sum, se, le, out)
  finish cap s.2.2.2

/-- `MIN`, `MAX`, minmax.h:13-14. -/
def cMin (a b : R) : R := if a < b then a else b
def cMax (a b : R) : R := if b < a then a else b

/-- `ti_wad_start` wad.cc:12-15, `ti_kvo_start` kvo.cc:13-16. -/
def wadStart (_ : Nat → R) : M Int := .ok 1

/-- wad.cc:35-41; `yc` is the previous close. -/
def wadStep (sum yc : R) (r : HLC R) : R :=
  if yc < r.close then sum + (r.close - cMin yc r.low)
  else if r.close < yc then sum + (r.close - cMax yc r.high) else sum

/-- `ti_wad`, wad.cc:18-51. State: sum, yc, outputs. -/
def wadBatch (o : Nat → R) (xs : List (HLC R)) : M (Ret × List R) := do
  let start ← wadStart o
  if (xs.length : Int) ≤ start then return (.okay, [])
  let cap := xs.length - start
  let r0 ← rd xs 0
  let s ← forUp 1 xs.length ((c! 0 : R), r0.close, ([] : List R)) fun i (sum, yc, out) => do
    let r ← rd xs i
    let sum := wadStep sum yc r
    let out ← wr cap out sum
    return (sum, r.close, out)
  finish cap s.2.2

/-- kvo.cc:48-56: trend and cumulative measurement, `q` the previous bar. -/
def kvoTrend (hlc prev : R) (q : HLCV R) (s : Int × R) : Int × R :=
  if prev < hlc ∧ s.1 ≠ 1 then (1, q.high - q.low)
  else if hlc < prev ∧ s.1 ≠ 0 then (0, q.high - q.low)
  else s

/-- Volume force, kvo.cc:58. `trend ? 1.0 : -1.0` is 1 also for the initial trend -1. -/
def kvoForce (dm cm volume : R) (trend : Int) : R :=
  if dm == c! 0 then c! 0
  else volume * CMath.fabs (dm / cm * c! 2 - c! 1) * c! 100 * (if trend = 0 then -(c! 1) else c! 1)

/-- `ti_kvo`, kvo.cc:19-76. State: prev_hlc, (trend, cm), short_ema, long_ema, outputs. -/
def kvoBatch (o : Nat → R) (xs : List (HLCV R)) : M (Ret × List R) := do
  let short ← toInt (o 0)
  let long ← toInt (o 1)
  if short < 1 then return (.invalidOption, [])
  if long < short then return (.invalidOption, [])
  let start ← wadStart o
  if (xs.length : Int) ≤ start then return (.okay, [])
  let cap := xs.length - start
  let shortPer : R := emaPer short
  let longPer : R := emaPer long
  let r0 ← rd xs 0
  let s ← forUp 1 xs.length (r0.high + r0.low + r0.close, ((-1 : Int), (c! 0 : R)), (c! 0 : R), (c! 0 : R), ([] : List R))
    fun i (prev, tc, se, le, out) => do
      let r ← rd xs i
      let q ← rd xs (i - 1)
      let hlc := r.high + r.low + r.close
      let dm := r.high - r.low
      let tc := kvoTrend hlc prev q tc
      let cm := tc.2 + dm
      let vf := kvoForce dm cm r.volume tc.1
      let se := if i = 1 then vf else (vf - se) * shortPer + se
      let le := if i = 1 then vf else (vf - le) * longPer + le
      let out ← wr cap out (se - le)
      return (hlc, (tc.1, cm), se, le, out)
  finish cap s.2.2.2.2

/-- `ti_mfi_start`, mfi.cc:13-15. -/
def mfiStart (o : Nat → R) : M Int := toInt (o 0)

/-- `TYPPRICE`, mfi.cc:11 (and cci.cc:14). -/
def typPrice (h l c : R) : R := (h + l + c) * (c! 1 / c! 3)

/-- mfi.cc:55. -/
def mfiOut (up down : R) : R := if up == c! 0 then c! 0 else up / (up + down) * c! 100

/-- `ti_mfi`, mfi.cc:18-64. State: ytyp, up, down, outputs. -/
def mfiBatch (o : Nat → R) (xs : List (HLCV R)) : M (Ret × List R) := do
  let period ← toInt (o 0)
  if period < 1 then return (.invalidOption, [])
  let start ← mfiStart o
  if (xs.length : Int) ≤ start then return (.okay, [])
  let cap := xs.length - start
  let r0 ← rd xs 0
  let s ← forUp 1 xs.length (typPrice r0.high r0.low r0.close, (TiBuf.new period : TiBuf R), (TiBuf.new period : TiBuf R), ([] : List R))
    fun i (ytyp, up, down, out) => do
      let r ← rd xs i
      let typ := typPrice r.high r.low r.close
      let bar := typ * r.volume
      let up ← up.push (if ytyp < typ then bar else c! 0)
      let down ← down.push (if ytyp < typ then c! 0 else if typ < ytyp then bar else c! 0)
      if period ≤ i then
        let out ← wr cap out (mfiOut up.sum down.sum)
        return (typ, up, down, out)
      else return (typ, up, down, out)
  finish cap s.2.2.2

/-- `ti_cmf_start` cmf.cc:16-18; `ti_wma_start` (used in line 29) is the same. -/
def cmfStart (o : Nat → R) : M Int := do i32 ((← toInt (o 0)) - 1)

/-- `CHAIKIN_AD`, cmf.cc:31. -/
def chaikinAd (r : HLCV R) : R :=
  if r.high - r.low == c! 0 then c! 0
  else r.volume * ((r.close - r.low) - (r.high - r.close)) / (r.high - r.low)

/-- `ti_cmf`, cmf.cc:20-55. State: period_ad_sum, period_volume, outputs. -/
def cmfBatch (o : Nat → R) (xs : List (HLCV R)) : M (Ret × List R) := do
  let period ← toInt (o 0)
  if period < 1 then return (.invalidOption, [])
  let start ← cmfStart o
  if (xs.length : Int) ≤ start then return (.okay, [])
  let cap := xs.length - start
  let s ← forUp 0 (period - 1) ((c! 0 : R), (c! 0 : R)) fun i (ad, vol) => do
    let r ← rd xs i
    return (ad + chaikinAd r, vol + r.volume)
  let s ← forUp (period - 1) xs.length (s.1, s.2, ([] : List R)) fun i (ad, vol, out) => do
    let r ← rd xs i
    let ad := ad + chaikinAd r
    let vol := vol + r.volume
    let out ← wr cap out (if vol == c! 0 then c! 0 else ad / vol)
    let q ← rd xs (i - period + 1)
    return (ad - chaikinAd q, vol - q.volume, out)
  finish cap s.2.2

/-- `ti_vosc_start`, vosc.cc:11-13. -/
def voscStart (o : Nat → R) : M Int := do i32 ((← toInt (o 1)) - 1)

/-- vosc.cc:42-44, 54-56. -/
def voscOut (savg lavg : R) : R := if savg - lavg == c! 0 then c! 0 else c! 100 * (savg - lavg) / lavg

/-- `ti_vosc`, vosc.cc:16-61. State: short_sum, long_sum, outputs. -/
def voscBatch (o : Nat → R) (xs : List R) : M (Ret × List R) := do
  let short ← toInt (o 0)
  let long ← toInt (o 1)
  let shortDiv : R := c! 1 / (short : R)
  let longDiv : R := c! 1 / (long : R)
  if short < 1 then return (.invalidOption, [])
  if long < short then return (.invalidOption, [])
  let start ← voscStart o
  if (xs.length : Int) ≤ start then return (.okay, [])
  let cap := xs.length - start
  let s ← forUp 0 long ((c! 0 : R), (c! 0 : R)) fun i (ss, ls) => do
    let v ← rd xs i
    return (if long - short ≤ i then ss + v else ss, ls + v)
  let out ← wr cap [] (voscOut (s.1 * shortDiv) (s.2 * longDiv))
  let s ← forUp long xs.length (s.1, s.2, out) fun i (ss, ls, out) => do
    let v ← rd xs i
    let a ← rd xs (i - short)
    let b ← rd xs (i - long)
    let ss := ss + v - a
    let ls := ls + v - b
    let out ← wr cap out (voscOut (ss * shortDiv) (ls * longDiv))
    return (ss, ls, out)
  finish cap s.2.2

/-- `ti_ao_start`, ao.cc:11-14. -/
def aoStart (_ : Nat → R) : M Int := .ok 33

/-- `0.5 * (high[i] + low[i])`, ao.cc:34, 42, 46, 47. -/
def aoMid (r : HL R) : R := c! 1 / c! 2 * (r.high + r.low)

/-- `ti_ao`, ao.cc:17-55. State: sum34, sum5, outputs. -/
def aoBatch (o : Nat → R) (xs : List (HL R)) : M (Ret × List R) := do
  let start ← aoStart o
  if (xs.length : Int) ≤ start then return (.okay, [])
  let cap := xs.length - start
  let per34 : R := c! 1 / c! 34
  let per5 : R := c! 1 / c! 5
  let s ← forUp 0 34 ((c! 0 : R), (c! 0 : R)) fun i (s34, s5) => do
    let hl := aoMid (← rd xs i)
    return (s34 + hl, if 29 ≤ i then s5 + hl else s5)
  let out ← wr cap [] (per5 * s.2 - per34 * s.1)
  let s ← forUp 34 xs.length (s.1, s.2, out) fun i (s34, s5, out) => do
    let hl := aoMid (← rd xs i)
    let a ← rd xs (i - 34)
    let b ← rd xs (i - 5)
    let s34 := s34 + hl - aoMid a
    let s5 := s5 + hl - aoMid b
    let out ← wr cap out (per5 * s5 - per34 * s34)
    return (s34, s5, out)
  finish cap s.2.2

/-- `ti_qstick_start` qstick.cc:11-13, `ti_dpo_start` dpo.cc:11-13. -/
def qstickStart (o : Nat → R) : M Int := do i32 ((← toInt (o 0)) - 1)

/-- `ti_qstick`, qstick.cc:16-43. -/
def qstickBatch (o : Nat → R) (xs : List (OC R)) : M (Ret × List R) := do
  let period ← toInt (o 0)
  let scale : R := c! 1 / (period : R)
  if period < 1 then return (.invalidOption, [])
  let start ← qstickStart o
  if (xs.length : Int) ≤ start then return (.okay, [])
  let cap := xs.length - start
  let sum ← forUp 0 period (c! 0 : R) fun i sum => do
    let r ← rd xs i
    return sum + (r.close - r.open)
  let out ← wr cap [] (sum * scale)
  let s ← forUp period xs.length (sum, out) fun i (sum, out) => do
    let r ← rd xs i
    let q ← rd xs (i - period)
    let sum := sum + (r.close - r.open) - (q.close - q.open)
    let out ← wr cap out (sum * scale)
    return (sum, out)
  finish cap s.2

/-- `ti_dpo`, dpo.cc:16-45. -/
def dpoBatch (o : Nat → R) (xs : List R) : M (Ret × List R) := do
  let period ← toInt (o 0)
  let back ← i32 (Int.tdiv period 2 + 1)
  let scale : R := c! 1 / (period : R)
  if period < 1 then return (.invalidOption, [])
  let start ← qstickStart o
  if (xs.length : Int) ≤ start then return (.okay, [])
  let cap := xs.length - start
  let sum ← forUp 0 period (c! 0 : R) fun i sum => do return sum + (← rd xs i)
  let v ← rd xs (period - 1 - back)
  let out ← wr cap [] (v - sum * scale)
  let s ← forUp period xs.length (sum, out) fun i (sum, out) => do
    let a ← rd xs i
    let b ← rd xs (i - period)
    let sum := sum + a - b
    let v ← rd xs (i - back)
    let out ← wr cap out (v - sum * scale)
    return (sum, out)
  finish cap s.2

end Verif
