/- Models of the indicators that track the extremum of a window: max, min, willr, stoch, aroon, aroonosc, fisher,
stochrsi, vhf. -/
import Verif.Core.Num
import Verif.Core.Rows
import Verif.Model.TiBuf
import Verif.Model.Window

namespace Verif
variable {R : Type} [Num R]

/-- The extremum maintenance block that is copied into max.cc:28-44, min.cc:28-44, willr.cc:36-70,
stoch.cc:52-86, aroon.cc:36-70, aroonosc.cc:35-69, fisher.cc:40-74, vhf.cc:53-86. `get j` reads bar `j`
(`input[j]`, `high[j]`, `HL(j)`, …), `rep bar m` is the comparison `bar >= max` (or `bar <= min`). State: index and
value of the extremum kept so far. `while(++j <= i)` starting from `j = trail` visits `trail+1, …, i`. -/
def track (rep : R → R → Bool) (get : Int → M R) (trail i : Int) (s : Int × R) : M (Int × R) := do
  let bar ← get i
  if s.1 < trail then
    let m ← get trail
    forUp (trail + 1) (i + 1) (trail, m) fun j s => do
      let bar ← get j
      return if rep bar s.2 then (j, bar) else s
  else return if rep bar s.2 then (i, bar) else s

/-- `bar >= max` -/
def repMax (bar m : R) : Bool := decide (m ≤ bar)
/-- `bar <= min` -/
def repMin (bar m : R) : Bool := decide (bar ≤ m)

/-- `ti_max_start` max.cc:11-13, `ti_min_start` min.cc:11-13, `ti_willr_start` willr.cc:11-13,
`ti_fisher_start` fisher.cc:13-15. -/
def maxStart (o : Nat → R) : M Int := do i32 ((← toInt (o 0)) - 1)
def minStart (o : Nat → R) : M Int := do i32 ((← toInt (o 0)) - 1)
def willrStart (o : Nat → R) : M Int := do i32 ((← toInt (o 0)) - 1)
def fisherStart (o : Nat → R) : M Int := do i32 ((← toInt (o 0)) - 1)

/-- `ti_max`, max.cc:16-52. State: trail, (maxi, max), outputs. -/
def maxBatch (o : Nat → R) (xs : List R) : M (Ret × List R) := do
  let period ← toInt (o 0)
  if period < 1 then return (.invalidOption, [])
  let start ← maxStart o
  if (xs.length : Int) ≤ start then return (.okay, [])
  let cap := xs.length - start
  let m0 ← rd xs 0
  let s ← forUp (period - 1) xs.length ((0 : Int), (-1 : Int), m0, ([] : List R)) fun i (trail, maxi, max, out) => do
    let (maxi, max) ← track repMax (rd xs) trail i (maxi, max)
    let out ← wr cap out max
    return (trail + 1, maxi, max, out)
  finish cap s.2.2.2

/-- `ti_min`, min.cc:16-51. -/
def minBatch (o : Nat → R) (xs : List R) : M (Ret × List R) := do
  let period ← toInt (o 0)
  if period < 1 then return (.invalidOption, [])
  let start ← minStart o
  if (xs.length : Int) ≤ start then return (.okay, [])
  let cap := xs.length - start
  let m0 ← rd xs 0
  let s ← forUp (period - 1) xs.length ((0 : Int), (-1 : Int), m0, ([] : List R)) fun i (trail, mini, min, out) => do
    let (mini, min) ← track repMin (rd xs) trail i (mini, min)
    let out ← wr cap out min
    return (trail + 1, mini, min, out)
  finish cap s.2.2.2

/-- `ti_max_ref`, max.cc:55-74 (no final assert). -/
def maxRef (o : Nat → R) (xs : List R) : M (Ret × List R) := do
  let period ← toInt (o 0)
  if period < 1 then return (.invalidOption, [])
  let start ← maxStart o
  if (xs.length : Int) ≤ start then return (.okay, [])
  let cap := xs.length - start
  let out ← forUp (period - 1) xs.length ([] : List R) fun i out => do
    let m ← rd xs (i - period + 1)
    let m ← forUp (i - period + 2) (i + 1) m fun j m => do
      let x ← rd xs j
      return if x < m then m else x
    wr cap out m
  return (.okay, out)

/-- `ti_min_ref`, min.cc:53-73. -/
def minRef (o : Nat → R) (xs : List R) : M (Ret × List R) := do
  let period ← toInt (o 0)
  if period < 1 then return (.invalidOption, [])
  let start ← minStart o
  if (xs.length : Int) ≤ start then return (.okay, [])
  let cap := xs.length - start
  let out ← forUp (period - 1) xs.length ([] : List R) fun i out => do
    let m ← rd xs (i - period + 1)
    let m ← forUp (i - period + 2) (i + 1) m fun j m => do
      let x ← rd xs j
      return if m < x then m else x
    wr cap out m
  finish cap out

/-- The two price series of bar `j`. -/
def rdHigh (xs : List (HLC R)) (j : Int) : M R := do return (← rd xs j).high
def rdLow (xs : List (HLC R)) (j : Int) : M R := do return (← rd xs j).low

/-- willr.cc:74-75. -/
def willrOut (max min close : R) : R :=
  let highlow := max - min
  if highlow == c! 0 then c! 0 else -(c! 100) * ((max - close) / highlow)

/-- `ti_willr`, willr.cc:16-83. State: trail, (maxi, max), (mini, min), outputs. -/
def willrBatch (o : Nat → R) (xs : List (HLC R)) : M (Ret × List R) := do
  let period ← toInt (o 0)
  if period < 1 then return (.invalidOption, [])
  let start ← willrStart o
  if (xs.length : Int) ≤ start then return (.okay, [])
  let cap := xs.length - start
  let max0 ← rdHigh xs 0
  let min0 ← rdLow xs 0
  let s ← forUp (period - 1) xs.length ((0 : Int), ((-1 : Int), max0), ((-1 : Int), min0), ([] : List R))
    fun i (trail, mx, mn, out) => do
      let mx ← track repMax (rdHigh xs) trail i mx
      let mn ← track repMin (rdLow xs) trail i mn
      let r ← rd xs i
      let out ← wr cap out (willrOut mx.2 mn.2 r.close)
      return (trail + 1, mx, mn, out)
  finish cap s.2.2.2

/-- Outputs of stoch: stoch_k, stoch_d. -/
structure Stoch (R : Type) where (k d : R) deriving DecidableEq, Inhabited

/-- `ti_stoch_start`, stoch.cc:12-17: `kperiod + kslow + dperiod - 3` in `int`. -/
def stochStart (o : Nat → R) : M Int := do
  let kperiod ← toInt (o 0)
  let kslow ← toInt (o 1)
  let dperiod ← toInt (o 2)
  i32 ((← i32 ((← i32 (kperiod + kslow)) + dperiod)) - 3)

/-- stoch.cc:90-91. -/
def stochFast (max min close : R) : R :=
  let kdiff := max - min
  if kdiff == c! 0 then c! 0 else c! 100 * ((close - min) / kdiff)

/-- `ti_stoch`, stoch.cc:20-113. State: trail, (maxi, max), (mini, min), k_sum, d_sum, outputs. -/
def stochBatch (o : Nat → R) (xs : List (HLC R)) : M (Ret × List (Stoch R)) := do
  let kperiod ← toInt (o 0)
  let kslow ← toInt (o 1)
  let dperiod ← toInt (o 2)
  let kper : R := c! 1 / (kslow : R)
  let dper : R := c! 1 / (dperiod : R)
  if kperiod < 1 then return (.invalidOption, [])
  if kslow < 1 then return (.invalidOption, [])
  if dperiod < 1 then return (.invalidOption, [])
  let start ← stochStart o
  if (xs.length : Int) ≤ start then return (.okay, [])
  let cap := xs.length - start
  let max0 ← rdHigh xs 0
  let min0 ← rdLow xs 0
  let s ← forUp 0 xs.length ((0 : Int), ((-1 : Int), max0), ((-1 : Int), min0), (TiBuf.new kslow : TiBuf R),
      (TiBuf.new dperiod : TiBuf R), ([] : List (Stoch R)))
    fun i (trail, mx, mn, ks, ds, out) => do
      let trail := if kperiod ≤ i then trail + 1 else trail
      let mx ← track repMax (rdHigh xs) trail i mx
      let mn ← track repMin (rdLow xs) trail i mn
      let r ← rd xs i
      let ks ← ks.push (stochFast mx.2 mn.2 r.close)
      if kperiod - 1 + kslow - 1 ≤ i then
        let k := ks.sum * kper
        let ds ← ds.push k
        if kperiod - 1 + kslow - 1 + dperiod - 1 ≤ i then
          let out ← wr cap out ⟨k, ds.sum * dper⟩
          return (trail, mx, mn, ks, ds, out)
        else return (trail, mx, mn, ks, ds, out)
      else return (trail, mx, mn, ks, ds, out)
  finish cap s.2.2.2.2.2

/-- Outputs of aroon: aroon_down, aroon_up. -/
structure Aroon (R : Type) where (down up : R) deriving DecidableEq, Inhabited

/-- `ti_aroon_start` aroon.cc:11-13, `ti_aroonosc_start` aroonosc.cc:11-13, `ti_vhf_start` vhf.cc:13-15. -/
def aroonStart (o : Nat → R) : M Int := toInt (o 0)
def vhfStart (o : Nat → R) : M Int := toInt (o 0)

def rdHi (xs : List (HL R)) (j : Int) : M R := do return (← rd xs j).high
def rdLo (xs : List (HL R)) (j : Int) : M R := do return (← rd xs j).low

/-- `ti_aroon`, aroon.cc:16-82. State: trail, (maxi, max), (mini, min), outputs. -/
def aroonBatch (o : Nat → R) (xs : List (HL R)) : M (Ret × List (Aroon R)) := do
  let period ← toInt (o 0)
  if period < 1 then return (.invalidOption, [])
  let start ← aroonStart o
  if (xs.length : Int) ≤ start then return (.okay, [])
  let cap := xs.length - start
  let scale : R := c! 100 / (period : R)
  let max0 ← rdHi xs 0
  let min0 ← rdLo xs 0
  let s ← forUp period xs.length ((0 : Int), ((-1 : Int), max0), ((-1 : Int), min0), ([] : List (Aroon R)))
    fun i (trail, mx, mn, out) => do
      let mx ← track repMax (rdHi xs) trail i mx
      let mn ← track repMin (rdLo xs) trail i mn
      let out ← wr cap out ⟨((period : R) - ((i - mn.1 : Int) : R)) * scale, ((period : R) - ((i - mx.1 : Int) : R)) * scale⟩
      return (trail + 1, mx, mn, out)
  finish cap s.2.2.2

/-- `ti_aroonosc`, aroonosc.cc:16-87. -/
def aroonoscBatch (o : Nat → R) (xs : List (HL R)) : M (Ret × List R) := do
  let period ← toInt (o 0)
  if period < 1 then return (.invalidOption, [])
  let start ← aroonStart o
  if (xs.length : Int) ≤ start then return (.okay, [])
  let cap := xs.length - start
  let scale : R := c! 100 / (period : R)
  let max0 ← rdHi xs 0
  let min0 ← rdLo xs 0
  let s ← forUp period xs.length ((0 : Int), ((-1 : Int), max0), ((-1 : Int), min0), ([] : List R))
    fun i (trail, mx, mn, out) => do
      let mx ← track repMax (rdHi xs) trail i mx
      let mn ← track repMin (rdLo xs) trail i mn
      let out ← wr cap out (((mx.1 - mn.1 : Int) : R) * scale)
      return (trail + 1, mx, mn, out)
  finish cap s.2.2.2

/-- `HL(X)`, fisher.cc:17. -/
def rdMid (xs : List (HL R)) (j : Int) : M R := do
  let r ← rd xs j
  return c! 1 / c! 2 * (r.high + r.low)

/-- Outputs of fisher: fisher, fisher_signal. -/
structure Fisher (R : Type) where (fisher signal : R) deriving DecidableEq, Inhabited

/-- fisher.cc:76-80. -/
def fisherVal (max min hl val1 : R) : R :=
  let mm := max - min
  let mm := if mm == c! 0 then c! 1 / c! 1000 else mm
  let v := c! 33 / c! 100 * c! 2 * ((hl - min) / mm - c! 1 / c! 2) + c! 67 / c! 100 * val1
  let v := if c! 99 / c! 100 < v then c! 999 / c! 1000 else v
  if v < -(c! 99 / c! 100) then -(c! 999 / c! 1000) else v

/-- fisher.cc:83. -/
def fisherFish (val1 fish : R) : R :=
  c! 1 / c! 2 * CMath.log ((c! 1 + val1) / (c! 1 - val1)) + c! 1 / c! 2 * fish

/-- `ti_fisher`, fisher.cc:19-91. State: trail, (maxi, max), (mini, min), val1, fish, outputs. -/
def fisherBatch (o : Nat → R) (xs : List (HL R)) : M (Ret × List (Fisher R)) := do
  let period ← toInt (o 0)
  if period < 1 then return (.invalidOption, [])
  let start ← fisherStart o
  if (xs.length : Int) ≤ start then return (.okay, [])
  let cap := xs.length - start
  let m0 ← rdMid xs 0
  let s ← forUp (period - 1) xs.length
    ((0 : Int), ((-1 : Int), m0), ((-1 : Int), m0), (c! 0 : R), (c! 0 : R), ([] : List (Fisher R)))
    fun i (trail, mx, mn, val1, fish, out) => do
      let mx ← track repMax (rdMid xs) trail i mx
      let mn ← track repMin (rdMid xs) trail i mn
      let hl ← rdMid xs i
      let val1 := fisherVal mx.2 mn.2 hl val1
      let signal := fish
      let fish := fisherFish val1 fish
      let out ← wr cap out ⟨fish, signal⟩
      return (trail + 1, mx, mn, val1, fish, out)
  finish cap s.2.2.2.2.2

/-- `fabs(max - min) ? fabs(max - min) / sum : 0`, vhf.cc:89. -/
def vhfOut (max min sum : R) : R :=
  if CMath.fabs (max - min) == c! 0 then c! 0 else CMath.fabs (max - min) / sum

/-- `ti_vhf`, vhf.cc:18-94. State: trail, (maxi, max), (mini, min), sum, yc, outputs. -/
def vhfBatch (o : Nat → R) (xs : List R) : M (Ret × List R) := do
  let period ← toInt (o 0)
  if period < 1 then return (.invalidOption, [])
  let start ← vhfStart o
  if (xs.length : Int) ≤ start then return (.okay, [])
  let cap := xs.length - start
  let m0 ← rd xs 0
  let s ← forUp 1 period ((c! 0 : R), m0) fun i (sum, yc) => do
    let c ← rd xs i
    return (sum + CMath.fabs (c - yc), c)
  let s ← forUp period xs.length ((1 : Int), ((-1 : Int), m0), ((-1 : Int), m0), s.1, s.2, ([] : List R))
    fun i (trail, mx, mn, sum, yc, out) => do
      let c ← rd xs i
      let sum := sum + CMath.fabs (c - yc)
      let yc := c
      let sum ← (if period < i then (do
          let a ← rd xs (i - period)
          let b ← rd xs (i - period - 1)
          pure (sum - CMath.fabs (a - b)))
        else pure sum)
      let mx ← track repMax (rd xs) trail i mx
      let mn ← track repMin (rd xs) trail i mn
      let out ← wr cap out (vhfOut mx.2 mn.2 sum)
      return (trail + 1, mx, mn, sum, yc, out)
  finish cap s.2.2.2.2.2

/-- `ti_stochrsi_start`, stochrsi.cc:12-14. -/
def stochrsiStart (o : Nat → R) : M Int := do i32 ((← i32 ((← toInt (o 0)) * 2)) - 1)

/-- stochrsi.cc:57-70 (and 72-85 with the comparison reversed): the tracked extremum of the ring, `better a b` being
`a > b` (`a < b`). State: index and value. -/
def ringTrack (better : R → R → Bool) (b : TiBuf R) (r : R) (s : Int × R) : M (Int × R) :=
  if better r s.2 then .ok (b.index, r)
  else if s.1 = b.index then
    forUp 0 b.size (s.1, r) fun j s =>
      if j = b.index then .ok s
      else do
        let v ← b.at_ j
        return if better v s.2 then (j, v) else s
  else .ok s

/-- `ti_stochrsi`, stochrsi.cc:17-102. State: smooth_up, smooth_down, (maxi, max), (mini, min), rsi ring, outputs. -/
def stochrsiBatch (o : Nat → R) (xs : List R) : M (Ret × List R) := do
  let period ← toInt (o 0)
  let per : R := c! 1 / (period : R)
  if period < 2 then return (.invalidOption, [])
  let start ← stochrsiStart o
  if (xs.length : Int) ≤ start then return (.okay, [])
  let cap := xs.length - start
  let s ← forUp 1 (period + 1) ((c! 0 : R), (c! 0 : R)) fun i (up, down) => do
    let a ← rd xs i
    let b ← rd xs (i - 1)
    return (up + upward a b, down + downward a b)
  let up := s.1 / (period : R)
  let down := s.2 / (period : R)
  let r := rsiOut up down
  let buf ← (TiBuf.new period).push r
  let s ← forUp (period + 1) xs.length (up, down, ((0 : Int), r), ((0 : Int), r), buf, ([] : List R))
    fun i (up, down, mx, mn, buf, out) => do
      let a ← rd xs i
      let b ← rd xs (i - 1)
      let up := (upward a b - up) * per + up
      let down := (downward a b - down) * per + down
      let r := rsiOut up down
      let mx ← ringTrack (fun a b => decide (b < a)) buf r mx
      let mn ← ringTrack (fun a b => decide (a < b)) buf r mn
      let buf ← buf.qpush r
      if period * 2 - 2 < i then
        let diff := mx.2 - mn.2
        let out ← wr cap out (if diff == c! 0 then c! 0 else (r - mn.2) / diff)
        return (up, down, mx, mn, buf, out)
      else return (up, down, mx, mn, buf, out)
  finish cap s.2.2.2.2.2

end Verif
