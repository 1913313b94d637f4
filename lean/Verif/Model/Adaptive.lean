/- Models of psar, kama, vidya. -/
import Verif.Core.Num
import Verif.Core.Rows

namespace Verif
variable {R : Type} [Num R]

/-- The variables of the psar loop. -/
structure Psar (R : Type) where (lng : Bool) (sar extreme accel : R)

/-- `ti_psar_start`, psar.cc:11-14. -/
def psarStart (_o : Nat → R) : M Int := pure 1

/-- psar.cc:54-94: one bar. Simplification: `high[i]` and `low[i]` are read once, at the start. -/
def psarBar (step max : R) (bars : List (HL R)) (i : Int) (s : Psar R) : M (Psar R) := do
  let sar := (s.extreme - s.sar) * s.accel + s.sar
  let b ← rd bars i
  let s ← (if s.lng then (do
      let sar ← (if 2 ≤ i then (do
        let b2 ← rd bars (i - 2)
        return if b2.low < sar then b2.low else sar) else pure sar)
      let b1 ← rd bars (i - 1)
      let sar := if b1.low < sar then b1.low else sar
      let accel := if s.accel < max ∧ s.extreme < b.high then
        (if max < s.accel + step then max else s.accel + step) else s.accel
      let extreme := if s.extreme < b.high then b.high else s.extreme
      return { lng := s.lng, sar := sar, extreme := extreme, accel := accel })
    else (do
      let sar ← (if 2 ≤ i then (do
        let b2 ← rd bars (i - 2)
        return if sar < b2.high then b2.high else sar) else pure sar)
      let b1 ← rd bars (i - 1)
      let sar := if sar < b1.high then b1.high else sar
      let accel := if s.accel < max ∧ b.low < s.extreme then
        (if max < s.accel + step then max else s.accel + step) else s.accel
      let extreme := if b.low < s.extreme then b.low else s.extreme
      return { lng := s.lng, sar := sar, extreme := extreme, accel := accel }))
  if (s.lng ∧ b.low < s.sar) ∨ (¬ s.lng ∧ s.sar < b.high) then
    return { lng := !s.lng, sar := s.extreme, extreme := if s.lng then b.low else b.high, accel := step }
  else return s

/-- psar.cc:33-49. -/
def psarInit (step : R) (b0 b1 : HL R) : Psar R :=
  if b0.high + b0.low ≤ b1.high + b1.low then { lng := true, sar := b0.low, extreme := b0.high, accel := step }
  else { lng := false, sar := b0.high, extreme := b0.low, accel := step }

/-- `ti_psar`, psar.cc:17-108. -/
def psarBatch (o : Nat → R) (bars : List (HL R)) : M (Ret × List R) := do
  if o 0 ≤ c! 0 then return (.invalidOption, [])
  if o 1 ≤ o 0 then return (.invalidOption, [])
  if (bars.length : Int) < 2 then return (.okay, [])
  let start ← psarStart o
  let cap := bars.length - start
  let b0 ← rd bars 0
  let b1 ← rd bars 1
  let s ← forUp 1 bars.length (psarInit (o 0) b0 b1, []) fun i (s, out) => do
    let s ← psarBar (o 0) (o 1) bars i s
    let out ← wr cap out s.sar
    return (s, out)
  finish cap s.2

/-- `ti_kama_start`, kama.cc:12-14. -/
def kamaStart (o : Nat → R) : M Int := do i32 ((← toInt (o 0)) - 1)

/-- `ti_kama`, kama.cc:17-61. -/
def kamaBatch (o : Nat → R) (xs : List R) : M (Ret × List R) := do
  let period ← toInt (o 0)
  if period < 1 then return (.invalidOption, [])
  let start ← kamaStart o
  if (xs.length : Int) ≤ start then return (.okay, [])
  let cap := xs.length - start
  let short_per : R := c! 2 / (c! 2 + c! 1)
  let long_per : R := c! 2 / (c! 30 + c! 1)
  let sum ← forUp 1 period (c! 0 : R) fun i sum => do
    let a ← rd xs i
    let b ← rd xs (i - 1)
    return sum + CMath.fabs (a - b)
  let kama ← rd xs (period - 1)
  let out ← wr cap [] kama
  let s ← forUp period xs.length (sum, kama, out) fun i (sum, kama, out) => do
    let a ← rd xs i
    let b ← rd xs (i - 1)
    let sum := sum + CMath.fabs (a - b)
    let sum ← (if period < i then (do
      let c ← rd xs (i - period)
      let d ← rd xs (i - period - 1)
      return sum - CMath.fabs (c - d)) else pure sum)
    let er ← (if sum == c! 0 then pure (c! 1) else (do
      let c ← rd xs (i - period)
      return CMath.fabs (a - c) / sum))
    let sc := CMath.pow (er * (short_per - long_per) + long_per) (c! 2)
    let kama := kama + sc * (a - kama)
    let out ← wr cap out kama
    return (sum, kama, out)
  finish cap s.2.2

/-- `ti_vidya_start`, vidya.cc:13-15. -/
def vidyaStart (o : Nat → R) : M Int := do i32 ((← toInt (o 1)) - 2)

/-- vidya.cc:57-63 and 81-86: the new value. `(a, b)` are `short_sum, short_sum2`, `(c, d)` `long_sum, long_sum2`. -/
def vidyaNext (short_div long_div alpha : R) (ss ls : R × R) (x val : R) : R :=
  let short_stddev := CMath.sqrt (ss.2 * short_div - (ss.1 * short_div) * (ss.1 * short_div))
  let long_stddev := CMath.sqrt (ls.2 * long_div - (ls.1 * long_div) * (ls.1 * long_div))
  let k := if short_stddev == c! 0 then c! 0 else short_stddev / long_stddev
  let k := if k == k then k else c! 0
  let k := k * alpha
  (x - val) * k + val

/-- `ti_vidya`, vidya.cc:18-94. -/
def vidyaBatch (o : Nat → R) (xs : List R) : M (Ret × List R) := do
  let short_period ← toInt (o 0)
  let long_period ← toInt (o 1)
  let alpha := o 2
  let short_div : R := c! 1 / (short_period : R)
  let long_div : R := c! 1 / (long_period : R)
  if short_period < 1 then return (.invalidOption, [])
  if long_period < short_period then return (.invalidOption, [])
  if long_period < 2 then return (.invalidOption, [])
  if alpha < c! 0 ∨ c! 1 < alpha then return (.invalidOption, [])
  let start ← vidyaStart o
  if (xs.length : Int) ≤ start then return (.okay, [])
  let cap := xs.length - start
  let z : R := c! 0
  let s ← forUp 0 long_period ((z, z), (z, z)) fun i (ss, ls) => do
    let v ← rd xs i
    let ls := (ls.1 + v, ls.2 + v * v)
    let ss := if long_period - short_period ≤ i then (ss.1 + v, ss.2 + v * v) else ss
    return (ss, ls)
  let val ← rd xs (long_period - 2)
  let out ← wr cap [] val
  let r ← (if long_period - 1 < xs.length then (do
      let v ← rd xs (long_period - 1)
      let val := vidyaNext short_div long_div alpha s.1 s.2 v val
      let out ← wr cap out val
      return (val, out)) else pure (val, out))
  let s ← forUp long_period xs.length (s, r) fun i ((ss, ls), (val, out)) => do
    let v ← rd xs i
    let ls := (ls.1 + v, ls.2 + v * v)
    let ss := (ss.1 + v, ss.2 + v * v)
    let w ← rd xs (i - long_period)
    let ls := (ls.1 - w, ls.2 - w * w)
    let u ← rd xs (i - short_period)
    let ss := (ss.1 - u, ss.2 - u * u)
    let val := vidyaNext short_div long_div alpha ss ls v val
    let out ← wr cap out val
    return ((ss, ls), (val, out))
  finish cap s.2.2

end Verif
