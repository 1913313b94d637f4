import Verif.Model.Smooth
import Verif.Model.Weighted
import Verif.Model.Window
import Verif.Model.Simple
import Verif.Model.Average

/-! The reference implementations of dwma, copp and kst, which chain other indicators.

The reference implementations of arsi, gf1 to gf4, mgdyn and pwma repeat the text of their batch calls and that of hd differs
from it only in one-cell buffers: they are covered by the batch models. -/

namespace Verif

variable {R : Type} [Num R]

/-- `ti_dwma_ref`, dwma.cc:78-92: `wma` of `wma`. The vector has `size - period + 1` zeroes, a `TI_REAL` converted to an
unsigned size; the second call gets the same number converted to `int`. -/
def dwmaRef (o : Nat → R) (xs : List R) : M (Ret × List R) := do
  if o 0 < c! 1 then return (.invalidOption, [])
  let v : R := ((xs.length : Int) : R) - o 0 + c! 1
  let n ← vecSize v
  let one ← wmaBatch o xs
  let smooth1 ← filled n one.2
  let m ← toInt v
  let two ← wmaBatch o (smooth1.take m.toNat)
  return (.okay, two.2)

/-- `ti_copp_ref`, copp.cc:76-115. The buffers from `malloc` have the lengths of what `ti_roc` writes to them; a later read
beyond is reported by `rd`. -/
def coppRef (o : Nat → R) (xs : List R) : M (Ret × List R) := do
  if coppBad o then return (.invalidOption, [])
  if o 1 < o 0 then return (.invalidOption, [])
  let size : Int := xs.length
  if size < (← coppStart o) then return (.okay, [])
  let shortLen := size - (← startPeriod (fun _ => o 0))
  let longLen := size - (← startPeriod (fun _ => o 1))
  let short ← rocBatch (fun _ => o 0) xs
  let long ← rocBatch (fun _ => o 1) xs
  let interm ← forUp 0 longLen ([] : List R) fun i out => do
    let a ← rd long.2 i
    let b ← rd short.2 (i + (shortLen - longLen))
    wr longLen out ((a + b) * c! 100 / c! 2)
  let r ← wmaBatch (fun _ => o 2) interm
  return (.okay, r.2)

/-- One of the four lines of `ti_kst_ref`, kst.cc:131-139: the length `size_ema` and the smoothed rate of change. A negative
length makes `malloc` fail; nothing is then written. `ti_ema_start` is 0. -/
def kstRefLine (o : Nat → R) (xs : List R) (i : Nat) : M (Int × List R) := do
  let len := xs.length - (← startPeriod (fun _ => o i))
  let roc ← rocBatch (fun _ => o i) xs
  let ema ← emaBatch (fun _ => o (4 + i)) roc.2
  return (len - (← emaStart (fun _ => o (4 + i))), ema.2)

/-- `ti_kst_ref`, kst.cc:108-163. -/
def kstRef (o : Nat → R) (xs : List R) : M (Ret × List (Kst R)) := do
  if ¬ (o 0 < o 1 ∧ o 1 < o 2 ∧ o 2 < o 3) then return (.invalidOption, [])
  if o 0 < c! 1 ∨ o 1 < c! 1 ∨ o 2 < c! 1 ∨ o 3 < c! 1 ∨ o 4 < c! 1 ∨ o 5 < c! 1 ∨ o 6 < c! 1 ∨ o 7 < c! 1 then
    return (.invalidOption, [])
  let a ← kstRefLine o xs 0
  let b ← kstRefLine o xs 1
  let c ← kstRefLine o xs 2
  let d ← kstRefLine o xs 3
  let len := min (min (min a.1 b.1) c.1) d.1
  let cap := xs.length - (← kstStart o)
  let ks ← forUp 0 len ([] : List R) fun i out => do
    let va ← rd a.2 (i + (a.1 - len))
    let vb ← rd b.2 (i + (b.1 - len))
    let vc ← rd c.2 (i + (c.1 - len))
    let vd ← rd d.2 (i + (d.1 - len))
    wr cap out (kstMix va vb vc vd)
  let signal ← emaBatch (fun _ => c! 9) ks
  asrt (decide ((ks.length : Int) = cap))
  return (.okay, List.zipWith Kst.mk ks signal.2)

end Verif
