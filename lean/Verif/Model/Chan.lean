/-
Models of pc, ce, ichi and smi (`/repo/indicators/<name>.cc`): they keep the extremum of a window and its position.
-/
import Verif.Core.LoopBatch
import Verif.Core.Exact
import Verif.Model.Flow
import Verif.Model.Extremum
import Verif.Model.Range
import Verif.Model.Ring

namespace Verif
variable {R : Type} [Num R]

/-- An extremum and its position, e.g. `max, max_idx` in pc.cc:29-32. `val = none` stands for the infinity the variable
starts with: a comparison with it is taken to succeed, as it does for every price that is not a NaN. `idx = none` stands
for a variable that has not been assigned. -/
structure Ext (R : Type) where
  val : Option R
  idx : Option Int

/-- `if (max <= x) { max = x; max_idx = i; }` (or `>=` for a minimum), e.g. pc.cc:37-44. -/
def Ext.take (rep : R → R → Bool) (e : Ext R) (x : R) (i : Int) : Ext R :=
  match e.val with
  | none => ⟨some x, some i⟩
  | some m => if rep x m then ⟨some x, some i⟩ else e

/-- `std::max_element(b + lo, b + hi)`: scan upwards, keep the first greatest. `n` cells remain, the next is `j`. -/
def scanUp (cmp : R → R → Bool) (b : List R) : Nat → Nat → Nat → M Nat
  | 0, _, best => .ok best
  | n + 1, j, best => do
    let x ← rd b best
    let y ← rd b j
    scanUp cmp b n (j + 1) (if cmp x y then j else best)

/-- The position `std::max_element(b + lo, b + hi)` finds in a non-empty range. -/
def maxUp (cmp : R → R → Bool) (b : List R) (lo hi : Nat) : M Nat :=
  if lo < hi then scanUp cmp b (hi - 1 - lo) (lo + 1) lo else .error .oobRead

/-- The block `if (max_idx == i - period) { search } else if (max <= x) { … }`, e.g. pc.cc:47-54. `find` is the search over
the positions `lo ≤ … < hi` of the array. -/
def Ext.batch (find : List R → Nat → Nat → M Nat) (rep : R → R → Bool) (b : List R) (period i : Int) (e : Ext R) : M (Ext R) := do
  let ix ← getV e.idx
  if ix = i - period then
    if i - period + 1 < 0 then .error .badPtr
    let it ← find b (i - period + 1).toNat (i + 1).toNat
    return ⟨some (← rd b it), some it⟩
  else return e.take rep (← rd b i) i

/-- The same block in a stream, e.g. pc.cc:172-179: the search runs over the ring of prices. -/
def Ext.stream (cmp rep : R → R → Bool) (r : Ring R) (period progress : Int) (x : R) (e : Ext R) : M (Ext R) := do
  let ix ← getV e.idx
  if ix = progress - period then
    let it ← r.findMax cmp period
    return ⟨some (← rd r.buf it), some (progress - (← r.age it))⟩
  else return e.take rep x progress

/-- The highest high and the lowest low. -/
structure HiLo (R : Type) where
  hi : Ext R
  lo : Ext R

/-- `max_idx`, `min_idx` not assigned; both values infinite. -/
def HiLo.unset : HiLo R := ⟨⟨none, none⟩, ⟨none, none⟩⟩
/-- Positions zero; both values infinite. -/
def HiLo.zero : HiLo R := ⟨⟨none, some 0⟩, ⟨none, some 0⟩⟩

def HiLo.take (s : HiLo R) (h l : R) (i : Int) : HiLo R := ⟨s.hi.take repMax h i, s.lo.take repMin l i⟩

def HiLo.batchDown (hs ls : List R) (period i : Int) (s : HiLo R) : M (HiLo R) := do
  let hi ← s.hi.batch (Ring.maxDown cmpLess) repMax hs period i
  let lo ← s.lo.batch (Ring.maxDown cmpGreater) repMin ls period i
  return ⟨hi, lo⟩

def HiLo.batchUp (hs ls : List R) (period i : Int) (s : HiLo R) : M (HiLo R) := do
  let hi ← s.hi.batch (maxUp cmpLess) repMax hs period i
  let lo ← s.lo.batch (maxUp cmpGreater) repMin ls period i
  return ⟨hi, lo⟩

def HiLo.stream (rh rl : Ring R) (period progress : Int) (h l : R) (s : HiLo R) : M (HiLo R) := do
  let hi ← s.hi.stream cmpLess repMax rh period progress h
  let lo ← s.lo.stream cmpGreater repMin rl period progress l
  return ⟨hi, lo⟩

/-! ### pc -/

/-- `ti_pc_start`, pc.cc:15-18: the subtraction is on reals. -/
def pcStart (o : Nat → R) : M Int := toInt (o 0 - c! 1)

/-- The loops pc.cc:35-66. The outputs `pc_low`, `pc_high` are a row. -/
def pcLoops (period : Int) (xs : List (HL R)) : List (Phase (HL R) (HiLo R) (HL R)) :=
  [ { cond := fun i => decide (i < period - 1)
      body := fun i r s => return (s.take r.high r.low i, []) },
    { cond := fun _ => true
      body := fun i _ s => do
        let s ← s.batchDown (xs.map HL.high) (xs.map HL.low) period i
        return (s, [⟨← getV s.hi.val, ← getV s.lo.val⟩]) } ]

/-- `ti_pc`, pc.cc:20-69. -/
def pcBatch (o : Nat → R) (xs : List (HL R)) : M (Ret × List (HL R)) := do
  let period ← toInt (o 0)
  if period < 1 then return (.invalidOption, [])
  loopBatch ((xs.length : Int) - (← pcStart o)) (pcLoops period xs) 0 .unset xs

/-- `ti_pc_ref`, pc.cc:71-85. -/
def pcRef (o : Nat → R) (xs : List (HL R)) : M (Ret × List (HL R)) := do
  if o 0 < c! 1 then return (.invalidOption, [])
  if (xs.length : Int) ≤ (← pcStart o) then return (.okay, [])
  let lo ← minBatch o (xs.map HL.low)
  let hi ← maxBatch o (xs.map HL.high)
  return (.okay, List.zipWith HL.mk hi.2 lo.2)

/-- Mutable members of `ti_pc_stream`, pc.cc:92-100. -/
structure PcS (R : Type) where
  ext : HiLo R
  low : Ring R
  high : Ring R

/-- `ti_pc_stream_new`, pc.cc:107-129. -/
def pcNew (o : Nat → R) : M (NewRes Int (PcS R)) := do
  if o 0 < c! 1 then return .fail .invalidOption
  let start ← pcStart o
  let period ← toInt (o 0)
  return .made period (-start) ⟨.zero, ← Ring.make period, ← Ring.make period⟩

/-- The loops pc.cc:154-191. -/
def pcPhases (period : Int) : List (Phase (HL R) (PcS R) (HL R)) :=
  [ { cond := fun p => decide (p < 0)
      body := fun p r s => do
        let low ← s.low.set r.low
        let high ← s.high.set r.high
        return (⟨s.ext.take r.high r.low p, low.step, high.step⟩, []) },
    { cond := fun _ => true
      body := fun p r s => do
        let low ← s.low.set r.low
        let high ← s.high.set r.high
        let e ← s.ext.stream high low period p r.high r.low
        return (⟨e, low.step, high.step⟩, [⟨← getV e.hi.val, ← getV e.lo.val⟩]) } ]

def pc : Indicator R (HL R) (HL R) where
  κ := Int
  σ := PcS R
  start := pcStart
  batch := pcBatch
  new := pcNew
  phases := pcPhases

/-! ### ce -/

/-- `ti_ce_start`, ce.cc:14-16. -/
def ceStart (o : Nat → R) : M Int := do i32 ((← toInt (o 0)) - 1)

/-- ce.cc:79-80: the stops below the highest high and above the lowest low. -/
def ceOut (coef : R) (s : HiLo R) (atr : R) : M (HL R) := do
  return ⟨(← getV s.hi.val) - coef * atr, (← getV s.lo.val) + coef * atr⟩

/-- `std::max(high[i], c) - std::min(low[i], c)`, e.g. ce.cc:55. -/
def ceRange (r : HLC R) (c : R) : R := stdMax r.high c - stdMin r.low c

/-- The loops ce.cc:46-105. State: `max, max_idx, min, min_idx` and `atr`. -/
def ceLoops (period : Int) (coef : R) (xs : List (HLC R)) : List (Phase (HLC R) (HiLo R × R) (HL R)) :=
  let per : R := c! 1 / ((period : Int) : R)
  [ { cond := fun i => decide (i < 1)
      body := fun _ r _ => return ((⟨⟨some r.high, some 0⟩, ⟨some r.low, some 0⟩⟩, (r.high - r.low) * per), []) },
    { cond := fun i => decide (i < period - 1)
      body := fun i r s => do
        let c ← rd xs (i - 1)
        return ((s.1.take r.high r.low i, s.2 + ceRange r c.close * per), []) },
    { cond := fun i => decide (i < period)
      body := fun i r s => do
        let c ← rd xs (i - 1)
        let atr := s.2 + ceRange r c.close * per
        let e := s.1.take r.high r.low i
        return ((e, atr), [← ceOut coef e atr]) },
    { cond := fun _ => true
      body := fun i r s => do
        let c ← rd xs (i - 1)
        let atr := (ceRange r c.close - s.2) * per + s.2
        let e ← s.1.batchDown (xs.map HLC.high) (xs.map HLC.low) period i
        return ((e, atr), [← ceOut coef e atr]) } ]

/-- `ti_ce`, ce.cc:26-110. -/
def ceBatch (o : Nat → R) (xs : List (HLC R)) : M (Ret × List (HL R)) := do
  let period ← toInt (o 0)
  if period < 1 then return (.invalidOption, [])
  loopBatch ((xs.length : Int) - (← ceStart o)) (ceLoops period (o 1) xs) 0 (.unset, c! 0) xs

/-- Mutable members of `ti_ce_stream`, ce.cc:156-167 (`new ti_ce_stream()` zeroes those without an initialiser). -/
structure CeS (R : Type) where
  ext : HiLo R
  atr : R
  prevClose : R
  high : Ring R
  low : Ring R

/-- `ti_ce_stream_new`, ce.cc:175-202. The constants are `period` and `coef`; `per` is computed from `period`. -/
def ceNew (o : Nat → R) : M (NewRes (Int × R) (CeS R)) := do
  let period ← toInt (o 0)
  if period < 1 then return .fail .invalidOption
  return .made (period, o 1) (-(← ceStart o)) ⟨.zero, c! 0, c! 0, ← Ring.make period, ← Ring.make period⟩

/-- The loops ce.cc:234-331. -/
def cePhases (k : Int × R) : List (Phase (HLC R) (CeS R) (HL R)) :=
  let per : R := c! 1 / ((k.1 : Int) : R)
  [ { cond := fun p => decide (p < -k.1 + 1 + 1)
      body := fun p r s => do
        let high ← s.high.set r.high
        let low ← s.low.set r.low
        return (⟨⟨⟨some r.high, some p⟩, ⟨some r.low, some p⟩⟩, (r.high - r.low) * per, r.close, high.step, low.step⟩, []) },
    { cond := fun p => decide (p < 0)
      body := fun p r s => do
        let high ← s.high.set r.high
        let low ← s.low.set r.low
        let e ← s.ext.stream high low k.1 p r.high r.low
        return (⟨e, s.atr + ceRange r s.prevClose * per, r.close, high.step, low.step⟩, []) },
    { cond := fun p => decide (p < 1)
      body := fun p r s => do
        let high ← s.high.set r.high
        let low ← s.low.set r.low
        let atr := s.atr + ceRange r s.prevClose * per
        let e ← s.ext.stream high low k.1 p r.high r.low
        return (⟨e, atr, r.close, high.step, low.step⟩, [← ceOut k.2 e atr]) },
    { cond := fun _ => true
      body := fun p r s => do
        let high ← s.high.set r.high
        let low ← s.low.set r.low
        let atr := (ceRange r s.prevClose - s.atr) * per + s.atr
        let e ← s.ext.stream high low k.1 p r.high r.low
        return (⟨e, atr, r.close, high.step, low.step⟩, [← ceOut k.2 e atr]) } ]

def ce : Indicator R (HLC R) (HL R) where
  κ := Int × R
  σ := CeS R
  start := ceStart
  batch := ceBatch
  new := ceNew
  phases := cePhases

/-- `ti_ce_ref`, ce.cc:112-148. The last loop compares an `int` with the real `size - period + 1`. -/
def ceRef (o : Nat → R) (xs : List (HLC R)) : M (Ret × List (HL R)) := do
  let start ← ceStart o
  if (xs.length : Int) ≤ start then return (.okay, [])
  if o 0 < c! 1 then return (.invalidOption, [])
  let atr ← atrBatch (fun _ => o 0) xs
  let mx ← maxBatch (fun _ => o 0) (xs.map HLC.high)
  let mn ← minBatch (fun _ => o 0) (xs.map HLC.low)
  let out ← forUp 0 (← toInt (CMath.ceil (((xs.length : Int) : R) - o 0 + c! 1))) ([] : List (HL R)) fun i out => do
    wr ((xs.length : Int) - start) out ⟨(← rd mx.2 i) - o 1 * (← rd atr.2 i), (← rd mn.2 i) + o 1 * (← rd atr.2 i)⟩
  return (.okay, out)

/-! ### ichi -/

/-- `ti_ichi_start`, ichi.cc:16-26. -/
def ichiStart (o : Nat → R) : M Int := do
  let p9 ← toInt (o 0)
  let p26 ← toInt (o 1)
  let p52 ← toInt (o 2)
  let a ← i32 (p9 - 1)
  let b ← i32 (p26 - 1)
  let c ← i32 ((← i32 (p52 - 1)) + p26)
  let d ← i32 ((← i32 (p9 - 1)) + p26)
  return max (max (max a b) c) d

/-- The outputs of ichi. -/
structure Ichi (R : Type) where
  tenkan : R
  kijun : R
  spanA : R
  spanB : R
deriving DecidableEq, Inhabited

/-- The three trackers and the two delay lines, ichi.cc:43-61. -/
structure IchiS (R : Type) where
  e9 : HiLo R
  e26 : HiLo R
  e52 : HiLo R
  bufA : Ring R
  bufB : Ring R

/-- `(hh + ll) / 2.`, e.g. ichi.cc:114. -/
def HiLo.mid (s : HiLo R) : M R := do return ((← getV s.hi.val) + (← getV s.lo.val)) / c! 2

/-- ichi.cc:114-117, 169-172: the two lines and the assignments to the delay lines. -/
def ichiLines (s : IchiS R) : M (IchiS R × R × R) := do
  let tenkan ← s.e9.mid
  let kijun ← s.e26.mid
  let bufA ← s.bufA.set ((tenkan + kijun) / c! 2)
  let bufB ← s.bufB.set (← s.e52.mid)
  return ({ s with bufA := bufA, bufB := bufB }, tenkan, kijun)

/-- `step(buf_ichi_senkou_span_A, buf_ichi_senkou_span_B)`. -/
def IchiS.step (s : IchiS R) : IchiS R := { s with bufA := s.bufA.step, bufB := s.bufB.step }

/-- ichi.cc:174-177. -/
def ichiOut (p26 : Int) (s : IchiS R) (tenkan kijun : R) : M (Ichi R) := do
  return ⟨tenkan, kijun, ← s.bufA.get p26, ← s.bufB.get p26⟩

/-- ichi.cc:65-112, 120-167. -/
def ichiTrack (p9 p26 p52 : Int) (hs ls : List R) (i : Int) (s : IchiS R) : M (IchiS R) := do
  let e9 ← s.e9.batchUp hs ls p9 i
  let e26 ← s.e26.batchUp hs ls p26 i
  let e52 ← s.e52.batchUp hs ls p52 i
  return { s with e9 := e9, e26 := e26, e52 := e52 }

/-- The loops ichi.cc:63-178. -/
def ichiLoops (p9 p26 p52 : Int) (xs : List (HL R)) : List (Phase (HL R) (IchiS R) (Ichi R)) :=
  [ { cond := fun i => decide (i < p52 - 1 + p26)
      body := fun i _ s => do
        let s ← ichiTrack p9 p26 p52 (xs.map HL.high) (xs.map HL.low) i s
        let (s, _) ← ichiLines s
        return (s.step, []) },
    { cond := fun _ => true
      body := fun i _ s => do
        let s ← ichiTrack p9 p26 p52 (xs.map HL.high) (xs.map HL.low) i s
        let (s, tenkan, kijun) ← ichiLines s
        return (s.step, [← ichiOut p26 s tenkan kijun]) } ]

/-- `!(0 < period9 && period9 <= period26 && period26 <= period52)`, ichi.cc:39. -/
def ichiBad (p9 p26 p52 : Int) : Bool := !(decide (0 < p9) && decide (p9 ≤ p26) && decide (p26 ≤ p52))

/-- `ti_ichi`, ichi.cc:28-183. -/
def ichiBatch (o : Nat → R) (xs : List (HL R)) : M (Ret × List (Ichi R)) := do
  let p9 ← toInt (o 0)
  let p26 ← toInt (o 1)
  let p52 ← toInt (o 2)
  if ichiBad p9 p26 p52 then return (.invalidOption, [])
  let m ← i32 (p26 + 1)
  let buf ← Ring.make m
  let _ ← i32 ((← i32 (p52 - 1)) + p26)
  loopBatch ((xs.length : Int) - (← ichiStart o)) (ichiLoops p9 p26 p52 xs) 0 ⟨.zero, .zero, .zero, buf, buf⟩ xs

/-- `&a[k]` for an array of `n` cells: one past the end is allowed. -/
def addrOf (n k : Int) : M Unit := if 0 ≤ k ∧ k ≤ n then .ok () else .error .badPtr

/-- `ti_ichi_ref`, ichi.cc:185-241. `hh9[i]` is the value `ti_max` wrote `period9 - 1` cells into the array. -/
def ichiRef (o : Nat → R) (xs : List (HL R)) : M (Ret × List (Ichi R)) := do
  let p9 ← toInt (o 0)
  let p26 ← toInt (o 1)
  let p52 ← toInt (o 2)
  if ichiBad p9 p26 p52 then return (.invalidOption, [])
  let n : Int := xs.length
  addrOf n (p9 - 1)
  let hh9 ← maxBatch (fun _ => ((p9 : Int) : R)) (xs.map HL.high)
  let ll9 ← minBatch (fun _ => ((p9 : Int) : R)) (xs.map HL.low)
  addrOf n (p26 - 1)
  let hh26 ← maxBatch (fun _ => ((p26 : Int) : R)) (xs.map HL.high)
  let ll26 ← minBatch (fun _ => ((p26 : Int) : R)) (xs.map HL.low)
  addrOf n (p52 - 1)
  let hh52 ← maxBatch (fun _ => ((p52 : Int) : R)) (xs.map HL.high)
  let ll52 ← minBatch (fun _ => ((p52 : Int) : R)) (xs.map HL.low)
  let first ← i32 ((← i32 (p52 - 1)) + p26)
  let out ← forUp first n ([] : List (Ichi R)) fun i out => do
    let tenkan := ((← rd hh9.2 (i - (p9 - 1))) + (← rd ll9.2 (i - (p9 - 1)))) / c! 2
    let kijun := ((← rd hh26.2 (i - (p26 - 1))) + (← rd ll26.2 (i - (p26 - 1)))) / c! 2
    let a := (((← rd hh9.2 (i - p26 - (p9 - 1))) + (← rd ll9.2 (i - p26 - (p9 - 1)))) / c! 2 +
      ((← rd hh26.2 (i - p26 - (p26 - 1))) + (← rd ll26.2 (i - p26 - (p26 - 1)))) / c! 2) / c! 2
    let b := ((← rd hh52.2 (i - p26 - (p52 - 1))) + (← rd ll52.2 (i - p26 - (p52 - 1)))) / c! 2
    wr (n - first) out ⟨tenkan, kijun, a, b⟩
  return (.okay, out)

/-- Mutable members of `ti_ichi_stream`, ichi.cc:251-278. -/
structure IchiT (R : Type) where
  s : IchiS R
  high : Ring R
  low : Ring R

/-- `ti_ichi_stream_new`, ichi.cc:281-312. -/
def ichiNew (o : Nat → R) : M (NewRes (Int × Int × Int) (IchiT R)) := do
  let p9 ← toInt (o 0)
  let p26 ← toInt (o 1)
  let p52 ← toInt (o 2)
  if ichiBad p9 p26 p52 then return .fail .invalidOption
  let start ← ichiStart o
  let m ← i32 (p26 + 1)
  let buf ← Ring.make m
  let price ← Ring.make p52
  return .made (p9, p26, p52) (-start) ⟨⟨.zero, .zero, .zero, buf, buf⟩, price, price⟩

/-- ichi.cc:359-406, 417-464. -/
def ichiTrackS (k : Int × Int × Int) (high low : Ring R) (p : Int) (r : HL R) (s : IchiS R) : M (IchiS R) := do
  let e9 ← s.e9.stream high low k.1 p r.high r.low
  let e26 ← s.e26.stream high low k.2.1 p r.high r.low
  let e52 ← s.e52.stream high low k.2.2 p r.high r.low
  return { s with e9 := e9, e26 := e26, e52 := e52 }

/-- The loops ichi.cc:355-475. -/
def ichiPhases (k : Int × Int × Int) : List (Phase (HL R) (IchiT R) (Ichi R)) :=
  [ { cond := fun p => decide (p < 0)
      body := fun p r t => do
        let high ← t.high.set r.high
        let low ← t.low.set r.low
        let s ← ichiTrackS k high low p r t.s
        let (s, _) ← ichiLines s
        return (⟨s.step, high.step, low.step⟩, []) },
    { cond := fun _ => true
      body := fun p r t => do
        let high ← t.high.set r.high
        let low ← t.low.set r.low
        let s ← ichiTrackS k high low p r t.s
        let (s, tenkan, kijun) ← ichiLines s
        return (⟨s.step, high.step, low.step⟩, [← ichiOut k.2.1 s tenkan kijun]) } ]

def ichi : Indicator R (HL R) (Ichi R) where
  κ := Int × Int × Int
  σ := IchiT R
  start := ichiStart
  batch := ichiBatch
  new := ichiNew
  phases := ichiPhases

/-! ### smi -/

/-- `ti_smi_start`, smi.cc:13-18. -/
def smiStart (o : Nat → R) : M Int := toInt (o 0 - c! 1)

/-- `for (int i = 0; i < 3; ++i) { if (options[i] < 1) … }`, smi.cc:29. -/
def smiBad (o : Nat → R) : Bool := decide (o 0 < c! 1) || decide (o 1 < c! 1) || decide (o 2 < c! 1)

/-- `ema_r_num, ema_s_num, ema_r_den, ema_s_den`. -/
structure SmiE (R : Type) where
  rNum : R
  sNum : R
  rDen : R
  sDen : R

/-- `ema_s_den ? 100 * ema_s_num / (0.5 * ema_s_den) : 0`, e.g. smi.cc:75. -/
def smiOut (e : SmiE R) : R := if e.sDen == c! 0 then c! 0 else c! 100 * e.sNum / (c! 1 / c! 2 * e.sDen)

/-- smi.cc:72-73. -/
def smiFirst (hh ll c : R) : SmiE R :=
  let num := c - c! 1 / c! 2 * (hh + ll)
  let den := hh - ll
  ⟨num, num, den, den⟩

/-- smi.cc:107-111, 323-327. -/
def smiNext (r s : R) (e : SmiE R) (hh ll c : R) : SmiE R :=
  let rNum := ((c - c! 1 / c! 2 * (hh + ll)) - e.rNum) * (c! 2 / (c! 1 + r)) + e.rNum
  let sNum := (rNum - e.sNum) * (c! 2 / (c! 1 + s)) + e.sNum
  let rDen := ((hh - ll) - e.rDen) * (c! 2 / (c! 1 + r)) + e.rDen
  let sDen := (rDen - e.sDen) * (c! 2 / (c! 1 + s)) + e.sDen
  ⟨rNum, sNum, rDen, sDen⟩

/-- `if (hh <= high[i]) …`, smi.cc:53-56: reads `hh`, which may not have been assigned. -/
def Ext.takeV (rep : R → R → Bool) (e : Ext R) (x : R) (i : Int) : M (Ext R) := do
  let m ← getV e.val
  return if rep x m then ⟨some x, some i⟩ else e

/-- smi.cc:78-91, 92-105: the comparison `hh_idx == progress - q_period` and the bound `j < q_period` are on reals. `i` is the
position of the bar in the array. -/
def Ext.smi (cmp rep : R → R → Bool) (q : R) (b : List R) (i progress : Int) (e : Ext R) : M (Ext R) := do
  let ix ← getV e.idx
  let x ← rd b i
  if ((ix : Int) : R) == ((progress : Int) : R) - q then
    let n ← toInt (CMath.ceil q)
    let s ← forUp 1 n (x, progress) fun j s => do
      let v ← rd b (i - j)
      return if cmp s.1 v then (v, progress - j) else s
    return ⟨some s.1, some s.2⟩
  else e.takeV rep x progress

/-- State of `ti_smi`: the extrema and the averages (`none`: not assigned). -/
structure SmiS (R : Type) where
  ext : HiLo R
  ema : Option (SmiE R)

/-- The loops smi.cc:46-114, as functions of `progress`; `p0` is its first value, so the bar is `progress - p0`. -/
def smiLoops (o : Nat → R) (p0 : Int) (xs : List (HLC R)) : List (Phase (HLC R) (SmiS R) R) :=
  [ { cond := fun p => (((p : Int) : R) == -(o 0) + c! 1)
      body := fun p r s => return ({ s with ext := ⟨⟨some r.high, some p⟩, ⟨some r.low, some p⟩⟩ }, []) },
    { cond := fun p => decide (p < 0)
      body := fun p r s => do
        let hi ← s.ext.hi.takeV repMax r.high p
        let lo ← s.ext.lo.takeV repMin r.low p
        return ({ s with ext := ⟨hi, lo⟩ }, []) },
    { cond := fun p => decide (p = 0)
      body := fun p r s => do
        let hi ← s.ext.hi.takeV repMax r.high p
        let lo ← s.ext.lo.takeV repMin r.low p
        let e := smiFirst (← getV hi.val) (← getV lo.val) r.close
        return (⟨⟨hi, lo⟩, some e⟩, [smiOut e]) },
    { cond := fun _ => true
      body := fun p r s => do
        let hi ← s.ext.hi.smi cmpLess repMax (o 0) (xs.map HLC.high) (p - p0) p
        let lo ← s.ext.lo.smi cmpGreater repMin (o 0) (xs.map HLC.low) (p - p0) p
        let e := smiNext (o 1) (o 2) (← getV s.ema) (← getV hi.val) (← getV lo.val) r.close
        return (⟨⟨hi, lo⟩, some e⟩, [smiOut e]) } ]

/-- `ti_smi`, smi.cc:20-119. -/
def smiBatch (o : Nat → R) (xs : List (HLC R)) : M (Ret × List R) := do
  if smiBad o then return (.invalidOption, [])
  let p0 ← toInt (-(o 0) + c! 1)
  loopBatch ((xs.length : Int) - (← smiStart o)) (smiLoops o p0 xs) p0 ⟨.unset, none⟩ xs

/-- `ti_smi_ref`, smi.cc:121-164 (allocation assumed to succeed; no guard against a zero range). -/
def smiRef (o : Nat → R) (xs : List (HLC R)) : M (Ret × List R) := do
  if smiBad o then return (.invalidOption, [])
  let start ← maxStart o
  let outsize ← i32 ((xs.length : Int) - start)
  let mx ← maxBatch o (xs.map HLC.high)
  let mn ← minBatch o (xs.map HLC.low)
  let nd ← forUp 0 outsize (([], []) : List R × List R) fun i (num, den) => do
    let c ← rd xs ((xs.length : Int) - outsize + i)
    let hi ← rd mx.2 i
    let lo ← rd mn.2 i
    return (num ++ [c.close - c! 1 / c! 2 * (hi + lo)], den ++ [hi - lo])
  let num ← emaInPlace (fun _ => o 2) (← emaInPlace (fun _ => o 1) nd.1)
  let den ← emaInPlace (fun _ => o 2) (← emaInPlace (fun _ => o 1) nd.2)
  let out ← forUp 0 outsize ([] : List R) fun i out => do
    wr outsize out (c! 100 * (← rd num i) / (c! 1 / c! 2 * (← rd den i)))
  return (.okay, out)

/-- Mutable members of `ti_smi_stream`, smi.cc:173-185. -/
structure SmiT (R : Type) where
  s : SmiS R
  high : Ring R
  low : Ring R

/-- `ti_smi_stream_new`, smi.cc:192-219: the stream keeps all three periods as `int`. -/
def smiNew (o : Nat → R) : M (NewRes (Int × Int × Int) (SmiT R)) := do
  if smiBad o then return .fail .invalidOption
  let start ← smiStart o
  let q ← toInt (o 0)
  let r ← toInt (o 1)
  let s ← toInt (o 2)
  let price ← Ring.make q
  return .made (q, r, s) (-start) ⟨⟨.zero, none⟩, price, price⟩

/-- The loops smi.cc:255-330. -/
def smiPhases (k : Int × Int × Int) : List (Phase (HLC R) (SmiT R) R) :=
  [ { cond := fun p => decide (p < 0)
      body := fun p r t => do
        let low ← t.low.set r.low
        let high ← t.high.set r.high
        let e ← t.s.ext.stream high low k.1 p r.high r.low
        return (⟨{ t.s with ext := e }, high.step, low.step⟩, []) },
    { cond := fun p => decide (p = 0)
      body := fun p r t => do
        let low ← t.low.set r.low
        let high ← t.high.set r.high
        let e ← t.s.ext.stream high low k.1 p r.high r.low
        let m := smiFirst (← getV e.hi.val) (← getV e.lo.val) r.close
        return (⟨⟨e, some m⟩, high.step, low.step⟩, [smiOut m]) },
    { cond := fun _ => true
      body := fun p r t => do
        let low ← t.low.set r.low
        let high ← t.high.set r.high
        let e ← t.s.ext.stream high low k.1 p r.high r.low
        let m := smiNext ((k.2.1 : Int) : R) ((k.2.2 : Int) : R) (← getV t.s.ema) (← getV e.hi.val) (← getV e.lo.val) r.close
        return (⟨⟨e, some m⟩, high.step, low.step⟩, [smiOut m]) } ]

def smi : Indicator R (HLC R) R where
  κ := Int × Int × Int
  σ := SmiT R
  start := smiStart
  batch := smiBatch
  new := smiNew
  phases := smiPhases

end Verif
