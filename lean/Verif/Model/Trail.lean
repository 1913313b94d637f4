/-
Models of pfe, cmi and mhlma (`/repo/indicators/<name>.cc`): batch, reference and stream implementations. Memory is assumed
available throughout.
-/
import Verif.Core.LoopBatch
import Verif.Core.Exact
import Verif.Core.Rows
import Verif.Model.Ring
import Verif.Model.Flow
import Verif.Model.Chan
import Verif.Model.Range
import Verif.Model.Sum
import Verif.Model.Average

namespace Verif
variable {R : Type} [Num R]

/-! ### pfe -/

/-- `ti_pfe_start`, pfe.cc:13-18. -/
def pfeStart (o : Nat → R) : M Int := toInt (o 0)

/-- The length of one step, pfe.cc:46. -/
def pfeStep (x y : R) : R := CMath.sqrt (CMath.pow (x - y) (c! 2) + c! 1)
/-- `numer`, pfe.cc:52, with the macro `SIGN`, pfe.cc:34. -/
def pfeNumer (x y : R) : R :=
  (if c! 0 < x - y then c! 1 else -(c! 1)) * c! 100 * CMath.sqrt (CMath.pow (x - y) (c! 2) + c! 100)

/-- `sum`, `ema` (not assigned at first) and `denom`. -/
structure PfeS (R : Type) where
  sum : R
  ema : Option R
  denom : Ring R

/-- The loops pfe.cc:44-66. They start at `i = 1`; the first phase stands for that. -/
def pfeLoops (period : Int) (per : R) (xs : List R) : List (Phase R (PfeS R) R) :=
  [ { cond := fun i => decide (i < 1)
      body := fun _ _ s => return (s, []) },
    { cond := fun i => decide (i < period)
      body := fun i v s => do
        let d := pfeStep v (← rd xs (i - 1))
        let denom ← s.denom.set d
        return ({ s with sum := s.sum + d, denom := denom.step }, []) },
    { cond := fun i => decide (i < period + 1)
      body := fun i v s => do
        let d := pfeStep v (← rd xs (i - 1))
        let denom ← s.denom.set d
        let sum := s.sum + d
        let numer := pfeNumer v (← rd xs (i - period))
        let e := numer / sum
        return (⟨sum - (← denom.get (period - 1)), some e, denom.step⟩, [e]) },
    { cond := fun _ => true
      body := fun i v s => do
        let d := pfeStep v (← rd xs (i - 1))
        let denom ← s.denom.set d
        let sum := s.sum + d
        let numer := pfeNumer v (← rd xs (i - period))
        let ema ← getV s.ema
        let e := (numer / sum - ema) * per + ema
        return (⟨sum - (← denom.get (period - 1)), some e, denom.step⟩, [e]) } ]

/-- `ti_pfe`, pfe.cc:24-72. The sum `period + 1` is not checked: it is only evaluated when `size > period`. -/
def pfeBatch (o : Nat → R) (xs : List R) : M (Ret × List R) := do
  let period ← toInt (o 0)
  let ema ← toInt (o 1)
  if period < 1 then return (.invalidOption, [])
  if ema < 1 then return (.invalidOption, [])
  let start ← pfeStart o
  if (xs.length : Int) ≤ start then return (.okay, [])
  let per : R := c! 2 / ((ema : R) + c! 1)
  loopBatch ((xs.length : Int) - start) (pfeLoops period per xs) 0 ⟨c! 0, none, ← Ring.make period⟩ xs

/-- `ti_pfe_ref`, pfe.cc:80-101: the period is not truncated in the inner loop, the EMA period is not validated. -/
def pfeRef (o : Nat → R) (xs : List R) : M (Ret × List R) := do
  if o 0 < c! 1 then return (.invalidOption, [])
  let start ← pfeStart o
  if (xs.length : Int) ≤ start then return (.okay, [])
  let out ← forUp start xs.length ([] : List R) fun i out => do
    let lo ← toInt ((i : R) - o 0 + c! 1)
    let div ← forUp lo (i + 1) (c! 0 : R) fun j div => do
      return div + pfeStep (← rd xs j) (← rd xs (j - 1))
    wr (xs.length - start) out (pfeNumer (← rd xs i) (← rd xs (i - start)) / div)
  let n ← toInt (((xs.length : Int) : R) - o 0)
  let head ← emaInPlace (fun _ => o 1) (out.take n.toNat)
  return (.okay, head ++ out.drop n.toNat)

/-- State of `ti_pfe_stream`, pfe.cc:103-121 (`numer` is never read before it is assigned and is left out). -/
structure PfeT (R : Type) where
  sum : R
  ema : Option R
  price : Ring R
  denom : Ring R

/-- `ti_pfe_stream_new`, pfe.cc:123-151: `per` uses the EMA period before truncation. -/
def pfeNew (o : Nat → R) : M (NewRes (Int × R) (PfeT R)) := do
  if o 0 < c! 1 then return .fail .invalidOption
  if o 1 < c! 1 then return .fail .invalidOption
  let start ← pfeStart o
  let period ← toInt (o 0)
  let _ ← toInt (o 1)
  let price ← Ring.make (← toInt (o 0 + c! 1))
  let denom ← Ring.make period
  return .made (period, c! 2 / (o 1 + c! 1)) (-start) ⟨c! 0, none, price, denom⟩

/-- `ti_pfe_stream_run`, pfe.cc:157-216: loops 181-183, 184-188, 189-198 and 199-208. -/
def pfePhases (k : Int × R) : List (Phase R (PfeT R) R) :=
  [ { cond := fun p => decide (p < -k.1 + 1)
      body := fun _ v s => do
        let price ← s.price.set v
        return ({ s with price := price.step, denom := s.denom.step }, []) },
    { cond := fun p => decide (p < 0)
      body := fun _ v s => do
        let price ← s.price.set v
        let d := pfeStep v (← price.get 1)
        let denom ← s.denom.set d
        return (⟨s.sum + d, s.ema, price.step, denom.step⟩, []) },
    { cond := fun p => decide (p < 1)
      body := fun _ v s => do
        let price ← s.price.set v
        let d := pfeStep v (← price.get 1)
        let denom ← s.denom.set d
        let sum := s.sum + d
        let numer := pfeNumer v (← price.get k.1)
        let e := numer / sum
        return (⟨sum - (← denom.get (k.1 - 1)), some e, price.step, denom.step⟩, [e]) },
    { cond := fun _ => true
      body := fun _ v s => do
        let price ← s.price.set v
        let d := pfeStep v (← price.get 1)
        let denom ← s.denom.set d
        let sum := s.sum + d
        let numer := pfeNumer v (← price.get k.1)
        let ema ← getV s.ema
        let e := (numer / sum - ema) * k.2 + ema
        return (⟨sum - (← denom.get (k.1 - 1)), some e, price.step, denom.step⟩, [e]) } ]

def pfe : Indicator R R R where
  κ := Int × R
  σ := PfeT R
  start := pfeStart
  batch := pfeBatch
  new := pfeNew
  phases := pfePhases

/-! ### cmi -/

/-- `std::max_element(r.phbegin(), r.phend())`, e.g. cmi.cc:64: the search over the whole array of the ring. -/
def Ring.physMax (cmp : R → R → Bool) (r : Ring R) : M Nat := maxUp cmp r.buf 0 r.buf.length

/-- The block `if (hh_idx == i - period) { auto it = std::max_element(…) } else if (hh <= tr) { … }`, cmi.cc:63-70: `due`
says whether the index has left the window. -/
def Ext.phys (cmp rep : R → R → Bool) (r : Ring R) (due : Int → Bool) (i : Int) (x : R) (e : Ext R) : M (Ext R) := do
  if due (← getV e.idx) then
    let it ← r.physMax cmp
    return ⟨some (← rd r.buf it), some (i - (← r.age it))⟩
  else return e.take rep x i

/-- Both blocks on one ring, cmi.cc:63-78. -/
def HiLo.phys (r : Ring R) (due : Int → Bool) (i : Int) (x : R) (s : HiLo R) : M (HiLo R) := do
  let hi ← s.hi.phys cmpLess repMax r due i x
  let lo ← s.lo.phys cmpGreater repMin r due i x
  return ⟨hi, lo⟩

/-- `ti_cmi_start`, cmi.cc:15-19. -/
def cmiStart (o : Nat → R) : M Int := toInt (o 0 - c! 1)

/-- The value written, cmi.cc:80: `lp` is `log(period)`. -/
def cmiOut (lp : R) (s : HiLo R) (sum : R) : M R := do
  return CMath.log (((← getV s.hi.val) - (← getV s.lo.val)) / sum) / lp * c! 100

/-- `sum`, the extremes and `tr`. -/
structure CmiS (R : Type) where
  sum : R
  ext : HiLo R
  tr : Ring R

/-- The loops cmi.cc:40-47, 48-59 and 60-83. -/
def cmiLoops (period : Int) (xs : List (HLC R)) : List (Phase (HLC R) (CmiS R) R) :=
  [ { cond := fun i => decide (i < 1)
      body := fun _ r s => do
        let t := r.high - r.low
        let tr ← s.tr.set t
        return (⟨s.sum + t, ⟨⟨some t, some 0⟩, ⟨some t, some 0⟩⟩, tr.step⟩, []) },
    { cond := fun i => decide (i < period - 1)
      body := fun i r s => do
        let t := ceRange r (← rd xs (i - 1)).close
        let tr ← s.tr.set t
        return (⟨s.sum + t, s.ext.take t t i, tr.step⟩, []) },
    { cond := fun _ => true
      body := fun i r s => do
        let t := ceRange r (← rd xs (i - 1)).close
        let tr ← s.tr.set t
        let sum := s.sum + t
        let ext ← s.ext.phys tr (fun ix => decide (ix = i - period)) i t
        let v ← cmiOut (CMath.log (period : R)) ext sum
        return (⟨sum - (← tr.get (period - 1)), ext, tr.step⟩, [v]) } ]

/-- `ti_cmi`, cmi.cc:21-86. -/
def cmiBatch (o : Nat → R) (xs : List (HLC R)) : M (Ret × List R) := do
  let period ← toInt (o 0)
  if period < 1 then return (.invalidOption, [])
  let tr ← Ring.make period
  loopBatch ((xs.length : Int) - (← cmiStart o)) (cmiLoops period xs) 0 ⟨c! 0, .unset, tr⟩ xs

/-- `ti_cmi_ref`, cmi.cc:88-114. A negative array length makes `new[]` throw; this is reported as out of range. -/
def cmiRef (o : Nat → R) (xs : List (HLC R)) : M (Ret × List R) := do
  if o 0 < c! 1 then return (.invalidOption, [])
  let period ← toInt (o 0)
  let n ← i32 ((xs.length : Int) - period + 1)
  if n < 0 then .error .intRange
  let tr ← trBatch (fun _ => c! 0) xs
  let sum ← sumBatch o tr.2
  let start ← cmiStart o
  let out ← forUp start xs.length ([] : List R) fun i out => do
    let hh ← rd tr.2 (← maxUp cmpLess tr.2 (i - period + 1).toNat (i + 1).toNat)
    let ll ← rd tr.2 (← maxUp cmpGreater tr.2 (i - period + 1).toNat (i + 1).toNat)
    let ink ← rd sum.2 (i - period + 1)
    wr (xs.length - start) out (CMath.log ((hh - ll) / ink) / CMath.log (o 0) * c! 100)
  return (.okay, out)

/-- State of `ti_cmi_stream`, cmi.cc:116-136: `price_close` has two cells. -/
structure CmiT (R : Type) where
  sum : R
  ext : HiLo R
  tr : Ring R
  close : Ring R

/-- `ti_cmi_stream_new`, cmi.cc:138-156: the period is kept as a real. -/
def cmiNew (o : Nat → R) : M (NewRes R (CmiT R)) := do
  if o 0 < c! 1 then return .fail .invalidOption
  let start ← cmiStart o
  let tr ← Ring.make (← toInt (o 0))
  let close ← Ring.make 2
  return .made (o 0) (-start) ⟨c! 0, .zero, tr, close⟩

/-- `ti_cmi_stream_run`, cmi.cc:162-237: loops 181-189, 190-202 and 203-227. -/
def cmiPhases (period : R) : List (Phase (HLC R) (CmiT R) R) :=
  [ { cond := fun p => decide ((p : R) < -period + c! 2)
      body := fun p r s => do
        let close ← s.close.set r.close
        let t := r.high - r.low
        let tr ← s.tr.set t
        return (⟨s.sum + t, ⟨⟨some t, some p⟩, ⟨some t, some p⟩⟩, tr.step, close.step⟩, []) },
    { cond := fun p => decide (p < 0)
      body := fun p r s => do
        let close ← s.close.set r.close
        let t := ceRange r (← close.get 1)
        let tr ← s.tr.set t
        return (⟨s.sum + t, s.ext.take t t p, tr.step, close.step⟩, []) },
    { cond := fun _ => true
      body := fun p r s => do
        let close ← s.close.set r.close
        let t := ceRange r (← close.get 1)
        let tr ← s.tr.set t
        let sum := s.sum + t
        let ext ← s.ext.phys tr (fun ix => ((ix : R) == (p : R) - period)) p t
        let v ← cmiOut (CMath.log period) ext sum
        return (⟨sum - (← tr.get (← toInt (period - c! 1))), ext, tr.step, close.step⟩, [v]) } ]

def cmi : Indicator R (HLC R) R where
  κ := R
  σ := CmiT R
  start := cmiStart
  batch := cmiBatch
  new := cmiNew
  phases := cmiPhases

/-! ### mhlma -/

/-- `ti_mhlma_start`, mhlma.cc:15-20. -/
def mhlmaStart (o : Nat → R) : M Int := toInt (o 1 - c! 1)

/-- Two outputs written in lockstep. -/
structure Mhl (R : Type) where (sma ema : R) deriving DecidableEq, Inhabited

/-- `sum`, `ema`, the extremes and `mhl`. -/
structure MhlS (R : Type) where
  sum : R
  ema : R
  ext : HiLo R
  mhl : Ring R

/-- mhlma.cc:63-66: the average of the extremes enters `sum` and `ema`. `ma_period + 1` is an `int` sum. -/
def mhlNext (ma : Int) (ext : HiLo R) (s : MhlS R) : M (MhlS R) := do
  let m ← ext.mid
  let mhl ← s.mhl.set m
  let q ← i32 (ma + 1)
  return ⟨s.sum + m, (m - s.ema) * c! 2 / (q : R) + s.ema, ext, mhl⟩

/-- The end of the last loop, mhlma.cc:114-117. -/
def mhlOut (ma : Int) (s : MhlS R) : M (MhlS R × List (Mhl R)) := do
  let w ← s.mhl.get (ma - 1)
  return ({ s with sum := s.sum - w, mhl := s.mhl.step }, [⟨s.sum / (ma : R), s.ema⟩])

/-- The loops mhlma.cc:42-52, 53-67, 68-90 and 91-118. -/
def mhlmaLoops (period ma : Int) (xs : List R) : List (Phase R (MhlS R) (Mhl R)) :=
  [ { cond := fun i => decide (i < 1)
      body := fun _ v s => do
        let m := (v + v) / c! 2
        let mhl ← s.mhl.set m
        return (⟨s.sum + m, m, ⟨⟨some v, some 0⟩, ⟨some v, some 0⟩⟩, mhl.step⟩, []) },
    { cond := fun i => decide (i < period) && decide (i < ma - 1)
      body := fun i v s => do
        let s ← mhlNext ma (s.ext.take v v i) s
        return ({ s with mhl := s.mhl.step }, []) },
    { cond := fun i => decide (i < ma - 1)
      body := fun i _ s => do
        let s ← mhlNext ma (← s.ext.batchUp xs xs period i) s
        return ({ s with mhl := s.mhl.step }, []) },
    { cond := fun _ => true
      body := fun i _ s => do
        let s ← mhlNext ma (← s.ext.batchUp xs xs period i) s
        mhlOut ma s } ]

/-- `ti_mhlma`, mhlma.cc:22-121. -/
def mhlmaBatch (o : Nat → R) (xs : List R) : M (Ret × List (Mhl R)) := do
  let period ← toInt (o 0)
  let ma ← toInt (o 1)
  if period < 1 ∨ ma < 1 then return (.invalidOption, [])
  let mhl ← Ring.make ma
  loopBatch ((xs.length : Int) - (← mhlmaStart o)) (mhlmaLoops period ma xs) 0 ⟨c! 0, c! 0, .zero, mhl⟩ xs

/-- `ti_mhlma_ref`, mhlma.cc:123-153. The expression `series+i-(int)period+1` points before the array while the window is not
full, which is undefined (`strict`); with flat addresses the `std::max` brings it back to the start (`strict = false`). -/
def mhlmaRef (strict : Bool) (o : Nat → R) (xs : List R) : M (Ret × List (Mhl R)) := do
  if o 0 < c! 1 ∨ o 1 < c! 1 then return (.invalidOption, [])
  let period ← toInt (o 0)
  let mhl ← forUp 0 xs.length ([] : List R) fun i mhl => do
    if strict = true ∧ i - period + 1 < 0 then .error .badPtr
    let hh ← rd xs (← maxUp cmpLess xs (i - period + 1).toNat (i + 1).toNat)
    let ll ← rd xs (← maxUp cmpGreater xs (i - period + 1).toNat (i + 1).toNat)
    return mhl ++ [(hh + ll) / c! 2]
  let sma ← smaBatch (fun _ => o 1) mhl
  let buf ← emaBatch (fun _ => o 1) mhl
  let start ← mhlmaStart o
  let ema ← forUp start xs.length ([] : List R) fun i out => do
    wr (xs.length - start) out (← rd buf.2 i)
  return (.okay, List.zipWith Mhl.mk sma.2 ema)

/-- State of `ti_mhlma_stream`, mhlma.cc:155-178. -/
structure MhlT (R : Type) where
  s : MhlS R
  price : Ring R

/-- `ti_mhlma_stream_new`, mhlma.cc:180-200. -/
def mhlmaNew (o : Nat → R) : M (NewRes (Int × Int) (MhlT R)) := do
  let period ← toInt (o 0)
  let ma ← toInt (o 1)
  if period < 1 ∨ ma < 1 then return .fail .invalidOption
  let start ← mhlmaStart o
  let mhl ← Ring.make ma
  let price ← Ring.make period
  return .made (period, ma) (-start) ⟨⟨c! 0, c! 0, .zero, mhl⟩, price⟩

/-- `ti_mhlma_stream_run`, mhlma.cc:206-320: loops 225-237, 238-254, 255-279 and 280-309. `-ma_period + 1 + period` is an
`int` sum that cannot overflow for positive periods. -/
def mhlmaPhases (k : Int × Int) : List (Phase R (MhlT R) (Mhl R)) :=
  [ { cond := fun p => decide (p < -k.2 + 2)
      body := fun p v t => do
        let price ← t.price.set v
        let m := (v + v) / c! 2
        let mhl ← t.s.mhl.set m
        return (⟨⟨t.s.sum + m, m, ⟨⟨some v, some p⟩, ⟨some v, some p⟩⟩, mhl.step⟩, price.step⟩, []) },
    { cond := fun p => decide (p < -k.2 + 1 + k.1) && decide (p < 0)
      body := fun p v t => do
        let price ← t.price.set v
        let s ← mhlNext k.2 (t.s.ext.take v v p) t.s
        return (⟨{ s with mhl := s.mhl.step }, price.step⟩, []) },
    { cond := fun p => decide (p < 0)
      body := fun p v t => do
        let price ← t.price.set v
        let s ← mhlNext k.2 (← t.s.ext.phys price (fun ix => decide (ix = p - k.1)) p v) t.s
        return (⟨{ s with mhl := s.mhl.step }, price.step⟩, []) },
    { cond := fun _ => true
      body := fun p v t => do
        let price ← t.price.set v
        let s ← mhlNext k.2 (← t.s.ext.phys price (fun ix => decide (ix = p - k.1)) p v) t.s
        let r ← mhlOut k.2 s
        return (⟨r.1, price.step⟩, r.2) } ]

def mhlma : Indicator R R (Mhl R) where
  κ := Int × Int
  σ := MhlT R
  start := mhlmaStart
  batch := mhlmaBatch
  new := mhlmaNew
  phases := mhlmaPhases

end Verif
