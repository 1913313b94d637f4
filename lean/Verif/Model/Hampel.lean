/-
Models of the Hampel filters hf, hfema and hfsma (`/repo/indicators/<name>.cc`).

`std::multiset` is the sorted list of Model/Rank.lean. `std::nth_element` and `std::sort` both sort the whole array: the
elements other than the one selected are overwritten before they are read again, and the vector is as long as the set.
-/
import Verif.Model.Rank
import Verif.Model.Ema
import Verif.Model.Sum

namespace Verif
variable {R : Type} [Num R]

/-- `std::sort(a, a + n)`, and a legal outcome of `std::nth_element`. -/
def msSort (l : List R) : List R := l.foldl msInsert []

/-- `for (price : rankedprice) { a[j] = fabs(price - median_price); ++j; }`, hf.cc:45-49, 168-172, hfema.cc:58-61, 203-206,
hfsma.cc:57-60, 208-211; writing past the end of `a` is undefined behaviour. -/
def devInto (med : R) : List R → List R → M (List R)
  | a, [] => .ok a
  | [], _ :: _ => .error .oobWrite
  | _ :: a, v :: s => do return CMath.fabs (v - med) :: (← devInto med a s)

/-- `threshold * 1.4826 * median_deviation`. -/
def hampelReach (thr mad : R) : R := thr * (c! 14826 / c! 10000) * mad

/-- hf.cc:43-55, 166-178: `median_price`, `median_deviation`, the output value and the new contents of `a`; the comparison
is `<` in hf. -/
def hfAt (k : Int) (thr : R) (ranked a : List R) (cand : R) : M (R × List R) := do
  let med ← msNth ranked k
  let a := msSort (← devInto med a ranked)
  let mad ← rd a k
  return (if CMath.fabs (cand - med) < hampelReach thr mad then cand else med, a)

/-- hfema.cc:56-65, 202-210, hfsma.cc:56-64, 207-215: the same with `<=`, and the candidate is subscript `k` of a ring. -/
def hfxAt (k : Int) (thr : R) (ranked a : List R) (ring : Ring R) : M (R × List R) := do
  let med ← msNth ranked k
  let a := msSort (← devInto med a ranked)
  let mad ← rd a k
  let cand ← ring.get k
  return (if CMath.fabs (cand - med) ≤ hampelReach thr mad then cand else med, a)

/-! ### hf -/

/-- `ti_hf_start`, hf.cc:17-22. -/
def hfStart (o : Nat → R) : M Int := do i32 (2 * (← toInt (o 0)))

/-- `rankedprice`, `a`. -/
structure HfB (R : Type) where
  ranked : List R
  a : List R

/-- The loops hf.cc:36-58 on the whole input `xs`; `p` is `i - 2*k`. -/
def hfBatchPhases (k : Int) (thr : R) (xs : List R) : List (Phase R (HfB R) R) :=
  [ { cond := fun p => decide (p < 0)
      body := fun _ v s => do return (⟨msInsert s.ranked v, s.a⟩, []) },
    { cond := fun _ => true
      body := fun p v s => do
        let ranked := msInsert s.ranked v
        let r ← hfAt k thr ranked s.a v
        return (⟨← msErase ranked (← rd xs p), r.2⟩, [r.1]) } ]

/-- `ti_hf`, hf.cc:24-61. -/
def hfBatch (o : Nat → R) (xs : List R) : M (Ret × List R) := do
  let k ← toInt (o 0)
  if k < 1 then return (.invalidOption, [])
  if o 1 < c! 0 then return (.invalidOption, [])
  let start ← hfStart o
  let n ← i32 (start + 1)
  loopBatch ((xs.length : Int) - start) (hfBatchPhases k (o 1) xs) (-start) ⟨[], List.replicate n.toNat (c! 0)⟩ xs

/-- The loops hf.cc:74-95, with `a` filled by `push_back`. -/
def hfRefPhases (k : Int) (thr : R) (xs : List R) : List (Phase R (List R) R) :=
  [ { cond := fun p => decide (p < 0)
      body := fun _ v ranked => do return (msInsert ranked v, []) },
    { cond := fun _ => true
      body := fun p v ranked => do
        let ranked := msInsert ranked v
        let med ← msNth ranked k
        let mad ← rd (msSort (ranked.map fun w => CMath.fabs (w - med))) k
        let y := if CMath.fabs (v - med) < hampelReach thr mad then v else med
        return (← msErase ranked (← rd xs p), [y]) } ]

/-- `ti_hf_ref`, hf.cc:63-98. -/
def hfRef (o : Nat → R) (xs : List R) : M (Ret × List R) := do
  let k ← toInt (o 0)
  if k < 1 then return (.invalidOption, [])
  if o 1 < c! 0 then return (.invalidOption, [])
  let start ← hfStart o
  let _ ← i32 (start + 1)
  loopBatch ((xs.length : Int) - start) (hfRefPhases k (o 1) xs) (-start) [] xs

/-- `price`, `rankedprice`, `absbuf`. -/
structure HfS (R : Type) where
  price : Ring R
  ranked : List R
  a : List R

/-- `ti_hf_stream_new`, hf.cc:118-139. The constants are `k` and `threshold`. -/
def hfNew (o : Nat → R) : M (NewRes (Int × R) (HfS R)) := do
  let k ← toInt (o 0)
  if k < 1 then return .fail .invalidOption
  if o 1 < c! 0 then return .fail .invalidOption
  let start ← hfStart o
  let n ← i32 (start + 1)
  return .made (k, o 1) (-start) ⟨← Ring.make n, [], List.replicate n.toNat (c! 0)⟩

/-- `ti_hf_stream_run`, hf.cc:145-186. -/
def hfPhases (c : Int × R) : List (Phase R (HfS R) R) :=
  [ { cond := fun p => decide (p < 0)
      body := fun _ v s => do
        let price ← s.price.set v
        return (⟨price.step, msInsert s.ranked v, s.a⟩, []) },
    { cond := fun _ => true
      body := fun _ v s => do
        let price ← s.price.set v
        let ranked := msInsert s.ranked v
        let r ← hfAt c.1 c.2 ranked s.a v
        return (⟨price.step, ← msErase ranked (← price.get (2 * c.1)), r.2⟩, [r.1]) } ]

def hf : Indicator R R R where
  κ := Int × R
  σ := HfS R
  start := hfStart
  batch := hfBatch
  new := hfNew
  phases := hfPhases

/-! ### The reference loop of hfema and hfsma -/

/-- hfema.cc:95-110, hfsma.cc:91-106: sort the window, sort its deviations. Cells of the smoothed array that were never
written count as outside it. -/
def hampelRefLoop (k : Int) (thr : R) (hi cap : Int) (sm : List R) : M (List R) :=
  forUp (2 * k) hi ([] : List R) fun i out => do
    let data ← forUp 0 (2 * k + 1) ([] : List R) fun j data => do return data ++ [← rd sm (i - 2 * k + j)]
    let data := msSort data
    let med ← rd data k
    let data := msSort (data.map fun v => CMath.fabs (v - med))
    let mad ← rd data k
    let cand ← rd sm (i - k)
    wr cap out (if CMath.fabs (cand - med) ≤ hampelReach thr mad then cand else med)

/-! ### hfema -/

/-- `ti_hfema_start`, hfema.cc:16-22. -/
def hfemaStart (o : Nat → R) : M Int := do i32 (2 * (← toInt (o 1)))

/-- `ema` (`none` while not initialised), `price`, `rankedprice`, `a`. -/
structure HfemaS (R : Type) where
  ema : Option R
  price : Ring R
  ranked : List R
  a : List R

/-- `k`, `threshold`, and the divisor `1. + ema_period` (`ema_period + 1.` in the stream). -/
structure HfemaK (R : Type) where
  k : Int
  thr : R
  div : R

/-- `price = ema; rankedprice.insert(price);` -/
def hfemaPut (s : HfemaS R) (e : R) : M (HfemaS R) := do return ⟨some e, ← s.price.set e, msInsert s.ranked e, s.a⟩

/-- The loops hfema.cc:40-69 and 188-213 (`ti_hfema_stream_run`, 173-219). -/
def hfemaPhases (c : HfemaK R) : List (Phase R (HfemaS R) R) :=
  [ { cond := fun p => decide (p < -2 * c.k + 1)
      body := fun _ v s => do
        let s ← hfemaPut s v
        return ({ s with price := s.price.step }, []) },
    { cond := fun p => decide (p < 0)
      body := fun _ v s => do
        let e ← getV s.ema
        let s ← hfemaPut s ((v - e) * c! 2 / c.div + e)
        return ({ s with price := s.price.step }, []) },
    { cond := fun _ => true
      body := fun _ v s => do
        let e ← getV s.ema
        let s ← hfemaPut s ((v - e) * c! 2 / c.div + e)
        let r ← hfxAt c.k c.thr s.ranked s.a s.price
        let ranked ← msErase s.ranked (← s.price.get (2 * c.k))
        return (⟨s.ema, s.price.step, ranked, r.2⟩, [r.1]) } ]

/-- hfema.cc:31-33, 84-86, 140-142, hfsma.cc:31-33, 82-84, 140-142. -/
def hfxBad (o : Nat → R) (p k : Int) : Bool := decide (p < 1) || decide (k < 1) || decide (o 2 < c! 0)

/-- `ti_hfema`, hfema.cc:24-73. -/
def hfemaBatch (o : Nat → R) (xs : List R) : M (Ret × List R) := do
  let p ← toInt (o 0)
  let k ← toInt (o 1)
  if hfxBad o p k then return (.invalidOption, [])
  let start ← hfemaStart o
  let n ← i32 (start + 1)
  loopBatch ((xs.length : Int) - start) (hfemaPhases ⟨k, o 2, c! 1 + (p : R)⟩) (-start)
    ⟨none, ← Ring.make n, [], List.replicate n.toNat (c! 0)⟩ xs

/-- `ti_hfema_ref`, hfema.cc:79-116. -/
def hfemaRef (o : Nat → R) (xs : List R) : M (Ret × List R) := do
  let p ← toInt (o 0)
  let k ← toInt (o 1)
  if hfxBad o p k then return (.invalidOption, [])
  let (_, ema) ← emaBatch o xs
  let start ← hfemaStart o
  let _ ← i32 (start + 1)
  let out ← hampelRefLoop k (o 2) xs.length ((xs.length : Int) - start) ema
  return (.okay, out)

/-- `ti_hfema_stream_new`, hfema.cc:138-167; `new ti_hfema_stream()` zeroes `ema`. -/
def hfemaNew (o : Nat → R) : M (NewRes (HfemaK R) (HfemaS R)) := do
  let p ← toInt (o 0)
  let k ← toInt (o 1)
  if hfxBad o p k then return .fail .invalidOption
  let start ← hfemaStart o
  let n ← i32 (start + 1)
  return .made ⟨k, o 2, (p : R) + c! 1⟩ (-start) ⟨some (c! 0), ← Ring.make n, [], List.replicate n.toNat (c! 0)⟩

def hfema : Indicator R R R where
  κ := HfemaK R
  σ := HfemaS R
  start := hfemaStart
  batch := hfemaBatch
  new := hfemaNew
  phases := hfemaPhases

/-! ### hfsma -/

/-- `ti_hfsma_start`, hfsma.cc:16-22. -/
def hfsmaStart (o : Nat → R) : M Int := do
  let p ← toInt (o 0)
  let k ← toInt (o 1)
  i32 ((← i32 (p - 1)) + (← i32 (2 * k)))

/-- `sum`, `smoothed_price`, `rankedprice`, `a`. -/
structure HfsmaB (R : Type) where
  sum : R
  smooth : Ring R
  ranked : List R
  a : List R

/-- The loops hfsma.cc:40-69 on the whole input `xs`; `q` is `i - (sma_period-1) - 2*k`. -/
def hfsmaBatchPhases (p k : Int) (thr : R) (xs : List R) : List (Phase R (HfsmaB R) R) :=
  [ { cond := fun q => decide (q < -2 * k)
      body := fun _ v s => do return ({ s with sum := s.sum + v, smooth := s.smooth.step }, []) },
    { cond := fun q => decide (q < 0)
      body := fun q v s => do
        let sum := s.sum + v
        let ranked := msInsert s.ranked (sum / (p : R))
        let smooth ← s.smooth.set (sum / (p : R))
        return (⟨sum - (← rd xs (q + 2 * k)), smooth.step, ranked, s.a⟩, []) },
    { cond := fun _ => true
      body := fun q v s => do
        let sum := s.sum + v
        let ranked := msInsert s.ranked (sum / (p : R))
        let smooth ← s.smooth.set (sum / (p : R))
        let r ← hfxAt k thr ranked s.a smooth
        let sum := sum - (← rd xs (q + 2 * k))
        return (⟨sum, smooth.step, ← msErase ranked (← smooth.get (2 * k)), r.2⟩, [r.1]) } ]

/-- `ti_hfsma`, hfsma.cc:24-73. -/
def hfsmaBatch (o : Nat → R) (xs : List R) : M (Ret × List R) := do
  let p ← toInt (o 0)
  let k ← toInt (o 1)
  if hfxBad o p k then return (.invalidOption, [])
  let n ← i32 ((← i32 (2 * k)) + 1)
  let start ← hfsmaStart o
  loopBatch ((xs.length : Int) - start) (hfsmaBatchPhases p k (o 2) xs) (-start)
    ⟨c! 0, ← Ring.make n, [], List.replicate n.toNat (c! 0)⟩ xs

/-- `ti_hfsma_ref`, hfsma.cc:75-112. -/
def hfsmaRef (o : Nat → R) (xs : List R) : M (Ret × List R) := do
  let p ← toInt (o 0)
  let k ← toInt (o 1)
  if hfxBad o p k then return (.invalidOption, [])
  let (_, sma) ← smaBatch o xs
  let _ ← i32 ((← i32 (2 * k)) + 1)
  let out ← hampelRefLoop k (o 2) ((xs.length : Int) - (← smaStart o)) ((xs.length : Int) - (← hfsmaStart o)) sma
  return (.okay, out)

/-- `sum`, `rankedprice`, `price`, `smoothed_price`, `a`. -/
structure HfsmaS (R : Type) where
  sum : R
  price : Ring R
  smooth : Ring R
  ranked : List R
  a : List R

/-- `ti_hfsma_stream_new`, hfsma.cc:135-167; both rings get `2*k+1` cells. The constants are `sma_period`, `k`, `threshold`. -/
def hfsmaNew (o : Nat → R) : M (NewRes (Int × Int × R) (HfsmaS R)) := do
  let p ← toInt (o 0)
  let k ← toInt (o 1)
  if hfxBad o p k then return .fail .invalidOption
  let start ← hfsmaStart o
  let n ← i32 ((← i32 (2 * k)) + 1)
  return .made (p, k, o 2) (-start) ⟨c! 0, ← Ring.make n, ← Ring.make n, [], List.replicate n.toNat (c! 0)⟩

/-- `ti_hfsma_stream_run`, hfsma.cc:173-225. -/
def hfsmaPhases (c : Int × Int × R) : List (Phase R (HfsmaS R) R) :=
  [ { cond := fun q => decide (q < -2 * c.2.1)
      body := fun _ v s => do
        let price ← s.price.set v
        return ({ s with sum := s.sum + v, price := price.step, smooth := s.smooth.step }, []) },
    { cond := fun q => decide (q < 0)
      body := fun _ v s => do
        let price ← s.price.set v
        let sum := s.sum + v
        let smooth ← s.smooth.set (sum / (c.1 : R))
        let ranked := msInsert s.ranked (sum / (c.1 : R))
        return (⟨sum - (← price.get (c.1 - 1)), price.step, smooth.step, ranked, s.a⟩, []) },
    { cond := fun _ => true
      body := fun _ v s => do
        let price ← s.price.set v
        let sum := s.sum + v
        let smooth ← s.smooth.set (sum / (c.1 : R))
        let ranked := msInsert s.ranked (sum / (c.1 : R))
        let r ← hfxAt c.2.1 c.2.2 ranked s.a smooth
        let sum := sum - (← price.get (c.1 - 1))
        return (⟨sum, price.step, smooth.step, ← msErase ranked (← smooth.get (2 * c.2.1)), r.2⟩, [r.1]) } ]

def hfsma : Indicator R R R where
  κ := Int × Int × R
  σ := HfsmaS R
  start := hfsmaStart
  batch := hfsmaBatch
  new := hfsmaNew
  phases := hfsmaPhases

end Verif
