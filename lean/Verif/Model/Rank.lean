/-
Models of hwma and rmf (`/repo/indicators/<name>.cc`).
-/
import Verif.Core.LoopBatch
import Verif.Core.Exact
import Verif.Model.Ring
import Verif.Model.Flow

namespace Verif
variable {R : Type} [Num R]

/-! ### hwma -/

/-- `ti_hwma_start`, hwma.cc:14-18. -/
def hwmaStart (o : Nat → R) : M Int := do i32 ((← toInt (o 0)) - 1)

/-- `tables.coefficients`, hwma.cc:20-30, in thousandths. -/
def hwmaTable : List (List Int) :=
  [ [0, 0, 0, 0, 0, 0, -92, -58, 12, 120, 244, 353, 421],
    [0, 0, 0, 0, 0, -43, -38, 2, 80, 174, 254, 292, 279],
    [0, 0, 0, 0, -16, -25, 3, 68, 149, 216, 241, 216, 148],
    [0, 0, 0, -9, -22, 4, 66, 145, 208, 230, 201, 131, 46],
    [0, 0, -11, -22, 3, 67, 145, 210, 235, 205, 136, 50, -18],
    [0, -17, -25, 1, 66, 147, 213, 238, 212, 144, 61, -6, -34],
    [-19, -28, 0, 66, 147, 214, 240, 214, 147, 66, 0, -28, -19] ]

/-- `auto &c = tables.coefficients[k]`; a row outside the table is undefined behaviour. -/
def hwmaRow (k : Int) : M (List Int) :=
  if 0 ≤ k then
    match hwmaTable[k.toNat]? with
    | some r => .ok r
    | none => .error .badPtr
  else .error .badPtr

/-- `c[k]`. -/
def hwmaC (row : List Int) (k : Int) : M R := do return ((← rd row k : Int) : R) / c! 1000

/-- The loops hwma.cc:41-47, 61-67. -/
def hwmaLoop (row : List Int) (period cap : Int) (xs : List R) : M (List R) :=
  forUp (period - 1) xs.length ([] : List R) fun i out => do
    let filt ← forUp 0 period (c! 0 : R) fun j filt => do
      return filt + (← hwmaC row (12 - j)) * (← rd xs (i - j))
    wr cap out filt

/-- `ti_hwma`, hwma.cc:32-50: the row is taken before the period is checked. -/
def hwmaBatch (o : Nat → R) (xs : List R) : M (Ret × List R) := do
  let period ← toInt (o 0)
  let row ← hwmaRow (← i32 (period - 7))
  if period < 7 ∨ 13 < period then return (.invalidOption, [])
  let out ← hwmaLoop row period ((xs.length : Int) - (← hwmaStart o)) xs
  return (.okay, out)

/-- `ti_hwma_ref`, hwma.cc:52-70. -/
def hwmaRef (o : Nat → R) (xs : List R) : M (Ret × List R) := do
  let period ← toInt (o 0)
  if period < 7 ∨ 13 < period then return (.invalidOption, [])
  let row ← hwmaRow (← i32 (period - 7))
  let out ← hwmaLoop row period ((xs.length : Int) - (← hwmaStart o)) xs
  return (.okay, out)

/-- `ti_hwma_stream_new`, hwma.cc:87-103. The constant is `period`. -/
def hwmaNew (o : Nat → R) : M (NewRes Int (Ring R)) := do
  let period ← toInt (o 0)
  if period < 7 ∨ 13 < period then return .fail .invalidOption
  return .made period (-(← hwmaStart o)) (← Ring.make 13)

/-- `ti_hwma_stream_run`, hwma.cc:109-144; the row is taken at each bar instead of once per run. -/
def hwmaPhases (period : Int) : List (Phase R (Ring R) R) :=
  [ { cond := fun p => decide (p < 0)
      body := fun _ v price => do
        let price ← price.set v
        return (price.step, []) },
    { cond := fun _ => true
      body := fun _ v price => do
        let row ← hwmaRow (← i32 (period - 7))
        let price ← price.set v
        let w := (← hwmaC row 0) * (← price.get 12) + (← hwmaC row 1) * (← price.get 11) + (← hwmaC row 2) * (← price.get 10) +
          (← hwmaC row 3) * (← price.get 9) + (← hwmaC row 4) * (← price.get 8) + (← hwmaC row 5) * (← price.get 7) +
          (← hwmaC row 6) * (← price.get 6) + (← hwmaC row 7) * (← price.get 5) + (← hwmaC row 8) * (← price.get 4) +
          (← hwmaC row 9) * (← price.get 3) + (← hwmaC row 10) * (← price.get 2) + (← hwmaC row 11) * (← price.get 1) +
          (← hwmaC row 12) * (← price.cur)
        return (price.step, [w]) } ]

def hwma : Indicator R R R where
  κ := Int
  σ := Ring R
  start := hwmaStart
  batch := hwmaBatch
  new := hwmaNew
  phases := hwmaPhases

/-! ### rmf -/

/-- `ti_rmf_start`, rmf.cc:18-23. -/
def rmfStart (o : Nat → R) : M Int := toInt (o 1 - c! 1)

/-- `std::multiset::insert`: after the elements not greater. The tree is represented by its elements in iteration order;
its searches are linear scans, which find the same place as long as the elements are totally ordered (no NaN). -/
def msInsert (s : List R) (v : R) : List R :=
  match s with
  | [] => [v]
  | a :: s => if v < a then v :: a :: s else a :: msInsert s v

/-- `s.erase(s.find(v))`: the first element not less than `v` goes if it is not greater either; otherwise `find` returns
`end()` and erasing it is undefined behaviour. -/
def msErase (s : List R) (v : R) : M (List R) :=
  match s with
  | [] => .error .badPtr
  | a :: s => if a < v then do return a :: (← msErase s v) else if v < a then .error .badPtr else .ok s

/-- `*std::next(s.begin(), k)`; past the end it is undefined behaviour. -/
def msNth (s : List R) (k : Int) : M R := if 0 ≤ k then
    match s[k.toNat]? with
    | some v => .ok v
    | none => .error .badPtr
  else .error .badPtr

/-- rmf.cc:31-33, 91-93. -/
def rmfBad (o : Nat → R) : M Bool := do
  if o 1 < c! 1 then return true
  if o 0 < c! 1 then return true
  return !(decide (Int.tmod (← toInt (o 1)) 2 = 1))

/-- rmf.cc:39, 105. -/
def rmfAlpha (critical : R) : R :=
  (CMath.cos (c! 2 * CMath.acos (-(c! 1)) / critical) + CMath.sin (c! 2 * CMath.acos (-(c! 1)) / critical) - c! 1) /
    CMath.cos (c! 2 * CMath.acos (-(c! 1)) / critical)

/-- `rmf_val` (`none` while not initialised), `rankedprice`, `price`. -/
structure RmfS (R : Type) where
  val : Option R
  ranked : List R
  price : List R

/-- `rankedprice.erase(rankedprice.find(price.front())); price.pop_front();` -/
def rmfDrop (val : R) (ranked price : List R) : M (RmfS R × List R) :=
  match price with
  | [] => .error .badPtr
  | a :: rest => do return (⟨some val, ← msErase ranked a, rest⟩, [val])

/-- The loops rmf.cc:43-64 and 127-148 (the same text). The constants are `median_period` and `alpha`. -/
def rmfPhases (k : R × R) : List (Phase R (RmfS R) R) :=
  [ { cond := fun p => decide (p < 0)
      body := fun _ v s => do return (⟨s.val, msInsert s.ranked v, s.price ++ [v]⟩, []) },
    { cond := fun p => decide (p = 0)
      body := fun _ v s => do
        let price := s.price ++ [v]
        let ranked := msInsert s.ranked v
        let val ← msNth ranked (← toInt (k.1 / c! 2))
        rmfDrop val ranked price },
    { cond := fun _ => true
      body := fun _ v s => do
        let price := s.price ++ [v]
        let ranked := msInsert s.ranked v
        let val := k.2 * (← msNth ranked (← toInt (k.1 / c! 2))) + (c! 1 - k.2) * (← getV s.val)
        rmfDrop val ranked price } ]

/-- `ti_rmf`, rmf.cc:25-67. -/
def rmfBatch (o : Nat → R) (xs : List R) : M (Ret × List R) := do
  if ← rmfBad o then return (.invalidOption, [])
  let start ← rmfStart o
  loopBatch ((xs.length : Int) - start) (rmfPhases (o 1, rmfAlpha (o 0))) (-start) ⟨none, [], []⟩ xs

/-- `ti_rmf_stream_new`, rmf.cc:87-108; `new ti_rmf_stream()` zeroes `rmf_val`. -/
def rmfNew (o : Nat → R) : M (NewRes (R × R) (RmfS R)) := do
  if ← rmfBad o then return .fail .invalidOption
  return .made (o 1, rmfAlpha (o 0)) (-(← rmfStart o)) ⟨some (c! 0), [], []⟩

def rmf : Indicator R R R where
  κ := R × R
  σ := RmfS R
  start := rmfStart
  batch := rmfBatch
  new := rmfNew
  phases := rmfPhases

end Verif
