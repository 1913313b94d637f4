/- Model of `/repo/indicators/sum.cc` and `/repo/indicators/sma.cc`. -/
import Verif.Core.Stream
import Verif.Model.Ring

namespace Verif
variable {R : Type} [Num R]

/-- `ti_sum_start`, sum.cc:11-13. -/
def sumStart (o : Nat → R) : M Int := do i32 ((← toInt (o 0)) - 1)

/-- `ti_sum`, sum.cc:16-41. -/
def sumBatch (o : Nat → R) (xs : List R) : M (Ret × List R) := do
  let period ← toInt (o 0)
  if period < 1 then return (.invalidOption, [])
  let start ← sumStart o
  if (xs.length : Int) ≤ start then return (.okay, [])
  let cap := xs.length - start
  let sum ← forUp 0 period (c! 0 : R) fun i sum => do
    return sum + (← rd xs i)
  let out ← wr cap [] sum
  let s ← forUp period xs.length (sum, out) fun i s => do
    let sum := s.1 + (← rd xs i)
    let sum := sum - (← rd xs (i - period))
    let out ← wr cap s.2 sum
    return (sum, out)
  finish cap s.2

/-- `ti_sma_start`, sma.cc:14-16. -/
def smaStart (o : Nat → R) : M Int := do i32 ((← toInt (o 0)) - 1)

/-- `ti_sma`, sma.cc:19-45. -/
def smaBatch (o : Nat → R) (xs : List R) : M (Ret × List R) := do
  let period ← toInt (o 0)
  let scale : R := c! 1 / (period : R)
  if period < 1 then return (.invalidOption, [])
  let start ← smaStart o
  if (xs.length : Int) ≤ start then return (.okay, [])
  let cap := xs.length - start
  let sum ← forUp 0 period (c! 0 : R) fun i sum => do
    return sum + (← rd xs i)
  let out ← wr cap [] (sum * scale)
  let s ← forUp period xs.length (sum, out) fun i s => do
    let sum := s.1 + (← rd xs i)
    let sum := sum - (← rd xs (i - period))
    let out ← wr cap s.2 (sum * scale)
    return (sum, out)
  finish cap s.2

/-- Constants of `ti_sma_stream`, sma.cc:48-61: `options.period`, `constants.per`. -/
structure SmaK (R : Type) where
  period : Int
  per : R

/-- Mutable members of `ti_sma_stream`, sma.cc:53-56. -/
structure SmaS (R : Type) where
  sum : R
  price : Ring R

/-- `ti_sma_stream_new`, sma.cc:64-87 (memory is assumed available; value initialisation zeroes `sum`). -/
def smaNew (o : Nat → R) : M (NewRes (SmaK R) (SmaS R)) := do
  let period ← toInt (o 0)
  if period < 1 then return .fail .invalidOption
  let start ← smaStart o
  let price ← Ring.make period
  return .made ⟨period, c! 1 / (period : R)⟩ (-start) ⟨c! 0, price⟩

/-- `ti_sma_stream_run`, sma.cc:93-124: warm-up loop 108-111, normal loop 112-119. -/
def smaPhases (k : SmaK R) : List (Phase R (SmaS R) R) :=
  [ { cond := fun p => decide (p < 0)
      body := fun _ x s => do
        let price ← s.price.set x
        let sum := s.sum + (← price.cur)
        return (⟨sum, price.step⟩, []) },
    { cond := fun _ => true
      body := fun _ x s => do
        let price ← s.price.set x
        let sum := s.sum + (← price.cur)
        let out := [sum * k.per]
        let sum := sum - (← price.get (k.period - 1))
        return (⟨sum, price.step⟩, out) } ]

def sma : Indicator R R R where
  κ := SmaK R
  σ := SmaS R
  start := smaStart
  batch := smaBatch
  new := smaNew
  phases := smaPhases

end Verif
