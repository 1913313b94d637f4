/-
Specifications of hd, arsi and mama: Ehlers' equations for the homodyne discriminator as relations between signals.
A signal is a function of the bar number counted from the first bar of the main loop; a signal is zero before it.
-/
import Verif.Core.Num
import Mathlib.Algebra.Order.Field.Basic
import Mathlib.Algebra.BigOperators.Group.Finset.Basic

namespace Verif.Spec
open Finset
variable {R : Type} [Field R] [LinearOrder R] [CMath R]

/-- The value of the signal `k` bars before bar `t`. -/
def barsAgo (h : Nat → R) (t k : Nat) : R := if k ≤ t then h (t - k) else 0

/-- Prices weighted 4:3:2:1, newest first. -/
def weighted4 (x : Nat → R) (i : Nat) : R := (4 * x i + 3 * x (i - 1) + 2 * x (i - 2) + x (i - 3)) / 10

/-- Ehlers' Hilbert transform. -/
def hilbertT (h : Nat → R) (t : Nat) : R :=
  962 / 10000 * h t + 5769 / 10000 * barsAgo h t 2 - 5769 / 10000 * barsAgo h t 4 - 962 / 10000 * barsAgo h t 6

structure Signals (R : Type) where
  detrender : Nat → R
  i1 : Nat → R
  q1 : Nat → R
  i2 : Nat → R
  q2 : Nat → R
  re : Nat → R
  im : Nat → R
  period : Nat → R
  smoothPeriod : Nat → R

/-- The factor Ehlers multiplies every Hilbert transform by. -/
def adjust (period : Nat → R) (t : Nat) : R := 75 / 1000 * barsAgo period t 1 + 54 / 100

/-- A period limited to 0.67..1.5 times the previous one, then to 6..50 bars. -/
def limitPeriod (p prev : R) : R := min (max (max (min p (15 / 10 * prev)) (67 / 100 * prev)) 6) 50

/-- The homodyne discriminator; `turn` is a full turn in the unit of the arc tangent.  When a product vanishes the measured
period is that of two bars before. -/
structure Homodyne (turn : R) (price : Nat → R) (s : Signals R) : Prop where
  detrender : ∀ t, s.detrender t = hilbertT price t * adjust s.period t
  q1 : ∀ t, s.q1 t = hilbertT s.detrender t * adjust s.period t
  i1 : ∀ t, s.i1 t = barsAgo s.detrender t 3
  i2 : ∀ t, s.i2 t = 2 / 10 * (s.i1 t - hilbertT s.q1 t * adjust s.period t) + 8 / 10 * barsAgo s.i2 t 1
  q2 : ∀ t, s.q2 t = 2 / 10 * (s.q1 t + hilbertT s.i1 t * adjust s.period t) + 8 / 10 * barsAgo s.q2 t 1
  re : ∀ t, s.re t = 2 / 10 * (s.i2 t * barsAgo s.i2 t 1 + s.q2 t * barsAgo s.q2 t 1) + 8 / 10 * barsAgo s.re t 1
  im : ∀ t, s.im t = 2 / 10 * (s.i2 t * barsAgo s.q2 t 1 - s.q2 t * barsAgo s.i2 t 1) + 8 / 10 * barsAgo s.im t 1
  period : ∀ t, s.period t =
    2 / 10 * limitPeriod (if s.im t ≠ 0 ∧ s.re t ≠ 0 then turn / CMath.atan (s.im t / s.re t) else barsAgo s.period t 2)
      (barsAgo s.period t 1) + 8 / 10 * barsAgo s.period t 1
  smoothPeriod : ∀ t, s.smoothPeriod t = 33 / 100 * s.period t + 67 / 100 * barsAgo s.smoothPeriod t 1

/-- The relative strength over the last `n` price changes up to bar `i`. -/
def strength (x : Nat → R) (i n : Nat) : R :=
  let gains := ∑ j ∈ range n, max 0 (x (i - j) - x (i - j - 1))
  let losses := ∑ j ∈ range n, -(min 0 (x (i - j) - x (i - j - 1)))
  if gains + losses = 0 then 0 else 100 * gains / (gains + losses)

/-- The adaptive averages of mama, for the limits `fast` and `slow` of the smoothing factor `alpha`. -/
structure AdaptivePair (fast slow : R) (price : Nat → R) (s : Signals R) (phase alpha mama fama : Nat → R) : Prop where
  phase_eq : ∀ t, phase t = if s.i1 t = 0 then 0 else CMath.atan (s.q1 t / s.i1 t)
  alpha_eq : ∀ t, alpha t = max slow (fast / max 1 (barsAgo phase t 1 - phase t))
  mama_eq : ∀ t, mama t = alpha t * price t + (1 - alpha t) * barsAgo mama t 1
  fama_eq : ∀ t, fama t = alpha t / 2 * mama t + (1 - alpha t / 2) * barsAgo fama t 1

end Verif.Spec
