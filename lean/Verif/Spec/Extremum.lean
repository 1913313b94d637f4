/- Specifications: extrema of windows. -/
import Verif.Spec.Window
import Verif.Core.Rows
import Mathlib.Order.Lattice
import Mathlib.Data.Finset.Lattice.Fold
import Mathlib.Algebra.Order.Group.Unbundled.Abs

namespace Verif.Spec
open Finset
variable {R : Type} [LinearOrder R]

/-- Greatest of the `p` values starting at position `j` (`p ≥ 1`; `p - 1 + 1` is `p`). -/
def winMax (p : Nat) (x : Nat → R) (j : Nat) : R := (range (p - 1 + 1)).sup' ⟨0, by simp⟩ fun k => x (j + k)

/-- Least of the `p` values starting at position `j`. -/
def winMin (p : Nat) (x : Nat → R) (j : Nat) : R := (range (p - 1 + 1)).inf' ⟨0, by simp⟩ fun k => x (j + k)

/-- `k` is the last position among `t, …, i` where `f` takes its greatest value there. -/
def LastMax (f : Nat → R) (t i k : Nat) : Prop :=
  t ≤ k ∧ k ≤ i ∧ (∀ j, t ≤ j → j ≤ i → f j ≤ f k) ∧ ∀ j, k < j → j ≤ i → f j < f k

/-- `k` is the last position among `t, …, i` where `f` takes its least value there. -/
def LastMin (f : Nat → R) (t i k : Nat) : Prop :=
  t ≤ k ∧ k ≤ i ∧ (∀ j, t ≤ j → j ≤ i → f k ≤ f j) ∧ ∀ j, k < j → j ≤ i → f k < f j

/-- Position of `c` between `lo` and `hi`, as a fraction of the range; 0 for an empty range. -/
def inRange {K : Type} [Field K] [DecidableEq K] (lo hi c : K) : K := if hi - lo = 0 then 0 else (c - lo) / (hi - lo)

/-- Fast stochastic %K over the `p` bars starting at `j`: where the last close lies between the lowest low and the
highest high, in percent. -/
def fastK {K : Type} [Field K] [LinearOrder K] (p : Nat) (x : Nat → HLC K) (j : Nat) : K :=
  100 * inRange (winMin p (fun i => (x i).low) j) (winMax p (fun i => (x i).high) j) (x (j + (p - 1))).close

/-- The smoothed and clamped oscillator inside Ehlers' Fisher transform, for window `j` of `p` midpoints `m`. -/
def fisherOsc {K : Type} [Field K] [LinearOrder K] (p : Nat) (m : Nat → K) : Nat → K
  | 0 => clamp (66 / 100 * ((m (p - 1) - winMin p m 0) / range p m 0 - 1 / 2))
  | j + 1 => clamp (66 / 100 * ((m (j + 1 + (p - 1)) - winMin p m (j + 1)) / range p m (j + 1) - 1 / 2)
      + 67 / 100 * fisherOsc p m j)
where
  /-- range of the window, with a small stand-in for an empty range -/
  range (p : Nat) (m : Nat → K) (j : Nat) : K :=
    if winMax p m j = winMin p m j then 1 / 1000 else winMax p m j - winMin p m j
  /-- values beyond ±0.99 become ±0.999 -/
  clamp (v : K) : K := if 99 / 100 < v then 999 / 1000 else if v < -(99 / 100) then -(999 / 1000) else v

end Verif.Spec
