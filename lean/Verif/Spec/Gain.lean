/-
Specification: bounded input, bounded output.
-/
import Verif.Core.Stream
import Mathlib.Algebra.Order.Ring.Abs

namespace Verif.Spec
variable {R : Type} [Ring R] [LinearOrder R] [IsOrderedRing R]

/-- As long as no bar exceeds `B` in size, no output exceeds `G * B`, however long the series is. -/
def GainAtMost (batch : (Nat → R) → List R → M (Ret × List R)) (o : Nat → R) (G : R) : Prop :=
  ∀ (B : R) (xs : List R), (∀ x ∈ xs, |x| ≤ B) → ∀ r ys, batch o xs = .ok (r, ys) → ∀ y ∈ ys, |y| ≤ G * B

/-- The same about a stream: whatever the chunks. -/
def StreamGainAtMost (I : Indicator R R R) (o : Nat → R) (G : R) : Prop :=
  ∀ (B : R) (chunks : List (List R)), (∀ x ∈ chunks.flatten, |x| ≤ B) → ∀ r p ys, I.session o chunks = .ok (r, p, ys) → ∀ y ∈ ys, |y| ≤ G * B

/-- No gain is enough: some series of prices between 1 and 3, which never moves from 2 after its fifth bar, drives the outputs beyond
every limit. -/
def Diverges (batch : (Nat → R) → List R → M (Ret × List R)) (o : Nat → R) : Prop :=
  ∃ x : Nat → R, (∀ n, 1 ≤ x n ∧ x n ≤ 3) ∧ (∀ n, 5 ≤ n → x n = 2) ∧
    ∀ C : R, ∃ N ys, batch o (pre x N) = .ok (.okay, ys) ∧ ∃ y ∈ ys, C < |y|

end Verif.Spec
