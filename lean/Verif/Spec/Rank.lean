/- Specifications of hwma and rmf. -/
import Mathlib.Algebra.Order.Field.Basic
import Mathlib.Algebra.BigOperators.Group.Finset.Basic

namespace Verif.Spec
open Finset
variable {R : Type} [Field R] [LinearOrder R]

/-- `m` is a member of the (odd) window, at least half of which is not above it and at least half not below. -/
def IsMedian (w : List R) (m : R) : Prop :=
  m ∈ w ∧ w.length < 2 * (w.filter fun v => decide (v ≤ m)).length ∧ w.length < 2 * (w.filter fun v => decide (m ≤ v)).length

/-- The end-point Henderson weights of 7 to 13 bars, newest bar first, in thousandths. -/
def hendersonWeights : Nat → List Int
  | 7 => [421, 353, 244, 120, 12, -58, -92]
  | 8 => [279, 292, 254, 174, 80, 2, -38, -43]
  | 9 => [148, 216, 241, 216, 149, 68, 3, -25, -16]
  | 10 => [46, 131, 201, 230, 208, 145, 66, 4, -22, -9]
  | 11 => [-18, 50, 136, 205, 235, 210, 145, 67, 3, -22, -11]
  | 12 => [-34, -6, 61, 144, 212, 238, 213, 147, 66, 1, -25, -17]
  | 13 => [-19, -28, 0, 66, 147, 214, 240, 214, 147, 66, 0, -28, -19]
  | _ => []

/-- The weighted average of the `p` bars up to bar `i`. -/
def henderson (p : Nat) (x : Nat → R) (i : Nat) : R :=
  ∑ j ∈ range p, (((hendersonWeights p).getD j 0 : Int) : R) / 1000 * x (i - j)

end Verif.Spec
