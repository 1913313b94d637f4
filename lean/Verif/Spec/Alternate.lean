/-
Specification: what is left of the fastest oscillation, a price that jumps up and down every bar.
-/
import Verif.Core.Stream
import Mathlib.Algebra.Order.Field.Basic
import Mathlib.Algebra.Order.Group.Abs

namespace Verif.Spec
variable {R : Type} [Field R] [LinearOrder R]

/-- Of a price that from some bar on is `c, -c, c, -c, …` at most the part `g` is left in the outputs: they come as close to the interval from
`-g·|c|` to `g·|c|` as one likes, whatever happened before. -/
def Mutes (batch : (Nat → R) → List R → M (Ret × List R)) (o : Nat → R) (s : Nat) (g : R) : Prop :=
  ∀ (x : Nat → R) (c : R) (m : Nat), (∀ i, m ≤ i → |x i| = |c| ∧ x (i + 1) = -x i) → ∀ ε : R, 0 < ε →
    ∃ n0 : Nat, ∀ N, n0 ≤ N → ∃ ys, batch o (pre x N) = .ok (.okay, ys) ∧ ys.length = N - s ∧
      ∀ j y, n0 ≤ j → ys[j]? = some y → |y| ≤ g * |c| + ε

end Verif.Spec
