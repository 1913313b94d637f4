/-
Specification: how far an average trails behind a steady trend.
-/
import Verif.Core.Stream
import Mathlib.Algebra.Order.Field.Basic
import Mathlib.Algebra.Order.Group.Abs

namespace Verif.Spec
variable {R : Type} [Field R] [LinearOrder R]

/-- From bar `m` on the price moves along the straight line `a + b * i`. -/
def Trends (x : Nat → R) (m : Nat) (a b : R) : Prop := ∀ i, m ≤ i → x i = a + b * (i : R)

/-- Once the last `s + 1` bars lie on a line, the output is the height of the line `L` bars ago, whatever the bars before were.
(Output `j` belongs to bar `j + s`.) -/
def Lags (batch : (Nat → R) → List R → M (Ret × List R)) (o : Nat → R) (s : Nat) (L : R) : Prop :=
  ∀ x m a b, Trends x m a b → ∀ N, ∃ ys, batch o (pre x N) = .ok (.okay, ys) ∧ ys.length = N - s ∧
    ∀ j y, m ≤ j → ys[j]? = some y → y = a + b * (((j + s : Nat) : R) - L)

/-- When the price moves along a line, the output comes as close as one likes to the height of the line `L` bars ago, and stays there. -/
def LagsInTheEnd (batch : (Nat → R) → List R → M (Ret × List R)) (o : Nat → R) (s : Nat) (L : R) : Prop :=
  ∀ x m a b, Trends x m a b → ∀ ε : R, 0 < ε → ∃ n0 : Nat, ∀ N, ∃ ys, batch o (pre x N) = .ok (.okay, ys) ∧ ys.length = N - s ∧
    ∀ j y, n0 ≤ j → ys[j]? = some y → |y - (a + b * (((j + s : Nat) : R) - L))| ≤ ε

end Verif.Spec
