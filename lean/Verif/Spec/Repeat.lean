/-
Specification: what a price that repeats itself does to the outputs.
-/
import Verif.Core.Stream
import Mathlib.Algebra.Order.Field.Basic
import Mathlib.Algebra.Order.Group.Abs

namespace Verif.Spec
variable {R ρ ω : Type}

/-- From bar `m` on the bars repeat every `q` bars. -/
def Cycles (x : Nat → ρ) (q m : Nat) : Prop := ∀ i, m ≤ i → x (i + q) = x i

/-- When the bars repeat every `q` bars, so do the outputs, from the first window on that lies in the repeating part (output `j` is the one
of bar `j + s`, and its window starts at bar `j`). -/
def Repeats (batch : (Nat → R) → List ρ → M (Ret × List ω)) (o : Nat → R) : Prop :=
  ∃ s : Nat, ∀ x q m, Cycles x q m → ∀ N, ∃ ys, batch o (pre x N) = .ok (.okay, ys) ∧ ys.length = N - s ∧
    ∀ j y y', m ≤ j → ys[j]? = some y → ys[j + q]? = some y' → y' = y

/-- When the bars repeat every `q` bars, the outputs of two bars `q` apart come as close as one likes, and stay there. -/
def RepeatsInTheEnd [Field R] [LinearOrder R] (batch : (Nat → R) → List ρ → M (Ret × List ω)) (o : Nat → R) (part : ω → R) : Prop :=
  ∃ s : Nat, ∀ x q m, Cycles x q m → ∀ ε : R, 0 < ε → ∃ n0 : Nat, ∀ N, ∃ ys, batch o (pre x N) = .ok (.okay, ys) ∧ ys.length = N - s ∧
    ∀ j y y', n0 ≤ j → ys[j]? = some y → ys[j + q]? = some y' → |part y' - part y| ≤ ε

/-- When the bars repeat every `q` bars, the output moves by the same amount `D` in every such stretch. -/
def Drifts [Field R] (batch : (Nat → R) → List ρ → M (Ret × List R)) (o : Nat → R) : Prop :=
  ∃ s : Nat, ∀ x q m, Cycles x q m → ∃ D : R, ∀ N, ∃ ys, batch o (pre x N) = .ok (.okay, ys) ∧ ys.length = N - s ∧
    ∀ j y y', m ≤ j → ys[j]? = some y → ys[j + q]? = some y' → y' - y = D

/-- When the bars repeat every `q` bars, the output is multiplied by the same factor `F` in every such stretch. -/
def Compounds [Field R] (batch : (Nat → R) → List ρ → M (Ret × List R)) (o : Nat → R) : Prop :=
  ∃ s : Nat, ∀ x q m, Cycles x q m → ∃ F : R, ∀ N, ∃ ys, batch o (pre x N) = .ok (.okay, ys) ∧ ys.length = N - s ∧
    ∀ j y y', m ≤ j → ys[j]? = some y → ys[j + q]? = some y' → y' = y * F

end Verif.Spec
