/-
Specification: what becomes of the outputs when the price stops moving.
-/
import Verif.Core.Stream
import Mathlib.Algebra.Order.Field.Basic
import Mathlib.Algebra.Order.Group.Abs

namespace Verif.Spec
variable {R ρ ω : Type} [Field R] [LinearOrder R]

/-- From some bar on every bar is `c`. -/
def Rests (x : Nat → ρ) (c : ρ) : Prop := ∃ m, ∀ i, m ≤ i → x i = c

/-- Fed with longer and longer parts of `x`, the part `val` of the outputs comes as close to `L` as one likes, and stays there. -/
def Approaches (batch : (Nat → R) → List ρ → M (Ret × List ω)) (o : Nat → R) (s : Nat) (x : Nat → ρ) (val : ω → R) (L : R) : Prop :=
  ∀ ε : R, 0 < ε → ∃ n0 : Nat, ∀ N, n0 ≤ N → ∃ ys, batch o (pre x N) = .ok (.okay, ys) ∧ ys.length = N - s ∧
    ∀ j y, n0 ≤ j → ys[j]? = some y → |val y - L| ≤ ε

/-- When the price rests, the output approaches `g` times the price, whatever happened before. -/
def Follows (batch : (Nat → R) → List R → M (Ret × List R)) (o : Nat → R) (s : Nat) (g : R) : Prop :=
  ∀ (x : Nat → R) (c : R), Rests x c → Approaches batch o s x id (g * c)

/-- From some output on, all are the same. -/
def Freezes (batch : (Nat → R) → List ρ → M (Ret × List ω)) (o : Nat → R) (s : Nat) (x : Nat → ρ) : Prop :=
  ∃ (n0 : Nat) (v : ω), ∀ N, ∃ ys, batch o (pre x N) = .ok (.okay, ys) ∧ ys.length = N - s ∧ ∀ j y, n0 ≤ j → ys[j]? = some y → y = v

/-- The outputs leave every bound for good. -/
def Escapes (batch : (Nat → R) → List ρ → M (Ret × List R)) (o : Nat → R) (s : Nat) (x : Nat → ρ) : Prop :=
  ∀ C : R, ∃ n0 : Nat, ∀ N, ∃ ys, batch o (pre x N) = .ok (.okay, ys) ∧ ys.length = N - s ∧ ∀ j y, n0 ≤ j → ys[j]? = some y → C ≤ |y|

end Verif.Spec
