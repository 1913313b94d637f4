/-
Specification: how strongly a filter passes a cycle of a given length.
-/
import Verif.Core.Stream
import Mathlib.Analysis.SpecialFunctions.Trigonometric.Basic

namespace Verif.Spec

/-- A cycle of `P` bars with amplitude 1, starting at phase `φ`. -/
noncomputable def wave (P : Nat) (φ : Real) (n : Nat) : Real := Real.cos (2 * Real.pi * n / P + φ)

/-- Fed with a cycle of `P` bars, whatever its phase, the outputs (which begin at bar `s`) approach a cycle of the same length with
amplitude `a`, shifted by `ψ`. -/
def Passes (batch : (Nat → Real) → List Real → M (Ret × List Real)) (o : Nat → Real) (s P : Nat) (a ψ : Real) : Prop :=
  ∀ φ ε : Real, 0 < ε → ∃ n0 : Nat, ∀ N, n0 ≤ N → ∃ ys, batch o (pre (wave P φ) N) = .ok (.okay, ys) ∧ ys.length = N - s ∧
    ∀ j y, n0 ≤ j → ys[j]? = some y → |y - a * wave P (φ + ψ) (j + s)| ≤ ε

/-- The power of a cycle of `P` bars is multiplied by a factor between `lo` and `hi`. -/
def PowerBetween (batch : (Nat → Real) → List Real → M (Ret × List Real)) (o : Nat → Real) (s P : Nat) (lo hi : Real) : Prop :=
  ∃ a ψ : Real, Passes batch o s P a ψ ∧ lo ≤ a ^ 2 ∧ a ^ 2 ≤ hi

end Verif.Spec
