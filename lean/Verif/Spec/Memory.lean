/-
How long an indicator remembers old bars: for a window only, with fading weight, or for ever.
-/
import Verif.Core.UB
import Verif.Core.StreamLemmas
import Mathlib.Algebra.Order.Field.Basic

namespace Verif
variable {R ρ ω : Type}

/-- Only a window of recent bars counts: leaving out the `k` oldest bars leaves out the `k` oldest outputs and changes none of the
others. -/
def Windowed (batch : (Nat → R) → List ρ → M (Ret × List ω)) (o : Nat → R) (P : List ρ → Prop := fun _ => True) : Prop :=
  ∀ xs, P xs → ∃ out, batch o xs = .ok (.okay, out) ∧ ∀ k, P (xs.drop k) → batch o (xs.drop k) = .ok (.okay, out.drop k)

/-- Old bars fade: after any two histories `xs` and `ys`, the newest outputs come together geometrically while both inputs go on
with the same bars `z`. `part` picks one value of the output row; `Q` is what is asked of all bars. -/
def Fades [Field R] [LinearOrder R] (batch : (Nat → R) → List ρ → M (Ret × List ω)) (o : Nat → R) (part : ω → R)
    (Q : ρ → Prop := fun _ => True) : Prop :=
  ∃ q : R, 0 < q ∧ q < 1 ∧ ∀ (xs ys : List ρ) (z : Nat → ρ), (∀ r ∈ xs, Q r) → (∀ r ∈ ys, Q r) → (∀ n, Q (z n)) → ∃ C : R, ∀ n,
    ∃ u v, batch o (xs ++ pre z (n + 1)) = .ok (.okay, u) ∧ batch o (ys ++ pre z (n + 1)) = .ok (.okay, v) ∧
      ∀ a ∈ u.getLast?, ∀ b ∈ v.getLast?, |part a - part b| ≤ C * q ^ n

end Verif
