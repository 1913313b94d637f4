/-
Specification of the recursive filters: linear difference equations with zero history.
-/
import Mathlib.Algebra.Field.Defs

namespace Verif.Spec
variable {R : Type}

/-- The first `n` values of a series, newest first. -/
def past (x : Nat → R) : Nat → List R
  | 0 => []
  | n + 1 => x n :: past x n

variable [Field R]

/-- `Σ cₖ·vₖ` over as many terms as both lists have. -/
def dot (c v : List R) : R := (List.zipWith (· * ·) c v).sum

/-- The first `n` values, newest first, of the filter
`y(n) = b₀·x(n) + b₁·x(n-1) + … + a₁·y(n-1) + a₂·y(n-2) + …` in which everything before bar 0 counts as zero. -/
def iirPast (b a : List R) (x : Nat → R) : Nat → List R
  | 0 => []
  | n + 1 => (dot b (past x (n + 1)) + dot a (iirPast b a x n)) :: iirPast b a x n

/-- Value of that filter at bar `n`. -/
def iir (b a : List R) (x : Nat → R) (n : Nat) : R := dot b (past x (n + 1)) + dot a (iirPast b a x n)

/-- A series delayed by `d` bars, zero before. -/
def delay (d : Nat) (x : Nat → R) (n : Nat) : R := if n < d then 0 else x (n - d)

/-- The response to a sum of two scaled series is the sum of the scaled responses. -/
def Superposes (F : (Nat → R) → Nat → R) : Prop :=
  ∀ (s t : R) (x y : Nat → R) (n : Nat), F (fun i => s * x i + t * y i) n = s * F x n + t * F y n

/-- Delaying the input only delays the response. -/
def TimeInvariant (F : (Nat → R) → Nat → R) : Prop :=
  ∀ (d : Nat) (x : Nat → R) (n : Nat), F (delay d x) n = delay d (F x) n

/-- Once a constant input has been reproduced `k` bars in a row it is reproduced for ever. -/
def Settles (k : Nat) (F : (Nat → R) → Nat → R) : Prop :=
  ∀ (x : Nat → R) (c : R) (m : Nat), (∀ i, m ≤ i → x i = c) → (∀ i, m ≤ i → i < m + k → F x i = c) →
    ∀ i, m ≤ i → F x i = c

end Verif.Spec
