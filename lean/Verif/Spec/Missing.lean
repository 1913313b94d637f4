/-
What a bar with a missing price does to the outputs.  Data feeds write a NaN where a price is missing; the library has no rule for
it, so what comes out is what the arithmetic of doubles makes of it.
-/
import Verif.Core.Binary64
import Verif.Core.UB

namespace Verif
variable {ρ ω : Type}

/-- From a bar with a missing price on every output is lost, however many good bars follow.  `missing` says which bars have one,
`lost` which outputs are useless.  (Output `j` belongs to bar `j + start`; the loss may set in `delay` bars late.) -/
def Poisons (batch : (Nat → F64) → List ρ → M (Ret × List ω)) (o : Nat → F64) (start : Nat)
    (missing : ρ → Prop) (lost : ω → Prop) (delay : Nat := 0) : Prop :=
  ∀ (x : Nat → ρ) (n : Nat), ∃ y, batch o (pre x n) = .ok (.okay, pre y (n - start)) ∧
    ∀ i j, missing (x i) → i + delay ≤ j + start → lost (y j)

/-- A bar counts for its own output and the `w` following ones only: whatever double stands in bar `i`, a NaN or an infinity
included, the later outputs are the same. -/
def Recovers (batch : (Nat → F64) → List ρ → M (Ret × List ω)) (o : Nat → F64) (start w : Nat) : Prop :=
  ∀ (x x' : Nat → ρ) (i n : Nat), (∀ k, k ≠ i → x k = x' k) →
    ∃ y y', batch o (pre x n) = .ok (.okay, pre y (n - start)) ∧ batch o (pre x' n) = .ok (.okay, pre y' (n - start)) ∧
      ∀ j, i + w < j + start → y j = y' j

/-- Some series with a missing price in bar `i` has a value from that bar on that does not show it. -/
def Hides (batch : (Nat → F64) → List ρ → M (Ret × List ω)) (o : Nat → F64) (start : Nat) (missing : ρ → Prop) (lost : ω → Prop) : Prop :=
  ∃ xs i r out, xs[i]? = some r ∧ missing r ∧ batch o xs = .ok (.okay, out) ∧ ∃ y ∈ out.drop (i - start), ¬ lost y

end Verif
