/- What a concrete run shows. -/
import Verif.Core.Stream

namespace Verif
variable {R ρ ω : Type}

/-- The call succeeds and some value it writes has the property. -/
def Outputs (r : M (Ret × List ω)) (P : ω → Prop) : Prop := ∃ out, r = .ok (.okay, out) ∧ ∃ y ∈ out, P y

instance (r : M (Ret × List ω)) (P : ω → Prop) [DecidablePred P] : Decidable (Outputs r P) :=
  match r with
  | .ok (.okay, out) =>
    if h : ∃ y ∈ out, P y then isTrue ⟨out, rfl, h⟩
    else isFalse fun ⟨o, e, h'⟩ => h (by cases e; exact h')
  | .ok (.invalidOption, _) => isFalse fun ⟨_, e, _⟩ => by cases e
  | .ok (.outOfMemory, _) => isFalse fun ⟨_, e, _⟩ => by cases e
  | .error _ => isFalse fun ⟨_, e, _⟩ => by cases e

/-- A batch call and a streaming session on the same input both succeed, write equally many values, and disagree. -/
def Indicator.StreamDiffers (I : Indicator R ρ ω) (o : Nat → R) (xs : List ρ) : Prop :=
  ∃ out out' n, I.batch o xs = .ok (.okay, out) ∧ I.session o [xs] = .ok (.okay, n, out') ∧ out.length = out'.length ∧ out ≠ out'

instance [DecidableEq ω] (I : Indicator R ρ ω) (o : Nat → R) (xs : List ρ) : Decidable (I.StreamDiffers o xs) :=
  decidable_of_iff ((match I.batch o xs, I.session o [xs] with
    | .ok (.okay, out), .ok (.okay, _, out') => decide (out.length = out'.length ∧ out ≠ out')
    | _, _ => false) = true) (by
      unfold Indicator.StreamDiffers
      generalize I.batch o xs = a
      generalize I.session o [xs] = b
      constructor
      · intro h
        split at h
        · exact ⟨_, _, _, rfl, rfl, of_decide_eq_true h⟩
        · cases h
      · rintro ⟨out, out', n, rfl, rfl, h⟩
        exact decide_eq_true h)

end Verif
