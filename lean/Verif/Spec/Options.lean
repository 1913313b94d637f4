/- C37: options a function converts to `int`. -/
import Verif.Core.Stream

namespace Verif
variable {R ρ ω : Type} [Num R]

/-- Option vectors that differ at most in the fractions of whole-number options: at the positions `ints` both convert to the same `int`, and
elsewhere they are equal. -/
def SameUpToFractions (ints : List Nat) (o o' : Nat → R) : Prop :=
  ∀ i, if i ∈ ints then ∃ p, toInt (o i) = .ok p ∧ toInt (o' i) = .ok p else o i = o' i

/-- The options `ints` have whole parts from 1 on. -/
def FromOne (ints : List Nat) (o : Nat → R) : Prop := ∀ i, i ∈ ints → ∀ p, toInt (o i) = .ok p → 1 ≤ p

/-- `ti_xxx_start` and `ti_xxx` ignore the fractions of the options `ints`: same start index, return code, values and undefined behaviour. -/
def IgnoresFractions (start : (Nat → R) → M Int) (batch : (Nat → R) → List ρ → M (Ret × List ω)) (ints : List Nat) : Prop :=
  ∀ o o', SameUpToFractions ints o o' → start o = start o' ∧ ∀ xs, batch o xs = batch o' xs

/-- `ti_xxx_start`, `ti_xxx` and every session with a stream ignore the fractions of the options `ints`. -/
def Indicator.IgnoresFractions (I : Indicator R ρ ω) (ints : List Nat) : Prop :=
  Verif.IgnoresFractions I.start I.batch ints ∧
    ∀ o o', SameUpToFractions ints o o' → ∀ chunks, I.session o chunks = I.session o' chunks

/-- As `IgnoresFractions`, for options whose whole parts are at least 1 (smaller ones are refused). -/
def IgnoresFractionsFromOne (start : (Nat → R) → M Int) (batch : (Nat → R) → List ρ → M (Ret × List ω)) (ints : List Nat) : Prop :=
  ∀ o o', SameUpToFractions ints o o' → FromOne ints o → start o = start o' ∧ ∀ xs, batch o xs = batch o' xs

/-- As `Indicator.IgnoresFractions`, for options whose whole parts are at least 1 (smaller ones are refused). -/
def Indicator.IgnoresFractionsFromOne (I : Indicator R ρ ω) (ints : List Nat) : Prop :=
  Verif.IgnoresFractionsFromOne I.start I.batch ints ∧
    ∀ o o', SameUpToFractions ints o o' → FromOne ints o → ∀ chunks, I.session o chunks = I.session o' chunks

end Verif
