/-
Raising prices: if no price of one series is above the corresponding price of another, no output for the first is above the
output for the second. And adding up: the output for the sum of two series is the sum of the outputs.
-/
import Verif.Core.UB
import Verif.Core.Rows
import Verif.Model.Ema
import Verif.Model.Chan
import Verif.Model.Trail
import Verif.Model.Stats
import Mathlib.Data.List.Forall2

namespace Verif
variable {R ρ ω : Type}

/-- No price of the first row is above the same price of the second; the volumes are the same. -/
class Below (ρ : Type) where below : ρ → ρ → Prop
export Below (below)

section
variable [LE R]
instance (priority := low) : Below R := ⟨fun u v => u ≤ v⟩
instance : Below (HL R) := ⟨fun u v => u.high ≤ v.high ∧ u.low ≤ v.low⟩
instance : Below (HLC R) := ⟨fun u v => u.high ≤ v.high ∧ u.low ≤ v.low ∧ u.close ≤ v.close⟩
instance : Below (OHLC R) := ⟨fun u v => u.open ≤ v.open ∧ u.high ≤ v.high ∧ u.low ≤ v.low ∧ u.close ≤ v.close⟩
instance : Below (CV R) := ⟨fun u v => u.close ≤ v.close ∧ u.volume = v.volume⟩
instance : Below (HLCV R) := ⟨fun u v => u.high ≤ v.high ∧ u.low ≤ v.low ∧ u.close ≤ v.close ∧ u.volume = v.volume⟩
instance : Below (Ichi R) := ⟨fun u v => u.tenkan ≤ v.tenkan ∧ u.kijun ≤ v.kijun ∧ u.spanA ≤ v.spanA ∧ u.spanB ≤ v.spanB⟩
instance : Below (Mhl R) := ⟨fun u v => u.sma ≤ v.sma ∧ u.ema ≤ v.ema⟩
end

/-- On rows with property `Q` the calls succeed, and raising prices lowers no output. -/
def Rises [Below ρ] [Below ω] (batch : (Nat → R) → List ρ → M (Ret × List ω)) (o : Nat → R) (Q : ρ → Prop := fun _ => True) : Prop :=
  ∀ xs ys : List ρ, List.Forall₂ below xs ys → (∀ r ∈ xs, Q r) → (∀ r ∈ ys, Q r) →
    ∃ u v, batch o xs = .ok (.okay, u) ∧ batch o ys = .ok (.okay, v) ∧ List.Forall₂ below u v

/-- Rows added price by price. -/
class Added (ρ : Type) where added : ρ → ρ → ρ
export Added (added)

section
variable [Add R]
instance (priority := low) : Added R := ⟨fun u v => u + v⟩
instance : Added (HL R) := ⟨fun u v => ⟨u.high + v.high, u.low + v.low⟩⟩
instance : Added (HLC R) := ⟨fun u v => ⟨u.high + v.high, u.low + v.low, u.close + v.close⟩⟩
instance : Added (OHLC R) := ⟨fun u v => ⟨u.open + v.open, u.high + v.high, u.low + v.low, u.close + v.close⟩⟩
instance : Added (OC R) := ⟨fun u v => ⟨u.open + v.open, u.close + v.close⟩⟩
instance : Added (Macd R) := ⟨fun u v => ⟨u.macd + v.macd, u.signal + v.signal, u.hist + v.hist⟩⟩
end

/-- The output for the sum of two series of the same length is the sum of their outputs. -/
def AddsUp [Added ρ] [Added ω] (batch : (Nat → R) → List ρ → M (Ret × List ω)) (o : Nat → R) : Prop :=
  ∀ xs ys : List ρ, xs.length = ys.length → ∃ u v, batch o xs = .ok (.okay, u) ∧ batch o ys = .ok (.okay, v) ∧
    u.length = v.length ∧ batch o (List.zipWith added xs ys) = .ok (.okay, List.zipWith added u v)

end Verif
