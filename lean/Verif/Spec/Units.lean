/-
Change of units: prices quoted in another currency unit (all multiplied by `c > 0`) or from another level (all moved by `a`),
volumes counted in another lot size (all multiplied by `v > 0`).
-/
import Verif.Core.Rows
import Verif.Model.Ema
import Verif.Model.Stats
import Verif.Model.Chan
import Verif.Model.Regress
import Verif.Model.Trail
import Verif.Model.Cycle
import Verif.Model.Direction

namespace Verif
variable {R ρ ω : Type}

/-- Rows in which some fields are prices: `prices f` changes these by `f` and leaves the others. -/
class Priced (R ρ : Type) where prices : (R → R) → ρ → ρ
export Priced (prices)

instance : Priced R R := ⟨fun f v => f v⟩
instance : Priced R (HL R) := ⟨fun f r => ⟨f r.high, f r.low⟩⟩
instance : Priced R (HLC R) := ⟨fun f r => ⟨f r.high, f r.low, f r.close⟩⟩
instance : Priced R (OHLC R) := ⟨fun f r => ⟨f r.open, f r.high, f r.low, f r.close⟩⟩
instance : Priced R (HLV R) := ⟨fun f r => ⟨f r.high, f r.low, r.volume⟩⟩
instance : Priced R (HLCV R) := ⟨fun f r => ⟨f r.high, f r.low, f r.close, r.volume⟩⟩
instance : Priced R (CV R) := ⟨fun f r => ⟨f r.close, r.volume⟩⟩
instance : Priced R (OC R) := ⟨fun f r => ⟨f r.open, f r.close⟩⟩
instance : Priced R (AB R) := ⟨fun f r => ⟨f r.a, f r.b⟩⟩
/-! Outputs with several values: all of them. -/
instance : Priced R (Macd R) := ⟨fun f r => ⟨f r.macd, f r.signal, f r.hist⟩⟩
instance : Priced R (Bands R) := ⟨fun f r => ⟨f r.lower, f r.middle, f r.upper⟩⟩
instance : Priced R (Pband R) := ⟨fun f r => ⟨f r.lower, f r.upper⟩⟩
instance : Priced R (Mhl R) := ⟨fun f r => ⟨f r.sma, f r.ema⟩⟩
instance : Priced R (MamaOut R) := ⟨fun f r => ⟨f r.mama, f r.fama⟩⟩
instance : Priced R (PlusMinus R) := ⟨fun f r => ⟨f r.plus, f r.minus⟩⟩
instance : Priced R (Ichi R) := ⟨fun f r => ⟨f r.tenkan, f r.kijun, f r.spanA, f r.spanB⟩⟩

/-- Rows with a volume: `volumes f` changes it by `f`. -/
class Volumed (R ρ : Type) where volumes : (R → R) → ρ → ρ
export Volumed (volumes)
instance : Volumed R (HLV R) := ⟨fun f r => { r with volume := f r.volume }⟩
instance : Volumed R (HLCV R) := ⟨fun f r => { r with volume := f r.volume }⟩
instance : Volumed R (CV R) := ⟨fun f r => { r with volume := f r.volume }⟩

/-- On every input with property `P` the call succeeds, and changing every input row by `f` changes every output row by `g` and
nothing else. -/
def Turns (batch : (Nat → R) → List ρ → M (Ret × List ω)) (o : Nat → R) (P : List ρ → Prop) (f : ρ → ρ) (g : ω → ω) : Prop :=
  ∀ xs : List ρ, P xs → ∃ out, batch o xs = .ok (.okay, out) ∧ batch o (xs.map f) = .ok (.okay, out.map g)

section
variable [Add R] [Mul R] [Zero R] [LT R]

/-- The outputs are prices themselves: they change unit and level together with the input. -/
def PriceLike [Priced R ρ] [Priced R ω] (batch : (Nat → R) → List ρ → M (Ret × List ω)) (o : Nat → R)
    (P : List ρ → Prop := fun _ => True) : Prop :=
  ∀ c a : R, 0 < c → Turns batch o P (prices fun v => c * v + a) (prices fun w => c * w + a)

/-- The outputs are differences of prices: they change unit with the input and do not depend on its level. -/
def SpreadLike [Priced R ρ] [Priced R ω] (batch : (Nat → R) → List ρ → M (Ret × List ω)) (o : Nat → R)
    (P : List ρ → Prop := fun _ => True) : Prop :=
  ∀ c a : R, 0 < c → Turns batch o P (prices fun v => c * v + a) (prices fun w => c * w)

/-- The outputs depend neither on the unit nor on the level of the prices. -/
def ShapeLike [Priced R ρ] (batch : (Nat → R) → List ρ → M (Ret × List ω)) (o : Nat → R)
    (P : List ρ → Prop := fun _ => True) : Prop :=
  ∀ c a : R, 0 < c → Turns batch o P (prices fun v => c * v + a) id

/-- The outputs change unit together with the input (nothing is said about the level). -/
def UnitLike [Priced R ρ] [Priced R ω] (batch : (Nat → R) → List ρ → M (Ret × List ω)) (o : Nat → R)
    (P : List ρ → Prop := fun _ => True) : Prop :=
  ∀ c : R, 0 < c → Turns batch o P (prices fun v => c * v) (prices fun w => c * w)

/-- The outputs do not depend on the unit of the prices (nothing is said about the level). -/
def RatioLike [Priced R ρ] (batch : (Nat → R) → List ρ → M (Ret × List ω)) (o : Nat → R)
    (P : List ρ → Prop := fun _ => True) : Prop :=
  ∀ c : R, 0 < c → Turns batch o P (prices fun v => c * v) id

/-- The outputs change by the same factor as the volumes. -/
def VolumeLike [Volumed R ρ] [Priced R ω] (batch : (Nat → R) → List ρ → M (Ret × List ω)) (o : Nat → R)
    (P : List ρ → Prop := fun _ => True) : Prop :=
  ∀ v : R, 0 < v → Turns batch o P (volumes fun u => v * u) (prices fun w => v * w)

/-- The outputs do not depend on the unit of the volumes. -/
def VolumeFree [Volumed R ρ] (batch : (Nat → R) → List ρ → M (Ret × List ω)) (o : Nat → R)
    (P : List ρ → Prop := fun _ => True) : Prop :=
  ∀ v : R, 0 < v → Turns batch o P (volumes fun u => v * u) id

end

end Verif
