/-
The market turned upside down: every price `v` becomes `a - v`, so that a rise becomes a fall; the high of a bar is then what was
its low.
-/
import Verif.Spec.Units
import Verif.Model.Extremum
import Verif.Model.Flow

namespace Verif
variable {R ρ ω : Type}

/-- Rows turned upside down by a decreasing change `f` of the prices: fields that belong to the upper and the lower side are
exchanged, volumes stay. -/
class Mirrored (R ρ : Type) where mirror : (R → R) → ρ → ρ
export Mirrored (mirror)

instance : Mirrored R R := ⟨fun f v => f v⟩
instance : Mirrored R (HL R) := ⟨fun f r => ⟨f r.low, f r.high⟩⟩
instance : Mirrored R (HLC R) := ⟨fun f r => ⟨f r.low, f r.high, f r.close⟩⟩
instance : Mirrored R (OHLC R) := ⟨fun f r => ⟨f r.open, f r.low, f r.high, f r.close⟩⟩
instance : Mirrored R (HLV R) := ⟨fun f r => ⟨f r.low, f r.high, r.volume⟩⟩
instance : Mirrored R (HLCV R) := ⟨fun f r => ⟨f r.low, f r.high, f r.close, r.volume⟩⟩
instance : Mirrored R (CV R) := ⟨fun f r => ⟨f r.close, r.volume⟩⟩
instance : Mirrored R (OC R) := ⟨fun f r => ⟨f r.open, f r.close⟩⟩
/-- Two lines, of which the first is to rise above the second: the second takes the place of the first. -/
instance : Mirrored R (AB R) := ⟨fun f r => ⟨f r.b, f r.a⟩⟩
/-! Outputs with several values: the upper and the lower band, the plus and the minus side exchange places. -/
instance : Mirrored R (Macd R) := ⟨fun f r => ⟨f r.macd, f r.signal, f r.hist⟩⟩
instance : Mirrored R (Bands R) := ⟨fun f r => ⟨f r.upper, f r.middle, f r.lower⟩⟩
instance : Mirrored R (Pband R) := ⟨fun f r => ⟨f r.upper, f r.lower⟩⟩
instance : Mirrored R (Mhl R) := ⟨fun f r => ⟨f r.sma, f r.ema⟩⟩
instance : Mirrored R (MamaOut R) := ⟨fun f r => ⟨f r.mama, f r.fama⟩⟩
instance : Mirrored R (PlusMinus R) := ⟨fun f r => ⟨f r.minus, f r.plus⟩⟩
instance : Mirrored R (ViOut R) := ⟨fun f r => ⟨f r.minus, f r.plus⟩⟩
instance : Mirrored R (Aroon R) := ⟨fun f r => ⟨f r.up, f r.down⟩⟩
instance : Mirrored R (Ichi R) := ⟨fun f r => ⟨f r.tenkan, f r.kijun, f r.spanA, f r.spanB⟩⟩
instance : Mirrored R (Stoch R) := ⟨fun f r => ⟨f r.k, f r.d⟩⟩
instance : Mirrored R (Fisher R) := ⟨fun f r => ⟨f r.fisher, f r.signal⟩⟩

section
variable [Add R] [Sub R] [Neg R]

/-- The outputs are prices themselves: they are turned upside down together with the input. -/
def MirrorsPrice [Mirrored R ρ] [Mirrored R ω] (batch : (Nat → R) → List ρ → M (Ret × List ω)) (o : Nat → R)
    (P : List ρ → Prop := fun _ => True) : Prop :=
  ∀ a : R, Turns batch o P (mirror fun v => a - v) (mirror fun w => a - w)

/-- The outputs are turned around the fixed value `s`, which means neither up nor down. -/
def MirrorsAround [Mirrored R ρ] [Mirrored R ω] (s : R) (batch : (Nat → R) → List ρ → M (Ret × List ω)) (o : Nat → R)
    (P : List ρ → Prop := fun _ => True) : Prop :=
  ∀ a : R, Turns batch o P (mirror fun v => a - v) (mirror fun w => s + s - w)

/-- The outputs change their sign. -/
def MirrorsSign [Mirrored R ρ] [Mirrored R ω] (batch : (Nat → R) → List ρ → M (Ret × List ω)) (o : Nat → R)
    (P : List ρ → Prop := fun _ => True) : Prop :=
  ∀ a : R, Turns batch o P (mirror fun v => a - v) (mirror fun w : R => -w)

/-- The outputs do not tell up from down: they stay the same, except that those for the two sides are exchanged. -/
def MirrorsSides [Mirrored R ρ] [Mirrored R ω] (batch : (Nat → R) → List ρ → M (Ret × List ω)) (o : Nat → R)
    (P : List ρ → Prop := fun _ => True) : Prop :=
  ∀ a : R, Turns batch o P (mirror fun v => a - v) (mirror fun w : R => w)

/-- Changing the sign of every price changes the sign of every output (nothing is said about another level). -/
def MirrorsZero [Mirrored R ρ] [Mirrored R ω] (batch : (Nat → R) → List ρ → M (Ret × List ω)) (o : Nat → R)
    (P : List ρ → Prop := fun _ => True) : Prop :=
  Turns batch o P (mirror fun v : R => -v) (mirror fun w : R => -w)

/-- The function `batch` on prices does what `batch'` does on prices turned upside down. -/
def MirrorsInto [Mirrored R ρ] [Mirrored R ω] (batch batch' : (Nat → R) → List ρ → M (Ret × List ω)) (o : Nat → R) : Prop :=
  ∀ (a : R) (xs : List ρ), ∃ out, batch o xs = .ok (.okay, out) ∧
    batch' o (xs.map (mirror fun v => a - v)) = .ok (.okay, out.map (mirror fun w => a - w))

end

end Verif
