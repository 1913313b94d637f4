/- How far an output computed with doubles may be from the exact value. -/
import Verif.Spec.Binary64
import Verif.Spec.Contract
import Verif.Core.Rows
import Mathlib.Algebra.Order.Ring.Rat

namespace Verif
open F64

/-- The rounding unit `2^-53`: the relative error of one operation. -/
def ulp : ℚ := 1 / 2 ^ 53

/-- A magnitude far away from overflow and from gradual underflow. -/
def Ordinary (m : ℚ) : Prop := 1 / 2 ^ 900 ≤ m ∧ m ≤ 2 ^ 900

/-- A finite double of magnitude at most `m`. -/
def UpTo (m : ℚ) (x : F64) : Prop := IsFin x ∧ |val x| ≤ m

/-- The double `y` is finite and differs from the number `q` by at most `e`. -/
def Near (e : ℚ) (y : F64) (q : ℚ) : Prop := IsFin y ∧ |val y - q| ≤ e

/-- What a price or a bar of doubles stands for, and when all of its doubles are finite and of magnitude at most `m`. -/
class Prices (I : Type) (J : outParam Type) where
  upTo : ℚ → I → Prop
  exact : I → J
instance : Prices F64 ℚ := ⟨UpTo, val⟩
instance : Prices (HL F64) (HL ℚ) := ⟨fun m b => UpTo m b.high ∧ UpTo m b.low, fun b => ⟨val b.high, val b.low⟩⟩
instance : Prices (HLC F64) (HLC ℚ) :=
  ⟨fun m b => UpTo m b.high ∧ UpTo m b.low ∧ UpTo m b.close, fun b => ⟨val b.high, val b.low, val b.close⟩⟩
instance : Prices (OHLC F64) (OHLC ℚ) :=
  ⟨fun m b => UpTo m b.open ∧ UpTo m b.high ∧ UpTo m b.low ∧ UpTo m b.close, fun b => ⟨val b.open, val b.high, val b.low, val b.close⟩⟩

/-- From finite prices of magnitude at most `m` the function writes, at every output `j` with `when j`, a finite double `get (y j)` that
differs from the exact value by at most `c j` rounding units of `m`.  `exact` gives the exact value as a function of the exact prices. -/
def AccurateAt [Libm] {I J Ω : Type} [Prices I J] (get : Ω → F64) (batch : (Nat → F64) → List I → M (Ret × List Ω)) (o : Nat → F64) (s : Nat)
    (exact : (Nat → J) → Nat → ℚ) (c : Nat → ℚ) (when : Nat → Prop := fun _ => True) : Prop :=
  ∀ m, Ordinary m → ∀ x : Nat → I, (∀ i, Prices.upTo m (x i)) → ∀ N, ∃ y, batch o (pre x N) = .ok (.okay, pre y (N - s)) ∧
    ∀ j, when j → Near (c j * ulp * m) (get (y j)) (exact (fun i => Prices.exact (x i)) j)
/-- The same for a function with a single output. -/
abbrev Accurate [Libm] {I J : Type} [Prices I J] (batch : (Nat → F64) → List I → M (Ret × List F64)) (o : Nat → F64) (s : Nat)
    (exact : (Nat → J) → Nat → ℚ) (c : Nat → ℚ) (when : Nat → Prop := fun _ => True) : Prop :=
  AccurateAt (fun y => y) batch o s exact c when

end Verif
