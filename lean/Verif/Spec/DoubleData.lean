/- Test series of doubles: prices given in tenths, as a user would type them. -/
import Verif.Core.Binary64
import Verif.Core.Rows

namespace Verif
variable [Libm]

/-- The double nearest to `k / 10`. -/
def tenth (k : Int) : F64 := (k : F64) / c! 10
def tenths (l : List Int) : List F64 := l.map tenth
def opt1 (k : Int) : Nat → F64 := fun _ => (k : F64)

def optsD (l : List Int) : Nat → F64 := fun i => ((l.getD i 0 : Int) : F64)
/-- Bars (high, low), (high, low, close), (high, low, close, volume), in tenths. -/
def bars2 (l : List (Int × Int)) : List (HL F64) := l.map fun r => ⟨tenth r.1, tenth r.2⟩
def bars3 (l : List (Int × Int × Int)) : List (HLC F64) := l.map fun r => ⟨tenth r.1, tenth r.2.1, tenth r.2.2⟩
def bars4 (l : List (Int × Int × Int × Int)) : List (HLCV F64) :=
  l.map fun r => ⟨tenth r.1, tenth r.2.1, tenth r.2.2.1, tenth r.2.2.2⟩

end Verif
