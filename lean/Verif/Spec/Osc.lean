/- Specifications of ultosc, abands, msw. -/
import Verif.Spec.Stats
import Verif.Core.Rows
import Verif.Core.Laws

namespace Verif.Spec
open Finset
variable {R : Type} [Field R] [LinearOrder R]

/-- Buying pressure of bar `k+1`: close minus true low; and its true range. -/
def buyingPressure (x : Nat → HLC R) (k : Nat) : R := (x (k + 1)).close - min (x (k + 1)).low (x k).close
def trueSpan (x : Nat → HLC R) (k : Nat) : R :=
  max (x (k + 1)).high (x k).close - min (x (k + 1)).low (x k).close

/-- Buying pressure per true range over the `p` bars that end with bar `i`. -/
def pressureRatio (p : Nat) (x : Nat → HLC R) (i : Nat) : R :=
  winSum p (buyingPressure x) (i - p) / winSum p (trueSpan x) (i - p)

/-- Headley's widened high and low of a bar: moved outwards by 4 * range / (high + low). -/
def widenFactor (r : HLC R) : R := if 0 < r.high + r.low then 4 * (r.high - r.low) / (r.high + r.low) else 0
def widenedHigh (r : HLC R) : R := r.high * (1 + widenFactor r)
def widenedLow (r : HLC R) : R := r.low * (1 - widenFactor r)

/-- Phase of the complex number `re + i·im` advanced by a quarter turn and brought back to one turn: the arc tangent, moved
to the left half plane for negative `re`; for a (nearly) vanishing real part, half a turn with the sign of `im`. -/
def mswAngle [CMath R] (pi re im : R) : R :=
  let a := (if 1 / 1000 < |re| then CMath.atan (im / re) else if im < 0 then -pi else pi) + (if re < 0 then pi else 0) + pi / 2
  if a < 0 then a + 2 * pi else if 2 * pi < a then a - 2 * pi else a

end Verif.Spec
