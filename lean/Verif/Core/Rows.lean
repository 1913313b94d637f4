/-
Rows: the values of all input arrays at one index.  An indicator with inputs `high, low, close` takes a list of
`HLC` rows; that all arrays have the same length is the API contract (`size`).
-/
import Verif.Core.UB

namespace Verif

structure HL (R : Type) where (high low : R) deriving DecidableEq, Inhabited
structure HLC (R : Type) where (high low close : R) deriving DecidableEq, Inhabited
structure OHLC (R : Type) where («open» high low close : R) deriving DecidableEq, Inhabited
structure HLV (R : Type) where (high low volume : R) deriving DecidableEq, Inhabited
structure HLCV (R : Type) where (high low close volume : R) deriving DecidableEq, Inhabited
structure CV (R : Type) where (close volume : R) deriving DecidableEq, Inhabited
structure OC (R : Type) where («open» close : R) deriving DecidableEq, Inhabited
/-- Two arbitrary series. -/
structure AB (R : Type) where (a b : R) deriving DecidableEq, Inhabited

end Verif
