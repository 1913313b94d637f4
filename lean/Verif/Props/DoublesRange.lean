/- Ranges and bounds that are lost to rounding: runs in binary64 on ordinary prices, evaluated by the kernel, whatever the
library functions IEEE 754 leaves open return. -/
import Verif.Core.Eval
import Verif.Spec.Witness
import Verif.Model.Volume
import Verif.Model.Osc
import Verif.Model.Smooth
import Verif.Model.Weighted
import Verif.Model.Stats
import Verif.Model.Sum
import Verif.Model.Flow
import Verif.Model.Rank
import Verif.Model.Average
import Verif.Model.Range
import Verif.Model.Direction
import Verif.Model.Extremum
import Verif.Spec.DoubleData

namespace Verif
open F64
set_option linter.unusedSectionVars false

section
variable [Libm]

/-- sma(1) of 1.6, 1.2 writes a value below 1.2. -/
theorem sma_bounds_double_violates : Outputs (smaBatch (opt1 1) (tenths [16, 12])) (fun y => y < tenth 12) := by kernel_decide

/-- wma(2) of 0.4, 0.4 writes a value that is not 0.4 but below or above it. -/
theorem wma_bounds_double_violates : Outputs (wmaBatch (opt1 2) (tenths [4, 4])) (fun y => y < tenth 4 ∨ tenth 4 < y) := by kernel_decide

/-- trima(1) of 1.6, 1.2 writes a value below 1.2. -/
theorem trima_bounds_double_violates : Outputs (trimaBatch (opt1 1) (tenths [16, 12])) (fun y => y < tenth 12) := by kernel_decide

/-- wilders(1) of 1.8, 0.6 writes a value below 0.6. -/
theorem wilders_bounds_double_violates : Outputs (wildersBatch (opt1 1) (tenths [18, 6])) (fun y => y < tenth 6) := by kernel_decide

/-- ema(1) of 1.8, 0.6 writes a value below 0.6: the bound of 2 on the period in `ema_bounds_double` is needed. -/
theorem ema_bounds_double_violates : Outputs (emaBatch (opt1 1) (tenths [18, 6])) (fun y => y < tenth 6) := by kernel_decide

/-- vwma(1) of closes 15.3, 52.9 writes a value above 52.9. -/
theorem vwma_bounds_double_violates : Outputs (vwmaBatch (opt1 1) [⟨tenth 153, tenth 265⟩, ⟨tenth 529, tenth 336⟩]) (fun y => tenth 529 < y) := by kernel_decide

/-- typprice of a flat bar at 0.3 is below 0.3. -/
theorem typprice_bounds_double_violates : Outputs (typpriceBatch (opt1 0) [⟨tenth 3, tenth 3, tenth 3⟩]) (fun y => y < tenth 3) := by kernel_decide

/-- cmo(1) of 0.8, 2.4 … leaves [-100, 100]. -/
theorem cmo_range_double_violates : Outputs (cmoBatch (opt1 1) (tenths [8, 24, 8])) (fun y => y < -(c! 100) ∨ c! 100 < y) := by kernel_decide

/-- er(2) of 0.3, 1.6, 2.4 is above 1. -/
theorem er_range_double_violates : Outputs (erBatch (opt1 2) (tenths [3, 16, 24])) (fun y => c! 1 < y) := by kernel_decide

/-- vhf(2) leaves [0, 1]. -/
theorem vhf_range_double_violates : Outputs (vhfBatch (opt1 2) (tenths [1, 4, 4, 2, 3, 4])) (fun y => c! 1 < y) := by kernel_decide

/-- mfi(2) falls below 0. -/
theorem mfi_range_double_violates : Outputs (mfiBatch (opt1 2) (bars4 [(4, 1, 2, 3), (4, 2, 2, 3), (4, 2, 4, 4), (3, 1, 2, 3), (3, 1, 1, 4), (4, 2, 3, 4)])) (fun y => y < c! 0) := by kernel_decide

/-- cmf(1) falls below -1. -/
theorem cmf_range_double_violates : Outputs (cmfBatch (opt1 1) (bars4 [(2, 1, 1, 2), (4, 1, 1, 4)])) (fun y => y < -(c! 1)) := by kernel_decide

/-- stoch(3, 2, 1): %K and %D exceed 100. -/
theorem stoch_range_double_violates : Outputs (stochBatch (optsD [3, 2, 1]) (bars3 [(4, 2, 3), (4, 1, 4), (2, 2, 2), (4, 1, 1), (4, 1, 2), (3, 2, 3), (4, 1, 4), (4, 3, 4)])) (fun y => c! 100 < y.k ∧ c! 100 < y.d) := by kernel_decide

/-- di(2): +DI exceeds 100. -/
theorem di_range_double_violates : Outputs (diBatch (opt1 2) (bars3 [(1, 1, 1), (3, 1, 2)])) (fun y => c! 100 < y.plus) := by kernel_decide

/-- adx(91) of a steady rise exceeds 100 (`dx`, which it averages, does not). -/
theorem adx_range_double_violates : Outputs (adxBatch (opt1 91) ((List.range 182).map fun (i : Nat) => (⟨((i + 1 : Nat) : Int), ((i : Nat) : Int)⟩ : HL F64))) (fun y => c! 100 < y) := by kernel_decide

/-- aroon(11): the up line exceeds 100. -/
theorem aroon_range_double_violates : Outputs (aroonBatch (opt1 11) (bars2 [(4, 3), (3, 3), (3, 2), (2, 1), (3, 3), (4, 4), (4, 2), (2, 1), (3, 2), (3, 1), (3, 1), (4, 2), (1, 1), (2, 2), (3, 2)])) (fun y => c! 100 < y.up) := by kernel_decide

/-- aroonosc(11) falls below -100. -/
theorem aroonosc_range_double_violates : Outputs (aroonoscBatch (opt1 11) (bars2 [(761, 310), (907, 230), (947, 681), (754, 170), (474, 405), (570, 380), (870, 76), (790, 380), (131, 65), (591, 461), (811, 51), (452, 243), (742, 577), (842, 24), (738, 588)])) (fun y => y < -(c! 100)) := by kernel_decide

/-- ultosc(1, 2, 3) exceeds 100. -/
theorem ultosc_range_double_violates : Outputs (ultoscBatch (optsD [1, 2, 3]) (bars3 [(4, 2, 4), (4, 1, 2), (4, 2, 2), (3, 1, 2), (3, 1, 3), (4, 3, 4), (4, 1, 4), (4, 1, 3)])) (fun y => c! 100 < y) := by kernel_decide

/-- var(1) of 0.8, 2.4 writes a negative variance. -/
theorem var_nonneg_double_violates : Outputs (varBatch (opt1 1) (tenths [8, 24])) (fun y => y < c! 0) := by kernel_decide

/-- stddev(1) of 0.8, 2.4 writes a negative standard deviation. -/
theorem stddev_nonneg_double_violates : Outputs (stddevBatch (opt1 1) (tenths [8, 24])) (fun y => y < c! 0) := by kernel_decide

end
end Verif
