/- Streams that do not reproduce the batch result bit for bit in binary64: runs evaluated by the kernel. -/
import Verif.Core.Eval
import Verif.Spec.Witness
import Verif.Model.Volume
import Verif.Model.Osc
import Verif.Model.Smooth
import Verif.Model.Weighted
import Verif.Model.Stats
import Verif.Model.Sum
import Verif.Model.Flow
import Verif.Model.Rank
import Verif.Model.Average
import Verif.Model.Range
import Verif.Spec.DoubleData

namespace Verif
open F64
set_option linter.unusedSectionVars false

section
variable [Libm]

/-- sma(1) of 5.8, 6.4: the stream and the batch call write different doubles. -/
theorem sma_stream_double_violates : (sma (R := F64)).StreamDiffers (opt1 1) (tenths [58, 64]) := by kernel_decide

/-- atr(3) of three bars. -/
theorem atr_stream_double_violates : (atr (R := F64)).StreamDiffers (opt1 3) (bars3 [(7, 1, 4), (8, 4, 8), (6, 1, 5)]) := by kernel_decide

set_option maxRecDepth 100000 in
/-- ehma(1) of 0.9, 0.6. -/
theorem ehma_stream_double_violates : (ehma (R := F64)).StreamDiffers (opt1 1) (tenths [9, 6]) := by kernel_decide

/-- hwma(7) of seven prices. -/
theorem hwma_stream_double_violates : (hwma (R := F64)).StreamDiffers (opt1 7) (tenths [2, 8, 3, 8, 6, 4, 6]) := by kernel_decide

/-- lma(2) of 2.9, 3.6. -/
theorem lma_stream_double_violates : (lma (R := F64)).StreamDiffers (opt1 2) (tenths [29, 36]) := by kernel_decide

/-- vwap(1) of two bars. -/
theorem vwap_stream_double_violates : (vwap (R := F64)).StreamDiffers (opt1 1) (bars4 [(97, 31, 87, 98), (66, 53, 64, 20)]) := by kernel_decide

/-- fi(2) of a falling price without volume: the batch call writes `0`, the stream `-0`. -/
theorem fi_stream_double_violates : (fi (R := F64)).StreamDiffers (opt1 2) [⟨c! 5, c! 0⟩, ⟨c! 4, c! 0⟩] := by kernel_decide

/-- rmi(2, 1) of a price that is not a number: `MAX` keeps it, `std::max` replaces it by `0`. -/
theorem rmi_stream_double_violates : (rmi (R := F64)).StreamDiffers (optsD [2, 1]) [c! 5, c! 0 / c! 0] := by kernel_decide

end
end Verif
