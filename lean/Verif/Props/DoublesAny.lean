/- Theorems about streams that assume no law of arithmetic (or only that small integers are exact), read at IEEE doubles. -/
import Verif.Proof.BinaryExact
import Verif.Props.Average
import Verif.Props.Cycle
import Verif.Props.Filters
import Verif.Props.Flow
import Verif.Props.Regress
import Verif.Props.Smooth

namespace Verif
variable [Libm]

example := @ahma_stream_eq_batch_partial F64 _
example := @bf2_stream_eq_batch F64 _
example := @bf3_stream_eq_batch F64 _
example := @dwma_stream_eq_batch_partial F64 _
example := @er_stream_eq_batch_partial F64 _
example := @evwma_stream_eq_batch_partial F64 _
example := @gf2_stream_eq_batch F64 _
example := @gf3_stream_eq_batch F64 _
example := @gf4_stream_eq_batch_partial F64 _
example := @hd_stream_eq_batch F64 _
example := @idwma_stream_eq_batch F64 _
example := @kc_stream_eq_batch F64 _
example := @lf_stream_eq_batch F64 _
example := @mama_stream_eq_batch F64 _
example := @mgdyn_stream_eq_batch F64 _
example := @pbands_stream_eq_batch_partial F64 _
example := @posc_stream_eq_batch_partial F64 _
example := @pvt_stream_eq_batch_partial F64 _
example := @rema_stream_eq_batch F64 _
example := @roof_stream_eq_batch F64 _
example := @rvi_stream_eq_batch_partial F64 _
example := @shmma_stream_eq_batch_partial F64 _
example := @ssmooth_stream_eq_batch F64 _
example := @swma_stream_eq_batch F64 _
example := @t3_stream_eq_batch F64 _
example := @tsi_stream_eq_batch F64 _
example := @vi_stream_eq_batch_partial F64 _

end Verif
