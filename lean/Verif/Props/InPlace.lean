/- C72: calls whose output array is the input array. Streams. -/
import Verif.Proof.InPlace
import Verif.Props.Writes
import Verif.Model.Average
import Verif.Model.Chan
import Verif.Model.Cycle
import Verif.Model.Filters
import Verif.Model.Flow
import Verif.Model.Fractal
import Verif.Model.Hampel
import Verif.Model.Range
import Verif.Model.Rank
import Verif.Model.Regress
import Verif.Model.Smooth
import Verif.Model.Sum
import Verif.Model.Trail
import Verif.Core.RatInst

namespace Verif
set_option linter.unusedSectionVars false
set_option linter.unreachableTactic false
set_option linter.unusedTactic false
set_option linter.unusedSimpArgs false

/-- What the body of a loop writes: at most one value. -/
macro "one_body" h:ident : tactic => `(tactic| (
  repeat' (first
    | (rw [bind_eq_ok] at $h:ident; obtain ⟨_, _, $h:ident⟩ := $h:ident)
    | (split at $h:ident)
    | (cases $h:ident; done)
    | dsimp only at $h:ident)
  all_goals (try (cases $h:ident))
  all_goals (try (simp only [List.length_nil, List.length_cons, Nat.zero_add, Nat.zero_le, le_refl]))))

section
variable {R : Type} [Num R]

/-- ahma: whichever input arrays the outputs overwrite. -/
theorem ahma_stream_in_place (o : Nat → R) (put : R → R → R) (chunks : List (List R)) :
    (ahma (R := R)).sessionIP put o chunks = (ahma (R := R)).session o chunks := by
  refine sessionIP_eq _ put o (fun k => ?_) chunks
  show OneEach (ahmaPhases (R := R) k)
  unfold ahmaPhases
  repeat' (first | exact OneEach.nil | refine OneEach.cons (fun p r s s' w hb => ?_) ?_)
  all_goals (one_body hb)
/-- ehma: whichever input arrays the outputs overwrite. -/
theorem ehma_stream_in_place (o : Nat → R) (put : R → R → R) (chunks : List (List R)) :
    (ehma (R := R)).sessionIP put o chunks = (ehma (R := R)).session o chunks := by
  refine sessionIP_eq _ put o (fun k => ?_) chunks
  show OneEach (ehmaPhases (R := R) k)
  unfold ehmaPhases
  repeat' (first | exact OneEach.nil | refine OneEach.cons (fun p r s s' w hb => ?_) ?_)
  all_goals (one_body hb)
/-- idwma: whichever input arrays the outputs overwrite. -/
theorem idwma_stream_in_place (o : Nat → R) (put : R → R → R) (chunks : List (List R)) :
    (idwma (R := R)).sessionIP put o chunks = (idwma (R := R)).session o chunks := by
  refine sessionIP_eq _ put o (fun k => ?_) chunks
  show OneEach (idwmaPhases (R := R) k)
  unfold idwmaPhases
  repeat' (first | exact OneEach.nil | refine OneEach.cons (fun p r s s' w hb => ?_) ?_)
  all_goals (one_body hb)
/-- lma: whichever input arrays the outputs overwrite. -/
theorem lma_stream_in_place (o : Nat → R) (put : R → R → R) (chunks : List (List R)) :
    (lma (R := R)).sessionIP put o chunks = (lma (R := R)).session o chunks := by
  refine sessionIP_eq _ put o (fun k => ?_) chunks
  show OneEach (lmaPhases (R := R) k)
  unfold lmaPhases
  repeat' (first | exact OneEach.nil | refine OneEach.cons (fun p r s s' w hb => ?_) ?_)
  all_goals (one_body hb)
/-- shmma: whichever input arrays the outputs overwrite. -/
theorem shmma_stream_in_place (o : Nat → R) (put : R → R → R) (chunks : List (List R)) :
    (shmma (R := R)).sessionIP put o chunks = (shmma (R := R)).session o chunks := by
  refine sessionIP_eq _ put o (fun k => ?_) chunks
  show OneEach (shmmaPhases (R := R) k)
  unfold shmmaPhases
  repeat' (first | exact OneEach.nil | refine OneEach.cons (fun p r s s' w hb => ?_) ?_)
  all_goals (one_body hb)
/-- emsd: whichever input arrays the outputs overwrite. -/
theorem emsd_stream_in_place (o : Nat → R) (put : R → R → R) (chunks : List (List R)) :
    (emsd (R := R)).sessionIP put o chunks = (emsd (R := R)).session o chunks := by
  refine sessionIP_eq _ put o (fun k => ?_) chunks
  show OneEach (emsdPhases (R := R) k)
  unfold emsdPhases
  repeat' (first | exact OneEach.nil | refine OneEach.cons (fun p r s s' w hb => ?_) ?_)
  all_goals (one_body hb)
/-- edcf: whichever input arrays the outputs overwrite. -/
theorem edcf_stream_in_place (o : Nat → R) (put : R → R → R) (chunks : List (List R)) :
    (edcf (R := R)).sessionIP put o chunks = (edcf (R := R)).session o chunks := by
  refine sessionIP_eq _ put o (fun k => ?_) chunks
  show OneEach (edcfPhases (R := R) k)
  unfold edcfPhases
  repeat' (first | exact OneEach.nil | refine OneEach.cons (fun p r s s' w hb => ?_) ?_)
  all_goals (one_body hb)
/-- pc: whichever input arrays the outputs overwrite. -/
theorem pc_stream_in_place (o : Nat → R) (put : (HL R) → (HL R) → (HL R)) (chunks : List (List (HL R))) :
    (pc (R := R)).sessionIP put o chunks = (pc (R := R)).session o chunks := by
  refine sessionIP_eq _ put o (fun k => ?_) chunks
  show OneEach (pcPhases (R := R) k)
  unfold pcPhases
  repeat' (first | exact OneEach.nil | refine OneEach.cons (fun p r s s' w hb => ?_) ?_)
  all_goals (one_body hb)
/-- ichi: whichever input arrays the outputs overwrite. -/
theorem ichi_stream_in_place (o : Nat → R) (put : (HL R) → (Ichi R) → (HL R)) (chunks : List (List (HL R))) :
    (ichi (R := R)).sessionIP put o chunks = (ichi (R := R)).session o chunks := by
  refine sessionIP_eq _ put o (fun k => ?_) chunks
  show OneEach (ichiPhases (R := R) k)
  unfold ichiPhases
  repeat' (first | exact OneEach.nil | refine OneEach.cons (fun p r s s' w hb => ?_) ?_)
  all_goals (one_body hb)
/-- smi: whichever input arrays the outputs overwrite. -/
theorem smi_stream_in_place (o : Nat → R) (put : (HLC R) → R → (HLC R)) (chunks : List (List (HLC R))) :
    (smi (R := R)).sessionIP put o chunks = (smi (R := R)).session o chunks := by
  refine sessionIP_eq _ put o (fun k => ?_) chunks
  show OneEach (smiPhases (R := R) k)
  unfold smiPhases
  repeat' (first | exact OneEach.nil | refine OneEach.cons (fun p r s s' w hb => ?_) ?_)
  all_goals (one_body hb)
/-- hd: whichever input arrays the outputs overwrite. -/
theorem hd_stream_in_place (o : Nat → R) (put : R → R → R) (chunks : List (List R)) :
    (hd (R := R)).sessionIP put o chunks = (hd (R := R)).session o chunks := by
  refine sessionIP_eq _ put o (fun k => ?_) chunks
  show OneEach (hdLoops 0)
  unfold hdLoops
  repeat' (first | exact OneEach.nil | refine OneEach.cons (fun p r s s' w hb => ?_) ?_)
  all_goals (one_body hb)
/-- arsi: whichever input arrays the outputs overwrite. -/
theorem arsi_stream_in_place (o : Nat → R) (put : R → R → R) (chunks : List (List R)) :
    (arsi (R := R)).sessionIP put o chunks = (arsi (R := R)).session o chunks := by
  refine sessionIP_eq _ put o (fun k => ?_) chunks
  show OneEach (arsiPhases (R := R) k)
  unfold arsiPhases
  repeat' (first | exact OneEach.nil | refine OneEach.cons (fun p r s s' w hb => ?_) ?_)
  all_goals (one_body hb)
/-- mama: whichever input arrays the outputs overwrite. -/
theorem mama_stream_in_place (o : Nat → R) (put : R → (MamaOut R) → R) (chunks : List (List R)) :
    (mama (R := R)).sessionIP put o chunks = (mama (R := R)).session o chunks := by
  refine sessionIP_eq _ put o (fun k => ?_) chunks
  show OneEach (mamaPhases (R := R) k)
  unfold mamaPhases
  repeat' (first | exact OneEach.nil | refine OneEach.cons (fun p r s s' w hb => ?_) ?_)
  all_goals (one_body hb)
/-- gf1: whichever input arrays the outputs overwrite. -/
theorem gf1_stream_in_place (o : Nat → R) (put : R → R → R) (chunks : List (List R)) :
    (gf1 (R := R)).sessionIP put o chunks = (gf1 (R := R)).session o chunks := by
  refine sessionIP_eq _ put o (fun k => ?_) chunks
  show OneEach (gf1Phases (R := R) k)
  unfold gf1Phases
  repeat' (first | exact OneEach.nil | refine OneEach.cons (fun p r s s' w hb => ?_) ?_)
  all_goals (one_body hb)
/-- gf2: whichever input arrays the outputs overwrite. -/
theorem gf2_stream_in_place (o : Nat → R) (put : R → R → R) (chunks : List (List R)) :
    (gf2 (R := R)).sessionIP put o chunks = (gf2 (R := R)).session o chunks := by
  refine sessionIP_eq _ put o (fun k => ?_) chunks
  show OneEach (gf2Phases (R := R) k)
  unfold gf2Phases
  repeat' (first | exact OneEach.nil | refine OneEach.cons (fun p r s s' w hb => ?_) ?_)
  all_goals (one_body hb)
/-- gf3: whichever input arrays the outputs overwrite. -/
theorem gf3_stream_in_place (o : Nat → R) (put : R → R → R) (chunks : List (List R)) :
    (gf3 (R := R)).sessionIP put o chunks = (gf3 (R := R)).session o chunks := by
  refine sessionIP_eq _ put o (fun k => ?_) chunks
  show OneEach (gf3Phases (R := R) k)
  unfold gf3Phases
  repeat' (first | exact OneEach.nil | refine OneEach.cons (fun p r s s' w hb => ?_) ?_)
  all_goals (one_body hb)
/-- gf4: whichever input arrays the outputs overwrite. -/
theorem gf4_stream_in_place (o : Nat → R) (put : R → R → R) (chunks : List (List R)) :
    (gf4 (R := R)).sessionIP put o chunks = (gf4 (R := R)).session o chunks := by
  refine sessionIP_eq _ put o (fun k => ?_) chunks
  show OneEach (gf4Phases (R := R) k)
  unfold gf4Phases
  repeat' (first | exact OneEach.nil | refine OneEach.cons (fun p r s s' w hb => ?_) ?_)
  all_goals (one_body hb)
/-- ssmooth: whichever input arrays the outputs overwrite. -/
theorem ssmooth_stream_in_place (o : Nat → R) (put : R → R → R) (chunks : List (List R)) :
    (ssmooth (R := R)).sessionIP put o chunks = (ssmooth (R := R)).session o chunks := by
  refine sessionIP_eq _ put o (fun k => ?_) chunks
  show OneEach (ssmoothPhases)
  unfold ssmoothPhases
  repeat' (first | exact OneEach.nil | refine OneEach.cons (fun p r s s' w hb => ?_) ?_)
  all_goals (one_body hb)
/-- roof: whichever input arrays the outputs overwrite. -/
theorem roof_stream_in_place (o : Nat → R) (put : R → R → R) (chunks : List (List R)) :
    (roof (R := R)).sessionIP put o chunks = (roof (R := R)).session o chunks := by
  refine sessionIP_eq _ put o (fun k => ?_) chunks
  show OneEach (roofPhases)
  unfold roofPhases
  repeat' (first | exact OneEach.nil | refine OneEach.cons (fun p r s s' w hb => ?_) ?_)
  all_goals (one_body hb)
/-- lf: whichever input arrays the outputs overwrite. -/
theorem lf_stream_in_place (o : Nat → R) (put : R → R → R) (chunks : List (List R)) :
    (lf (R := R)).sessionIP put o chunks = (lf (R := R)).session o chunks := by
  refine sessionIP_eq _ put o (fun k => ?_) chunks
  show OneEach (lfPhases (R := R) k)
  unfold lfPhases
  repeat' (first | exact OneEach.nil | refine OneEach.cons (fun p r s s' w hb => ?_) ?_)
  all_goals (one_body hb)
/-- rema: whichever input arrays the outputs overwrite. -/
theorem rema_stream_in_place (o : Nat → R) (put : R → R → R) (chunks : List (List R)) :
    (rema (R := R)).sessionIP put o chunks = (rema (R := R)).session o chunks := by
  refine sessionIP_eq _ put o (fun k => ?_) chunks
  show OneEach (remaPhases (R := R) k)
  unfold remaPhases
  repeat' (first | exact OneEach.nil | refine OneEach.cons (fun p r s s' w hb => ?_) ?_)
  all_goals (one_body hb)
/-- fi: whichever input arrays the outputs overwrite. -/
theorem fi_stream_in_place (o : Nat → R) (put : (CV R) → R → (CV R)) (chunks : List (List (CV R))) :
    (fi (R := R)).sessionIP put o chunks = (fi (R := R)).session o chunks := by
  refine sessionIP_eq _ put o (fun k => ?_) chunks
  show OneEach (fiPhases (R := R) k)
  unfold fiPhases
  repeat' (first | exact OneEach.nil | refine OneEach.cons (fun p r s s' w hb => ?_) ?_)
  all_goals (one_body hb)
/-- mgdyn: whichever input arrays the outputs overwrite. -/
theorem mgdyn_stream_in_place (o : Nat → R) (put : R → R → R) (chunks : List (List R)) :
    (mgdyn (R := R)).sessionIP put o chunks = (mgdyn (R := R)).session o chunks := by
  refine sessionIP_eq _ put o (fun k => ?_) chunks
  show OneEach (mgdynPhases (R := R) k)
  unfold mgdynPhases
  repeat' (first | exact OneEach.nil | refine OneEach.cons (fun p r s s' w hb => ?_) ?_)
  all_goals (one_body hb)
/-- pvt: whichever input arrays the outputs overwrite. -/
theorem pvt_stream_in_place (o : Nat → R) (put : (CV R) → R → (CV R)) (chunks : List (List (CV R))) :
    (pvt (R := R)).sessionIP put o chunks = (pvt (R := R)).session o chunks := by
  refine sessionIP_eq _ put o (fun k => ?_) chunks
  show OneEach (pvtPhases (R := R) k)
  unfold pvtPhases
  repeat' (first | exact OneEach.nil | refine OneEach.cons (fun p r s s' w hb => ?_) ?_)
  all_goals (one_body hb)
/-- rmi: whichever input arrays the outputs overwrite. -/
theorem rmi_stream_in_place (o : Nat → R) (put : R → R → R) (chunks : List (List R)) :
    (rmi (R := R)).sessionIP put o chunks = (rmi (R := R)).session o chunks := by
  refine sessionIP_eq _ put o (fun k => ?_) chunks
  show OneEach (rmiPhases (R := R) k)
  unfold rmiPhases
  repeat' (first | exact OneEach.nil | refine OneEach.cons (fun p r s s' w hb => ?_) ?_)
  all_goals (one_body hb)
/-- vwap: whichever input arrays the outputs overwrite. -/
theorem vwap_stream_in_place (o : Nat → R) (put : (HLCV R) → R → (HLCV R)) (chunks : List (List (HLCV R))) :
    (vwap (R := R)).sessionIP put o chunks = (vwap (R := R)).session o chunks := by
  refine sessionIP_eq _ put o (fun k => ?_) chunks
  show OneEach (vwapPhases (R := R) k)
  unfold vwapPhases
  repeat' (first | exact OneEach.nil | refine OneEach.cons (fun p r s s' w hb => ?_) ?_)
  all_goals (one_body hb)
/-- evwma: whichever input arrays the outputs overwrite. -/
theorem evwma_stream_in_place (o : Nat → R) (put : (CV R) → R → (CV R)) (chunks : List (List (CV R))) :
    (evwma (R := R)).sessionIP put o chunks = (evwma (R := R)).session o chunks := by
  refine sessionIP_eq _ put o (fun k => ?_) chunks
  show OneEach (evwmaPhases (R := R) k)
  unfold evwmaPhases
  repeat' (first | exact OneEach.nil | refine OneEach.cons (fun p r s s' w hb => ?_) ?_)
  all_goals (one_body hb)
/-- vi: whichever input arrays the outputs overwrite. -/
theorem vi_stream_in_place (o : Nat → R) (put : (HLC R) → (ViOut R) → (HLC R)) (chunks : List (List (HLC R))) :
    (vi (R := R)).sessionIP put o chunks = (vi (R := R)).session o chunks := by
  refine sessionIP_eq _ put o (fun k => ?_) chunks
  show OneEach (viPhases (R := R) k)
  unfold viPhases
  repeat' (first | exact OneEach.nil | refine OneEach.cons (fun p r s s' w hb => ?_) ?_)
  all_goals (one_body hb)
/-- hurst: whichever input arrays the outputs overwrite. -/
theorem hurst_stream_in_place (o : Nat → R) (put : R → (Hurst R) → R) (chunks : List (List R)) :
    (hurst (R := R)).sessionIP put o chunks = (hurst (R := R)).session o chunks := by
  refine sessionIP_eq _ put o (fun k => ?_) chunks
  show OneEach (hurstPhases (R := R) k)
  unfold hurstPhases
  repeat' (first | exact OneEach.nil | refine OneEach.cons (fun p r s s' w hb => ?_) ?_)
  all_goals (one_body hb)
/-- mesastoch: whichever input arrays the outputs overwrite. -/
theorem mesastoch_stream_in_place (o : Nat → R) (put : R → R → R) (chunks : List (List R)) :
    (mesastoch (R := R)).sessionIP put o chunks = (mesastoch (R := R)).session o chunks := by
  refine sessionIP_eq _ put o (fun k => ?_) chunks
  show OneEach (mesastochPhases (R := R) k)
  unfold mesastochPhases
  repeat' (first | exact OneEach.nil | refine OneEach.cons (fun p r s s' w hb => ?_) ?_)
  all_goals (one_body hb)
  all_goals (first | (have := mesaWarm_len ‹_›; omega) | (have := mesaBar_len ‹_›; omega))
/-- hf: whichever input arrays the outputs overwrite. -/
theorem hf_stream_in_place (o : Nat → R) (put : R → R → R) (chunks : List (List R)) :
    (hf (R := R)).sessionIP put o chunks = (hf (R := R)).session o chunks := by
  refine sessionIP_eq _ put o (fun k => ?_) chunks
  show OneEach (hfPhases (R := R) k)
  unfold hfPhases
  repeat' (first | exact OneEach.nil | refine OneEach.cons (fun p r s s' w hb => ?_) ?_)
  all_goals (one_body hb)
/-- hfema: whichever input arrays the outputs overwrite. -/
theorem hfema_stream_in_place (o : Nat → R) (put : R → R → R) (chunks : List (List R)) :
    (hfema (R := R)).sessionIP put o chunks = (hfema (R := R)).session o chunks := by
  refine sessionIP_eq _ put o (fun k => ?_) chunks
  show OneEach (hfemaPhases (R := R) k)
  unfold hfemaPhases
  repeat' (first | exact OneEach.nil | refine OneEach.cons (fun p r s s' w hb => ?_) ?_)
  all_goals (one_body hb)
/-- hfsma: whichever input arrays the outputs overwrite. -/
theorem hfsma_stream_in_place (o : Nat → R) (put : R → R → R) (chunks : List (List R)) :
    (hfsma (R := R)).sessionIP put o chunks = (hfsma (R := R)).session o chunks := by
  refine sessionIP_eq _ put o (fun k => ?_) chunks
  show OneEach (hfsmaPhases (R := R) k)
  unfold hfsmaPhases
  repeat' (first | exact OneEach.nil | refine OneEach.cons (fun p r s s' w hb => ?_) ?_)
  all_goals (one_body hb)
/-- hwma: whichever input arrays the outputs overwrite. -/
theorem hwma_stream_in_place (o : Nat → R) (put : R → R → R) (chunks : List (List R)) :
    (hwma (R := R)).sessionIP put o chunks = (hwma (R := R)).session o chunks := by
  refine sessionIP_eq _ put o (fun k => ?_) chunks
  show OneEach (hwmaPhases (R := R) k)
  unfold hwmaPhases
  repeat' (first | exact OneEach.nil | refine OneEach.cons (fun p r s s' w hb => ?_) ?_)
  all_goals (one_body hb)
/-- rmf: whichever input arrays the outputs overwrite. -/
theorem rmf_stream_in_place (o : Nat → R) (put : R → R → R) (chunks : List (List R)) :
    (rmf (R := R)).sessionIP put o chunks = (rmf (R := R)).session o chunks := by
  refine sessionIP_eq _ put o (fun k => ?_) chunks
  show OneEach (rmfPhases (R := R) k)
  unfold rmfPhases rmfDrop
  repeat' (first | exact OneEach.nil | refine OneEach.cons (fun p r s s' w hb => ?_) ?_)
  all_goals (one_body hb)
/-- rvi: whichever input arrays the outputs overwrite. -/
theorem rvi_stream_in_place (o : Nat → R) (put : R → R → R) (chunks : List (List R)) :
    (rvi (R := R)).sessionIP put o chunks = (rvi (R := R)).session o chunks := by
  refine sessionIP_eq _ put o (fun k => ?_) chunks
  show OneEach (rviPhases (R := R) k)
  unfold rviPhases
  repeat' (first | exact OneEach.nil | refine OneEach.cons (fun p r s s' w hb => ?_) ?_)
  all_goals (one_body hb)
/-- pbands: whichever input arrays the outputs overwrite. -/
theorem pbands_stream_in_place (o : Nat → R) (put : (HLC R) → (Pband R) → (HLC R)) (chunks : List (List (HLC R))) :
    (pbands (R := R)).sessionIP put o chunks = (pbands (R := R)).session o chunks := by
  refine sessionIP_eq _ put o (fun k => ?_) chunks
  show OneEach (pbandsPhases (R := R) k)
  unfold pbandsPhases
  repeat' (first | exact OneEach.nil | refine OneEach.cons (fun p r s s' w hb => ?_) ?_)
  all_goals (one_body hb)
/-- posc: whichever input arrays the outputs overwrite. -/
theorem posc_stream_in_place (o : Nat → R) (put : (HLC R) → R → (HLC R)) (chunks : List (List (HLC R))) :
    (posc (R := R)).sessionIP put o chunks = (posc (R := R)).session o chunks := by
  refine sessionIP_eq _ put o (fun k => ?_) chunks
  show OneEach (poscPhases (R := R) k)
  unfold poscPhases
  repeat' (first | exact OneEach.nil | refine OneEach.cons (fun p r s s' w hb => ?_) ?_)
  all_goals (one_body hb)
/-- er: whichever input arrays the outputs overwrite. -/
theorem er_stream_in_place (o : Nat → R) (put : R → R → R) (chunks : List (List R)) :
    (er (R := R)).sessionIP put o chunks = (er (R := R)).session o chunks := by
  refine sessionIP_eq _ put o (fun k => ?_) chunks
  show OneEach (erPhases (R := R) k)
  unfold erPhases
  repeat' (first | exact OneEach.nil | refine OneEach.cons (fun p r s s' w hb => ?_) ?_)
  all_goals (one_body hb)
/-- dwma: whichever input arrays the outputs overwrite. -/
theorem dwma_stream_in_place (o : Nat → R) (put : R → R → R) (chunks : List (List R)) :
    (dwma (R := R)).sessionIP put o chunks = (dwma (R := R)).session o chunks := by
  refine sessionIP_eq _ put o (fun k => ?_) chunks
  show OneEach (dwmaPhases (R := R) k)
  unfold dwmaPhases
  repeat' (first | exact OneEach.nil | refine OneEach.cons (fun p r s s' w hb => ?_) ?_)
  all_goals (one_body hb)
/-- pwma: whichever input arrays the outputs overwrite. -/
theorem pwma_stream_in_place (o : Nat → R) (put : R → R → R) (chunks : List (List R)) :
    (pwma (R := R)).sessionIP put o chunks = (pwma (R := R)).session o chunks := by
  refine sessionIP_eq _ put o (fun k => ?_) chunks
  show OneEach (pwmaPhases (R := R) k)
  unfold pwmaPhases
  repeat' (first | exact OneEach.nil | refine OneEach.cons (fun p r s s' w hb => ?_) ?_)
  all_goals (one_body hb)
/-- swma: whichever input arrays the outputs overwrite. -/
theorem swma_stream_in_place (o : Nat → R) (put : R → R → R) (chunks : List (List R)) :
    (swma (R := R)).sessionIP put o chunks = (swma (R := R)).session o chunks := by
  refine sessionIP_eq _ put o (fun k => ?_) chunks
  show OneEach (swmaPhases (R := R) k)
  unfold swmaPhases
  repeat' (first | exact OneEach.nil | refine OneEach.cons (fun p r s s' w hb => ?_) ?_)
  all_goals (one_body hb)
/-- t3: whichever input arrays the outputs overwrite. -/
theorem t3_stream_in_place (o : Nat → R) (put : R → R → R) (chunks : List (List R)) :
    (t3 (R := R)).sessionIP put o chunks = (t3 (R := R)).session o chunks := by
  refine sessionIP_eq _ put o (fun k => ?_) chunks
  show OneEach (t3Phases (R := R) k)
  unfold t3Phases
  repeat' (first | exact OneEach.nil | refine OneEach.cons (fun p r s s' w hb => ?_) ?_)
  all_goals (one_body hb)
/-- copp: whichever input arrays the outputs overwrite. -/
theorem copp_stream_in_place (o : Nat → R) (put : R → R → R) (chunks : List (List R)) :
    (copp (R := R)).sessionIP put o chunks = (copp (R := R)).session o chunks := by
  refine sessionIP_eq _ put o (fun k => ?_) chunks
  show OneEach (coppPhases (R := R) k)
  unfold coppPhases
  repeat' (first | exact OneEach.nil | refine OneEach.cons (fun p r s s' w hb => ?_) ?_)
  all_goals (one_body hb)
/-- sma: whichever input arrays the outputs overwrite. -/
theorem sma_stream_in_place (o : Nat → R) (put : R → R → R) (chunks : List (List R)) :
    (sma (R := R)).sessionIP put o chunks = (sma (R := R)).session o chunks := by
  refine sessionIP_eq _ put o (fun k => ?_) chunks
  show OneEach (smaPhases (R := R) k)
  unfold smaPhases
  repeat' (first | exact OneEach.nil | refine OneEach.cons (fun p r s s' w hb => ?_) ?_)
  all_goals (one_body hb)
/-- pfe: whichever input arrays the outputs overwrite. -/
theorem pfe_stream_in_place (o : Nat → R) (put : R → R → R) (chunks : List (List R)) :
    (pfe (R := R)).sessionIP put o chunks = (pfe (R := R)).session o chunks := by
  refine sessionIP_eq _ put o (fun k => ?_) chunks
  show OneEach (pfePhases (R := R) k)
  unfold pfePhases
  repeat' (first | exact OneEach.nil | refine OneEach.cons (fun p r s s' w hb => ?_) ?_)
  all_goals (one_body hb)
/-- cmi: whichever input arrays the outputs overwrite. -/
theorem cmi_stream_in_place (o : Nat → R) (put : (HLC R) → R → (HLC R)) (chunks : List (List (HLC R))) :
    (cmi (R := R)).sessionIP put o chunks = (cmi (R := R)).session o chunks := by
  refine sessionIP_eq _ put o (fun k => ?_) chunks
  show OneEach (cmiPhases (R := R) k)
  unfold cmiPhases
  repeat' (first | exact OneEach.nil | refine OneEach.cons (fun p r s s' w hb => ?_) ?_)
  all_goals (one_body hb)
/-- mhlma: whichever input arrays the outputs overwrite. -/
theorem mhlma_stream_in_place (o : Nat → R) (put : R → (Mhl R) → R) (chunks : List (List R)) :
    (mhlma (R := R)).sessionIP put o chunks = (mhlma (R := R)).session o chunks := by
  refine sessionIP_eq _ put o (fun k => ?_) chunks
  show OneEach (mhlmaPhases (R := R) k)
  unfold mhlmaPhases
  repeat' (first | exact OneEach.nil | refine OneEach.cons (fun p r s s' w hb => ?_) ?_)
  all_goals (one_body hb)
  all_goals (have := mhlOut_len ‹_›; omega)

end

end Verif
