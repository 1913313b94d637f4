/- C88: a stream constructor answers `TI_OUT_OF_MEMORY` exactly when memory it asked for could not be had. -/
import Verif.Proof.Report

namespace Verif
open Alloc Spec

/-- When the stream itself cannot be allocated, `ti_ahma_stream_new` answers `TI_OUT_OF_MEMORY`, and not when all requests are met.
Missing: the failure of a later request, see `ahma_reports_violates`. -/
theorem ahma_reports_partial : ReportsWhen OthersMet ahmaMem := reportsOthers_of (by decide)

/-- When the memory of a buffer cannot be had, an exception leaves `ti_ahma_stream_new`. -/
theorem ahma_reports_violates : Throws ahmaMem ∧ ¬ Reports ahmaMem :=
  ⟨⟨nth 1, ⟨0, []⟩, _, rfl⟩, fun h => h (nth 1) ⟨0, []⟩ trivial⟩

/-- When the stream itself cannot be allocated, `ti_arsi_stream_new` answers `TI_OUT_OF_MEMORY`, and not when all requests are met.
Missing: the failure of a later request, see `arsi_reports_violates`. -/
theorem arsi_reports_partial : ReportsWhen OthersMet arsiMem := reportsOthers_of (by decide)

/-- When the memory of a buffer cannot be had, an exception leaves `ti_arsi_stream_new`. -/
theorem arsi_reports_violates : Throws arsiMem ∧ ¬ Reports arsiMem :=
  ⟨⟨nth 1, ⟨0, []⟩, _, rfl⟩, fun h => h (nth 1) ⟨0, []⟩ trivial⟩

/-- `ti_atr_stream_new` answers `TI_OUT_OF_MEMORY` exactly when something it asked for was not given, and never throws. -/
theorem atr_reports : Reports atrMem := reports_of (by decide)

/-- `ti_bf2_stream_new` answers `TI_OUT_OF_MEMORY` exactly when something it asked for was not given, and never throws. -/
theorem bf2_reports : Reports bf2Mem := reports_of (by decide)

/-- `ti_bf3_stream_new` answers `TI_OUT_OF_MEMORY` exactly when something it asked for was not given, and never throws. -/
theorem bf3_reports : Reports bf3Mem := reports_of (by decide)

/-- Once the stream itself is allocated, `ti_ce_stream_new` answers `TI_OUT_OF_MEMORY` exactly when something was not given.
Missing: the failure of the request for the stream itself, see `ce_reports_violates`. -/
theorem ce_reports_partial : ReportsWhen FirstMet ceMem := reportsFirst_of (by decide)

/-- When the stream itself cannot be allocated, an exception leaves `ti_ce_stream_new`. -/
theorem ce_reports_violates : Throws ceMem ∧ ¬ Reports ceMem :=
  ⟨⟨nth 0, ⟨0, []⟩, ⟨1, []⟩, rfl⟩, fun h => h (nth 0) ⟨0, []⟩ trivial⟩

/-- When the stream itself cannot be allocated, `ti_cmi_stream_new` answers `TI_OUT_OF_MEMORY`, and not when all requests are met.
Missing: the failure of a later request, see `cmi_reports_violates`. -/
theorem cmi_reports_partial : ReportsWhen OthersMet cmiMem := reportsOthers_of (by decide)

/-- When the memory of a buffer cannot be had, an exception leaves `ti_cmi_stream_new`. -/
theorem cmi_reports_violates : Throws cmiMem ∧ ¬ Reports cmiMem :=
  ⟨⟨nth 1, ⟨0, []⟩, _, rfl⟩, fun h => h (nth 1) ⟨0, []⟩ trivial⟩

/-- Once the stream itself is allocated, `ti_copp_stream_new` answers `TI_OUT_OF_MEMORY` exactly when something was not given.
Missing: the failure of the request for the stream itself, see `copp_reports_violates`. -/
theorem copp_reports_partial : ReportsWhen FirstMet coppMem := reportsFirst_of (by decide)

/-- When the stream itself cannot be allocated, an exception leaves `ti_copp_stream_new`. -/
theorem copp_reports_violates : Throws coppMem ∧ ¬ Reports coppMem :=
  ⟨⟨nth 0, ⟨0, []⟩, ⟨1, []⟩, rfl⟩, fun h => h (nth 0) ⟨0, []⟩ trivial⟩

/-- When the stream itself cannot be allocated, `ti_dwma_stream_new` answers `TI_OUT_OF_MEMORY`, and not when all requests are met.
Missing: the failure of a later request, see `dwma_reports_violates`. -/
theorem dwma_reports_partial : ReportsWhen OthersMet dwmaMem := reportsOthers_of (by decide)

/-- When the memory of a buffer cannot be had, an exception leaves `ti_dwma_stream_new`. -/
theorem dwma_reports_violates : Throws dwmaMem ∧ ¬ Reports dwmaMem :=
  ⟨⟨nth 1, ⟨0, []⟩, _, rfl⟩, fun h => h (nth 1) ⟨0, []⟩ trivial⟩

/-- When the stream itself cannot be allocated, `ti_edcf_stream_new` answers `TI_OUT_OF_MEMORY`, and not when all requests are met.
Missing: the failure of a later request, see `edcf_reports_violates`. -/
theorem edcf_reports_partial : ReportsWhen OthersMet edcfMem := reportsOthers_of (by decide)

/-- When the memory a standard container asks for cannot be had, an exception leaves `ti_edcf_stream_new`. -/
theorem edcf_reports_violates : Throws edcfMem ∧ ¬ Reports edcfMem :=
  ⟨⟨⟨fun k => k == 1, false, 1⟩, ⟨0, []⟩, _, rfl⟩, fun h => h ⟨fun k => k == 1, false, 1⟩ ⟨0, []⟩ trivial⟩

/-- `ti_ehma_stream_new` answers `TI_OUT_OF_MEMORY` exactly when something it asked for was not given, and never throws. -/
theorem ehma_reports : Reports ehmaMem := reports_of (by decide)

/-- When the stream itself cannot be allocated, `ti_emsd_stream_new` answers `TI_OUT_OF_MEMORY`, and not when all requests are met.
Missing: the failure of a later request, see `emsd_reports_violates`. -/
theorem emsd_reports_partial : ReportsWhen OthersMet emsdMem := reportsOthers_of (by decide)

/-- When the memory of a buffer cannot be had, an exception leaves `ti_emsd_stream_new`. -/
theorem emsd_reports_violates : Throws emsdMem ∧ ¬ Reports emsdMem :=
  ⟨⟨nth 1, ⟨0, []⟩, _, rfl⟩, fun h => h (nth 1) ⟨0, []⟩ trivial⟩

/-- When the stream itself cannot be allocated, `ti_er_stream_new` answers `TI_OUT_OF_MEMORY`, and not when all requests are met.
Missing: the failure of a later request, see `er_reports_violates`. -/
theorem er_reports_partial : ReportsWhen OthersMet erMem := reportsOthers_of (by decide)

/-- When the memory of a buffer cannot be had, an exception leaves `ti_er_stream_new`. -/
theorem er_reports_violates : Throws erMem ∧ ¬ Reports erMem :=
  ⟨⟨nth 1, ⟨0, []⟩, _, rfl⟩, fun h => h (nth 1) ⟨0, []⟩ trivial⟩

/-- `ti_evwma_stream_new` answers `TI_OUT_OF_MEMORY` exactly when something it asked for was not given, and never throws. -/
theorem evwma_reports : Reports evwmaMem := reports_of (by decide)

/-- `ti_fi_stream_new` answers `TI_OUT_OF_MEMORY` exactly when something it asked for was not given, and never throws. -/
theorem fi_reports : Reports fiMem := reports_of (by decide)

/-- When the stream itself cannot be allocated, `ti_frama_stream_new` answers `TI_OUT_OF_MEMORY`, and not when all requests are met.
Missing: the failure of a later request, see `frama_reports_violates`. -/
theorem frama_reports_partial : ReportsWhen OthersMet framaMem := reportsOthers_of (by decide)

/-- When the memory a standard container asks for cannot be had, an exception leaves `ti_frama_stream_new`. -/
theorem frama_reports_violates : Throws framaMem ∧ ¬ Reports framaMem :=
  ⟨⟨⟨fun k => k == 1, false, 1⟩, ⟨0, []⟩, _, rfl⟩, fun h => h ⟨fun k => k == 1, false, 1⟩ ⟨0, []⟩ trivial⟩

/-- `ti_gf1_stream_new` answers `TI_OUT_OF_MEMORY` exactly when something it asked for was not given, and never throws. -/
theorem gf1_reports : Reports gf1Mem := reports_of (by decide)

/-- `ti_gf2_stream_new` answers `TI_OUT_OF_MEMORY` exactly when something it asked for was not given, and never throws. -/
theorem gf2_reports : Reports gf2Mem := reports_of (by decide)

/-- `ti_gf3_stream_new` answers `TI_OUT_OF_MEMORY` exactly when something it asked for was not given, and never throws. -/
theorem gf3_reports : Reports gf3Mem := reports_of (by decide)

/-- `ti_gf4_stream_new` answers `TI_OUT_OF_MEMORY` exactly when something it asked for was not given, and never throws. -/
theorem gf4_reports : Reports gf4Mem := reports_of (by decide)

/-- `ti_hd_stream_new` answers `TI_OUT_OF_MEMORY` exactly when something it asked for was not given, and never throws. -/
theorem hd_reports : Reports hdMem := reports_of (by decide)

/-- When the stream itself cannot be allocated, `ti_hf_stream_new` answers `TI_OUT_OF_MEMORY`, and not when all requests are met.
Missing: the failure of a later request, see `hf_reports_violates`. -/
theorem hf_reports_partial : ReportsWhen OthersMet hfMem := reportsOthers_of (by decide)

/-- When the memory of a buffer cannot be had, an exception leaves `ti_hf_stream_new`. -/
theorem hf_reports_violates : Throws hfMem ∧ ¬ Reports hfMem :=
  ⟨⟨nth 1, ⟨0, []⟩, _, rfl⟩, fun h => h (nth 1) ⟨0, []⟩ trivial⟩

/-- When the stream itself cannot be allocated, `ti_hfema_stream_new` answers `TI_OUT_OF_MEMORY`, and not when all requests are met.
Missing: the failure of a later request, see `hfema_reports_violates`. -/
theorem hfema_reports_partial : ReportsWhen OthersMet hfemaMem := reportsOthers_of (by decide)

/-- When the memory of a buffer cannot be had, what `ti_hfema_stream_new` does is undefined. -/
theorem hfema_reports_violates : ¬ Reports hfemaMem := fun h => h (nth 1) ⟨0, []⟩ trivial

/-- When the stream itself cannot be allocated, `ti_hfsma_stream_new` answers `TI_OUT_OF_MEMORY`, and not when all requests are met.
Missing: the failure of a later request, see `hfsma_reports_violates`. -/
theorem hfsma_reports_partial : ReportsWhen OthersMet hfsmaMem := reportsOthers_of (by decide)

/-- When the memory of a buffer cannot be had, what `ti_hfsma_stream_new` does is undefined. -/
theorem hfsma_reports_violates : ¬ Reports hfsmaMem := fun h => h (nth 1) ⟨0, []⟩ trivial

/-- `ti_hurst_stream_new` answers `TI_OUT_OF_MEMORY` exactly when something it asked for was not given, and never throws. -/
theorem hurst_reports : Reports hurstMem := reports_of (by decide)

/-- `ti_hwma_stream_new` answers `TI_OUT_OF_MEMORY` exactly when something it asked for was not given, and never throws. -/
theorem hwma_reports : Reports hwmaMem := reports_of (by decide)

/-- When the stream itself cannot be allocated, `ti_ichi_stream_new` answers `TI_OUT_OF_MEMORY`, and not when all requests are met.
Missing: the failure of a later request, see `ichi_reports_violates`. -/
theorem ichi_reports_partial : ReportsWhen OthersMet ichiMem := reportsOthers_of (by decide)

/-- When the memory of a buffer cannot be had, what `ti_ichi_stream_new` does is undefined. -/
theorem ichi_reports_violates : ¬ Reports ichiMem := fun h => h (nth 1) ⟨0, []⟩ trivial

/-- When the stream itself cannot be allocated, `ti_idwma_stream_new` answers `TI_OUT_OF_MEMORY`, and not when all requests are met.
Missing: the failure of a later request, see `idwma_reports_violates`. -/
theorem idwma_reports_partial : ReportsWhen OthersMet idwmaMem := reportsOthers_of (by decide)

/-- When the memory of a buffer cannot be had, an exception leaves `ti_idwma_stream_new`. -/
theorem idwma_reports_violates : Throws idwmaMem ∧ ¬ Reports idwmaMem :=
  ⟨⟨nth 1, ⟨0, []⟩, _, rfl⟩, fun h => h (nth 1) ⟨0, []⟩ trivial⟩

/-- Once the stream itself is allocated, `ti_kc_stream_new` answers `TI_OUT_OF_MEMORY` exactly when something was not given.
Missing: the failure of the request for the stream itself, see `kc_reports_violates`. -/
theorem kc_reports_partial : ReportsWhen FirstMet kcMem := reportsFirst_of (by decide)

/-- When the stream itself cannot be allocated, an exception leaves `ti_kc_stream_new`. -/
theorem kc_reports_violates : Throws kcMem ∧ ¬ Reports kcMem :=
  ⟨⟨nth 0, ⟨0, []⟩, ⟨1, []⟩, rfl⟩, fun h => h (nth 0) ⟨0, []⟩ trivial⟩

/-- `ti_lf_stream_new` answers `TI_OUT_OF_MEMORY` exactly when something it asked for was not given, and never throws. -/
theorem lf_reports : Reports lfMem := reports_of (by decide)

/-- `ti_lma_stream_new` answers `TI_OUT_OF_MEMORY` exactly when something it asked for was not given, and never throws. -/
theorem lma_reports : Reports lmaMem := reports_of (by decide)

/-- `ti_mama_stream_new` answers `TI_OUT_OF_MEMORY` exactly when something it asked for was not given, and never throws. -/
theorem mama_reports : Reports mamaMem := reports_of (by decide)

/-- `ti_mesastoch_stream_new` answers `TI_OUT_OF_MEMORY` exactly when something it asked for was not given, and never throws. -/
theorem mesastoch_reports : Reports mesastochMem := reports_of (by decide)

/-- `ti_mgdyn_stream_new` answers `TI_OUT_OF_MEMORY` exactly when something it asked for was not given, and never throws. -/
theorem mgdyn_reports : Reports mgdynMem := reports_of (by decide)

/-- When the stream itself cannot be allocated, `ti_mhlma_stream_new` answers `TI_OUT_OF_MEMORY`, and not when all requests are met.
Missing: the failure of a later request, see `mhlma_reports_violates`. -/
theorem mhlma_reports_partial : ReportsWhen OthersMet mhlmaMem := reportsOthers_of (by decide)

/-- When the memory of a buffer cannot be had, an exception leaves `ti_mhlma_stream_new`. -/
theorem mhlma_reports_violates : Throws mhlmaMem ∧ ¬ Reports mhlmaMem :=
  ⟨⟨nth 1, ⟨0, []⟩, _, rfl⟩, fun h => h (nth 1) ⟨0, []⟩ trivial⟩

/-- Once the stream itself is allocated, `ti_pbands_stream_new` answers `TI_OUT_OF_MEMORY` exactly when something was not given.
Missing: the failure of the request for the stream itself, see `pbands_reports_violates`. -/
theorem pbands_reports_partial : ReportsWhen FirstMet pbandsMem := reportsFirst_of (by decide)

/-- When the stream itself cannot be allocated, an exception leaves `ti_pbands_stream_new`. -/
theorem pbands_reports_violates : Throws pbandsMem ∧ ¬ Reports pbandsMem :=
  ⟨⟨nth 0, ⟨0, []⟩, ⟨1, []⟩, rfl⟩, fun h => h (nth 0) ⟨0, []⟩ trivial⟩

/-- `ti_pc_stream_new` answers `TI_OUT_OF_MEMORY` exactly when something it asked for was not given, and never throws. -/
theorem pc_reports : Reports pcMem := reports_of (by decide)

/-- `ti_pfe_stream_new` answers `TI_OUT_OF_MEMORY` exactly when something it asked for was not given, and never throws. -/
theorem pfe_reports : Reports pfeMem := reports_of (by decide)

/-- Once the stream itself is allocated, `ti_posc_stream_new` answers `TI_OUT_OF_MEMORY` exactly when something was not given.
Missing: the failure of the request for the stream itself, see `posc_reports_violates`. -/
theorem posc_reports_partial : ReportsWhen FirstMet poscMem := reportsFirst_of (by decide)

/-- When the stream itself cannot be allocated, an exception leaves `ti_posc_stream_new`. -/
theorem posc_reports_violates : Throws poscMem ∧ ¬ Reports poscMem :=
  ⟨⟨nth 0, ⟨0, []⟩, ⟨1, []⟩, rfl⟩, fun h => h (nth 0) ⟨0, []⟩ trivial⟩

/-- `ti_pvt_stream_new` answers `TI_OUT_OF_MEMORY` exactly when something it asked for was not given, and never throws. -/
theorem pvt_reports : Reports pvtMem := reports_of (by decide)

/-- `ti_pwma_stream_new` answers `TI_OUT_OF_MEMORY` exactly when something it asked for was not given, and never throws. -/
theorem pwma_reports : Reports pwmaMem := reports_of (by decide)

/-- `ti_rema_stream_new` answers `TI_OUT_OF_MEMORY` exactly when something it asked for was not given, and never throws. -/
theorem rema_reports : Reports remaMem := reports_of (by decide)

/-- When the stream itself cannot be allocated, `ti_rmf_stream_new` answers `TI_OUT_OF_MEMORY`, and not when all requests are met.
Missing: the failure of a later request, see `rmf_reports_violates`. -/
theorem rmf_reports_partial : ReportsWhen OthersMet rmfMem := reportsOthers_of (by decide)

/-- When the memory a standard container asks for cannot be had, an exception leaves `ti_rmf_stream_new`. -/
theorem rmf_reports_violates : Throws rmfMem ∧ ¬ Reports rmfMem :=
  ⟨⟨⟨fun k => k == 1, false, 1⟩, ⟨0, []⟩, _, rfl⟩, fun h => h ⟨fun k => k == 1, false, 1⟩ ⟨0, []⟩ trivial⟩

/-- `ti_rmi_stream_new` answers `TI_OUT_OF_MEMORY` exactly when something it asked for was not given, and never throws. -/
theorem rmi_reports : Reports rmiMem := reports_of (by decide)

/-- `ti_roof_stream_new` answers `TI_OUT_OF_MEMORY` exactly when something it asked for was not given, and never throws. -/
theorem roof_reports : Reports roofMem := reports_of (by decide)

/-- Once the stream itself is allocated, `ti_rvi_stream_new` answers `TI_OUT_OF_MEMORY` exactly when something was not given.
Missing: the failure of the request for the stream itself, see `rvi_reports_violates`. -/
theorem rvi_reports_partial : ReportsWhen FirstMet rviMem := reportsFirst_of (by decide)

/-- When the stream itself cannot be allocated, an exception leaves `ti_rvi_stream_new`. -/
theorem rvi_reports_violates : Throws rviMem ∧ ¬ Reports rviMem :=
  ⟨⟨nth 0, ⟨0, []⟩, ⟨1, []⟩, rfl⟩, fun h => h (nth 0) ⟨0, []⟩ trivial⟩

/-- When the stream itself cannot be allocated, `ti_shmma_stream_new` answers `TI_OUT_OF_MEMORY`, and not when all requests are met.
Missing: the failure of a later request, see `shmma_reports_violates`. -/
theorem shmma_reports_partial : ReportsWhen OthersMet shmmaMem := reportsOthers_of (by decide)

/-- When the memory of a buffer cannot be had, an exception leaves `ti_shmma_stream_new`. -/
theorem shmma_reports_violates : Throws shmmaMem ∧ ¬ Reports shmmaMem :=
  ⟨⟨nth 1, ⟨0, []⟩, _, rfl⟩, fun h => h (nth 1) ⟨0, []⟩ trivial⟩

/-- `ti_sma_stream_new` answers `TI_OUT_OF_MEMORY` exactly when something it asked for was not given, and never throws. -/
theorem sma_reports : Reports smaMem := reports_of (by decide)

/-- Once the stream itself is allocated, `ti_smi_stream_new` answers `TI_OUT_OF_MEMORY` exactly when something was not given.
Missing: the failure of the request for the stream itself, see `smi_reports_violates`. -/
theorem smi_reports_partial : ReportsWhen FirstMet smiMem := reportsFirst_of (by decide)

/-- When the stream itself cannot be allocated, an exception leaves `ti_smi_stream_new`. -/
theorem smi_reports_violates : Throws smiMem ∧ ¬ Reports smiMem :=
  ⟨⟨nth 0, ⟨0, []⟩, ⟨1, []⟩, rfl⟩, fun h => h (nth 0) ⟨0, []⟩ trivial⟩

/-- `ti_ssmooth_stream_new` answers `TI_OUT_OF_MEMORY` exactly when something it asked for was not given, and never throws. -/
theorem ssmooth_reports : Reports ssmoothMem := reports_of (by decide)

/-- `ti_swma_stream_new` answers `TI_OUT_OF_MEMORY` exactly when something it asked for was not given, and never throws. -/
theorem swma_reports : Reports swmaMem := reports_of (by decide)

/-- `ti_t3_stream_new` answers `TI_OUT_OF_MEMORY` exactly when something it asked for was not given, and never throws. -/
theorem t3_reports : Reports t3Mem := reports_of (by decide)

/-- `ti_tsi_stream_new` answers `TI_OUT_OF_MEMORY` exactly when something it asked for was not given, and never throws. -/
theorem tsi_reports : Reports tsiMem := reports_of (by decide)

/-- When the stream itself cannot be allocated, `ti_vi_stream_new` answers `TI_OUT_OF_MEMORY`, and not when all requests are met.
Missing: the failure of a later request, see `vi_reports_violates`. -/
theorem vi_reports_partial : ReportsWhen OthersMet viMem := reportsOthers_of (by decide)

/-- When the memory a standard container asks for cannot be had, an exception leaves `ti_vi_stream_new`. -/
theorem vi_reports_violates : Throws viMem ∧ ¬ Reports viMem :=
  ⟨⟨⟨fun k => k == 1, false, 1⟩, ⟨0, []⟩, _, rfl⟩, fun h => h ⟨fun k => k == 1, false, 1⟩ ⟨0, []⟩ trivial⟩

/-- `ti_vwap_stream_new` answers `TI_OUT_OF_MEMORY` exactly when something it asked for was not given, and never throws. -/
theorem vwap_reports : Reports vwapMem := reports_of (by decide)

/-- A failing and a successful call of `ti_sma_stream_new`: the buffer is not given; everything is given. -/
example : (smaMem.open_ (nth 1) ⟨0, []⟩).toOption.map (fun r => r.2.live) = some [] ∧
    (smaMem.open_ (nth 7) ⟨0, []⟩).toOption.map (fun r => r.2.live) = some [1, 0] := by decide

/-- Environments that meet the hypotheses of the partial theorems: a later request fails; the first fails. -/
example : FirstMet (nth 1) ⟨0, []⟩ ∧ OthersMet (nth 0) ⟨0, []⟩ := by
  refine ⟨rfl, ?_⟩
  intro k hk
  show (k == 0) = false
  exact beq_false_of_ne (Nat.ne_of_gt hk)

end Verif
