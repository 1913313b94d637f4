/- C38: what streams do when memory cannot be had, and what freeing them releases. -/
import Verif.Proof.Alloc

namespace Verif
open Spec Alloc

/-- C38 for `ahma`, provided `ti_ahma_stream_new` is not left by an exception. -/
theorem ahma_memory_partial : CleanReturns ahmaMem := cleanReturns_of (by decide) rfl

/-- When the memory of a buffer cannot be had, an exception leaves `ti_ahma_stream_new` and the stream is lost. -/
theorem ahma_memory_violates : ¬ Clean ahmaMem := not_clean (nth 1) (by decide)

/-- C38 for `arsi`, provided `ti_arsi_stream_new` is not left by an exception. -/
theorem arsi_memory_partial : CleanReturns arsiMem := cleanReturns_of (by decide) rfl

/-- When the memory of a buffer cannot be had, an exception leaves `ti_arsi_stream_new` and the stream is lost. -/
theorem arsi_memory_violates : ¬ Clean arsiMem := not_clean (nth 1) (by decide)

/-- C38 for `atr`: nothing is left behind, whichever allocations fail, and freeing the stream releases all of it. -/
theorem atr_memory : Clean atrMem := clean_of (by decide) rfl

/-- C38 for `bf2`: nothing is left behind, whichever allocations fail, and freeing the stream releases all of it. -/
theorem bf2_memory : Clean bf2Mem := clean_of (by decide) rfl

/-- C38 for `bf3`: nothing is left behind, whichever allocations fail, and freeing the stream releases all of it. -/
theorem bf3_memory : Clean bf3Mem := clean_of (by decide) rfl

/-- C38 for `ce`: nothing is left behind, whichever allocations fail, and freeing the stream releases all of it. -/
theorem ce_memory : Clean ceMem := clean_of (by decide) rfl

/-- `ti_cmi_stream_free` deletes the stream as an object of the base type, which has no virtual destructor: undefined for every stream. -/
theorem cmi_memory_violates : ¬ Clean cmiMem ∧ ∀ o h, cmiMem.free o h = .error .badPtr :=
  ⟨not_clean ⟨fun _ => false, false, 0⟩ (by decide), fun _ _ => rfl⟩

/-- C38 for `copp`: nothing is left behind, whichever allocations fail, and freeing the stream releases all of it. -/
theorem copp_memory : Clean coppMem := clean_of (by decide) rfl

/-- C38 for `dwma` as long as every allocation succeeds. -/
theorem dwma_memory_partial : CleanWhen (fun e => ∀ n, e.fails n = false) dwmaMem := cleanLucky_of (by decide) rfl

/-- When the memory of a buffer cannot be had, `ti_dwma_stream_new` answers `TI_OUT_OF_MEMORY` and keeps the stream it had allocated. -/
theorem dwma_memory_violates : ¬ Clean dwmaMem ∧ ∃ h, dwmaMem.open_ (nth 2) ⟨0, []⟩ = .ok (.oom, h) ∧ h.live ≠ [] :=
  ⟨not_clean (nth 2) (by decide), _, rfl, by decide⟩

/-- C38 for `edcf`, provided `ti_edcf_stream_new` is not left by an exception. -/
theorem edcf_memory_partial : CleanReturns edcfMem := cleanReturns_of (by decide) rfl

/-- When the memory of a buffer cannot be had, an exception leaves `ti_edcf_stream_new` and the stream is lost. -/
theorem edcf_memory_violates : ¬ Clean edcfMem := not_clean (nth 1) (by decide)

/-- C38 for `ehma`: nothing is left behind, whichever allocations fail, and freeing the stream releases all of it. -/
theorem ehma_memory : Clean ehmaMem := clean_of (by decide) rfl

/-- C38 for `emsd`, provided `ti_emsd_stream_new` is not left by an exception. -/
theorem emsd_memory_partial : CleanReturns emsdMem := cleanReturns_of (by decide) rfl

/-- When the memory of a buffer cannot be had, an exception leaves `ti_emsd_stream_new` and the stream is lost. -/
theorem emsd_memory_violates : ¬ Clean emsdMem := not_clean (nth 1) (by decide)

/-- C38 for `er`, provided `ti_er_stream_new` is not left by an exception. -/
theorem er_memory_partial : CleanReturns erMem := cleanReturns_of (by decide) rfl

/-- When the memory of a buffer cannot be had, an exception leaves `ti_er_stream_new` and the stream is lost. -/
theorem er_memory_violates : ¬ Clean erMem := not_clean (nth 1) (by decide)

/-- C38 for `evwma` as long as every allocation succeeds. -/
theorem evwma_memory_partial : CleanWhen (fun e => ∀ n, e.fails n = false) evwmaMem := cleanLucky_of (by decide) rfl

/-- When the memory of a buffer cannot be had, `ti_evwma_stream_new` answers `TI_OUT_OF_MEMORY` and keeps the stream it had allocated. -/
theorem evwma_memory_violates : ¬ Clean evwmaMem ∧ ∃ h, evwmaMem.open_ (nth 1) ⟨0, []⟩ = .ok (.oom, h) ∧ h.live ≠ [] :=
  ⟨not_clean (nth 1) (by decide), _, rfl, by decide⟩

/-- C38 for `fi`: nothing is left behind, whichever allocations fail, and freeing the stream releases all of it. -/
theorem fi_memory : Clean fiMem := clean_of (by decide) rfl

/-- C38 for `frama`: nothing is left behind, whichever allocations fail, and freeing the stream releases all of it. -/
theorem frama_memory : Clean framaMem := clean_of (by decide) rfl

/-- C38 for `gf1`: nothing is left behind, whichever allocations fail, and freeing the stream releases all of it. -/
theorem gf1_memory : Clean gf1Mem := clean_of (by decide) rfl

/-- C38 for `gf2`: nothing is left behind, whichever allocations fail, and freeing the stream releases all of it. -/
theorem gf2_memory : Clean gf2Mem := clean_of (by decide) rfl

/-- C38 for `gf3`: nothing is left behind, whichever allocations fail, and freeing the stream releases all of it. -/
theorem gf3_memory : Clean gf3Mem := clean_of (by decide) rfl

/-- C38 for `gf4`: nothing is left behind, whichever allocations fail, and freeing the stream releases all of it. -/
theorem gf4_memory : Clean gf4Mem := clean_of (by decide) rfl

/-- C38 for `hd`: nothing is left behind, whichever allocations fail, and freeing the stream releases all of it. -/
theorem hd_memory : Clean hdMem := clean_of (by decide) rfl

/-- C38 for `hf`, provided `ti_hf_stream_new` is not left by an exception. -/
theorem hf_memory_partial : CleanReturns hfMem := cleanReturns_of (by decide) rfl

/-- When the memory of a buffer cannot be had, an exception leaves `ti_hf_stream_new` and the stream is lost. -/
theorem hf_memory_violates : ¬ Clean hfMem := not_clean (nth 1) (by decide)

/-- C38 for `hfema` as long as every allocation succeeds. -/
theorem hfema_memory_partial : CleanWhen (fun e => ∀ n, e.fails n = false) hfemaMem := cleanLucky_of (by decide) rfl

/-- When the memory of a buffer cannot be had, `ti_hfema_stream_new` deletes the stream as an object of the base type, which has no virtual
destructor: undefined, and the members are not destroyed. -/
theorem hfema_memory_violates : ¬ Clean hfemaMem ∧ hfemaMem.open_ (nth 1) ⟨0, []⟩ = .error .badPtr :=
  ⟨not_clean (nth 1) (by decide), rfl⟩

/-- C38 for `hfsma` as long as every allocation succeeds. -/
theorem hfsma_memory_partial : CleanWhen (fun e => ∀ n, e.fails n = false) hfsmaMem := cleanLucky_of (by decide) rfl

/-- When the memory of a buffer cannot be had, `ti_hfsma_stream_new` deletes the stream as an object of the base type, which has no virtual
destructor: undefined, and the members are not destroyed. -/
theorem hfsma_memory_violates : ¬ Clean hfsmaMem ∧ hfsmaMem.open_ (nth 1) ⟨0, []⟩ = .error .badPtr :=
  ⟨not_clean (nth 1) (by decide), rfl⟩

/-- C38 for `hurst`: nothing is left behind, whichever allocations fail, and freeing the stream releases all of it. -/
theorem hurst_memory : Clean hurstMem := clean_of (by decide) rfl

/-- C38 for `hwma`: nothing is left behind, whichever allocations fail, and freeing the stream releases all of it. -/
theorem hwma_memory : Clean hwmaMem := clean_of (by decide) rfl

/-- C38 for `ichi` as long as every allocation succeeds. -/
theorem ichi_memory_partial : CleanWhen (fun e => ∀ n, e.fails n = false) ichiMem := cleanLucky_of (by decide) rfl

/-- When the memory of a buffer cannot be had, `ti_ichi_stream_new` deletes the stream as an object of the base type, which has no virtual
destructor: undefined, and the members are not destroyed. -/
theorem ichi_memory_violates : ¬ Clean ichiMem ∧ ichiMem.open_ (nth 1) ⟨0, []⟩ = .error .badPtr :=
  ⟨not_clean (nth 1) (by decide), rfl⟩

/-- C38 for `idwma`, provided `ti_idwma_stream_new` is not left by an exception. -/
theorem idwma_memory_partial : CleanReturns idwmaMem := cleanReturns_of (by decide) rfl

/-- When the memory of a buffer cannot be had, an exception leaves `ti_idwma_stream_new` and the stream is lost. -/
theorem idwma_memory_violates : ¬ Clean idwmaMem := not_clean (nth 1) (by decide)

/-- C38 for `kc`: nothing is left behind, whichever allocations fail, and freeing the stream releases all of it. -/
theorem kc_memory : Clean kcMem := clean_of (by decide) rfl

/-- C38 for `lf`: nothing is left behind, whichever allocations fail, and freeing the stream releases all of it. -/
theorem lf_memory : Clean lfMem := clean_of (by decide) rfl

/-- C38 for `lma`: nothing is left behind, whichever allocations fail, and freeing the stream releases all of it. -/
theorem lma_memory : Clean lmaMem := clean_of (by decide) rfl

/-- C38 for `mama`: nothing is left behind, whichever allocations fail, and freeing the stream releases all of it. -/
theorem mama_memory : Clean mamaMem := clean_of (by decide) rfl

/-- C38 for `mesastoch`: nothing is left behind, whichever allocations fail, and freeing the stream releases all of it. -/
theorem mesastoch_memory : Clean mesastochMem := clean_of (by decide) rfl

/-- C38 for `mgdyn`: nothing is left behind, whichever allocations fail, and freeing the stream releases all of it. -/
theorem mgdyn_memory : Clean mgdynMem := clean_of (by decide) rfl

/-- C38 for `mhlma`, provided `ti_mhlma_stream_new` is not left by an exception. -/
theorem mhlma_memory_partial : CleanReturns mhlmaMem := cleanReturns_of (by decide) rfl

/-- When the memory of a buffer cannot be had, an exception leaves `ti_mhlma_stream_new` and the stream is lost. -/
theorem mhlma_memory_violates : ¬ Clean mhlmaMem := not_clean (nth 1) (by decide)

/-- C38 for `pbands`: nothing is left behind, whichever allocations fail, and freeing the stream releases all of it. -/
theorem pbands_memory : Clean pbandsMem := clean_of (by decide) rfl

/-- C38 for `pc`: nothing is left behind, whichever allocations fail, and freeing the stream releases all of it. -/
theorem pc_memory : Clean pcMem := clean_of (by decide) rfl

/-- C38 for `pfe`: nothing is left behind, whichever allocations fail, and freeing the stream releases all of it. -/
theorem pfe_memory : Clean pfeMem := clean_of (by decide) rfl

/-- C38 for `posc`: nothing is left behind, whichever allocations fail, and freeing the stream releases all of it. -/
theorem posc_memory : Clean poscMem := clean_of (by decide) rfl

/-- C38 for `pvt`: nothing is left behind, whichever allocations fail, and freeing the stream releases all of it. -/
theorem pvt_memory : Clean pvtMem := clean_of (by decide) rfl

/-- C38 for `pwma` as long as every allocation succeeds. -/
theorem pwma_memory_partial : CleanWhen (fun e => ∀ n, e.fails n = false) pwmaMem := cleanLucky_of (by decide) rfl

/-- When the memory of a buffer cannot be had, `ti_pwma_stream_new` answers `TI_OUT_OF_MEMORY` and keeps the stream it had allocated. -/
theorem pwma_memory_violates : ¬ Clean pwmaMem ∧ ∃ h, pwmaMem.open_ (nth 1) ⟨0, []⟩ = .ok (.oom, h) ∧ h.live ≠ [] :=
  ⟨not_clean (nth 1) (by decide), _, rfl, by decide⟩

/-- C38 for `rema`: nothing is left behind, whichever allocations fail, and freeing the stream releases all of it. -/
theorem rema_memory : Clean remaMem := clean_of (by decide) rfl

/-- C38 for `rmf`: nothing is left behind, whichever allocations fail, and freeing the stream releases all of it. -/
theorem rmf_memory : Clean rmfMem := clean_of (by decide) rfl

/-- C38 for `rmi` as long as every allocation succeeds. -/
theorem rmi_memory_partial : CleanWhen (fun e => ∀ n, e.fails n = false) rmiMem := cleanLucky_of (by decide) rfl

/-- When the memory of a buffer cannot be had, `ti_rmi_stream_new` answers `TI_OUT_OF_MEMORY` and keeps the stream it had allocated. -/
theorem rmi_memory_violates : ¬ Clean rmiMem ∧ ∃ h, rmiMem.open_ (nth 1) ⟨0, []⟩ = .ok (.oom, h) ∧ h.live ≠ [] :=
  ⟨not_clean (nth 1) (by decide), _, rfl, by decide⟩

/-- C38 for `roof`: nothing is left behind, whichever allocations fail, and freeing the stream releases all of it. -/
theorem roof_memory : Clean roofMem := clean_of (by decide) rfl

/-- C38 for `rvi`: nothing is left behind, whichever allocations fail, and freeing the stream releases all of it. -/
theorem rvi_memory : Clean rviMem := clean_of (by decide) rfl

/-- C38 for `shmma`, provided `ti_shmma_stream_new` is not left by an exception. -/
theorem shmma_memory_partial : CleanReturns shmmaMem := cleanReturns_of (by decide) rfl

/-- When the memory of a buffer cannot be had, an exception leaves `ti_shmma_stream_new` and the stream is lost. -/
theorem shmma_memory_violates : ¬ Clean shmmaMem := not_clean (nth 1) (by decide)

/-- C38 for `sma`: nothing is left behind, whichever allocations fail, and freeing the stream releases all of it. -/
theorem sma_memory : Clean smaMem := clean_of (by decide) rfl

/-- C38 for `smi`: nothing is left behind, whichever allocations fail, and freeing the stream releases all of it. -/
theorem smi_memory : Clean smiMem := clean_of (by decide) rfl

/-- C38 for `ssmooth`: nothing is left behind, whichever allocations fail, and freeing the stream releases all of it. -/
theorem ssmooth_memory : Clean ssmoothMem := clean_of (by decide) rfl

/-- C38 for `swma` as long as every allocation succeeds. -/
theorem swma_memory_partial : CleanWhen (fun e => ∀ n, e.fails n = false) swmaMem := cleanLucky_of (by decide) rfl

/-- When the memory of a buffer cannot be had, `ti_swma_stream_new` answers `TI_OUT_OF_MEMORY` and keeps the stream it had allocated. -/
theorem swma_memory_violates : ¬ Clean swmaMem ∧ ∃ h, swmaMem.open_ (nth 1) ⟨0, []⟩ = .ok (.oom, h) ∧ h.live ≠ [] :=
  ⟨not_clean (nth 1) (by decide), _, rfl, by decide⟩

/-- C38 for `t3`: nothing is left behind, whichever allocations fail, and freeing the stream releases all of it. -/
theorem t3_memory : Clean t3Mem := clean_of (by decide) rfl

/-- C38 for `tsi`: nothing is left behind, whichever allocations fail, and freeing the stream releases all of it. -/
theorem tsi_memory : Clean tsiMem := clean_of (by decide) rfl

/-- C38 for `vi`: nothing is left behind, whichever allocations fail, and freeing the stream releases all of it. -/
theorem vi_memory : Clean viMem := clean_of (by decide) rfl

/-- C38 for `vwap`: nothing is left behind, whichever allocations fail, and freeing the stream releases all of it. -/
theorem vwap_memory : Clean vwapMem := clean_of (by decide) rfl

/-- A stream whose members own any blocks by now (runs allocate and release some) is released completely, once. -/
theorem free_releases (m : StreamMem) (hm : m.freesBase = false) (o : Obj) (h : Heap) (rest : List Nat) (ho : h.live = o.owned ++ o.self :: rest) :
    m.free o h = .ok ⟨h.asked, rest⟩ := by
  unfold StreamMem.free
  rw [hm]
  exact delete_ok ho

/-- Freeing it again is undefined. -/
theorem free_twice (m : StreamMem) (o : Obj) (h : Heap) (ho : o.self ∉ h.live) (hn : o.owned = []) : m.free o h = .error .badPtr := by
  unfold StreamMem.free
  split
  · rfl
  · unfold delete
    rw [hn]
    simp [releaseAll, release, ho]

/-- An opening in which the third of four buffers cannot be had: the two others and the structure are given back. -/
example : vwapMem.open_ (nth 3) ⟨0, []⟩ = .ok (.oom, ⟨4, []⟩) := rfl

/-- A heap that meets the hypothesis, and an opening that makes a stream of five blocks. -/
example : WellFormed ⟨7, [3, 5]⟩ ∧ vwapMem.open_ (nth 3) ⟨7, [3, 5]⟩ = .ok (.made ⟨7, [11, 10, 9, 8]⟩, ⟨12, [11, 10, 9, 8, 7, 3, 5]⟩) :=
  ⟨⟨by decide, by decide⟩, rfl⟩

end Verif
