/- C62: scratch memory of batch functions. -/
import Verif.Spec.Scratch
import Verif.Core.Loops

namespace Verif
set_option linter.unusedVariables false
set_option linter.unusedSimpArgs false
open Spec Alloc

/-- C62 for `ti_abands` as long as every allocation succeeds. -/
theorem abands_scratch_partial : GivesBackWhen (fun e => ∀ n, e.fails n = false) abandsScratch := by
  rintro ⟨fl, r, t⟩ h he hw
  unfold abandsScratch
  simp only at he
  cases r <;> simp [perform, alloc, he, release, rd, bind_ok, List.erase_cons, Nat.add_assoc]

/-- When its scratch memory cannot be had, `ti_abands` writes through a null pointer. -/
theorem abands_scratch_violates : perform ⟨fun n => n == 1, false, false⟩ abandsScratch [] ⟨0, []⟩ = .error .badPtr := rfl

/-- C62 for `ti_adxr` as long as every allocation succeeds. -/
theorem adxr_scratch_partial : GivesBackWhen (fun e => ∀ n, e.fails n = false) adxrScratch := by
  rintro ⟨fl, r, t⟩ h he hw
  unfold adxrScratch
  simp only at he
  cases r <;> simp [perform, alloc, he, release, rd, bind_ok, List.erase_cons, Nat.add_assoc]

/-- When its scratch memory cannot be had, `ti_adxr` writes through a null pointer. -/
theorem adxr_scratch_violates : perform ⟨fun n => n == 0, false, false⟩ adxrScratch [] ⟨0, []⟩ = .error .badPtr := rfl

/-- C62 for `ti_cci` as long as every allocation succeeds. -/
theorem cci_scratch_partial : GivesBackWhen (fun e => ∀ n, e.fails n = false) cciScratch := by
  rintro ⟨fl, r, t⟩ h he hw
  unfold cciScratch
  simp only at he
  cases r <;> simp [perform, alloc, he, release, rd, bind_ok, List.erase_cons, Nat.add_assoc]

/-- When its scratch memory cannot be had, `ti_cci` writes through a null pointer. -/
theorem cci_scratch_violates : perform ⟨fun n => n == 0, false, false⟩ cciScratch [] ⟨0, []⟩ = .error .badPtr := rfl

/-- C62 for `ti_cvi` as long as every allocation succeeds. -/
theorem cvi_scratch_partial : GivesBackWhen (fun e => ∀ n, e.fails n = false) cviScratch := by
  rintro ⟨fl, r, t⟩ h he hw
  unfold cviScratch
  simp only at he
  cases r <;> simp [perform, alloc, he, release, rd, bind_ok, List.erase_cons, Nat.add_assoc]

/-- When its scratch memory cannot be had, `ti_cvi` writes through a null pointer. -/
theorem cvi_scratch_violates : perform ⟨fun n => n == 0, false, false⟩ cviScratch [] ⟨0, []⟩ = .error .badPtr := rfl

/-- C62 for `ti_hma` as long as every allocation succeeds. -/
theorem hma_scratch_partial : GivesBackWhen (fun e => ∀ n, e.fails n = false) hmaScratch := by
  rintro ⟨fl, r, t⟩ h he hw
  unfold hmaScratch
  simp only at he
  cases r <;> simp [perform, alloc, he, release, rd, bind_ok, List.erase_cons, Nat.add_assoc]

/-- When its scratch memory cannot be had, `ti_hma` writes through a null pointer. -/
theorem hma_scratch_violates : perform ⟨fun n => n == 0, false, false⟩ hmaScratch [] ⟨0, []⟩ = .error .badPtr := rfl

/-- C62 for `ti_mass` as long as every allocation succeeds. -/
theorem mass_scratch_partial : GivesBackWhen (fun e => ∀ n, e.fails n = false) massScratch := by
  rintro ⟨fl, r, t⟩ h he hw
  unfold massScratch
  simp only at he
  cases r <;> simp [perform, alloc, he, release, rd, bind_ok, List.erase_cons, Nat.add_assoc]

/-- When its scratch memory cannot be had, `ti_mass` writes through a null pointer. -/
theorem mass_scratch_violates : perform ⟨fun n => n == 0, false, false⟩ massScratch [] ⟨0, []⟩ = .error .badPtr := rfl

/-- C62 for `ti_mfi` as long as every allocation succeeds. -/
theorem mfi_scratch_partial : GivesBackWhen (fun e => ∀ n, e.fails n = false) mfiScratch := by
  rintro ⟨fl, r, t⟩ h he hw
  unfold mfiScratch
  simp only at he
  cases r <;> simp [perform, alloc, he, release, rd, bind_ok, List.erase_cons, Nat.add_assoc]

/-- When its scratch memory cannot be had, `ti_mfi` writes through a null pointer. -/
theorem mfi_scratch_violates : perform ⟨fun n => n == 1, false, false⟩ mfiScratch [] ⟨0, []⟩ = .error .badPtr := rfl

/-- C62 for `ti_stoch` as long as every allocation succeeds. -/
theorem stoch_scratch_partial : GivesBackWhen (fun e => ∀ n, e.fails n = false) stochScratch := by
  rintro ⟨fl, r, t⟩ h he hw
  unfold stochScratch
  simp only at he
  cases r <;> simp [perform, alloc, he, release, rd, bind_ok, List.erase_cons, Nat.add_assoc]

/-- When its scratch memory cannot be had, `ti_stoch` writes through a null pointer. -/
theorem stoch_scratch_violates : perform ⟨fun n => n == 1, false, false⟩ stochScratch [] ⟨0, []⟩ = .error .badPtr := rfl

/-- C62 for `ti_stochrsi` as long as every allocation succeeds. -/
theorem stochrsi_scratch_partial : GivesBackWhen (fun e => ∀ n, e.fails n = false) stochrsiScratch := by
  rintro ⟨fl, r, t⟩ h he hw
  unfold stochrsiScratch
  simp only at he
  cases r <;> simp [perform, alloc, he, release, rd, bind_ok, List.erase_cons, Nat.add_assoc]

/-- When its scratch memory cannot be had, `ti_stochrsi` writes through a null pointer. -/
theorem stochrsi_scratch_violates : perform ⟨fun n => n == 0, false, false⟩ stochrsiScratch [] ⟨0, []⟩ = .error .badPtr := rfl

/-- C62 for `ti_ultosc` as long as every allocation succeeds. -/
theorem ultosc_scratch_partial : GivesBackWhen (fun e => ∀ n, e.fails n = false) ultoscScratch := by
  rintro ⟨fl, r, t⟩ h he hw
  unfold ultoscScratch
  simp only at he
  cases r <;> simp [perform, alloc, he, release, rd, bind_ok, List.erase_cons, Nat.add_assoc]

/-- When its scratch memory cannot be had, `ti_ultosc` writes through a null pointer. -/
theorem ultosc_scratch_violates : perform ⟨fun n => n == 1, false, false⟩ ultoscScratch [] ⟨0, []⟩ = .error .badPtr := rfl

/-- C62 for `ti_atr_ref`. -/
theorem atr_ref_scratch : GivesBack atrRefScratch := by
  intro e h _ hw
  unfold atrRefScratch
  rcases e with ⟨fl, r, t⟩
  cases hf : fl h.asked <;> cases t <;> simp [perform, alloc, hf, release, releaseAll, rd, bind_ok, List.erase_cons, Nat.add_assoc]

/-- C62 for `ti_ce_ref` as long as every allocation succeeds. -/
theorem ce_ref_scratch_partial : GivesBackWhen (fun e => ∀ n, e.fails n = false) ceRefScratch := by
  rintro ⟨fl, r, t⟩ h he hw
  unfold ceRefScratch
  simp only at he
  cases r <;> simp [perform, alloc, he, release, rd, bind_ok, List.erase_cons, Nat.add_assoc]

/-- When its scratch memory cannot be had, `ti_ce_ref` writes through a null pointer. -/
theorem ce_ref_scratch_violates : perform ⟨fun n => n == 2, false, false⟩ ceRefScratch [] ⟨0, []⟩ = .error .badPtr := rfl

/-- C62 for `ti_cmi_ref` as long as every allocation succeeds. -/
theorem cmi_ref_scratch_partial : GivesBackWhen (fun e => ∀ n, e.fails n = false) cmiRefScratch := by
  rintro ⟨fl, r, t⟩ h he hw
  unfold cmiRefScratch
  simp only at he
  cases r <;> simp [perform, alloc, he, release, rd, bind_ok, List.erase_cons, Nat.add_assoc]

/-- When the last of its arrays cannot be had, an exception leaves `ti_cmi_ref` and the others are lost. -/
theorem cmi_ref_scratch_violates : ∃ b bs k, perform ⟨fun n => n == 1, false, false⟩ cmiRefScratch [] ⟨0, []⟩ = .ok (.thrown, ⟨k, b :: bs⟩) :=
  ⟨_, _, _, rfl⟩

/-- C62 for `ti_copp_ref` as long as every allocation succeeds. -/
theorem copp_ref_scratch_partial : GivesBackWhen (fun e => ∀ n, e.fails n = false) coppRefScratch := by
  rintro ⟨fl, r, t⟩ h he hw
  unfold coppRefScratch
  simp only at he
  cases r <;> simp [perform, alloc, he, release, rd, bind_ok, List.erase_cons, Nat.add_assoc]

/-- When its scratch memory cannot be had, `ti_copp_ref` writes through a null pointer. -/
theorem copp_ref_scratch_violates : perform ⟨fun n => n == 2, false, false⟩ coppRefScratch [] ⟨0, []⟩ = .error .badPtr := rfl

/-- C62 for `ti_hfema_ref` as long as every allocation succeeds. -/
theorem hfema_ref_scratch_partial : GivesBackWhen (fun e => ∀ n, e.fails n = false) hfemaRefScratch := by
  rintro ⟨fl, r, t⟩ h he hw
  unfold hfemaRefScratch
  simp only at he
  cases r <;> simp [perform, alloc, he, release, rd, bind_ok, List.erase_cons, Nat.add_assoc]

/-- When the last of its arrays cannot be had, an exception leaves `ti_hfema_ref` and the others are lost. -/
theorem hfema_ref_scratch_violates : ∃ b bs k, perform ⟨fun n => n == 1, false, false⟩ hfemaRefScratch [] ⟨0, []⟩ = .ok (.thrown, ⟨k, b :: bs⟩) :=
  ⟨_, _, _, rfl⟩

/-- C62 for `ti_hfsma_ref` as long as every allocation succeeds. -/
theorem hfsma_ref_scratch_partial : GivesBackWhen (fun e => ∀ n, e.fails n = false) hfsmaRefScratch := by
  rintro ⟨fl, r, t⟩ h he hw
  unfold hfsmaRefScratch
  simp only at he
  cases r <;> simp [perform, alloc, he, release, rd, bind_ok, List.erase_cons, Nat.add_assoc]

/-- When the last of its arrays cannot be had, an exception leaves `ti_hfsma_ref` and the others are lost. -/
theorem hfsma_ref_scratch_violates : ∃ b bs k, perform ⟨fun n => n == 1, false, false⟩ hfsmaRefScratch [] ⟨0, []⟩ = .ok (.thrown, ⟨k, b :: bs⟩) :=
  ⟨_, _, _, rfl⟩

/-- C62 for `ti_ichi_ref` as long as every allocation succeeds. -/
theorem ichi_ref_scratch_partial : GivesBackWhen (fun e => ∀ n, e.fails n = false) ichiRefScratch := by
  rintro ⟨fl, r, t⟩ h he hw
  unfold ichiRefScratch
  simp only at he
  cases r <;> simp [perform, alloc, he, release, rd, bind_ok, List.erase_cons, Nat.add_assoc]

/-- When the last of its arrays cannot be had, an exception leaves `ti_ichi_ref` and the others are lost. -/
theorem ichi_ref_scratch_violates : ∃ b bs k, perform ⟨fun n => n == 5, false, false⟩ ichiRefScratch [] ⟨0, []⟩ = .ok (.thrown, ⟨k, b :: bs⟩) :=
  ⟨_, _, _, rfl⟩

/-- C62 for `ti_kst_ref` as long as every allocation succeeds. -/
theorem kst_ref_scratch_partial : GivesBackWhen (fun e => ∀ n, e.fails n = false) kstRefScratch := by
  rintro ⟨fl, r, t⟩ h he hw
  unfold kstRefScratch
  simp only at he
  cases r <;> simp [perform, alloc, he, release, rd, bind_ok, List.erase_cons, Nat.add_assoc]

/-- When its scratch memory cannot be had, `ti_kst_ref` writes through a null pointer. -/
theorem kst_ref_scratch_violates : perform ⟨fun n => n == 7, false, false⟩ kstRefScratch [] ⟨0, []⟩ = .error .badPtr := rfl

/-- C62 for `ti_mama_ref` as long as every allocation succeeds. -/
theorem mama_ref_scratch_partial : GivesBackWhen (fun e => ∀ n, e.fails n = false) mamaRefScratch := by
  rintro ⟨fl, r, t⟩ h he hw
  unfold mamaRefScratch
  simp only at he
  cases r <;> simp [perform, alloc, he, release, rd, bind_ok, List.erase_cons, Nat.add_assoc]

/-- When its scratch memory cannot be had, `ti_mama_ref` writes through a null pointer. -/
theorem mama_ref_scratch_violates : perform ⟨fun n => n == 14, false, false⟩ mamaRefScratch [] ⟨0, []⟩ = .error .badPtr := rfl

/-- C62 for `ti_mhlma_ref` as long as every allocation succeeds. -/
theorem mhlma_ref_scratch_partial : GivesBackWhen (fun e => ∀ n, e.fails n = false) mhlmaRefScratch := by
  rintro ⟨fl, r, t⟩ h he hw
  unfold mhlmaRefScratch
  simp only at he
  cases r <;> simp [perform, alloc, he, release, rd, bind_ok, List.erase_cons, Nat.add_assoc]

/-- When the last of its arrays cannot be had, an exception leaves `ti_mhlma_ref` and the others are lost. -/
theorem mhlma_ref_scratch_violates : ∃ b bs k, perform ⟨fun n => n == 1, false, false⟩ mhlmaRefScratch [] ⟨0, []⟩ = .ok (.thrown, ⟨k, b :: bs⟩) :=
  ⟨_, _, _, rfl⟩

/-- C62 for `ti_pbands_ref` as long as every allocation succeeds. -/
theorem pbands_ref_scratch_partial : GivesBackWhen (fun e => ∀ n, e.fails n = false) pbandsRefScratch := by
  rintro ⟨fl, r, t⟩ h he hw
  unfold pbandsRefScratch
  simp only at he
  cases r <;> simp [perform, alloc, he, release, rd, bind_ok, List.erase_cons, Nat.add_assoc]

/-- When its scratch memory cannot be had, `ti_pbands_ref` writes through a null pointer. -/
theorem pbands_ref_scratch_violates : perform ⟨fun n => n == 0, false, false⟩ pbandsRefScratch [] ⟨0, []⟩ = .error .badPtr := rfl

/-- C62 for `ti_posc_ref` as long as every allocation succeeds. -/
theorem posc_ref_scratch_partial : GivesBackWhen (fun e => ∀ n, e.fails n = false) poscRefScratch := by
  rintro ⟨fl, r, t⟩ h he hw
  unfold poscRefScratch
  simp only at he
  cases r <;> simp [perform, alloc, he, release, rd, bind_ok, List.erase_cons, Nat.add_assoc]

/-- When its scratch memory cannot be had, `ti_posc_ref` writes through a null pointer. -/
theorem posc_ref_scratch_violates : perform ⟨fun n => n == 0, false, false⟩ poscRefScratch [] ⟨0, []⟩ = .error .badPtr := rfl

/-- C62 for `ti_rmi_ref` as long as every allocation succeeds. -/
theorem rmi_ref_scratch_partial : GivesBackWhen (fun e => ∀ n, e.fails n = false) rmiRefScratch := by
  rintro ⟨fl, r, t⟩ h he hw
  unfold rmiRefScratch
  simp only at he
  cases r <;> simp [perform, alloc, he, release, rd, bind_ok, List.erase_cons, Nat.add_assoc]

/-- When its scratch memory cannot be had, `ti_rmi_ref` writes through a null pointer. -/
theorem rmi_ref_scratch_violates : perform ⟨fun n => n == 1, false, false⟩ rmiRefScratch [] ⟨0, []⟩ = .error .badPtr := rfl

/-- C62 for `ti_smi_ref` as long as every allocation succeeds. -/
theorem smi_ref_scratch_partial : GivesBackWhen (fun e => ∀ n, e.fails n = false) smiRefScratch := by
  rintro ⟨fl, r, t⟩ h he hw
  unfold smiRefScratch
  simp only at he
  cases r <;> simp [perform, alloc, he, release, rd, bind_ok, List.erase_cons, Nat.add_assoc]

/-- When its scratch memory cannot be had, `ti_smi_ref` writes through a null pointer. -/
theorem smi_ref_scratch_violates : perform ⟨fun n => n == 3, false, false⟩ smiRefScratch [] ⟨0, []⟩ = .error .badPtr := rfl

/-- C62 for `ti_tsi_ref` as long as every allocation succeeds. -/
theorem tsi_ref_scratch_partial : GivesBackWhen (fun e => ∀ n, e.fails n = false) tsiRefScratch := by
  rintro ⟨fl, r, t⟩ h he hw
  unfold tsiRefScratch
  simp only at he
  cases r <;> simp [perform, alloc, he, release, rd, bind_ok, List.erase_cons, Nat.add_assoc]

/-- When its scratch memory cannot be had, `ti_tsi_ref` writes through a null pointer. -/
theorem tsi_ref_scratch_violates : perform ⟨fun n => n == 1, false, false⟩ tsiRefScratch [] ⟨0, []⟩ = .error .badPtr := rfl

/-- C62 for `ti_vwap_ref` as long as every allocation succeeds. -/
theorem vwap_ref_scratch_partial : GivesBackWhen (fun e => ∀ n, e.fails n = false) vwapRefScratch := by
  rintro ⟨fl, r, t⟩ h he hw
  unfold vwapRefScratch
  simp only at he
  cases r <;> simp [perform, alloc, he, release, rd, bind_ok, List.erase_cons, Nat.add_assoc]

/-- When its scratch memory cannot be had, `ti_vwap_ref` writes through a null pointer. -/
theorem vwap_ref_scratch_violates : perform ⟨fun n => n == 0, false, false⟩ vwapRefScratch [] ⟨0, []⟩ = .error .badPtr := rfl

/-- A heap and an environment that meet the hypotheses; the two blocks of `ti_mfi` come and go. -/
example : WellFormed ⟨7, [3, 5]⟩ ∧ perform ⟨fun _ => false, false, false⟩ mfiScratch [] ⟨7, [3, 5]⟩ = .ok (.returned, ⟨9, [3, 5]⟩) :=
  ⟨⟨by decide, by decide⟩, rfl⟩

end Verif
