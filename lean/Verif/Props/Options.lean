/-
C37: the indicators that ignore the fractions of whole-number options. Any arithmetic.
-/
import Verif.Spec.Options
import Verif.Core.Exact
import Verif.Core.RatInst
import Verif.Model.Adaptive
import Verif.Model.Average
import Verif.Model.Chan
import Verif.Model.Direction
import Verif.Model.Ema
import Verif.Model.Extremum
import Verif.Model.Filters
import Verif.Model.Flow
import Verif.Model.Fractal
import Verif.Model.Hampel
import Verif.Model.Osc
import Verif.Model.Range
import Verif.Model.Rank
import Verif.Model.Regress
import Verif.Model.Simple
import Verif.Model.Smooth
import Verif.Model.Stats
import Verif.Model.Sum
import Verif.Model.Trail
import Verif.Model.Trend
import Verif.Model.Volume
import Verif.Model.Weighted
import Verif.Model.Window

namespace Verif
set_option linter.unusedSectionVars false
set_option linter.unusedSimpArgs false
set_option linter.unusedVariables false
variable {R ρ ω : Type} [Num R]

theorem SameUpToFractions.int {ints : List Nat} {o o' : Nat → R} (h : SameUpToFractions ints o o') (i : Nat) (hi : i ∈ ints) :
    ∃ p, toInt (o i) = .ok p ∧ toInt (o' i) = .ok p := by simpa [hi] using h i

theorem SameUpToFractions.real {ints : List Nat} {o o' : Nat → R} (h : SameUpToFractions ints o o') (i : Nat) (hi : i ∉ ints) : o i = o' i := by
  simpa [hi] using h i

theorem ignoresFractions_of {I : Indicator R ρ ω} {ints : List Nat} (h : Verif.IgnoresFractions I.start I.batch ints)
    (hn : ∀ o o', SameUpToFractions ints o o' → I.new o = I.new o') : I.IgnoresFractions ints :=
  ⟨h, fun o o' ho chunks => by simp only [Indicator.session, hn o o' ho]⟩

theorem dema_fractions : IgnoresFractions (R := R) demaStart demaBatch [0] := fun o o' h => by
    obtain ⟨p0, a0, b0⟩ := h.int 0 (by decide)
    exact ⟨by simp only [demaStart, a0, b0], fun xs => by simp only [demaBatch, demaStart, a0, b0]⟩

theorem ema_fractions : IgnoresFractions (R := R) emaStart emaBatch [0] := fun o o' h => by
    obtain ⟨p0, a0, b0⟩ := h.int 0 (by decide)
    exact ⟨by simp only [emaStart, a0, b0], fun xs => by simp only [emaBatch, emaStart, a0, b0]⟩

theorem hfsma_fractions : (hfsma (R := R)).IgnoresFractions [0, 1] :=
  ignoresFractions_of (fun o o' h => by
    obtain ⟨p0, a0, b0⟩ := h.int 0 (by decide)
    obtain ⟨p1, a1, b1⟩ := h.int 1 (by decide)
    have r2 := h.real 2 (by decide)
    exact ⟨by simp only [hfsma, hfsmaStart, a0, b0, a1, b1, r2], fun xs => by simp only [hfsma, hfsmaBatch, hfsmaStart, hfxBad, a0, b0, a1, b1, r2]⟩) (fun o o' h => by
    obtain ⟨p0, a0, b0⟩ := h.int 0 (by decide)
    obtain ⟨p1, a1, b1⟩ := h.int 1 (by decide)
    have r2 := h.real 2 (by decide)
    simp only [hfsma, hfsmaNew, hfsmaStart, hfxBad, a0, b0, a1, b1, r2])

theorem hma_fractions : IgnoresFractions (R := R) hmaStart hmaBatch [0] := fun o o' h => by
    obtain ⟨p0, a0, b0⟩ := h.int 0 (by decide)
    exact ⟨by simp only [hmaStart, a0, b0], fun xs => by simp only [hmaBatch, hmaStart, a0, b0]⟩

theorem hfema_fractions : (hfema (R := R)).IgnoresFractions [0, 1] :=
  ignoresFractions_of (fun o o' h => by
    obtain ⟨p0, a0, b0⟩ := h.int 0 (by decide)
    obtain ⟨p1, a1, b1⟩ := h.int 1 (by decide)
    have r2 := h.real 2 (by decide)
    exact ⟨by simp only [hfema, hfemaStart, a0, b0, a1, b1, r2], fun xs => by simp only [hfema, hfemaBatch, hfemaStart, hfxBad, a0, b0, a1, b1, r2]⟩) (fun o o' h => by
    obtain ⟨p0, a0, b0⟩ := h.int 0 (by decide)
    obtain ⟨p1, a1, b1⟩ := h.int 1 (by decide)
    have r2 := h.real 2 (by decide)
    simp only [hfema, hfemaNew, hfemaStart, hfxBad, a0, b0, a1, b1, r2])

theorem sma_fractions : (sma (R := R)).IgnoresFractions [0] :=
  ignoresFractions_of (fun o o' h => by
    obtain ⟨p0, a0, b0⟩ := h.int 0 (by decide)
    exact ⟨by simp only [sma, smaStart, a0, b0], fun xs => by simp only [sma, smaBatch, smaStart, a0, b0]⟩) (fun o o' h => by
    obtain ⟨p0, a0, b0⟩ := h.int 0 (by decide)
    simp only [sma, smaNew, smaStart, a0, b0])

theorem tema_fractions : IgnoresFractions (R := R) temaStart temaBatch [0] := fun o o' h => by
    obtain ⟨p0, a0, b0⟩ := h.int 0 (by decide)
    exact ⟨by simp only [temaStart, a0, b0], fun xs => by simp only [temaBatch, temaStart, a0, b0]⟩

theorem trima_fractions : IgnoresFractions (R := R) trimaStart trimaBatch [0] := fun o o' h => by
    obtain ⟨p0, a0, b0⟩ := h.int 0 (by decide)
    exact ⟨by simp only [trimaStart, a0, b0], fun xs => by simp only [smaBatch, smaStart, trimaBatch, trimaStart, a0, b0]⟩

theorem vidya_fractions : IgnoresFractions (R := R) vidyaStart vidyaBatch [0, 1] := fun o o' h => by
    obtain ⟨p0, a0, b0⟩ := h.int 0 (by decide)
    obtain ⟨p1, a1, b1⟩ := h.int 1 (by decide)
    have r2 := h.real 2 (by decide)
    exact ⟨by simp only [vidyaStart, a0, b0, a1, b1, r2], fun xs => by simp only [vidyaBatch, vidyaStart, a0, b0, a1, b1, r2]⟩

theorem vwma_fractions : IgnoresFractions (R := R) vwmaStart vwmaBatch [0] := fun o o' h => by
    obtain ⟨p0, a0, b0⟩ := h.int 0 (by decide)
    exact ⟨by simp only [vwmaStart, a0, b0], fun xs => by simp only [vwmaBatch, vwmaStart, a0, b0]⟩

theorem wilders_fractions : IgnoresFractions (R := R) wildersStart wildersBatch [0] := fun o o' h => by
    obtain ⟨p0, a0, b0⟩ := h.int 0 (by decide)
    exact ⟨by simp only [wildersStart, a0, b0], fun xs => by simp only [wildersBatch, wildersStart, a0, b0]⟩

theorem wma_fractions : IgnoresFractions (R := R) wmaStart wmaBatch [0] := fun o o' h => by
    obtain ⟨p0, a0, b0⟩ := h.int 0 (by decide)
    exact ⟨by simp only [wmaStart, a0, b0], fun xs => by simp only [wmaBatch, wmaStart, a0, b0]⟩

theorem zlema_fractions : IgnoresFractions (R := R) zlemaStart zlemaBatch [0] := fun o o' h => by
    obtain ⟨p0, a0, b0⟩ := h.int 0 (by decide)
    exact ⟨by simp only [zlemaStart, a0, b0], fun xs => by simp only [zlemaBatch, zlemaStart, a0, b0]⟩

theorem rmta_fractions : IgnoresFractions (R := R) rmtaStart rmtaBatch [0] := fun o o' h => by
    obtain ⟨p0, a0, b0⟩ := h.int 0 (by decide)
    have r1 := h.real 1 (by decide)
    exact ⟨by simp only [rmtaStart, a0, b0, r1], fun xs => by simp only [rmtaBatch, rmtaStart, a0, b0, r1]⟩

theorem gf1_fractions : (gf1 (R := R)).IgnoresFractions [0] :=
  ignoresFractions_of (fun o o' h => by
    obtain ⟨p0, a0, b0⟩ := h.int 0 (by decide)
    exact ⟨by simp only [gf1, gf1Start, a0, b0], fun xs => by simp only [gf1, gf1Batch, gf1Start, a0, b0]⟩) (fun o o' h => by
    obtain ⟨p0, a0, b0⟩ := h.int 0 (by decide)
    simp only [gf1, gf1New, gf1Start, a0, b0])

theorem gf2_fractions : (gf2 (R := R)).IgnoresFractions [0] :=
  ignoresFractions_of (fun o o' h => by
    obtain ⟨p0, a0, b0⟩ := h.int 0 (by decide)
    exact ⟨by simp only [gf2, gf2Start, a0, b0], fun xs => by simp only [gf2, gf2Batch, gf2Start, a0, b0]⟩) (fun o o' h => by
    obtain ⟨p0, a0, b0⟩ := h.int 0 (by decide)
    simp only [gf2, gf2New, gf2Start, a0, b0])

theorem gf3_fractions : (gf3 (R := R)).IgnoresFractions [0] :=
  ignoresFractions_of (fun o o' h => by
    obtain ⟨p0, a0, b0⟩ := h.int 0 (by decide)
    exact ⟨by simp only [gf3, gf3Start, a0, b0], fun xs => by simp only [gf3, gf3Batch, gf3Start, a0, b0]⟩) (fun o o' h => by
    obtain ⟨p0, a0, b0⟩ := h.int 0 (by decide)
    simp only [gf3, gf3New, gf3Start, a0, b0])

theorem gf4_fractions : (gf4 (R := R)).IgnoresFractions [0] :=
  ignoresFractions_of (fun o o' h => by
    obtain ⟨p0, a0, b0⟩ := h.int 0 (by decide)
    exact ⟨by simp only [gf4, gf4Start, a0, b0], fun xs => by simp only [gf4, gf4Batch, gf4Start, a0, b0]⟩) (fun o o' h => by
    obtain ⟨p0, a0, b0⟩ := h.int 0 (by decide)
    simp only [gf4, gf4New, gf4Start, a0, b0])

theorem ehma_fractions : (ehma (R := R)).IgnoresFractions [0] :=
  ignoresFractions_of (fun o o' h => by
    obtain ⟨p0, a0, b0⟩ := h.int 0 (by decide)
    exact ⟨by simp only [ehma, ehmaStart, a0, b0], fun xs => by simp only [ehma, ehmaBatch, ehmaStart, a0, b0]⟩) (fun o o' h => by
    obtain ⟨p0, a0, b0⟩ := h.int 0 (by decide)
    simp only [ehma, ehmaNew, ehmaStart, a0, b0])

theorem evwma_fractions : (evwma (R := R)).IgnoresFractions [0] :=
  ignoresFractions_of (fun o o' h => by
    obtain ⟨p0, a0, b0⟩ := h.int 0 (by decide)
    have r1 := h.real 1 (by decide)
    exact ⟨by simp only [evwma, evwmaStart, a0, b0, r1], fun xs => by simp only [evwma, evwmaBatch, evwmaStart, a0, b0, r1]⟩) (fun o o' h => by
    obtain ⟨p0, a0, b0⟩ := h.int 0 (by decide)
    have r1 := h.real 1 (by decide)
    simp only [evwma, evwmaNew, evwmaStart, a0, b0, r1])

theorem swma_fractions : (swma (R := R)).IgnoresFractions [0] :=
  ignoresFractions_of (fun o o' h => by
    obtain ⟨p0, a0, b0⟩ := h.int 0 (by decide)
    exact ⟨by simp only [swma, swmaStart, a0, b0], fun xs => by simp only [swma, swmaBatch, swmaStart, a0, b0]⟩) (fun o o' h => by
    obtain ⟨p0, a0, b0⟩ := h.int 0 (by decide)
    simp only [swma, swmaNew, swmaStart, a0, b0])

theorem ahma_fractions : (ahma (R := R)).IgnoresFractions [0] :=
  ignoresFractions_of (fun o o' h => by
    obtain ⟨p0, a0, b0⟩ := h.int 0 (by decide)
    exact ⟨by simp only [ahma, ahmaStart, a0, b0], fun xs => by simp only [ahma, ahmaBatch, ahmaStart, a0, b0]⟩) (fun o o' h => by
    obtain ⟨p0, a0, b0⟩ := h.int 0 (by decide)
    simp only [ahma, ahmaNew, ahmaStart, a0, b0])

theorem emsd_fractions : (emsd (R := R)).IgnoresFractions [0, 1] :=
  ignoresFractions_of (fun o o' h => by
    obtain ⟨p0, a0, b0⟩ := h.int 0 (by decide)
    obtain ⟨p1, a1, b1⟩ := h.int 1 (by decide)
    exact ⟨by simp only [emsd, emsdStart, a0, b0, a1, b1], fun xs => by simp only [emsd, emsdBatch, emsdStart, a0, b0, a1, b1]⟩) (fun o o' h => by
    obtain ⟨p0, a0, b0⟩ := h.int 0 (by decide)
    obtain ⟨p1, a1, b1⟩ := h.int 1 (by decide)
    simp only [emsd, emsdNew, emsdStart, a0, b0, a1, b1])

theorem hwma_fractions : (hwma (R := R)).IgnoresFractions [0] :=
  ignoresFractions_of (fun o o' h => by
    obtain ⟨p0, a0, b0⟩ := h.int 0 (by decide)
    exact ⟨by simp only [hwma, hwmaStart, a0, b0], fun xs => by simp only [hwma, hwmaBatch, hwmaStart, a0, b0]⟩) (fun o o' h => by
    obtain ⟨p0, a0, b0⟩ := h.int 0 (by decide)
    simp only [hwma, hwmaNew, hwmaStart, a0, b0])

theorem linreg_fractions : IgnoresFractions (R := R) linregStart linregBatch [0] := fun o o' h => by
    obtain ⟨p0, a0, b0⟩ := h.int 0 (by decide)
    exact ⟨by simp only [linregStart, a0, b0], fun xs => by simp only [linregBatch, linregStart, trendBatch, a0, b0]⟩

theorem linregintercept_fractions : IgnoresFractions (R := R) linregStart linreginterceptBatch [0] := fun o o' h => by
    obtain ⟨p0, a0, b0⟩ := h.int 0 (by decide)
    exact ⟨by simp only [linregStart, a0, b0], fun xs => by simp only [linregStart, linreginterceptBatch, trendBatch, a0, b0]⟩

theorem linregslope_fractions : IgnoresFractions (R := R) linregStart linregslopeBatch [0] := fun o o' h => by
    obtain ⟨p0, a0, b0⟩ := h.int 0 (by decide)
    exact ⟨by simp only [linregStart, a0, b0], fun xs => by simp only [linregStart, linregslopeBatch, a0, b0]⟩

theorem tsf_fractions : IgnoresFractions (R := R) linregStart tsfBatch [0] := fun o o' h => by
    obtain ⟨p0, a0, b0⟩ := h.int 0 (by decide)
    exact ⟨by simp only [linregStart, a0, b0], fun xs => by simp only [linregStart, trendBatch, tsfBatch, a0, b0]⟩

theorem fosc_fractions : IgnoresFractions (R := R) foscStart foscBatch [0] := fun o o' h => by
    obtain ⟨p0, a0, b0⟩ := h.int 0 (by decide)
    exact ⟨by simp only [foscStart, a0, b0], fun xs => by simp only [foscBatch, foscStart, a0, b0]⟩

theorem bbands_fractions : IgnoresFractions (R := R) varStart bbandsBatch [0] := fun o o' h => by
    obtain ⟨p0, a0, b0⟩ := h.int 0 (by decide)
    have r1 := h.real 1 (by decide)
    exact ⟨by simp only [varStart, a0, b0, r1], fun xs => by simp only [bbandsBatch, varStart, a0, b0, r1]⟩

theorem kama_fractions : IgnoresFractions (R := R) kamaStart kamaBatch [0] := fun o o' h => by
    obtain ⟨p0, a0, b0⟩ := h.int 0 (by decide)
    exact ⟨by simp only [kamaStart, a0, b0], fun xs => by simp only [kamaBatch, kamaStart, a0, b0]⟩

theorem hf_fractions : (hf (R := R)).IgnoresFractions [0] :=
  ignoresFractions_of (fun o o' h => by
    obtain ⟨p0, a0, b0⟩ := h.int 0 (by decide)
    have r1 := h.real 1 (by decide)
    exact ⟨by simp only [hf, hfStart, a0, b0, r1], fun xs => by simp only [hf, hfBatch, hfStart, a0, b0, r1]⟩) (fun o o' h => by
    obtain ⟨p0, a0, b0⟩ := h.int 0 (by decide)
    have r1 := h.real 1 (by decide)
    simp only [hf, hfNew, hfStart, a0, b0, r1])

theorem adosc_fractions : IgnoresFractions (R := R) adoscStart adoscBatch [0, 1] := fun o o' h => by
    obtain ⟨p0, a0, b0⟩ := h.int 0 (by decide)
    obtain ⟨p1, a1, b1⟩ := h.int 1 (by decide)
    exact ⟨by simp only [adoscStart, a0, b0, a1, b1], fun xs => by simp only [adoscBatch, adoscStart, a0, b0, a1, b1]⟩

theorem abands_fractions : IgnoresFractions (R := R) abandsStart abandsBatch [0] := fun o o' h => by
    obtain ⟨p0, a0, b0⟩ := h.int 0 (by decide)
    exact ⟨by simp only [abandsStart, a0, b0], fun xs => by simp only [abandsBatch, abandsStart, a0, b0]⟩

theorem apo_fractions : IgnoresFractions (R := R) apoStart apoBatch [0, 1] := fun o o' h => by
    obtain ⟨p0, a0, b0⟩ := h.int 0 (by decide)
    obtain ⟨p1, a1, b1⟩ := h.int 1 (by decide)
    exact ⟨by simp only [apoStart, a0, b0, a1, b1], fun xs => by simp only [apoBatch, apoStart, a0, b0, a1, b1]⟩

theorem aroon_fractions : IgnoresFractions (R := R) aroonStart aroonBatch [0] := fun o o' h => by
    obtain ⟨p0, a0, b0⟩ := h.int 0 (by decide)
    exact ⟨by simp only [aroonStart, a0, b0], fun xs => by simp only [aroonBatch, aroonStart, a0, b0]⟩

theorem aroonosc_fractions : IgnoresFractions (R := R) aroonStart aroonoscBatch [0] := fun o o' h => by
    obtain ⟨p0, a0, b0⟩ := h.int 0 (by decide)
    exact ⟨by simp only [aroonStart, a0, b0], fun xs => by simp only [aroonStart, aroonoscBatch, a0, b0]⟩

theorem cmf_fractions : IgnoresFractions (R := R) cmfStart cmfBatch [0] := fun o o' h => by
    obtain ⟨p0, a0, b0⟩ := h.int 0 (by decide)
    exact ⟨by simp only [cmfStart, a0, b0], fun xs => by simp only [cmfBatch, cmfStart, a0, b0]⟩

theorem mesastoch_fractions : (mesastoch (R := R)).IgnoresFractions [0, 1] :=
  ignoresFractions_of (fun o o' h => by
    obtain ⟨p0, a0, b0⟩ := h.int 0 (by decide)
    obtain ⟨p1, a1, b1⟩ := h.int 1 (by decide)
    exact ⟨by simp only [mesastoch, mesastochStart, a0, b0, a1, b1], fun xs => by simp only [mesastoch, mesastochBatch, mesastochStart, a0, b0, a1, b1]⟩) (fun o o' h => by
    obtain ⟨p0, a0, b0⟩ := h.int 0 (by decide)
    obtain ⟨p1, a1, b1⟩ := h.int 1 (by decide)
    simp only [mesastoch, mesastochNew, mesastochStart, a0, b0, a1, b1])

theorem cmo_fractions : IgnoresFractions (R := R) cmoStart cmoBatch [0] := fun o o' h => by
    obtain ⟨p0, a0, b0⟩ := h.int 0 (by decide)
    exact ⟨by simp only [cmoStart, a0, b0], fun xs => by simp only [cmoBatch, cmoStart, a0, b0]⟩

theorem cci_fractions : IgnoresFractions (R := R) cciStart cciBatch [0] := fun o o' h => by
    obtain ⟨p0, a0, b0⟩ := h.int 0 (by decide)
    exact ⟨by simp only [cciStart, a0, b0], fun xs => by simp only [cciBatch, cciStart, a0, b0]⟩

theorem dpo_fractions : IgnoresFractions (R := R) qstickStart dpoBatch [0] := fun o o' h => by
    obtain ⟨p0, a0, b0⟩ := h.int 0 (by decide)
    exact ⟨by simp only [qstickStart, a0, b0], fun xs => by simp only [dpoBatch, qstickStart, a0, b0]⟩

theorem fisher_fractions : IgnoresFractions (R := R) fisherStart fisherBatch [0] := fun o o' h => by
    obtain ⟨p0, a0, b0⟩ := h.int 0 (by decide)
    exact ⟨by simp only [fisherStart, a0, b0], fun xs => by simp only [fisherBatch, fisherStart, a0, b0]⟩

theorem kvo_fractions : IgnoresFractions (R := R) wadStart kvoBatch [0, 1] := fun o o' h => by
    obtain ⟨p0, a0, b0⟩ := h.int 0 (by decide)
    obtain ⟨p1, a1, b1⟩ := h.int 1 (by decide)
    exact ⟨by simp only [wadStart, a0, b0, a1, b1], fun xs => by simp only [kvoBatch, wadStart, a0, b0, a1, b1]⟩

theorem mass_fractions : IgnoresFractions (R := R) massStart massBatch [0] := fun o o' h => by
    obtain ⟨p0, a0, b0⟩ := h.int 0 (by decide)
    exact ⟨by simp only [massStart, a0, b0], fun xs => by simp only [massBatch, massStart, a0, b0]⟩

theorem mfi_fractions : IgnoresFractions (R := R) mfiStart mfiBatch [0] := fun o o' h => by
    obtain ⟨p0, a0, b0⟩ := h.int 0 (by decide)
    exact ⟨by simp only [mfiStart, a0, b0], fun xs => by simp only [mfiBatch, mfiStart, a0, b0]⟩

theorem macd_fractions : IgnoresFractions (R := R) macdStart macdBatch [0, 1, 2] := fun o o' h => by
    obtain ⟨p0, a0, b0⟩ := h.int 0 (by decide)
    obtain ⟨p1, a1, b1⟩ := h.int 1 (by decide)
    obtain ⟨p2, a2, b2⟩ := h.int 2 (by decide)
    exact ⟨by simp only [macdStart, a0, b0, a1, b1, a2, b2], fun xs => by simp only [macdBatch, macdStart, a0, b0, a1, b1, a2, b2]⟩

theorem ppo_fractions : IgnoresFractions (R := R) ppoStart ppoBatch [0, 1] := fun o o' h => by
    obtain ⟨p0, a0, b0⟩ := h.int 0 (by decide)
    obtain ⟨p1, a1, b1⟩ := h.int 1 (by decide)
    exact ⟨by simp only [ppoStart, a0, b0, a1, b1], fun xs => by simp only [ppoBatch, ppoStart, a0, b0, a1, b1]⟩

theorem qstick_fractions : IgnoresFractions (R := R) qstickStart qstickBatch [0] := fun o o' h => by
    obtain ⟨p0, a0, b0⟩ := h.int 0 (by decide)
    exact ⟨by simp only [qstickStart, a0, b0], fun xs => by simp only [qstickBatch, qstickStart, a0, b0]⟩

theorem rsi_fractions : IgnoresFractions (R := R) rsiStart rsiBatch [0] := fun o o' h => by
    obtain ⟨p0, a0, b0⟩ := h.int 0 (by decide)
    exact ⟨by simp only [rsiStart, a0, b0], fun xs => by simp only [rsiBatch, rsiStart, a0, b0]⟩

theorem stoch_fractions : IgnoresFractions (R := R) stochStart stochBatch [0, 1, 2] := fun o o' h => by
    obtain ⟨p0, a0, b0⟩ := h.int 0 (by decide)
    obtain ⟨p1, a1, b1⟩ := h.int 1 (by decide)
    obtain ⟨p2, a2, b2⟩ := h.int 2 (by decide)
    exact ⟨by simp only [stochStart, a0, b0, a1, b1, a2, b2], fun xs => by simp only [stochBatch, stochStart, a0, b0, a1, b1, a2, b2]⟩

theorem stochrsi_fractions : IgnoresFractions (R := R) stochrsiStart stochrsiBatch [0] := fun o o' h => by
    obtain ⟨p0, a0, b0⟩ := h.int 0 (by decide)
    exact ⟨by simp only [stochrsiStart, a0, b0], fun xs => by simp only [stochrsiBatch, stochrsiStart, a0, b0]⟩

theorem trix_fractions : IgnoresFractions (R := R) trixStart trixBatch [0] := fun o o' h => by
    obtain ⟨p0, a0, b0⟩ := h.int 0 (by decide)
    exact ⟨by simp only [trixStart, a0, b0], fun xs => by simp only [trixBatch, trixStart, a0, b0]⟩

theorem willr_fractions : IgnoresFractions (R := R) willrStart willrBatch [0] := fun o o' h => by
    obtain ⟨p0, a0, b0⟩ := h.int 0 (by decide)
    exact ⟨by simp only [willrStart, a0, b0], fun xs => by simp only [willrBatch, willrStart, a0, b0]⟩

theorem ultosc_fractions : IgnoresFractions (R := R) ultoscStart ultoscBatch [0, 1, 2] := fun o o' h => by
    obtain ⟨p0, a0, b0⟩ := h.int 0 (by decide)
    obtain ⟨p1, a1, b1⟩ := h.int 1 (by decide)
    obtain ⟨p2, a2, b2⟩ := h.int 2 (by decide)
    exact ⟨by simp only [ultoscStart, a0, b0, a1, b1, a2, b2], fun xs => by simp only [ultoscBatch, ultoscStart, a0, b0, a1, b1, a2, b2]⟩

theorem vhf_fractions : IgnoresFractions (R := R) vhfStart vhfBatch [0] := fun o o' h => by
    obtain ⟨p0, a0, b0⟩ := h.int 0 (by decide)
    exact ⟨by simp only [vhfStart, a0, b0], fun xs => by simp only [vhfBatch, vhfStart, a0, b0]⟩

theorem vosc_fractions : IgnoresFractions (R := R) voscStart voscBatch [0, 1] := fun o o' h => by
    obtain ⟨p0, a0, b0⟩ := h.int 0 (by decide)
    obtain ⟨p1, a1, b1⟩ := h.int 1 (by decide)
    exact ⟨by simp only [voscStart, a0, b0, a1, b1], fun xs => by simp only [voscBatch, voscStart, a0, b0, a1, b1]⟩

theorem er_fractions : (er (R := R)).IgnoresFractions [0] :=
  ignoresFractions_of (fun o o' h => by
    obtain ⟨p0, a0, b0⟩ := h.int 0 (by decide)
    exact ⟨by simp only [er, erStart, a0, b0], fun xs => by simp only [er, erBatch, erStart, a0, b0]⟩) (fun o o' h => by
    obtain ⟨p0, a0, b0⟩ := h.int 0 (by decide)
    simp only [er, erNew, erStart, a0, b0])

theorem dm_fractions : IgnoresFractions (R := R) dmStart dmBatch [0] := fun o o' h => by
    obtain ⟨p0, a0, b0⟩ := h.int 0 (by decide)
    exact ⟨by simp only [dmStart, a0, b0], fun xs => by simp only [dmBatch, dmStart, a0, b0]⟩

theorem dx_fractions : IgnoresFractions (R := R) dmStart dxBatch [0] := fun o o' h => by
    obtain ⟨p0, a0, b0⟩ := h.int 0 (by decide)
    exact ⟨by simp only [dmStart, a0, b0], fun xs => by simp only [dmStart, dxBatch, a0, b0]⟩

theorem di_fractions : IgnoresFractions (R := R) dmStart diBatch [0] := fun o o' h => by
    obtain ⟨p0, a0, b0⟩ := h.int 0 (by decide)
    exact ⟨by simp only [dmStart, a0, b0], fun xs => by simp only [diBatch, dmStart, a0, b0]⟩

theorem adx_fractions : IgnoresFractions (R := R) adxStart adxBatch [0] := fun o o' h => by
    obtain ⟨p0, a0, b0⟩ := h.int 0 (by decide)
    exact ⟨by simp only [adxStart, a0, b0], fun xs => by simp only [adxBatch, adxStart, a0, b0]⟩

theorem adxr_fractions : IgnoresFractions (R := R) adxrStart adxrBatch [0] := fun o o' h => by
    obtain ⟨p0, a0, b0⟩ := h.int 0 (by decide)
    exact ⟨by simp only [adxrStart, a0, b0], fun xs => by simp only [adxrBatch, adxrStart, a0, b0]⟩

theorem msw_fractions : IgnoresFractions (R := R) mswStart mswBatch [0] := fun o o' h => by
    obtain ⟨p0, a0, b0⟩ := h.int 0 (by decide)
    exact ⟨by simp only [mswStart, a0, b0], fun xs => by simp only [mswBatch, mswStart, a0, b0]⟩

theorem mom_fractions : IgnoresFractions (R := R) startPeriod momBatch [0] := fun o o' h => by
    obtain ⟨p0, a0, b0⟩ := h.int 0 (by decide)
    exact ⟨by simp only [startPeriod, a0, b0], fun xs => by simp only [momBatch, startPeriod, a0, b0]⟩

theorem roc_fractions : IgnoresFractions (R := R) startPeriod rocBatch [0] := fun o o' h => by
    obtain ⟨p0, a0, b0⟩ := h.int 0 (by decide)
    exact ⟨by simp only [startPeriod, a0, b0], fun xs => by simp only [rocBatch, startPeriod, a0, b0]⟩

theorem rocr_fractions : IgnoresFractions (R := R) startPeriod rocrBatch [0] := fun o o' h => by
    obtain ⟨p0, a0, b0⟩ := h.int 0 (by decide)
    exact ⟨by simp only [startPeriod, a0, b0], fun xs => by simp only [rocrBatch, startPeriod, a0, b0]⟩

theorem lag_fractions : IgnoresFractions (R := R) startPeriod lagBatch [0] := fun o o' h => by
    obtain ⟨p0, a0, b0⟩ := h.int 0 (by decide)
    exact ⟨by simp only [startPeriod, a0, b0], fun xs => by simp only [lagBatch, startPeriod, a0, b0]⟩

theorem max_fractions : IgnoresFractions (R := R) maxStart maxBatch [0] := fun o o' h => by
    obtain ⟨p0, a0, b0⟩ := h.int 0 (by decide)
    exact ⟨by simp only [maxStart, a0, b0], fun xs => by simp only [maxBatch, maxStart, a0, b0]⟩

theorem min_fractions : IgnoresFractions (R := R) minStart minBatch [0] := fun o o' h => by
    obtain ⟨p0, a0, b0⟩ := h.int 0 (by decide)
    exact ⟨by simp only [minStart, a0, b0], fun xs => by simp only [minBatch, minStart, a0, b0]⟩

theorem sum_fractions : IgnoresFractions (R := R) sumStart sumBatch [0] := fun o o' h => by
    obtain ⟨p0, a0, b0⟩ := h.int 0 (by decide)
    exact ⟨by simp only [sumStart, a0, b0], fun xs => by simp only [sumBatch, sumStart, a0, b0]⟩

theorem stddev_fractions : IgnoresFractions (R := R) varStart stddevBatch [0] := fun o o' h => by
    obtain ⟨p0, a0, b0⟩ := h.int 0 (by decide)
    exact ⟨by simp only [varStart, a0, b0], fun xs => by simp only [stddevBatch, varStart, a0, b0]⟩

theorem stderr_fractions : IgnoresFractions (R := R) varStart stderrBatch [0] := fun o o' h => by
    obtain ⟨p0, a0, b0⟩ := h.int 0 (by decide)
    exact ⟨by simp only [varStart, a0, b0], fun xs => by simp only [stderrBatch, varStart, a0, b0]⟩

theorem md_fractions : IgnoresFractions (R := R) varStart mdBatch [0] := fun o o' h => by
    obtain ⟨p0, a0, b0⟩ := h.int 0 (by decide)
    exact ⟨by simp only [varStart, a0, b0], fun xs => by simp only [mdBatch, varStart, a0, b0]⟩

theorem var_fractions : IgnoresFractions (R := R) varStart varBatch [0] := fun o o' h => by
    obtain ⟨p0, a0, b0⟩ := h.int 0 (by decide)
    exact ⟨by simp only [varStart, a0, b0], fun xs => by simp only [varBatch, varStart, a0, b0]⟩

theorem atr_fractions : (atr (R := R)).IgnoresFractions [0] :=
  ignoresFractions_of (fun o o' h => by
    obtain ⟨p0, a0, b0⟩ := h.int 0 (by decide)
    exact ⟨by simp only [atr, atrStart, a0, b0], fun xs => by simp only [atr, atrBatch, atrStart, a0, b0]⟩) (fun o o' h => by
    obtain ⟨p0, a0, b0⟩ := h.int 0 (by decide)
    simp only [atr, atrNew, atrStart, a0, b0])

theorem ce_fractions : (ce (R := R)).IgnoresFractions [0] :=
  ignoresFractions_of (fun o o' h => by
    obtain ⟨p0, a0, b0⟩ := h.int 0 (by decide)
    have r1 := h.real 1 (by decide)
    exact ⟨by simp only [ce, ceStart, a0, b0, r1], fun xs => by simp only [ce, ceBatch, ceStart, a0, b0, r1]⟩) (fun o o' h => by
    obtain ⟨p0, a0, b0⟩ := h.int 0 (by decide)
    have r1 := h.real 1 (by decide)
    simp only [ce, ceNew, ceStart, a0, b0, r1])

theorem natr_fractions : IgnoresFractions (R := R) natrStart natrBatch [0] := fun o o' h => by
    obtain ⟨p0, a0, b0⟩ := h.int 0 (by decide)
    exact ⟨by simp only [natrStart, a0, b0], fun xs => by simp only [natrBatch, natrStart, a0, b0]⟩

theorem ichi_fractions : (ichi (R := R)).IgnoresFractions [0, 1, 2] :=
  ignoresFractions_of (fun o o' h => by
    obtain ⟨p0, a0, b0⟩ := h.int 0 (by decide)
    obtain ⟨p1, a1, b1⟩ := h.int 1 (by decide)
    obtain ⟨p2, a2, b2⟩ := h.int 2 (by decide)
    exact ⟨by simp only [ichi, ichiStart, a0, b0, a1, b1, a2, b2], fun xs => by simp only [ichi, ichiBatch, ichiStart, a0, b0, a1, b1, a2, b2]⟩) (fun o o' h => by
    obtain ⟨p0, a0, b0⟩ := h.int 0 (by decide)
    obtain ⟨p1, a1, b1⟩ := h.int 1 (by decide)
    obtain ⟨p2, a2, b2⟩ := h.int 2 (by decide)
    simp only [ichi, ichiNew, ichiStart, a0, b0, a1, b1, a2, b2])

theorem volatility_fractions : IgnoresFractions (R := R) volatilityStart volatilityBatch [0] := fun o o' h => by
    obtain ⟨p0, a0, b0⟩ := h.int 0 (by decide)
    exact ⟨by simp only [volatilityStart, a0, b0], fun xs => by simp only [volatilityBatch, volatilityStart, a0, b0]⟩

theorem cvi_fractions : IgnoresFractions (R := R) cviStart cviBatch [0] := fun o o' h => by
    obtain ⟨p0, a0, b0⟩ := h.int 0 (by decide)
    exact ⟨by simp only [cviStart, a0, b0], fun xs => by simp only [cviBatch, cviStart, a0, b0]⟩

theorem decay_fractions : IgnoresFractions (R := R) start0 decayBatch [0] := fun o o' h => by
    obtain ⟨p0, a0, b0⟩ := h.int 0 (by decide)
    exact ⟨by simp only [start0, a0, b0], fun xs => by simp only [decayBatch, a0, b0]⟩

theorem edecay_fractions : IgnoresFractions (R := R) start0 edecayBatch [0] := fun o o' h => by
    obtain ⟨p0, a0, b0⟩ := h.int 0 (by decide)
    exact ⟨by simp only [start0, a0, b0], fun xs => by simp only [edecayBatch, a0, b0]⟩

/-! ### Options from 1 on

These check or count with the option before they convert it, so their start index (and for some the answer) depends on the fraction of an
option below 1, which is refused. `IntExact` holds of doubles. -/

section IntExactOnly
variable [IntExact R]

theorem whole_sub_one {v : R} {p : Int} (h : toInt v = .ok p) (hp : 1 ≤ p) : toInt (v - c! 1) = .ok (p - 1) := by
  obtain ⟨n, rfl⟩ := Int.eq_ofNat_of_zero_le (show 0 ≤ p by omega)
  rw [toInt_sub_one h (by omega)]
  congr 1; omega

theorem whole_not_lt {v : R} {p : Int} (h : toInt v = .ok p) (hp : 1 ≤ p) : ¬ v < c! 1 := by
  obtain ⟨n, rfl⟩ := Int.eq_ofNat_of_zero_le (show 0 ≤ p by omega)
  exact not_lt_one h (by omega)

theorem SameUpToFractions.whole {ints : List Nat} {o o' : Nat → R} (h : SameUpToFractions ints o o') (h1 : FromOne ints o) (i : Nat) (hi : i ∈ ints) :
    ∃ p, toInt (o i) = .ok p ∧ toInt (o' i) = .ok p ∧ toInt (o i - c! 1) = .ok (p - 1) ∧ toInt (o' i - c! 1) = .ok (p - 1) ∧
      ¬ o i < c! 1 ∧ ¬ o' i < c! 1 := by
  obtain ⟨p, a, b⟩ := h.int i hi
  have hp := h1 i hi p a
  exact ⟨p, a, b, whole_sub_one a hp, whole_sub_one b hp, whole_not_lt a hp, whole_not_lt b hp⟩

theorem ignoresFractionsFromOne_of {I : Indicator R ρ ω} {ints : List Nat} (h : Verif.IgnoresFractionsFromOne I.start I.batch ints)
    (hn : ∀ o o', SameUpToFractions ints o o' → FromOne ints o → I.new o = I.new o') : I.IgnoresFractionsFromOne ints :=
  ⟨h, fun o o' ho h1 chunks => by simp only [Indicator.session, hn o o' ho h1]⟩

theorem pwma_fractions_partial : (pwma (R := R)).IgnoresFractionsFromOne [0] :=
  ignoresFractionsFromOne_of (fun o o' h h1 => by
    obtain ⟨p0, a0, b0, c0, d0, e0, f0⟩ := h.whole h1 0 (by decide)
    have r1 := h.real 1 (by decide)
    exact ⟨by simp only [pwma, pwmaStart, a0, b0, c0, d0, e0, f0, r1, or_self, false_or, if_false], fun xs => by simp only [pwma, pwmaBatch, pwmaStart, a0, b0, c0, d0, e0, f0, r1, or_self, false_or, if_false]⟩) (fun o o' h h1 => by
    obtain ⟨p0, a0, b0, c0, d0, e0, f0⟩ := h.whole h1 0 (by decide)
    have r1 := h.real 1 (by decide)
    simp only [pwma, pwmaNew, pwmaStart, a0, b0, c0, d0, e0, f0, r1, or_self, false_or, if_false])

theorem shmma_fractions_partial : (shmma (R := R)).IgnoresFractionsFromOne [0] :=
  ignoresFractionsFromOne_of (fun o o' h h1 => by
    obtain ⟨p0, a0, b0, c0, d0, e0, f0⟩ := h.whole h1 0 (by decide)
    exact ⟨by simp only [shmma, shmmaStart, a0, b0, c0, d0, e0, f0, or_self, false_or, if_false], fun xs => by simp only [shmma, shmmaBatch, shmmaStart, a0, b0, c0, d0, e0, f0, or_self, false_or, if_false]⟩) (fun o o' h h1 => by
    obtain ⟨p0, a0, b0, c0, d0, e0, f0⟩ := h.whole h1 0 (by decide)
    simp only [shmma, shmmaNew, shmmaStart, a0, b0, c0, d0, e0, f0, or_self, false_or, if_false])

theorem mhlma_fractions_partial : (mhlma (R := R)).IgnoresFractionsFromOne [0, 1] :=
  ignoresFractionsFromOne_of (fun o o' h h1 => by
    obtain ⟨p0, a0, b0, c0, d0, e0, f0⟩ := h.whole h1 0 (by decide)
    obtain ⟨p1, a1, b1, c1, d1, e1, f1⟩ := h.whole h1 1 (by decide)
    exact ⟨by simp only [mhlma, mhlmaStart, a0, b0, c0, d0, e0, f0, a1, b1, c1, d1, e1, f1, or_self, false_or, if_false], fun xs => by simp only [mhlma, mhlmaBatch, mhlmaStart, a0, b0, c0, d0, e0, f0, a1, b1, c1, d1, e1, f1, or_self, false_or, if_false]⟩) (fun o o' h h1 => by
    obtain ⟨p0, a0, b0, c0, d0, e0, f0⟩ := h.whole h1 0 (by decide)
    obtain ⟨p1, a1, b1, c1, d1, e1, f1⟩ := h.whole h1 1 (by decide)
    simp only [mhlma, mhlmaNew, mhlmaStart, a0, b0, c0, d0, e0, f0, a1, b1, c1, d1, e1, f1, or_self, false_or, if_false])

theorem idwma_fractions_partial : (idwma (R := R)).IgnoresFractionsFromOne [0] :=
  ignoresFractionsFromOne_of (fun o o' h h1 => by
    obtain ⟨p0, a0, b0, c0, d0, e0, f0⟩ := h.whole h1 0 (by decide)
    have r1 := h.real 1 (by decide)
    exact ⟨by simp only [idwma, idwmaStart, a0, b0, c0, d0, e0, f0, r1, or_self, false_or, if_false], fun xs => by simp only [idwma, idwmaBad, idwmaBatch, idwmaStart, a0, b0, c0, d0, e0, f0, r1, or_self, false_or, if_false]⟩) (fun o o' h h1 => by
    obtain ⟨p0, a0, b0, c0, d0, e0, f0⟩ := h.whole h1 0 (by decide)
    have r1 := h.real 1 (by decide)
    simp only [idwma, idwmaBad, idwmaNew, idwmaStart, a0, b0, c0, d0, e0, f0, r1, or_self, false_or, if_false])

theorem pc_fractions_partial : (pc (R := R)).IgnoresFractionsFromOne [0] :=
  ignoresFractionsFromOne_of (fun o o' h h1 => by
    obtain ⟨p0, a0, b0, c0, d0, e0, f0⟩ := h.whole h1 0 (by decide)
    exact ⟨by simp only [pc, pcStart, a0, b0, c0, d0, e0, f0, or_self, false_or, if_false], fun xs => by simp only [pc, pcBatch, pcStart, a0, b0, c0, d0, e0, f0, or_self, false_or, if_false]⟩) (fun o o' h h1 => by
    obtain ⟨p0, a0, b0, c0, d0, e0, f0⟩ := h.whole h1 0 (by decide)
    simp only [pc, pcNew, pcStart, a0, b0, c0, d0, e0, f0, or_self, false_or, if_false])

theorem lma_fractions_partial : IgnoresFractionsFromOne (R := R) lmaStart lmaBatch [0] := fun o o' h h1 => by
    obtain ⟨p0, a0, b0, c0, d0, e0, f0⟩ := h.whole h1 0 (by decide)
    exact ⟨by simp only [lmaStart, a0, b0, c0, d0, e0, f0, or_self, false_or, if_false], fun xs => by simp only [lmaBatch, lmaStart, a0, b0, c0, d0, e0, f0, or_self, false_or, if_false]⟩

theorem cmi_fractions_partial : IgnoresFractionsFromOne (R := R) cmiStart cmiBatch [0] := fun o o' h h1 => by
    obtain ⟨p0, a0, b0, c0, d0, e0, f0⟩ := h.whole h1 0 (by decide)
    exact ⟨by simp only [cmiStart, a0, b0, c0, d0, e0, f0, or_self, false_or, if_false], fun xs => by simp only [cmiBatch, cmiStart, a0, b0, c0, d0, e0, f0, or_self, false_or, if_false]⟩

theorem pbands_fractions_partial : IgnoresFractionsFromOne (R := R) pbandsStart pbandsBatch [0] := fun o o' h h1 => by
    obtain ⟨p0, a0, b0, c0, d0, e0, f0⟩ := h.whole h1 0 (by decide)
    exact ⟨by simp only [pbandsStart, a0, b0, c0, d0, e0, f0, or_self, false_or, if_false], fun xs => by simp only [pbandsBatch, pbandsStart, a0, b0, c0, d0, e0, f0, or_self, false_or, if_false]⟩

theorem posc_fractions_partial : IgnoresFractionsFromOne (R := R) pbandsStart poscBatch [0, 1] := fun o o' h h1 => by
    obtain ⟨p0, a0, b0, c0, d0, e0, f0⟩ := h.whole h1 0 (by decide)
    obtain ⟨p1, a1, b1, c1, d1, e1, f1⟩ := h.whole h1 1 (by decide)
    exact ⟨by simp only [pbandsStart, a0, b0, c0, d0, e0, f0, a1, b1, c1, d1, e1, f1, or_self, false_or, if_false], fun xs => by simp only [pbandsStart, poscBatch, a0, b0, c0, d0, e0, f0, a1, b1, c1, d1, e1, f1, or_self, false_or, if_false]⟩

theorem rvi_fractions_partial : IgnoresFractionsFromOne (R := R) rviStart rviBatch [0, 1] := fun o o' h h1 => by
    obtain ⟨p0, a0, b0, c0, d0, e0, f0⟩ := h.whole h1 0 (by decide)
    obtain ⟨p1, a1, b1, c1, d1, e1, f1⟩ := h.whole h1 1 (by decide)
    exact ⟨by simp only [rviStart, a0, b0, c0, d0, e0, f0, a1, b1, c1, d1, e1, f1, or_self, false_or, if_false], fun xs => by simp only [rviBatch, rviStart, a0, b0, c0, d0, e0, f0, a1, b1, c1, d1, e1, f1, or_self, false_or, if_false]⟩

theorem pfe_fractions_partial : IgnoresFractionsFromOne (R := R) pfeStart pfeBatch [0, 1] := fun o o' h h1 => by
    obtain ⟨p0, a0, b0, c0, d0, e0, f0⟩ := h.whole h1 0 (by decide)
    obtain ⟨p1, a1, b1, c1, d1, e1, f1⟩ := h.whole h1 1 (by decide)
    exact ⟨by simp only [pfeStart, a0, b0, c0, d0, e0, f0, a1, b1, c1, d1, e1, f1, or_self, false_or, if_false], fun xs => by simp only [pfeBatch, pfeStart, a0, b0, c0, d0, e0, f0, a1, b1, c1, d1, e1, f1, or_self, false_or, if_false]⟩

theorem kst_fractions_partial : IgnoresFractionsFromOne (R := R) kstStart kstBatch [0, 1, 2, 3, 4, 5, 6, 7] := fun o o' h h1 => by
    obtain ⟨p0, a0, b0, c0, d0, e0, f0⟩ := h.whole h1 0 (by decide)
    obtain ⟨p1, a1, b1, c1, d1, e1, f1⟩ := h.whole h1 1 (by decide)
    obtain ⟨p2, a2, b2, c2, d2, e2, f2⟩ := h.whole h1 2 (by decide)
    obtain ⟨p3, a3, b3, c3, d3, e3, f3⟩ := h.whole h1 3 (by decide)
    obtain ⟨p4, a4, b4, c4, d4, e4, f4⟩ := h.whole h1 4 (by decide)
    obtain ⟨p5, a5, b5, c5, d5, e5, f5⟩ := h.whole h1 5 (by decide)
    obtain ⟨p6, a6, b6, c6, d6, e6, f6⟩ := h.whole h1 6 (by decide)
    obtain ⟨p7, a7, b7, c7, d7, e7, f7⟩ := h.whole h1 7 (by decide)
    exact ⟨by simp only [kstStart, a0, b0, c0, d0, e0, f0, a1, b1, c1, d1, e1, f1, a2, b2, c2, d2, e2, f2, a3, b3, c3, d3, e3, f3, a4, b4, c4, d4, e4, f4, a5, b5, c5, d5, e5, f5, a6, b6, c6, d6, e6, f6, a7, b7, c7, d7, e7, f7, or_self, false_or, if_false], fun xs => by simp only [kstBatch, kstStart, a0, b0, c0, d0, e0, f0, a1, b1, c1, d1, e1, f1, a2, b2, c2, d2, e2, f2, a3, b3, c3, d3, e3, f3, a4, b4, c4, d4, e4, f4, a5, b5, c5, d5, e5, f5, a6, b6, c6, d6, e6, f6, a7, b7, c7, d7, e7, f7, or_self, false_or, if_false]⟩

end IntExactOnly

end Verif
