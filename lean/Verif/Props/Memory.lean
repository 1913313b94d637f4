/- C78: indicators that look at a window only. -/
import Verif.Props.UnitsLimits
import Verif.Proof.Memory

namespace Verif
open Spec Finset
open Memory
set_option linter.unusedSectionVars false
set_option linter.unusedSimpArgs false

/-- Unfold the windows and put the terms of each index in order. -/
macro "win" : tactic => `(tactic| simp only [winSum, winMean, winMax, winMin, winVar, winMeanDev, winWSum, gain, loss, relMove, wma, trima, sharpMean, change, kst,
  meanChange, efficiency, midChannel, buyingPressure, trueSpan, pressureRatio, typical, flowUp, flowDown, volumeMean, fastK, powerMean, backMean, hlc,
  Nat.add_comm, Nat.add_left_comm, Nat.add_assoc])

section
variable {R : Type} [Field R] [LinearOrder R] [IsStrictOrderedRing R] [CMath R]

/-! ### Prices -/

theorem sma_window (o : Nat → R) (p : Nat) (hc : toInt (o 0) = .ok (p : Int)) (hp : 1 ≤ p) :
    Windowed smaBatch o :=
  windowed (sma_value o p hc hp) fun x k j => by win

theorem max_window (o : Nat → R) (p : Nat) (hc : toInt (o 0) = .ok (p : Int)) (hp : 1 ≤ p) :
    Windowed maxBatch o :=
  windowed (max_value o p hc hp) fun x k j => by win

theorem min_window (o : Nat → R) (p : Nat) (hc : toInt (o 0) = .ok (p : Int)) (hp : 1 ≤ p) :
    Windowed minBatch o :=
  windowed (min_value o p hc hp) fun x k j => by win

theorem lag_window (o : Nat → R) (p : Nat) (hc : toInt (o 0) = .ok (p : Int)) :
    Windowed lagBatch o :=
  windowed (lag_value o p hc) fun x k j => by win

theorem avgprice_window (o : Nat → R) :
    Windowed avgpriceBatch o :=
  windowed (avgprice_value o) fun x k j => by win

theorem medprice_window (o : Nat → R) :
    Windowed medpriceBatch o :=
  windowed (medprice_value o) fun x k j => by win

theorem typprice_window (o : Nat → R) :
    Windowed typpriceBatch o :=
  windowed (typprice_value o) fun x k j => by win

theorem wcprice_window (o : Nat → R) :
    Windowed wcpriceBatch o :=
  windowed (wcprice_value o) fun x k j => by win

theorem sum_window (o : Nat → R) (p : Nat) (hc : toInt (o 0) = .ok (p : Int)) (hp : 1 ≤ p) :
    Windowed sumBatch o :=
  windowed (sum_value o p hc hp) fun x k j => by win

theorem mom_window (o : Nat → R) (p : Nat) (hc : toInt (o 0) = .ok (p : Int)) (hp : 1 ≤ p) :
    Windowed momBatch o :=
  windowed (mom_value o p hc hp) fun x k j => by win

theorem md_window [LawfulAbs R] (o : Nat → R) (p : Nat) (hc : toInt (o 0) = .ok (p : Int)) (hp : 1 ≤ p) :
    Windowed mdBatch o :=
  windowed (md_value o p hc hp) fun x k j => by win

theorem var_window (o : Nat → R) (p : Nat) (hc : toInt (o 0) = .ok (p : Int)) (hp : 1 ≤ p) :
    Windowed varBatch o :=
  windowed (var_value o p hc hp) fun x k j => by win

theorem stddev_window [LawfulSqrt R] (o : Nat → R) (p : Nat) (hc : toInt (o 0) = .ok (p : Int)) (hp : 1 ≤ p) :
    Windowed stddevBatch o :=
  windowed (stddev_value o p hc hp) fun x k j => by win

theorem cmo_window (o : Nat → R) (p : Nat) (hc : toInt (o 0) = .ok (p : Int)) (hp : 1 ≤ p) :
    Windowed cmoBatch o :=
  windowed (cmo_value o p hc hp) fun x k j => by win

theorem vhf_window [LawfulAbs R] (o : Nat → R) (p : Nat) (hc : toInt (o 0) = .ok (p : Int)) (hp : 1 ≤ p) :
    Windowed vhfBatch o :=
  windowed (vhf_value o p hc hp) fun x k j => by win

theorem er_window [LawfulAbs R] (o : Nat → R) (p : Nat) (hc : toInt (o 0) = .ok (p : Int)) (hp : 1 ≤ p) :
    Windowed erBatch o :=
  windowed (er_value o p hc hp) fun x k j => by win

theorem roc_window (o : Nat → R) (p : Nat) (hc : toInt (o 0) = .ok (p : Int)) (hp : 1 ≤ p) :
    Windowed rocBatch o :=
  windowed (roc_value o p hc hp) fun x k j => by win

theorem rocr_window (o : Nat → R) (p : Nat) (hc : toInt (o 0) = .ok (p : Int)) (hp : 1 ≤ p) :
    Windowed rocrBatch o :=
  windowed (rocr_value o p hc hp) fun x k j => by win

theorem volatility_window (o : Nat → R) (p : Nat) (hc : toInt (o 0) = .ok (p : Int)) (hp : 1 ≤ p) :
    Windowed volatilityBatch o :=
  windowed (volatility_value o p hc hp) fun x k j => by win

theorem vosc_window (o : Nat → R) (s p : Nat) (hs : toInt (o 0) = .ok (s : Int)) (hc : toInt (o 1) = .ok (p : Int)) (h1 : 1 ≤ s) (h2 : s ≤ p) :
    Windowed voscBatch o :=
  windowed (vosc_value o s p hs hc h1 h2) fun x k j => by win

theorem abands_window (o : Nat → R) (p : Nat) (hc : toInt (o 0) = .ok (p : Int)) (hp : 1 ≤ p) :
    Windowed abandsBatch o :=
  windowed (abands_value o p hc hp) fun x k j => by win

theorem ao_window (o : Nat → R) :
    Windowed aoBatch o :=
  windowed (ao_value o) fun x k j => by win

theorem qstick_window (o : Nat → R) (p : Nat) (hc : toInt (o 0) = .ok (p : Int)) (hp : 1 ≤ p) :
    Windowed qstickBatch o :=
  windowed (qstick_value o p hc hp) fun x k j => by win

theorem willr_window (o : Nat → R) (p : Nat) (hc : toInt (o 0) = .ok (p : Int)) (hp : 1 ≤ p) :
    Windowed willrBatch o :=
  windowed (willr_value o p hc hp) fun x k j => by win

theorem bop_window (o : Nat → R) :
    Windowed bopBatch o :=
  windowed (bop_value o) fun x k j => by win

theorem crossover_window (o : Nat → R) :
    Windowed crossoverBatch o :=
  windowed (crossover_value o) fun x k j => by win

theorem crossany_window (o : Nat → R) :
    Windowed crossanyBatch o :=
  windowed (crossany_value o) fun x k j => by win

theorem mfi_window (o : Nat → R) (p : Nat) (hc : toInt (o 0) = .ok (p : Int)) (hp : 1 ≤ p) :
    Windowed mfiBatch o :=
  windowed (mfi_value o p hc hp) fun x k j => by win

theorem cmf_window (o : Nat → R) (p : Nat) (hc : toInt (o 0) = .ok (p : Int)) (hp : 1 ≤ p) :
    Windowed cmfBatch o :=
  windowed (cmf_value o p hc hp) fun x k j => by win

theorem vwma_window (o : Nat → R) (p : Nat) (hc : toInt (o 0) = .ok (p : Int)) (hp : 1 ≤ p) :
    Windowed vwmaBatch o :=
  windowed (vwma_value o p hc hp) fun x k j => by win

theorem emv_window (o : Nat → R) :
    Windowed emvBatch o :=
  windowed (emv_value o) fun x k j => by win

theorem marketfi_window (o : Nat → R) :
    Windowed marketfiBatch o :=
  windowed (marketfi_value o) fun x k j => by win

theorem lma_window [LawfulTrunc R] [LawfulRound R] (o : Nat → R) (p : Nat) (hc : toInt (o 0) = .ok (p : Int)) (hp : 1 ≤ p) :
    Windowed lmaBatch o :=
  windowed (lma_value o p hc hp) fun x k j => by win

/-- Partial: the weight total does not overflow. -/
theorem wma_window_partial (o : Nat → R) (p : Nat) (hc : toInt (o 0) = .ok (p : Int)) (hp : 1 ≤ p) (hb : p * (p + 1) ≤ 2147483647) :
    Windowed wmaBatch o :=
  windowed (wma_value_partial o p hc hp hb) fun x k j => by win

/-- Partial: the weight total does not overflow. -/
theorem trima_window_partial (o : Nat → R) (p : Nat) (hc : toInt (o 0) = .ok (p : Int)) (hp : 1 ≤ p) (hb : ((p / 2 : Nat) + 1) * ((p / 2 : Nat) + 1) ≤ 2147483647) :
    Windowed trimaBatch o :=
  windowed (trima_value_partial o p hc hp hb) fun x k j => by win

/-- Partial: the weight total does not overflow. -/
theorem hma_window_partial (o : Nat → R) (p s : Nat) (hc : toInt (o 0) = .ok (p : Int)) (hs : toInt (CMath.sqrt ((p : Int) : R)) = .ok (s : Int)) (hp : 2 ≤ p) (hs1 : 1 ≤ s) (hsp : s ≤ p) (hb : p * (p + 1) ≤ 2147483647) :
    Windowed hmaBatch o :=
  windowed (hma_value_partial o p s hc hs hp hs1 hsp hb) fun x k j => by win

/-- Partial: the start index is computed without overflow. -/
theorem dwma_window_partial [LawfulTrunc R] [LawfulRound R] (o : Nat → R) (p : Nat) (ho : o 0 = ((p : Int) : R)) (hp : 1 ≤ p) (hb : p ≤ 1073741824) :
    Windowed dwmaBatch o :=
  windowed (dwma_value_partial o p ho hp hb) fun x k j => by win

/-- Partial: the weight total does not overflow. -/
theorem shmma_window_partial [LawfulTrunc R] [LawfulRound R] (o : Nat → R) (p : Nat) (hc : toInt (o 0) = .ok (p : Int)) (hp : 1 ≤ p) (hb : (p + 1) * p ≤ 2147483647) :
    Windowed shmmaBatch o :=
  windowed (shmma_value_partial o p hc hp hb) fun x k j => by win

/-- Partial: period 1 is out of bounds. -/
theorem pc_window_partial [LawfulTrunc R] [LawfulRound R] (o : Nat → R) (p : Nat) (hc : toInt (o 0) = .ok (p : Int)) (hp : 2 ≤ p) :
    Windowed pcBatch o :=
  windowed (pc_value_partial o p hc hp) fun x k j => by win

/-- Partial: the start index is computed without overflow. -/
theorem cci_window_partial [LawfulAbs R] (o : Nat → R) (p : Nat) (hc : toInt (o 0) = .ok (p : Int)) (hp : 1 ≤ p) (hb : p * 2 ≤ 2147483647) :
    Windowed cciBatch o :=
  windowed (cci_value_partial o p hc hp hb) fun x k j => by win

/-- Partial: the start index is computed without overflow. -/
theorem stoch_window_partial (o : Nat → R) (kp ks dp : Nat) (h0 : toInt (o 0) = .ok (kp : Int)) (h1 : toInt (o 1) = .ok (ks : Int)) (h2 : toInt (o 2) = .ok (dp : Int)) (p0 : 1 ≤ kp) (p1 : 1 ≤ ks) (p2 : 1 ≤ dp) (hb : kp + ks + dp ≤ 2147483647) :
    Windowed stochBatch o :=
  windowed (stoch_value_partial o kp ks dp h0 h1 h2 p0 p1 p2 hb) fun x k j => by win

theorem stderr_window [LawfulSqrt R] (o : Nat → R) (p : Nat) (hc : toInt (o 0) = .ok (p : Int)) (hp : 1 ≤ p) :
    Windowed stderrBatch o :=
  windowed (stderr_value o p hc hp) fun x k j => by win

theorem bbands_window (o : Nat → R) (p : Nat) (hc : toInt (o 0) = .ok (p : Int)) (hp : 1 ≤ p) :
    Windowed bbandsBatch o :=
  windowed (bbands_value o p hc hp) fun x k j => by win

theorem vwap_window [LawfulTrunc R] [LawfulRound R] (o : Nat → R) (p : Nat) (hc : toInt (o 0) = .ok (p : Int)) (hp : 1 ≤ p) :
    Windowed vwapBatch o :=
  windowed (vwap_value o p hc hp) fun x k j => by win

theorem pwma_window [LawfulTrunc R] [LawfulRound R] (o : Nat → R) (p : Nat) (hc : toInt (o 0) = .ok (p : Int)) (hp : 1 ≤ p) :
    Windowed pwmaBatch o :=
  windowed (pwma_value o p hc hp) fun x k j => by win

theorem idwma_window [LawfulTrunc R] [LawfulRound R] (o : Nat → R) (p : Nat) (hc : toInt (o 0) = .ok (p : Int)) (hp : 1 ≤ p) (h1 : 1 ≤ o 1) (h2 : o 1 ≤ 2) :
    Windowed idwmaBatch o :=
  windowed (idwma_value o p hc hp h1 h2) fun x k j => by win; congr 1; exact sum_congr rfl fun i hi => by have := mem_range.1 hi; congr 2; omega

theorem swma_window (o : Nat → R) (p : Nat) (hc : toInt (o 0) = .ok (p : Int)) (hp : 1 ≤ p) (hb : p < 2147483647) (h1 : p % 6 ≠ 0) (h2 : p % 6 ≠ 5) :
    Windowed swmaBatch o :=
  windowed (swma_value o p hc hp hb h1 h2) fun x k j => by win; congr 1; exact sum_congr rfl fun i hi => by have := mem_range.1 hi; congr 2; omega

/-- Partial: whole periods within the range of `int`. -/
theorem copp_window_partial [LawfulTrunc R] [LawfulRound R] (o : Nat → R) (s l w : Nat) (h0 : o 0 = ((s : Int) : R)) (h1 : o 1 = ((l : Int) : R)) (h2 : o 2 = ((w : Int) : R)) (hs : 1 ≤ s) (hl : s ≤ l) (hw : 1 ≤ w) (hb : l + w ≤ 2147483646) :
    Windowed coppBatch o :=
  windowed (copp_value_partial o s l w h0 h1 h2 hs hl hw hb) fun x k j => by
    simp only [wma, winWSum]
    congr 1
    refine sum_congr rfl fun i _ => ?_
    congr 1
    have e1 : j + k + i + l - s = j + i + l - s + k := by omega
    have e2 : j + k + i + l - l = j + i + l - l + k := by omega
    have e3 : j + k + i + l = j + i + l + k := by omega
    simp only [meanChange, e1, e2]
    rw [e3]

/-- Partial: the start index is computed without overflow. -/
theorem ichi_window_partial [LawfulTrunc R] [LawfulRound R] (o : Nat → R) (p9 p26 p52 : Nat) (h0 : toInt (o 0) = .ok (p9 : Int)) (h1 : toInt (o 1) = .ok (p26 : Int)) (h2 : toInt (o 2) = .ok (p52 : Int)) (h9 : 1 ≤ p9) (h26 : p9 ≤ p26) (h52 : p26 ≤ p52) (hb : p52 - 1 + p26 ≤ 2147483647) (hb' : p26 + 1 ≤ 2147483647) :
    Windowed ichiBatch o :=
  windowed (ichi_value_partial o p9 p26 p52 h0 h1 h2 h9 h26 h52 hb hb') fun x k j => by
    have e {p i : Nat} (h : p ≤ i + 1) : midChannel p (fun i => x (i + k)) i = midChannel p x (i + k) := by
      simp only [midChannel, winMax, winMin, show ∀ m, i + k + 1 - p + m = i + 1 - p + m + k from fun m => by omega]
    simp only [← Nat.add_assoc]
    rw [e (by omega), e (by omega), e (by omega), e (by omega), e (by omega)]

/-- Partial: the long period is longer than the medium one. -/
theorem ultosc_window_partial (o : Nat → R) (s m l : Nat) (hs : toInt (o 0) = .ok (s : Int)) (hm : toInt (o 1) = .ok (m : Int)) (hl : toInt (o 2) = .ok (l : Int)) (h1 : 1 ≤ s) (h2 : s ≤ m) (h3 : m < l) :
    Windowed ultoscBatch o :=
  windowed (ultosc_value_partial o s m l hs hm hl h1 h2 h3) fun x k j => by
    have e {p i : Nat} (h : p ≤ i) : pressureRatio p (fun i => x (i + k)) i = pressureRatio p x (i + k) := by
      simp only [pressureRatio, buyingPressure, trueSpan, show ∀ m, i + k - p + m = i - p + m + k from fun m => by omega, winSum, Nat.add_right_comm _ k 1]
    rw [e (by omega), e (by omega), e (by omega), Nat.add_right_comm]

/-- Partial: whole periods for which twice the period does not overflow. -/
theorem edcf_window_partial [LawfulCeil R] [LawfulTrunc R] [LawfulRound R] (o : Nat → R) (p : Nat) (ho : o 0 = ((p : Int) : R)) (hp : 1 ≤ p) (hb : p ≤ 1073741823) :
    Windowed edcfBatch o :=
  windowed (edcf_value_partial o p ho hp hb) fun x k j => by
    have e : ∀ t, p ≤ t → distWeight p (fun i => x (i + k)) t = distWeight p x (t + k) := fun t ht => by
      simp only [distWeight]
      refine sum_congr rfl fun l hl => ?_
      have := mem_range.1 hl
      rw [show t + k - (l + 1) = t - (l + 1) + k by omega]
    simp only [distFilter]
    have e1 : ∀ i, i ∈ range p → j + k + (2 * p - 1) - i = j + (2 * p - 1) - i + k := fun i hi => by have := mem_range.1 hi; omega
    have e2 : ∀ i, i ∈ range p → distWeight p (fun i => x (i + k)) (j + (2 * p - 1) - i) = distWeight p x (j + k + (2 * p - 1) - i) := fun i hi => by
      have := mem_range.1 hi
      rw [e _ (by omega), e1 i hi]
    have e3 : ∀ i, i ∈ range p → distWeight p (fun i => x (i + k)) (j + (2 * p - 1) - i) * x (j + (2 * p - 1) - i + k) =
        distWeight p x (j + k + (2 * p - 1) - i) * x (j + k + (2 * p - 1) - i) := fun i hi => by rw [e2 i hi, ← e1 i hi]
    rw [sum_congr rfl e2, sum_congr rfl e3]

theorem hwma_window (o : Nat → R) (p : Nat) (hc : toInt (o 0) = .ok (p : Int)) (h7 : 7 ≤ p) (h13 : p ≤ 13) :
    Windowed hwmaBatch o :=
  windowed (hwma_value o p hc h7 h13) fun x k j => by
    simp only [henderson]
    refine sum_congr rfl fun i hi => ?_
    have := mem_range.1 hi
    rw [show p - 1 + (j + k) - i = p - 1 + j - i + k by omega]

theorem msw_window [LawfulAbs R] (o : Nat → R) (p : Nat) (hc : toInt (o 0) = .ok (p : Int)) (hp : 1 ≤ p) :
    Windowed mswBatch o :=
  windowed (msw_value o p hc hp) fun x k j => by
    have e (w : Nat → R) : ∑ i ∈ range p, w i * x (j + p - i + k) = ∑ i ∈ range p, w i * x (j + k + p - i) :=
      sum_congr rfl fun i hi => by rw [show j + p - i + k = j + k + p - i by have := mem_range.1 hi; omega]
    simp only [e]

/-- Partial: whole periods. -/
theorem hurst_window_partial [LawfulTrunc R] [LawfulRound R] [LawfulCeil R] [LawfulPow R] (o : Nat → R) (p : Nat) (ho : o 0 = ((p : Int) : R)) (hp : 2 ≤ p) (hb : p ≤ 2147483647) :
    Windowed hurstBatch o :=
  windowed (hurst_value_partial o p ho hp hb) fun x k j => by
    have r : logReturn (fun i => x (i + k)) = fun i => logReturn x (i + k) := funext fun i => by simp only [logReturn, Nat.add_right_comm _ k]
    have m : ∀ j, winMean p (fun i => logReturn x (i + k)) j = winMean p (logReturn x) (j + k) := fun j => by win
    have d : ∀ m, m < p → cumDev p (fun i => logReturn x (i + k)) j (m + 1) = cumDev p (logReturn x) (j + k) (m + 1) := fun n hn => by
      simp only [cumDev, m]
      refine sum_congr rfl fun i hi => ?_
      have := mem_range.1 hi
      rw [show j + (p - 1) - i + k = j + k + (p - 1) - i by omega]
    have c : cumRange p (fun i => logReturn x (i + k)) j = cumRange p (logReturn x) (j + k) := by
      simp only [cumRange]
      rw [Units.winMax_congr (x := fun m => cumDev p (logReturn x) (j + k) (m + 1)) fun i hi => d _ (by omega),
        Units.winMin_congr (x := fun m => cumDev p (logReturn x) (j + k) (m + 1)) fun i hi => d _ (by omega)]
    have v : winVar p (fun i => logReturn x (i + k)) j = winVar p (logReturn x) (j + k) := by win
    simp only [hurstExp, r, c, v]

/-- Partial: shorter periods read before the input. -/
theorem dpo_window_partial (o : Nat → R) (p : Nat) (hc : toInt (o 0) = .ok (p : Int)) (hp : 3 ≤ p) :
    Windowed dpoBatch o :=
  windowed (dpo_value_partial o p hc hp) fun x k j => by
    rw [show j + k + (p - 1) - (p / 2 + 1) = j + (p - 1) - (p / 2 + 1) + k by omega]
    win

/-- Partial: no overflow in the number of steps. -/
theorem emsd_window_partial [LawfulPow R] (o : Nat → R) (p m : Nat) (hc : toInt (o 0) = .ok (p : Int)) (h1 : toInt (o 1) = .ok (m : Int)) (hp : 1 ≤ p) (hm : 1 ≤ m) (hb : m < 2147483647) :
    Windowed emsdBatch o :=
  windowed (emsd_value_partial o p m hc h1 hp hm hb) fun x k j => by win

/-! ### Values given by a relation -/
theorem line_shift {p : Nat} (hp : 2 ≤ p) {A B : (Nat → R) → Nat → R} (h : ∀ x j, IsBestLine p x j (A x j) (B x j)) (x : Nat → R) (k j : Nat) :
    A (fun i => x (i + k)) j = A x (j + k) ∧ B (fun i => x (i + k)) j = B x (j + k) :=
  bestLine_unique hp (h _ j) fun a b => by
    have := h x (j + k) a b
    simpa only [sqErr, Nat.add_right_comm _ k] using this
/-- Partial: period 1 and periods whose square overflows are left out (in the next ones too). -/
theorem linreg_window_partial (o : Nat → R) (p : Nat) (hc : toInt (o 0) = .ok (p : Int)) (hp : 2 ≤ p) (hpp : p * p ≤ 2147483647) : Windowed linregBatch o := by
  obtain ⟨A, B, h1, h2⟩ := linreg_value_partial o p hc hp hpp
  exact windowed h2 fun x k j => by rw [(line_shift hp h1 x k j).1, (line_shift hp h1 x k j).2]
theorem linregintercept_window_partial (o : Nat → R) (p : Nat) (hc : toInt (o 0) = .ok (p : Int)) (hp : 2 ≤ p) (hpp : p * p ≤ 2147483647) : Windowed linreginterceptBatch o := by
  obtain ⟨A, B, h1, h2⟩ := linregintercept_value_partial o p hc hp hpp
  exact windowed h2 fun x k j => by simp only [(line_shift hp h1 x k j).1, (line_shift hp h1 x k j).2]
theorem linregslope_window_partial (o : Nat → R) (p : Nat) (hc : toInt (o 0) = .ok (p : Int)) (hp : 2 ≤ p) (hpp : p * p ≤ 2147483647) : Windowed linregslopeBatch o := by
  obtain ⟨A, B, h1, h2⟩ := linregslope_value_partial o p hc hp hpp
  exact windowed h2 fun x k j => by rw [(line_shift hp h1 x k j).2]
theorem tsf_window_partial (o : Nat → R) (p : Nat) (hc : toInt (o 0) = .ok (p : Int)) (hp : 2 ≤ p) (hpp : p * p ≤ 2147483647) : Windowed tsfBatch o := by
  obtain ⟨A, B, h1, h2⟩ := tsf_value_partial o p hc hp hpp
  exact windowed h2 fun x k j => by rw [(line_shift hp h1 x k j).1, (line_shift hp h1 x k j).2]
theorem fosc_window_partial (o : Nat → R) (p : Nat) (hc : toInt (o 0) = .ok (p : Int)) (hp : 2 ≤ p) (hpp : p * p ≤ 2147483647) : Windowed foscBatch o := by
  obtain ⟨A, B, h1, h2⟩ := fosc_value_partial o p hc hp hpp
  exact windowed h2 fun x k j => by rw [(line_shift hp h1 x k j).1, (line_shift hp h1 x k j).2, Nat.add_right_comm]
theorem pbands_window_partial [LawfulTrunc R] [LawfulRound R] (o : Nat → R) (p : Nat) (hcp : toInt (o 0) = .ok (p : Int)) (hp : 1 ≤ p)
    (hpp : p * (p + 1) * (2 * p + 1) ≤ 2147483647) : Windowed pbandsBatch o := by
  obtain ⟨band, h1, h2⟩ := pbands_value_partial o p hcp hp hpp
  exact windowed h2 fun x k j => projection_unique hp (h1 _ j) fun a b h => by
    have e : ∀ f : Nat → R, projections p (fun i => f (i + k)) b (j + (p - 1)) = projections p f b (j + k + (p - 1)) := fun f => by
      ext v
      simp only [projections, Set.mem_setOf_eq]
      refine exists_congr fun i => and_congr_right fun hi => ?_
      rw [show j + (p - 1) - i + k = j + k + (p - 1) - i by omega]
    rw [e fun i => (x i).high, e fun i => (x i).low]
    exact h1 x (j + k) a b fun a' b' => by simpa only [sqErr, Nat.add_right_comm _ k] using h a' b'
/-- Partial: the length of the window is within the range of `int`. -/
theorem hf_window_partial [LawfulAbs R] (o : Nat → R) (k : Nat) (hc : toInt (o 0) = .ok (k : Int)) (hk : 1 ≤ k) (hb : 2 * k + 1 ≤ 2147483647) (ht : 0 ≤ o 1) :
    Windowed hfBatch o :=
  windowed_rel (s := 2 * k) (rel := fun x t v => Hampel (o 1) (seg x t (2 * k + 1)) (x (t + 2 * k)) v)
    (fun x N => by obtain ⟨v, h1, h2⟩ := hf_value_partial o k hc hk hb ht x; exact ⟨v, h1 N, h2⟩)
    (fun x m t w h => by simpa only [seg, Nat.add_right_comm _ m] using h) fun _ _ _ _ => hampel_unique
/-- Partial: the length of the window is within the range of `int`. -/
theorem hfsma_window_partial [LawfulAbs R] [LawfulTrunc R] [LawfulRound R] (o : Nat → R) (p k : Nat) (h0 : toInt (o 0) = .ok (p : Int)) (h1 : toInt (o 1) = .ok (k : Int)) (hp : 1 ≤ p)
    (hk : 1 ≤ k) (hb : 2 * k + 1 ≤ 2147483647) (hb2 : p - 1 + 2 * k ≤ 2147483647) (ht : 0 ≤ o 2) : Windowed hfsmaBatch o :=
  windowed_rel (s := p - 1 + 2 * k) (rel := fun x t v => HampelIncl (o 2) (seg (winMean p x) t (2 * k + 1)) (winMean p x (t + k)) v)
    (fun x N => by obtain ⟨v, h1, h2⟩ := hfsma_value_partial o p k h0 h1 hp hk hb hb2 ht x; exact ⟨v, h1 N, h2⟩)
    (fun x m t w h => by
      have e : winMean p (fun i => x (i + m)) = fun t => winMean p x (t + m) := funext fun t => by simp only [winMean, winSum, Nat.add_right_comm _ m]
      simp only [e] at h
      simpa only [seg, Nat.add_right_comm _ m] using h) fun _ _ _ _ => hampelIncl_unique
theorem aroon_window (o : Nat → R) (p : Nat) (hc : toInt (o 0) = .ok (p : Int)) (hp : 1 ≤ p) : Windowed aroonBatch o :=
  windowed_rel (s := p) (rel := fun x j w => ∃ kl kh, LastMin (fun i => (x i).low) j (j + p) kl ∧ LastMax (fun i => (x i).high) j (j + p) kh ∧
      w = ⟨100 * ((p : R) - ((j + p - kl : Nat) : R)) / p, 100 * ((p : R) - ((j + p - kh : Nat) : R)) / p⟩) (aroon_value o p hc hp) (fun x m j w h => by
      obtain ⟨kl, kh, ⟨l1, l2, l3, l4⟩, ⟨g1, g2, g3, g4⟩, e⟩ := h
      refine ⟨kl + m, kh + m, ⟨by omega, by omega, fun i h1 h2 => ?_, fun i h1 h2 => ?_⟩, ⟨by omega, by omega, fun i h1 h2 => ?_, fun i h1 h2 => ?_⟩, ?_⟩
      · have := l3 (i - m) (by omega) (by omega); beta_reduce at this; rwa [Nat.sub_add_cancel (by omega)] at this
      · have := l4 (i - m) (by omega) (by omega); beta_reduce at this; rwa [Nat.sub_add_cancel (by omega)] at this
      · have := g3 (i - m) (by omega) (by omega); beta_reduce at this; rwa [Nat.sub_add_cancel (by omega)] at this
      · have := g4 (i - m) (by omega) (by omega); beta_reduce at this; rwa [Nat.sub_add_cancel (by omega)] at this
      · rw [e, show j + m + p - (kl + m) = j + p - kl by omega, show j + m + p - (kh + m) = j + p - kh by omega])
    fun x j w w' h h' => by
      obtain ⟨kl, kh, l1, l2, e⟩ := h
      obtain ⟨kl', kh', l3, l4, e'⟩ := h'
      rw [e, e', Units.lastMin_unique l1 l3, Units.lastMax_unique l2 l4]
theorem aroonosc_window (o : Nat → R) (p : Nat) (hc : toInt (o 0) = .ok (p : Int)) (hp : 1 ≤ p) : Windowed aroonoscBatch o := fun xs _ => by
  obtain ⟨x, e⟩ := exists_pre xs
  obtain ⟨y, z, h1, h2, h3⟩ := aroonosc_value o p hc hp x xs.length
  rw [← e] at h1 h2
  refine ⟨_, h2, fun k _ => ?_⟩
  obtain ⟨out, g1, g2⟩ := aroon_window o p hc hp xs trivial
  have g2 := g2 k trivial
  have e' : xs.drop k = pre (fun i => x (i + k)) (xs.length - k) := congrArg (List.drop k) e |>.trans (pre_drop _ _ _)
  obtain ⟨y', z', h1', h2', h3'⟩ := aroonosc_value o p hc hp (fun i => x (i + k)) (xs.length - k)
  rw [← e'] at h1' h2'
  rw [h1] at g1
  simp only [Except.ok.injEq, Prod.mk.injEq, true_and] at g1
  rw [h1', ← g1, pre_drop] at g2
  simp only [Except.ok.injEq, Prod.mk.injEq, true_and] at g2
  rw [h2', pre_drop, Nat.sub_right_comm]
  congr 2
  rw [Nat.sub_right_comm] at g2
  refine List.map_congr_left fun j hj => ?_
  rw [h3, h3', Units.pre_eq_at g2 (List.mem_range.1 hj)]
/-- Partial: as long as more bars than the period are left. -/
theorem vi_window_partial [LawfulAbs R] (o : Nat → R) (p : Nat) (hc : toInt (o 0) = .ok (p : Int)) (hp : 1 ≤ p) :
    Windowed viBatch o (fun xs => p < xs.length) := fun xs hN => by
  obtain ⟨x, e⟩ := exists_pre xs
  refine ⟨pre _ (xs.length - p), congrArg (viBatch o) e |>.trans (vi_value_partial o p hc hp x _ hN), fun k hk => ?_⟩
  have e' : xs.drop k = pre (fun i => x (i + k)) (xs.length - k) := congrArg (List.drop k) e |>.trans (pre_drop _ _ _)
  rw [e', vi_value_partial o p hc hp _ _ (by simpa using hk), pre_drop, Nat.sub_right_comm]
  congr 3
  funext j
  have t : (fun i => Spec.trueRange (fun i => x (i + k)) (i + 1)) = fun i => Spec.trueRange x (i + k + 1) := funext fun i => by
    simp [Spec.trueRange, Nat.add_right_comm _ k 1]
  simp only [vortex]
  rw [t]
  simp only [vortexUp, vortexDown, winSum, Nat.add_right_comm _ k]

end

end Verif
