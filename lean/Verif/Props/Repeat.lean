/- C90: what a price that repeats itself does to the outputs. -/
import Verif.Spec.Repeat
import Verif.Props.Memory
import Verif.Props.LagMore

namespace Verif
open Spec Finset
open Converge (Tends)
open Memory
set_option linter.unusedSectionVars false

section
variable {R ρ ω : Type}

/-- A function that looks at a window only gives repeating outputs. -/
theorem repeats {batch : (Nat → R) → List ρ → M (Ret × List ω)} {o : Nat → R} {s : Nat} {y : (Nat → ρ) → Nat → ω} (hw : Windowed batch o)
    (hc : Computes batch o s y) : Repeats batch o := by
  refine ⟨s, fun x q m hx N => ⟨_, hc x N, by simp [pre], fun j v v' hj hv hv' => ?_⟩⟩
  rw [pre_get? hv, pre_get? hv']
  obtain ⟨u, h1, h2⟩ := hw (pre x (j + q + s + 1)) trivial
  obtain ⟨u', h1', h2'⟩ := hw (pre x (j + s + 1)) trivial
  rw [hc] at h1 h1'
  cases h1
  cases h1'
  have h2 := h2 (m + q) trivial
  have h2' := h2' m trivial
  rw [pre_drop, pre_drop] at h2 h2'
  rw [show (fun i => x (i + (m + q))) = fun i => x (i + m) from funext fun i => by rw [← Nat.add_assoc]; exact hx _ (by omega),
    show j + q + s + 1 - (m + q) = j + s + 1 - m by omega, h2'] at h2
  simp only [Except.ok.injEq, Prod.mk.injEq, true_and] at h2
  rw [show j + s + 1 - s - m = j - m + 1 by omega, show j + q + s + 1 - s - (m + q) = j - m + 1 by omega] at h2
  have := Units.pre_eq_at h2 (show j - m < j - m + 1 by omega)
  beta_reduce at this
  rw [show j - m + m = j by omega, show j - m + (m + q) = j + q by omega] at this
  exact this.symm
end

section
variable {R : Type} [Field R] [LinearOrder R] [IsStrictOrderedRing R] [CMath R]

/-! ### Windows -/

theorem sma_repeats (o : Nat → R) (p : Nat) (hc : toInt (o 0) = .ok (p : Int)) (hp : 1 ≤ p) : Repeats smaBatch o := 
  repeats (sma_window o p hc hp) (sma_value o p hc hp)

theorem max_repeats (o : Nat → R) (p : Nat) (hc : toInt (o 0) = .ok (p : Int)) (hp : 1 ≤ p) : Repeats maxBatch o := 
  repeats (max_window o p hc hp) (max_value o p hc hp)

theorem min_repeats (o : Nat → R) (p : Nat) (hc : toInt (o 0) = .ok (p : Int)) (hp : 1 ≤ p) : Repeats minBatch o := 
  repeats (min_window o p hc hp) (min_value o p hc hp)

theorem lag_repeats (o : Nat → R) (p : Nat) (hc : toInt (o 0) = .ok (p : Int)) : Repeats lagBatch o := 
  repeats (lag_window o p hc) (lag_value o p hc)

theorem avgprice_repeats (o : Nat → R) : Repeats avgpriceBatch o := 
  repeats (avgprice_window o) (avgprice_value o)

theorem medprice_repeats (o : Nat → R) : Repeats medpriceBatch o := 
  repeats (medprice_window o) (medprice_value o)

theorem typprice_repeats (o : Nat → R) : Repeats typpriceBatch o := 
  repeats (typprice_window o) (typprice_value o)

theorem wcprice_repeats (o : Nat → R) : Repeats wcpriceBatch o := 
  repeats (wcprice_window o) (wcprice_value o)

theorem sum_repeats (o : Nat → R) (p : Nat) (hc : toInt (o 0) = .ok (p : Int)) (hp : 1 ≤ p) : Repeats sumBatch o := 
  repeats (sum_window o p hc hp) (sum_value o p hc hp)

theorem mom_repeats (o : Nat → R) (p : Nat) (hc : toInt (o 0) = .ok (p : Int)) (hp : 1 ≤ p) : Repeats momBatch o := 
  repeats (mom_window o p hc hp) (mom_value o p hc hp)

theorem md_repeats [LawfulAbs R] (o : Nat → R) (p : Nat) (hc : toInt (o 0) = .ok (p : Int)) (hp : 1 ≤ p) : Repeats mdBatch o := 
  repeats (md_window o p hc hp) (md_value o p hc hp)

theorem var_repeats (o : Nat → R) (p : Nat) (hc : toInt (o 0) = .ok (p : Int)) (hp : 1 ≤ p) : Repeats varBatch o := 
  repeats (var_window o p hc hp) (var_value o p hc hp)

theorem stddev_repeats [LawfulSqrt R] (o : Nat → R) (p : Nat) (hc : toInt (o 0) = .ok (p : Int)) (hp : 1 ≤ p) : Repeats stddevBatch o := 
  repeats (stddev_window o p hc hp) (stddev_value o p hc hp)

theorem cmo_repeats (o : Nat → R) (p : Nat) (hc : toInt (o 0) = .ok (p : Int)) (hp : 1 ≤ p) : Repeats cmoBatch o := 
  repeats (cmo_window o p hc hp) (cmo_value o p hc hp)

theorem vhf_repeats [LawfulAbs R] (o : Nat → R) (p : Nat) (hc : toInt (o 0) = .ok (p : Int)) (hp : 1 ≤ p) : Repeats vhfBatch o := 
  repeats (vhf_window o p hc hp) (vhf_value o p hc hp)

theorem er_repeats [LawfulAbs R] (o : Nat → R) (p : Nat) (hc : toInt (o 0) = .ok (p : Int)) (hp : 1 ≤ p) : Repeats erBatch o := 
  repeats (er_window o p hc hp) (er_value o p hc hp)

theorem roc_repeats (o : Nat → R) (p : Nat) (hc : toInt (o 0) = .ok (p : Int)) (hp : 1 ≤ p) : Repeats rocBatch o := 
  repeats (roc_window o p hc hp) (roc_value o p hc hp)

theorem rocr_repeats (o : Nat → R) (p : Nat) (hc : toInt (o 0) = .ok (p : Int)) (hp : 1 ≤ p) : Repeats rocrBatch o := 
  repeats (rocr_window o p hc hp) (rocr_value o p hc hp)

theorem volatility_repeats (o : Nat → R) (p : Nat) (hc : toInt (o 0) = .ok (p : Int)) (hp : 1 ≤ p) : Repeats volatilityBatch o := 
  repeats (volatility_window o p hc hp) (volatility_value o p hc hp)

theorem vosc_repeats (o : Nat → R) (s p : Nat) (hs : toInt (o 0) = .ok (s : Int)) (hc : toInt (o 1) = .ok (p : Int)) (h1 : 1 ≤ s) (h2 : s ≤ p) : Repeats voscBatch o := 
  repeats (vosc_window o s p hs hc h1 h2) (vosc_value o s p hs hc h1 h2)

theorem abands_repeats (o : Nat → R) (p : Nat) (hc : toInt (o 0) = .ok (p : Int)) (hp : 1 ≤ p) : Repeats abandsBatch o := 
  repeats (abands_window o p hc hp) (abands_value o p hc hp)

theorem ao_repeats (o : Nat → R) : Repeats aoBatch o := 
  repeats (ao_window o) (ao_value o)

theorem qstick_repeats (o : Nat → R) (p : Nat) (hc : toInt (o 0) = .ok (p : Int)) (hp : 1 ≤ p) : Repeats qstickBatch o := 
  repeats (qstick_window o p hc hp) (qstick_value o p hc hp)

theorem willr_repeats (o : Nat → R) (p : Nat) (hc : toInt (o 0) = .ok (p : Int)) (hp : 1 ≤ p) : Repeats willrBatch o := 
  repeats (willr_window o p hc hp) (willr_value o p hc hp)

theorem bop_repeats (o : Nat → R) : Repeats bopBatch o := 
  repeats (bop_window o) (bop_value o)

theorem crossover_repeats (o : Nat → R) : Repeats crossoverBatch o := 
  repeats (crossover_window o) (crossover_value o)

theorem crossany_repeats (o : Nat → R) : Repeats crossanyBatch o := 
  repeats (crossany_window o) (crossany_value o)

theorem mfi_repeats (o : Nat → R) (p : Nat) (hc : toInt (o 0) = .ok (p : Int)) (hp : 1 ≤ p) : Repeats mfiBatch o := 
  repeats (mfi_window o p hc hp) (mfi_value o p hc hp)

theorem cmf_repeats (o : Nat → R) (p : Nat) (hc : toInt (o 0) = .ok (p : Int)) (hp : 1 ≤ p) : Repeats cmfBatch o := 
  repeats (cmf_window o p hc hp) (cmf_value o p hc hp)

theorem vwma_repeats (o : Nat → R) (p : Nat) (hc : toInt (o 0) = .ok (p : Int)) (hp : 1 ≤ p) : Repeats vwmaBatch o := 
  repeats (vwma_window o p hc hp) (vwma_value o p hc hp)

theorem emv_repeats (o : Nat → R) : Repeats emvBatch o := 
  repeats (emv_window o) (emv_value o)

theorem marketfi_repeats (o : Nat → R) : Repeats marketfiBatch o := 
  repeats (marketfi_window o) (marketfi_value o)

theorem lma_repeats [LawfulTrunc R] [LawfulRound R] (o : Nat → R) (p : Nat) (hc : toInt (o 0) = .ok (p : Int)) (hp : 1 ≤ p) : Repeats lmaBatch o := 
  repeats (lma_window o p hc hp) (lma_value o p hc hp)

/-- Partial: the weight total does not overflow. -/
theorem wma_repeats_partial (o : Nat → R) (p : Nat) (hc : toInt (o 0) = .ok (p : Int)) (hp : 1 ≤ p) (hb : p * (p + 1) ≤ 2147483647) : Repeats wmaBatch o := 
  repeats (wma_window_partial o p hc hp hb) (wma_value_partial o p hc hp hb)

/-- Partial: the weight total does not overflow. -/
theorem trima_repeats_partial (o : Nat → R) (p : Nat) (hc : toInt (o 0) = .ok (p : Int)) (hp : 1 ≤ p) (hb : ((p / 2 : Nat) + 1) * ((p / 2 : Nat) + 1) ≤ 2147483647) : Repeats trimaBatch o := 
  repeats (trima_window_partial o p hc hp hb) (trima_value_partial o p hc hp hb)

/-- Partial: the weight total does not overflow. -/
theorem hma_repeats_partial (o : Nat → R) (p s : Nat) (hc : toInt (o 0) = .ok (p : Int)) (hs : toInt (CMath.sqrt ((p : Int) : R)) = .ok (s : Int)) (hp : 2 ≤ p) (hs1 : 1 ≤ s) (hsp : s ≤ p) (hb : p * (p + 1) ≤ 2147483647) : Repeats hmaBatch o := 
  repeats (hma_window_partial o p s hc hs hp hs1 hsp hb) (hma_value_partial o p s hc hs hp hs1 hsp hb)

/-- Partial: the start index is computed without overflow. -/
theorem dwma_repeats_partial [LawfulTrunc R] [LawfulRound R] (o : Nat → R) (p : Nat) (ho : o 0 = ((p : Int) : R)) (hp : 1 ≤ p) (hb : p ≤ 1073741824) : Repeats dwmaBatch o := 
  repeats (dwma_window_partial o p ho hp hb) (dwma_value_partial o p ho hp hb)

/-- Partial: the weight total does not overflow. -/
theorem shmma_repeats_partial [LawfulTrunc R] [LawfulRound R] (o : Nat → R) (p : Nat) (hc : toInt (o 0) = .ok (p : Int)) (hp : 1 ≤ p) (hb : (p + 1) * p ≤ 2147483647) : Repeats shmmaBatch o := 
  repeats (shmma_window_partial o p hc hp hb) (shmma_value_partial o p hc hp hb)

/-- Partial: period 1 is out of bounds. -/
theorem pc_repeats_partial [LawfulTrunc R] [LawfulRound R] (o : Nat → R) (p : Nat) (hc : toInt (o 0) = .ok (p : Int)) (hp : 2 ≤ p) : Repeats pcBatch o := 
  repeats (pc_window_partial o p hc hp) (pc_value_partial o p hc hp)

/-- Partial: the start index is computed without overflow. -/
theorem cci_repeats_partial [LawfulAbs R] (o : Nat → R) (p : Nat) (hc : toInt (o 0) = .ok (p : Int)) (hp : 1 ≤ p) (hb : p * 2 ≤ 2147483647) : Repeats cciBatch o := 
  repeats (cci_window_partial o p hc hp hb) (cci_value_partial o p hc hp hb)

/-- Partial: the start index is computed without overflow. -/
theorem stoch_repeats_partial (o : Nat → R) (kp ks dp : Nat) (h0 : toInt (o 0) = .ok (kp : Int)) (h1 : toInt (o 1) = .ok (ks : Int)) (h2 : toInt (o 2) = .ok (dp : Int)) (p0 : 1 ≤ kp) (p1 : 1 ≤ ks) (p2 : 1 ≤ dp) (hb : kp + ks + dp ≤ 2147483647) : Repeats stochBatch o := 
  repeats (stoch_window_partial o kp ks dp h0 h1 h2 p0 p1 p2 hb) (stoch_value_partial o kp ks dp h0 h1 h2 p0 p1 p2 hb)

theorem stderr_repeats [LawfulSqrt R] (o : Nat → R) (p : Nat) (hc : toInt (o 0) = .ok (p : Int)) (hp : 1 ≤ p) : Repeats stderrBatch o := 
  repeats (stderr_window o p hc hp) (stderr_value o p hc hp)

theorem bbands_repeats (o : Nat → R) (p : Nat) (hc : toInt (o 0) = .ok (p : Int)) (hp : 1 ≤ p) : Repeats bbandsBatch o := 
  repeats (bbands_window o p hc hp) (bbands_value o p hc hp)

theorem vwap_repeats [LawfulTrunc R] [LawfulRound R] (o : Nat → R) (p : Nat) (hc : toInt (o 0) = .ok (p : Int)) (hp : 1 ≤ p) : Repeats vwapBatch o := 
  repeats (vwap_window o p hc hp) (vwap_value o p hc hp)

theorem pwma_repeats [LawfulTrunc R] [LawfulRound R] (o : Nat → R) (p : Nat) (hc : toInt (o 0) = .ok (p : Int)) (hp : 1 ≤ p) : Repeats pwmaBatch o := 
  repeats (pwma_window o p hc hp) (pwma_value o p hc hp)

theorem idwma_repeats [LawfulTrunc R] [LawfulRound R] (o : Nat → R) (p : Nat) (hc : toInt (o 0) = .ok (p : Int)) (hp : 1 ≤ p) (h1 : 1 ≤ o 1) (h2 : o 1 ≤ 2) : Repeats idwmaBatch o := 
  repeats (idwma_window o p hc hp h1 h2) (idwma_value o p hc hp h1 h2)

theorem swma_repeats (o : Nat → R) (p : Nat) (hc : toInt (o 0) = .ok (p : Int)) (hp : 1 ≤ p) (hb : p < 2147483647) (h1 : p % 6 ≠ 0) (h2 : p % 6 ≠ 5) : Repeats swmaBatch o := 
  repeats (swma_window o p hc hp hb h1 h2) (swma_value o p hc hp hb h1 h2)

/-- Partial: whole periods within the range of `int`. -/
theorem copp_repeats_partial [LawfulTrunc R] [LawfulRound R] (o : Nat → R) (s l w : Nat) (h0 : o 0 = ((s : Int) : R)) (h1 : o 1 = ((l : Int) : R)) (h2 : o 2 = ((w : Int) : R)) (hs : 1 ≤ s) (hl : s ≤ l) (hw : 1 ≤ w) (hb : l + w ≤ 2147483646) : Repeats coppBatch o := 
  repeats (copp_window_partial o s l w h0 h1 h2 hs hl hw hb) (copp_value_partial o s l w h0 h1 h2 hs hl hw hb)

/-- Partial: the start index is computed without overflow. -/
theorem ichi_repeats_partial [LawfulTrunc R] [LawfulRound R] (o : Nat → R) (p9 p26 p52 : Nat) (h0 : toInt (o 0) = .ok (p9 : Int)) (h1 : toInt (o 1) = .ok (p26 : Int)) (h2 : toInt (o 2) = .ok (p52 : Int)) (h9 : 1 ≤ p9) (h26 : p9 ≤ p26) (h52 : p26 ≤ p52) (hb : p52 - 1 + p26 ≤ 2147483647) (hb' : p26 + 1 ≤ 2147483647) : Repeats ichiBatch o := 
  repeats (ichi_window_partial o p9 p26 p52 h0 h1 h2 h9 h26 h52 hb hb') (ichi_value_partial o p9 p26 p52 h0 h1 h2 h9 h26 h52 hb hb')

/-- Partial: the long period is longer than the medium one. -/
theorem ultosc_repeats_partial (o : Nat → R) (s m l : Nat) (hs : toInt (o 0) = .ok (s : Int)) (hm : toInt (o 1) = .ok (m : Int)) (hl : toInt (o 2) = .ok (l : Int)) (h1 : 1 ≤ s) (h2 : s ≤ m) (h3 : m < l) : Repeats ultoscBatch o := 
  repeats (ultosc_window_partial o s m l hs hm hl h1 h2 h3) (ultosc_value_partial o s m l hs hm hl h1 h2 h3)

/-- Partial: whole periods for which twice the period does not overflow. -/
theorem edcf_repeats_partial [LawfulCeil R] [LawfulTrunc R] [LawfulRound R] (o : Nat → R) (p : Nat) (ho : o 0 = ((p : Int) : R)) (hp : 1 ≤ p) (hb : p ≤ 1073741823) : Repeats edcfBatch o := 
  repeats (edcf_window_partial o p ho hp hb) (edcf_value_partial o p ho hp hb)

theorem hwma_repeats (o : Nat → R) (p : Nat) (hc : toInt (o 0) = .ok (p : Int)) (h7 : 7 ≤ p) (h13 : p ≤ 13) : Repeats hwmaBatch o := 
  repeats (hwma_window o p hc h7 h13) (hwma_value o p hc h7 h13)

theorem msw_repeats [LawfulAbs R] (o : Nat → R) (p : Nat) (hc : toInt (o 0) = .ok (p : Int)) (hp : 1 ≤ p) : Repeats mswBatch o := 
  repeats (msw_window o p hc hp) (msw_value o p hc hp)

/-- Partial: whole periods. -/
theorem hurst_repeats_partial [LawfulTrunc R] [LawfulRound R] [LawfulCeil R] [LawfulPow R] (o : Nat → R) (p : Nat) (ho : o 0 = ((p : Int) : R)) (hp : 2 ≤ p) (hb : p ≤ 2147483647) : Repeats hurstBatch o := 
  repeats (hurst_window_partial o p ho hp hb) (hurst_value_partial o p ho hp hb)

/-- Partial: shorter periods read before the input. -/
theorem dpo_repeats_partial (o : Nat → R) (p : Nat) (hc : toInt (o 0) = .ok (p : Int)) (hp : 3 ≤ p) : Repeats dpoBatch o := 
  repeats (dpo_window_partial o p hc hp) (dpo_value_partial o p hc hp)

/-- Partial: no overflow in the number of steps. -/
theorem emsd_repeats_partial [LawfulPow R] (o : Nat → R) (p m : Nat) (hc : toInt (o 0) = .ok (p : Int)) (h1 : toInt (o 1) = .ok (m : Int)) (hp : 1 ≤ p) (hm : 1 ≤ m) (hb : m < 2147483647) : Repeats emsdBatch o := 
  repeats (emsd_window_partial o p m hc h1 hp hm hb) (emsd_value_partial o p m hc h1 hp hm hb)

/-- Partial: period 1 and periods whose square overflows are left out (in the next ones too). -/
theorem linreg_repeats_partial (o : Nat → R) (p : Nat) (hc : toInt (o 0) = .ok (p : Int)) (hp : 2 ≤ p) (hpp : p * p ≤ 2147483647) : Repeats linregBatch o := by
  obtain ⟨A, B, h1, h2⟩ := linreg_value_partial o p hc hp hpp
  exact repeats (linreg_window_partial o p hc hp hpp) h2

theorem linregintercept_repeats_partial (o : Nat → R) (p : Nat) (hc : toInt (o 0) = .ok (p : Int)) (hp : 2 ≤ p) (hpp : p * p ≤ 2147483647) : Repeats linreginterceptBatch o := by
  obtain ⟨A, B, h1, h2⟩ := linregintercept_value_partial o p hc hp hpp
  exact repeats (linregintercept_window_partial o p hc hp hpp) h2

theorem linregslope_repeats_partial (o : Nat → R) (p : Nat) (hc : toInt (o 0) = .ok (p : Int)) (hp : 2 ≤ p) (hpp : p * p ≤ 2147483647) : Repeats linregslopeBatch o := by
  obtain ⟨A, B, h1, h2⟩ := linregslope_value_partial o p hc hp hpp
  exact repeats (linregslope_window_partial o p hc hp hpp) h2

theorem tsf_repeats_partial (o : Nat → R) (p : Nat) (hc : toInt (o 0) = .ok (p : Int)) (hp : 2 ≤ p) (hpp : p * p ≤ 2147483647) : Repeats tsfBatch o := by
  obtain ⟨A, B, h1, h2⟩ := tsf_value_partial o p hc hp hpp
  exact repeats (tsf_window_partial o p hc hp hpp) h2

theorem fosc_repeats_partial (o : Nat → R) (p : Nat) (hc : toInt (o 0) = .ok (p : Int)) (hp : 2 ≤ p) (hpp : p * p ≤ 2147483647) : Repeats foscBatch o := by
  obtain ⟨A, B, h1, h2⟩ := fosc_value_partial o p hc hp hpp
  exact repeats (fosc_window_partial o p hc hp hpp) h2

theorem pbands_repeats_partial [LawfulTrunc R] [LawfulRound R] (o : Nat → R) (p : Nat) (hcp : toInt (o 0) = .ok (p : Int)) (hp : 1 ≤ p) (hpp : p * (p + 1) * (2 * p + 1) ≤ 2147483647) : Repeats pbandsBatch o := by
  obtain ⟨band, h1, h2⟩ := pbands_value_partial o p hcp hp hpp
  exact repeats (pbands_window_partial o p hcp hp hpp) h2

/-! ### Windows as long as the cycle -/

theorem cycles_mul {ρ : Type} {x : Nat → ρ} {q m : Nat} (h : Cycles x q m) (t : Nat) : Cycles x (q * t) m := by
  induction t with
  | zero => intro i _; rfl
  | succ t ih => intro i hi; rw [Nat.mul_succ, ← Nat.add_assoc, h _ (by omega), ih i hi]

theorem winSum_flat {p q m : Nat} (hq : q ∣ p) {x : Nat → R} (hx : Cycles x q m) : ∀ j, m ≤ j → winSum p x j = winSum p x m := by
  obtain ⟨t, rfl⟩ := hq
  intro j hj
  induction j, hj using Nat.le_induction with
  | base => rfl
  | succ j hj ih =>
    rw [← ih]
    have e := sum_range_succ' (fun k => x (j + k)) (q * t)
    have e' := sum_range_succ (fun k => x (j + k)) (q * t)
    rw [e', cycles_mul hx t j hj, Nat.add_zero] at e
    unfold winSum
    simp only [show ∀ k, j + 1 + k = j + (k + 1) from fun k => by omega]
    exact (add_right_cancel e).symm

/-- sma over a whole number of cycles is flat. -/
theorem sma_levels (o : Nat → R) (p : Nat) (hc : toInt (o 0) = .ok (p : Int)) (hp : 1 ≤ p) (q m : Nat) (hq : q ∣ p) (x : Nat → R) (hx : Cycles x q m) (N : Nat) :
    ∃ ys, smaBatch o (pre x N) = .ok (.okay, ys) ∧ ys.length = N - (p - 1) ∧ ∀ j y, m ≤ j → ys[j]? = some y → y = (∑ k ∈ range p, x (m + k)) / p :=
  ⟨_, sma_value o p hc hp x N, by simp [pre], fun j v hj hv => by rw [pre_get? hv]; show winSum p x j / _ = _; rw [winSum_flat hq hx j hj]; rfl⟩

/-- sum over a whole number of cycles is flat. -/
theorem sum_levels (o : Nat → R) (p : Nat) (hc : toInt (o 0) = .ok (p : Int)) (hp : 1 ≤ p) (q m : Nat) (hq : q ∣ p) (x : Nat → R) (hx : Cycles x q m) (N : Nat) :
    ∃ ys, sumBatch o (pre x N) = .ok (.okay, ys) ∧ ys.length = N - (p - 1) ∧ ∀ j y, m ≤ j → ys[j]? = some y → y = ∑ k ∈ range p, x (m + k) :=
  ⟨_, sum_value o p hc hp x N, by simp [pre], fun j v hj hv => by rw [pre_get? hv]; show winSum p x j = _; rw [winSum_flat hq hx j hj]; rfl⟩

/-- mom over a whole number of cycles is 0. -/
theorem mom_levels (o : Nat → R) (p : Nat) (hc : toInt (o 0) = .ok (p : Int)) (hp : 1 ≤ p) (q m : Nat) (hq : q ∣ p) (x : Nat → R) (hx : Cycles x q m) (N : Nat) :
    ∃ ys, momBatch o (pre x N) = .ok (.okay, ys) ∧ ys.length = N - p ∧ ∀ j y, m ≤ j → ys[j]? = some y → y = 0 := by
  obtain ⟨t, rfl⟩ := hq
  exact ⟨_, mom_value o _ hc hp x N, by simp [pre], fun j v hj hv => by
    rw [pre_get? hv]; show x (j + q * t) - x j = 0; rw [cycles_mul hx t j hj, sub_self]⟩

/-! ### Recursive functions -/
variable [Archimedean R]

/-- The values `q` bars apart come together. -/
def Closes (u : Nat → R) (q : Nat) : Prop := Tends (fun j => u (j + q) - u j) 0

/-- From the values to the calls: the difference of two values `q` bars apart vanishes. -/
theorem repeatsEnd {ρ ω : Type} {batch : (Nat → R) → List ρ → M (Ret × List ω)} {o : Nat → R} {s : Nat} {y : (Nat → ρ) → Nat → ω} {part : ω → R}
    (hc : Computes batch o s y) (h : ∀ x q m, Cycles x q m → Closes (fun j => part (y x j)) q) : RepeatsInTheEnd batch o part := by
  refine ⟨s, fun x q m hx ε hε => ?_⟩
  obtain ⟨n0, h⟩ := h x q m hx ε hε
  refine ⟨n0, fun N => ⟨_, hc x N, by simp [pre], fun j v v' hj hv hv' => ?_⟩⟩
  rw [pre_get? hv, pre_get? hv']
  have := h j hj
  rwa [sub_zero] at this

theorem closes_of {x : Nat → R} {q m : Nat} (h : Cycles x q m) : Closes x q := .of_rests ⟨m, fun i hi => sub_eq_zero.2 (h i hi)⟩
theorem Closes.shift {u : Nat → R} {q : Nat} (h : Closes u q) (k : Nat) : Closes (fun j => u (j + k)) q :=
  (Tends.shift h k).congr 0 fun n _ => by rw [Nat.add_right_comm]
theorem Closes.comb {u v : Nat → R} {q : Nat} (hu : Closes u q) (hv : Closes v q) (a b : R) : Closes (fun j => a * u j + b * v j) q := by
  have := (Tends.mul_const hu a).add (Tends.mul_const hv b)
  rw [mul_zero, mul_zero, add_zero] at this
  exact this.congr 0 fun n _ => by ring
theorem Closes.congr {u v : Nat → R} {q : Nat} (hu : Closes u q) (k : Nat) (h : ∀ n, k ≤ n → v n = u n) : Closes v q :=
  Tends.congr hu k fun n hn => by rw [h n hn, h (n + q) (by omega)]

theorem Closes.first {u f : Nat → R} {q : Nat} {r : R} (hr : |r| < 1) (hf : ∀ n, f (n + 1) = r * f n + u n) (hu : Closes u q) : Closes f q := by
  have := Converge.first (f := fun j => f (j + q) - f j) (v := fun n => u (n + q) - u n) hr
    (fun n => by show f (n + 1 + q) - _ = _; rw [Nat.add_right_comm, hf, hf]; ring) hu
  rwa [zero_div] at this
theorem Closes.ema {u : Nat → R} {q : Nat} {α : R} (h0 : 0 < α) (h2 : α < 2) (hu : Closes u q) : Closes (Spec.ema α u) q :=
  Closes.first (u := fun n => α * u (n + 1)) (r := 1 - α) (abs_lt.2 ⟨by linarith, by linarith⟩) (fun n => by rw [Spec.ema]; ring)
    (((hu.shift 1).comb hu α 0).congr 0 fun n _ => by ring)
theorem Closes.emaC {u : Nat → R} {q p : Nat} (hp : 1 ≤ p) (hu : Closes u q) : Closes (Spec.ema (emaCoef p) u) q :=
  hu.ema (Converge.emaCoef_pos p) (Converge.emaCoef_lt p hp)

theorem ema_repeats (o : Nat → R) (p : Nat) (hc : toInt (o 0) = .ok (p : Int)) (hp : 1 ≤ p) : RepeatsInTheEnd emaBatch o id :=
  repeatsEnd (ema_value o p hc hp) fun _ _ _ hx => (closes_of hx).emaC hp
theorem wilders_repeats (o : Nat → R) (p : Nat) (hc : toInt (o 0) = .ok (p : Int)) (hp : 1 ≤ p) : RepeatsInTheEnd wildersBatch o id :=
  repeatsEnd (wilders_value o p hc hp) fun x q m hx => by
    have hp' : (1 : R) ≤ p := by exact_mod_cast hp
    exact Closes.ema (α := 1 / (p : R)) (by positivity) (by rw [div_lt_iff₀ (by linarith)]; linarith)
      (((closes_of hx).shift (p - 1)).congr 1 fun n hn => by rw [if_neg (by omega), show n - 1 + p = n + (p - 1) by omega])
theorem dema_repeats_partial (o : Nat → R) (p : Nat) (hc : toInt (o 0) = .ok (p : Int)) (hp : 1 ≤ p) (hb : (p - 1) * 2 ≤ 2147483647) :
    RepeatsInTheEnd demaBatch o id :=
  repeatsEnd (dema_value_partial o p hc hp hb) fun x q m hx => by
    have e1 := (closes_of hx).emaC hp
    have e2 := (e1.shift (p - 1)).emaC hp
    exact ((e1.shift ((p - 1) * 2)).comb (e2.shift (p - 1)) 2 (-1)).congr 0 fun n _ => by simp only [id]; unfold shift; ring
theorem tema_repeats_partial (o : Nat → R) (p : Nat) (hc : toInt (o 0) = .ok (p : Int)) (hp : 1 ≤ p) (hb : (p - 1) * 3 ≤ 2147483647) :
    RepeatsInTheEnd temaBatch o id :=
  repeatsEnd (tema_value_partial o p hc hp hb) fun x q m hx => by
    have e1 := (closes_of hx).emaC hp
    have e2 := (e1.shift (p - 1)).emaC hp
    have e3 := (e2.shift (p - 1)).emaC hp
    exact (((e1.shift ((p - 1) * 3)).comb (e2.shift ((p - 1) * 2)) 3 (-3)).comb (e3.shift (p - 1)) 1 1).congr 0 fun n _ => by
      simp only [id]; unfold shift; ring
theorem zlema_repeats_partial (o : Nat → R) (p : Nat) (hc : toInt (o 0) = .ok (p : Int)) (hp : 3 ≤ p) : RepeatsInTheEnd zlemaBatch o id :=
  repeatsEnd (zlema_value_partial o p hc hp) fun x q m hx => by
    have h := closes_of hx
    refine Closes.emaC (p := p) (by omega) ?_
    have g : Closes (fun n => 2 * x (n + (p - 1) / 2) - x n) q := ((h.shift ((p - 1) / 2)).comb h 2 (-1)).congr 0 fun n _ => by ring
    refine Tends.of_shift 1 (Tends.congr g 0 fun n _ => ?_)
    beta_reduce
    rw [if_neg (by omega), if_neg (by omega), show n + 1 + q - 1 = n + q by omega, Nat.add_sub_cancel]
theorem t3_repeats (o : Nat → R) (h0 : 1 ≤ o 0) (h1 : 0 ≤ o 1) : RepeatsInTheEnd t3Batch o id :=
  repeatsEnd (t3_value o h0 h1) fun x q m hx => by
    have hα : (0 : R) < 2 / (o 0 + 1) := by positivity
    have hα2 : 2 / (o 0 + 1) < 2 := by rw [div_lt_iff₀ (by linarith)]; linarith
    have g {u : Nat → R} (h : Closes u q) : Closes (gdema (2 / (o 0 + 1)) (o 1) u) q := by
      have e1 := h.ema hα hα2
      exact (e1.comb (e1.ema hα hα2) (1 + o 1) (-o 1)).congr 0 fun n _ => by unfold gdema; ring
    exact g (g (g (closes_of hx)))
theorem apo_repeats (o : Nat → R) (p q : Nat) (hc : toInt (o 0) = .ok (p : Int)) (hc1 : toInt (o 1) = .ok (q : Int))
    (hp : 1 ≤ p) (hq : 2 ≤ q) (hpq : p ≤ q) : RepeatsInTheEnd apoBatch o id :=
  repeatsEnd (apo_value o p q hc hc1 hp hq hpq) fun x _ m hx => by
    have h := closes_of hx
    exact ((((h.emaC hp).comb (h.emaC (p := q) (by omega)) 1 (-1)).shift 1)).congr 0 fun n _ => by simp only [id]; ring
/-- The line of macd. -/
theorem macd_repeats (o : Nat → R) (p q r : Nat) (hc : toInt (o 0) = .ok (p : Int)) (hc1 : toInt (o 1) = .ok (q : Int)) (hc2 : toInt (o 2) = .ok (r : Int))
    (hp : 1 ≤ p) (hq : 2 ≤ q) (hpq : p ≤ q) (hr : 1 ≤ r) :
    RepeatsInTheEnd macdBatch o (·.macd) ∧ RepeatsInTheEnd macdBatch o (·.signal) ∧ RepeatsInTheEnd macdBatch o (·.hist) := by
  obtain ⟨a1, a2, a3, a4⟩ := macdCoef_range (R := R) p q hp (by omega)
  have hv := macd_value o p q r hc hc1 hc2 hp hq hpq hr
  have l {x : Nat → R} {c m : Nat} (hx : Cycles x c m) : Closes (fun j => Spec.ema (macdCoef p q).1 x (j + (q - 1)) - Spec.ema (macdCoef p q).2 x (j + (q - 1))) c := by
    have h := closes_of hx
    exact (((h.ema a1 a2).comb (h.ema a3 a4) 1 (-1)).shift (q - 1)).congr 0 fun n _ => by ring
  refine ⟨repeatsEnd hv fun x c m hx => l hx, repeatsEnd hv fun x c m hx => (l hx).emaC hr, repeatsEnd hv fun x c m hx => ?_⟩
  exact ((l hx).comb ((l hx).emaC hr) 1 (-1)).congr 0 fun n _ => by simp only [id]; unfold shift; ring
/-- Partial: not from a damping of one on. -/
theorem lf_repeats_partial (o : Nat → R) (h0 : 0 ≤ o 0) (h1 : o 0 < 1) : RepeatsInTheEnd lfBatch o id :=
  repeatsEnd (lf_value o h0) fun x q m hx => by
    generalize o 0 = g at *
    have hg : |g| < 1 := abs_lt.2 ⟨by linarith, h1⟩
    have h := closes_of hx
    have L0 : Closes (iir [1 - g] [g] x) q :=
      Closes.first hg (iir1_next (1 - g) g x) (((h.shift 1).comb h (1 - g) 0).congr 0 fun n _ => by ring)
    have L {y : Nat → R} (hy : Closes y q) : Closes (iir [-g, 1] [g] y) q :=
      Closes.first hg (iir2_next (-g) 1 g y) ((hy.shift 1).comb hy (-g) 1)
    exact (((L0.comb (L L0) 1 2).comb (L (L L0)) 1 2).comb (L (L (L L0))) (1 / 6) (1 / 6)).congr 0 fun n _ => by simp only [id]; ring
theorem ehma_repeats [LawfulSqrt R] (o : Nat → R) (p : Nat) (hc : toInt (o 0) = .ok (p : Int)) (hp : 1 ≤ p) : RepeatsInTheEnd ehmaBatch o id :=
  repeatsEnd (ehma_value o p hc hp) fun x q m hx => by
    have hp' : (1 : R) ≤ p := by exact_mod_cast hp
    have hs0 := LawfulSqrt.sqrt_nonneg (p : R) (by linarith)
    have k : ∀ n : R, 0 < n → 0 < 2 / (n + 1) ∧ 2 / (n + 1) < 2 := fun n hn =>
      ⟨by positivity, by rw [div_lt_iff₀ (by linarith)]; linarith⟩
    have hs : 0 < CMath.sqrt (p : R) := by
      have hs1 := LawfulSqrt.sqrt_sq (p : R) (by linarith)
      nlinarith
    have h := closes_of hx
    obtain ⟨a1, a2⟩ := k ((p : R) / 2) (by linarith)
    obtain ⟨b1, b2⟩ := k (p : R) (by linarith)
    obtain ⟨c1, c2⟩ := k _ hs
    exact Closes.ema c1 c2 (((h.ema a1 a2).comb (h.ema b1 b2) 2 (-1)).congr 0 fun n _ => by ring)

/-- gf3 repeats in the end. -/
theorem gf3_repeats (o : Nat → R) (q : Nat) (h1 : 1 ≤ q) (h2 : q ≤ 20) (hc : toInt (o 0) = .ok ((2 * q : Nat) : Int)) : RepeatsInTheEnd gf3Batch o id :=
  repeatsEnd (gf3_ignores_period o q h1 h2 hc) fun x c m hx => by
    obtain ⟨hS, hh⟩ := Converge.row_half (gf3_row 0)
    have hrec : ∀ n, 4 * iir [1/4] [1/4, 1/4, 1/4] x (n + 5) = x (n + 5) + iir [1/4] [1/4, 1/4, 1/4] x (n + 4) + iir [1/4] [1/4, 1/4, 1/4] x (n + 3) + iir [1/4] [1/4, 1/4, 1/4] x (n + 2) := fun n => by
      rw [iir_unfold]
      simp only [dot1, dot3, past_getD, show 0 + 1 ≤ n + 5 + 1 by omega, show 0 + 1 ≤ n + 5 by omega, show 1 + 1 ≤ n + 5 by omega, show 2 + 1 ≤ n + 5 by omega,
        if_true, show n + 5 + 1 - (0 + 1) = n + 5 by omega, show n + 5 - (0 + 1) = n + 4 by omega, show n + 5 - (1 + 1) = n + 3 by omega,
        show n + 5 - (2 + 1) = n + 2 by omega]
      ring
    have t := Converge.table (R := R) 6 hS hh (b0 := 1) (b1 := 0) (b2 := 0) (b3 := 0) (g := 1) (by push_cast; ring)
      (x := fun j => x (j + c) - x j) (y := fun j => iir [1/4] [1/4, 1/4, 1/4] x (j + c) - iir [1/4] [1/4, 1/4, 1/4] x j)
      (fun n => by
        have e1 := hrec n
        have e2 := hrec (n + c)
        simp only [Nat.add_right_comm n c] at e2
        push_cast
        linear_combination e2 - e1) (c := 0) ⟨m, fun i hi => sub_eq_zero.2 (hx i hi)⟩
    rwa [one_mul] at t
/-- kama: the weights repeat as well. -/
theorem kama_repeats [LawfulAbs R] [LawfulPow R] (o : Nat → R) (p : Nat) (hc : toInt (o 0) = .ok (p : Int)) (hp : 1 ≤ p) : RepeatsInTheEnd kamaBatch o id :=
  repeatsEnd (kama_value o p hc hp) fun x q m hx => by
    refine Converge.contract (w := fun _ => 0) (q := 1 - (2 / 31) ^ 2) (by norm_num) (by norm_num) m (fun n hn => ?_) (.const 0)
    have er : ∀ j, 0 ≤ effRatio p x j ∧ effRatio p x j ≤ 1 := by
      intro j
      unfold effRatio
      split
      · exact ⟨zero_le_one, le_rfl⟩
      · rename_i h
        have hpos : 0 < ∑ k ∈ Finset.range p, |x (j + k + 1) - x (j + k)| := lt_of_le_of_ne (Finset.sum_nonneg fun _ _ => abs_nonneg _) (Ne.symm h)
        refine ⟨by positivity, (div_le_one hpos).2 ?_⟩
        rw [show x (j + p) - x j = ∑ k ∈ Finset.range p, (x (j + k + 1) - x (j + k)) from (Finset.sum_range_sub (fun k => x (j + k)) p).symm]
        exact Finset.abs_sum_le_sum_abs _ _
    have ee : effRatio p x (n + q) = effRatio p x n := by
      have e : ∀ k, x (n + q + k) = x (n + k) := fun k => by rw [Nat.add_right_comm]; exact hx _ (by omega)
      have e0 : x (n + q) = x n := hx n hn
      unfold effRatio
      simp only [e, e0, Nat.add_assoc (n + q) _ 1, Nat.add_assoc n _ 1]
    show |kama p x (n + 1 + q) - kama p x (n + 1)| ≤ _ * |kama p x (n + q) - kama p x n| + |0|
    rw [show n + 1 + q = n + q + 1 by omega, kama, kama, ee, show n + q + p = n + p + q by omega, hx (n + p) (by omega), abs_zero, add_zero]
    obtain ⟨w, hw⟩ : ∃ w, w = (effRatio p x n * (2 / 3 - 2 / 31) + 2 / 31) ^ 2 := ⟨_, rfl⟩
    have hw1 : (2 / 31) ^ 2 ≤ w := by rw [hw]; have := (er n).1; gcongr; norm_num; positivity
    have hw2 : w ≤ 1 := by
      rw [hw]
      have := er n
      have h0 : 0 ≤ effRatio p x n * (2 / 3 - 2 / 31) + 2 / 31 := by norm_num; linarith
      have h1 : effRatio p x n * (2 / 3 - 2 / 31) + 2 / 31 ≤ 1 := by norm_num; linarith
      nlinarith
    rw [← hw, show kama p x (n + q) + w * (x (n + p) - kama p x (n + q)) - (kama p x n + w * (x (n + p) - kama p x n)) =
      (1 - w) * (kama p x (n + q) - kama p x n) by ring, abs_mul, abs_of_nonneg (by linarith : 0 ≤ 1 - w)]
    exact mul_le_mul_of_nonneg_right (by linarith) (abs_nonneg _)

/-- ahma repeats in the end. -/
theorem ahma_repeats (o : Nat → R) (p : Nat) (hc : toInt (o 0) = .ok (p : Int)) (hp : 1 ≤ p) : RepeatsInTheEnd ahmaBatch o id := by
  refine ⟨0, fun x q m hx ε hε => ?_⟩
  have hp' : (p : R) ≠ 0 := by exact_mod_cast (by omega : p ≠ 0)
  obtain ⟨y, hy⟩ := ahrens_exists p hp x
  obtain ⟨y', hy'⟩ : ∃ y' : Nat → R, y' = fun n => y (n + q) - y n := ⟨_, rfl⟩
  obtain ⟨x', hx'⟩ : ∃ x' : Nat → R, x' = fun n => if n < p then y' n else x (n + q) - x n := ⟨_, rfl⟩
  have hA : IsAhrens p x' y' := by
    refine ⟨fun n hn => by rw [hx']; simp only [hn, if_true], fun n hn => ?_⟩
    have e := hy.2 n hn
    have e' := hy.2 (n + q) (by omega)
    rw [hx', hy']
    simp only [show ¬ n < p by omega, if_false]
    rw [e, e', show n + q - 1 = n - 1 + q by omega, show n + q - p = n - p + q by omega]
    field_simp
    ring
  obtain ⟨n0, h⟩ := ahma_follows o p hc hp x' 0 ⟨m + p, fun i hi => by
    rw [hx']; simp only [show ¬ i < p by omega, if_false]; rw [hx i (by omega), sub_self]⟩ ε hε
  refine ⟨n0, fun N => ⟨_, ahma_value o p hc hp x y hy N, by simp [pre], fun j v v' hj hv hv' => ?_⟩⟩
  rw [pre_get? hv, pre_get? hv']
  obtain ⟨ys, e, -, h⟩ := h (n0 + j + 1) (by omega)
  rw [ahma_value o p hc hp x' y' hA] at e
  cases e
  have := h j (y' j) hj (by simp [pre])
  rw [hy', mul_zero, sub_zero] at this
  exact this

/-! ### Running totals -/

/-- A running total of something that repeats. -/
theorem total_drift {f : Nat → R} {q m : Nat} (hf : Cycles f q m) {j : Nat} (hj : m ≤ j) :
    ∑ k ∈ range (j + q), f k - ∑ k ∈ range j, f k = ∑ k ∈ range q, f (m + k) := by
  rw [sum_range_add, add_sub_cancel_left]
  exact winSum_flat (dvd_refl q) hf j hj

theorem drifts {ρ : Type} {batch : (Nat → R) → List ρ → M (Ret × List R)} {o : Nat → R} {s c : Nat} {f : (Nat → ρ) → Nat → R}
    (hc : Computes batch o s fun x j => ∑ k ∈ range (j + c), f x k) (h : ∀ x q m, Cycles x q m → Cycles (f x) q m) : Drifts batch o :=
  ⟨s, fun x q m hx => ⟨_, fun N => ⟨_, hc x N, by simp [pre], fun j v v' hj hv hv' => by
    rw [pre_get? hv, pre_get? hv']
    show ∑ k ∈ range (j + q + c), f x k - ∑ k ∈ range (j + c), f x k = _
    rw [Nat.add_right_comm]
    exact total_drift (h x q m hx) (by omega)⟩⟩⟩

theorem cycles_next {ρ α : Type} {x : Nat → ρ} {q m : Nat} (hx : Cycles x q m) {f : (Nat → ρ) → Nat → α} (g : ρ → ρ → α)
    (h : ∀ i, f x i = g (x i) (x (i + 1))) : Cycles (f x) q m := fun i hi => by
  rw [h, h, hx i hi, show i + q + 1 = i + 1 + q by omega, hx (i + 1) (by omega)]

theorem obv_drifts (o : Nat → R) : Drifts obvBatch o :=
  drifts (c := 0) (obv_value o) fun x q m hx => cycles_next hx
    (fun a b => if a.close < b.close then b.volume else if b.close < a.close then -b.volume else 0) fun i => rfl
theorem wad_drifts (o : Nat → R) : Drifts wadBatch o :=
  drifts (c := 1) (wad_value o) fun x q m hx => cycles_next hx
    (fun a b => if a.close < b.close then b.close - min a.close b.low else if b.close < a.close then b.close - max a.close b.high else 0) fun i => rfl
theorem ad_drifts (o : Nat → R) : Drifts adBatch o :=
  drifts (c := 1) (ad_value o) fun x q m hx i hi => by rw [hx i hi]

/-- adosc repeats in the end although the line it smooths drifts. -/
theorem adosc_repeats (o : Nat → R) (s p : Nat) (hs : toInt (o 0) = .ok (s : Int)) (hc : toInt (o 1) = .ok (p : Int)) (h1 : 1 ≤ s) (h2 : s ≤ p) :
    RepeatsInTheEnd adoscBatch o id :=
  repeatsEnd (adosc_value o s p hs hc h1 h2) fun x q m hx => by
    have d : Tends (fun j => adLine x (j + q) - adLine x j) (∑ k ∈ range q, closeLocation (x (m + k)) * (x (m + k)).volume) :=
      .of_rests ⟨m, fun j hj => by
        show adLine x (j + q) - adLine x j = _
        unfold adLine
        rw [Nat.add_right_comm]
        exact total_drift (f := fun k => closeLocation (x k) * (x k).volume) (fun i hi => by beta_reduce; rw [hx i hi]) (by omega)⟩
    have e {n : Nat} (hn : 1 ≤ n) : Tends (fun j => Spec.ema (emaCoef n) (adLine x) (j + q) - Spec.ema (emaCoef n) (adLine x) j)
        (∑ k ∈ range q, closeLocation (x (m + k)) * (x (m + k)).volume) := by
      have a0 := Converge.emaCoef_pos (R := R) n
      have a2 := Converge.emaCoef_lt (R := R) n hn
      have := Converge.first (f := fun j => Spec.ema (emaCoef n) (adLine x) (j + q) - Spec.ema (emaCoef n) (adLine x) j)
        (v := fun j => emaCoef n * (adLine x (j + 1 + q) - adLine x (j + 1))) (r := 1 - emaCoef n) (abs_lt.2 ⟨by linarith, by linarith⟩)
        (fun j => by show Spec.ema _ _ (j + 1 + q) - Spec.ema _ _ (j + 1) = _; rw [Nat.add_right_comm, Spec.ema, Spec.ema]; ring) ((d.shift 1).mul_const _)
      rwa [sub_sub_cancel, mul_div_cancel_left₀ _ a0.ne'] at this
    have r := ((e h1).sub (e (n := p) (by omega))).shift (p - 1)
    rw [sub_self] at r
    exact r.congr 0 fun j _ => by simp only [id]; rw [Nat.add_right_comm]; ring
end

/-! ### Concrete runs -/
example : Cycles (fun i => ([1, 2, 6] : List ℚ).getD (i % 3) 0) 3 0 := fun i _ => by simp
example : smaBatch (opts [3] : Nat → ℚ) [1, 2, 6, 1, 2, 6] = .ok (.okay, [3, 3, 3, 3]) := by decide +kernel
example : smaBatch (opts [2] : Nat → ℚ) [1, 2, 6, 1, 2, 6, 1] = .ok (.okay, [3/2, 4, 7/2, 3/2, 4, 7/2]) := by decide +kernel
example : Repeats smaBatch (opts [2] : Nat → ℚ) := sma_repeats (opts [2] : Nat → ℚ) 2 (by decide +kernel) (by omega)
example : RepeatsInTheEnd emaBatch (opts [4] : Nat → ℚ) id := ema_repeats (opts [4] : Nat → ℚ) 4 (by decide +kernel) (by omega)
/-- Twice as much is traded on the way up: obv gains one unit in each cycle of two bars. -/
example : obvBatch (opts [] : Nat → ℚ) [⟨1, 1⟩, ⟨2, 2⟩, ⟨1, 1⟩, ⟨2, 2⟩, ⟨1, 1⟩] = .ok (.okay, [0, 2, 1, 3, 2]) := by decide +kernel

end Verif
