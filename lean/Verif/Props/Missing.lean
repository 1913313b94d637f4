/-
A missing price: what a NaN in the input does to the outputs in double arithmetic.  Functions that carry a sum or an average from bar
to bar never recover; functions that look at their window afresh do; a few hide it.
-/
import Verif.Proof.Missing
import Verif.Core.Eval
import Verif.Spec.Witness
import Verif.Spec.DoubleData
import Verif.Props.Trend
import Verif.Props.Elementwise
import Verif.Props.Bars
import Verif.Props.Window
import Verif.Props.Weighted
import Verif.Proof.Direction
import Verif.Proof.Extremum

namespace Verif
open Missing
set_option linter.unusedSectionVars false
set_option linter.unusedVariables false
variable [Libm]

/-! ### Lost for ever -/

theorem sum_missing (o : Nat → F64) (p : Nat) (hc : toInt (o 0) = .ok (p : Int)) (hp : 1 ≤ p) :
    Poisons sumBatch o (p - 1) (· = .nan) (· = .nan) :=
  poisons_of (sumBatch_run o p hc hp) fun x i j h hj => slide_nan h (by omega)
theorem sma_missing (o : Nat → F64) (p : Nat) (hc : toInt (o 0) = .ok (p : Int)) (hp : 1 ≤ p) :
    Poisons smaBatch o (p - 1) (· = .nan) (· = .nan) :=
  poisons_of (smaBatch_run o p hc hp) fun x i j h hj => by rw [slide_nan h (by omega)]; rfl
theorem ema_missing (o : Nat → F64) (p : Nat) (hc : toInt (o 0) = .ok (p : Int)) (hp : 1 ≤ p) :
    Poisons emaBatch o 0 (· = .nan) (· = .nan) :=
  poisons_of (ema_run o p hc hp) fun x i j h hj => ema_nan h (by omega)
theorem wilders_missing (o : Nat → F64) (p : Nat) (hc : toInt (o 0) = .ok (p : Int)) (hp : 1 ≤ p) :
    Poisons wildersBatch o (p - 1) (· = .nan) (· = .nan) :=
  poisons_of (wilders_run o p hc hp) fun x i j h hj => wilders_nan h hp hj
theorem dema_missing (o : Nat → F64) (p : Nat) (hc : toInt (o 0) = .ok (p : Int)) (hp : 1 ≤ p) (hb : (p - 1) * 2 ≤ 2147483647) :
    Poisons demaBatch o ((p - 1) * 2) (· = .nan) (· = .nan) :=
  poisons_of (dema_run o p hc hp hb) fun x i j h hj => by rw [demaE1_nan h (by omega), demaE2_nan h (by omega) (by omega)]; rfl
theorem tema_missing (o : Nat → F64) (p : Nat) (hc : toInt (o 0) = .ok (p : Int)) (hp : 1 ≤ p) (hb : (p - 1) * 3 ≤ 2147483647) :
    Poisons temaBatch o ((p - 1) * 3) (· = .nan) (· = .nan) :=
  poisons_of (tema_run o p hc hp hb) fun x i j h hj => by rw [temaE3_nan h (by omega) (by omega)]; exact HasNan.add_nan _
theorem trix_missing (o : Nat → F64) (p : Nat) (hc : toInt (o 0) = .ok (p : Int)) (hp : 1 ≤ p) (hb : p * 3 ≤ 2147483647) :
    Poisons trixBatch o (p * 3 - 2) (· = .nan) (· = .nan) :=
  poisons_of (trix_run o p hc hp hb) fun x i j h hj => trix_lost hp _ h hj
theorem wma_missing (o : Nat → F64) (p : Nat) (hc : toInt (o 0) = .ok (p : Int)) (hp : 1 ≤ p) (hb : p * (p + 1) ≤ 2147483647) :
    Poisons wmaBatch o (p - 1) (· = .nan) (· = .nan) :=
  poisons_of (wma_run o p hc hp hb) fun x i j h hj => wmaVal_lost hp h hj
theorem rmta_missing (o : Nat → F64) (p : Nat) (hc : toInt (o 0) = .ok (p : Int)) (hp : 1 ≤ p) :
    Poisons rmtaBatch o (p - 1) (· = .nan) (· = .nan) :=
  poisons_of (rmta_run o p hc hp) fun x i j h hj => rmta_lost hp _ h hj
theorem var_missing (o : Nat → F64) (p : Nat) (hc : toInt (o 0) = .ok (p : Int)) (hp : 1 ≤ p) :
    Poisons varBatch o (p - 1) (· = .nan) (· = .nan) :=
  poisons_of (var_run o p hc hp) fun x i j h hj => (stat_lost hp _ h hj).1
theorem stddev_missing (o : Nat → F64) (p : Nat) (hc : toInt (o 0) = .ok (p : Int)) (hp : 1 ≤ p) :
    Poisons stddevBatch o (p - 1) (· = .nan) (· = .nan) :=
  poisons_of (stddev_run o p hc hp) fun x i j h hj => (stat_lost hp _ h hj).2
theorem stderr_missing (o : Nat → F64) (p : Nat) (hc : toInt (o 0) = .ok (p : Int)) (hp : 1 ≤ p) :
    Poisons stderrBatch o (p - 1) (· = .nan) (· = .nan) :=
  poisons_of (stderr_run o p hc hp) fun x i j h hj => by rw [(stat_lost hp _ h hj).2]; exact HasNan.mul_nan _
theorem bbands_missing (o : Nat → F64) (p : Nat) (hc : toInt (o 0) = .ok (p : Int)) (hp : 1 ≤ p) :
    Poisons bbandsBatch o (p - 1) (· = .nan) (· = ⟨.nan, .nan, .nan⟩) :=
  poisons_of (bbands_run o p hc hp) fun x i j h hj => bbands_lost hp _ _ h hj
theorem md_missing (o : Nat → F64) (p : Nat) (hc : toInt (o 0) = .ok (p : Int)) (hp : 1 ≤ p) :
    Poisons mdBatch o (p - 1) (· = .nan) (· = .nan) :=
  poisons_of (md_run o p hc hp) fun x i j h hj => md_lost hp _ h hj
theorem volatility_missing (o : Nat → F64) (p : Nat) (hc : toInt (o 0) = .ok (p : Int)) (hp : 1 ≤ p) :
    Poisons volatilityBatch o p (· = .nan) (· = .nan) 1 :=
  poisons_of (volatility_run o p hc hp) fun x i j h hj => volatility_lost hp _ _ h hj
theorem dpo_missing (o : Nat → F64) (p : Nat) (hc : toInt (o 0) = .ok (p : Int)) (hp : 3 ≤ p) :
    Poisons dpoBatch o (p - 1) (· = .nan) (· = .nan) :=
  poisons_of (dpo_run o p hc hp) fun x i j h hj => by rw [slide_nan h (by omega)]; exact HasNan.sub_nan _
/-- zlema compares with a bar half a period back, so an early bar is felt late. -/
theorem zlema_missing (o : Nat → F64) (p : Nat) (hc : toInt (o 0) = .ok (p : Int)) (hp : 3 ≤ p) :
    Poisons zlemaBatch o ((p - 1) / 2 - 1) (· = .nan) (· = .nan) ((p - 1) / 2) :=
  poisons_of (zlema_run o p hc hp) fun x i j h hj => zlema_nan h (by omega)
theorem linreg_missing (o : Nat → F64) (p : Nat) (hc : toInt (o 0) = .ok (p : Int)) (hp : 1 ≤ p) (hpp : p * p ≤ 2147483647) :
    Poisons linregBatch o (p - 1) (· = .nan) (· = .nan) :=
  poisons_of (trend_run o p hc hp hpp _ (p : Int) rfl) fun x i j h hj => trend_lost hp _ h hj
theorem linregintercept_missing (o : Nat → F64) (p : Nat) (hc : toInt (o 0) = .ok (p : Int)) (hp : 1 ≤ p) (hpp : p * p ≤ 2147483647) :
    Poisons linreginterceptBatch o (p - 1) (· = .nan) (· = .nan) :=
  poisons_of (trend_run o p hc hp hpp _ 1 rfl) fun x i j h hj => trend_lost hp _ h hj
theorem tsf_missing (o : Nat → F64) (p : Nat) (hc : toInt (o 0) = .ok (p : Int)) (hp : 1 ≤ p) (hpp : p * p ≤ 2147483647) :
    Poisons tsfBatch o (p - 1) (· = .nan) (· = .nan) :=
  poisons_of (trend_run o p hc hp hpp (fun q => i32 (q + 1)) ((p : Int) + 1) (tsf_fc hpp)) fun x i j h hj => trend_lost hp _ h hj
theorem linregslope_missing (o : Nat → F64) (p : Nat) (hc : toInt (o 0) = .ok (p : Int)) (hp : 1 ≤ p) (hpp : p * p ≤ 2147483647) :
    Poisons linregslopeBatch o (p - 1) (· = .nan) (· = .nan) :=
  poisons_of (linregslope_run o p hc hp hpp) fun x i j h hj => (lrB_nan hp h hj).1
theorem fosc_missing (o : Nat → F64) (p : Nat) (hc : toInt (o 0) = .ok (p : Int)) (hp : 1 ≤ p) (hpp : p * p ≤ 2147483647) :
    Poisons foscBatch o p (· = .nan) (· = .nan) :=
  poisons_of (fosc_run o p hc hp hpp) fun x i j h hj => fosc_lost hp h hj
theorem apo_missing (o : Nat → F64) (p q : Nat) (hc : toInt (o 0) = .ok (p : Int)) (hc1 : toInt (o 1) = .ok (q : Int))
    (hp : 1 ≤ p) (hq : 2 ≤ q) (hpq : p ≤ q) :
    Poisons apoBatch o 1 (· = .nan) (· = .nan) :=
  poisons_of (apo_run o p q hc hc1 hp hq hpq) fun x i j h hj => by rw [ema_nan h hj]; rfl
theorem ppo_missing (o : Nat → F64) (p q : Nat) (hc : toInt (o 0) = .ok (p : Int)) (hc1 : toInt (o 1) = .ok (q : Int))
    (hp : 1 ≤ p) (hq : 2 ≤ q) (hpq : p ≤ q) :
    Poisons ppoBatch o 1 (· = .nan) (· = .nan) :=
  poisons_of (ppo_run o p q hc hc1 hp hq hpq) fun x i j h hj => ppo_lost _ _ h hj
theorem macd_missing (o : Nat → F64) (p q r : Nat) (hc : toInt (o 0) = .ok (p : Int)) (hc1 : toInt (o 1) = .ok (q : Int))
    (hc2 : toInt (o 2) = .ok (r : Int)) (hp : 1 ≤ p) (hq : 2 ≤ q) (hpq : p ≤ q) (hr : 1 ≤ r) :
    Poisons macdBatch o (q - 1) (· = .nan) (· = ⟨.nan, .nan, .nan⟩) :=
  poisons_of (macd_run o p q r hc hc1 hc2 hp hq hpq hr) fun x i j h hj => by rw [macdSig_nan h hj, show macdLine p q x (j + (q - 1)) = .nan from by unfold macdLine; rw [ema_nan h hj]; rfl]; rfl
theorem vosc_missing (o : Nat → F64) (s p : Nat) (hs : toInt (o 0) = .ok (s : Int)) (hc : toInt (o 1) = .ok (p : Int))
    (h1 : 1 ≤ s) (h2 : s ≤ p) :
    Poisons voscBatch o (p - 1) (· = .nan) (· = .nan) :=
  poisons_of (vosc_run o s p hs hc h1 h2) fun x i j h hj => vosc_lost (by omega) _ _ h hj
theorem hma_missing (o : Nat → F64) (p s : Nat) (hc : toInt (o 0) = .ok (p : Int)) (hs : toInt (CMath.sqrt ((p : Int) : F64)) = .ok (s : Int))
    (hp : 2 ≤ p) (hs1 : 1 ≤ s) (hsp : s ≤ p) (hb : p * (p + 1) ≤ 2147483647) :
    Poisons hmaBatch o (p + s - 2) (· = .nan) (· = .nan) :=
  poisons_of (hma_run o p s hc hs hp hs1 hsp hb) fun x i j h hj => hma_lost hp hs1 h hj
theorem t3_missing (o : Nat → F64) (h0 : ¬ o 0 < c! 1) (h1 : ¬ o 1 < c! 0) :
    Poisons t3Batch o 0 (· = .nan) (· = .nan) :=
  poisons_of (t3_run o h0 h1) fun x i j h hj => by rw [t3_lost (j := j) h hj]; rfl
theorem ehma_missing (o : Nat → F64) (p : Nat) (hc : toInt (o 0) = .ok (p : Int)) (hp : 1 ≤ p) :
    Poisons ehmaBatch o 0 (· = .nan) (· = .nan) :=
  poisons_of (ehma_run o p hc hp) fun x i j h hj => by rw [ehma_lost (j := j) h hj]; rfl
theorem mgdyn_missing (o : Nat → F64) :
    Poisons mgdynBatch o 0 (· = .nan) (· = .nan) :=
  poisons_of (mgdyn_run o) fun x i j h hj => mg_lost h hj
theorem gf1_missing (o : Nat → F64) (q : Nat) (h1 : 1 ≤ q) (h2 : q ≤ 20) (hc : toInt (o 0) = .ok ((2 * q : Nat) : Int)) :
    Poisons gf1Batch o 0 (· = .nan) (· = .nan) :=
  poisons_of (gf1_run o q h1 h2 hc) fun x i j h hj => gf1_lost h hj
theorem gf2_missing (o : Nat → F64) (q : Nat) (h1 : 1 ≤ q) (h2 : q ≤ 20) (hc : toInt (o 0) = .ok ((2 * q : Nat) : Int)) :
    Poisons gf2Batch o 0 (· = .nan) (· = .nan) :=
  poisons_of (gf2_run o q h1 h2 hc) fun x i j h hj => gf2_lost h hj
theorem gf3_missing (o : Nat → F64) (q : Nat) (h1 : 1 ≤ q) (h2 : q ≤ 20) (hc : toInt (o 0) = .ok ((2 * q : Nat) : Int)) :
    Poisons gf3Batch o 0 (· = .nan) (· = .nan) :=
  poisons_of (gf3_run o q h1 h2 hc) fun x i j h hj => gf3_lost h hj
theorem ssmooth_missing (o : Nat → F64) :
    Poisons ssmoothBatch o 0 (· = .nan) (· = .nan) :=
  poisons_of (ssmooth_run o) fun x i j h hj => ss_lost h hj
theorem roof_missing (o : Nat → F64) :
    Poisons roofBatch o 0 (· = .nan) (· = .nan) :=
  poisons_of (roof_run o) fun x i j h hj => roof_lost h hj
theorem lf_missing (o : Nat → F64) (h : ¬ o 0 < c! 0) :
    Poisons lfBatch o 0 (· = .nan) (· = .nan) :=
  poisons_of (lf_run o h) fun x i j h hj => lf_lost h hj
theorem rema_missing (o : Nat → F64) (h : ¬ remaBad o) :
    Poisons remaBatch o 0 (· = .nan) (· = .nan) :=
  poisons_of (rema_run o h) fun x i j h hj => rema_lost h hj
theorem atr_missing (o : Nat → F64) (p : Nat) (hc : toInt (o 0) = .ok (p : Int)) (hp : 1 ≤ p) :
    Poisons atrBatch o (p - 1) (fun r => r.high = .nan ∨ r.low = .nan) (· = .nan) :=
  poisons_of (atr_run o p hc hp) fun x i j h hj => wilders_nan (tr_lost h) hp hj
theorem natr_missing (o : Nat → F64) (p : Nat) (hc : toInt (o 0) = .ok (p : Int)) (hp : 1 ≤ p) :
    Poisons natrBatch o (p - 1) (fun r => r.high = .nan ∨ r.low = .nan) (· = .nan) :=
  poisons_of (natr_run o p hc hp) fun x i j h hj => natr_lost hp _ h hj
theorem ad_missing (o : Nat → F64) :
    Poisons adBatch o 0 (fun r => r.high = .nan ∨ r.low = .nan) (· = .nan) :=
  poisons_of (ad_run o) fun x i j h hj => ad_lost h (by omega)
theorem adosc_missing (o : Nat → F64) (s p : Nat) (hs : toInt (o 0) = .ok (s : Int)) (hc : toInt (o 1) = .ok (p : Int))
    (h1 : 1 ≤ s) (h2 : s ≤ p) :
    Poisons adoscBatch o (p - 1) (fun r => r.high = .nan ∨ r.low = .nan) (· = .nan) :=
  poisons_of (adosc_run o s p hs hc h1 h2) fun x i j h hj => by rw [ema_nan (x := fun j => adRec x (j + 1)) (i := i) (ad_lost h (by omega)) hj]; rfl
theorem vwma_missing (o : Nat → F64) (p : Nat) (hc : toInt (o 0) = .ok (p : Int)) (hp : 1 ≤ p) :
    Poisons vwmaBatch o (p - 1) (fun r => r.close = .nan ∨ r.volume = .nan) (· = .nan) :=
  poisons_of (vwma_run o p hc hp) fun x i j h hj => vwma_lost hp h hj
theorem qstick_missing (o : Nat → F64) (p : Nat) (hc : toInt (o 0) = .ok (p : Int)) (hp : 1 ≤ p) :
    Poisons qstickBatch o (p - 1) (fun r => r.open = .nan ∨ r.close = .nan) (· = .nan) :=
  poisons_of (qstick_run o p hc hp) fun x i j h hj => by rw [slide_nan (i := i) (by rcases h with h | h <;> rw [h] <;> first | rfl | exact HasNan.sub_nan _) (by omega)]; rfl
theorem fi_missing (o : Nat → F64) (h : ¬ o 0 < c! 1) :
    Poisons fiBatch o 1 (fun r => r.close = .nan) (· = .nan) 1 :=
  poisons_of (fi_run o h) fun x i j h hj => fi_lost (fiSig_lost h) (by omega)
theorem kc_missing (o : Nat → F64) (h0 : ¬ o 0 < c! 1) (h1 : ¬ o 1 < c! 0) :
    Poisons kcBatch o 0 (fun r => r.high = .nan ∨ r.low = .nan ∨ r.close = .nan) (fun b => b.lower = .nan ∧ b.upper = .nan) :=
  poisons_of (kc_run o h0 h1) fun x i j h hj => kc_lost h hj

/-- A missing high is lost for the upward line, a missing low for the downward line. -/
theorem dm_missing (o : Nat → F64) (p : Nat) (hc : toInt (o 0) = .ok (p : Int)) (hp : 1 ≤ p) :
    Poisons dmBatch o (p - 1) (·.high = .nan) (·.plus = .nan) 1 ∧ Poisons dmBatch o (p - 1) (·.low = .nan) (·.minus = .nan) 1 :=
  ⟨poisons_of (dm_run o p hc hp) fun x i j h hj => wSum_lost (dirUp_lost h) (by omega),
   poisons_of (dm_run o p hc hp) fun x i j h hj => wSum_lost (dirDown_lost h) (by omega)⟩

/-! ### Forgotten after the window -/

theorem abs_recovers (o : Nat → F64) : Recovers absBatch o 0 0 := recovers_of (abs_value o).1 fun x x' j e => by rw [e j (by omega)]
theorem acos_recovers (o : Nat → F64) : Recovers acosBatch o 0 0 := recovers_of (acos_value o).1 fun x x' j e => by rw [e j (by omega)]
theorem asin_recovers (o : Nat → F64) : Recovers asinBatch o 0 0 := recovers_of (asin_value o).1 fun x x' j e => by rw [e j (by omega)]
theorem atan_recovers (o : Nat → F64) : Recovers atanBatch o 0 0 := recovers_of (atan_value o).1 fun x x' j e => by rw [e j (by omega)]
theorem ceil_recovers (o : Nat → F64) : Recovers ceilBatch o 0 0 := recovers_of (ceil_value o).1 fun x x' j e => by rw [e j (by omega)]
theorem cos_recovers (o : Nat → F64) : Recovers cosBatch o 0 0 := recovers_of (cos_value o).1 fun x x' j e => by rw [e j (by omega)]
theorem cosh_recovers (o : Nat → F64) : Recovers coshBatch o 0 0 := recovers_of (cosh_value o).1 fun x x' j e => by rw [e j (by omega)]
theorem exp_recovers (o : Nat → F64) : Recovers expBatch o 0 0 := recovers_of (exp_value o).1 fun x x' j e => by rw [e j (by omega)]
theorem floor_recovers (o : Nat → F64) : Recovers floorBatch o 0 0 := recovers_of (floor_value o).1 fun x x' j e => by rw [e j (by omega)]
theorem ln_recovers (o : Nat → F64) : Recovers lnBatch o 0 0 := recovers_of (ln_value o).1 fun x x' j e => by rw [e j (by omega)]
theorem log10_recovers (o : Nat → F64) : Recovers log10Batch o 0 0 := recovers_of (log10_value o).1 fun x x' j e => by rw [e j (by omega)]
theorem round_recovers (o : Nat → F64) : Recovers roundBatch o 0 0 := recovers_of (round_value o).1 fun x x' j e => by rw [e j (by omega)]
theorem sin_recovers (o : Nat → F64) : Recovers sinBatch o 0 0 := recovers_of (sin_value o).1 fun x x' j e => by rw [e j (by omega)]
theorem sinh_recovers (o : Nat → F64) : Recovers sinhBatch o 0 0 := recovers_of (sinh_value o).1 fun x x' j e => by rw [e j (by omega)]
theorem sqrt_recovers (o : Nat → F64) : Recovers sqrtBatch o 0 0 := recovers_of (sqrt_value o).1 fun x x' j e => by rw [e j (by omega)]
theorem tan_recovers (o : Nat → F64) : Recovers tanBatch o 0 0 := recovers_of (tan_value o).1 fun x x' j e => by rw [e j (by omega)]
theorem tanh_recovers (o : Nat → F64) : Recovers tanhBatch o 0 0 := recovers_of (tanh_value o).1 fun x x' j e => by rw [e j (by omega)]
theorem todeg_recovers (o : Nat → F64) : Recovers todegBatch o 0 0 := recovers_of (todeg_value o).1 fun x x' j e => by rw [e j (by omega)]
theorem torad_recovers (o : Nat → F64) : Recovers toradBatch o 0 0 := recovers_of (torad_value o).1 fun x x' j e => by rw [e j (by omega)]
theorem add_recovers (o : Nat → F64) : Recovers addBatch o 0 0 := recovers_of (add_value o).1 fun x x' j e => by rw [e j (by omega)]
theorem sub_recovers (o : Nat → F64) : Recovers subBatch o 0 0 := recovers_of (sub_value o).1 fun x x' j e => by rw [e j (by omega)]
theorem mul_recovers (o : Nat → F64) : Recovers mulBatch o 0 0 := recovers_of (mul_value o).1 fun x x' j e => by rw [e j (by omega)]
theorem div_recovers (o : Nat → F64) : Recovers divBatch o 0 0 := recovers_of (div_value o).1 fun x x' j e => by rw [e j (by omega)]
theorem avgprice_recovers (o : Nat → F64) : Recovers avgpriceBatch o 0 0 := recovers_of (avgprice_run o) fun x x' j e => by rw [e j (by omega)]
theorem medprice_recovers (o : Nat → F64) : Recovers medpriceBatch o 0 0 := recovers_of (medprice_run o) fun x x' j e => by rw [e j (by omega)]
theorem typprice_recovers (o : Nat → F64) : Recovers typpriceBatch o 0 0 := recovers_of (typprice_run o) fun x x' j e => by rw [e j (by omega)]
theorem wcprice_recovers (o : Nat → F64) : Recovers wcpriceBatch o 0 0 := recovers_of (wcprice_run o) fun x x' j e => by rw [e j (by omega)]
theorem bop_recovers (o : Nat → F64) : Recovers bopBatch o 0 0 := recovers_of (bop_run o) fun x x' j e => by rw [e j (by omega)]
theorem marketfi_recovers (o : Nat → F64) : Recovers marketfiBatch o 0 0 := recovers_of (marketfi_run o) fun x x' j e => by rw [e j (by omega)]
theorem crossany_recovers (o : Nat → F64) : Recovers crossanyBatch o 1 1 :=
  recovers_of (crossany_run o) fun x x' j e => by rw [e j (by omega), e (j + 1) (by omega)]
theorem crossover_recovers (o : Nat → F64) : Recovers crossoverBatch o 1 1 :=
  recovers_of (crossover_run o) fun x x' j e => by rw [e j (by omega), e (j + 1) (by omega)]
theorem emv_recovers (o : Nat → F64) : Recovers emvBatch o 1 1 :=
  recovers_of (emv_run o) fun x x' j e => by rw [e j (by omega), e (j + 1) (by omega)]
theorem lag_recovers (o : Nat → F64) (p : Nat) (hc : toInt (o 0) = .ok (p : Int)) (hp : 0 ≤ p) : Recovers lagBatch o p p :=
  recovers_of (lag_run o p hc) fun x x' j e => e j (by omega)
theorem mom_recovers (o : Nat → F64) (p : Nat) (hc : toInt (o 0) = .ok (p : Int)) (hp : 1 ≤ p) : Recovers momBatch o p p :=
  recovers_of (mom_run o p hc hp) fun x x' j e => by rw [e j (by omega), e (j + p) (by omega)]
theorem roc_recovers (o : Nat → F64) (p : Nat) (hc : toInt (o 0) = .ok (p : Int)) (hp : 1 ≤ p) : Recovers rocBatch o p p :=
  recovers_of (roc_run o p hc hp) fun x x' j e => by rw [e j (by omega), e (j + p) (by omega)]
theorem rocr_recovers (o : Nat → F64) (p : Nat) (hc : toInt (o 0) = .ok (p : Int)) (hp : 1 ≤ p) : Recovers rocrBatch o p p :=
  recovers_of (rocr_run o p hc hp) fun x x' j e => by rw [e j (by omega), e (j + p) (by omega)]
/-- The true range looks one bar back. -/
theorem tr_recovers (o : Nat → F64) : Recovers trBatch o 0 1 := recovers_of (tr_run o) fun x x' j e => by
  cases j with
  | zero => unfold trSig; rw [e 0 (by omega)]
  | succ j =>
    show trueRange _ _ _ = trueRange _ _ _
    rw [e j (by omega), e (j + 1) (by omega)]
theorem hwma_recovers (o : Nat → F64) (p : Nat) (hc : toInt (o 0) = .ok (p : Int)) (h7 : 7 ≤ p) (h13 : p ≤ 13) : Recovers hwmaBatch o (p - 1) (p - 1) :=
  recovers_of (hwma_run o p hc h7 h13) fun x x' j e => hwmaSum_congr p fun k hk => e _ (by omega)
theorem swma_recovers_partial (o : Nat → F64) (p : Nat) (hc : toInt (o 0) = .ok (p : Int)) (hp : 1 ≤ p) (hb : p < 2147483647) (h1 : p % 6 ≠ 0) (h2 : p % 6 ≠ 5) :
    Recovers swmaBatch o (p - 1) (p - 1) :=
  recovers_of (swma_run o p hc hp hb h1 h2) fun x x' j e => by
    unfold swVal
    rw [sumTo_congr' (g := fun k => swTab k * x' (j + (p - 1) - k)) fun k hk => by rw [e _ (by omega)]]
theorem msw_recovers (o : Nat → F64) (p : Nat) (hc : toInt (o 0) = .ok (p : Int)) (hp : 1 ≤ p) : Recovers mswBatch o p (p - 1) :=
  recovers_of (msw_run o p hc hp) fun x x' j e => by
    unfold mswRe mswIm
    rw [sumTo_congr' (f := fun k => CMath.cos (mswTpi * ((k : Int) : F64) / ((p : Int) : F64)) * x (j + p - k))
        (g := fun k => CMath.cos (mswTpi * ((k : Int) : F64) / ((p : Int) : F64)) * x' (j + p - k)) fun k hk => by rw [e _ (by omega)],
      sumTo_congr' (f := fun k => CMath.sin (mswTpi * ((k : Int) : F64) / ((p : Int) : F64)) * x (j + p - k))
        (g := fun k => CMath.sin (mswTpi * ((k : Int) : F64) / ((p : Int) : F64)) * x' (j + p - k)) fun k hk => by rw [e _ (by omega)]]

/-! ### Hidden -/

/-- What is hidden once is not lost for ever. -/
theorem Hides.not_poisons {ρ ω : Type} {batch : (Nat → F64) → List ρ → M (Ret × List ω)} {o : Nat → F64} {start : Nat} {missing : ρ → Prop}
    {lost : ω → Prop} (h : Hides batch o start missing lost) : ¬ Poisons batch o start missing lost := by
  obtain ⟨xs, i, r, out, hi, hr, hb, y, hy, hl⟩ := h
  intro hp
  obtain ⟨hlt, hget⟩ := List.getElem?_eq_some_iff.1 hi
  obtain ⟨z, hz, hz'⟩ := hp (fun k => xs.getD k r) xs.length
  have e : pre (fun k => xs.getD k r) xs.length = xs := by
    refine List.ext_getElem (by simp [pre]) fun k h1 h2 => ?_
    simp [pre, h2]
  rw [e, hb] at hz
  simp only [Except.ok.injEq, Prod.mk.injEq, true_and] at hz
  subst hz
  obtain ⟨k, hk, rfl⟩ := List.getElem_of_mem hy
  refine hl ?_
  have : (List.drop (i - start) (pre z (xs.length - start)))[k] = z (i - start + k) := by simp [pre]
  rw [this]
  refine hz' i _ ?_ (by omega)
  simp [List.getD, hi, hr]

theorem hides_of {ρ ω : Type} {batch : (Nat → F64) → List ρ → M (Ret × List ω)} {o : Nat → F64} {start : Nat} {missing : ρ → Prop}
    {lost : ω → Prop} (xs : List ρ) (i : Nat) (r : ρ) (hi : xs[i]? = some r) (hr : missing r)
    (h : Outputs (do let q ← batch o xs; return (q.1, q.2.drop (i - start))) (fun y => ¬ lost y)) : Hides batch o start missing lost := by
  obtain ⟨out, h1, h2⟩ := h
  cases hb : batch o xs with
  | error e => rw [hb] at h1; cases h1
  | ok q =>
    rw [hb] at h1
    obtain ⟨q1, q2⟩ := q
    simp only [bind_ok, pure_eq, Except.ok.injEq, Prod.mk.injEq] at h1
    obtain ⟨rfl, rfl⟩ := h1
    exact ⟨xs, i, r, q2, hi, hr, hb, h2⟩

/-- rsi and cmo compare with a missing price, find no move, and go on. -/
theorem rsi_missing_violates : Hides rsiBatch (opt1 2) 2 (· = .nan) (· = .nan) :=
  hides_of [c! 1, .nan, c! 3, c! 4, c! 5] 1 _ rfl rfl (by kernel_decide)
theorem cmo_missing_violates : Hides cmoBatch (opt1 2) 2 (· = .nan) (· = .nan) :=
  hides_of [c! 1, .nan, c! 3, c! 4, c! 5] 1 _ rfl rfl (by kernel_decide)
/-- max and min pass over a missing price. -/
theorem max_missing_violates : Hides maxBatch (opt1 2) 1 (· = .nan) (· = .nan) :=
  hides_of [c! 1, .nan, c! 3] 1 _ rfl rfl (by kernel_decide)
theorem min_missing_violates : Hides minBatch (opt1 2) 1 (· = .nan) (· = .nan) :=
  hides_of [c! 1, .nan, c! 3] 1 _ rfl rfl (by kernel_decide)
/-- decay and edecay take it for a low price, unless it is the first. -/
theorem decay_missing_violates : Hides decayBatch (opt1 2) 0 (· = .nan) (· = .nan) :=
  hides_of [c! 1, .nan] 1 _ rfl rfl (by kernel_decide)
theorem edecay_missing_violates : Hides edecayBatch (opt1 2) 0 (· = .nan) (· = .nan) :=
  hides_of [c! 1, .nan] 1 _ rfl rfl (by kernel_decide)
/-- obv takes a missing close for an unchanged one. -/
theorem obv_missing_violates : Hides obvBatch (opt1 2) 0 (·.close = .nan) (· = .nan) :=
  hides_of [⟨c! 1, c! 5⟩, ⟨.nan, c! 5⟩, ⟨c! 2, c! 5⟩] 1 _ rfl rfl (by kernel_decide)
/-- The true range leaves out a missing close, and so does atr. -/
theorem tr_missing_violates : Hides trBatch (opt1 2) 0 (·.close = .nan) (· = .nan) :=
  hides_of [⟨c! 3, c! 1, .nan⟩, ⟨c! 4, c! 3, c! 3⟩] 0 _ rfl rfl (by kernel_decide)
theorem atr_missing_violates : Hides atrBatch (opt1 1) 0 (·.close = .nan) (· = .nan) :=
  hides_of [⟨c! 3, c! 1, .nan⟩, ⟨c! 4, c! 3, c! 3⟩] 0 _ rfl rfl (by kernel_decide)
/-! ### Cases that meet the hypotheses -/

/-- Prices 1, 2, 3, … with the fourth one missing. -/
def gap (i : Nat) : F64 := if i = 3 then .nan else ((i + 1 : Int) : F64)
theorem opt2 : toInt (opt1 2 0) = .ok ((2 : Nat) : Int) := by kernel_decide
example := sma_missing (opt1 2) 2 opt2 (by decide) gap 1000
example : ∃ y, smaBatch (opt1 2) (pre gap 1000) = .ok (.okay, pre y 999) ∧ ∀ j, 2 ≤ j → y j = .nan := by
  obtain ⟨y, h, h'⟩ := sma_missing (opt1 2) 2 opt2 (by decide) gap 1000
  exact ⟨y, h, fun j hj => h' 3 j (if_pos rfl) (by omega)⟩
example := zlema_missing (opt1 4) 4 (by kernel_decide) (by decide) gap 1000
set_option maxRecDepth 100000 in
example := hma_missing (opt1 4) 4 2 (by kernel_decide) (by kernel_decide) (by decide) (by decide) (by decide) (by decide) gap 1000
example := macd_missing (optsD [12, 26, 9]) 12 26 9 (by kernel_decide) (by kernel_decide) (by kernel_decide) (by decide) (by decide) (by decide) (by decide) gap 1000
example := gf2_missing (opt1 4) 2 (by decide) (by decide) (by kernel_decide) gap 1000
example := t3_missing (optsD [5, 1]) (by kernel_decide) (by kernel_decide) gap 1000
example := atr_missing (opt1 2) 2 opt2 (by decide) (fun i => ⟨gap i, c! 1, c! 2⟩) 1000
example : ∃ y y', momBatch (opt1 2) (pre gap 1000) = .ok (.okay, pre y 998) ∧
    momBatch (opt1 2) (pre (fun i => ((i + 1 : Int) : F64)) 1000) = .ok (.okay, pre y' 998) ∧ ∀ j, 4 ≤ j → y j = y' j := by
  obtain ⟨y, y', h, h', e⟩ := mom_recovers (opt1 2) 2 opt2 (by decide) gap (fun i => ((i + 1 : Int) : F64)) 3 1000
    (fun k hk => by simp [gap, hk])
  exact ⟨y, y', h, h', fun j hj => e j (by omega)⟩

end Verif
