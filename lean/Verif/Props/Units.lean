/- C77: change of the unit or the level of the prices, and of the unit of the volumes. -/
import Verif.Proof.Units
import Verif.Props.Sum
import Verif.Props.Ema
import Verif.Props.Bars
import Verif.Props.Window
import Verif.Props.Stats
import Verif.Props.Extremum
import Verif.Props.Weighted
import Verif.Props.Smooth
import Verif.Props.Osc
import Verif.Props.Volume
import Verif.Props.Direction
import Verif.Props.Flow
import Verif.Props.Filters
import Verif.Props.Average
import Verif.Props.Adaptive
import Verif.Props.Rank
import Verif.Props.Trend
import Verif.Props.Chan
import Verif.Props.Regress
import Verif.Props.Trail
import Verif.Props.Cycle
import Verif.Props.Fractal
import Verif.Props.Hampel

namespace Verif
open Spec Finset
open Units
set_option linter.unusedSectionVars false

section
variable {R : Type} [Field R] [LinearOrder R] [IsStrictOrderedRing R] [CMath R]

/-! ### Averages: the outputs are prices -/

theorem sma_units (o : Nat → R) (p : Nat) (hc : toInt (o 0) = .ok (p : Int)) (hp : 1 ≤ p) :
    PriceLike smaBatch o :=
  fun _ _ _ => ofVal (sma_value o p hc hp) fun _ j => winMean_aff (fun _ => rfl) hp j

theorem ema_units (o : Nat → R) (p : Nat) (hc : toInt (o 0) = .ok (p : Int)) (hp : 1 ≤ p) :
    PriceLike emaBatch o :=
  fun _ _ _ => ofVal (ema_value o p hc hp) fun _ j => ema_aff (fun _ => rfl) j

theorem wilders_units (o : Nat → R) (p : Nat) (hc : toInt (o 0) = .ok (p : Int)) (hp : 1 ≤ p) :
    PriceLike wildersBatch o :=
  fun _ _ _ => ofVal (wilders_value o p hc hp) fun _ j => wilder_aff (fun _ => rfl) hp j

theorem max_units (o : Nat → R) (p : Nat) (hc : toInt (o 0) = .ok (p : Int)) (hp : 1 ≤ p) :
    PriceLike maxBatch o :=
  fun _ _ h => ofVal (max_value o p hc hp) fun _ j => winMax_aff h (fun _ => rfl) p j

theorem min_units (o : Nat → R) (p : Nat) (hc : toInt (o 0) = .ok (p : Int)) (hp : 1 ≤ p) :
    PriceLike minBatch o :=
  fun _ _ h => ofVal (min_value o p hc hp) fun _ j => winMin_aff h (fun _ => rfl) p j

theorem lag_units (o : Nat → R) (p : Nat) (hc : toInt (o 0) = .ok (p : Int)) :
    PriceLike lagBatch o :=
  fun _ _ _ => ofVal (lag_value o p hc) fun _ _ => rfl

theorem avgprice_units (o : Nat → R) :
    PriceLike avgpriceBatch o :=
  fun _ _ _ => ofVal (avgprice_value o) fun _ _ => by simp only [prices]; ring

theorem medprice_units (o : Nat → R) :
    PriceLike medpriceBatch o :=
  fun _ _ _ => ofVal (medprice_value o) fun _ _ => by simp only [prices]; ring

theorem typprice_units (o : Nat → R) :
    PriceLike typpriceBatch o :=
  fun _ _ _ => ofVal (typprice_value o) fun _ _ => by simp only [prices]; ring

theorem wcprice_units (o : Nat → R) :
    PriceLike wcpriceBatch o :=
  fun _ _ _ => ofVal (wcprice_value o) fun _ _ => by simp only [prices]; ring

/-- Partial: the start index is computed without overflow. -/
theorem dema_units_partial (o : Nat → R) (p : Nat) (hc : toInt (o 0) = .ok (p : Int)) (hp : 1 ≤ p) (hb : (p - 1) * 2 ≤ 2147483647) :
    PriceLike demaBatch o :=
  fun c a _ => ofVal (dema_value_partial o p hc hp hb) fun x j => by
    have e := ema_aff (k := emaCoef p) (x := x) (x' := fun i => c * x i + a) fun _ => rfl
    have e2 := ema_aff (k := emaCoef p) (x := shift (p - 1) (ema (emaCoef p) x)) (x' := shift (p - 1) (ema (emaCoef p) fun i => c * x i + a)) fun i => e _
    simp only [prices, e, e2]; ring

/-- Partial: the start index is computed without overflow. -/
theorem tema_units_partial (o : Nat → R) (p : Nat) (hc : toInt (o 0) = .ok (p : Int)) (hp : 1 ≤ p) (hb : (p - 1) * 3 ≤ 2147483647) :
    PriceLike temaBatch o :=
  fun c a _ => ofVal (tema_value_partial o p hc hp hb) fun x j => by
    have e := ema_aff (k := emaCoef p) (x := x) (x' := fun i => c * x i + a) fun _ => rfl
    have e2 := ema_aff (k := emaCoef p) (x := shift (p - 1) (ema (emaCoef p) x)) (x' := shift (p - 1) (ema (emaCoef p) fun i => c * x i + a)) fun i => e _
    have e3 := ema_aff (k := emaCoef p) (x := shift (p - 1) (ema (emaCoef p) (shift (p - 1) (ema (emaCoef p) x))))
      (x' := shift (p - 1) (ema (emaCoef p) (shift (p - 1) (ema (emaCoef p) fun i => c * x i + a)))) fun i => e2 _
    simp only [prices, e, e2, e3]; ring

/-- Partial: periods 1 and 2 are out of bounds. -/
theorem zlema_units_partial (o : Nat → R) (p : Nat) (hc : toInt (o 0) = .ok (p : Int)) (hp : 3 ≤ p) :
    PriceLike zlemaBatch o :=
  fun c a _ => ofVal (zlema_value_partial o p hc hp) fun x j => by
    refine ema_aff (fun i => ?_) j
    simp only [prices]
    split
    · rfl
    · ring

/-- Partial: the weight total does not overflow. -/
theorem wma_units_partial (o : Nat → R) (p : Nat) (hc : toInt (o 0) = .ok (p : Int)) (hp : 1 ≤ p) (hb : p * (p + 1) ≤ 2147483647) :
    PriceLike wmaBatch o :=
  fun c a _ => ofVal (wma_value_partial o p hc hp hb) fun x j => wma_aff (x := x) (fun _ => rfl) hp j

/-- Partial: the weight total does not overflow. -/
theorem trima_units_partial (o : Nat → R) (p : Nat) (hc : toInt (o 0) = .ok (p : Int)) (hp : 1 ≤ p) (hb : ((p / 2 : Nat) + 1) * ((p / 2 : Nat) + 1) ≤ 2147483647) :
    PriceLike trimaBatch o :=
  fun c a _ => ofVal (trima_value_partial o p hc hp hb) fun x j => trima_aff (fun _ => rfl) hp j

/-- Partial: the weight totals do not overflow. -/
theorem hma_units_partial (o : Nat → R) (p s : Nat) (hc : toInt (o 0) = .ok (p : Int)) (hs : toInt (CMath.sqrt ((p : Int) : R)) = .ok (s : Int)) (hp : 2 ≤ p) (hs1 : 1 ≤ s) (hsp : s ≤ p) (hb : p * (p + 1) ≤ 2147483647) :
    PriceLike hmaBatch o :=
  fun c a _ => ofVal (hma_value_partial o p s hc hs hp hs1 hsp hb) fun x j => wma_aff (fun m => by
    simp only [prices]
    rw [wma_aff (x := x) (c := c) (a := a) (fun _ => rfl) (by omega), wma_aff (x := x) (c := c) (a := a) (fun _ => rfl) (by omega)]; ring) hs1 j

/-- Partial: the start index is computed without overflow. -/
theorem dwma_units_partial [LawfulTrunc R] [LawfulRound R] (o : Nat → R) (p : Nat) (ho : o 0 = ((p : Int) : R)) (hp : 1 ≤ p) (hb : p ≤ 1073741824) :
    PriceLike dwmaBatch o :=
  fun c a _ => ofVal (dwma_value_partial o p ho hp hb) fun x j => wma_aff (fun i => wma_aff (fun _ => rfl) hp i) hp j

theorem lma_units [LawfulTrunc R] [LawfulRound R] (o : Nat → R) (p : Nat) (hc : toInt (o 0) = .ok (p : Int)) (hp : 1 ≤ p) :
    PriceLike lmaBatch o :=
  fun c a _ => ofVal (lma_value o p hc hp) fun x j => by
    simp only [prices]
    rw [wma_aff (x := x) (c := c) (a := a) (fun _ => rfl) hp, winMean_aff (x := x) (c := c) (a := a) (fun _ => rfl) hp]; ring

/-- Partial: the weight total does not overflow. -/
theorem shmma_units_partial [LawfulTrunc R] [LawfulRound R] (o : Nat → R) (p : Nat) (hc : toInt (o 0) = .ok (p : Int)) (hp : 1 ≤ p) (hb : (p + 1) * p ≤ 2147483647) :
    PriceLike shmmaBatch o :=
  fun c a _ => ofVal (shmma_value_partial o p hc hp hb) fun x j => sharpMean_aff (fun _ => rfl) hp j

theorem t3_units (o : Nat → R) (h0 : 1 ≤ o 0) (h1 : 0 ≤ o 1) :
    PriceLike t3Batch o :=
  fun c a _ => ofVal (t3_value o h0 h1) fun x j => gdema_aff (fun i => gdema_aff (fun i => gdema_aff (fun _ => rfl) i) i) j

theorem ehma_units (o : Nat → R) (p : Nat) (hc : toInt (o 0) = .ok (p : Int)) (hp : 1 ≤ p) :
    PriceLike ehmaBatch o :=
  fun c a _ => ofVal (ehma_value o p hc hp) fun x j => ema_aff (fun i => by
    simp only [prices]
    rw [ema_aff (x := x) (c := c) (a := a) (fun _ => rfl), ema_aff (x := x) (c := c) (a := a) (fun _ => rfl)]; ring) j

theorem kama_units [LawfulAbs R] [LawfulPow R] (o : Nat → R) (p : Nat) (hc : toInt (o 0) = .ok (p : Int)) (hp : 1 ≤ p) :
    PriceLike kamaBatch o :=
  fun c a h => ofVal (kama_value o p hc hp) fun x j => kama_aff h (fun _ => rfl) j

theorem hwma_units (o : Nat → R) (p : Nat) (hc : toInt (o 0) = .ok (p : Int)) (h7 : 7 ≤ p) (h13 : p ≤ 13) :
    PriceLike hwmaBatch o :=
  fun c a h => ofVal (hwma_value o p hc h7 h13) fun x j => henderson_aff (fun _ => rfl) h7 h13 _

/-! ### Averages that start from zero: only the unit -/

theorem gf1_units (o : Nat → R) (q : Nat) (h1 : 1 ≤ q) (h2 : q ≤ 20) (hc : toInt (o 0) = .ok ((2 * q : Nat) : Int)) :
    UnitLike gf1Batch o :=
  fun c _ => ofVal (gf1_value o q h1 h2 hc) fun x j => iir_mul (fun _ => rfl) j

theorem gf2_units (o : Nat → R) (q : Nat) (h1 : 1 ≤ q) (h2 : q ≤ 20) (hc : toInt (o 0) = .ok ((2 * q : Nat) : Int)) :
    UnitLike gf2Batch o :=
  fun c _ => ofVal (gf2_value o q h1 h2 hc) fun x j => iir_mul (fun _ => rfl) j

theorem gf3_units (o : Nat → R) (q : Nat) (h1 : 1 ≤ q) (h2 : q ≤ 20) (hc : toInt (o 0) = .ok ((2 * q : Nat) : Int)) :
    UnitLike gf3Batch o :=
  fun c _ => ofVal (gf3_ignores_period o q h1 h2 hc) fun x j => iir_mul (fun _ => rfl) j

theorem bf2_units (o : Nat → R) (h : 1 ≤ o 0) (q : Nat) (h1 : 1 ≤ q) (h2 : q ≤ 20) (hc : toInt (o 0) = .ok ((2 * q : Nat) : Int)) (s : Nat) (hs : bf2Start o = .ok (s : Int)) :
    UnitLike bf2Batch o :=
  fun c _ => ofVal (bf2_value o h q h1 h2 hc s hs) fun x j => iir_mul (fun _ => rfl) _

theorem bf3_units (o : Nat → R) (h : 1 ≤ o 0) (q : Nat) (h1 : 1 ≤ q) (h2 : q ≤ 20) (hc : toInt (o 0) = .ok ((2 * q : Nat) : Int)) (s : Nat) (hs : bf3Start o = .ok (s : Int)) :
    UnitLike bf3Batch o :=
  fun c _ => ofVal (bf3_value o h q h1 h2 hc s hs) fun x j => iir_mul (fun _ => rfl) _

theorem ssmooth_units (o : Nat → R) :
    UnitLike ssmoothBatch o :=
  fun c _ => ofVal (ssmooth_value o) fun x j => iir_mul (fun _ => rfl) j

theorem roof_units (o : Nat → R) :
    UnitLike roofBatch o :=
  fun c _ => ofVal (roof_value o) fun x j => iir_mul (fun i => iir_mul (fun _ => rfl) i) j

theorem lf_units (o : Nat → R) (h : 0 ≤ o 0) :
    UnitLike lfBatch o :=
  fun c _ => ofVal (lf_value o h) fun x j => by
    have e0 := iir_mul (b := [1 - o 0]) (k := [o 0]) (c := c) (x := x) (x' := fun i => c * x i) fun _ => rfl
    have e1 := iir_mul (b := [-o 0, 1]) (k := [o 0]) e0
    have e2 := iir_mul (b := [-o 0, 1]) (k := [o 0]) e1
    have e3 := iir_mul (b := [-o 0, 1]) (k := [o 0]) e2
    simp only [prices, e0, e1, e2, e3]; ring

theorem sum_units (o : Nat → R) (p : Nat) (hc : toInt (o 0) = .ok (p : Int)) (hp : 1 ≤ p) :
    UnitLike sumBatch o :=
  fun c _ => ofVal (sum_value o p hc hp) fun x j => winSum_mul (fun _ => rfl) p j

/-- Partial: whole periods for which twice the period does not overflow. -/
theorem edcf_units_partial [LawfulCeil R] [LawfulTrunc R] [LawfulRound R] (o : Nat → R) (p : Nat) (ho : o 0 = ((p : Int) : R)) (hp : 1 ≤ p) (hb : p ≤ 1073741823) :
    UnitLike edcfBatch o :=
  fun c h => ofVal (edcf_value_partial o p ho hp hb) fun x j => distFilter_mul h (fun _ => rfl) p _

/-! ### Differences of prices -/

theorem mom_units (o : Nat → R) (p : Nat) (hc : toInt (o 0) = .ok (p : Int)) (hp : 1 ≤ p) :
    SpreadLike momBatch o :=
  fun c a _ => ofVal (mom_value o p hc hp) fun x j => by simp only [prices]; ring

theorem apo_units (o : Nat → R) (p q : Nat) (hc : toInt (o 0) = .ok (p : Int)) (hc1 : toInt (o 1) = .ok (q : Int)) (hp : 1 ≤ p) (hq : 2 ≤ q) (hpq : p ≤ q) :
    SpreadLike apoBatch o :=
  fun c a _ => ofVal (apo_value o p q hc hc1 hp hq hpq) fun x j => by
    simp only [prices]
    rw [ema_aff (x := x) (c := c) (a := a) (fun _ => rfl), ema_aff (x := x) (c := c) (a := a) (fun _ => rfl)]; ring

theorem macd_units (o : Nat → R) (p q r : Nat) (hc : toInt (o 0) = .ok (p : Int)) (hc1 : toInt (o 1) = .ok (q : Int)) (hc2 : toInt (o 2) = .ok (r : Int)) (hp : 1 ≤ p) (hq : 2 ≤ q) (hpq : p ≤ q) (hr : 1 ≤ r) :
    SpreadLike macdBatch o :=
  fun c a _ => ofVal (macd_value o p q r hc hc1 hc2 hp hq hpq hr) fun x j => by
    have e (k : R) := ema_aff (k := k) (x := x) (x' := fun i => c * x i + a) fun _ => rfl
    have e2 : ∀ i, ema (macdCoef p q).1 (fun i => c * x i + a) i - ema (macdCoef p q).2 (fun i => c * x i + a) i =
        c * (ema (macdCoef p q).1 x i - ema (macdCoef p q).2 x i) := fun i => by rw [e, e]; ring
    have e3 := ema_mul (k := emaCoef r) (x' := shift (q - 1) fun i => ema (macdCoef p q).1 (fun i => c * x i + a) i - ema (macdCoef p q).2 (fun i => c * x i + a) i)
      (x := shift (q - 1) fun i => ema (macdCoef p q).1 x i - ema (macdCoef p q).2 x i) fun i => e2 _
    simp only [prices]
    rw [e3, e2]; simp only [mul_sub]

theorem md_units [LawfulAbs R] (o : Nat → R) (p : Nat) (hc : toInt (o 0) = .ok (p : Int)) (hp : 1 ≤ p) :
    SpreadLike mdBatch o :=
  fun c a h => ofVal (md_value o p hc hp) fun x j => winMeanDev_aff h (fun _ => rfl) hp j

theorem stddev_units [LawfulSqrt R] (o : Nat → R) (p : Nat) (hc : toInt (o 0) = .ok (p : Int)) (hp : 1 ≤ p) :
    SpreadLike stddevBatch o :=
  fun c a h => ofVal (stddev_value o p hc hp) fun x j => sd_aff h (fun _ => rfl) hp j

theorem stderr_units [LawfulSqrt R] (o : Nat → R) (p : Nat) (hc : toInt (o 0) = .ok (p : Int)) (hp : 1 ≤ p) :
    SpreadLike stderrBatch o :=
  fun c a h => ofVal (stderr_value o p hc hp) fun x j => by
    simp only [prices]
    rw [sd_aff (x := x) (c := c) (a := a) h (fun _ => rfl) hp, mul_div_assoc]

/-- Partial: shorter periods read before the input. -/
theorem dpo_units_partial (o : Nat → R) (p : Nat) (hc : toInt (o 0) = .ok (p : Int)) (hp : 3 ≤ p) :
    SpreadLike dpoBatch o :=
  fun c a _ => ofVal (dpo_value_partial o p hc hp) fun x j => by
    simp only [prices]
    rw [winMean_aff (x := x) (c := c) (a := a) (fun _ => rfl) (by omega)]; ring

/-! ### Pure numbers -/

theorem rsi_units (o : Nat → R) (p : Nat) (hc : toInt (o 0) = .ok (p : Int)) (hp : 1 ≤ p) :
    ShapeLike rsiBatch o :=
  fun c a h => ofVal (rsi_value o p hc hp) fun x j => by
    have g := wilder_mul (p := p) (x := gain x) (x' := gain fun i => c * x i + a) fun i => gain_aff h (fun _ => rfl) i
    have l := wilder_mul (p := p) (x := loss x) (x' := loss fun i => c * x i + a) fun i => loss_aff h (fun _ => rfl) i
    simp only [prices, g, l, zero_mul_iff h, ← mul_add, quot h, id]

theorem cmo_units (o : Nat → R) (p : Nat) (hc : toInt (o 0) = .ok (p : Int)) (hp : 1 ≤ p) :
    ShapeLike cmoBatch o :=
  fun c a h => ofVal (cmo_value o p hc hp) fun x j => by
    have g := winSum_mul (p := p) (x := gain x) (x' := gain fun i => c * x i + a) fun i => gain_aff h (fun _ => rfl) i
    have l := winSum_mul (p := p) (x := loss x) (x' := loss fun i => c * x i + a) fun i => loss_aff h (fun _ => rfl) i
    simp only [prices, g, l, ← mul_add, ← mul_sub, zero_mul_iff h, mul_left_comm _ c, quot h, id]

theorem vhf_units [LawfulAbs R] (o : Nat → R) (p : Nat) (hc : toInt (o 0) = .ok (p : Int)) (hp : 1 ≤ p) :
    ShapeLike vhfBatch o :=
  fun c a h => ofVal (vhf_value o p hc hp) fun x j => by
    have e := winMax_aff (p := p) (x := x) (x' := fun i => c * x i + a) h fun _ => rfl
    have e' := winMin_aff (p := p) (x := x) (x' := fun i => c * x i + a) h fun _ => rfl
    have s := winSum_mul (p := p) (x := fun k => |x (k + 1) - x k|) (x' := fun k => |c * (x (k + 1) - x k)|) fun k => abs_mulc h _
    simp only [prices, e, e', sub_aff, s, zero_mul_iff h, quot h, id]

theorem er_units [LawfulAbs R] (o : Nat → R) (p : Nat) (hc : toInt (o 0) = .ok (p : Int)) (hp : 1 ≤ p) :
    ShapeLike erBatch o :=
  fun c a h => ofVal (er_value o p hc hp) fun x j => by
    simp only [prices, efficiency, eq_aff h, abs_sub_aff h, ← mul_sum, quot h, id]

theorem tsi_units [LawfulAbs R] (o : Nat → R) (h0 : 1 ≤ o 0) (h1 : 1 ≤ o 1) :
    ShapeLike tsiBatch o :=
  fun c a h => ofVal (tsi_value o h0 h1) fun x j => by
    have e : ∀ i, priceChange (fun i => c * x i + a) i = c * priceChange x i := fun i => sub_aff _ _
    have s := smooth2_mul (p := o 0) (q := o 1) e
    have s' := smooth2_mul (p := o 0) (q := o 1) (x' := fun k => |priceChange (fun i => c * x i + a) k|) (x := fun k => |priceChange x k|)
      fun i => abs_aff h (e i)
    simp only [prices, trueStrength, s, s', zero_mul_iff h, quot h, id]

/-- Partial: whole momentum periods. -/
theorem rmi_units_partial [LawfulTrunc R] [LawfulRound R] (o : Nat → R) (p : Nat) (h0 : 1 ≤ o 0) (ho : o 1 = (p : R)) (hp : 1 ≤ p) (hb : p ≤ 2147483647) :
    ShapeLike rmiBatch o :=
  fun c a h => ofVal (rmi_value_partial o p h0 ho hp hb) fun x j => by
    have g := ema_mul (k := 2 / (1 + o 0)) (x := gainOver p x) (x' := gainOver p fun i => c * x i + a) fun i => by
      rw [gainOver, gainOver, sub_aff, ← max_mul h, mul_zero]
    have l := ema_mul (k := 2 / (1 + o 0)) (x := lossOver p x) (x' := lossOver p fun i => c * x i + a) fun i => by
      rw [lossOver, lossOver, sub_aff, ← max_mul h, mul_zero]
    simp only [prices, relMomentum, g, l, zero_mul_iff h, ← mul_add, quot h, id]

/-! ### Relative changes: only the unit -/

theorem roc_units (o : Nat → R) (p : Nat) (hc : toInt (o 0) = .ok (p : Int)) (hp : 1 ≤ p) :
    RatioLike rocBatch o :=
  fun c h => ofVal (roc_value o p hc hp) fun x j => by simp only [prices, zero_mul_iff h, ← mul_sub, quot h, id]

theorem rocr_units (o : Nat → R) (p : Nat) (hc : toInt (o 0) = .ok (p : Int)) (hp : 1 ≤ p) :
    RatioLike rocrBatch o :=
  fun c h => ofVal (rocr_value o p hc hp) fun x j => by simp only [prices, zero_mul_iff h, quot h, id]

theorem ppo_units (o : Nat → R) (p q : Nat) (hc : toInt (o 0) = .ok (p : Int)) (hc1 : toInt (o 1) = .ok (q : Int)) (hp : 1 ≤ p) (hq : 2 ≤ q) (hpq : p ≤ q) :
    RatioLike ppoBatch o :=
  fun c h => ofVal (ppo_value o p q hc hc1 hp hq hpq) fun x j => by
    have e (k : R) := ema_mul (k := k) (x := x) (x' := fun i => c * x i) fun _ => rfl
    simp only [prices, e, ← mul_sub, zero_mul_iff h, mul_left_comm _ c, quot h, id]

/-- Partial: the start index is computed without overflow. -/
theorem trix_units_partial (o : Nat → R) (p : Nat) (hc : toInt (o 0) = .ok (p : Int)) (hp : 2 ≤ p) (hb : p * 3 ≤ 2147483647) :
    RatioLike trixBatch o :=
  fun c h => ofVal (trix_value_partial o p hc hp hb) fun x j => by
    have e := ema_mul (k := emaCoef p) (x := x) (x' := fun i => c * x i) fun _ => rfl
    have e2 := ema_mul (k := emaCoef p) (x := shift (p - 1) (ema (emaCoef p) x)) (x' := shift (p - 1) (ema (emaCoef p) fun i => c * x i)) fun i => e _
    have e3 := ema_mul (k := emaCoef p) (x := shift (p - 1) (ema (emaCoef p) (shift (p - 1) (ema (emaCoef p) x))))
      (x' := shift (p - 1) (ema (emaCoef p) (shift (p - 1) (ema (emaCoef p) fun i => c * x i)))) fun i => e2 _
    simp only [prices, e3, ← mul_sub, zero_mul_iff h, quot h, id]

theorem volatility_units (o : Nat → R) (p : Nat) (hc : toInt (o 0) = .ok (p : Int)) (hp : 1 ≤ p) :
    RatioLike volatilityBatch o :=
  fun c h => ofVal (volatility_value o p hc hp) fun x j => by
    have e : relMove (fun i => c * x i) = relMove x := funext fun k => by simp only [relMove, zero_mul_iff h, ← mul_sub, quot h]
    simp only [prices, e, id]

/-- Partial: whole periods within the range of `int`. -/
theorem copp_units_partial [LawfulTrunc R] [LawfulRound R] (o : Nat → R) (s l w : Nat) (h0 : o 0 = ((s : Int) : R)) (h1 : o 1 = ((l : Int) : R)) (h2 : o 2 = ((w : Int) : R)) (hs : 1 ≤ s) (hl : s ≤ l) (hw : 1 ≤ w) (hb : l + w ≤ 2147483646) :
    RatioLike coppBatch o :=
  fun c h => ofVal (copp_value_partial o s l w h0 h1 h2 hs hl hw hb) fun x j => by
    have e : (fun m => meanChange s l (fun i => c * x i) (m + l)) = fun m => meanChange s l x (m + l) := funext fun k => by
      simp only [meanChange, zero_mul_iff h, ← mul_sub, quot h]
    simp only [prices, e, id]

theorem vosc_units (o : Nat → R) (s p : Nat) (hs : toInt (o 0) = .ok (s : Int)) (hc : toInt (o 1) = .ok (p : Int)) (h1 : 1 ≤ s) (h2 : s ≤ p) :
    RatioLike voscBatch o :=
  fun c h => ofVal (vosc_value o s p hs hc h1 h2) fun x j => by
    have e (q : Nat) := winMean_mul (p := q) (x := x) (x' := fun i => c * x i) fun _ => rfl
    simp only [prices, e, mul_right_inj' h.ne', ← mul_sub, mul_left_comm _ c, quot h, id]

end

end Verif
