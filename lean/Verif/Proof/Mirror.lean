/- Values of the market turned upside down. -/
import Verif.Spec.Mirror
import Verif.Proof.UnitsBars

namespace Verif.Mirror
open Spec Finset Units
open Spec (ema wilder)
set_option linter.unusedSectionVars false

variable {R : Type} [Field R] [LinearOrder R] [IsStrictOrderedRing R]
variable {a : R} {x x' y y' : Nat → R}

theorem aff (h : ∀ i, x' i = a - x i) (i : Nat) : x' i = -1 * x i + a := by rw [h]; ring
theorem neg (h : ∀ i, x' i = -x i) (i : Nat) : x' i = -1 * x i := by rw [h]; ring

theorem winSum_neg (h : ∀ i, x' i = -x i) (p j : Nat) : winSum p x' j = -winSum p x j := by rw [winSum_mul (neg h)]; ring
theorem winMean_neg (h : ∀ i, x' i = -x i) (p j : Nat) : winMean p x' j = -winMean p x j := by rw [winMean_mul (neg h)]; ring
theorem winMean_m (h : ∀ i, x' i = a - x i) {p : Nat} (hp : 1 ≤ p) (j : Nat) : winMean p x' j = a - winMean p x j := by
  rw [winMean_aff (aff h) hp]; ring
theorem winVar_m (h : ∀ i, x' i = a - x i) {p : Nat} (hp : 1 ≤ p) (j : Nat) : winVar p x' j = winVar p x j := by
  rw [winVar_aff (aff h) hp]; ring
theorem ema_neg {k : R} (h : ∀ i, x' i = -x i) (n : Nat) : ema k x' n = -ema k x n := by rw [ema_mul (neg h)]; ring
theorem ema_m {k : R} (h : ∀ i, x' i = a - x i) (n : Nat) : ema k x' n = a - ema k x n := by rw [ema_aff (aff h)]; ring
theorem wilder_m (h : ∀ i, x' i = a - x i) {p : Nat} (hp : 1 ≤ p) (n : Nat) : wilder p x' n = a - wilder p x n := by
  rw [wilder_aff (aff h) hp]; ring
theorem wma_m (h : ∀ i, x' i = a - x i) {p : Nat} (hp : 1 ≤ p) (n : Nat) : wma p x' n = a - wma p x n := by
  rw [wma_aff (aff h) hp]; ring
theorem trima_m (h : ∀ i, x' i = a - x i) {p : Nat} (hp : 1 ≤ p) (n : Nat) : trima p x' n = a - trima p x n := by
  rw [trima_aff (aff h) hp]; ring
theorem sharpMean_m (h : ∀ i, x' i = a - x i) {p : Nat} (hp : 1 ≤ p) (n : Nat) : sharpMean p x' n = a - sharpMean p x n := by
  rw [sharpMean_aff (aff h) hp]; ring
theorem gdema_m {k v : R} (h : ∀ i, x' i = a - x i) (n : Nat) : gdema k v x' n = a - gdema k v x n := by
  rw [gdema_aff (aff h)]; ring
theorem henderson_m (h : ∀ i, x' i = a - x i) {p : Nat} (h7 : 7 ≤ p) (h13 : p ≤ 13) (n : Nat) : henderson p x' n = a - henderson p x n := by
  rw [henderson_aff (aff h) h7 h13]; ring
theorem smooth2_neg {p q : R} (h : ∀ i, x' i = -x i) (n : Nat) : smooth2 p q x' n = -smooth2 p q x n := by
  rw [smooth2_mul (neg h)]; ring
theorem iir_neg {b k : List R} (h : ∀ i, x' i = -x i) (n : Nat) : iir b k x' n = -iir b k x n := by rw [iir_mul (neg h)]; ring

theorem max_m (u v : R) : max (a - u) (a - v) = a - min u v := by
  rcases le_total u v with h | h
  · rw [min_eq_left h, max_eq_left (by linarith)]
  · rw [min_eq_right h, max_eq_right (by linarith)]
theorem min_m (u v : R) : min (a - u) (a - v) = a - max u v := by
  rcases le_total u v with h | h
  · rw [max_eq_right h, min_eq_right (by linarith)]
  · rw [max_eq_left h, min_eq_left (by linarith)]
theorem lt_m (u v : R) : a - u < a - v ↔ v < u := sub_lt_sub_iff_left a
theorem le_m (u v : R) : a - u ≤ a - v ↔ v ≤ u := sub_le_sub_iff_left a
theorem eq_m (u v : R) : a - u = a - v ↔ u = v := sub_right_inj
theorem sub_m (u v : R) : a - u - (a - v) = v - u := by ring
theorem abs_m (u v : R) : |a - u - (a - v)| = |u - v| := by rw [sub_m, abs_sub_comm]

theorem sup_m {s : Finset Nat} (hs : s.Nonempty) (f : Nat → R) : s.sup' hs (fun k => a - f k) = a - s.inf' hs f := by
  refine le_antisymm (sup'_le hs _ fun k hk => ?_) ?_
  · have := inf'_le f hk; linarith
  · obtain ⟨k, hk, e⟩ := exists_mem_eq_inf' hs f
    rw [e]; exact le_sup' (fun k => a - f k) hk
theorem inf_m {s : Finset Nat} (hs : s.Nonempty) (f : Nat → R) : s.inf' hs (fun k => a - f k) = a - s.sup' hs f := by
  refine le_antisymm ?_ (le_inf' hs _ fun k hk => ?_)
  · obtain ⟨k, hk, e⟩ := exists_mem_eq_sup' hs f
    rw [e]; exact inf'_le (fun k => a - f k) hk
  · have := le_sup' f hk; linarith
theorem winMax_m (h : ∀ i, x' i = a - x i) (p j : Nat) : winMax p x' j = a - winMin p x j := by
  unfold winMax winMin; simp only [h]; exact sup_m _ _
theorem winMin_m (h : ∀ i, x' i = a - x i) (p j : Nat) : winMin p x' j = a - winMax p x j := by
  unfold winMax winMin; simp only [h]; exact inf_m _ _
theorem winMeanDev_m (h : ∀ i, x' i = a - x i) {p : Nat} (hp : 1 ≤ p) (j : Nat) : winMeanDev p x' j = winMeanDev p x j := by
  unfold winMeanDev
  rw [winMean_m h hp]
  simp only [h, abs_m]
theorem gain_m (h : ∀ i, x' i = a - x i) : gain x' = loss x := funext fun k => by simp only [gain, loss, h, sub_m]
theorem loss_m (h : ∀ i, x' i = a - x i) : loss x' = gain x := funext fun k => by simp only [gain, loss, h, sub_m]
theorem gainOver_m (h : ∀ i, x' i = a - x i) (p : Nat) : gainOver p x' = lossOver p x := funext fun k => by simp only [gainOver, lossOver, h, sub_m]
theorem lossOver_m (h : ∀ i, x' i = a - x i) (p : Nat) : lossOver p x' = gainOver p x := funext fun k => by simp only [gainOver, lossOver, h, sub_m]
theorem effRatio_m (h : ∀ i, x' i = a - x i) (p j : Nat) : effRatio p x' j = effRatio p x j := by
  simp only [effRatio, h, abs_m]
theorem kama_m (h : ∀ i, x' i = a - x i) {p : Nat} (j : Nat) : kama p x' j = a - kama p x j := by
  induction j with
  | zero => exact h _
  | succ j ih => rw [kama, kama, ih, effRatio_m h, h]; ring
theorem midRange_m (h : ∀ i, x' i = a - x i) {p : Nat} (n : Nat) : midRange p x' n = a - midRange p x n := by
  unfold midRange
  rw [winMax_m h, winMin_m h]; ring

/-! ### Bars -/

theorem trueRange_m (z : Nat → HLC R) : Spec.trueRange (fun i => mirror (fun v => a - v) (z i)) = Spec.trueRange z := funext fun i => by
  simp only [Spec.trueRange, mirror, sub_m, abs_m]
  split
  · rfl
  · rw [max_comm |_ - (z i).low|, abs_sub_comm _ (z i).high, abs_sub_comm _ (z i).low]
theorem midChannel_m (z : Nat → HL R) (p i : Nat) : midChannel p (fun i => mirror (fun v => a - v) (z i)) i = a - midChannel p z i := by
  unfold midChannel
  simp only [mirror]
  rw [winMax_m (x := fun k => (z k).low) (a := a) fun _ => rfl, winMin_m (x := fun k => (z k).high) (a := a) fun _ => rfl]; ring
theorem upMove_m (z : Nat → HL R) : upMove (fun i => mirror (fun v => a - v) (z i)) = downMove z := funext fun k => by
  simp only [upMove, downMove, mirror, sub_m]
theorem downMove_m (z : Nat → HL R) : downMove (fun i => mirror (fun v => a - v) (z i)) = upMove z := funext fun k => by
  simp only [upMove, downMove, mirror, sub_m]
theorem plusDM_m (z : Nat → HL R) : plusDM (fun i => mirror (fun v => a - v) (z i)) = minusDM z := funext fun k => by
  simp only [plusDM, minusDM, upMove_m, downMove_m]
theorem minusDM_m (z : Nat → HL R) : minusDM (fun i => mirror (fun v => a - v) (z i)) = plusDM z := funext fun k => by
  simp only [plusDM, minusDM, upMove_m, downMove_m]
theorem dxOf_swap (u v : R) : dxOf v u = dxOf u v := by rw [dxOf, dxOf, add_comm v u, abs_sub_comm]
theorem wadMove_m (z : Nat → HLC R) (k : Nat) : wadMove (fun i => mirror (fun v => a - v) (z i)) k = -wadMove z k := by
  simp only [wadMove, mirror, lt_m, min_m, max_m, sub_m]
  rcases lt_trichotomy (z k).close (z (k + 1)).close with h | h | h
  · rw [if_neg h.not_gt, if_pos h, if_pos h]; ring
  · simp [h]
  · rw [if_pos h, if_neg h.not_gt, if_pos h]; ring
theorem lastMax_m {f : Nat → R} {t i k : Nat} : LastMax (fun n => a - f n) t i k ↔ LastMin f t i k := by
  simp only [LastMax, LastMin, le_m, lt_m]
theorem lastMin_m {f : Nat → R} {t i k : Nat} : LastMin (fun n => a - f n) t i k ↔ LastMax f t i k := by
  simp only [LastMax, LastMin, le_m, lt_m]

theorem clamp_neg (v : R) : fisherOsc.clamp (-v) = -fisherOsc.clamp v := by
  unfold fisherOsc.clamp
  by_cases h1 : (99 / 100 : R) < v
  · have h2 : ¬(99 / 100 : R) < -v := by linarith
    rw [if_neg h2, if_pos (by linarith), if_pos h1]
  · by_cases h2 : v < -(99 / 100 : R)
    · rw [if_pos (by linarith), if_neg h1, if_pos h2, neg_neg]
    · rw [if_neg (by linarith), if_neg (by linarith), if_neg h1, if_neg h2]
/-- Where the window is not flat, the newest midpoint's place in it is turned around the middle. -/
theorem fisherPart_m {p : Nat} (h : ∀ i, x' i = a - x i) (j : Nat) (hj : winMax p x j ≠ winMin p x j) :
    (x' (j + (p - 1)) - winMin p x' j) / fisherOsc.range p x' j - 1 / 2 = -((x (j + (p - 1)) - winMin p x j) / fisherOsc.range p x j - 1 / 2) := by
  unfold fisherOsc.range
  rw [winMax_m h, winMin_m h, h, sub_m, sub_m, if_neg (by rw [eq_m]; exact hj.symm), if_neg hj]
  have := sub_ne_zero.2 hj
  field_simp
  ring
theorem fisherOsc_m {p : Nat} (h : ∀ i, x' i = a - x i) (j : Nat) (hj : ∀ k, k ≤ j → winMax p x k ≠ winMin p x k) : fisherOsc p x' j = -fisherOsc p x j := by
  induction j with
  | zero =>
    have := fisherPart_m h 0 (hj 0 le_rfl)
    rw [Nat.zero_add] at this
    rw [fisherOsc, fisherOsc, this, mul_neg, clamp_neg]
  | succ j ih =>
    rw [fisherOsc, fisherOsc, fisherPart_m h _ (hj _ le_rfl), ih fun k hk => hj k (by omega), mul_neg, mul_neg, ← neg_add, clamp_neg]

theorem offMiddle_m (z : Nat → HLC R) (q k : Nat) : offMiddle q (fun i => mirror (fun v => a - v) (z i)) k = -offMiddle q z k := by
  unfold offMiddle
  simp only [mirror]
  rw [winMax_m (x := fun k => (z k).low) (a := a) fun _ => rfl, winMin_m (x := fun k => (z k).high) (a := a) fun _ => rfl]
  ring
theorem fullRange_m (z : Nat → HLC R) (q k : Nat) : fullRange q (fun i => mirror (fun v => a - v) (z i)) k = fullRange q z k := by
  unfold fullRange
  simp only [mirror]
  rw [winMax_m (x := fun k => (z k).low) (a := a) fun _ => rfl, winMin_m (x := fun k => (z k).high) (a := a) fun _ => rfl]
  ring
theorem inRange_m (lo hi c : R) (h : lo < hi) : inRange (a - hi) (a - lo) (a - c) = 1 - inRange lo hi c := by
  have := (sub_pos.2 h).ne'
  simp only [inRange, sub_m, if_neg this]
  field_simp
  ring
theorem winMin_lt_winMax (z : Nat → HLC R) (hz : ∀ n, (z n).low < (z n).high) (p j : Nat) :
    winMin p (fun i => (z i).low) j < winMax p (fun i => (z i).high) j :=
  lt_of_le_of_lt (inf'_le (fun k => (z (j + k)).low) (mem_range.2 (Nat.succ_pos _)))
    ((hz _).trans_le (le_sup' (fun k => (z (j + k)).high) (mem_range.2 (Nat.succ_pos (p - 1)))))
theorem fastK_m (z : Nat → HLC R) (hz : ∀ n, (z n).low < (z n).high) (p j : Nat) :
    fastK p (fun i => mirror (fun v => a - v) (z i)) j = 100 - fastK p z j := by
  unfold fastK
  simp only [mirror]
  rw [winMax_m (x := fun k => (z k).low) (a := a) fun _ => rfl, winMin_m (x := fun k => (z k).high) (a := a) fun _ => rfl,
    inRange_m _ _ _ (winMin_lt_winMax z hz p j)]
  ring
theorem pressureRatio_m (z : Nat → HLC R) (hz : ∀ n, (z n).low < (z n).high) {p : Nat} (hp : 1 ≤ p) (i : Nat) :
    pressureRatio p (fun i => mirror (fun v => a - v) (z i)) i = 1 - pressureRatio p z i := by
  have e1 : ∀ k, buyingPressure (fun i => mirror (fun v => a - v) (z i)) k = trueSpan z k - buyingPressure z k := fun k => by
    simp only [buyingPressure, trueSpan, mirror, min_m, sub_m]; ring
  have e2 : ∀ k, trueSpan (fun i => mirror (fun v => a - v) (z i)) k = trueSpan z k := fun k => by
    simp only [trueSpan, mirror, min_m, max_m, sub_m]
  have hs : 0 < winSum p (trueSpan z) (i - p) := sum_pos (fun k _ => by
    have := hz (i - p + k + 1)
    have h1 := le_max_left (z (i - p + k + 1)).high (z (i - p + k)).close
    have h2 := min_le_left (z (i - p + k + 1)).low (z (i - p + k)).close
    simp only [trueSpan]; linarith) ⟨0, mem_range.2 (by omega)⟩
  have e3 : winSum p (buyingPressure fun i => mirror (fun v => a - v) (z i)) (i - p) = winSum p (trueSpan z) (i - p) - winSum p (buyingPressure z) (i - p) := by
    simp only [winSum, e1, sum_sub_distrib]
  rw [pressureRatio, pressureRatio, e3, funext e2, sub_div, div_self hs.ne']
theorem vortexUp_m (z : Nat → HLC R) : vortexUp (fun i => mirror (fun v => a - v) (z i)) = vortexDown z := funext fun k => by
  simp only [vortexUp, vortexDown, mirror, abs_m]
theorem vortexDown_m (z : Nat → HLC R) : vortexDown (fun i => mirror (fun v => a - v) (z i)) = vortexUp z := funext fun k => by
  simp only [vortexUp, vortexDown, mirror, abs_m]
theorem closeLocation_m (r : HLCV R) : closeLocation (mirror (fun v => a - v) r) = -closeLocation r := by
  simp only [closeLocation, mirror, eq_m, sub_m, eq_comm (a := r.low)]
  split
  · rw [neg_zero]
  · rw [← neg_div]; congr 1; ring
theorem adLine_m (z : Nat → HLCV R) (n : Nat) : adLine (fun i => mirror (fun v => a - v) (z i)) n = -adLine z n := by
  simp only [adLine, closeLocation_m, neg_mul, sum_neg_distrib]; rfl
theorem signedVolume_m (z : Nat → CV R) (k : Nat) : signedVolume (fun i => mirror (fun v => a - v) (z i)) k = -signedVolume z k := by
  simp only [signedVolume, mirror, lt_m]
  rcases lt_trichotomy (z k).close (z (k + 1)).close with h | h | h
  · rw [if_neg h.not_gt, if_pos h, if_pos h]
  · simp [h]
  · rw [if_pos h, if_neg h.not_gt, if_pos h, neg_neg]
theorem hlc_m (z : Nat → HLCV R) (n : Nat) : hlc (fun i => mirror (fun v => a - v) (z i)) n = (a + a + a) - hlc z n := by
  simp only [hlc, mirror]; ring
theorem klingerTrend_m (z : Nat → HLCV R) (n : Nat) : klingerTrend (fun i => mirror (fun v => a - v) (z i)) n = -klingerTrend z n := by
  induction n with
  | zero => rfl
  | succ n ih =>
    simp only [klingerTrend, hlc_m, lt_m, ih]
    rcases lt_trichotomy (hlc z n) (hlc z (n + 1)) with h | h | h
    · rw [if_neg h.not_gt, if_pos h, if_pos h]
    · simp [h]
    · rw [if_pos h, if_neg h.not_gt, if_pos h, neg_neg]
theorem dailyRange_m (z : Nat → HLCV R) (n : Nat) : dailyRange (fun i => mirror (fun v => a - v) (z i)) n = dailyRange z n := sub_m _ _
theorem klingerCm_m (z : Nat → HLCV R) (n : Nat) : klingerCm (fun i => mirror (fun v => a - v) (z i)) n = klingerCm z n := by
  induction n with
  | zero => rfl
  | succ n ih => simp only [klingerCm, klingerTrend_m, dailyRange_m, ih, neg_inj]
theorem klingerTrend_cases (z : Nat → HLCV R) (h : hlc z 0 ≠ hlc z 1) (n : Nat) : klingerTrend z (n + 1) = 1 ∨ klingerTrend z (n + 1) = -1 := by
  induction n with
  | zero =>
    rw [klingerTrend]
    rcases h.lt_or_gt with h | h
    · rw [if_pos h]; exact .inl rfl
    · rw [if_neg h.not_gt, if_pos h]; exact .inr rfl
  | succ n ih =>
    rw [klingerTrend]
    split
    · exact .inl rfl
    · split
      · exact .inr rfl
      · exact ih
theorem klingerForce_m (z : Nat → HLCV R) (h : hlc z 0 ≠ hlc z 1) (n : Nat) : klingerForce (fun i => mirror (fun v => a - v) (z i)) n = -klingerForce z n := by
  simp only [klingerForce, klingerTrend_m, dailyRange_m, klingerCm_m]
  split
  · rw [neg_zero]
  · rcases klingerTrend_cases z h n with e | e <;> simp only [e, mirror] <;> simp

def sarMap (a : R) (s : Sar R) : Sar R := ⟨!s.up, a - s.stop, a - s.ep, s.af⟩
theorem sarMoved_m (z : Nat → HL R) (i : Nat) (s : Sar R) :
    sarMoved (fun i => mirror (fun v => a - v) (z i)) i (sarMap a s) = a - sarMoved z i s := by
  have e : a - s.stop + s.af * (a - s.ep - (a - s.stop)) = a - (s.stop + s.af * (s.ep - s.stop)) := by ring
  unfold sarMoved sarMap
  simp only [mirror, e, min_m, max_m]
  cases s.up <;> simp <;> split_ifs <;> rfl
theorem sarBar_m (step top : R) (z : Nat → HL R) (i : Nat) (s : Sar R) :
    sarBar step top (fun i => mirror (fun v => a - v) (z i)) i (sarMap a s) = sarMap a (sarBar step top z i s) := by
  unfold sarBar
  rw [sarMoved_m]
  simp only [sarMap, mirror, lt_m, max_m, min_m]
  cases s.up <;> simp <;> split_ifs <;> simp_all
theorem sarAt_m {step top : R} {z : Nat → HL R} (h : (z 0).high + (z 0).low ≠ (z 1).high + (z 1).low) (i : Nat) :
    sarAt step top (fun i => mirror (fun v => a - v) (z i)) i = sarMap a (sarAt step top z i) := by
  induction i with
  | zero =>
    unfold sarAt
    simp only [mirror]
    rcases h.lt_or_gt with h | h
    · rw [if_neg (by linarith), if_pos h.le]; rfl
    · rw [if_pos (by linarith), if_neg (by linarith)]; rfl
  | succ i ih => rw [sarAt, sarAt, ih, sarBar_m]

end Verif.Mirror
