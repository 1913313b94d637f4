/- C79: the market turned upside down, where the outputs do not follow. -/
import Verif.Props.MirrorFits
import Verif.Props.UnitsLimits

namespace Verif
open Spec Finset
open Spec (ema wilder)
open Units Mirror
set_option linter.unusedSectionVars false

/-! ### Averages whose weights are powers or sines -/

theorem real_neg_aff {a : ℝ} (x : Nat → ℝ) : (fun i => mirror (fun v : ℝ => a - v) (x i)) = fun i => prices (fun v => -1 * v + a) (x i) :=
  funext fun i => by simp only [mirror, prices]; ring
theorem idwma_mirror (o : Nat → ℝ) (p : Nat) (hc : toInt (o 0) = .ok (p : Int)) (hp : 1 ≤ p) (h1 : 1 ≤ o 1) (h2 : o 1 ≤ 2) : MirrorsPrice idwmaBatch o :=
  fun a => ofVal (idwma_value o p hc hp h1 h2) fun x j => by
    rw [real_neg_aff]
    have hw : ∑ k ∈ Finset.range p, 1 / CMath.pow ((k + 1 : Nat) : ℝ) (o 1) ≠ 0 :=
      (sum_pos' hp fun k _ => one_div_pos.2 (Real.rpow_pos_of_pos (by positivity) _)).ne'
    rw [backMean_aff hw]
    simp only [mirror]; ring
theorem pwma_mirror (o : Nat → ℝ) (p : Nat) (hc : toInt (o 0) = .ok (p : Int)) (hp : 1 ≤ p) : MirrorsPrice pwmaBatch o :=
  fun a => ofVal (pwma_value o p hc hp) fun x j => by
    have hw : ∑ k ∈ Finset.range p, CMath.pow ((k + 1 : Nat) : ℝ) (o 1) ≠ 0 := (sum_pos' hp fun k _ => Real.rpow_pos_of_pos (by positivity) _).ne'
    refine (wsum_aff (x := x) (x' := fun i => mirror (fun v : ℝ => a - v) (x i)) (c := -1) (a := a) (fun i => ?_) _ (j + ·) hw).trans ?_
    · simp only [mirror]; ring
    · simp only [mirror, powerMean]; ring
theorem swma_mirror (o : Nat → ℝ) (p : Nat) (hc : toInt (o 0) = .ok (p : Int)) (hp : 1 ≤ p) (hb : p < 2147483647)
    (h1 : p % 6 ≠ 0) (h2 : p % 6 ≠ 5) : MirrorsPrice swmaBatch o :=
  fun a => ofVal (swma_value o p hc hp hb h1 h2) fun x j => by
    rw [real_neg_aff, backMean_aff (by
      have := (swma_denominator_pos p hp h1 h2).ne'
      simp only [CMath.sin, CMath.acos, Real.arccos_neg_one, real_sw]
      exact this)]
    simp only [mirror]; ring

section
variable {R : Type} [Field R] [LinearOrder R] [IsStrictOrderedRing R] [CMath R]

/-! ### Averages weighted with the volume: 0 without volume, so only the sign of the price can be changed -/

theorem vwap_mirror [LawfulTrunc R] [LawfulRound R] (o : Nat → R) (p : Nat) (hc : toInt (o 0) = .ok (p : Int)) (hp : 1 ≤ p) : MirrorsZero vwapBatch o :=
  ofVal (vwap_value o p hc hp) fun x j => by
    have e := winSum_neg (p := p) (x := fun k => typical x k * (x k).volume) (x' := fun k => typical (fun i => mirror (fun v : R => -v) (x i)) k * (x k).volume)
      fun k => by simp only [mirror, typical]; ring
    simp only [volumeMean]
    rw [show winSum p (fun k => typical (fun i => mirror (fun v : R => -v) (x i)) k * (mirror (fun v : R => -v) (x k)).volume) j = _ from e j]
    simp only [mirror, neg_eq_zero, neg_div]
    split <;> simp
theorem evwma_mirror (o : Nat → R) (p : Nat) (hc : toInt (o 0) = .ok (p : Int)) (hp : 1 ≤ p) (hg : 0 < o 1) : MirrorsZero evwmaBatch o :=
  ofVal (evwma_value o p hc hp hg) fun x j => by
    induction j with
    | zero => rfl
    | succ j ih =>
      simp only [elasticMean, ih]
      simp only [mirror]
      split
      · simp
      · ring

/-- What a symmetry would mean for one output. -/
theorem turn_at {ρ ω : Type} [Inhabited ρ] {batch : (Nat → R) → List ρ → M (Ret × List ω)} {o : Nat → R} {s : Nat} {val : (Nat → ρ) → Nat → ω}
    {P : List ρ → Prop} {f : ρ → ρ} {g : ω → ω} (h : Computes batch o s val) (ht : Turns batch o P f g) (x : Nat → ρ) (j : Nat)
    (hP : P (pre x (s + j + 1))) : val (fun i => f (x i)) j = g (val x j) := by
  obtain ⟨out, h1, h2⟩ := ht _ hP
  rw [show (pre x (s + j + 1)).map f = pre (fun i => f (x i)) (s + j + 1) by simp [pre, Function.comp_def], h] at h2
  rw [h] at h1
  simp only [Except.ok.injEq, Prod.mk.injEq, true_and] at h1 h2
  rw [← h1] at h2
  have := congrArg (·[j]?) h2
  simpa [pre, show j < s + j + 1 - s by omega] using this

theorem winMax_same (p : Nat) (c : R) (j : Nat) : winMax p (fun _ => c) j = c := sup'_const _ c
theorem winMin_same (p : Nat) (c : R) (j : Nat) : winMin p (fun _ => c) j = c := inf'_const _ c

/-! ### Without any move the outputs are at one end -/

/-- A price that does not move counts as falling: rsi is 0, not 50. -/
theorem rsi_mirror_violates (o : Nat → R) (p : Nat) (hc : toInt (o 0) = .ok (p : Int)) (hp : 1 ≤ p) : ¬ MirrorsAround 50 rsiBatch o := fun h => by
  have := turn_at (rsi_value o p hc hp) (h 0) (fun _ => 0) 0 trivial
  simp [mirror, gain, wilder, winMean, winSum, ema] at this
  norm_num at this
theorem stoch_mirror_violates (o : Nat → R) (kp ks dp : Nat) (h0 : toInt (o 0) = .ok (kp : Int)) (h1 : toInt (o 1) = .ok (ks : Int)) (h2 : toInt (o 2) = .ok (dp : Int))
    (p0 : 1 ≤ kp) (p1 : 1 ≤ ks) (p2 : 1 ≤ dp) (hb : kp + ks + dp ≤ 2147483647) : ¬ MirrorsAround 50 stochBatch o := fun h => by
  have := turn_at (stoch_value_partial o kp ks dp h0 h1 h2 p0 p1 p2 hb) (h 0) (fun _ => ⟨0, 0, 0⟩) 0 trivial
  have e : ∀ j, fastK kp (fun _ => (⟨0, 0, 0⟩ : HLC R)) j = 0 := fun j => by
    simp [fastK, winMax_same, winMin_same, inRange]
  simp [mirror, winMean, winSum, e] at this
  norm_num at this
/-- Bars without a range count as closing at the top. -/
theorem willr_mirror_violates (o : Nat → R) (p : Nat) (hc : toInt (o 0) = .ok (p : Int)) (hp : 1 ≤ p) : ¬ MirrorsAround (-50) willrBatch o := fun h => by
  have := turn_at (willr_value o p hc hp) (h 0) (fun _ => ⟨0, 0, 0⟩) 0 trivial
  simp [mirror, winMax_same, winMin_same] at this
  norm_num at this

theorem rmi_mirror_violates [LawfulTrunc R] [LawfulRound R] (o : Nat → R) (p : Nat) (h0 : 1 ≤ o 0) (ho : o 1 = (p : R)) (hp : 1 ≤ p) (hb : p ≤ 2147483647) :
    ¬ MirrorsAround 50 rmiBatch o := fun h => by
  have := turn_at (rmi_value_partial o p h0 ho hp hb) (h 0) (fun _ => 0) 0 trivial
  simp [mirror, relMomentum, gainOver, ema] at this
  norm_num at this

/-! ### Ties count as up, or as down -/

/-- Two equal bars start an up trend. -/
theorem psar_mirror_violates (o : Nat → R) (h0 : 0 < o 0) (h1 : o 0 < o 1) : ¬ MirrorsPrice psarBatch o := fun h => by
  have := turn_at (psar_value o h0 h1) (h 1) (fun _ => ⟨1, 0⟩) 0 trivial
  have e : min (o 0) 0 = 0 := min_eq_right h0.le
  simp [mirror, sarAt, sarBar, sarMoved, e] at this

/-- Before the first change of high + low + close kvo counts the volume as bought. -/
theorem kvo_mirror_violates [LawfulAbs R] (o : Nat → R) (s p : Nat) (hs : toInt (o 0) = .ok (s : Int)) (hc : toInt (o 1) = .ok (p : Int)) (h1 : 1 ≤ s) (h2 : s < p) :
    ¬ MirrorsSign kvoBatch o := fun h => by
  have := turn_at (kvo_value o s p hs hc h1 h2.le) (h 2) (fun _ => ⟨2, 0, 1, 1⟩) 1 trivial
  have e : (2 : R) / (p + 1) < 2 / (s + 1) := div_lt_div_of_pos_left (by norm_num) (by positivity) (by exact_mod_cast (by omega : s + 1 < p + 1))
  norm_num [mirror, ema, klingerForce, klingerTrend, klingerCm, dailyRange, hlc, emaCoef] at this
  linarith
/-- pfe counts an unchanged price as a fall. -/
theorem pfe_mirror_violates (o : Nat → ℝ) (p e : Nat) (hcp : toInt (o 0) = .ok (p : Int)) (hce : toInt (o 1) = .ok (e : Int)) (hp : 1 ≤ p) (he : 1 ≤ e) :
    ¬ MirrorsSign pfeBatch o := fun h => by
  have := turn_at (pfe_value o p e hcp hce hp he) (h 0) (fun _ => 0) 0 trivial
  have hp' : (0 : ℝ) < p := by exact_mod_cast hp
  simp [mirror, ema, polarEff, pathLength, CMath.sqrt] at this
  have : (0 : ℝ) < 100 * √100 / p := by positivity
  rw [neg_div] at *
  linarith
/-- fisher counts a window without a range as closing at its bottom. -/
theorem fisher_mirror_violates (o : Nat → ℝ) (p : Nat) (hc : toInt (o 0) = .ok (p : Int)) (hp : 1 ≤ p) : ¬ MirrorsSign fisherBatch o := fun h => by
  obtain ⟨out, h1, h2⟩ := h 0 (pre (fun _ => ⟨0, 0⟩) p) trivial
  rw [show (pre (fun _ => (⟨0, 0⟩ : HL ℝ)) p).map (mirror fun v : ℝ => 0 - v) = pre (fun _ => ⟨0, 0⟩) p by simp [pre, mirror], h1] at h2
  obtain ⟨f, hf, f0, f1⟩ := fisher_value o p hc hp (fun _ => ⟨0, 0⟩) p
  rw [hf] at h1
  simp only [Except.ok.injEq, Prod.mk.injEq, true_and] at h1 h2
  rw [← h1] at h2
  have := congrArg (·[0]?) h2
  have e := f1 0
  norm_num [f0, fisherOsc, fisherOsc.range, fisherOsc.clamp, winMax_same, winMin_same, CMath.log] at e
  have : f 1 = 0 := by
    have := congrArg (Option.map Fisher.fisher) this
    simp [pre, show 0 < p - (p - 1) by omega, mirror] at this
    linarith
  have l : Real.log (67 / 133) < 0 := Real.log_neg (by norm_num) (by norm_num)
  rw [this] at e
  linarith

/-- rvi is 50 until the first bar above its line, whatever the bars below theirs. -/
theorem rvi_mirror_violates [LawfulTrunc R] [LawfulRound R] (o : Nat → R) (e : Nat) (hce : toInt (o 0) = .ok (e : Int)) (hcp : toInt (o 1) = .ok 3)
    (he : 1 ≤ e) (hb : e < 2147483647) : ¬ MirrorsAround 50 rviBatch o := fun h => by
  let x : Nat → R := fun i => if i = 1 then 3 else 0
  obtain ⟨A, B, hAB⟩ : ∃ A B : Nat → R, ∀ j, IsBestLine 3 x j (A j) (B j) := by
    choose A B h using fun j => bestLine_exists 3 (by norm_num) x j
    exact ⟨A, B, h⟩
  have v1 := rvi_value_partial o 3 e hce hcp he (by norm_num) hb (by norm_num) x A B hAB 3
  have v2 := rvi_value_partial o 3 e hce hcp he (by norm_num) hb (by norm_num) (fun i => mirror (fun v : R => 3 - v) (x i)) (fun j => 3 - A j) (fun j => -B j)
    (fun j => bestLine_m (hAB j)) 3
  have l0 : A 0 = 1 ∧ B 0 = 0 := by
    refine bestLine_unique (p := 3) (by norm_num) (hAB 0) fun a' b' => ?_
    simp only [sqErr, sum_range_succ, x]
    norm_num
    nlinarith [sq_nonneg (a' - 1 + 2 * b'), sq_nonneg b']
  obtain ⟨out, h1, h2⟩ := h 3 (pre x 3) trivial
  rw [show (pre x 3).map (mirror fun v : R => 3 - v) = pre (fun i => mirror (fun v : R => 3 - v) (x i)) 3 by simp [pre, Function.comp_def], v2] at h2
  rw [v1] at h1
  simp only [Except.ok.injEq, Prod.mk.injEq, true_and] at h1 h2
  rw [← h1] at h2
  have := congrArg (·[0]?) h2
  have he' : (emaCoef e : R) ≠ 0 := by unfold emaCoef; positivity
  norm_num [pre, deviationShare, chosenMean, l0.1, l0.2, mirror, x, he'] at this

/-! ### Outputs relative to the level of the price -/

theorem natr_mirror_violates [LawfulAbs R] (o : Nat → R) (hc : toInt (o 0) = .ok 1) : ¬ MirrorsSides natrBatch o := fun h => by
  have := turn_at (natr_value o 1 hc le_rfl) (h 3) (fun _ => ⟨2, 0, 2⟩) 0 trivial
  simp [mirror, wilder, winMean, winSum, Spec.trueRange, ema] at this
  norm_num at this
theorem abands_mirror_violates (o : Nat → R) (p : Nat) (hc : toInt (o 0) = .ok (p : Int)) (hp : 1 ≤ p) : ¬ MirrorsPrice abandsBatch o := fun h => by
  have := turn_at (abands_value o p hc hp) (h 2) (fun _ => ⟨2, 0, 1⟩) 0 trivial
  have hp' : (p : R) ≠ 0 := by positivity
  simp [mirror, winMean, winSum, widenedLow, widenedHigh, widenFactor, hp'] at this
/-- The flow of a bar is its price times its volume, so a rise from 1 to 2 weighs more than the fall back. -/
theorem mfi_mirror_violates (o : Nat → R) (hc : toInt (o 0) = .ok 2) : ¬ MirrorsAround 50 mfiBatch o (fun xs => xs.IsChain (·.close ≠ ·.close)) := fun h => by
  have := turn_at (mfi_value o 2 hc (by norm_num)) (h 3) (fun i => if i = 1 then ⟨2, 2, 2, 1⟩ else ⟨1, 1, 1, 1⟩) 0
    (by simp [pre, List.range_succ_eq_map])
  simp [mirror, winSum, sum_range_succ, flowUp, flowDown, typical] at this
  norm_num at this
theorem roc_mirror_violates (o : Nat → R) (p : Nat) (hc : toInt (o 0) = .ok (p : Int)) (hp : 1 ≤ p) : ¬ MirrorsSign rocBatch o := fun h => by
  have := turn_at (roc_value o p hc hp) (h 3) (fun i => if i = 0 then 1 else 2) 0 trivial
  simp [mirror, show p ≠ 0 by omega] at this
  norm_num at this

/-! ### One-sided indicators -/

/-- decay follows every rise at once and every fall slowly. -/
theorem decay_mirror_violates (o : Nat → R) (p : Nat) (hc : toInt (o 0) = .ok (p : Int)) (hp : 1 ≤ p) : ¬ MirrorsPrice decayBatch o := fun h => by
  obtain ⟨val, hv, hs⟩ := decay_value o p hc
  have := turn_at hv (h 2) (fun i => if i = 0 then 2 else 0) 1 trivial
  have a1 := (hs (fun i => if i = 0 then 2 else 0) 1).1 0 (by omega)
  have a2 := (hs (fun i => mirror (fun v : R => 2 - v) (if i = 0 then 2 else 0)) 1).1 1 le_rfl
  have : (1 : R) / (p : Int) ≤ 1 := by
    have : (1 : R) ≤ p := by exact_mod_cast hp
    exact (div_le_one (by push_cast; linarith)).2 (by push_cast; exact this)
  simp [mirror] at *
  linarith
theorem edecay_mirror_violates (o : Nat → R) (p : Nat) (hc : toInt (o 0) = .ok (p : Int)) (hp : 2 ≤ p) : ¬ MirrorsPrice edecayBatch o := fun h => by
  obtain ⟨val, hv, hs⟩ := edecay_value o p hc (by omega)
  have := turn_at hv (h 2) (fun i => if i = 0 then 2 else 0) 1 trivial
  have a1 := (hs (fun i => if i = 0 then 2 else 0) 1).1 0 (by omega)
  have a2 := (hs (fun i => mirror (fun v : R => 2 - v) (if i = 0 then 2 else 0)) 1).1 1 le_rfl
  have : (1 : R) / p ≤ 1 / 2 := one_div_le_one_div_of_le (by norm_num) (by exact_mod_cast hp)
  simp [mirror] at *
  linarith
end

example : MirrorsPrice smaBatch (ropts [((5 : Nat) : ℝ)]) := sma_mirror _ 5 (ropts_int 5 (by norm_num) _) (by norm_num)
example : MirrorsPrice bbandsBatch (ropts [((20 : Nat) : ℝ), 2]) := bbands_mirror _ 20 (ropts_int 20 (by norm_num) _) (by norm_num)
example : MirrorsSign momBatch (ropts [((10 : Nat) : ℝ)]) := mom_mirror _ 10 (ropts_int 10 (by norm_num) _) (by norm_num)
example : MirrorsSides atrBatch (ropts [((14 : Nat) : ℝ)]) := atr_mirror _ 14 (ropts_int 14 (by norm_num) _) (by norm_num)
example : MirrorsInto maxBatch minBatch (ropts [((14 : Nat) : ℝ)]) := max_mirror _ 14 (ropts_int 14 (by norm_num) _) (by norm_num)
example : MirrorsAround 50 rsiBatch (ropts [((14 : Nat) : ℝ)]) (fun xs => xs.IsChain (· ≠ ·)) := rsi_mirror_partial _ 14 (ropts_int 14 (by norm_num) _) (by norm_num)
example : ([3, 5, 4, 6, 6 + 1] : List ℚ).IsChain (· ≠ ·) := by norm_num
example : ([3, 5, 4, 6, 7] : List ℚ).Nodup := by norm_num
example : ∀ r ∈ [(⟨3, 1, 2⟩ : HLC ℚ), ⟨5, 2, 4⟩, ⟨4, 3, 4⟩], r.low < r.high := by norm_num
example : MirrorsAround (-50) willrBatch (ropts [((14 : Nat) : ℝ)]) (fun xs => ∀ r ∈ xs, r.low < r.high) :=
  willr_mirror_partial _ 14 (ropts_int 14 (by norm_num) _) (by norm_num)
example : MirrorsPrice psarBatch (opts [1 / 50, 1 / 5]) (fun xs => ∀ r s t, xs = r :: s :: t → r.high + r.low ≠ s.high + s.low) :=
  psar_mirror_partial _ (by norm_num [opts]) (by norm_num [opts])
example : ∀ r s t, [(⟨3, 1⟩ : HL ℚ), ⟨5, 2⟩, ⟨4, 3⟩] = r :: s :: t → r.high + r.low ≠ s.high + s.low := by
  intro r s t h
  simp only [List.cons.injEq] at h
  obtain ⟨rfl, rfl, -⟩ := h
  norm_num
example : MirrorsPrice pbandsBatch (ropts [((14 : Nat) : ℝ)]) := pbands_mirror_partial _ 14 (ropts_int 14 (by norm_num) _) (by norm_num) (by norm_num)
example : MirrorsPrice hfBatch (ropts [((3 : Nat) : ℝ), 3]) := hf_mirror_partial _ 3 (ropts_int 3 (by norm_num) _) (by norm_num) (by norm_num) (by norm_num [ropts])
example : MirrorsZero mamaBatch (opts [1 / 2, 1 / 20]) := mama_mirror _ (by norm_num [opts]) (by norm_num [opts])
example : ¬ MirrorsAround 50 rsiBatch (ropts [((14 : Nat) : ℝ)]) := rsi_mirror_violates _ 14 (ropts_int 14 (by norm_num) _) (by norm_num)
example : ¬ MirrorsPrice psarBatch (opts [1 / 50, 1 / 5]) := psar_mirror_violates _ (by norm_num [opts]) (by norm_num [opts])
example : ¬ MirrorsPrice decayBatch (ropts [((5 : Nat) : ℝ)]) := decay_mirror_violates _ 5 (ropts_int 5 (by norm_num) _) (by norm_num)
example : ¬ MirrorsSign fisherBatch (ropts [((9 : Nat) : ℝ)]) := fisher_mirror_violates _ 9 (ropts_int 9 (by norm_num) _) (by norm_num)
/-- A rise, then a fall, turned around: 10 minus each price. -/
example : momBatch (opts [1]) ([3, 5, 4] : List ℚ) = .ok (.okay, [2, -1]) ∧ momBatch (opts [1]) ([7, 5, 6] : List ℚ) = .ok (.okay, [-2, 1]) := by
  decide +kernel

end Verif
