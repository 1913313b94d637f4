/- C77: change of units, where the outputs do not follow it. -/
import Verif.Props.UnitsFits
import Verif.Props.ConvergeReal

namespace Verif
open Spec Finset
open Spec (ema)
open Units
set_option linter.unusedSectionVars false

section
variable {R : Type} [Field R] [LinearOrder R] [IsStrictOrderedRing R] [CMath R]

/-- Partial: cycle parts up to 2^31/50. -/
theorem arsi_units_partial [LawfulTrunc R] [LawfulRound R] (o : Nat → R) (h0 : 0 < o 0) (h1 : o 0 * 50 < 2147483648) : RatioLike arsiBatch o :=
  fun c h => turns fun x N _ => by
    obtain ⟨s, hs⟩ := homodyne_exists (2 * CMath.acos (-1) : R) (fun t => weighted4 x (5 + t))
    have hs' := homodyne_mul h.ne' hs
    rw [show (fun t => c * weighted4 x (5 + t)) = fun t => weighted4 (fun i => prices (fun v => c * v) (x i)) (5 + t) from
      funext fun t => by simp only [weighted4, prices]; ring] at hs'
    have hl : ∀ t, ((CMath.trunc (o 0 * s.smoothPeriod t)).toNat : R) ≤ o 0 * s.smoothPeriod t ∧
        o 0 * s.smoothPeriod t < (CMath.trunc (o 0 * s.smoothPeriod t)).toNat + 1 := fun t => by
      have b := smoothPeriod_bounds hs t
      have h0 : 0 ≤ o 0 * s.smoothPeriod t := mul_nonneg h0.le (by linarith [b.1])
      have h := LawfulRound.trunc_nonneg _ h0
      have hz : 0 ≤ CMath.trunc (o 0 * s.smoothPeriod t) := by
        have : ((-1 : Int) : R) < (CMath.trunc (o 0 * s.smoothPeriod t) : Int) := by push_cast; linarith [h.2]
        have := Int.cast_lt.1 this
        omega
      have e : ((CMath.trunc (o 0 * s.smoothPeriod t)).toNat : R) = ((CMath.trunc (o 0 * s.smoothPeriod t) : Int) : R) := by
        rw [← Int.cast_natCast, Int.toNat_of_nonneg hz]
      rw [e]; exact h
    refine ⟨_, _, arsi_value_partial o h0 h1 x s hs _ hl N, arsi_value_partial o h0 h1 _ _ hs' _ hl N, fun t _ => ?_⟩
    simp only [strength, prices, ← mul_sub, id]
    have e1 : ∀ u : R, max 0 (c * u) = c * max 0 u := fun u => by rw [← max_mul h, mul_zero]
    have e2 : ∀ u : R, min 0 (c * u) = c * min 0 u := fun u => by rw [← min_mul h, mul_zero]
    simp only [e1, e2, ← mul_neg, ← mul_sum, ← mul_add, zero_mul_iff h, mul_left_comm _ c, quot h]

theorem rmta_units (o : Nat → R) (p : Nat) (hc : toInt (o 0) = .ok (p : Int)) (hp : 1 ≤ p) : UnitLike rmtaBatch o :=
  fun c _ => ofVal (rmta_run o p hc hp) fun x j => by
    have : ∀ off n, rmtaSt (o 1) off (fun i => prices (fun v => c * v) (x i)) n = (c * (rmtaSt (o 1) off x n).1, c * (rmtaSt (o 1) off x n).2) := fun off n => by
      induction n with
      | zero => simp only [rmtaSt, prices, Prod.mk.injEq]; constructor <;> ring
      | succ n ih => simp only [rmtaSt, ih]; simp only [prices, Prod.mk.injEq]; constructor <;> ring
    exact congrArg Prod.snd (this _ _)

/-! ### The level of volume-weighted prices -/

theorem winSum_pos {p : Nat} (hp : 1 ≤ p) {x : Nat → R} (h : ∀ n, 0 < x n) (j : Nat) : 0 < winSum p x j :=
  sum_pos (fun k _ => h _) ⟨0, mem_range.2 (by omega)⟩
/-- A weighted mean written as the code does: 0 if the weighted sum is. -/
theorem guarded_mean {u w : R} (_ : 0 < w) : (if u = 0 then 0 else u / w) = u / w := by
  split
  · rename_i h; rw [h, zero_div]
  · rfl
/-- With volume on every bar vwma is a price. -/
theorem vwma_level_partial (o : Nat → R) (p : Nat) (hc : toInt (o 0) = .ok (p : Int)) (hp : 1 ≤ p) :
    PriceLike vwmaBatch o (fun xs => ∀ r ∈ xs, 0 < r.volume) :=
  fun c a _ => turnsRows (s := p - 1) (fun r : CV R => 0 < r.volume) ⟨0, 1⟩ one_pos fun x hx N => ⟨_, _, vwma_value o p hc hp x N, vwma_value o p hc hp _ N, fun j => by
    have hw := winSum_pos hp hx j
    have e : winSum p (fun i => (c * (x i).close + a) * (x i).volume) j = c * winSum p (fun i => (x i).close * (x i).volume) j + a * winSum p (fun i => (x i).volume) j := by
      simp only [winSum, mul_sum, ← sum_add_distrib]
      exact sum_congr rfl fun k _ => by ring
    simp only [prices, e]
    rw [guarded_mean hw, guarded_mean hw]
    field_simp⟩
/-- Without volume it is 0, whatever the price. -/
theorem vwma_level_violates (o : Nat → R) (p : Nat) (hc : toInt (o 0) = .ok (p : Int)) (hp : 1 ≤ p) : ¬ PriceLike vwmaBatch o := fun h => by
  obtain ⟨out, h1, h2⟩ := h 1 1 one_pos (pre (fun _ => ⟨0, 0⟩) p) trivial
  rw [show (pre (fun _ => (⟨0, 0⟩ : CV R)) p).map (prices fun v : R => 1 * v + 1) = pre (fun _ => ⟨1, 0⟩) p by simp [pre, prices, Function.comp_def],
    vwma_value o p hc hp] at h2
  rw [vwma_value o p hc hp] at h1
  obtain ⟨n, e⟩ : ∃ n, p - (p - 1) = n + 1 := ⟨0, by omega⟩
  rw [e] at h1 h2
  simp only [Except.ok.injEq, Prod.mk.injEq, true_and] at h1 h2
  rw [← h1] at h2
  have := congrArg (·.head?) h2
  simp [pre, winSum, prices, List.range_succ_eq_map] at this
/-- With volume on every bar vwap is a price. -/
theorem vwap_level_partial [LawfulTrunc R] [LawfulRound R] (o : Nat → R) (p : Nat) (hc : toInt (o 0) = .ok (p : Int)) (hp : 1 ≤ p) :
    PriceLike vwapBatch o (fun xs => ∀ r ∈ xs, 0 < r.volume) :=
  fun c a _ => turnsRows (s := p - 1) (fun r : HLCV R => 0 < r.volume) ⟨0, 0, 0, 1⟩ one_pos fun x hx N => ⟨_, _, vwap_value o p hc hp x N, vwap_value o p hc hp _ N, fun j => by
    have hw := winSum_pos hp hx j
    have e : winSum p (fun i => typical (fun i => prices (fun v => c * v + a) (x i)) i * (x i).volume) j =
        c * winSum p (fun i => typical x i * (x i).volume) j + a * winSum p (fun i => (x i).volume) j := by
      simp only [winSum, mul_sum, ← sum_add_distrib]
      exact sum_congr rfl fun k _ => by simp only [typical, prices]; ring
    have e' : winSum p (fun i => (prices (fun v => c * v + a) (x i)).volume) j = winSum p (fun i => (x i).volume) j := rfl
    have e'' : winSum p (fun i => typical (fun i => prices (fun v => c * v + a) (x i)) i * (prices (fun v => c * v + a) (x i)).volume) j = _ := e
    rw [volumeMean, volumeMean, e', e'', guarded_mean hw, guarded_mean hw]
    simp only [prices]
    field_simp⟩
/-- Without volume it is 0, whatever the price. -/
theorem vwap_level_violates [LawfulTrunc R] [LawfulRound R] (o : Nat → R) (p : Nat) (hc : toInt (o 0) = .ok (p : Int)) (hp : 1 ≤ p) : ¬ PriceLike vwapBatch o := fun h => by
  obtain ⟨out, h1, h2⟩ := h 1 1 one_pos (pre (fun _ => ⟨0, 0, 0, 0⟩) p) trivial
  rw [show (pre (fun _ => (⟨0, 0, 0, 0⟩ : HLCV R)) p).map (prices fun v : R => 1 * v + 1) = pre (fun _ => ⟨1, 1, 1, 0⟩) p by simp [pre, prices, Function.comp_def],
    vwap_value o p hc hp] at h2
  rw [vwap_value o p hc hp] at h1
  obtain ⟨n, e⟩ : ∃ n, p - (p - 1) = n + 1 := ⟨0, by omega⟩
  rw [e] at h1 h2
  simp only [Except.ok.injEq, Prod.mk.injEq, true_and] at h1 h2
  rw [← h1] at h2
  have := congrArg (·.head?) h2
  simp [pre, winSum, volumeMean, prices, List.range_succ_eq_map] at this
/-- With volume on every bar evwma is a price. -/
theorem evwma_level_partial (o : Nat → R) (p : Nat) (hc : toInt (o 0) = .ok (p : Int)) (hp : 1 ≤ p) (hg : 0 < o 1) :
    PriceLike evwmaBatch o (fun xs => ∀ r ∈ xs, 0 < r.volume) :=
  fun c a _ => turnsRows (s := p - 1) (fun r : CV R => 0 < r.volume) ⟨0, 1⟩ one_pos fun x hx N => ⟨_, _, evwma_value o p hc hp hg x N, evwma_value o p hc hp hg _ N, fun j => by
    induction j with
    | zero => rfl
    | succ j ih =>
      have hw := (winSum_pos hp hx (j + 1)).ne'
      have e' : winSum p (fun i => (prices (fun v => c * v + a) (x i)).volume) (j + 1) = winSum p (fun i => (x i).volume) (j + 1) := rfl
      simp only [elasticMean, e', if_neg hw, ih]
      simp only [prices]; ring⟩
/-- A bar that leaves the window without volume sets it to 0, whatever the price. -/
theorem evwma_level_violates (o : Nat → R) (p : Nat) (hc : toInt (o 0) = .ok (p : Int)) (hp : 1 ≤ p) (hg : 0 < o 1) : ¬ PriceLike evwmaBatch o := fun h => by
  obtain ⟨out, h1, h2⟩ := h 1 1 one_pos (pre (fun _ => ⟨0, 0⟩) (p + 1)) trivial
  rw [show (pre (fun _ => (⟨0, 0⟩ : CV R)) (p + 1)).map (prices fun v : R => 1 * v + 1) = pre (fun _ => ⟨1, 0⟩) (p + 1) by simp [pre, prices, Function.comp_def],
    evwma_value o p hc hp hg] at h2
  rw [evwma_value o p hc hp hg, show p + 1 - (p - 1) = 2 by omega] at h1
  rw [show p + 1 - (p - 1) = 2 by omega] at h2
  simp only [Except.ok.injEq, Prod.mk.injEq, true_and] at h1 h2
  rw [← h1] at h2
  have := congrArg (·[1]?) h2
  simp [pre, winSum, elasticMean, prices] at this

/-- mama starts from 0, so it does not follow the level of the prices. -/
theorem mama_level_violates (o : Nat → R) (h0 : 0 ≤ o 0 ∧ o 0 < 1) (h1 : 0 ≤ o 1 ∧ o 1 < 1) : ¬ PriceLike mamaBatch o := fun h => by
  obtain ⟨out, e1, e2⟩ := h 1 1 one_pos (pre (fun _ => 0) 7) trivial
  obtain ⟨s, ph, al, ma, fa, hs, hA, hN⟩ := mama_value o ⟨h0.1, h0.2.le⟩ ⟨h1.1, h1.2.le⟩ (fun _ => 0)
  obtain ⟨s', ph', al', ma', fa', hs', hA', hN'⟩ := mama_value o ⟨h0.1, h0.2.le⟩ ⟨h1.1, h1.2.le⟩ (fun _ => 1)
  rw [show (pre (fun _ => (0 : R)) 7).map (prices fun v : R => 1 * v + 1) = pre (fun _ => 1) 7 by simp [pre, prices, Function.comp_def], hN'] at e2
  rw [hN] at e1
  simp only [Except.ok.injEq, Prod.mk.injEq, true_and] at e1 e2
  rw [← e1] at e2
  have h2 := congrArg (·[0]?) e2
  have h3 : ma' 0 = 1 * ma 0 + 1 := by simp [pre, prices] at h2; rw [h2.1]; ring
  have h4 : ma 0 = 0 := by rw [hA.mama_eq]; simp [barsAgo]
  have h5 : ma' 0 = al' 0 := by rw [hA'.mama_eq]; simp [barsAgo]
  have h6 : al' 0 < 1 := by
    rw [hA'.alpha_eq]
    refine max_lt h1.2 (lt_of_le_of_lt (div_le_self h0.1 (le_max_left _ _)) h0.2)
  rw [h4, h5] at h3
  linarith

/-- decay falls by a fixed amount per bar, so it does not follow the unit of the prices. -/
theorem decay_units_violates (o : Nat → R) (p : Int) (hc : toInt (o 0) = .ok p) (hp : 1 ≤ p) : ¬ UnitLike decayBatch o := fun h => by
  obtain ⟨y, e1, e2⟩ := decay_value o p hc
  obtain ⟨out, h1, h2⟩ := h 2 two_pos (pre (fun n => if n = 0 then 2 else 0) 2) trivial
  rw [show (pre (fun n => if n = 0 then (2 : R) else 0) 2).map (prices fun v : R => 2 * v) = pre (fun n => if n = 0 then 4 else 0) 2 by
    simp [pre, prices, List.range_succ]; norm_num, e1] at h2
  rw [e1] at h1
  simp only [Except.ok.injEq, Prod.mk.injEq, true_and] at h1 h2
  rw [← h1] at h2
  have h3 := congrArg (·[1]?) h2
  simp only [pre, prices, List.map_map] at h3
  simp at h3
  have hp' : (0 : R) < 1 / (p : R) := by
    have : (0 : R) < (p : R) := by exact_mod_cast (by omega : (0 : Int) < p)
    positivity
  have hp1 : 1 / (p : R) ≤ 1 := by
    have : (1 : R) ≤ (p : R) := by exact_mod_cast hp
    exact div_le_one_of_le₀ this (by linarith)
  obtain ⟨b1, k, hk, b2⟩ := e2 (fun n => if n = 0 then 2 else 0) 1
  obtain ⟨b3, -⟩ := e2 (fun n => if n = 0 then 4 else 0) 1
  have b4 := b3 0 (by omega)
  have b5 := b1 0 (by omega)
  obtain rfl | rfl : k = 0 ∨ k = 1 := by omega
  · simp at b2 b4
    rw [h3] at b4
    rw [one_div] at hp'
    obtain ⟨-, k', hk', b6⟩ := e2 (fun n => if n = 0 then 4 else 0) 1
    obtain rfl | rfl : k' = 0 ∨ k' = 1 := by omega
    · simp at b6; rw [h3, b2] at b6; linarith
    · simp at b6; rw [h3, b2] at b6; simp at hp1; linarith
  · simp at b2 b5; simp at hp1
    rw [b2] at b5; linarith

/-- pfe measures the price against time, so it depends on the unit of the prices. -/
theorem pfe_units_violates [LawfulPow R] [LawfulSqrt R] (o : Nat → R) (hcp : toInt (o 0) = .ok 1) (hce : toInt (o 1) = .ok 1) : ¬ RatioLike pfeBatch o := fun h => by
  have val := pfe_value o 1 1 hcp hce le_rfl le_rfl
  obtain ⟨out, h1, h2⟩ := h 2 two_pos (pre (fun n => (n : R)) 2) trivial
  rw [show (pre (fun n => (n : R)) 2).map (prices fun v : R => 2 * v) = pre (fun n => 2 * (n : R)) 2 by simp [pre, prices, Function.comp_def], val] at h2
  rw [val] at h1
  simp only [Except.ok.injEq, Prod.mk.injEq, true_and] at h1 h2
  rw [← h1] at h2
  have h3 := congrArg (·[0]?) h2
  simp [pre, ema, polarEff, pathLength] at h3
  norm_num at h3
  have s : ∀ u : R, 0 < u → 0 < CMath.sqrt u := fun u hu => by
    have h1 := LawfulSqrt.sqrt_nonneg u hu.le
    have h2 := LawfulSqrt.sqrt_sq u hu.le
    rcases h1.lt_or_eq with h | h
    · exact h
    · rw [← h] at h2; simp at h2; exact absurd h2 hu.ne
  have a1 := LawfulSqrt.sqrt_sq (104 : R) (by norm_num)
  have a2 := LawfulSqrt.sqrt_sq (5 : R) (by norm_num)
  have a3 := LawfulSqrt.sqrt_sq (101 : R) (by norm_num)
  have a4 := LawfulSqrt.sqrt_sq (2 : R) (by norm_num)
  have p1 := s 5 (by norm_num)
  have p2 := s 2 (by norm_num)
  rw [div_eq_div_iff p1.ne' p2.ne'] at h3
  have h4 := congrArg (fun u => u * u) h3
  have : 100 * 100 * (104 : R) * 2 = 100 * 100 * 101 * 5 := by
    calc 100 * 100 * (104 : R) * 2 = 100 * 100 * (CMath.sqrt 104 * CMath.sqrt 104) * (CMath.sqrt 2 * CMath.sqrt 2) := by rw [a1, a4]
      _ = 100 * CMath.sqrt 104 * CMath.sqrt 2 * (100 * CMath.sqrt 104 * CMath.sqrt 2) := by ring
      _ = _ := h4
      _ = 100 * 100 * (CMath.sqrt 101 * CMath.sqrt 101) * (CMath.sqrt 5 * CMath.sqrt 5) := by ring
      _ = _ := by rw [a2, a3]
  norm_num at this
end

/-! ### Real numbers -/

theorem rangePerBar_aff {c a : ℝ} (hc : 0 < c) (x : Nat → HL ℝ) (n j : Nat) : rangePerBar n (fun i => prices (fun v => c * v + a) (x i)) j = c * rangePerBar n x j := by
  unfold rangePerBar
  simp only [prices]
  rw [winMax_aff (x := fun k => (x k).high) (c := c) (a := a) hc fun _ => rfl, winMin_aff (x := fun k => (x k).low) (c := c) (a := a) hc fun _ => rfl, sub_aff, mul_div_assoc]
theorem fractalDim_aff {c a : ℝ} (hc : 0 < c) (x : Nat → HL ℝ) (h j : Nat) : fractalDim h (fun i => prices (fun v => c * v + a) (x i)) j = fractalDim h x j := by
  simp only [fractalDim, rangePerBar_aff hc, mul_pos_iff_of_pos_left hc, ← mul_add]
  split
  · rename_i hp
    have l : ∀ u : ℝ, 0 < u → CMath.log (c * u) = Real.log c + CMath.log u := fun u hu => Real.log_mul hc.ne' hu.ne'
    rw [l _ (add_pos hp.1 hp.2.1), l _ hp.2.2, add_sub_add_left_eq_sub]
  · rfl
/-- Partial: even whole periods and slow periods from 2 on. -/
theorem frama_units_partial (o : Nat → ℝ) (h : Nat) (ho : o 0 = (((2 * h : Nat) : Int) : ℝ)) (hh : 1 ≤ h) (hb : 2 * h ≤ 2147483647)
    (h2 : ¬ o 1 < c! 2) : PriceLike framaBatch o := fun c a hc => ofVal (frama_value_partial o h ho hh hb h2) fun x j => by
  induction j with
  | zero => simp only [framaAvg, prices]; ring
  | succ j ih =>
    have e : ∀ w n, fractalWeight h w (fun i => prices (fun v => c * v + a) (x i)) n = fractalWeight h w x n := fun w n => by
      simp only [fractalWeight, fractalDim_aff hc]
    simp only [framaAvg, ih, e]
    simp only [prices]
    split <;> ring

theorem backMean_aff {c a : ℝ} {x : Nat → ℝ} {w : Nat → ℝ} {p : Nat} (hw : ∑ k ∈ range p, w k ≠ 0) (j : Nat) :
    backMean w p (fun i => prices (fun v => c * v + a) (x i)) j = c * backMean w p x j + a :=
  wsum_aff (x := x) (fun _ => rfl) _ (fun k => j + (p - 1) - k) hw
theorem idwma_units (o : Nat → ℝ) (p : Nat) (hc : toInt (o 0) = .ok (p : Int)) (hp : 1 ≤ p) (h1 : 1 ≤ o 1) (h2 : o 1 ≤ 2) : PriceLike idwmaBatch o :=
  fun _ _ _ => ofVal (idwma_value o p hc hp h1 h2) fun _ j => backMean_aff (sum_pos' hp fun k _ =>
    one_div_pos.2 (Real.rpow_pos_of_pos (by positivity) _)).ne' j
theorem pwma_units (o : Nat → ℝ) (p : Nat) (hc : toInt (o 0) = .ok (p : Int)) (hp : 1 ≤ p) : PriceLike pwmaBatch o :=
  fun _ _ _ => ofVal (pwma_value o p hc hp) fun x j => wsum_aff (x := x) (fun _ => rfl) _ (j + ·) (sum_pos' hp fun k _ =>
    Real.rpow_pos_of_pos (by positivity) _).ne'
theorem swma_units (o : Nat → ℝ) (p : Nat) (hc : toInt (o 0) = .ok (p : Int)) (hp : 1 ≤ p) (hb : p < 2147483647)
    (h1 : p % 6 ≠ 0) (h2 : p % 6 ≠ 5) : PriceLike swmaBatch o :=
  fun _ _ _ => ofVal (swma_value o p hc hp hb h1 h2) fun _ j => backMean_aff (by
    have := (swma_denominator_pos p hp h1 h2).ne'
    simp only [CMath.sin, CMath.acos, Real.arccos_neg_one, real_sw]
    exact this) j

/-- msw compares with the absolute threshold 0.001, so it depends on the unit of the prices. -/
theorem msw_units_violates (o : Nat → ℝ) (hc : toInt (o 0) = .ok 1) : ¬ RatioLike mswBatch o := fun h => by
  have val := msw_value o 1 hc le_rfl
  obtain ⟨out, h1, h2⟩ := h (1 / 1000) (by norm_num) (pre (fun _ => 1) 2) trivial
  rw [show (pre (fun _ => (1 : ℝ)) 2).map (prices fun v : ℝ => 1 / 1000 * v) = pre (fun _ => 1 / 1000) 2 by simp [pre, prices, Function.comp_def], val] at h2
  rw [val] at h1
  simp only [Except.ok.injEq, Prod.mk.injEq, true_and] at h1 h2
  rw [← h1] at h2
  have h3 := congrArg (·[0]?) h2
  simp only [pre, show 2 - 1 = 1 from rfl, List.range_one, List.map_cons, List.map_nil, id, List.getElem?_cons_zero, Option.some.injEq, Msw.mk.injEq, sum_range_one] at h3
  have c0 : CMath.cos (2 * (31415926 / 10000000) * ((0 : Nat) : ℝ) / ((1 : Nat) : ℝ)) = 1 := by
    show Real.cos _ = 1
    simp
  have s0 : CMath.sin (2 * (31415926 / 10000000) * ((0 : Nat) : ℝ) / ((1 : Nat) : ℝ)) = 0 := by
    show Real.sin _ = 0
    simp
  have e1 : mswAngle (31415926 / 10000000 : ℝ) 1 0 = 15707963 / 10000000 := by
    have : CMath.atan (0 / 1 : ℝ) = 0 := by show Real.arctan _ = 0; simp
    simp only [mswAngle, this]; norm_num
  have e2 : mswAngle (31415926 / 10000000 : ℝ) (1 / 1000) 0 = 3 * (15707963 / 10000000) := by
    simp only [mswAngle]; norm_num
  have h4 := h3.1
  rw [c0, s0, one_mul, one_mul, zero_mul, zero_mul, e1, e2] at h4
  have h5 : Real.sin (3 * (15707963 / 10000000)) = Real.sin (15707963 / 10000000) := h4
  rw [Real.sin_three_mul] at h5
  have p1 := Real.two_le_pi
  have p2 := Real.pi_le_four
  have k1 : Real.cos (15707963 / 10000000) = Real.sin (Real.pi / 2 - 15707963 / 10000000) := (Real.sin_pi_div_two_sub _).symm
  have k2 : Real.cos (15707963 / 10000000) ^ 2 < 1 / 2 := by
    have l1 : |Real.sin (Real.pi / 2 - 15707963 / 10000000)| ≤ |Real.pi / 2 - 15707963 / 10000000| := Real.abs_sin_le_abs
    have l2 : |Real.pi / 2 - 15707963 / 10000000| < 3 / 5 := abs_lt.2 ⟨by linarith, by linarith⟩
    rw [k1, ← sq_abs]
    have := abs_nonneg (Real.sin (Real.pi / 2 - 15707963 / 10000000))
    nlinarith
  have k3 := Real.sin_sq_add_cos_sq (15707963 / 10000000)
  have k4 : Real.sin (15707963 / 10000000) * (2 - 4 * Real.sin (15707963 / 10000000) ^ 2) = 0 := by linear_combination h5
  rcases mul_eq_zero.1 k4 with k | k
  · rw [k, zero_pow two_ne_zero, zero_add] at k3; linarith
  · nlinarith

/-! ### The options the theorems ask for exist -/

example : PriceLike bbandsBatch (ropts [((20 : Nat) : ℝ), 2]) := bbands_units _ 20 (ropts_int 20 (by norm_num) _) (by norm_num)
example : PriceLike kcBatch (opts [10, 2]) (fun xs => ∀ r ∈ xs, r.low ≤ r.high) := kc_units _ (by norm_num [opts]) (by norm_num [opts])
example : ∀ r ∈ [(⟨3, 1, 2⟩ : HLC ℚ), ⟨5, 2, 4⟩, ⟨4, 4, 4⟩], r.low ≤ r.high := by norm_num
example : ∀ r ∈ [(⟨3, 10⟩ : CV ℚ), ⟨5, 20⟩], 0 < r.volume := by norm_num
example : ShapeLike viBatch (ropts [((3 : Nat) : ℝ)]) (fun xs => 3 < xs.length) := vi_units_partial _ 3 (ropts_int 3 (by norm_num) _) (by norm_num)
example : PriceLike linregBatch (ropts [((5 : Nat) : ℝ)]) := linreg_units_partial _ 5 (ropts_int 5 (by norm_num) _) (by norm_num) (by norm_num)
example : ShapeLike stochrsiBatch (ropts [((14 : Nat) : ℝ)]) := stochrsi_units_partial _ 14 (ropts_int 14 (by norm_num) _) (by norm_num) (by norm_num)
example : VolumeFree mfiBatch (ropts [((14 : Nat) : ℝ)]) := mfi_volume _ 14 (ropts_int 14 (by norm_num) _) (by norm_num)
example : ¬ UnitLike decayBatch (ropts [((5 : Nat) : ℝ)]) := decay_units_violates _ 5 (ropts_int 5 (by norm_num) _) (by norm_num)
example : ¬ PriceLike mamaBatch (opts [1 / 2, 1 / 20]) := mama_level_violates _ (by norm_num [opts]) (by norm_num [opts])
example : ¬ RatioLike mswBatch (ropts [((1 : Nat) : ℝ)]) := msw_units_violates _ (ropts_int 1 (by norm_num) _)
/-- `Turns` fixes the new output: here the change of unit turns an average of 2 into 5. -/
example : ∃ out, smaBatch (ropts [((2 : Nat) : ℝ)]) (pre (fun n => (2 * n + 1 : ℝ)) 2) = .ok (.okay, out) ∧
    smaBatch (ropts [((2 : Nat) : ℝ)]) ((pre (fun n => (2 * n + 1 : ℝ)) 2).map fun v => 2 * v + 1) = .ok (.okay, out.map fun w => 2 * w + 1) :=
  sma_units _ 2 (ropts_int 2 (by norm_num) _) (by norm_num) 2 1 two_pos _ trivial
end Verif
