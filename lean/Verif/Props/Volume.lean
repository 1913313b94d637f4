/-
C20 (obv, nvi, pvi, ad, adosc, wad, kvo, cmf, vosc), C17 (mfi), C24 (ao, qstick, dpo).
-/
import Verif.Proof.Volume
import Verif.Proof.ExtremumField
import Verif.Spec.Volume
import Verif.Core.RatInst
import Mathlib.Algebra.BigOperators.Ring.Finset
import Mathlib.Algebra.Order.BigOperators.Ring.Finset

namespace Verif
open Spec Finset

section Any
variable {R : Type} [Num R]

/-! ### Any arithmetic: contract, refusal -/

theorem obv_contract (o : Nat → R) : Contract obvStart obvBatch o 0 := (obv_run o).contract rfl
theorem nvi_contract (o : Nat → R) : Contract obvStart nviBatch o 0 := (nvi_run o).contract rfl
theorem pvi_contract (o : Nat → R) : Contract obvStart pviBatch o 0 := (pvi_run o).contract rfl
theorem ad_contract (o : Nat → R) : Contract obvStart adBatch o 0 := (ad_run o).contract rfl
theorem wad_contract (o : Nat → R) : Contract wadStart wadBatch o 1 := (wad_run o).contract rfl
theorem ao_contract (o : Nat → R) : Contract aoStart aoBatch o 33 := (ao_run o).contract rfl

theorem adosc_contract (o : Nat → R) (s p : Nat) (hs : toInt (o 0) = .ok (s : Int)) (hc : toInt (o 1) = .ok (p : Int))
    (h1 : 1 ≤ s) (h2 : s ≤ p) : Contract adoscStart adoscBatch o (p - 1) :=
  (adosc_run o s p hs hc h1 h2).contract (by simp [adoscStart, hc, startM1_ok hc (show 1 ≤ p by omega)])
/-- adosc refuses a short period below 1 or above the long one, unless the long one is the least `int`. -/
theorem adosc_refuses_partial (o : Nat → R) (s p : Int) (hs : toInt (o 0) = .ok s) (hc : toInt (o 1) = .ok p)
    (h : s < 1 ∨ p < s) (hp : -2147483648 < p) : Refuses adoscBatch o := by
  intro xs
  have hr := toInt_range hc
  simp only [adoscBatch, hs, hc, bind_ok, i32_ok (p - 1) (by omega) (by omega), pure_eq]
  by_cases h1 : s < 1
  · rw [if_pos h1]
  · rw [if_neg h1, if_pos (by omega)]
/-- For the least `int` the start index overflows before the options are checked. -/
theorem adosc_overflow (o : Nat → R) (s : Int) (hs : toInt (o 0) = .ok s) (hc : toInt (o 1) = .ok (-2147483648))
    (xs : List (HLCV R)) : adoscBatch o xs = .error .intRange := by
  simp only [adoscBatch, hs, hc, bind_ok]
  rfl

theorem kvo_contract (o : Nat → R) (s p : Nat) (hs : toInt (o 0) = .ok (s : Int)) (hc : toInt (o 1) = .ok (p : Int))
    (h1 : 1 ≤ s) (h2 : s ≤ p) : Contract wadStart kvoBatch o 1 := (kvo_run o s p hs hc h1 h2).contract rfl
theorem kvo_refuses (o : Nat → R) (s p : Int) (hs : toInt (o 0) = .ok s) (hc : toInt (o 1) = .ok p)
    (h : s < 1 ∨ p < s) : Refuses kvoBatch o := by
  intro xs
  simp only [kvoBatch, hs, hc, bind_ok, pure_eq]
  by_cases h1 : s < 1
  · rw [if_pos h1]
  · rw [if_neg h1, if_pos (by omega)]

theorem mfi_contract (o : Nat → R) (p : Nat) (hc : toInt (o 0) = .ok (p : Int)) (hp : 1 ≤ p) :
    Contract mfiStart mfiBatch o p := (mfi_run o p hc hp).contract hc
theorem mfi_refuses (o : Nat → R) (p : Int) (hc : toInt (o 0) = .ok p) (hp : p < 1) :
    Refuses mfiBatch o := by intro xs; simp [mfiBatch, hc, hp]

theorem cmf_contract (o : Nat → R) (p : Nat) (hc : toInt (o 0) = .ok (p : Int)) (hp : 1 ≤ p) :
    Contract cmfStart cmfBatch o (p - 1) :=
  (cmf_run o p hc hp).contract (by simp [cmfStart, hc, startM1_ok hc hp])
theorem cmf_refuses (o : Nat → R) (p : Int) (hc : toInt (o 0) = .ok p) (hp : p < 1) :
    Refuses cmfBatch o := by intro xs; simp [cmfBatch, hc, hp]

theorem vosc_contract (o : Nat → R) (s p : Nat) (hs : toInt (o 0) = .ok (s : Int)) (hc : toInt (o 1) = .ok (p : Int))
    (h1 : 1 ≤ s) (h2 : s ≤ p) : Contract voscStart voscBatch o (p - 1) :=
  (vosc_run o s p hs hc h1 h2).contract (by simp [voscStart, hc, startM1_ok hc (show 1 ≤ p by omega)])
theorem vosc_refuses (o : Nat → R) (s p : Int) (hs : toInt (o 0) = .ok s) (hc : toInt (o 1) = .ok p)
    (h : s < 1 ∨ p < s) : Refuses voscBatch o := by
  intro xs
  simp only [voscBatch, hs, hc, bind_ok, pure_eq]
  by_cases h1 : s < 1
  · rw [if_pos h1]
  · rw [if_neg h1, if_pos (by omega)]

theorem qstick_contract (o : Nat → R) (p : Nat) (hc : toInt (o 0) = .ok (p : Int)) (hp : 1 ≤ p) :
    Contract qstickStart qstickBatch o (p - 1) :=
  (qstick_run o p hc hp).contract (by simp [qstickStart, hc, startM1_ok hc hp])
theorem qstick_refuses (o : Nat → R) (p : Int) (hc : toInt (o 0) = .ok p) (hp : p < 1) :
    Refuses qstickBatch o := by intro xs; simp [qstickBatch, hc, hp]

/-- dpo, periods from 3 on. -/
theorem dpo_contract_partial (o : Nat → R) (p : Nat) (hc : toInt (o 0) = .ok (p : Int)) (hp : 3 ≤ p) :
    Contract qstickStart dpoBatch o (p - 1) :=
  (dpo_run o p hc hp).contract (by simp [qstickStart, hc, startM1_ok hc (show 1 ≤ p by omega)])
/-- For periods 1 and 2 dpo reads the input before its first element as soon as there is enough input. -/
theorem dpo_violates (o : Nat → R) (p : Nat) (hc : toInt (o 0) = .ok (p : Int)) (hp : p = 1 ∨ p = 2)
    (xs : List R) (hN : p ≤ xs.length) : dpoBatch o xs = .error .oobRead := by
  obtain ⟨x, hx⟩ := exists_pre xs
  have hi : i32 (Int.tdiv (p : Int) 2 + 1) = .ok (p : Int) := by rcases hp with rfl | rfl <;> decide
  rw [hx]
  unfold dpoBatch
  rw [hc, bind_ok, hi, bind_ok]
  simp only [hc, bind_ok, qstickStart, startM1_ok hc (show 1 ≤ p by omega), length_pre, pure_eq]
  rw [if_neg (by omega), if_neg (by omega)]
  refine forUp_bind 0 p (slide x p) rfl rfl rfl (by omega) ?_ ?_
  · intro i _ hi
    run_simp [slide, if_pos hi]
  rw [rd_oob _ _ (by omega)]
  rfl
theorem dpo_refuses (o : Nat → R) (p : Int) (hc : toInt (o 0) = .ok p) (hp : p < 1) :
    Refuses dpoBatch o := by
  intro xs
  have hr := toInt_range hc
  have hi : i32 (Int.tdiv p 2 + 1) = .ok (Int.tdiv p 2 + 1) := by
    have h1 : Int.tdiv p 2 = -((-p) / 2) := by
      rw [← Int.neg_neg p, Int.neg_tdiv, Int.tdiv_eq_ediv_of_nonneg (by omega)]; simp
    apply i32_ok <;> rw [h1] <;> omega
  unfold dpoBatch
  rw [hc, bind_ok, hi, bind_ok]
  simp [hp]

end Any

section Field
variable {R : Type} [Field R] [LinearOrder R] [IsStrictOrderedRing R] [CMath R]

/-! ### Values -/

/-- obv: total of the volumes signed by the direction of the close. -/
theorem obv_value (o : Nat → R) : Computes obvBatch o 0 (fun x j => ∑ k ∈ range j, signedVolume x k) :=
  (obv_run o).congr fun x j => by
    induction j with
    | zero => simp [obvRec]
    | succ j ih =>
      simp only [obvRec, obvStep, sum_range_succ, ih, signedVolume]
      split
      · rfl
      · split <;> ring

/-- nvi: 1000 compounded with the relative change of the close on every bar whose volume fell. -/
theorem nvi_value (o : Nat → R) : Computes nviBatch o 0 (fun x j =>
    1000 * ∏ k ∈ range j, if (x (k + 1)).volume < (x k).volume then 1 + relChange x k else 1) :=
  (nvi_run o).congr fun x j => by
    induction j with
    | zero => simp [nviRec]
    | succ j ih =>
      simp only [nviRec, ih, prod_range_succ, relChange]
      split <;> ring

/-- pvi: 1000 compounded with the relative change of the close on every bar whose volume rose from a positive one. -/
theorem pvi_value (o : Nat → R) : Computes pviBatch o 0 (fun x j =>
    1000 * ∏ k ∈ range j, if (x k).volume < (x (k + 1)).volume ∧ 0 < (x k).volume then 1 + relChange x k else 1) :=
  (pvi_run o).congr fun x j => by
    induction j with
    | zero => simp [pviRec]
    | succ j ih =>
      simp only [pviRec, ih, prod_range_succ, relChange, Int.cast_zero]
      split <;> ring

/-- While volume keeps falling and no close is zero, nvi follows the close. -/
theorem nvi_follows (o : Nat → R) (x : Nat → CV R) (hv : ∀ k, (x (k + 1)).volume < (x k).volume)
    (hx : ∀ k, (x k).close ≠ 0) (N : Nat) :
    nviBatch o (pre x N) = .ok (.okay, pre (fun j => 1000 * ((x j).close / (x 0).close)) N) := by
  rw [nvi_value o x N]
  congr 3
  funext j
  show 1000 * _ = 1000 * _
  congr 1
  induction j with
  | zero => simp [div_self (hx 0)]
  | succ j ih =>
    rw [prod_range_succ, ih, if_pos (hv j), relChange]
    field_simp [hx 0, hx j]
    ring

/-- nvi and pvi stay positive while the closes are positive. -/
theorem nvi_pvi_pos (o : Nat → R) (x : Nat → CV R) (hx : ∀ k, 0 < (x k).close) (N : Nat) :
    ∃ y z, nviBatch o (pre x N) = .ok (.okay, pre y N) ∧ pviBatch o (pre x N) = .ok (.okay, pre z N) ∧
      ∀ j, 0 < y j ∧ 0 < z j := by
  refine ⟨_, _, nvi_value o x N, pvi_value o x N, fun j => ?_⟩
  have h : ∀ k, 0 < 1 + relChange x k := by
    intro k
    have e : 1 + relChange x k = (x (k + 1)).close / (x k).close := by
      unfold relChange; field_simp [(hx k).ne']; ring
    rw [e]; exact div_pos (hx _) (hx _)
  constructor
  · refine mul_pos (by norm_num) (prod_pos fun k _ => ?_)
    split
    · exact h k
    · norm_num
  · refine mul_pos (by norm_num) (prod_pos fun k _ => ?_)
    split
    · exact h k
    · norm_num

theorem adRec_eq (x : Nat → HLCV R) (j : Nat) : adRec x (j + 1) = adLine x j := by
  unfold adLine
  induction j with
  | zero =>
    simp only [adRec, adStep, Nat.zero_add, sum_range_one, closeLocation, beq_iff_eq, Int.cast_zero, sub_eq_zero]
    split
    · simp
    · rw [zero_add]; congr 2; ring
  | succ j ih =>
    rw [adRec, sum_range_succ, ih]
    simp only [adStep, closeLocation, beq_iff_eq, Int.cast_zero, sub_eq_zero]
    split
    · simp
    · congr 3; ring

/-- ad: total of the volumes weighted by where the close lies in its bar. -/
theorem ad_value (o : Nat → R) : Computes adBatch o 0 adLine := (ad_run o).congr fun x j => adRec_eq x j

/-- adosc: difference of the short and the long exponential average of the accumulation/distribution line. -/
theorem adosc_value (o : Nat → R) (s p : Nat) (hs : toInt (o 0) = .ok (s : Int)) (hc : toInt (o 1) = .ok (p : Int))
    (h1 : 1 ≤ s) (h2 : s ≤ p) : Computes adoscBatch o (p - 1) (fun x j =>
      ema (emaCoef s) (adLine x) (j + (p - 1)) - ema (emaCoef p) (adLine x) (j + (p - 1))) :=
  (adosc_run o s p hs hc h1 h2).congr fun x j => by
    simp only [emaPer_eq, emaRec_eq, adRec_eq]

/-- wad: total of Williams' accumulation moves. -/
theorem wad_value (o : Nat → R) : Computes wadBatch o 1 (fun x j => ∑ k ∈ range (j + 1), wadMove x k) :=
  (wad_run o).congr fun x j => by
    have h : ∀ n, wadRec x n = ∑ k ∈ range n, wadMove x k := by
      intro n
      induction n with
      | zero => simp [wadRec]
      | succ j ih =>
        have e1 : ∀ a b : R, cMin a b = min a b := fun a b => by
          unfold cMin; split
          · rename_i h; rw [min_eq_left h.le]
          · rename_i h; rw [min_eq_right (not_lt.1 h)]
        have e2 : ∀ a b : R, cMax a b = max a b := fun a b => by
          unfold cMax; split
          · rename_i h; rw [max_eq_left h.le]
          · rename_i h; rw [max_eq_right (not_lt.1 h)]
        simp only [wadRec, wadStep, sum_range_succ, ih, wadMove, e1, e2]
        split
        · rfl
        · split
          · rfl
          · rw [add_zero]
    exact h (j + 1)

theorem kvoTC_eq (x : Nat → HLCV R) (n : Nat) :
    (kvoTC x n).2 = klingerCm x n ∧
    (kvoTC x n).1 = (if klingerTrend x n = 0 then -1 else if klingerTrend x n = -1 then 0 else 1) ∧
    (klingerTrend x n = 0 ∨ klingerTrend x n = 1 ∨ klingerTrend x n = -1) := by
  induction n with
  | zero => simp [kvoTC, klingerCm, klingerTrend]
  | succ n ih =>
    obtain ⟨h1, h2, h3⟩ := ih
    obtain ⟨t, c, hTC⟩ : ∃ t c, kvoTC x n = (t, c) := ⟨_, _, rfl⟩
    rw [hTC] at h1 h2
    simp only at h1 h2
    subst h1 h2
    simp only [kvoTC, klingerCm, klingerTrend, kvoTrend, hlc, hTC, dailyRange]
    rcases lt_trichotomy (hlc x n) (hlc x (n + 1)) with h | h | h <;> simp only [hlc] at h
    · rcases h3 with h3 | h3 | h3 <;> simp [h3, h, not_lt.2 h.le]
    · rcases h3 with h3 | h3 | h3 <;> simp [h3, h]
    · rcases h3 with h3 | h3 | h3 <;> simp [h3, h, not_lt.2 h.le]

theorem kvoVf_eq [LawfulAbs R] (x : Nat → HLCV R) (n : Nat) : kvoVf x n = klingerForce x n := by
  obtain ⟨h1, h2, h3⟩ := kvoTC_eq x (n + 1)
  simp only [kvoVf, kvoForce, klingerForce, h1, h2, LawfulAbs.fabs_eq, dailyRange, beq_iff_eq, Int.cast_zero]
  by_cases h0 : (x (n + 1)).high - (x (n + 1)).low = 0
  · rw [if_pos h0]; exact (if_pos h0).symm
  · rw [if_neg h0]; refine Eq.trans ?_ (if_neg h0).symm
    rcases h3 with h | h | h <;> simp [h, mul_comm (_ / _)]

/-- kvo: difference of the short and the long exponential average of Klinger's volume force. -/
theorem kvo_value [LawfulAbs R] (o : Nat → R) (s p : Nat) (hs : toInt (o 0) = .ok (s : Int))
    (hc : toInt (o 1) = .ok (p : Int)) (h1 : 1 ≤ s) (h2 : s ≤ p) : Computes kvoBatch o 1 (fun x j =>
      ema (emaCoef s) (klingerForce x) j - ema (emaCoef p) (klingerForce x) j) :=
  (kvo_run o s p hs hc h1 h2).congr fun x j => by
    simp only [emaPer_eq, emaRec_eq, show kvoVf x = klingerForce x from funext (kvoVf_eq x)]

theorem typSig_eq (x : Nat → HLCV R) (k : Nat) : typSig x k = typical x k := by
  simp [typSig, typPrice, typical, div_eq_mul_inv]

/-- mfi: 100·up/(up+down) with the money flows of the last `period` rising and falling bars (0 if none rose). -/
theorem mfi_value (o : Nat → R) (p : Nat) (hc : toInt (o 0) = .ok (p : Int)) (hp : 1 ≤ p) :
    Computes mfiBatch o p (fun x j =>
      let up := winSum p (flowUp x) j
      let down := winSum p (flowDown x) j
      if up = 0 then 0 else 100 * (up / (up + down))) :=
  (mfi_run o p hc hp).congr fun x j => by
    have e1 : mfiUp x = flowUp x := by funext k; simp [mfiUp, flowUp, typSig_eq]
    have e2 : mfiDown x = flowDown x := by
      funext k
      simp only [mfiDown, flowDown, typSig_eq, Int.cast_zero]
      split
      · rename_i h; rw [if_neg (not_lt.2 h.le)]
      · rfl
    simp only [mfiOut, bsum_win, e1, e2]
    simp [mul_comm]

/-- mfi lies in [0, 100] when volumes and typical prices are non-negative. -/
theorem mfi_range (o : Nat → R) (p : Nat) (hc : toInt (o 0) = .ok (p : Int)) (hp : 1 ≤ p) (x : Nat → HLCV R)
    (hv : ∀ k, 0 ≤ (x k).volume) (ht : ∀ k, 0 ≤ typical x k) (N : Nat) :
    ∃ y, mfiBatch o (pre x N) = .ok (.okay, pre y (N - p)) ∧ ∀ j, 0 ≤ y j ∧ y j ≤ 100 := by
  refine ⟨_, mfi_value o p hc hp x N, fun j => ?_⟩
  have h1 : 0 ≤ winSum p (flowUp x) j := sum_nonneg fun k _ => by
    unfold flowUp; split
    · exact mul_nonneg (ht _) (hv _)
    · exact le_rfl
  have h2 : 0 ≤ winSum p (flowDown x) j := sum_nonneg fun k _ => by
    unfold flowDown; split
    · exact mul_nonneg (ht _) (hv _)
    · exact le_rfl
  simp only
  split
  · constructor <;> norm_num
  · rename_i h
    have h3 : 0 < winSum p (flowUp x) j := lt_of_le_of_ne h1 (Ne.symm h)
    have h4 : 0 ≤ winSum p (flowUp x) j / (winSum p (flowUp x) j + winSum p (flowDown x) j) := by positivity
    have h5 : winSum p (flowUp x) j / (winSum p (flowUp x) j + winSum p (flowDown x) j) ≤ 1 := by
      rw [div_le_one (by linarith)]; linarith
    constructor <;> nlinarith

theorem chaikinAd_eq (r : HLCV R) : chaikinAd r = closeLocation r * r.volume := by
  simp only [chaikinAd, closeLocation, beq_iff_eq, Int.cast_zero, sub_eq_zero]
  split
  · simp
  · ring

/-- cmf: volume-weighted mean of where the closes of the window lie in their bars (0 if the volumes add up to 0). -/
theorem cmf_value (o : Nat → R) (p : Nat) (hc : toInt (o 0) = .ok (p : Int)) (hp : 1 ≤ p) :
    Computes cmfBatch o (p - 1) (fun x j =>
      let vol := winSum p (fun k => (x k).volume) j
      if vol = 0 then 0 else winSum p (fun k => closeLocation (x k) * (x k).volume) j / vol) :=
  (cmf_run o p hc hp).congr fun x j => by
    have e1 := slideS_eq (fun k => chaikinAd (x k)) p j hp
    have e2 := slideS_eq (fun k => (x k).volume) p j hp
    simp only at e1 e2 ⊢
    rw [e1, e2]
    simp [chaikinAd_eq]

theorem closeLocation_bounds (r : HLCV R) (h1 : r.low ≤ r.close) (h2 : r.close ≤ r.high) :
    -1 ≤ closeLocation r ∧ closeLocation r ≤ 1 := by
  unfold closeLocation
  split
  · constructor <;> norm_num
  · rename_i h
    have h3 : 0 < r.high - r.low := by
      rcases lt_or_eq_of_le (h1.trans h2) with h' | h'
      · linarith
      · exact absurd h'.symm h
    rw [le_div_iff₀ h3, div_le_iff₀ h3]
    constructor <;> linarith

/-- cmf lies in [-1, 1] when low ≤ close ≤ high and volumes are non-negative. -/
theorem cmf_range (o : Nat → R) (p : Nat) (hc : toInt (o 0) = .ok (p : Int)) (hp : 1 ≤ p) (x : Nat → HLCV R)
    (hv : ∀ k, 0 ≤ (x k).volume) (hx : ∀ k, (x k).low ≤ (x k).close ∧ (x k).close ≤ (x k).high) (N : Nat) :
    ∃ y, cmfBatch o (pre x N) = .ok (.okay, pre y (N - (p - 1))) ∧ ∀ j, -1 ≤ y j ∧ y j ≤ 1 := by
  refine ⟨_, cmf_value o p hc hp x N, fun j => ?_⟩
  simp only
  split
  · constructor <;> norm_num
  · rename_i h
    have h1 : 0 ≤ winSum p (fun k => (x k).volume) j := sum_nonneg fun k _ => hv _
    have h2 : 0 < winSum p (fun k => (x k).volume) j := lt_of_le_of_ne h1 (Ne.symm h)
    rw [le_div_iff₀ h2, div_le_iff₀ h2]
    unfold winSum
    rw [mul_sum, mul_sum]
    constructor
    · exact sum_le_sum fun k _ => mul_le_mul_of_nonneg_right (closeLocation_bounds _ (hx _).1 (hx _).2).1 (hv _)
    · exact sum_le_sum fun k _ => mul_le_mul_of_nonneg_right (closeLocation_bounds _ (hx _).1 (hx _).2).2 (hv _)

theorem slideT_eq (x : Nat → R) (s p : Nat) (hs : s ≤ p) (j : Nat) :
    slideT x s p (j + p) = winSum s x (j + (p - s)) := by
  have h0 : ∀ i, i ≤ p → slideT x s p i = ∑ k ∈ range (i - (p - s)), x (p - s + k) := by
    intro i
    induction i with
    | zero => simp [slideT]
    | succ i ih =>
      intro h
      rw [slideT, if_pos (by omega), ih (by omega)]
      split
      · rename_i h'
        rw [show i + 1 - (p - s) = i - (p - s) + 1 by omega, sum_range_succ, show p - s + (i - (p - s)) = i by omega]
      · rw [show i - (p - s) = 0 by omega, show i + 1 - (p - s) = 0 by omega]
  induction j with
  | zero => rw [Nat.zero_add, h0 p le_rfl, Nat.zero_add, show p - (p - s) = s by omega]; rfl
  | succ j ih =>
    rw [show j + 1 + p = j + p + 1 by omega, slideT, if_neg (by omega), ih,
      show j + 1 + (p - s) = j + (p - s) + 1 by omega, winSum_succ, show j + (p - s) + s = j + p by omega,
      show j + p - s = j + (p - s) by omega]

/-- vosc: difference of the short and long mean in percent of the long mean (0 if they are equal). -/
theorem vosc_value (o : Nat → R) (s p : Nat) (hs : toInt (o 0) = .ok (s : Int)) (hc : toInt (o 1) = .ok (p : Int))
    (h1 : 1 ≤ s) (h2 : s ≤ p) : Computes voscBatch o (p - 1) (fun x j =>
      let short := winMean s x (j + (p - s))
      let long := winMean p x j
      if short = long then 0 else 100 * (short - long) / long) :=
  (vosc_run o s p hs hc h1 h2).congr fun x j => by
    rw [slideT_eq x s p h2, slide_eq]
    simp [voscOut, winMean, div_eq_mul_inv, sub_eq_zero]

/-- ao: mean of the last 5 bar midpoints minus the mean of the last 34. -/
theorem ao_value (o : Nat → R) : Computes aoBatch o 33 (fun x j =>
    let mid := fun k => ((x k).high + (x k).low) / 2
    winMean 5 mid (j + 29) - winMean 34 mid j) :=
  (ao_run o).congr fun x j => by
    rw [slideT_eq _ 5 34 (by omega), slide_eq]
    have e : (fun k => aoMid (x k)) = fun k => ((x k).high + (x k).low) / 2 := by
      funext k; simp [aoMid]; ring
    simp only [e, winMean]
    push_cast
    ring

/-- qstick: mean of close - open over the window. -/
theorem qstick_value (o : Nat → R) (p : Nat) (hc : toInt (o 0) = .ok (p : Int)) (hp : 1 ≤ p) :
    Computes qstickBatch o (p - 1) (fun x j => winMean p (fun k => (x k).close - (x k).open) j) :=
  (qstick_run o p hc hp).congr fun x j => by rw [slide_eq]; simp [winMean, div_eq_mul_inv]

/-- dpo: the value `period/2 + 1` bars before the end of the window, minus the mean of the window. -/
theorem dpo_value_partial (o : Nat → R) (p : Nat) (hc : toInt (o 0) = .ok (p : Int)) (hp : 3 ≤ p) :
    Computes dpoBatch o (p - 1) (fun x j => x (j + (p - 1) - (p / 2 + 1)) - winMean p x j) :=
  (dpo_run o p hc hp).congr fun x j => by rw [slide_eq]; simp [winMean, div_eq_mul_inv]

end Field

/- Concrete runs and instances of the hypotheses. -/
example : obvBatch (opts []) [⟨1, 5⟩, ⟨2, 3⟩, ⟨1, 4⟩, ⟨1, 7⟩] = .ok (.okay, [0, 3, -1, -1]) := by decide +kernel
example : nviBatch (opts []) [⟨1, 5⟩, ⟨2, 3⟩, ⟨1, 4⟩, ⟨4, 2⟩] = .ok (.okay, [1000, 2000, 2000, 8000]) := by decide +kernel
example : pviBatch (opts []) [⟨1, 0⟩, ⟨2, 3⟩, ⟨1, 4⟩, ⟨4, 2⟩] = .ok (.okay, [1000, 1000, 500, 500]) := by decide +kernel
example : adBatch (opts []) [⟨3, 1, 2, 5⟩, ⟨4, 2, 4, 6⟩, ⟨3, 3, 3, 7⟩] = .ok (.okay, [0, 6, 6]) := by decide +kernel
example : adoscBatch (opts [1, 3]) [⟨3, 1, 2, 5⟩, ⟨4, 2, 4, 6⟩, ⟨3, 3, 3, 7⟩] = .ok (.okay, [6 - 9/2]) := by decide +kernel
example : toInt (opts [1, 3] 0) = .ok ((1 : Nat) : Int) ∧ toInt (opts [1, 3] 1) = .ok ((3 : Nat) : Int) := by decide +kernel
example : toInt (opts [1, -2147483648] 1) = .ok (-2147483648) := by decide +kernel
example : wadBatch (opts []) [⟨3, 1, 2⟩, ⟨4, 2, 3⟩, ⟨3, 1, 1⟩] = .ok (.okay, [1, -1]) := by decide +kernel
example : kvoBatch (opts [1, 3]) [⟨3, 1, 2, 5⟩, ⟨5, 2, 4, 6⟩, ⟨3, 2, 2, 7⟩, ⟨3, 2, 2, 1⟩]
    = .ok (.okay, [0, -235, 55/2]) := by decide +kernel
example : mfiBatch (opts [2]) [⟨3, 1, 2, 5⟩, ⟨4, 2, 3, 6⟩, ⟨3, 1, 2, 9⟩, ⟨3, 1, 2, 9⟩] = .ok (.okay, [50, 0]) := by decide +kernel
example : cmfBatch (opts [2]) [⟨3, 1, 2, 5⟩, ⟨4, 2, 4, 6⟩, ⟨3, 3, 3, 0⟩] = .ok (.okay, [6/11, 1]) := by decide +kernel
example : voscBatch (opts [1, 2]) [1, 3, 1] = .ok (.okay, [50, -50]) := by decide +kernel
example : aoBatch (opts []) (pre (fun i => (⟨i, i⟩ : HL Rat)) 35) = .ok (.okay, [29/2, 29/2]) := by decide +kernel
example : qstickBatch (opts [2]) [⟨1, 3⟩, ⟨2, 1⟩, ⟨4, 4⟩] = .ok (.okay, [1/2, -1/2]) := by decide +kernel
example : dpoBatch (opts [3]) [1, 3, 2, 4] = .ok (.okay, [-1, 0]) := by decide +kernel
example : dpoBatch (opts [2]) [1, 3] = .error .oobRead := by decide +kernel

end Verif
