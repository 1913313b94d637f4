/-
C15 (max, min), C16 (stoch, willr, stochrsi, aroon, aroonosc, vhf, fisher).
-/
import Verif.Proof.StochRsi
import Verif.Core.RatInst

namespace Verif
open Spec Finset
set_option linter.unusedSectionVars false

section Any
variable {R : Type} [Num R]

/-! ### Any arithmetic: contract, refusal, overflow -/

theorem max_contract (o : Nat → R) (p : Nat) (hc : toInt (o 0) = .ok (p : Int)) (hp : 1 ≤ p) :
    Contract maxStart maxBatch o (p - 1) :=
  (max_run o p hc hp).contract (by simp [maxStart, hc, startM1_ok hc hp])
theorem min_contract (o : Nat → R) (p : Nat) (hc : toInt (o 0) = .ok (p : Int)) (hp : 1 ≤ p) :
    Contract minStart minBatch o (p - 1) :=
  (min_run o p hc hp).contract (by simp [minStart, hc, startM1_ok hc hp])
theorem willr_contract (o : Nat → R) (p : Nat) (hc : toInt (o 0) = .ok (p : Int)) (hp : 1 ≤ p) :
    Contract willrStart willrBatch o (p - 1) :=
  (willr_run o p hc hp).contract (by simp [willrStart, hc, startM1_ok hc hp])
theorem fisher_contract (o : Nat → R) (p : Nat) (hc : toInt (o 0) = .ok (p : Int)) (hp : 1 ≤ p) :
    Contract fisherStart fisherBatch o (p - 1) :=
  (fisher_run o p hc hp).contract (by simp [fisherStart, hc, startM1_ok hc hp])
theorem aroon_contract (o : Nat → R) (p : Nat) (hc : toInt (o 0) = .ok (p : Int)) (hp : 1 ≤ p) :
    Contract aroonStart aroonBatch o p := (aroon_run o p hc hp).contract hc
theorem aroonosc_contract (o : Nat → R) (p : Nat) (hc : toInt (o 0) = .ok (p : Int)) (hp : 1 ≤ p) :
    Contract aroonStart aroonoscBatch o p := (aroonosc_run o p hc hp).contract hc
theorem vhf_contract (o : Nat → R) (p : Nat) (hc : toInt (o 0) = .ok (p : Int)) (hp : 1 ≤ p) :
    Contract vhfStart vhfBatch o p := (vhf_run o p hc hp).contract hc
/-- stoch, all periods whose sum is in the range of `int`. -/
theorem stoch_contract_partial (o : Nat → R) (kp ks dp : Nat) (h0 : toInt (o 0) = .ok (kp : Int))
    (h1 : toInt (o 1) = .ok (ks : Int)) (h2 : toInt (o 2) = .ok (dp : Int)) (p0 : 1 ≤ kp) (p1 : 1 ≤ ks) (p2 : 1 ≤ dp)
    (hb : kp + ks + dp ≤ 2147483647) : Contract stochStart stochBatch o (kp - 1 + (ks - 1) + (dp - 1)) :=
  (stoch_run o kp ks dp h0 h1 h2 p0 p1 p2 hb).contract (stochStart_ok o kp ks dp h0 h1 h2 p0 p1 p2 hb)
/-- Otherwise the start index overflows, whatever the input. -/
theorem stoch_overflow (o : Nat → R) (kp ks dp : Nat) (h0 : toInt (o 0) = .ok (kp : Int))
    (h1 : toInt (o 1) = .ok (ks : Int)) (h2 : toInt (o 2) = .ok (dp : Int)) (p0 : 1 ≤ kp) (p1 : 1 ≤ ks) (p2 : 1 ≤ dp)
    (hb : 2147483647 < kp + ks + dp) (xs : List (HLC R)) :
    stochStart o = .error .intRange ∧ stochBatch o xs = .error .intRange := by
  have e : stochStart o = .error .intRange := by
    simp only [stochStart, h0, h1, h2, bind_ok]
    by_cases h : (kp : Int) + ks ≤ 2147483647
    · rw [i32_ok _ (by omega) h, bind_ok]
      simp [i32, show ¬ (kp : Int) + ks + dp ≤ 2147483647 by omega]
    · simp [i32, h]
  refine ⟨e, ?_⟩
  unfold stochBatch
  simp only [h0, h1, h2, bind_ok, pure_eq]
  rw [if_neg (by omega), if_neg (by omega), if_neg (by omega), e]; rfl
/-- stochrsi, all periods with 2·period in the range of `int`. -/
theorem stochrsi_contract_partial (o : Nat → R) (p : Nat) (hc : toInt (o 0) = .ok (p : Int)) (hp : 2 ≤ p)
    (hb : p ≤ 1073741823) : Contract stochrsiStart stochrsiBatch o (2 * p - 1) :=
  (stochrsi_run o p hc hp hb).contract (stochrsiStart_ok o p hc hp hb)
/-- Otherwise the start index overflows, whatever the input. -/
theorem stochrsi_overflow (o : Nat → R) (p : Nat) (hc : toInt (o 0) = .ok (p : Int)) (hb : 1073741823 < p)
    (xs : List R) : stochrsiStart o = .error .intRange ∧ stochrsiBatch o xs = .error .intRange := by
  have e : stochrsiStart o = .error .intRange := by
    simp [stochrsiStart, hc, i32, show ¬ (p : Int) * 2 ≤ 2147483647 by omega]
  refine ⟨e, ?_⟩
  unfold stochrsiBatch
  simp only [hc, bind_ok, pure_eq]
  rw [if_neg (by omega), e]; rfl

theorem max_refuses (o : Nat → R) (p : Int) (hc : toInt (o 0) = .ok p) (hp : p < 1) :
    Refuses maxBatch o ∧ Refuses maxRef o := by constructor <;> (intro xs; simp [maxBatch, maxRef, hc, hp])
theorem min_refuses (o : Nat → R) (p : Int) (hc : toInt (o 0) = .ok p) (hp : p < 1) :
    Refuses minBatch o ∧ Refuses minRef o := by constructor <;> (intro xs; simp [minBatch, minRef, hc, hp])
theorem willr_refuses (o : Nat → R) (p : Int) (hc : toInt (o 0) = .ok p) (hp : p < 1) :
    Refuses willrBatch o := by intro xs; simp [willrBatch, hc, hp]
theorem fisher_refuses (o : Nat → R) (p : Int) (hc : toInt (o 0) = .ok p) (hp : p < 1) :
    Refuses fisherBatch o := by intro xs; simp [fisherBatch, hc, hp]
theorem aroon_refuses (o : Nat → R) (p : Int) (hc : toInt (o 0) = .ok p) (hp : p < 1) :
    Refuses aroonBatch o := by intro xs; simp [aroonBatch, hc, hp]
theorem aroonosc_refuses (o : Nat → R) (p : Int) (hc : toInt (o 0) = .ok p) (hp : p < 1) :
    Refuses aroonoscBatch o := by intro xs; simp [aroonoscBatch, hc, hp]
theorem vhf_refuses (o : Nat → R) (p : Int) (hc : toInt (o 0) = .ok p) (hp : p < 1) :
    Refuses vhfBatch o := by intro xs; simp [vhfBatch, hc, hp]
theorem stochrsi_refuses (o : Nat → R) (p : Int) (hc : toInt (o 0) = .ok p) (hp : p < 2) :
    Refuses stochrsiBatch o := by intro xs; simp [stochrsiBatch, hc, hp]
theorem stoch_refuses (o : Nat → R) (kp ks dp : Int) (h0 : toInt (o 0) = .ok kp) (h1 : toInt (o 1) = .ok ks)
    (h2 : toInt (o 2) = .ok dp) (h : kp < 1 ∨ ks < 1 ∨ dp < 1) : Refuses stochBatch o := by
  intro xs
  unfold stochBatch
  simp only [h0, h1, h2, bind_ok, pure_eq]
  split
  · rfl
  split
  · rfl
  split
  · rfl
  omega

end Any

section Field
variable {R : Type} [Field R] [LinearOrder R] [IsStrictOrderedRing R] [CMath R]

/-! ### Values -/

/-- max: the greatest of the last `p` values. -/
theorem max_value (o : Nat → R) (p : Nat) (hc : toInt (o 0) = .ok (p : Int)) (hp : 1 ≤ p) :
    Computes maxBatch o (p - 1) (winMax p) :=
  (max_run o p hc hp).congr fun x j => by
    rw [trk_max _ _ _ _ _ hp (by omega), show p - 1 + j - (p - 1) = j by omega]
/-- min: the least of the last `p` values. -/
theorem min_value (o : Nat → R) (p : Nat) (hc : toInt (o 0) = .ok (p : Int)) (hp : 1 ≤ p) :
    Computes minBatch o (p - 1) (winMin p) :=
  (min_run o p hc hp).congr fun x j => by
    rw [trk_min _ _ _ _ _ hp (by omega), show p - 1 + j - (p - 1) = j by omega]

theorem max_ref_eq_batch (o : Nat → R) (p : Nat) (hc : toInt (o 0) = .ok (p : Int)) (hp : 1 ≤ p) (xs : List R) :
    maxRef o xs = maxBatch o xs := by
  obtain ⟨x, hx⟩ := exists_pre xs
  rw [hx, maxRef_run o p hc hp, max_value o p hc hp]
  congr 3; funext j; show refScan _ x j (p - 1) = _; rw [refScan_max, show p - 1 + 1 = p by omega]
theorem min_ref_eq_batch (o : Nat → R) (p : Nat) (hc : toInt (o 0) = .ok (p : Int)) (hp : 1 ≤ p) (xs : List R) :
    minRef o xs = minBatch o xs := by
  obtain ⟨x, hx⟩ := exists_pre xs
  rw [hx, minRef_run o p hc hp, min_value o p hc hp]
  congr 3; funext j; show refScan _ x j (p - 1) = _; rw [refScan_min, show p - 1 + 1 = p by omega]

/-- willr: the distance of the close from the highest high in percent of the range, negated (0 for an empty range). -/
theorem willr_value (o : Nat → R) (p : Nat) (hc : toInt (o 0) = .ok (p : Int)) (hp : 1 ≤ p) :
    Computes willrBatch o (p - 1) (fun x j =>
      let hi := winMax p (fun i => (x i).high) j
      let lo := winMin p (fun i => (x i).low) j
      if hi - lo = 0 then 0 else -100 * ((hi - (x (j + (p - 1))).close) / (hi - lo))) :=
  (willr_run o p hc hp).congr fun x j => by
    rw [trk_max _ _ _ _ _ hp (by omega), trk_min _ _ _ _ _ hp (by omega), show p - 1 + j - (p - 1) = j by omega]
    simp [willrOut]

theorem low_le_high (p : Nat) (hp : 1 ≤ p) (x : Nat → HLC R) (hx : ∀ i, (x i).low ≤ (x i).close ∧ (x i).close ≤ (x i).high)
    (j : Nat) : winMin p (fun i => (x i).low) j ≤ (x (j + (p - 1))).close ∧
      (x (j + (p - 1))).close ≤ winMax p (fun i => (x i).high) j :=
  ⟨(winMin_le p (fun i => (x i).low) j (j + (p - 1)) (by omega) (by omega)).trans (hx _).1,
    (hx _).2.trans (le_winMax p (fun i => (x i).high) j (j + (p - 1)) (by omega) (by omega))⟩

/-- willr lies in [-100, 0] when every close lies between its low and high. -/
theorem willr_range (o : Nat → R) (p : Nat) (hc : toInt (o 0) = .ok (p : Int)) (hp : 1 ≤ p) (x : Nat → HLC R)
    (hx : ∀ i, (x i).low ≤ (x i).close ∧ (x i).close ≤ (x i).high) (N : Nat) :
    ∃ y, willrBatch o (pre x N) = .ok (.okay, pre y (N - (p - 1))) ∧ ∀ j, -100 ≤ y j ∧ y j ≤ 0 := by
  refine ⟨_, willr_value o p hc hp x N, fun j => ?_⟩
  obtain ⟨h1, h2⟩ := low_le_high p hp x hx j
  simp only
  split
  · constructor <;> norm_num
  · rename_i h
    have h3 : 0 < winMax p (fun i => (x i).high) j - winMin p (fun i => (x i).low) j :=
      lt_of_le_of_ne (by linarith) (Ne.symm h)
    have h4 := div_nonneg (sub_nonneg.2 h2) h3.le
    have h5 : (winMax p (fun i => (x i).high) j - (x (j + (p - 1))).close) /
      (winMax p (fun i => (x i).high) j - winMin p (fun i => (x i).low) j) ≤ 1 := by
      rw [div_le_one h3]; linarith
    constructor <;> linarith

theorem stochF_eq (kp : Nat) (p0 : 1 ≤ kp) (x : Nat → HLC R) (j : Nat) : stochF kp x (j + (kp - 1)) = fastK kp x j := by
  unfold stochF stochFast fastK inRange
  have e1 := trk_max (fun i => (x i).high) (x 0).high kp 0 (j + (kp - 1)) p0 (by omega)
  have e2 := trk_min (fun i => (x i).low) (x 0).low kp 0 (j + (kp - 1)) p0 (by omega)
  rw [show 0 + (j + (kp - 1)) - (kp - 1) = j by omega] at e1 e2
  rw [e1, e2]
  simp

theorem stochK_eq (kp ks : Nat) (p0 : 1 ≤ kp) (p1 : 1 ≤ ks) (x : Nat → HLC R) (j : Nat) :
    stochK kp ks x j = winMean ks (fastK kp x) j := by
  unfold stochK
  rw [show j + (kp - 1 + (ks - 1)) + 1 = (j + (kp - 1)) + ks by omega, bsum_win, winMean]
  have : winSum ks (stochF kp x) (j + (kp - 1)) = winSum ks (fastK kp x) j :=
    sum_congr rfl fun k _ => by rw [show j + (kp - 1) + k = j + k + (kp - 1) by omega, stochF_eq kp p0]
  rw [this]; simp [div_eq_mul_inv]

/-- stoch: %K is the mean of the last `ks` fast %K values, %D the mean of the last `dp` values of %K. -/
theorem stoch_value_partial (o : Nat → R) (kp ks dp : Nat) (h0 : toInt (o 0) = .ok (kp : Int))
    (h1 : toInt (o 1) = .ok (ks : Int)) (h2 : toInt (o 2) = .ok (dp : Int)) (p0 : 1 ≤ kp) (p1 : 1 ≤ ks) (p2 : 1 ≤ dp)
    (hb : kp + ks + dp ≤ 2147483647) : Computes stochBatch o (kp - 1 + (ks - 1) + (dp - 1)) (fun x j =>
      let k := winMean ks (fastK kp x)
      ⟨k (j + (dp - 1)), winMean dp k j⟩) :=
  (stoch_run o kp ks dp h0 h1 h2 p0 p1 p2 hb).congr fun x j => by
    have e : stochK kp ks x = winMean ks (fastK kp x) := funext (stochK_eq kp ks p0 p1 x)
    rw [stochV, e, show j + (dp - 1) + 1 = j + dp by omega, bsum_win]
    simp [winMean, div_eq_mul_inv]

theorem inRange_01 (lo hi c : R) (h1 : lo ≤ c) (h2 : c ≤ hi) : 0 ≤ inRange lo hi c ∧ inRange lo hi c ≤ 1 := by
  unfold inRange
  split
  · constructor <;> norm_num
  · rename_i h
    have h3 : 0 < hi - lo := lt_of_le_of_ne (by linarith) (Ne.symm h)
    exact ⟨div_nonneg (by linarith) h3.le, by rw [div_le_one h3]; linarith⟩

/-- %K and %D lie in [0, 100] when every close lies between its low and high. -/
theorem stoch_range_partial (o : Nat → R) (kp ks dp : Nat) (h0 : toInt (o 0) = .ok (kp : Int))
    (h1 : toInt (o 1) = .ok (ks : Int)) (h2 : toInt (o 2) = .ok (dp : Int)) (p0 : 1 ≤ kp) (p1 : 1 ≤ ks) (p2 : 1 ≤ dp)
    (hb : kp + ks + dp ≤ 2147483647) (x : Nat → HLC R)
    (hx : ∀ i, (x i).low ≤ (x i).close ∧ (x i).close ≤ (x i).high) (N : Nat) :
    ∃ y, stochBatch o (pre x N) = .ok (.okay, pre y (N - (kp - 1 + (ks - 1) + (dp - 1)))) ∧
      ∀ j, (0 ≤ (y j).k ∧ (y j).k ≤ 100) ∧ 0 ≤ (y j).d ∧ (y j).d ≤ 100 := by
  refine ⟨_, stoch_value_partial o kp ks dp h0 h1 h2 p0 p1 p2 hb x N, fun j => ?_⟩
  have hf : ∀ i, 0 ≤ fastK kp x i ∧ fastK kp x i ≤ 100 := fun i => by
    obtain ⟨a, b⟩ := low_le_high kp p0 x hx i
    obtain ⟨c, d⟩ := inRange_01 _ _ _ a b
    unfold fastK
    constructor <;> linarith
  have hk : ∀ i, 0 ≤ winMean ks (fastK kp x) i ∧ winMean ks (fastK kp x) i ≤ 100 := fun i =>
    mean_bounds _ ks i p1 0 100 fun k _ _ => hf k
  exact ⟨hk _, mean_bounds _ dp j p2 0 100 fun k _ _ => hk k⟩

/-- stochrsi: where the newest of the last `p` rsi values lies between the least and the greatest of them. -/
theorem stochrsi_value_partial (o : Nat → R) (p : Nat) (hc : toInt (o 0) = .ok (p : Int)) (hp : 2 ≤ p)
    (hb : p ≤ 1073741823) : ∀ (x : Nat → R) (N : Nat), ∃ r,
      rsiBatch o (pre x N) = .ok (.okay, pre r (N - p)) ∧
      stochrsiBatch o (pre x N) = .ok (.okay, pre (fun j => inRange (winMin p r j) (winMax p r j) (r (j + (p - 1))))
        (N - (2 * p - 1))) := by
  intro x N
  refine ⟨rsiSeq p x, rsi_run o p hc (by omega) x N, ?_⟩
  rw [stochrsi_run o p hc hp hb]
  congr 3
  funext j
  unfold stochrsiV
  rw [rtk_max _ _ (by omega), rtk_min _ _ (by omega)]
  simp [inRange]

/-- stochrsi lies in [0, 1]. -/
theorem stochrsi_range_partial (o : Nat → R) (p : Nat) (hc : toInt (o 0) = .ok (p : Int)) (hp : 2 ≤ p)
    (hb : p ≤ 1073741823) (x : Nat → R) (N : Nat) :
    ∃ y, stochrsiBatch o (pre x N) = .ok (.okay, pre y (N - (2 * p - 1))) ∧ ∀ j, 0 ≤ y j ∧ y j ≤ 1 := by
  obtain ⟨r, _, h⟩ := stochrsi_value_partial o p hc hp hb x N
  exact ⟨_, h, fun j => inRange_01 _ _ _ (winMin_le p r j _ (by omega) (by omega)) (le_winMax p r j _ (by omega) (by omega))⟩

/-- aroon over the last `p + 1` bars: 100·(p - bars since the extremum)/p, the extremum being the latest lowest low
(down) and the latest highest high (up). -/
theorem aroon_value (o : Nat → R) (p : Nat) (hc : toInt (o 0) = .ok (p : Int)) (hp : 1 ≤ p) (x : Nat → HL R) (N : Nat) :
    ∃ y, aroonBatch o (pre x N) = .ok (.okay, pre y (N - p)) ∧ ∀ j, ∃ kl kh,
      LastMin (fun i => (x i).low) j (j + p) kl ∧ LastMax (fun i => (x i).high) j (j + p) kh ∧
      y j = ⟨100 * ((p : R) - ((j + p - kl : Nat) : R)) / p, 100 * ((p : R) - ((j + p - kh : Nat) : R)) / p⟩ := by
  refine ⟨_, aroon_run o p hc hp x N, fun j => ?_⟩
  obtain ⟨kl, hl, el⟩ := trk_lastMin (fun i => (x i).low) (x 0).low p p j
  obtain ⟨kh, hh, eh⟩ := trk_lastMax (fun i => (x i).high) (x 0).high p p j
  rw [show p + j - p = j by omega, show p + j = j + p by omega] at hl hh
  refine ⟨kl, kh, hl, hh, ?_⟩
  simp only [el, eh]
  have h1 := hl.2.1
  have h2 := hh.2.1
  simp only [Aroon.mk.injEq]
  rw [show (((j + p : Nat) : Int) - (kl : Int)) = ((j + p - kl : Nat) : Int) by omega,
    show (((j + p : Nat) : Int) - (kh : Int)) = ((j + p - kh : Nat) : Int) by omega]
  constructor <;> (simp; ring)

/-- aroon lies in [0, 100]. -/
theorem aroon_range (o : Nat → R) (p : Nat) (hc : toInt (o 0) = .ok (p : Int)) (hp : 1 ≤ p) (x : Nat → HL R) (N : Nat) :
    ∃ y, aroonBatch o (pre x N) = .ok (.okay, pre y (N - p)) ∧
      ∀ j, (0 ≤ (y j).down ∧ (y j).down ≤ 100) ∧ 0 ≤ (y j).up ∧ (y j).up ≤ 100 := by
  obtain ⟨y, h, hy⟩ := aroon_value o p hc hp x N
  refine ⟨y, h, fun j => ?_⟩
  obtain ⟨kl, kh, h1, h2, e⟩ := hy j
  have hp' : (0 : R) < p := by exact_mod_cast hp
  have a1 : ((j + p - kl : Nat) : R) ≤ p := by exact_mod_cast (show j + p - kl ≤ p by have := h1.1; omega)
  have a2 : ((j + p - kh : Nat) : R) ≤ p := by exact_mod_cast (show j + p - kh ≤ p by have := h2.1; omega)
  have b1 : (0 : R) ≤ ((j + p - kl : Nat) : R) := Nat.cast_nonneg _
  have b2 : (0 : R) ≤ ((j + p - kh : Nat) : R) := Nat.cast_nonneg _
  rw [e]
  simp only
  refine ⟨⟨div_nonneg (by linarith) hp'.le, ?_⟩, div_nonneg (by linarith) hp'.le, ?_⟩ <;>
    (rw [div_le_iff₀ hp']; linarith)

/-- aroonosc is aroon up minus aroon down, and so lies in [-100, 100]. -/
theorem aroonosc_value (o : Nat → R) (p : Nat) (hc : toInt (o 0) = .ok (p : Int)) (hp : 1 ≤ p) (x : Nat → HL R) (N : Nat) :
    ∃ y z, aroonBatch o (pre x N) = .ok (.okay, pre y (N - p)) ∧ aroonoscBatch o (pre x N) = .ok (.okay, pre z (N - p)) ∧
      ∀ j, z j = (y j).up - (y j).down := by
  refine ⟨_, _, aroon_run o p hc hp x N, aroonosc_run o p hc hp x N, fun j => ?_⟩
  simp only
  push_cast
  ring
theorem aroonosc_range (o : Nat → R) (p : Nat) (hc : toInt (o 0) = .ok (p : Int)) (hp : 1 ≤ p) (x : Nat → HL R) (N : Nat) :
    ∃ z, aroonoscBatch o (pre x N) = .ok (.okay, pre z (N - p)) ∧ ∀ j, j < N - p → -100 ≤ z j ∧ z j ≤ 100 := by
  obtain ⟨y, z, h1, h2, h3⟩ := aroonosc_value o p hc hp x N
  obtain ⟨y', h4, h5⟩ := aroon_range o p hc hp x N
  rw [h1] at h4
  refine ⟨z, h2, fun j hj => ?_⟩
  have e : y j = y' j := by
    have h := congrArg (fun l => l[j]?) (Prod.mk.inj (Except.ok.inj h4)).2
    simpa [pre, hj] using h
  have := h5 j
  rw [h3, e]
  constructor <;> linarith

/-- vhf: range of the last `p` values over the path length of the last `p` steps (0 for an empty range). -/
theorem vhf_value [LawfulAbs R] (o : Nat → R) (p : Nat) (hc : toInt (o 0) = .ok (p : Int)) (hp : 1 ≤ p) :
    Computes vhfBatch o p (fun x j =>
      let range := winMax p x (j + 1) - winMin p x (j + 1)
      if range = 0 then 0 else range / winSum p (fun k => |x (k + 1) - x k|) j) :=
  (vhf_run o p hc hp).congr fun x j => by
    rw [trk_max _ _ _ _ _ hp (by omega), trk_min _ _ _ _ _ hp (by omega), show p + j - (p - 1) = j + 1 by omega,
      slide_eq]
    have e : absDiff x = fun k => |x (k + 1) - x k| := funext fun k => by simp [absDiff, LawfulAbs.fabs_eq]
    have h : 0 ≤ winMax p x (j + 1) - winMin p x (j + 1) := by
      have := winMin_le p x (j + 1) (j + 1) le_rfl (by omega)
      have := le_winMax p x (j + 1) (j + 1) le_rfl (by omega)
      linarith
    rw [e]
    simp [vhfOut, LawfulAbs.fabs_eq, abs_of_nonneg h]

theorem path_bound (x : Nat → R) (a b : Nat) (hab : a ≤ b) :
    |x b - x a| ≤ ∑ k ∈ Ico a b, |x (k + 1) - x k| := by
  induction b, hab using Nat.le_induction with
  | base => simp
  | succ b hab ih =>
    rw [sum_Ico_succ_top hab]
    have := abs_add_le (x b - x a) (x (b + 1) - x b)
    rw [show x b - x a + (x (b + 1) - x b) = x (b + 1) - x a by ring] at this
    linarith

/-- vhf lies in [0, 1]. -/
theorem vhf_range [LawfulAbs R] (o : Nat → R) (p : Nat) (hc : toInt (o 0) = .ok (p : Int)) (hp : 1 ≤ p)
    (x : Nat → R) (N : Nat) : ∃ y, vhfBatch o (pre x N) = .ok (.okay, pre y (N - p)) ∧ ∀ j, 0 ≤ y j ∧ y j ≤ 1 := by
  refine ⟨_, vhf_value o p hc hp x N, fun j => ?_⟩
  obtain ⟨a, a1, a2, ea⟩ := winMax_mem p hp x (j + 1)
  obtain ⟨b, b1, b2, eb⟩ := winMin_mem p hp x (j + 1)
  have h1 : winMin p x (j + 1) ≤ winMax p x (j + 1) :=
    (winMin_le p x (j + 1) (j + 1) le_rfl (by omega)).trans (le_winMax p x (j + 1) (j + 1) le_rfl (by omega))
  have key : ∀ c d, j ≤ c → c ≤ d → d ≤ j + p → |x d - x c| ≤ winSum p (fun k => |x (k + 1) - x k|) j := by
    intro c d hc hcd hd
    refine (path_bound x c d hcd).trans ?_
    rw [winSum, range_eq_Ico, sum_Ico_add (fun k => |x (k + 1) - x k|) 0 p j]
    refine sum_le_sum_of_subset_of_nonneg ?_ fun k _ _ => abs_nonneg _
    intro k hk
    rw [mem_Ico] at hk ⊢
    omega
  have hb : winMax p x (j + 1) - winMin p x (j + 1) ≤ winSum p (fun k => |x (k + 1) - x k|) j := by
    rw [ea, eb]
    rcases Nat.le_total a b with h | h
    · refine le_trans ?_ (key a b (by omega) h (by omega))
      rw [abs_sub_comm]; exact le_abs_self _
    · exact (le_abs_self _).trans (key b a (by omega) h (by omega))
  simp only
  split
  · constructor <;> norm_num
  · rename_i h
    have h3 : 0 < winMax p x (j + 1) - winMin p x (j + 1) := lt_of_le_of_ne (by linarith) (Ne.symm h)
    exact ⟨div_nonneg h3.le (by linarith), by rw [div_le_one (by linarith)]; exact hb⟩

theorem fisherVal_eq (p : Nat) (m : Nat → R) (j : Nat) (c v : R) :
    fisherVal (winMax p m j) (winMin p m j) c v
      = fisherOsc.clamp (66 / 100 * ((c - winMin p m j) / fisherOsc.range p m j - 1 / 2) + 67 / 100 * v) := by
  have e : (if winMax p m j - winMin p m j == c! 0 then c! 1 / c! 1000 else winMax p m j - winMin p m j : R)
      = fisherOsc.range p m j := by
    unfold fisherOsc.range
    by_cases h : winMax p m j = winMin p m j <;> simp [h, sub_eq_zero]
  unfold fisherVal fisherOsc.clamp
  simp only [e]
  norm_num
  split_ifs <;> first | rfl | (exfalso; linarith)

/-- fisher of the midpoints m = (high + low)/2: with v the clamped oscillator, fisher moves half way from its previous
value (0 at first) towards log((1+v)/(1-v)); the signal is the previous fisher. -/
theorem fisher_value (o : Nat → R) (p : Nat) (hc : toInt (o 0) = .ok (p : Int)) (hp : 1 ≤ p) (x : Nat → HL R) (N : Nat) :
    ∃ f : Nat → R, fisherBatch o (pre x N) = .ok (.okay, pre (fun j => ⟨f (j + 1), f j⟩) (N - (p - 1))) ∧ f 0 = 0 ∧
      ∀ j, let v := fisherOsc p (fun i => ((x i).high + (x i).low) / 2) j
        f (j + 1) = (CMath.log ((1 + v) / (1 - v)) + f j) / 2 := by
  have em : midSig x = fun i => ((x i).high + (x i).low) / 2 := funext fun i => by simp [midSig]; ring
  have e : ∀ j, (fisherSt p x (j + 1)).1 = fisherOsc p (fun i => ((x i).high + (x i).low) / 2) j := by
    intro j
    induction j with
    | zero =>
      rw [fisherSt, trk_max _ _ _ _ _ hp (by omega), trk_min _ _ _ _ _ hp (by omega), em, show p - 1 + 0 - (p - 1) = 0 by omega]
      simp only
      rw [fisherVal_eq]
      simp [fisherSt, fisherOsc]
    | succ j ih =>
      rw [fisherSt, trk_max _ _ _ _ _ hp (by omega), trk_min _ _ _ _ _ hp (by omega), em, ih,
        show p - 1 + (j + 1) - (p - 1) = j + 1 by omega]
      simp only
      rw [fisherVal_eq]
      rfl
  refine ⟨fun j => (fisherSt p x j).2, fisher_run o p hc hp x N, by simp [fisherSt], fun j => ?_⟩
  have h : (fisherSt p x (j + 1)).2 = fisherFish (fisherSt p x (j + 1)).1 (fisherSt p x j).2 := rfl
  simp only
  rw [h, e]
  simp [fisherFish]
  ring

/-- The argument of the logarithm in fisher is always positive. -/
theorem fisher_log_arg (p : Nat) (m : Nat → R) (j : Nat) :
    0 < (1 + fisherOsc p m j) / (1 - fisherOsc p m j) := by
  have h : ∀ v : R, -1 < fisherOsc.clamp v ∧ fisherOsc.clamp v < 1 := fun v => by
    unfold fisherOsc.clamp
    split_ifs
    · constructor <;> norm_num
    · constructor <;> norm_num
    · constructor <;> linarith
  have hv : -1 < fisherOsc p m j ∧ fisherOsc p m j < 1 := by cases j <;> exact h _
  exact div_pos (by linarith) (by linarith)

end Field

/- Concrete runs and instances of the hypotheses. -/
example : toInt (opts [3] 0) = .ok ((3 : Nat) : Int) ∧ 2 ≤ 3 := by decide +kernel
example : maxBatch (opts [3]) [1, 5, 2, 4, 3, 0] = .ok (.okay, [5, 5, 4, 4]) := by decide +kernel
example : minBatch (opts [3]) [1, 5, 2, 4, 3, 0] = .ok (.okay, [1, 2, 2, 0]) := by decide +kernel
example : maxRef (opts [3]) [1, 5, 2, 4, 3, 0] = .ok (.okay, [5, 5, 4, 4]) := by decide +kernel
example : minRef (opts [3]) [1, 5, 2, 4, 3, 0] = .ok (.okay, [1, 2, 2, 0]) := by decide +kernel
example : willrBatch (opts [2]) [⟨5, 3, 4⟩, ⟨9, 7, 8⟩, ⟨8, 1, 2⟩] = .ok (.okay, [-50/3, -175/2]) := by decide +kernel
example : stochBatch (opts [2, 2, 1]) [⟨5, 3, 4⟩, ⟨9, 7, 8⟩, ⟨8, 1, 2⟩] = .ok (.okay, [⟨575/12, 575/12⟩]) := by
  decide +kernel
example : toInt (opts [2147483647, 1, 1] 0) = .ok ((2147483647 : Nat) : Int) ∧ 2147483647 < 2147483647 + 1 + 1 := by
  decide +kernel
example : aroonBatch (opts [2]) [⟨5, 3⟩, ⟨9, 7⟩, ⟨8, 1⟩, ⟨7, 2⟩] = .ok (.okay, [⟨100, 50⟩, ⟨50, 0⟩]) := by decide +kernel
example : aroonoscBatch (opts [2]) [⟨5, 3⟩, ⟨9, 7⟩, ⟨8, 1⟩, ⟨7, 2⟩] = .ok (.okay, [-50, -50]) := by decide +kernel
example : vhfBatch (opts [2]) [1, 3, 2, 5] = .ok (.okay, [1/3, 3/4]) := by decide +kernel
example : stochrsiBatch (opts [2]) [1, 3, 2, 3, 4, 2] = .ok (.okay, [1, 1, 0]) := by decide +kernel
example : toInt (opts [1073741824] 0) = .ok ((1073741824 : Nat) : Int) ∧ 1073741823 < 1073741824 := by decide +kernel
example : (3 : Rat) ≤ 4 ∧ (4 : Rat) ≤ 5 ∧ (fisherBatch (opts [2]) [⟨5, 3⟩, ⟨9, 7⟩, ⟨8, 1⟩]).toOption.isSome := by decide +kernel

end Verif
