/-
C21 (var, stddev, stderr, bbands, volatility, md).
-/
import Verif.Proof.Stats
import Verif.Proof.WindowField
import Verif.Spec.Stats
import Verif.Core.RatInst
import Verif.Core.RealInst
import Mathlib.Algebra.BigOperators.Ring.Finset

set_option linter.unusedSectionVars false

namespace Verif
open Spec Finset

section Any
variable {R : Type} [Num R] (o : Nat → R)

/-! ### Any arithmetic: contract, refusal -/

theorem var_contract (p : Nat) (hc : toInt (o 0) = .ok (p : Int)) (hp : 1 ≤ p) : Contract varStart varBatch o (p - 1) :=
  (var_run o p hc hp).contract (by simp [varStart, hc, startM1_ok hc hp])
theorem var_refuses (p : Int) (hc : toInt (o 0) = .ok p) (hp : p < 1) : Refuses varBatch o := by
  intro xs; simp [varBatch, hc, hp]
theorem stddev_contract (p : Nat) (hc : toInt (o 0) = .ok (p : Int)) (hp : 1 ≤ p) :
    Contract varStart stddevBatch o (p - 1) := (stddev_run o p hc hp).contract (by simp [varStart, hc, startM1_ok hc hp])
theorem stddev_refuses (p : Int) (hc : toInt (o 0) = .ok p) (hp : p < 1) : Refuses stddevBatch o := by
  intro xs; simp [stddevBatch, hc, hp]
theorem stderr_contract (p : Nat) (hc : toInt (o 0) = .ok (p : Int)) (hp : 1 ≤ p) :
    Contract varStart stderrBatch o (p - 1) := (stderr_run o p hc hp).contract (by simp [varStart, hc, startM1_ok hc hp])
theorem stderr_refuses (p : Int) (hc : toInt (o 0) = .ok p) (hp : p < 1) : Refuses stderrBatch o := by
  intro xs; simp [stderrBatch, hc, hp]
theorem bbands_contract (p : Nat) (hc : toInt (o 0) = .ok (p : Int)) (hp : 1 ≤ p) :
    Contract varStart bbandsBatch o (p - 1) := (bbands_run o p hc hp).contract (by simp [varStart, hc, startM1_ok hc hp])
theorem bbands_refuses (p : Int) (hc : toInt (o 0) = .ok p) (hp : p < 1) : Refuses bbandsBatch o := by
  intro xs; simp [bbandsBatch, hc, hp]
theorem volatility_contract (p : Nat) (hc : toInt (o 0) = .ok (p : Int)) (hp : 1 ≤ p) :
    Contract volatilityStart volatilityBatch o p := (volatility_run o p hc hp).contract (by simp [volatilityStart, hc])
theorem volatility_refuses (p : Int) (hc : toInt (o 0) = .ok p) (hp : p < 1) : Refuses volatilityBatch o := by
  intro xs; simp [volatilityBatch, hc, hp]
theorem md_contract (p : Nat) (hc : toInt (o 0) = .ok (p : Int)) (hp : 1 ≤ p) : Contract varStart mdBatch o (p - 1) :=
  (md_run o p hc hp).contract (by simp [varStart, hc, startM1_ok hc hp])
theorem md_refuses (p : Int) (hc : toInt (o 0) = .ok p) (hp : p < 1) : Refuses mdBatch o := by
  intro xs; simp [mdBatch, hc, hp]

end Any

section Field
variable {R : Type} [Field R] [LinearOrder R] [IsStrictOrderedRing R] [CMath R]

/-! ### Values -/

theorem momVar_eq (x : Nat → R) (p : Nat) (hp : 1 ≤ p) (j : Nat) :
    momVar (((1 : Int) : R) / ((p : Int) : R)) (mom x p (j + p)) = winVar p x j := by
  have h : (p : R) ≠ 0 := by exact_mod_cast (by omega : p ≠ 0)
  have e : ∑ k ∈ range p, (x (j + k) - winMean p x j) ^ 2 =
      winSum p (fun k => x k * x k) j - winMean p x j * winSum p x j := by
    have e1 : ∀ k ∈ range p, (x (j + k) - winMean p x j) ^ 2 =
        x (j + k) * x (j + k) - 2 * winMean p x j * x (j + k) + winMean p x j * winMean p x j := fun k _ => by ring
    rw [sum_congr rfl e1, sum_add_distrib, sum_sub_distrib, ← mul_sum, sum_const, card_range, nsmul_eq_mul]
    show winSum p (fun k => x k * x k) j - 2 * winMean p x j * winSum p x j + _ = _
    rw [show winSum p x j = p * winMean p x j by unfold winMean; field_simp]
    ring
  rw [winVar, e]
  simp only [momVar, mom, slide_eq, winMean]
  push_cast
  field_simp

theorem winVar_nonneg (x : Nat → R) (p j : Nat) : 0 ≤ winVar p x j :=
  div_nonneg (sum_nonneg fun _ _ => sq_nonneg _) (Nat.cast_nonneg _)

/-- var: the population variance of the window. -/
theorem var_value (o : Nat → R) (p : Nat) (hc : toInt (o 0) = .ok (p : Int)) (hp : 1 ≤ p) :
    Computes varBatch o (p - 1) (winVar p) := (var_run o p hc hp).congr fun x j => momVar_eq x p hp j

/-- The variance is non-negative, and zero exactly if all values of the window are equal. -/
theorem var_zero_iff (o : Nat → R) (p : Nat) (hc : toInt (o 0) = .ok (p : Int)) (hp : 1 ≤ p) (x : Nat → R) (N : Nat) :
    ∃ y, varBatch o (pre x N) = .ok (.okay, pre y (N - (p - 1))) ∧ ∀ j, 0 ≤ y j ∧
      (y j = 0 ↔ ∀ k < p, x (j + k) = x j) := by
  refine ⟨_, var_value o p hc hp x N, fun j => ⟨winVar_nonneg x p j, ?_⟩⟩
  have h : (p : R) ≠ 0 := by exact_mod_cast (by omega : p ≠ 0)
  unfold winVar
  rw [div_eq_zero_iff, or_iff_left h, sum_eq_zero_iff_of_nonneg (fun _ _ => sq_nonneg _)]
  constructor
  · intro H k hk
    have e : ∀ k < p, x (j + k) = winMean p x j := fun k hk => by
      have := H k (mem_range.2 hk)
      rwa [sq_eq_zero_iff, sub_eq_zero] at this
    rw [e k hk]
    exact (e 0 (by omega)).symm
  · intro H k hk
    have e : winMean p x j = x j := by
      unfold winMean winSum
      rw [sum_congr rfl fun k hk => H k (mem_range.1 hk), sum_const, card_range, nsmul_eq_mul]
      field_simp
    rw [H k (mem_range.1 hk), e, sub_self]
    ring

theorem sqrt_zero [LawfulSqrt R] : CMath.sqrt (0 : R) = 0 := by
  have := LawfulSqrt.sqrt_sq (0 : R) le_rfl
  rcases mul_eq_zero.1 this with h | h <;> exact h

theorem momSd_eq [LawfulSqrt R] (x : Nat → R) (p : Nat) (hp : 1 ≤ p) (j : Nat) :
    momSd (((1 : Int) : R) / ((p : Int) : R)) (mom x p (j + p)) = CMath.sqrt (winVar p x j) := by
  simp only [momSd, momVar_eq x p hp, Int.cast_zero]
  split
  · rfl
  · rename_i h
    have := le_antisymm (not_lt.1 h) (winVar_nonneg x p j)
    rw [this, sqrt_zero]

/-- stddev: the square root of the population variance of the window. -/
theorem stddev_value [LawfulSqrt R] (o : Nat → R) (p : Nat) (hc : toInt (o 0) = .ok (p : Int)) (hp : 1 ≤ p) :
    Computes stddevBatch o (p - 1) (fun x j => CMath.sqrt (winVar p x j)) :=
  (stddev_run o p hc hp).congr fun x j => momSd_eq x p hp j

/-- The outputs of stddev are non-negative and their squares are the outputs of var. -/
theorem stddev_sq_var [LawfulSqrt R] (o : Nat → R) (p : Nat) (hc : toInt (o 0) = .ok (p : Int)) (hp : 1 ≤ p)
    (x : Nat → R) (N : Nat) : ∃ y, stddevBatch o (pre x N) = .ok (.okay, pre y (N - (p - 1))) ∧
      varBatch o (pre x N) = .ok (.okay, pre (fun j => y j ^ 2) (N - (p - 1))) ∧ ∀ j, 0 ≤ y j := by
  refine ⟨_, stddev_value o p hc hp x N, ?_, fun j => LawfulSqrt.sqrt_nonneg _ (winVar_nonneg x p j)⟩
  rw [var_value o p hc hp x N]
  simp only [sq, LawfulSqrt.sqrt_sq _ (winVar_nonneg x p _)]

/-- stderr: the standard deviation divided by the square root of the period. -/
theorem stderr_value [LawfulSqrt R] (o : Nat → R) (p : Nat) (hc : toInt (o 0) = .ok (p : Int)) (hp : 1 ≤ p) :
    Computes stderrBatch o (p - 1) (fun x j => CMath.sqrt (winVar p x j) / CMath.sqrt (p : R)) :=
  (stderr_run o p hc hp).congr fun x j => by
    rw [momSd_eq x p hp]; push_cast; ring

/-- bbands: mean of the window, and the mean minus / plus `options[1]` standard deviations. -/
theorem bbands_value (o : Nat → R) (p : Nat) (hc : toInt (o 0) = .ok (p : Int)) (hp : 1 ≤ p) :
    Computes bbandsBatch o (p - 1) (fun x j =>
      let sd := CMath.sqrt (winVar p x j)
      ⟨winMean p x j - o 1 * sd, winMean p x j, winMean p x j + o 1 * sd⟩) :=
  (bbands_run o p hc hp).congr fun x j => by
    simp only [bbandsOut, momVar_eq x p hp]
    simp [mom, slide_eq, winMean, div_eq_mul_inv]

/-- The bands enclose the middle if `options[1]` is not negative; their distance from it is the same. -/
theorem bbands_order [LawfulSqrt R] (o : Nat → R) (p : Nat) (hc : toInt (o 0) = .ok (p : Int)) (hp : 1 ≤ p)
    (hk : 0 ≤ o 1) (x : Nat → R) (N : Nat) : ∃ y, bbandsBatch o (pre x N) = .ok (.okay, pre y (N - (p - 1))) ∧
      ∀ j, (y j).lower ≤ (y j).middle ∧ (y j).middle ≤ (y j).upper ∧
        (y j).upper - (y j).middle = (y j).middle - (y j).lower := by
  refine ⟨_, bbands_value o p hc hp x N, fun j => ?_⟩
  have := mul_nonneg hk (LawfulSqrt.sqrt_nonneg _ (winVar_nonneg x p j))
  simp only
  refine ⟨by linarith, by linarith, by ring⟩

theorem chgSig_eq (x : Nat → R) : chgSig x = relMove x := by
  funext k
  simp only [chgSig, relMove, Int.cast_zero, Int.cast_one]
  by_cases h : x k = 0
  · simp [h]
  · rw [if_neg (by simpa using h), if_neg h]; field_simp

/-- volatility: √252 times the standard deviation of the relative changes in the window. -/
theorem volatility_value (o : Nat → R) (p : Nat) (hc : toInt (o 0) = .ok (p : Int)) (hp : 1 ≤ p) :
    Computes volatilityBatch o p (fun x j => CMath.sqrt (252 : R) * CMath.sqrt (winVar p (relMove x) j)) :=
  (volatility_run o p hc hp).congr fun x j => by
    rw [momVar_eq _ p hp, chgSig_eq, mul_comm]; norm_num

/-- md: the mean absolute deviation of the window from its mean. -/
theorem md_value [LawfulAbs R] (o : Nat → R) (p : Nat) (hc : toInt (o 0) = .ok (p : Int)) (hp : 1 ≤ p) :
    Computes mdBatch o (p - 1) (winMeanDev p) :=
  (md_run o p hc hp).congr fun x j => by
    simp only [mdAcc, sumTo_eq, slide_eq, LawfulAbs.fabs_eq, winMeanDev]
    have e : winSum p x j * (((1 : Int) : R) / ((p : Int) : R)) = winMean p x j := by
      simp [winMean, div_eq_mul_inv]
    rw [e, ← sum_range_reflect]
    have : ∀ k ∈ range p, |winMean p x j - x (j + p - 1 - (p - 1 - k))| = |x (j + k) - winMean p x j| := by
      intro k hk
      have := mem_range.1 hk
      rw [show j + p - 1 - (p - 1 - k) = j + k by omega, abs_sub_comm]
    rw [sum_congr rfl this]
    simp [div_eq_mul_inv]

/-- md is non-negative. -/
theorem md_nonneg [LawfulAbs R] (o : Nat → R) (p : Nat) (hc : toInt (o 0) = .ok (p : Int)) (hp : 1 ≤ p) (x : Nat → R)
    (N : Nat) : ∃ y, mdBatch o (pre x N) = .ok (.okay, pre y (N - (p - 1))) ∧ ∀ j, 0 ≤ y j :=
  ⟨_, md_value o p hc hp x N, fun _ => div_nonneg (sum_nonneg fun _ _ => abs_nonneg _) (Nat.cast_nonneg _)⟩

end Field

/- Concrete runs and instances of the hypotheses. -/
example : toInt (opts [3, 2] 0) = .ok ((3 : Nat) : Int) ∧ (0 : ℚ) ≤ opts [3, 2] 1 := by decide +kernel
example : varBatch (opts [2]) [1, 3, 3, 9] = .ok (.okay, [1, 0, 9]) := by decide +kernel
example : mdBatch (opts [3]) [1, 4, 4, 10] = .ok (.okay, [4/3, 8/3]) := by decide +kernel
example : winVar 3 (fun k => ((k * k : Nat) : ℚ)) 1 = 98 / 9 := by decide +kernel
/-- `ℝ` with its square root satisfies the assumption about `sqrt`. -/
example : LawfulSqrt ℝ := inferInstance

end Verif
