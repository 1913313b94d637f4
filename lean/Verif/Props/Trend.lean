/-
C22 (linear regression family: linreg, linregslope, linregintercept, tsf, fosc).
-/
import Verif.Proof.Trend
import Verif.Proof.WindowField
import Verif.Spec.Trend
import Verif.Core.RatInst
import Mathlib.Tactic.LinearCombination

set_option linter.unusedSectionVars false
set_option linter.unusedSimpArgs false

namespace Verif
open Spec Finset

section Any
variable {R : Type} [Num R]

/-! ### Any arithmetic: contract, refusal, overflow of `period * period` -/

theorem linreg_contract_partial (o : Nat → R) (p : Nat) (hc : toInt (o 0) = .ok (p : Int)) (hp : 1 ≤ p)
    (hpp : p * p ≤ 2147483647) : Contract linregStart linregBatch o (p - 1) :=
  (trend_run o p hc hp hpp _ p rfl).contract (by simp only [linregStart, hc, bind_ok, startM1_ok hc hp])
theorem linregintercept_contract_partial (o : Nat → R) (p : Nat) (hc : toInt (o 0) = .ok (p : Int)) (hp : 1 ≤ p)
    (hpp : p * p ≤ 2147483647) : Contract linregStart linreginterceptBatch o (p - 1) :=
  (trend_run o p hc hp hpp _ 1 rfl).contract (by simp only [linregStart, hc, bind_ok, startM1_ok hc hp])
theorem tsf_fc {p : Nat} (hpp : p * p ≤ 2147483647) : i32 ((p : Int) + 1) = .ok ((p : Int) + 1) :=
  i32_ok _ (by omega) (by nlinarith)
theorem tsf_contract_partial (o : Nat → R) (p : Nat) (hc : toInt (o 0) = .ok (p : Int)) (hp : 1 ≤ p)
    (hpp : p * p ≤ 2147483647) : Contract linregStart tsfBatch o (p - 1) :=
  (trend_run o p hc hp hpp (fun q => i32 (q + 1)) ((p : Int) + 1) (tsf_fc hpp)).contract (by simp only [linregStart, hc, bind_ok, startM1_ok hc hp])
theorem linregslope_contract_partial (o : Nat → R) (p : Nat) (hc : toInt (o 0) = .ok (p : Int)) (hp : 1 ≤ p)
    (hpp : p * p ≤ 2147483647) : Contract linregStart linregslopeBatch o (p - 1) :=
  (linregslope_run o p hc hp hpp).contract (by simp only [linregStart, hc, bind_ok, startM1_ok hc hp])
theorem fosc_contract_partial (o : Nat → R) (p : Nat) (hc : toInt (o 0) = .ok (p : Int)) (hp : 1 ≤ p)
    (hpp : p * p ≤ 2147483647) : Contract foscStart foscBatch o p := (fosc_run o p hc hp hpp).contract hc

theorem linreg_refuses (o : Nat → R) (p : Int) (hc : toInt (o 0) = .ok p) (hp : p < 1) :
    Refuses linregBatch o := by intro xs; simp [linregBatch, trendBatch, hc, hp]
theorem linregintercept_refuses (o : Nat → R) (p : Int) (hc : toInt (o 0) = .ok p) (hp : p < 1) :
    Refuses linreginterceptBatch o := by intro xs; simp [linreginterceptBatch, trendBatch, hc, hp]
theorem tsf_refuses (o : Nat → R) (p : Int) (hc : toInt (o 0) = .ok p) (hp : p < 1) :
    Refuses tsfBatch o := by intro xs; simp [tsfBatch, trendBatch, hc, hp]
theorem linregslope_refuses (o : Nat → R) (p : Int) (hc : toInt (o 0) = .ok p) (hp : p < 1) :
    Refuses linregslopeBatch o := by intro xs; simp [linregslopeBatch, hc, hp]
theorem fosc_refuses (o : Nat → R) (p : Int) (hc : toInt (o 0) = .ok p) (hp : p < 1) :
    Refuses foscBatch o := by intro xs; simp [foscBatch, hc, hp]

/-- When `period * period` is not an `int`, the summation of squares overflows. -/
theorem linearRegression_overflow {τ : Type} (x : Nat → R) (N p : Nat) (hpp : 2147483647 < p * p) (hN : p - 1 < N)
    (t : τ) (final : Int → R → R → R → R → τ → List R → M (τ × List R)) :
    linearRegression (pre x N) p t final = .error .intRange := by
  have hp : 46341 ≤ p := by
    by_contra h
    have : p * p ≤ 46340 * 46340 := Nat.mul_le_mul (by omega) (by omega)
    omega
  unfold linearRegression
  by_cases h : p = 46341
  · subst h
    rw [trendInit_ok x N 46341 (by omega) (by norm_num) (by omega), bind_ok]
    rfl
  · refine bind_err ?_
    unfold trendInit
    refine forUp_err 0 46340 (fun k => (trX k, trX2 k, trXY x k)) rfl rfl (by omega) (by omega) ?_ rfl
    intro i _ hi
    simp only [sq_i32 i 46340 (by omega) (by norm_num), bind_ok]
    run_simp []
    rfl

/-- linreg with a period whose square is not an `int`. -/
theorem linreg_overflow (o : Nat → R) (p : Nat) (hc : toInt (o 0) = .ok (p : Int)) (hpp : 2147483647 < p * p)
    (x : Nat → R) (N : Nat) (hN : p ≤ N) : linregBatch o (pre x N) = .error .intRange := by
  have hp : 1 ≤ p := by rcases p with _ | p <;> omega
  unfold linregBatch trendBatch
  simp only [hc, bind_ok, linregStart, startM1_ok hc hp, length_pre, pure_eq]
  rw [if_neg (by omega), if_neg (by omega), linearRegression_overflow x N p hpp (by omega)]
  rfl
/-- linregintercept with a period whose square is not an `int`. -/
theorem linregintercept_overflow (o : Nat → R) (p : Nat) (hc : toInt (o 0) = .ok (p : Int)) (hpp : 2147483647 < p * p)
    (x : Nat → R) (N : Nat) (hN : p ≤ N) : linreginterceptBatch o (pre x N) = .error .intRange := by
  have hp : 1 ≤ p := by rcases p with _ | p <;> omega
  unfold linreginterceptBatch trendBatch
  simp only [hc, bind_ok, linregStart, startM1_ok hc hp, length_pre, pure_eq]
  rw [if_neg (by omega), if_neg (by omega), linearRegression_overflow x N p hpp (by omega)]
  rfl
/-- linregslope with a period whose square is not an `int`. -/
theorem linregslope_overflow (o : Nat → R) (p : Nat) (hc : toInt (o 0) = .ok (p : Int)) (hpp : 2147483647 < p * p)
    (x : Nat → R) (N : Nat) (hN : p ≤ N) : linregslopeBatch o (pre x N) = .error .intRange := by
  have hp : 1 ≤ p := by rcases p with _ | p <;> omega
  unfold linregslopeBatch
  simp only [hc, bind_ok, linregStart, startM1_ok hc hp, length_pre, pure_eq]
  rw [if_neg (by omega), if_neg (by omega), linearRegression_overflow x N p hpp (by omega)]
  rfl
/-- tsf with a period whose square is not an `int`. -/
theorem tsf_overflow (o : Nat → R) (p : Nat) (hc : toInt (o 0) = .ok (p : Int)) (hpp : 2147483647 < p * p)
    (x : Nat → R) (N : Nat) (hN : p ≤ N) : tsfBatch o (pre x N) = .error .intRange := by
  have hp : 1 ≤ p := by rcases p with _ | p <;> omega
  unfold tsfBatch trendBatch
  simp only [hc, bind_ok, linregStart, startM1_ok hc hp, length_pre, pure_eq]
  rw [if_neg (by omega), if_neg (by omega)]
  unfold i32
  split
  · rw [bind_ok, linearRegression_overflow x N p hpp (by omega)]; rfl
  · rfl
/-- fosc with a period whose square is not an `int`. -/
theorem fosc_overflow (o : Nat → R) (p : Nat) (hc : toInt (o 0) = .ok (p : Int)) (hpp : 2147483647 < p * p)
    (x : Nat → R) (N : Nat) (hN : p < N) : foscBatch o (pre x N) = .error .intRange := by
  have hp : 1 ≤ p := by rcases p with _ | p <;> omega
  unfold foscBatch
  simp only [hc, bind_ok, foscStart, length_pre, pure_eq]
  rw [if_neg (by omega), if_neg (by omega)]
  unfold i32
  split
  · rw [bind_ok, linearRegression_overflow x N p hpp (by omega)]; rfl
  · rfl

end Any

section Field
variable {R : Type} [Field R] [LinearOrder R] [IsStrictOrderedRing R] [CMath R]

/-! ### Values (ordered field) -/

theorem trXY_eq (x : Nat → R) (k : Nat) : trXY x k = (∑ i ∈ range k, ((i + 1 : Nat) : R) * x i, ∑ i ∈ range k, x i) := by
  induction k with
  | zero => simp [trXY]
  | succ k ih => rw [trXY, ih]; simp only [sum_range_succ]; ext <;> push_cast <;> ring

theorem lrX_eq (p : Nat) (hp : 1 ≤ p) : (lrX p : R) = ∑ k ∈ range p, ((k + 1 : Nat) : R) := by
  have h : ∀ k, (trX k : R) = ∑ k ∈ range k, ((k + 1 : Nat) : R) := by
    intro k
    induction k with
    | zero => simp [trX]
    | succ k ih => rw [trX, ih, sum_range_succ]; push_cast; ring
  obtain ⟨q, rfl⟩ : ∃ q, p = q + 1 := ⟨p - 1, by omega⟩
  rw [lrX, h, Nat.add_sub_cancel, sum_range_succ]; push_cast; ring

theorem lrX2_eq (p : Nat) (hp : 1 ≤ p) : (lrX2 p : R) = ∑ k ∈ range p, ((k + 1 : Nat) : R) ^ 2 := by
  have h : ∀ k, (trX2 k : R) = ∑ k ∈ range k, ((k + 1 : Nat) : R) ^ 2 := by
    intro k
    induction k with
    | zero => simp [trX2]
    | succ k ih => rw [trX2, ih, sum_range_succ]; push_cast; ring
  obtain ⟨q, rfl⟩ : ∃ q, p = q + 1 := ⟨p - 1, by omega⟩
  rw [lrX2, h, Nat.add_sub_cancel, sum_range_succ]; push_cast; ring

theorem lrS_eq (x : Nat → R) (q j : Nat) :
    lrS x (q + 1) j = (∑ k ∈ range q, ((k + 1 : Nat) : R) * x (j + k), ∑ k ∈ range q, x (j + k)) := by
  induction j with
  | zero => rw [lrS, trXY_eq]; simp
  | succ j ih =>
    have e1 : ∑ k ∈ range q, x (j + 1 + k) = ∑ k ∈ range (q + 1), x (j + k) - x j := by
      rw [sum_range_succ' (fun k => x (j + k))]
      simp [add_comm, add_left_comm]
    have e2 : ∑ k ∈ range q, ((k + 1 : Nat) : R) * x (j + 1 + k) =
        ∑ k ∈ range (q + 1), ((k + 1 : Nat) : R) * x (j + k) - ∑ k ∈ range (q + 1), x (j + k) := by
      rw [← sum_sub_distrib, sum_range_succ' (fun k => ((k + 1 : Nat) : R) * x (j + k) - x (j + k))]
      simp only [Nat.cast_add, Nat.cast_one, Nat.cast_zero]
      rw [show (0 + 1 : R) * x (j + 0) - x (j + 0) = 0 by ring, add_zero]
      refine sum_congr rfl fun k _ => ?_
      rw [show j + (k + 1) = j + 1 + k by omega]; ring
    simp only [lrS, ih, e1, e2, sum_range_succ, show j + (q + 1) - 1 = j + q by omega]
    ext
    · push_cast; ring
    · simp

theorem lrY_eq (x : Nat → R) (p j : Nat) (hp : 1 ≤ p) : lrY x p j = ∑ k ∈ range p, x (j + k) := by
  obtain ⟨q, rfl⟩ : ∃ q, p = q + 1 := ⟨p - 1, by omega⟩
  rw [lrY, lrS_eq, sum_range_succ]; rfl

theorem lrXY_eq (x : Nat → R) (p j : Nat) (hp : 1 ≤ p) : lrXY x p j = ∑ k ∈ range p, ((k + 1 : Nat) : R) * x (j + k) := by
  obtain ⟨q, rfl⟩ : ∃ q, p = q + 1 := ⟨p - 1, by omega⟩
  rw [lrXY, lrS_eq, sum_range_succ, show j + (q + 1) - 1 = j + q by omega]; push_cast; ring

theorem lrD_pos (p : Nat) (hp : 2 ≤ p) : 0 < (p : R) * lrX2 p - lrX p * lrX p := by
  have h1 : ∀ k : Nat, ∑ i ∈ range k, ((i + 1 : Nat) : R) = (k : R) * (k + 1) / 2 := by
    intro k
    induction k with
    | zero => simp
    | succ k ih => rw [sum_range_succ, ih]; push_cast; ring
  have h2 : ∀ k : Nat, ∑ i ∈ range k, ((i + 1 : Nat) : R) ^ 2 = (k : R) * (k + 1) * (2 * k + 1) / 6 := by
    intro k
    induction k with
    | zero => simp
    | succ k ih => rw [sum_range_succ, ih]; push_cast; ring
  rw [lrX_eq p (by omega), lrX2_eq p (by omega), h1, h2]
  have hp' : (2 : R) ≤ p := by exact_mod_cast hp
  have : (p : R) * (p * (p + 1) * (2 * p + 1) / 6) - p * (p + 1) / 2 * (p * (p + 1) / 2) = p * p * ((p - 1) * (p + 1)) / 12 := by
    ring
  rw [this]
  have : (0 : R) < p - 1 := by linarith
  have : (0 : R) < p := by linarith
  positivity

/-- The residuals of the computed line are orthogonal to constants and to time. -/
theorem lr_normal (x : Nat → R) (p j : Nat) (hp : 2 ≤ p) :
    ∑ k ∈ range p, (x (j + k) - (lrA x p j + lrB x p j * ((k + 1 : Nat) : R))) = 0 ∧
    ∑ k ∈ range p, (x (j + k) - (lrA x p j + lrB x p j * ((k + 1 : Nat) : R))) * ((k + 1 : Nat) : R) = 0 := by
  have hD := (lrD_pos (R := R) p hp).ne'
  have hp0 : (p : R) ≠ 0 := by exact_mod_cast (show p ≠ 0 by omega)
  have e1 : ∑ k ∈ range p, (x (j + k) - (lrA x p j + lrB x p j * ((k + 1 : Nat) : R))) =
      lrY x p j - (p * lrA x p j + lrB x p j * lrX p) := by
    rw [sum_sub_distrib, sum_add_distrib, ← mul_sum, lrY_eq x p j (by omega), lrX_eq p (by omega)]; simp
  have e2 : ∑ k ∈ range p, (x (j + k) - (lrA x p j + lrB x p j * ((k + 1 : Nat) : R))) * ((k + 1 : Nat) : R) =
      lrXY x p j - (lrA x p j * lrX p + lrB x p j * lrX2 p) := by
    rw [lrXY_eq x p j (by omega), lrX_eq p (by omega), lrX2_eq p (by omega), mul_sum, mul_sum, ← sum_add_distrib,
      ← sum_sub_distrib]
    refine sum_congr rfl fun k _ => by ring
  rw [e1, e2]
  have ea : (p : R) * lrA x p j = lrY x p j - lrB x p j * lrX p := by
    simp only [lrA, Int.cast_one, Int.cast_natCast]; field_simp
  have eb : lrB x p j * ((p : R) * lrX2 p - lrX p * lrX p) = p * lrXY x p j - lrX p * lrY x p j := by
    simp only [lrB, lrBd, Int.cast_one, Int.cast_natCast]; rw [mul_assoc, one_div, inv_mul_cancel₀ hD, mul_one]
  refine ⟨by rw [ea]; ring, ?_⟩
  have : (p : R) * (lrXY x p j - (lrA x p j * lrX p + lrB x p j * lrX2 p)) = 0 := by
    linear_combination -(lrX p) * ea - eb
  exact (mul_eq_zero.1 this).resolve_left hp0

/-- Any line errs by what the computed one does plus what separates the two. -/
theorem sqErr_split (x : Nat → R) (p j : Nat) (hp : 2 ≤ p) (a b : R) :
    sqErr p x j a b = sqErr p x j (lrA x p j) (lrB x p j) +
      ∑ k ∈ range p, ((lrA x p j - a) + (lrB x p j - b) * ((k + 1 : Nat) : R)) ^ 2 := by
  obtain ⟨h1, h2⟩ := lr_normal x p j hp
  have : ∀ k, (x (j + k) - (a + b * ((k + 1 : Nat) : R))) ^ 2 =
      (x (j + k) - (lrA x p j + lrB x p j * ((k + 1 : Nat) : R))) ^ 2 +
      ((lrA x p j - a) + (lrB x p j - b) * ((k + 1 : Nat) : R)) ^ 2 +
      (2 * (lrA x p j - a) * (x (j + k) - (lrA x p j + lrB x p j * ((k + 1 : Nat) : R))) +
       2 * (lrB x p j - b) * ((x (j + k) - (lrA x p j + lrB x p j * ((k + 1 : Nat) : R))) * ((k + 1 : Nat) : R))) := by
    intro k; ring
  unfold sqErr
  rw [sum_congr rfl fun k _ => this k, sum_add_distrib, sum_add_distrib, sum_add_distrib, ← mul_sum, ← mul_sum, h1, h2]
  ring

theorem lr_best (x : Nat → R) (p j : Nat) (hp : 2 ≤ p) : IsBestLine p x j (lrA x p j) (lrB x p j) := by
  intro a b
  rw [sqErr_split x p j hp a b]
  exact le_add_of_nonneg_right (sum_nonneg fun _ _ => sq_nonneg _)

theorem lr_unique (x : Nat → R) (p j : Nat) (hp : 2 ≤ p) (a b : R) (h : IsBestLine p x j a b) :
    a = lrA x p j ∧ b = lrB x p j := by
  have h0 := h (lrA x p j) (lrB x p j)
  rw [sqErr_split x p j hp a b] at h0
  have hs := sum_nonneg (s := range p) (f := fun k => ((lrA x p j - a) + (lrB x p j - b) * ((k + 1 : Nat) : R)) ^ 2)
    (fun _ _ => sq_nonneg _)
  have h1 := (sum_eq_zero_iff_of_nonneg (fun k _ => sq_nonneg _)).1 (le_antisymm (by linarith) hs)
  have e0 := h1 0 (mem_range.2 (by omega))
  have e1 := h1 1 (mem_range.2 (by omega))
  have e0 := pow_eq_zero_iff (two_ne_zero) |>.1 e0
  have e1 := pow_eq_zero_iff (two_ne_zero) |>.1 e1
  push_cast at e0 e1
  constructor <;> linarith

/-- From period 2 on a window has exactly one least squares line. -/
theorem best_line_exists_unique (x : Nat → R) (p j : Nat) (hp : 2 ≤ p) :
    ∃! ab : R × R, IsBestLine p x j ab.1 ab.2 :=
  ⟨(lrA x p j, lrB x p j), lr_best x p j hp, fun ab h => by
    obtain ⟨h1, h2⟩ := lr_unique x p j hp _ _ h
    exact Prod.ext h1 h2⟩

/-- linreg: the least squares line at the newest bar. -/
theorem linreg_value_partial (o : Nat → R) (p : Nat) (hc : toInt (o 0) = .ok (p : Int)) (hp : 2 ≤ p)
    (hpp : p * p ≤ 2147483647) : ∃ a b : (Nat → R) → Nat → R, (∀ x j, IsBestLine p x j (a x j) (b x j)) ∧
      Computes linregBatch o (p - 1) (fun x j => a x j + b x j * (p : R)) :=
  ⟨fun x => lrA x p, fun x => lrB x p, fun x j => lr_best x p j hp,
    (trend_run o p hc (by omega) hpp _ p rfl).congr fun x j => by push_cast; rfl⟩

/-- linregintercept: the least squares line at the oldest bar of the window. -/
theorem linregintercept_value_partial (o : Nat → R) (p : Nat) (hc : toInt (o 0) = .ok (p : Int)) (hp : 2 ≤ p)
    (hpp : p * p ≤ 2147483647) : ∃ a b : (Nat → R) → Nat → R, (∀ x j, IsBestLine p x j (a x j) (b x j)) ∧
      Computes linreginterceptBatch o (p - 1) (fun x j => a x j + b x j) :=
  ⟨fun x => lrA x p, fun x => lrB x p, fun x j => lr_best x p j hp,
    (trend_run o p hc (by omega) hpp _ 1 rfl).congr fun x j => by push_cast; ring⟩

/-- linregslope: the slope of the least squares line. -/
theorem linregslope_value_partial (o : Nat → R) (p : Nat) (hc : toInt (o 0) = .ok (p : Int)) (hp : 2 ≤ p)
    (hpp : p * p ≤ 2147483647) : ∃ a b : (Nat → R) → Nat → R, (∀ x j, IsBestLine p x j (a x j) (b x j)) ∧
      Computes linregslopeBatch o (p - 1) (fun x j => b x j) :=
  ⟨fun x => lrA x p, fun x => lrB x p, fun x j => lr_best x p j hp, linregslope_run o p hc (by omega) hpp⟩

/-- tsf: the least squares line one bar ahead. -/
theorem tsf_value_partial (o : Nat → R) (p : Nat) (hc : toInt (o 0) = .ok (p : Int)) (hp : 2 ≤ p)
    (hpp : p * p ≤ 2147483647) : ∃ a b : (Nat → R) → Nat → R, (∀ x j, IsBestLine p x j (a x j) (b x j)) ∧
      Computes tsfBatch o (p - 1) (fun x j => a x j + b x j * ((p : R) + 1)) :=
  ⟨fun x => lrA x p, fun x => lrB x p, fun x j => lr_best x p j hp,
    (trend_run o p hc (by omega) hpp (fun q => i32 (q + 1)) ((p : Int) + 1) (tsf_fc hpp)).congr fun x j => by push_cast; rfl⟩

/-- fosc: how far, in percent of itself, a bar lies above the forecast made from the `period` bars before it. -/
theorem fosc_value_partial (o : Nat → R) (p : Nat) (hc : toInt (o 0) = .ok (p : Int)) (hp : 2 ≤ p)
    (hpp : p * p ≤ 2147483647) : ∃ a b : (Nat → R) → Nat → R, (∀ x j, IsBestLine p x j (a x j) (b x j)) ∧
      Computes foscBatch o p (fun x j => 100 * (x (j + p) - (a x j + b x j * ((p : R) + 1))) / x (j + p)) :=
  ⟨fun x => lrA x p, fun x => lrB x p, fun x j => lr_best x p j hp,
    (fosc_run o p hc (by omega) hpp).congr fun x j => by
      simp only [foscOut, foscT]
      push_cast
      by_cases h : x (j + p) - (lrA x p j + lrB x p j * ((p : R) + 1)) = 0
      · simp [h]
      · rw [if_neg (by simpa using h)]⟩

/-- A line is its own least squares line. -/
theorem linear_best (p : Nat) (c d : R) (x : Nat → R) (hx : ∀ k, x k = c + d * (k : R)) (j : Nat) :
    IsBestLine p x j (c + d * ((j : R) - 1)) d := by
  intro a b
  have : sqErr p x j (c + d * ((j : R) - 1)) d = 0 := by
    unfold sqErr
    refine sum_eq_zero fun k _ => ?_
    rw [hx]; push_cast; ring
  rw [this]
  exact sum_nonneg fun _ _ => sq_nonneg _

/-- On a straight line linreg returns the input, tsf the next input, linregslope the slope, linregintercept the oldest
input of the window. -/
theorem linreg_linear_partial (o : Nat → R) (p : Nat) (hc : toInt (o 0) = .ok (p : Int)) (hp : 2 ≤ p)
    (hpp : p * p ≤ 2147483647) (c d : R) (x : Nat → R) (hx : ∀ k, x k = c + d * (k : R)) (N : Nat) :
    linregBatch o (pre x N) = .ok (.okay, pre (fun j => x (j + p - 1)) (N - (p - 1))) ∧
    tsfBatch o (pre x N) = .ok (.okay, pre (fun j => x (j + p)) (N - (p - 1))) ∧
    linregslopeBatch o (pre x N) = .ok (.okay, pre (fun _ => d) (N - (p - 1))) ∧
    linreginterceptBatch o (pre x N) = .ok (.okay, pre (fun j => x j) (N - (p - 1))) := by
  have hb := fun j => lr_unique x p j hp _ _ (linear_best p c d x hx j)
  refine ⟨?_, ?_, ?_, ?_⟩
  · obtain ⟨a, b, h, hC⟩ := linreg_value_partial o p hc hp hpp
    rw [hC x N]
    congr 3; funext j; beta_reduce
    obtain ⟨h1, h2⟩ := lr_unique x p j hp _ _ (h x j)
    rw [h1, h2, ← (hb j).1, ← (hb j).2, hx]
    rw [Nat.cast_sub (by omega)]; push_cast; ring
  · obtain ⟨a, b, h, hC⟩ := tsf_value_partial o p hc hp hpp
    rw [hC x N]
    congr 3; funext j; beta_reduce
    obtain ⟨h1, h2⟩ := lr_unique x p j hp _ _ (h x j)
    rw [h1, h2, ← (hb j).1, ← (hb j).2, hx]
    push_cast; ring
  · obtain ⟨a, b, h, hC⟩ := linregslope_value_partial o p hc hp hpp
    rw [hC x N]
    congr 3; funext j; beta_reduce
    obtain ⟨h1, h2⟩ := lr_unique x p j hp _ _ (h x j)
    rw [h2, ← (hb j).2]
  · obtain ⟨a, b, h, hC⟩ := linregintercept_value_partial o p hc hp hpp
    rw [hC x N]
    congr 3; funext j; beta_reduce
    obtain ⟨h1, h2⟩ := lr_unique x p j hp _ _ (h x j)
    rw [h1, h2, ← (hb j).1, ← (hb j).2, hx]
    ring

/-- On a straight line fosc is 0. -/
theorem fosc_linear_partial (o : Nat → R) (p : Nat) (hc : toInt (o 0) = .ok (p : Int)) (hp : 2 ≤ p)
    (hpp : p * p ≤ 2147483647) (c d : R) (x : Nat → R) (hx : ∀ k, x k = c + d * (k : R)) (N : Nat) :
    foscBatch o (pre x N) = .ok (.okay, pre (fun _ => 0) (N - p)) := by
  obtain ⟨a, b, h, hC⟩ := fosc_value_partial o p hc hp hpp
  rw [hC x N]
  congr 3; funext j; beta_reduce
  obtain ⟨h1, h2⟩ := lr_unique x p j hp _ _ (h x j)
  have hb := lr_unique x p j hp _ _ (linear_best p c d x hx j)
  rw [h1, h2, ← hb.1, ← hb.2, hx]
  push_cast; ring

end Field

/- Concrete runs and instances of the hypotheses. -/
example : toInt (opts [3] 0) = .ok ((3 : Nat) : Int) ∧ 3 * 3 ≤ 2147483647 := by decide +kernel
example : linregBatch (opts [3]) [1, 2, 6, 4] = .ok (.okay, [11/2, 5]) := by decide +kernel
example : linregslopeBatch (opts [3]) [1, 2, 6, 4] = .ok (.okay, [5/2, 1]) := by decide +kernel
example : linreginterceptBatch (opts [3]) [1, 2, 6, 4] = .ok (.okay, [1/2, 3]) := by decide +kernel
example : tsfBatch (opts [3]) [1, 2, 6, 4] = .ok (.okay, [8, 6]) := by decide +kernel
example : foscBatch (opts [3]) [1, 2, 6, 4, 8] = .ok (.okay, [-100, 25]) := by decide +kernel
example : toInt (opts [46341] 0) = .ok ((46341 : Nat) : Int) ∧ 2147483647 < 46341 * 46341 := by decide +kernel

end Verif
