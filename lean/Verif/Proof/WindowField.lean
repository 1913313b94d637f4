/- wma, vwma, rsi, cmo, true range over a field (helper lemmas). -/
import Verif.Proof.Window
import Verif.Proof.EmaField
import Verif.Spec.Range
import Verif.Core.Laws
import Mathlib.Algebra.BigOperators.Ring.Finset

namespace Verif
set_option linter.unusedSectionVars false
open Spec Finset
variable {R : Type} [Field R] [LinearOrder R] [IsStrictOrderedRing R] [CMath R]

theorem wildersRec_eq (p : Nat) (x : Nat → R) (j : Nat) : wildersRec p x j = wilder p x j := by
  unfold wilder
  induction j with
  | zero => simp [wildersRec, Spec.ema, sumTo_eq, winMean, winSum]
  | succ j ih => rw [wildersRec, ih, Spec.ema]; simp; ring

theorem wilder_bounds (p : Nat) (hp : 1 ≤ p) (x : Nat → R) (j : Nat) (lo hi : R)
    (h : ∀ k, k < j + p → lo ≤ x k ∧ x k ≤ hi) : lo ≤ wilder p x j ∧ wilder p x j ≤ hi := by
  have h1 : (1 : R) ≤ p := by exact_mod_cast hp
  refine ema_bounds_aux (by positivity) (by rw [div_le_one (by linarith)]; exact h1) _ lo hi j ?_
  intro k hk
  rcases Nat.eq_zero_or_pos k with rfl | hk0
  · simpa using mean_bounds x p 0 hp lo hi (fun k _ hk2 => h k (by omega))
  · simpa [show k ≠ 0 by omega] using h (k - 1 + p) (by omega)

theorem wilder_nonneg (p : Nat) (hp : 1 ≤ p) (x : Nat → R) (j : Nat)
    (h : ∀ k, k < j + p → 0 ≤ x k) : 0 ≤ wilder p x j := by
  have h1 : (1 : R) ≤ p := by exact_mod_cast hp
  have ha : (0 : R) ≤ 1 / (p : R) := by positivity
  have hb : 1 / (p : R) ≤ 1 := by rw [div_le_one (by linarith)]; exact h1
  unfold wilder
  induction j with
  | zero =>
    simp only [Spec.ema, if_true]
    unfold winMean winSum
    exact div_nonneg (sum_nonneg fun k hk => h _ (by simp at hk; omega)) (by linarith)
  | succ j ih =>
    rw [Spec.ema]
    have hj := ih (fun k hk => h k (by omega))
    have hx := h (j + p) (by omega)
    simp only [Nat.add_eq_zero_iff, one_ne_zero, and_false, if_false, Nat.add_sub_cancel]
    nlinarith [mul_nonneg ha hx, mul_nonneg (sub_nonneg.2 hb) hj]

theorem upSig_eq (x : Nat → R) (k : Nat) : upSig x k = gain x k := by
  simp only [upSig, upward, gain]
  split
  · rename_i h; rw [max_eq_left]; linarith
  · rename_i h; rw [max_eq_right (by linarith [not_lt.1 h])]; simp
theorem downSig_eq (x : Nat → R) (k : Nat) : downSig x k = loss x k := by
  simp only [downSig, downward, loss]
  split
  · rename_i h; rw [max_eq_left]; linarith
  · rename_i h; rw [max_eq_right (by linarith [not_lt.1 h])]; simp

theorem gain_nonneg (x : Nat → R) (k : Nat) : 0 ≤ gain x k := le_max_right _ _
theorem loss_nonneg (x : Nat → R) (k : Nat) : 0 ≤ loss x k := le_max_right _ _

theorem trSig_eq [LawfulAbs R] (x : Nat → HLC R) (i : Nat) : trSig x i = Spec.trueRange x i := by
  cases i with
  | zero => rfl
  | succ i =>
    simp only [trSig, Verif.trueRange, Spec.trueRange, LawfulAbs.fabs_eq, Nat.add_eq_zero_iff, one_ne_zero,
      and_false, if_false, Nat.add_sub_cancel]
    rw [← max_assoc]
    have e : ∀ a b : R, (if a < b then b else a) = max a b := by
      intro a b; split
      · rename_i h; exact (max_eq_right h.le).symm
      · rename_i h; exact (max_eq_left (not_lt.1 h)).symm
    rw [e, e]

theorem trueRange_nonneg (x : Nat → HLC R) (i : Nat) (h : (x i).low ≤ (x i).high) : 0 ≤ Spec.trueRange x i := by
  unfold Spec.trueRange
  split
  · rename_i h0; subst h0; linarith
  · exact le_max_of_le_left (by linarith)

theorem winWSum_succ (p : Nat) (x : Nat → R) (j : Nat) :
    winWSum p x (j + 1) = winWSum p x j - winSum p x j + (p : R) * x (j + p) := by
  have h : ∀ m, winWSum m x (j + 1) = winWSum m x j - winSum m x j + (m : R) * x (j + m) := by
    intro m
    induction m with
    | zero => simp [winWSum, winSum]
    | succ m ih =>
      have e1 : winWSum (m + 1) x (j + 1) = winWSum m x (j + 1) + ((m + 1 : Nat) : R) * x (j + 1 + m) := by
        simp [winWSum, sum_range_succ]
      have e2 : winWSum (m + 1) x j = winWSum m x j + ((m + 1 : Nat) : R) * x (j + m) := by
        simp [winWSum, sum_range_succ]
      have e3 : winSum (m + 1) x j = winSum m x j + x (j + m) := by simp [winSum, sum_range_succ]
      rw [e1, e2, e3, ih, show j + 1 + m = j + (m + 1) by omega]; push_cast; ring
  exact h p

theorem wmaSt_warm (p : Nat) (x : Nat → R) (i : Nat) (hi : i ≤ p - 1) :
    wmaSt p x i = (winWSum i x 0, winSum i x 0) := by
  induction i with
  | zero => simp [wmaSt, winWSum, winSum]
  | succ i ih =>
    rw [wmaSt, if_pos (by omega), ih (by omega)]
    simp only [winWSum, winSum, sum_range_succ]
    simp; ring

theorem wmaSt_main (p : Nat) (x : Nat → R) (j : Nat) :
    wmaSt (p + 1) x (j + p) = (winWSum p x j, winSum p x j) := by
  induction j with
  | zero => simpa using wmaSt_warm (p + 1) x p (by omega)
  | succ j ih =>
    rw [show j + 1 + p = (j + p) + 1 by omega, wmaSt, if_neg (by omega), ih, winWSum_succ, winSum_succ]
    simp; ring

theorem weights_eq (p : Nat) : ((Int.tdiv (p * (p + 1)) 2 : Int) : R) = ∑ k ∈ range p, ((k + 1 : Nat) : R) := by
  have h : ∀ m : Nat, ((m * (m + 1) / 2 : Nat) : R) = ∑ k ∈ range m, ((k + 1 : Nat) : R) := by
    intro m
    induction m with
    | zero => simp
    | succ m ih =>
      rw [sum_range_succ, ← ih, ← Nat.cast_add]
      congr 1
      have : (m + 1) * (m + 1 + 1) = m * (m + 1) + (m + 1) * 2 := by ring
      rw [this, Nat.add_mul_div_right _ _ (by norm_num)]
  rw [← h p]
  have : Int.tdiv ((p : Int) * (p + 1)) 2 = ((p * (p + 1) / 2 : Nat) : Int) := by
    rw [Int.tdiv_eq_ediv_of_nonneg (by positivity)]; push_cast; rfl
  rw [this, Int.cast_natCast]

theorem wmaVal_eq (p : Nat) (hp : 1 ≤ p) (x : Nat → R) (j : Nat) :
    wmaVal p x j = winWSum p x j / ∑ k ∈ range p, ((k + 1 : Nat) : R) := by
  obtain ⟨q, rfl⟩ : ∃ q, p = q + 1 := ⟨p - 1, by omega⟩
  unfold wmaVal
  rw [weights_eq, Nat.add_sub_cancel, wmaSt_main]
  congr 1
  simp [winWSum, sum_range_succ]; ring

/-- A weighted mean with non-negative weights of positive total lies between the bounds of the values. -/
theorem wmean_bounds {n : Nat} (w x : Nat → R) (lo hi : R) (hw : ∀ k, k < n → 0 ≤ w k)
    (hs : 0 < ∑ k ∈ range n, w k) (h : ∀ k, k < n → lo ≤ x k ∧ x k ≤ hi) :
    lo ≤ (∑ k ∈ range n, w k * x k) / ∑ k ∈ range n, w k ∧
      (∑ k ∈ range n, w k * x k) / ∑ k ∈ range n, w k ≤ hi := by
  constructor
  · rw [le_div_iff₀ hs, mul_sum]
    exact sum_le_sum fun k hk => by
      have hk := mem_range.1 hk
      nlinarith [mul_nonneg (hw k hk) (sub_nonneg.2 (h k hk).1)]
  · rw [div_le_iff₀ hs, mul_sum]
    exact sum_le_sum fun k hk => by
      have hk := mem_range.1 hk
      nlinarith [mul_nonneg (hw k hk) (sub_nonneg.2 (h k hk).2)]

theorem atrSum_eq (x : Nat → HLC R) (n : Nat) : atrSum x n = ∑ k ∈ range n, trSig x k := by
  induction n with
  | zero => simp [atrSum]
  | succ n ih =>
    rw [atrSum, sum_range_succ, ← ih]
    split
    · rename_i h; subst h; simp [atrSum, trSig]
    · rfl

theorem atrVal_eq (p : Nat) (x : Nat → HLC R) (j : Nat) : atrVal p x j = wilder p (trSig x) j := by
  unfold wilder
  induction j with
  | zero => simp [atrVal, Spec.ema, atrSum_eq, winMean, winSum, div_eq_mul_inv]
  | succ j ih => rw [atrVal, ih, Spec.ema]; simp; ring

end Verif
