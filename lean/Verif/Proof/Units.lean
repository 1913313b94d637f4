/- Sliding windows, exponential averages and the other specifications under a change of units. -/
import Verif.Spec.Units
import Verif.Spec.Contract
import Verif.Spec.Volume
import Verif.Spec.Direction
import Verif.Spec.Osc
import Verif.Spec.Weighted
import Verif.Spec.Smooth
import Verif.Spec.Adaptive
import Verif.Spec.Average
import Verif.Spec.Chan
import Verif.Spec.Cycle
import Verif.Spec.Fractal
import Verif.Spec.Hampel
import Verif.Spec.Filters
import Verif.Spec.Regress
import Verif.Spec.Trail
import Verif.Core.StreamLemmas
import Mathlib.Algebra.Order.BigOperators.Group.Finset
import Mathlib.Algebra.BigOperators.Ring.Finset
import Mathlib.Algebra.BigOperators.Field
import Mathlib.Algebra.Order.Field.Basic
import Mathlib.Tactic.Linarith
import Mathlib.Tactic.Ring
import Mathlib.Tactic.FieldSimp
import Mathlib.Tactic.LinearCombination
import Mathlib.Tactic.Positivity
import Mathlib.Tactic.IntervalCases

namespace Verif.Units
open Spec Finset
open Spec (ema wilder)
set_option linter.unusedSectionVars false

section Turns
variable {R ρ ω : Type}

/-- From the values to the calls. -/
theorem turns {batch : (Nat → R) → List ρ → M (Ret × List ω)} {o : Nat → R} {s : Nat} [Inhabited ρ] {P : List ρ → Prop} {f : ρ → ρ} {g : ω → ω}
    (h : ∀ x : Nat → ρ, ∀ N, P (pre x N) → ∃ y z : Nat → ω, batch o (pre x N) = .ok (.okay, pre y (N - s)) ∧
      batch o (pre (fun i => f (x i)) N) = .ok (.okay, pre z (N - s)) ∧ ∀ j, j < N - s → z j = g (y j)) : Turns batch o P f g := fun xs hP => by
  obtain ⟨x, e⟩ := exists_pre xs
  rw [e] at hP ⊢
  obtain ⟨y, z, h1, h2, h3⟩ := h x _ hP
  refine ⟨_, h1, ?_⟩
  have e1 : (pre x xs.length).map f = pre (fun i => f (x i)) xs.length := by simp [pre, Function.comp_def]
  have e2 : (pre y (xs.length - s)).map g = pre z (xs.length - s) := by
    simp only [pre, List.map_map]
    exact List.map_congr_left fun j hj => (h3 j (List.mem_range.1 hj)).symm
  rw [e1, e2, h2]

theorem ofVal {batch : (Nat → R) → List ρ → M (Ret × List ω)} {o : Nat → R} {s : Nat} [Inhabited ρ] {f : ρ → ρ} {g : ω → ω}
    {val : (Nat → ρ) → Nat → ω} (hc : Computes batch o s val) (h : ∀ x j, val (fun i => f (x i)) j = g (val x j)) :
    Turns batch o (fun _ => True) f g :=
  turns fun x N _ => ⟨val x, val _, hc x N, hc _ N, fun j _ => h x j⟩

end Turns

variable {R : Type} [Field R] [LinearOrder R] [IsStrictOrderedRing R]
variable {c a : R} {x x' y y' : Nat → R}

/-! ### Sliding windows -/
theorem winSum_aff (h : ∀ i, x' i = c * x i + a) (p j : Nat) : winSum p x' j = c * winSum p x j + p * a := by
  simp [winSum, h, sum_add_distrib, mul_sum]
theorem winSum_mul (h : ∀ i, x' i = c * x i) (p j : Nat) : winSum p x' j = c * winSum p x j := by
  simp [winSum, h, mul_sum]
theorem winMean_mul (h : ∀ i, x' i = c * x i) (p j : Nat) : winMean p x' j = c * winMean p x j := by
  rw [winMean, winSum_mul h, winMean, mul_div_assoc]
theorem winMean_aff (h : ∀ i, x' i = c * x i + a) {p : Nat} (hp : 1 ≤ p) (j : Nat) : winMean p x' j = c * winMean p x j + a := by
  have : (p : R) ≠ 0 := by positivity
  rw [winMean, winSum_aff h, winMean]; field_simp
theorem winMax_aff (hc : 0 < c) (h : ∀ i, x' i = c * x i + a) (p j : Nat) : winMax p x' j = c * winMax p x j + a := by
  unfold winMax
  refine le_antisymm (sup'_le _ _ fun k hk => ?_) ?_
  · rw [h]
    have := le_sup' (fun k => x (j + k)) hk
    nlinarith
  · obtain ⟨k, hk, e⟩ := exists_mem_eq_sup' (s := Finset.range (p - 1 + 1)) ⟨0, by simp⟩ fun k => x (j + k)
    rw [e, ← h]
    exact le_sup' (fun k => x' (j + k)) hk
theorem winMin_aff (hc : 0 < c) (h : ∀ i, x' i = c * x i + a) (p j : Nat) : winMin p x' j = c * winMin p x j + a := by
  unfold winMin
  refine le_antisymm ?_ (le_inf' _ _ fun k hk => ?_)
  · obtain ⟨k, hk, e⟩ := exists_mem_eq_inf' (s := Finset.range (p - 1 + 1)) ⟨0, by simp⟩ fun k => x (j + k)
    rw [e, ← h]
    exact inf'_le (fun k => x' (j + k)) hk
  · rw [h]
    have := inf'_le (fun k => x (j + k)) hk
    nlinarith
theorem winMax_mul (hc : 0 < c) (h : ∀ i, x' i = c * x i) (p j : Nat) : winMax p x' j = c * winMax p x j := by
  simpa using winMax_aff (a := 0) hc (by simpa using h) p j
theorem winMin_mul (hc : 0 < c) (h : ∀ i, x' i = c * x i) (p j : Nat) : winMin p x' j = c * winMin p x j := by
  simpa using winMin_aff (a := 0) hc (by simpa using h) p j
theorem winVar_aff (h : ∀ i, x' i = c * x i + a) {p : Nat} (hp : 1 ≤ p) (j : Nat) : winVar p x' j = c ^ 2 * winVar p x j := by
  rw [winVar, winVar, ← mul_div_assoc, mul_sum]
  congr 1
  refine sum_congr rfl fun k _ => ?_
  rw [h, winMean_aff h hp]; ring
theorem winMeanDev_aff (hc : 0 < c) (h : ∀ i, x' i = c * x i + a) {p : Nat} (hp : 1 ≤ p) (j : Nat) :
    winMeanDev p x' j = c * winMeanDev p x j := by
  rw [winMeanDev, winMeanDev, ← mul_div_assoc, mul_sum]
  congr 1
  refine sum_congr rfl fun k _ => ?_
  rw [h, winMean_aff h hp, ← abs_of_pos hc, ← abs_mul, abs_of_pos hc]; ring_nf

/-! ### Exponential averages -/
theorem ema_aff {k : R} (h : ∀ i, x' i = c * x i + a) (n : Nat) : ema k x' n = c * ema k x n + a := by
  induction n with
  | zero => exact h 0
  | succ n ih => rw [ema, ema, ih, h]; ring
theorem ema_mul {k : R} (h : ∀ i, x' i = c * x i) (n : Nat) : ema k x' n = c * ema k x n := by
  simpa using ema_aff (a := 0) (k := k) (by simpa using h) n
theorem ema_same {k : R} (h : ∀ i, x' i = x i) (n : Nat) : ema k x' n = ema k x n := by rw [funext h]
theorem wilder_aff (h : ∀ i, x' i = c * x i + a) {p : Nat} (hp : 1 ≤ p) (n : Nat) : wilder p x' n = c * wilder p x n + a := by
  refine ema_aff (fun i => ?_) n
  split
  · exact winMean_aff h hp 0
  · exact h _
theorem wilder_mul (h : ∀ i, x' i = c * x i) (p n : Nat) : wilder p x' n = c * wilder p x n := by
  refine ema_mul (fun i => ?_) n
  split
  · exact winMean_mul h p 0
  · exact h _
theorem wilderSum_mul (h : ∀ i, x' i = c * x i) (p n : Nat) : wilderSum p x' n = c * wilderSum p x n := by
  induction n with
  | zero => simp [wilderSum, h, mul_sum]
  | succ n ih => rw [wilderSum, wilderSum, ih, h]; ring

/-! ### Moves and ranges -/
theorem max_aff (hc : 0 < c) (u v : R) : max (c * u + a) (c * v + a) = c * max u v + a := by
  rcases le_total u v with h | h
  · rw [max_eq_right h, max_eq_right (by nlinarith)]
  · rw [max_eq_left h, max_eq_left (by nlinarith)]
theorem min_aff (hc : 0 < c) (u v : R) : min (c * u + a) (c * v + a) = c * min u v + a := by
  rcases le_total u v with h | h
  · rw [min_eq_left h, min_eq_left (by nlinarith)]
  · rw [min_eq_right h, min_eq_right (by nlinarith)]
theorem max_mul (hc : 0 < c) (u v : R) : max (c * u) (c * v) = c * max u v := by simpa using max_aff (a := 0) hc u v
theorem min_mul (hc : 0 < c) (u v : R) : min (c * u) (c * v) = c * min u v := by simpa using min_aff (a := 0) hc u v
theorem abs_aff (hc : 0 < c) {d e : R} (h : d = c * e) : |d| = c * |e| := by rw [h, abs_mul, abs_of_pos hc]
theorem gain_aff (hc : 0 < c) (h : ∀ i, x' i = c * x i + a) (k : Nat) : gain x' k = c * gain x k := by
  rw [gain, gain, h, h, ← max_mul hc]; ring_nf
theorem loss_aff (hc : 0 < c) (h : ∀ i, x' i = c * x i + a) (k : Nat) : loss x' k = c * loss x k := by
  rw [loss, loss, h, h, ← max_mul hc]; ring_nf
theorem lt_aff (hc : 0 < c) (u v : R) : c * u + a < c * v + a ↔ u < v := by
  rw [add_lt_add_iff_right, mul_lt_mul_iff_right₀ hc]
theorem le_aff (hc : 0 < c) (u v : R) : c * u + a ≤ c * v + a ↔ u ≤ v := by
  rw [add_le_add_iff_right, mul_le_mul_iff_right₀ hc]
theorem eq_aff (hc : 0 < c) (u v : R) : c * u + a = c * v + a ↔ u = v := by
  rw [add_left_inj, mul_right_inj' hc.ne']
theorem zero_mul_iff (hc : 0 < c) (u : R) : c * u = 0 ↔ u = 0 := by simp [hc.ne']
theorem quot (hc : 0 < c) (u v : R) : c * u / (c * v) = u / v := mul_div_mul_left _ _ hc.ne'

theorem sub_aff (u v : R) : c * u + a - (c * v + a) = c * (u - v) := by ring
theorem abs_mulc (hc : 0 < c) (u : R) : |c * u| = c * |u| := by rw [abs_mul, abs_of_pos hc]
theorem abs_sub_aff (hc : 0 < c) (u v : R) : |c * u + a - (c * v + a)| = c * |u - v| := abs_aff hc (sub_aff u v)

theorem trueRange_aff (hc : 0 < c) (z : Nat → HLC R) (i : Nat) :
    Spec.trueRange (fun i => prices (fun v => c * v + a) (z i)) i = c * Spec.trueRange z i := by
  unfold Spec.trueRange
  split
  · simp only [prices]; ring
  · simp only [prices, sub_aff, abs_mulc hc, max_mul hc]

/-! ### Weighted averages -/
theorem wsum_aff {w : Nat → R} (h : ∀ i, x' i = c * x i + a) (s : Finset Nat) (f : Nat → Nat) (hw : ∑ k ∈ s, w k ≠ 0) :
    (∑ k ∈ s, w k * x' (f k)) / ∑ k ∈ s, w k = c * ((∑ k ∈ s, w k * x (f k)) / ∑ k ∈ s, w k) + a := by
  have : ∑ k ∈ s, w k * x' (f k) = c * (∑ k ∈ s, w k * x (f k)) + a * ∑ k ∈ s, w k := by
    rw [mul_sum, mul_sum, ← sum_add_distrib]
    exact sum_congr rfl fun k _ => by rw [h]; ring
  rw [this]; field_simp
theorem sum_pos' {w : Nat → R} {p : Nat} (hp : 1 ≤ p) (h : ∀ k, k < p → 0 < w k) : 0 < ∑ k ∈ Finset.range p, w k :=
  sum_pos (fun k hk => h k (mem_range.1 hk)) ⟨0, mem_range.2 hp⟩
theorem wma_aff (h : ∀ i, x' i = c * x i + a) {p : Nat} (hp : 1 ≤ p) (j : Nat) : wma p x' j = c * wma p x j + a :=
  wsum_aff h _ (j + ·) (sum_pos' hp fun k _ => by positivity).ne'
theorem trima_aff (h : ∀ i, x' i = c * x i + a) {p : Nat} (hp : 1 ≤ p) (j : Nat) : trima p x' j = c * trima p x j + a :=
  wsum_aff h _ (j + ·) (sum_pos' hp fun k hk => by
    have : 0 < triWeight p k := by unfold triWeight; omega
    exact_mod_cast this).ne'
theorem sharpMean_aff (h : ∀ i, x' i = c * x i + a) {p : Nat} (hp : 1 ≤ p) (j : Nat) : sharpMean p x' j = c * sharpMean p x j + a := by
  have e : ∀ n : Nat, ∑ k ∈ Finset.range n, (k : R) = n * (n - 1) / 2 := fun n => by
    induction n with
    | zero => simp
    | succ n ih => rw [sum_range_succ, ih]; push_cast; ring
  have e0 : ∑ k ∈ Finset.range p, ((k : R) - ((p : R) - 1) / 2) = 0 := by
    rw [sum_sub_distrib, e, sum_const, card_range, nsmul_eq_mul]; ring
  have e1 : ∑ k ∈ Finset.range p, ((k : R) - ((p : R) - 1) / 2) * x' (j + k) = c * ∑ k ∈ Finset.range p, ((k : R) - ((p : R) - 1) / 2) * x (j + k) := by
    rw [← add_zero (c * _), ← mul_zero a, ← e0, mul_sum, mul_sum, ← sum_add_distrib]
    exact sum_congr rfl fun k _ => by rw [h]; ring
  rw [sharpMean, sharpMean, e1, winMean_aff h hp]; ring
theorem gdema_aff {k v : R} (h : ∀ i, x' i = c * x i + a) (n : Nat) : gdema k v x' n = c * gdema k v x n + a := by
  rw [gdema, gdema, ema_aff h, ema_aff (ema_aff h)]; ring
theorem effRatio_aff (hc : 0 < c) (h : ∀ i, x' i = c * x i + a) (p j : Nat) : effRatio p x' j = effRatio p x j := by
  simp only [effRatio, h, abs_sub_aff hc, ← mul_sum, zero_mul_iff hc, quot hc]
theorem kama_aff (hc : 0 < c) (h : ∀ i, x' i = c * x i + a) {p : Nat} (n : Nat) : kama p x' n = c * kama p x n + a := by
  induction n with
  | zero => exact h _
  | succ n ih => rw [kama, kama, ih, effRatio_aff hc h, h]; ring
theorem henderson_aff (h : ∀ i, x' i = c * x i + a) {p : Nat} (h7 : 7 ≤ p) (h13 : p ≤ 13) (j : Nat) : henderson p x' j = c * henderson p x j + a := by
  have e0 : ∑ j ∈ Finset.range p, (((hendersonWeights p).getD j 0 : Int) : R) / 1000 = 1 := by
    rw [← sum_div, ← Int.cast_sum]
    have : ∑ j ∈ Finset.range p, (hendersonWeights p).getD j 0 = 1000 := by interval_cases p <;> rfl
    rw [this]; norm_num
  rw [henderson, henderson, ← mul_one a, ← e0, mul_sum, mul_sum, ← sum_add_distrib]
  exact sum_congr rfl fun k _ => by rw [h]; ring
theorem distWeight_mul (h : ∀ i, x' i = c * x i) (p t : Nat) : distWeight p x' t = c ^ 2 * distWeight p x t := by
  rw [distWeight, distWeight, mul_sum]
  exact sum_congr rfl fun k _ => by rw [h, h]; ring
theorem distFilter_mul (hc : 0 < c) (h : ∀ i, x' i = c * x i) (p t : Nat) : distFilter p x' t = c * distFilter p x t := by
  simp only [distFilter, distWeight_mul h, ← mul_sum, zero_mul_iff (pow_pos hc 2), h]
  split
  · simp
  · rw [show ∑ k ∈ Finset.range p, c ^ 2 * distWeight p x (t - k) * (c * x (t - k)) = c ^ 2 * (c * ∑ k ∈ Finset.range p, distWeight p x (t - k) * x (t - k)) by
      simp only [mul_sum]; exact sum_congr rfl fun k _ => by ring, quot (pow_pos hc 2), mul_div_assoc]
theorem smooth2_mul {p q : R} (h : ∀ i, x' i = c * x i) (n : Nat) : smooth2 p q x' n = c * smooth2 p q x n := ema_mul (ema_mul h) n

/-! ### Recursive filters from zero -/
theorem dot_mul (b u : List R) : dot b (u.map (c * ·)) = c * dot b u := by
  unfold dot
  induction b generalizing u with
  | nil => simp
  | cons b bs ih => cases u with
    | nil => simp
    | cons v vs => simp only [List.map_cons, List.zipWith_cons_cons, List.sum_cons, ih]; ring
theorem past_mul (h : ∀ i, x' i = c * x i) (n : Nat) : past x' n = (past x n).map (c * ·) := by
  induction n with
  | zero => rfl
  | succ n ih => rw [past, past, ih, h]; rfl
theorem iirPast_mul {b k : List R} (h : ∀ i, x' i = c * x i) (n : Nat) : iirPast b k x' n = (iirPast b k x n).map (c * ·) := by
  induction n with
  | zero => rfl
  | succ n ih => rw [iirPast, iirPast, ih, past_mul h, dot_mul, dot_mul, List.map_cons, mul_add]
theorem iir_mul {b k : List R} (h : ∀ i, x' i = c * x i) (n : Nat) : iir b k x' n = c * iir b k x n := by
  rw [iir, iir, iirPast_mul h, past_mul h, dot_mul, dot_mul, mul_add]

/-! ### Standard deviations -/
theorem winVar_nonneg (p j : Nat) (x : Nat → R) : 0 ≤ winVar p x j := by
  unfold winVar; exact div_nonneg (sum_nonneg fun k _ => sq_nonneg _) (Nat.cast_nonneg _)
theorem sqrt_sq_mul [CMath R] [LawfulSqrt R] (hc : 0 ≤ c) {u : R} (hu : 0 ≤ u) : CMath.sqrt (c ^ 2 * u) = c * CMath.sqrt u := by
  have h0 : 0 ≤ c ^ 2 * u := by positivity
  have h1 := LawfulSqrt.sqrt_nonneg _ h0
  have h2 := LawfulSqrt.sqrt_nonneg _ hu
  have e1 := LawfulSqrt.sqrt_sq _ h0
  have e2 := LawfulSqrt.sqrt_sq _ hu
  have h3 : 0 ≤ c * CMath.sqrt u := mul_nonneg hc h2
  refine (mul_self_inj_of_nonneg h1 h3).1 ?_
  rw [e1]; linear_combination (-c ^ 2) * e2
theorem sd_aff [CMath R] [LawfulSqrt R] (hc : 0 < c) (h : ∀ i, x' i = c * x i + a) {p : Nat} (hp : 1 ≤ p) (j : Nat) :
    CMath.sqrt (winVar p x' j) = c * CMath.sqrt (winVar p x j) := by
  rw [winVar_aff h hp, sqrt_sq_mul hc.le (winVar_nonneg p j x)]

end Verif.Units
