/-
C12 (ema), C13 (dema, tema, trix), C14 (wilders), C23 (apo, ppo, macd), zlema, rmta.
-/
import Verif.Proof.EmaField
import Verif.Core.RatInst

namespace Verif
open Spec

section Any
variable {R : Type} [Num R]

/-! ### Any arithmetic: contract and refusal -/

theorem ema_contract (o : Nat → R) (p : Nat) (hc : toInt (o 0) = .ok (p : Int)) (hp : 1 ≤ p) :
    Contract emaStart emaBatch o 0 := (ema_run o p hc hp).contract rfl
theorem ema_refuses (o : Nat → R) (p : Int) (hc : toInt (o 0) = .ok p) (hp : p < 1) :
    Refuses emaBatch o := by intro xs; simp [emaBatch, hc, hp]

/-- dema, all periods whose start index fits an `int`. -/
theorem dema_contract_partial (o : Nat → R) (p : Nat) (hc : toInt (o 0) = .ok (p : Int)) (hp : 1 ≤ p)
    (hb : (p - 1) * 2 ≤ 2147483647) : Contract demaStart demaBatch o ((p - 1) * 2) :=
  (dema_run o p hc hp hb).contract (demaStart_ok hc hp hb)
theorem dema_refuses (o : Nat → R) (p : Int) (hc : toInt (o 0) = .ok p) (hp : p < 1) :
    Refuses demaBatch o := by intro xs; simp [demaBatch, hc, hp]
/-- The other periods: the computation of the start index overflows. -/
theorem dema_overflow (o : Nat → R) (p : Int) (hc : toInt (o 0) = .ok p) (hp : 1073741824 < p) (xs : List R) :
    demaStart o = .error .intRange ∧ demaBatch o xs = .error .intRange := by
  have h : demaStart o = .error .intRange := by
    simp only [demaStart, hc, bind_ok, i32]; rw [if_neg (by omega)]
  refine ⟨h, ?_⟩
  simp only [demaBatch, hc, bind_ok, h]; rw [if_neg (by omega)]; rfl

theorem tema_contract_partial (o : Nat → R) (p : Nat) (hc : toInt (o 0) = .ok (p : Int)) (hp : 1 ≤ p)
    (hb : (p - 1) * 3 ≤ 2147483647) : Contract temaStart temaBatch o ((p - 1) * 3) :=
  (tema_run o p hc hp hb).contract (temaStart_ok hc hp hb)
theorem tema_refuses (o : Nat → R) (p : Int) (hc : toInt (o 0) = .ok p) (hp : p < 1) :
    Refuses temaBatch o := by intro xs; simp [temaBatch, hc, hp]
/-- For longer periods the computation of tema's start index overflows. -/
theorem tema_overflow (o : Nat → R) (p : Int) (hc : toInt (o 0) = .ok p) (hp : 715827883 < p) (xs : List R) :
    temaStart o = .error .intRange ∧ temaBatch o xs = .error .intRange := by
  have h : temaStart o = .error .intRange := by
    simp only [temaStart, hc, bind_ok, i32]; rw [if_neg (by omega)]
  refine ⟨h, ?_⟩
  simp only [temaBatch, hc, bind_ok, h]; rw [if_neg (by omega)]; rfl

theorem trix_contract_partial (o : Nat → R) (p : Nat) (hc : toInt (o 0) = .ok (p : Int)) (hp : 1 ≤ p)
    (hb : p * 3 ≤ 2147483647) : Contract trixStart trixBatch o (p * 3 - 2) :=
  (trix_run o p hc hp hb).contract (trixStart_ok hc hp hb)
theorem trix_refuses (o : Nat → R) (p : Int) (hc : toInt (o 0) = .ok p) (hp : p < 1) :
    Refuses trixBatch o := by intro xs; simp [trixBatch, hc, hp]

/-- zlema, periods 3 and up. -/
theorem zlema_contract_partial (o : Nat → R) (p : Nat) (hc : toInt (o 0) = .ok (p : Int)) (hp : 3 ≤ p) :
    Contract zlemaStart zlemaBatch o ((p - 1) / 2 - 1) :=
  (zlema_run o p hc hp).contract (by rw [zlemaStart_ok hc (by omega)]; congr 1; omega)
theorem zlema_refuses (o : Nat → R) (p : Int) (hc : toInt (o 0) = .ok p) (hp : p < 1)
    (hlo : -2147483648 < p) : Refuses zlemaBatch o := by
  intro xs
  simp only [zlemaBatch, hc, bind_ok]
  rw [i32_ok _ (by omega) (by omega)]
  simp [hp]
/-- zlema violates C32 for the accepted periods 1 and 2: whatever the input (even an empty one) it reads
`input[-1]`, and `ti_zlema_start` returns -1. -/
theorem zlema_violates (o : Nat → R) (p : Nat) (hc : toInt (o 0) = .ok (p : Int)) (hp : p = 1 ∨ p = 2)
    (xs : List R) : zlemaStart o = .ok (-1) ∧ zlemaBatch o xs = .error .oobRead := by
  have hs : zlemaStart o = .ok (-1) := by
    rw [zlemaStart_ok hc (by omega)]; rcases hp with rfl | rfl <;> rfl
  refine ⟨hs, ?_⟩
  have ht : Int.tdiv ((p : Int) - 1) 2 = 0 := by rcases hp with rfl | rfl <;> rfl
  simp only [zlemaBatch, hc, bind_ok]
  rw [i32_ok _ (by omega) (by omega)]
  simp only [bind_ok, hs, ht]
  rw [if_neg (by omega), if_neg (by omega), rd_oob _ _ (by omega)]
  rfl

theorem wilders_contract (o : Nat → R) (p : Nat) (hc : toInt (o 0) = .ok (p : Int)) (hp : 1 ≤ p) :
    Contract wildersStart wildersBatch o (p - 1) :=
  (wilders_run o p hc hp).contract (wildersStart_ok hc hp)
theorem wilders_refuses (o : Nat → R) (p : Int) (hc : toInt (o 0) = .ok p) (hp : p < 1) :
    Refuses wildersBatch o := by intro xs; simp [wildersBatch, hc, hp]

theorem apo_contract (o : Nat → R) (p q : Nat) (hc : toInt (o 0) = .ok (p : Int))
    (hc1 : toInt (o 1) = .ok (q : Int)) (hp : 1 ≤ p) (hq : 2 ≤ q) (hpq : p ≤ q) :
    Contract apoStart apoBatch o 1 := (apo_run o p q hc hc1 hp hq hpq).contract rfl
theorem apo_refuses (o : Nat → R) (p q : Int) (hc : toInt (o 0) = .ok p) (hc1 : toInt (o 1) = .ok q)
    (h : p < 1 ∨ q < 2 ∨ q < p) : Refuses apoBatch o := by
  intro xs
  simp only [apoBatch, hc, hc1, bind_ok, pure_eq]
  split; · rfl
  split; · rfl
  split; · rfl
  omega

theorem ppo_contract (o : Nat → R) (p q : Nat) (hc : toInt (o 0) = .ok (p : Int))
    (hc1 : toInt (o 1) = .ok (q : Int)) (hp : 1 ≤ p) (hq : 2 ≤ q) (hpq : p ≤ q) :
    Contract ppoStart ppoBatch o 1 := (ppo_run o p q hc hc1 hp hq hpq).contract rfl
theorem ppo_refuses (o : Nat → R) (p q : Int) (hc : toInt (o 0) = .ok p) (hc1 : toInt (o 1) = .ok q)
    (h : p < 1 ∨ q < 2 ∨ q < p) : Refuses ppoBatch o := by
  intro xs
  simp only [ppoBatch, hc, hc1, bind_ok, pure_eq]
  split; · rfl
  split; · rfl
  split; · rfl
  omega

theorem macd_contract (o : Nat → R) (p q r : Nat) (hc : toInt (o 0) = .ok (p : Int))
    (hc1 : toInt (o 1) = .ok (q : Int)) (hc2 : toInt (o 2) = .ok (r : Int)) (hp : 1 ≤ p) (hq : 2 ≤ q)
    (hpq : p ≤ q) (hr : 1 ≤ r) : Contract macdStart macdBatch o (q - 1) :=
  (macd_run o p q r hc hc1 hc2 hp hq hpq hr).contract (macdStart_ok hc1 (by omega))
theorem macd_refuses (o : Nat → R) (p q r : Int) (hc : toInt (o 0) = .ok p) (hc1 : toInt (o 1) = .ok q)
    (hc2 : toInt (o 2) = .ok r) (h : p < 1 ∨ q < 2 ∨ q < p ∨ r < 1) : Refuses macdBatch o := by
  intro xs
  simp only [macdBatch, hc, hc1, hc2, bind_ok, pure_eq]
  split; · rfl
  split; · rfl
  split; · rfl
  split; · rfl
  omega

theorem rmta_contract (o : Nat → R) (p : Nat) (hc : toInt (o 0) = .ok (p : Int)) (hp : 1 ≤ p) :
    Contract rmtaStart rmtaBatch o (p - 1) := (rmta_run o p hc hp).contract (rmtaStart_ok hc hp)
theorem rmta_refuses (o : Nat → R) (p : Int) (hc : toInt (o 0) = .ok p) (hp : p < 1) :
    Refuses rmtaBatch o := by intro xs; simp [rmtaBatch, hc, hp]

end Any

section Field
variable {R : Type} [Field R] [LinearOrder R] [IsStrictOrderedRing R] [CMath R]

/-! ### Values -/

/-- ema: exponential smoothing with coefficient 2/(period+1), seeded with the first input. -/
theorem ema_value (o : Nat → R) (p : Nat) (hc : toInt (o 0) = .ok (p : Int)) (hp : 1 ≤ p) :
    Computes emaBatch o 0 (Spec.ema (emaCoef p)) :=
  (ema_run o p hc hp).congr fun x j => by rw [emaPer_eq, emaRec_eq]

/-- Every value of ema lies between any bounds of the inputs so far. -/
theorem ema_bounds (o : Nat → R) (p : Nat) (hc : toInt (o 0) = .ok (p : Int)) (hp : 1 ≤ p)
    (x : Nat → R) (N : Nat) : ∃ y, emaBatch o (pre x N) = .ok (.okay, pre y N) ∧
      ∀ j, j < N → ∀ lo hi, (∀ k, k ≤ j → lo ≤ x k ∧ x k ≤ hi) → lo ≤ y j ∧ y j ≤ hi := by
  refine ⟨_, ema_value o p hc hp x N, fun j _ lo hi h => ?_⟩
  have hb := emaCoef_bounds (R := R) p hp
  exact ema_bounds_aux hb.1.le hb.2 x lo hi j h

/-- A constant series is reproduced. -/
theorem ema_const (o : Nat → R) (p : Nat) (hc : toInt (o 0) = .ok (p : Int)) (hp : 1 ≤ p) (c : R) (N : Nat) :
    emaBatch o (pre (fun _ => c) N) = .ok (.okay, pre (fun _ => c) N) := by
  rw [ema_value o p hc hp]
  congr 3
  funext j
  induction j with
  | zero => rfl
  | succ j ih => rw [Spec.ema, ih]; ring

/-- dema = 2 ema - ema of the ema, the inner average entering the outer one from bar `period-1` on. -/
theorem dema_value_partial (o : Nat → R) (p : Nat) (hc : toInt (o 0) = .ok (p : Int)) (hp : 1 ≤ p)
    (hb : (p - 1) * 2 ≤ 2147483647) :
    Computes demaBatch o ((p - 1) * 2) (fun x j =>
      let a := emaCoef p
      let e1 := Spec.ema a x
      let e2 := Spec.ema a (shift (p - 1) e1)
      2 * e1 (j + (p - 1) * 2) - e2 (j + (p - 1))) :=
  (dema_run o p hc hp hb).congr fun x j => by
    rw [emaPer_eq, demaE1_eq, show j + (p - 1) * 2 + 1 = (j + (p - 1)) + (p - 1) + 1 by omega, demaE2_eq]
    push_cast; ring

/-- tema = 3 ema - 3 ema(ema) + ema(ema(ema)). -/
theorem tema_value_partial (o : Nat → R) (p : Nat) (hc : toInt (o 0) = .ok (p : Int)) (hp : 1 ≤ p)
    (hb : (p - 1) * 3 ≤ 2147483647) :
    Computes temaBatch o ((p - 1) * 3) (fun x j =>
      let a := emaCoef p
      let e1 := Spec.ema a x
      let e2 := Spec.ema a (shift (p - 1) e1)
      let e3 := Spec.ema a (shift (p - 1) e2)
      3 * e1 (j + (p - 1) * 3) - 3 * e2 (j + (p - 1) * 2) + e3 (j + (p - 1))) :=
  (tema_run o p hc hp hb).congr fun x j => by
    have h2 := demaE2_eq (c! 0) (emaCoef p) p x (j + (p - 1) * 2)
    have h3 := temaE3_eq (c! 0) (emaCoef p) p x (j + (p - 1))
    rw [show j + (p - 1) * 2 + (p - 1) + 1 = j + (p - 1) * 3 + 1 by omega] at h2
    rw [show j + (p - 1) + (p - 1) * 2 + 1 = j + (p - 1) * 3 + 1 by omega] at h3
    rw [emaPer_eq, demaE1_eq, h2, h3]
    push_cast; ring

/-- trix: percentage change of the triple average relative to the new value (0 if that is 0). Period 1 is
excluded: see `trix_period_one`. -/
theorem trix_value_partial (o : Nat → R) (p : Nat) (hc : toInt (o 0) = .ok (p : Int)) (hp : 2 ≤ p)
    (hb : p * 3 ≤ 2147483647) :
    Computes trixBatch o (p * 3 - 2) (fun x j =>
      let a := emaCoef p
      let e3 := Spec.ema a (shift (p - 1) (Spec.ema a (shift (p - 1) (Spec.ema a x))))
      if e3 (j + p) = 0 then 0 else (e3 (j + p) - e3 (j + p - 1)) / e3 (j + p) * 100) :=
  (trix_run o p hc (by omega) hb).congr fun x j => by
    have h := fun i => trixE3_eq (emaCoef p) p hp x i
    have h1 : trixE3 (emaPer (p : Int)) p x (j + (p * 3 - 2)) = Spec.ema (emaCoef p) (shift (p - 1) (Spec.ema (emaCoef p) (shift (p - 1)
        (Spec.ema (emaCoef p) x)))) (j + p) := by
      rw [emaPer_eq, show j + (p * 3 - 2) = (j + p) + (p - 1) * 2 by omega]; exact h (j + p)
    have h2 : trixE3 (emaPer (p : Int)) p x (j + (p * 3 - 2) - 1) = Spec.ema (emaCoef p) (shift (p - 1) (Spec.ema (emaCoef p) (shift (p - 1)
        (Spec.ema (emaCoef p) x)))) (j + p - 1) := by
      rw [emaPer_eq, show j + (p * 3 - 2) - 1 = (j + p - 1) + (p - 1) * 2 by omega]; exact h (j + p - 1)
    simp only [h1, h2]
    simp

/-- zlema: smoothing of `2·x - (x, lag bars ago)`, lag = (period-1)/2, seeded with input `lag-1`. -/
theorem zlema_value_partial (o : Nat → R) (p : Nat) (hc : toInt (o 0) = .ok (p : Int)) (hp : 3 ≤ p) :
    Computes zlemaBatch o ((p - 1) / 2 - 1) (fun x j =>
      let l := (p - 1) / 2
      Spec.ema (emaCoef p) (fun k => if k = 0 then x (l - 1) else 2 * x (k - 1 + l) - x (k - 1)) j) :=
  (zlema_run o p hc hp).congr fun x j => by
    induction j with
    | zero => simp [zlemaRec, Spec.ema]
    | succ j ih => rw [zlemaRec, ih, Spec.ema]; simp [emaPer_eq]; ring

/-- wilders: the mean of the first `period` inputs, then steps of 1/period towards each new input. -/
theorem wilders_value (o : Nat → R) (p : Nat) (hc : toInt (o 0) = .ok (p : Int)) (hp : 1 ≤ p) :
    Computes wildersBatch o (p - 1) (fun x j =>
      Spec.ema (1 / (p : R)) (fun k => if k = 0 then winMean p x 0 else x (k - 1 + p)) j) :=
  (wilders_run o p hc hp).congr fun x j => by
    induction j with
    | zero => simp [wildersRec, Spec.ema, sumTo_eq, winMean, winSum]
    | succ j ih => rw [wildersRec, ih, Spec.ema]; simp; ring

/-- Every value of wilders lies between any bounds of the inputs so far. -/
theorem wilders_bounds (o : Nat → R) (p : Nat) (hc : toInt (o 0) = .ok (p : Int)) (hp : 1 ≤ p)
    (x : Nat → R) (N : Nat) : ∃ y, wildersBatch o (pre x N) = .ok (.okay, pre y (N - (p - 1))) ∧
      ∀ j, ∀ lo hi, (∀ k, k < j + p → lo ≤ x k ∧ x k ≤ hi) → lo ≤ y j ∧ y j ≤ hi := by
  refine ⟨_, wilders_value o p hc hp x N, fun j lo hi h => ?_⟩
  have h1 : (1 : R) ≤ p := by exact_mod_cast hp
  refine ema_bounds_aux (by positivity) (by rw [div_le_one (by linarith)]; exact h1) _ lo hi j ?_
  intro k hk
  rcases Nat.eq_zero_or_pos k with rfl | hk0
  · simpa using mean_bounds x p 0 hp lo hi (fun k _ hk2 => h k (by omega))
  · simpa [show k ≠ 0 by omega] using h (k - 1 + p) (by omega)

/-- apo: short average minus long average, from the second bar on. -/
theorem apo_value (o : Nat → R) (p q : Nat) (hc : toInt (o 0) = .ok (p : Int)) (hc1 : toInt (o 1) = .ok (q : Int))
    (hp : 1 ≤ p) (hq : 2 ≤ q) (hpq : p ≤ q) : Computes apoBatch o 1 (fun x j =>
      Spec.ema (emaCoef p) x (j + 1) - Spec.ema (emaCoef q) x (j + 1)) :=
  (apo_run o p q hc hc1 hp hq hpq).congr fun x j => by simp only [emaPer_eq, emaRec_eq]

/-- ppo: the same difference in percent of the long average (0 if the difference is 0). -/
theorem ppo_value (o : Nat → R) (p q : Nat) (hc : toInt (o 0) = .ok (p : Int)) (hc1 : toInt (o 1) = .ok (q : Int))
    (hp : 1 ≤ p) (hq : 2 ≤ q) (hpq : p ≤ q) : Computes ppoBatch o 1 (fun x j =>
      let s := Spec.ema (emaCoef p) x (j + 1)
      let l := Spec.ema (emaCoef q) x (j + 1)
      if s - l = 0 then 0 else 100 * (s - l) / l) :=
  (ppo_run o p q hc hc1 hp hq hpq).congr fun x j => by simp [emaPer_eq, emaRec_eq]

/-- ppo is 100 · apo / long average wherever that average is not 0. -/
theorem ppo_apo (o : Nat → R) (p q : Nat) (hc : toInt (o 0) = .ok (p : Int)) (hc1 : toInt (o 1) = .ok (q : Int))
    (hp : 1 ≤ p) (hq : 2 ≤ q) (hpq : p ≤ q) (x : Nat → R) (N : Nat) :
    ∃ a b, apoBatch o (pre x N) = .ok (.okay, pre a (N - 1)) ∧ ppoBatch o (pre x N) = .ok (.okay, pre b (N - 1)) ∧
      ∀ j, b j * Spec.ema (emaCoef q) x (j + 1) = 100 * a j ∨ Spec.ema (emaCoef q) x (j + 1) = 0 := by
  refine ⟨_, _, apo_value o p q hc hc1 hp hq hpq x N, ppo_value o p q hc hc1 hp hq hpq x N, fun j => ?_⟩
  by_cases hl : Spec.ema (emaCoef q) x (j + 1) = 0
  · exact .inr hl
  · left
    simp only
    split
    · rename_i h; rw [h]; ring
    · field_simp

/-- The coefficients macd uses: 2/(period+1), except 0.15 and 0.075 for the options 12, 26. -/
def macdCoef (p q : Nat) : R × R :=
  if p = 12 ∧ q = 26 then (3 / 20, 3 / 40) else (emaCoef p, emaCoef q)

/-- macd: short minus long average; signal = average of that line from bar `long-1` on; histogram = line minus
signal. -/
theorem macd_value (o : Nat → R) (p q r : Nat) (hc : toInt (o 0) = .ok (p : Int))
    (hc1 : toInt (o 1) = .ok (q : Int)) (hc2 : toInt (o 2) = .ok (r : Int)) (hp : 1 ≤ p) (hq : 2 ≤ q)
    (hpq : p ≤ q) (hr : 1 ≤ r) : Computes macdBatch o (q - 1) (fun x j =>
      let line := fun i => Spec.ema (macdCoef p q).1 x i - Spec.ema (macdCoef p q).2 x i
      let sig := Spec.ema (emaCoef r) (shift (q - 1) line)
      ⟨line (j + (q - 1)), sig j, line (j + (q - 1)) - sig j⟩) :=
  (macd_run o p q r hc hc1 hc2 hp hq hpq hr).congr fun x j => by
    have hcond : ((p : Int) = 12 ∧ (q : Int) = 26) ↔ (p = 12 ∧ q = 26) := by omega
    have hS : (macdPerS p q : R) = (macdCoef p q).1 := by
      unfold macdPerS macdCoef
      by_cases h : p = 12 ∧ q = 26
      · rw [if_pos (hcond.2 h), if_pos h]; norm_num
      · rw [if_neg (fun h' => h (hcond.1 h')), if_neg h, emaPer_eq]
    have hL : (macdPerL p q : R) = (macdCoef p q).2 := by
      unfold macdPerL macdCoef
      by_cases h : p = 12 ∧ q = 26
      · rw [if_pos (hcond.2 h), if_pos h]; norm_num
      · rw [if_neg (fun h' => h (hcond.1 h')), if_neg h, emaPer_eq]
    have hline : ∀ i, macdLine p q x i = Spec.ema (macdCoef p q).1 x i - Spec.ema (macdCoef p q).2 x i := by
      intro i; rw [macdLine, hS, hL, emaRec_eq, emaRec_eq]
    have hsig : ∀ i, macdSig p q r x i = Spec.ema (emaCoef r) (shift (q - 1)
        (fun i => Spec.ema (macdCoef p q).1 x i - Spec.ema (macdCoef p q).2 x i)) i := by
      intro i
      induction i with
      | zero => simp [macdSig, Spec.ema, hline, shift]
      | succ i ih => rw [macdSig, ih, hline, emaPer_eq, Spec.ema]; simp only [shift]; ring
    simp only [hline, hsig]

end Field

/-- trix violates C13 for period 1: the average of average is not seeded, so the first value is 100 whatever the
change (here 4 → 5, i.e. 20 %). -/
theorem trix_period_one : trixBatch (opts [1]) [4, 5, 10] = .ok (.okay, [100, 50]) ∧
    (5 - 4 : Rat) / 5 * 100 = 20 := by decide +kernel

/- Concrete runs and instances of the hypotheses. -/
example : toInt (opts [3] 0) = .ok ((3 : Nat) : Int) ∧ 1 ≤ 3 ∧ (3 - 1) * 2 ≤ 2147483647 := by decide +kernel
example : emaBatch (opts [3]) [1, 2, 3] = .ok (.okay, [1, 3/2, 9/4]) := by decide +kernel
example : demaBatch (opts [2]) [1, 2, 3] = .ok (.okay, [77/27]) := by decide +kernel
example : (temaBatch (opts [2]) [1, 2, 3, 4, 6]).toOption.isSome := by decide +kernel
example : trixBatch (opts [2]) [1, 1, 1, 1, 4] = .ok (.okay, [800/17]) := by decide +kernel
example : zlemaBatch (opts [3]) [1, 2, 3] = .ok (.okay, [1, 2, 3]) := by decide +kernel
example : wildersBatch (opts [2]) [1, 2, 3] = .ok (.okay, [3/2, 9/4]) := by decide +kernel
example : apoBatch (opts [1, 3]) [1, 2, 3] = .ok (.okay, [1/2, 3/4]) := by decide +kernel
example : ppoBatch (opts [1, 3]) [1, 2, 3] = .ok (.okay, [100/3, 100/3]) := by decide +kernel
example : macdBatch (opts [1, 3, 1]) [1, 2, 3] = .ok (.okay, [⟨3/4, 3/4, 0⟩]) := by decide +kernel
example : rmtaBatch (opts [2, 1/2]) [1, 2] = .ok (.okay, [5/2]) := by decide +kernel
example : toInt (opts [1073741900] 0) = .ok 1073741900 := by decide +kernel

end Verif
