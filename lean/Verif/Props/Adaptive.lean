/-
C26 (psar), C27 (kama, vidya).
-/
import Verif.Proof.Adaptive
import Verif.Proof.WindowField
import Verif.Props.Stats
import Verif.Props.Volume
import Verif.Props.Extremum
import Verif.Spec.Adaptive
import Verif.Core.RatInst
import Verif.Core.RealInst

set_option linter.unusedSectionVars false
set_option linter.unusedSimpArgs false

namespace Verif
open Spec Finset

section Any
variable {R : Type} [Num R]

/-! ### Any arithmetic: contract, refusal -/

theorem psar_contract (o : Nat → R) (h0 : ¬ o 0 ≤ c! 0) (h1 : ¬ o 1 ≤ o 0) : Contract psarStart psarBatch o 1 :=
  (psar_run o h0 h1).contract rfl
theorem psar_refuses (o : Nat → R) (h : o 0 ≤ c! 0 ∨ o 1 ≤ o 0) : Refuses psarBatch o := by
  intro xs
  unfold psarBatch
  by_cases h0 : o 0 ≤ c! 0
  · rw [if_pos h0]; rfl
  · rw [if_neg h0, if_pos (h.resolve_left h0)]; rfl

theorem kama_contract (o : Nat → R) (p : Nat) (hc : toInt (o 0) = .ok (p : Int)) (hp : 1 ≤ p) :
    Contract kamaStart kamaBatch o (p - 1) :=
  (kama_run o p hc hp).contract (by simp only [kamaStart, hc, bind_ok, startM1_ok hc hp])
theorem kama_refuses (o : Nat → R) (p : Int) (hc : toInt (o 0) = .ok p) (hp : p < 1) :
    Refuses kamaBatch o := by intro xs; simp [kamaBatch, hc, hp]

/-- vidya keeps the contract for every size but one: `start` is reported, the right number of values is written and
appending input revises nothing. -/
theorem vidya_contract_partial (o : Nat → R) (s l : Nat) (hs : toInt (o 0) = .ok (s : Int)) (hl : toInt (o 1) = .ok (l : Int))
    (h1 : 1 ≤ s) (h2 : s ≤ l) (h3 : 2 ≤ l) (ha : ¬ (o 2 < c! 0 ∨ c! 1 < o 2)) :
    vidyaStart o = .ok ((l - 2 : Nat) : Int) ∧ ∃ val : (Nat → R) → Nat → R, ∀ (x : Nat → R) (N : Nat), N ≠ l - 1 →
      vidyaBatch o (pre x N) = .ok (.okay, pre (val x) (N - (l - 2))) :=
  ⟨vidyaStart_ok hl h3, _, vidya_run o s l hs hl h1 h2 h3 ha⟩

/-- With exactly `long_period - 1` bars vidya reads one bar past the input. -/
theorem vidya_violates (o : Nat → R) (s l : Nat) (hs : toInt (o 0) = .ok (s : Int)) (hl : toInt (o 1) = .ok (l : Int))
    (h1 : 1 ≤ s) (h2 : s ≤ l) (h3 : 2 ≤ l) (ha : ¬ (o 2 < c! 0 ∨ c! 1 < o 2)) (x : Nat → R) :
    vidyaBatch o (pre x (l - 1)) = .error .oobRead := by
  unfold vidyaBatch
  simp only [hs, hl, bind_ok, vidyaStart_ok hl h3, length_pre, pure_eq]
  rw [if_neg (by omega), if_neg (by omega), if_neg (by omega), if_neg ha, if_neg (by omega)]
  refine bind_err (forUp_err 0 (l - 1) (fun i => (vidS x s l i, mom x l i)) rfl rfl (by omega) (by omega) ?_ ?_)
  · intro i _ hi
    rw [rd_pre_nat _ _ _ (by omega), bind_ok]
    simp only [vidS, mom, slideT, slide, if_pos (show i < l by omega)]
    by_cases h : l - s ≤ i
    · simp only [if_pos h, if_pos (show (l : Int) - s ≤ i by omega)]
    · simp only [if_neg h, if_neg (show ¬ (l : Int) - s ≤ i by omega)]
  · rw [rd_oob _ _ (by right; simp)]; rfl

theorem vidya_refuses (o : Nat → R) (s l : Int) (hs : toInt (o 0) = .ok s) (hl : toInt (o 1) = .ok l)
    (h : s < 1 ∨ l < s ∨ l < 2 ∨ o 2 < c! 0 ∨ c! 1 < o 2) : Refuses vidyaBatch o := by
  intro xs
  unfold vidyaBatch
  simp only [hs, hl, bind_ok, pure_eq]
  by_cases h1 : s < 1
  · rw [if_pos h1]
  by_cases h2 : l < s
  · rw [if_neg h1, if_pos h2]
  by_cases h3 : l < 2
  · rw [if_neg h1, if_neg h2, if_pos h3]
  · rw [if_neg h1, if_neg h2, if_neg h3, if_pos (by tauto)]

end Any

section Field
variable {R : Type} [Field R] [LinearOrder R] [IsStrictOrderedRing R] [CMath R]

/-! ### psar (ordered field) -/

/-- The model's state as the specification's. -/
def Psar.toSar (s : Psar R) : Sar R := ⟨s.lng, s.sar, s.extreme, s.accel⟩

theorem ite_min (a b : R) : (if b < a then b else a) = min a b := by
  split
  · rename_i h; exact (min_eq_right h.le).symm
  · rename_i h; exact (min_eq_left (not_lt.1 h)).symm
theorem ite_max (a b : R) : (if a < b then b else a) = max a b := by
  split
  · rename_i h; exact (max_eq_right h.le).symm
  · rename_i h; exact (max_eq_left (not_lt.1 h)).symm

theorem accel_eq (step top a : R) (P : Prop) [Decidable P] (ha : a ≤ top) (hs : 0 < step) :
    (if a < top ∧ P then (if top < a + step then top else a + step) else a) = if P then min (a + step) top else a := by
  rw [ite_min]
  by_cases hP : P
  · by_cases h : a < top
    · rw [if_pos ⟨h, hP⟩, if_pos hP]
    · obtain rfl : a = top := le_antisymm ha (not_lt.1 h)
      rw [if_neg (by tauto), if_pos hP, min_eq_right (by linarith)]
  · rw [if_neg (by tauto), if_neg hP]

theorem psarNext_eq (step top : R) (hs : 0 < step) (x : Nat → HL R) (i : Nat) (s : Psar R) (ha : s.accel ≤ top) :
    (psarNext step top x i s).toSar = sarBar step top x i s.toSar := by
  have hm : (s.extreme - s.sar) * s.accel + s.sar = s.sar + s.accel * (s.extreme - s.sar) := by ring
  obtain ⟨lng, sar, ext, acc⟩ := s
  simp only at ha hm
  have ea : ∀ P : Prop, [Decidable P] → (if acc < top ∧ P then min (acc + step) top else acc) =
      if P then min (acc + step) top else acc := by
    intro P _
    have := accel_eq step top acc P ha hs
    rwa [ite_min] at this
  cases lng
  · change _ = sarBar step top x i ⟨false, sar, ext, acc⟩
    by_cases h2 : 2 ≤ i <;>
    · simp only [psarNext, sarBar, sarMoved, ite_min, ite_max, hm, Bool.false_eq_true, if_false, false_and, false_or,
        not_false_eq_true, true_and, Bool.not_false, ea, h2, if_true]
      exact apply_ite Psar.toSar _ _ _
  · change _ = sarBar step top x i ⟨true, sar, ext, acc⟩
    by_cases h2 : 2 ≤ i <;>
    · simp only [psarNext, sarBar, sarMoved, ite_min, ite_max, hm, if_true, not_true_eq_false, true_and, false_and,
        or_false, Bool.not_true, ea, h2, if_false]
      exact apply_ite Psar.toSar _ _ _

/-- The acceleration factor stays between `step` and `top`. -/
theorem sarAt_af (step top : R) (hs : 0 < step) (ht : step < top) (x : Nat → HL R) (i : Nat) :
    step ≤ (sarAt step top x i).af ∧ (sarAt step top x i).af ≤ top := by
  induction i with
  | zero => simp only [sarAt]; split <;> exact ⟨le_rfl, ht.le⟩
  | succ i ih =>
    have h : step ≤ min ((sarAt step top x i).af + step) top ∧ min ((sarAt step top x i).af + step) top ≤ top :=
      ⟨le_min (by linarith [ih.1]) ht.le, min_le_right _ _⟩
    simp only [sarAt, sarBar]
    split
    · split
      · exact ⟨le_rfl, ht.le⟩
      · simp only; split
        · exact h
        · exact ih
    · split
      · exact ⟨le_rfl, ht.le⟩
      · simp only; split
        · exact h
        · exact ih

theorem psarSt_eq (step top : R) (hs : 0 < step) (ht : step < top) (x : Nat → HL R) (i : Nat) :
    (psarSt step top x i).toSar = sarAt step top x i := by
  induction i with
  | zero => simp only [psarSt, psarInit, sarAt]; split <;> rfl
  | succ i ih =>
    have := (sarAt_af step top hs ht x i).2
    rw [← ih] at this
    rw [psarSt, psarNext_eq _ _ hs _ _ _ this, ih, sarAt]

/-- psar: Wilder's parabolic stop-and-reverse. -/
theorem psar_value (o : Nat → R) (h0 : 0 < o 0) (h1 : o 0 < o 1) :
    Computes psarBatch o 1 (fun x j => (sarAt (o 0) (o 1) x (j + 1)).stop) :=
  (psar_run o (by simpa using h0) (not_le.2 h1)).congr fun x j => by rw [← psarSt_eq _ _ h0 h1]; rfl

/-- The stop is below the current and previous bar in an up trend, above them in a down trend, and the extreme point
beyond the current bar. -/
def SarOk (x : Nat → HL R) (i : Nat) (s : Sar R) : Prop :=
  (s.up = true → s.stop ≤ (x i).low ∧ s.stop ≤ (x (i - 1)).low ∧ (x i).high ≤ s.ep) ∧
  (s.up = false → (x i).high ≤ s.stop ∧ (x (i - 1)).high ≤ s.stop ∧ s.ep ≤ (x i).low)

theorem sarAt_ok (step top : R) (x : Nat → HL R) (i : Nat) : SarOk x i (sarAt step top x i) := by
  induction i with
  | zero => simp only [sarAt]; split <;> simp [SarOk]
  | succ i ih =>
    simp only [sarAt, sarBar]
    cases hu : (sarAt step top x i).up
    · obtain ⟨h1, h2, h3⟩ := ih.2 hu
      simp only [Bool.false_eq_true, if_false]
      split
      · simp only [SarOk, Nat.add_sub_cancel, le_refl, forall_const, Bool.true_eq_false, IsEmpty.forall_iff, and_true]
        exact ⟨min_le_right _ _, (min_le_left _ _).trans h3⟩
      · rename_i h
        simp only [SarOk, Nat.add_sub_cancel, Bool.false_eq_true, IsEmpty.forall_iff, true_and, forall_const]
        refine ⟨not_lt.1 h, ?_, min_le_right _ _⟩
        simp only [sarMoved, hu, Bool.false_eq_true, if_false, Nat.add_sub_cancel]
        split <;> exact le_max_right _ _
    · obtain ⟨h1, h2, h3⟩ := ih.1 hu
      simp only [if_true]
      split
      · simp only [SarOk, Nat.add_sub_cancel, le_refl, forall_const, Bool.false_eq_true, IsEmpty.forall_iff, and_true, true_and]
        exact ⟨le_max_right _ _, h3.trans (le_max_left _ _)⟩
      · rename_i h
        simp only [SarOk, Nat.add_sub_cancel, Bool.true_eq_false, IsEmpty.forall_iff, and_true, forall_const]
        refine ⟨not_lt.1 h, ?_, le_max_right _ _⟩
        simp only [sarMoved, hu, if_true, Nat.add_sub_cancel]
        split <;> exact min_le_right _ _

theorem sar_step_up (step top : R) (hs : 0 < step) (ht : step < top) (x : Nat → HL R) (hx : ∀ i, (x i).low ≤ (x i).high) (i : Nat)
    (h0 : (sarAt step top x (i + 1)).up = true) (h1 : (sarAt step top x (i + 2)).up = true) :
    (sarAt step top x (i + 1)).stop ≤ (sarAt step top x (i + 2)).stop ∧ (sarAt step top x (i + 2)).stop ≤ (x i).low := by
  obtain ⟨a1, a2, a3⟩ := (sarAt_ok step top x (i + 1)).1 h0
  have haf := (sarAt_af step top hs ht x (i + 1)).1
  have key : sarAt step top x (i + 2) = sarBar step top x (i + 2) (sarAt step top x (i + 1)) := rfl
  rw [key, sarBar] at h1 ⊢
  simp only [h0, if_true] at h1 ⊢
  split at h1
  · simp at h1
  · rename_i h
    rw [if_neg h]
    simp only [sarMoved, h0, if_true, show 2 ≤ i + 2 by omega, show i + 2 - 2 = i by omega, show i + 2 - 1 = i + 1 by omega]
    simp only [Nat.add_sub_cancel] at a2
    refine ⟨le_min (le_min ?_ a2) a1, (min_le_left _ _).trans (min_le_right _ _)⟩
    nlinarith [hx (i + 1)]

theorem sar_step_down (step top : R) (hs : 0 < step) (ht : step < top) (x : Nat → HL R) (hx : ∀ i, (x i).low ≤ (x i).high) (i : Nat)
    (h0 : (sarAt step top x (i + 1)).up = false) (h1 : (sarAt step top x (i + 2)).up = false) :
    (sarAt step top x (i + 2)).stop ≤ (sarAt step top x (i + 1)).stop ∧ (x i).high ≤ (sarAt step top x (i + 2)).stop := by
  obtain ⟨a1, a2, a3⟩ := (sarAt_ok step top x (i + 1)).2 h0
  have haf := (sarAt_af step top hs ht x (i + 1)).1
  have key : sarAt step top x (i + 2) = sarBar step top x (i + 2) (sarAt step top x (i + 1)) := rfl
  rw [key, sarBar] at h1 ⊢
  simp only [h0, if_false, Bool.false_eq_true] at h1 ⊢
  split at h1
  · simp at h1
  · rename_i h
    rw [if_neg h]
    simp only [sarMoved, h0, if_false, Bool.false_eq_true, if_true, show 2 ≤ i + 2 by omega, show i + 2 - 2 = i by omega, show i + 2 - 1 = i + 1 by omega]
    simp only [Nat.add_sub_cancel] at a2
    refine ⟨max_le (max_le ?_ a2) a1, (le_max_right _ _).trans (le_max_left _ _)⟩
    nlinarith [hx (i + 1)]

/-- Every psar value lies on one side of its bar and of the bar before: below both in an up trend, above both in a down
trend (value `j` belongs to bar `j + 1`). While a trend lasts the values move with it, and the one after the next bar
also stays clear of the bar two back. -/
theorem psar_side (o : Nat → R) (h0 : 0 < o 0) (h1 : o 0 < o 1) (x : Nat → HL R) (hx : ∀ i, (x i).low ≤ (x i).high) (N : Nat) :
    ∃ (y : Nat → R) (up : Nat → Bool), psarBatch o (pre x N) = .ok (.okay, pre y (N - 1)) ∧ ∀ j,
      (up j = true → y j ≤ (x (j + 1)).low ∧ y j ≤ (x j).low) ∧
      (up j = false → (x (j + 1)).high ≤ y j ∧ (x j).high ≤ y j) ∧
      (up j = true → up (j + 1) = true → y j ≤ y (j + 1) ∧ y (j + 1) ≤ (x j).low) ∧
      (up j = false → up (j + 1) = false → y (j + 1) ≤ y j ∧ (x j).high ≤ y (j + 1)) := by
  refine ⟨_, fun j => (sarAt (o 0) (o 1) x (j + 1)).up, psar_value o h0 h1 x N, fun j => ⟨fun h => ?_, fun h => ?_, fun h h' => ?_, fun h h' => ?_⟩⟩
  · have := (sarAt_ok (o 0) (o 1) x (j + 1)).1 h
    exact ⟨this.1, this.2.1⟩
  · have := (sarAt_ok (o 0) (o 1) x (j + 1)).2 h
    exact ⟨this.1, this.2.1⟩
  · exact sar_step_up _ _ h0 h1 x hx j h h'
  · exact sar_step_down _ _ h0 h1 x hx j h h'

/-! ### kama, vidya (ordered field) -/

theorem kamaSum_eq [LawfulAbs R] (x : Nat → R) (p j : Nat) :
    slide (absMove x) p (j + p) = ∑ k ∈ range p, |x (j + k + 1) - x (j + k)| := by
  rw [slide_eq]; simp only [winSum, absMove, LawfulAbs.fabs_eq]

/-- kama: Kaufman's adaptive moving average. -/
theorem kama_value [LawfulAbs R] [LawfulPow R] (o : Nat → R) (p : Nat) (hc : toInt (o 0) = .ok (p : Int)) (hp : 1 ≤ p) :
    Computes kamaBatch o (p - 1) (Spec.kama p) :=
  (kama_run o p hc hp).congr fun x j => by
    induction j with
    | zero => rfl
    | succ j ih =>
      rw [kamaRec, ih, Spec.kama]
      congr 2
      have e : (((2 : Int) : R)) = 2 := by norm_num
      simp only [kamaSc, kamaSum_eq, LawfulAbs.fabs_eq, e, LawfulPow.pow_two, effRatio]
      by_cases h : ∑ k ∈ range p, |x (j + k + 1) - x (j + k)| = 0
      · rw [if_pos (by simpa using h), if_pos h]; norm_num
      · rw [if_neg (by simpa using h), if_neg h]; norm_num

theorem effRatio_bounds (p : Nat) (x : Nat → R) (j : Nat) : 0 ≤ effRatio p x j ∧ effRatio p x j ≤ 1 := by
  unfold effRatio
  have hs : 0 ≤ ∑ k ∈ range p, |x (j + k + 1) - x (j + k)| := sum_nonneg fun _ _ => abs_nonneg _
  split
  · exact ⟨zero_le_one, le_rfl⟩
  · refine ⟨div_nonneg (abs_nonneg _) hs, div_le_one_of_le₀ ?_ hs⟩
    have := path_bound x j (j + p) (by omega)
    rwa [sum_Ico_eq_sum_range, Nat.add_sub_cancel_left] at this

/-- kama stays between the extremes of the bars seen so far. -/
theorem kama_bounds [LawfulAbs R] [LawfulPow R] (o : Nat → R) (p : Nat) (hc : toInt (o 0) = .ok (p : Int)) (hp : 1 ≤ p)
    (x : Nat → R) (N : Nat) : ∃ y, kamaBatch o (pre x N) = .ok (.okay, pre y (N - (p - 1))) ∧
      ∀ (j : Nat) (lo hi : R), (∀ k, k < j + p → lo ≤ x k ∧ x k ≤ hi) → lo ≤ y j ∧ y j ≤ hi := by
  refine ⟨_, kama_value o p hc hp x N, fun j lo hi h => ?_⟩
  induction j with
  | zero => exact h (p - 1) (by omega)
  | succ j ih =>
    obtain ⟨e0, e1⟩ := effRatio_bounds p x j
    have w0 : (0 : R) ≤ effRatio p x j * (2 / 3 - 2 / 31) + 2 / 31 := by
      have : (0 : R) ≤ 2 / 3 - 2 / 31 := by norm_num
      have := mul_nonneg e0 this
      have : (0 : R) ≤ 2 / 31 := by norm_num
      linarith
    have w1 : effRatio p x j * (2 / 3 - 2 / 31) + 2 / 31 ≤ (1 : R) := by
      have : (0 : R) ≤ 2 / 3 - 2 / 31 := by norm_num
      have := mul_le_mul_of_nonneg_right e1 this
      have : (1 : R) * (2 / 3 - 2 / 31) + 2 / 31 ≤ 1 := by norm_num
      linarith
    exact convex_bounds (sq_nonneg _) (pow_le_one₀ w0 w1) (ih fun k hk => h k (by omega)) (h (j + p) (by omega))

theorem vidyaRec_eq [LawfulSqrt R] (s l : Nat) (h1 : 1 ≤ s) (h2 : s ≤ l) (alpha : R) (x : Nat → R) (j : Nat) :
    vidyaRec s l alpha x j = Spec.vidya s l alpha x j := by
  induction j with
  | zero => rfl
  | succ j ih =>
    rw [vidyaRec, ih, Spec.vidya]
    have e1 : (vidS x s l (j + l)).2 * (((1 : Int) : R) / ((s : Int) : R)) -
        (vidS x s l (j + l)).1 * (((1 : Int) : R) / ((s : Int) : R)) * ((vidS x s l (j + l)).1 * (((1 : Int) : R) / ((s : Int) : R))) =
        winVar s x (j + (l - s)) := by
      rw [← momVar_eq x s h1, momVar]
      simp only [vidS, mom, slideT_eq _ s l h2, slide_eq]
    have e2 : (mom x l (j + l)).2 * (((1 : Int) : R) / ((l : Int) : R)) -
        (mom x l (j + l)).1 * (((1 : Int) : R) / ((l : Int) : R)) * ((mom x l (j + l)).1 * (((1 : Int) : R) / ((l : Int) : R))) =
        winVar l x j := by
      rw [← momVar_eq x l (by omega), momVar]
    simp only [vidyaNext]
    rw [e1, e2]
    simp only [beq_self_eq_true, if_true, vidyaWeight]
    by_cases h : CMath.sqrt (winVar s x (j + (l - s))) = 0
    · rw [h]; simp
    · rw [if_neg (by simpa using h)]; ring

/-- vidya, for every size other than `long_period - 1`. -/
theorem vidya_value_partial [LawfulSqrt R] (o : Nat → R) (s l : Nat) (hs : toInt (o 0) = .ok (s : Int)) (hl : toInt (o 1) = .ok (l : Int))
    (h1 : 1 ≤ s) (h2 : s ≤ l) (h3 : 2 ≤ l) (ha : 0 ≤ o 2) (ha' : o 2 ≤ 1) (x : Nat → R) (N : Nat) (hN : N ≠ l - 1) :
    vidyaBatch o (pre x N) = .ok (.okay, pre (Spec.vidya s l (o 2) x) (N - (l - 2))) := by
  rw [vidya_run o s l hs hl h1 h2 h3 (by simp; exact ⟨ha, ha'⟩) x N hN]
  congr 3; funext j; exact vidyaRec_eq s l h1 h2 _ x j

/-- vidya stays between the extremes of the bars seen as long as `alpha` times the short deviation does not exceed the
long one — which the code does not ensure, see `vidya_bounds_violates`. -/
theorem vidya_bounds_partial [LawfulSqrt R] (o : Nat → R) (s l : Nat) (hs : toInt (o 0) = .ok (s : Int)) (hl : toInt (o 1) = .ok (l : Int))
    (h1 : 1 ≤ s) (h2 : s ≤ l) (h3 : 2 ≤ l) (ha : 0 ≤ o 2) (ha' : o 2 ≤ 1) (x : Nat → R) (N : Nat) (hN : N ≠ l - 1)
    (hw : ∀ j, CMath.sqrt (winVar s x (j + (l - s))) * o 2 ≤ CMath.sqrt (winVar l x j)) :
    ∃ y, vidyaBatch o (pre x N) = .ok (.okay, pre y (N - (l - 2))) ∧
      ∀ (j : Nat) (lo hi : R), (∀ k, k < j + l - 1 → lo ≤ x k ∧ x k ≤ hi) → lo ≤ y j ∧ y j ≤ hi := by
  refine ⟨_, vidya_value_partial o s l hs hl h1 h2 h3 ha ha' x N hN, fun j lo hi h => ?_⟩
  induction j with
  | zero => exact h (l - 2) (by omega)
  | succ j ih =>
    have n1 := LawfulSqrt.sqrt_nonneg _ (winVar_nonneg x s (j + (l - s)))
    have n2 := LawfulSqrt.sqrt_nonneg _ (winVar_nonneg x l j)
    have w0 : 0 ≤ vidyaWeight s l (o 2) x j := mul_nonneg (div_nonneg n1 n2) ha
    have w1 : vidyaWeight s l (o 2) x j ≤ 1 := by
      unfold vidyaWeight
      rw [div_mul_eq_mul_div]
      exact div_le_one_of_le₀ (hw j) n2
    exact convex_bounds w0 w1 (ih fun k hk => h k (by omega)) (h (j + l - 1) (by omega))

end Field

/-- Six bars at 2, then 0, then 4: vidya 2/8/1 jumps to 8, twice the largest price. -/
theorem vidya_bounds_violates : vidyaBatch (opts [2, 8, 1]) [2, 2, 2, 2, 2, 2, 0, 4] = .ok (.okay, [0, 8]) := by decide +kernel

/- Concrete runs and instances of the hypotheses. -/
example : psarBatch (opts [1/10, 1/5]) [⟨2, 1⟩, ⟨3, 2⟩, ⟨4, 3⟩, ⟨3, 0⟩, ⟨2, 0⟩] = .ok (.okay, [1, 1, 4, 4]) := by decide +kernel
example : 0 < opts [1/10, 1/5] 0 ∧ opts [1/10, 1/5] 0 < opts [1/10, 1/5] 1 := by decide +kernel
example : kamaBatch (opts [2]) [1, 3, 2, 2] = .ok (.okay, [3, 3 - (2/31 + (1/3) * (2/3 - 2/31))^2,
    let k : ℚ := 3 - (2/31 + (1/3) * (2/3 - 2/31))^2; k + (2/3)^2 * (2 - k)]) := by decide +kernel
example : vidyaBatch (opts [2, 3, 1/2]) [1, 5] = .error .oobRead := by decide +kernel
example : vidyaBatch (opts [2, 2, 1/2]) [1, 5, 9] = .ok (.okay, [1, 3, 6]) := by decide +kernel
/-- `ℝ` satisfies the assumptions about `fabs`, `pow` and `sqrt`. -/
example : LawfulAbs ℝ ∧ LawfulPow ℝ ∧ LawfulSqrt ℝ := ⟨inferInstance, inferInstance, inferInstance⟩

end Verif
